import Verif.Frm.Theorems
import Verif.Context.TheoremsProgress
import Verif.Valid.Json

/-! The reCAPTCHA middleware: `src/qbm/http/middleware/recaptcha.h` 358-632, `recaptcha.cpp` 17-24, on top of the models of the context (`Verif.Context`) and of forms (`Verif.Frm`).

Other libraries are parameters (`Ext`): JSON parsing, the conversion of a JSON number to `float`, the percent-encoding. The minimum score is a finite `float`. Bodies of error responses and their texts, the list of error codes and the time of the challenge are left out. -/

namespace Verif.Cap

open Verif.Context (Ctx Act step run)
open Verif.Valid (Json)

/-- `RecaptchaOptions::TokenLocation`, recaptcha.h 51-55. -/
inductive Loc | header | body | query
deriving DecidableEq

/-- `RecaptchaOptions::ChallengeType`, recaptcha.h 57-61. -/
inductive Kind | auto | v2 | v3
deriving DecidableEq

/-- `RecaptchaOptions`, recaptcha.h 224-230. -/
structure Opts where
  secret : Bytes
  minScore : Rat := 1/2
  loc : Loc := .body
  kind : Kind := .auto
  field : Bytes := b!"g-recaptcha-response"

/-- What other libraries do: `qb::json::parse` (`none`: it throws), `get<float>()`, `qb::io::uri::encode` and `decode`. -/
structure Ext where
  parse : Bytes → Option Json
  toFloat : Json → Rat
  codec : Frm.Codec

/-- What the middleware looks at in a request: `header(name)`, `query(name)` (empty if missing), the body. -/
structure Rq where
  header : Bytes → Bytes := fun _ => []
  query : Bytes → Bytes := fun _ => []
  body : Bytes := []

/-- The first half of the `Body` case, recaptcha.h 505-515. -/
def jsonToken (x : Ext) (o : Opts) (r : Rq) : Option Bytes :=
  if r.body = [] then none
  else match x.parse r.body with
    | some (.obj m) => match Valid.get m o.field with
      | some (.str t) => some t
      | _ => none
    | _ => none

/-- The second half, recaptcha.h 516-526. -/
def formToken (x : Ext) (o : Opts) (r : Rq) : Option Bytes :=
  if r.body = [] then none
  else match Frm.getFirst (Frm.read x.codec r.body) o.field with
    | some t => if t = [] then none else some t
    | none => none

/-- `extract_token_from_request`, recaptcha.h 496-534. -/
def extract (x : Ext) (o : Opts) (r : Rq) : Option Bytes :=
  match o.loc with
  | .header => if r.header o.field = [] then none else some (r.header o.field)
  | .body => match jsonToken x o r with
    | some t => some t
    | none => formToken x o r
  | .query => if r.query o.field = [] then none else some (r.query o.field)

/-- `build_recaptcha_verification_body`, recaptcha.cpp 18-24. -/
def build (c : Frm.Codec) (secret response : Bytes) (ip : Option Bytes) : Bytes :=
  b!"secret=" ++ c.enc secret ++ b!"&response=" ++ c.enc response ++
    (match ip with
      | some a => if a = [] then [] else b!"&remoteip=" ++ c.enc a
      | none => [])

/-- `RecaptchaResult`, recaptcha.h 234-245. -/
structure Verdict where
  success : Bool := false
  score : Rat := 0
  hasScore : Bool := false
  action : Bytes := []
  hostname : Bytes := []

/-- The answer of the verification service. -/
structure Reply where
  status : Nat
  body : Bytes

/-- `is_number()`. -/
def isNumber : Json → Bool
  | .int _ | .uint _ | .flt _ => true
  | _ => false

def strField (m : List (Bytes × Json)) (k : Bytes) : Bytes :=
  match Valid.get m k with
  | some (.str s) => s
  | _ => []

/-- `parse_google_recaptcha_response`, recaptcha.h 540-585. `value("success", false)` of something that is no object throws, as it does of a member that is no boolean; then `success` is false and nothing else is set. -/
def parseReply (x : Ext) (p : Reply) : Verdict :=
  if p.status ≠ 200 then {}
  else match x.parse p.body with
    | some (.obj m) =>
      match (Valid.get m b!"success").getD (.bool false) with
      | .bool s =>
        let v : Verdict := { success := s, action := strField m b!"action", hostname := strField m b!"hostname" }
        match Valid.get m b!"score" with
        | some n => if isNumber n then { v with score := x.toFloat n, hasScore := true } else v
        | none => v
      | _ => {}
    | _ => {}

/-- The condition of recaptcha.h 431, with the four above it. -/
def refuses (o : Opts) (v : Verdict) : Bool :=
  let scoreRequired := o.kind == .v3
  let scoreEnforced := o.kind != .v2 && v.hasScore
  let missing := scoreRequired && !v.hasScore
  let below := scoreEnforced && decide (v.score < o.minScore)
  !v.success || missing || below

/-- `set_error_response`, recaptcha.h 590-601. -/
def refuse (n : Nat) (c : Ctx) : Ctx := step (step c (.setStatus n)) (.complete .complete)

/-- `process` up to the verification request, recaptcha.h 385-413: the context, and the body that is sent. -/
def process (x : Ext) (o : Opts) (r : Rq) (c : Ctx) : Ctx × Option Bytes :=
  match extract x o r with
  | none => (refuse 400 c, none)
  | some t => if t = [] then (refuse 400 c, none) else (c, some (build x.codec o.secret t none))

/-- The completion callback, recaptcha.h 415-447. -/
def onReply (x : Ext) (o : Opts) (p : Reply) (c : Ctx) : Ctx :=
  if c.cancelled || c.state == .finalised then c
  else if refuses o (parseReply x p) then refuse 403 c
  else step c (.complete .continue)

end Verif.Cap
