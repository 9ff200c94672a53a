import Verif.Utility.Model

/-! # Authentication: `auth/manager.cpp`, `auth/options.cpp`, `auth/user.cpp`, `middleware/auth.h`, `middleware/jwt.h`

Conventions and simplifications.

* `qb::json` is nlohmann's JSON: the type `J`. Integers are what its parser stores: `-2^63 ≤ i < 2^64`; `is_number_integer()` holds
  for signed and unsigned ones and `get<int64_t>()` wraps. Floating-point numbers are opaque except for their truncation.
* `json::parse`, `dump`, `qb::jwt::create`, `qb::jwt::verify`, `qb::jwt::decode`, `qb::jwt::algorithm_from_string`,
  `qb::to_number` are external (`Ext`): nothing is assumed about them but what a theorem says.
* Objects are association lists in which the first entry for a key counts.
* The clock is a parameter. Context variables are `Ctx`: the value stored under the middleware's user key (if it has type `User`)
  and the value stored under `jwt_payload` (if it has type `json`); the two keys differ. -/

namespace Verif.Auth
open Verif.Utility

/-- `qb::json`. -/
inductive J
  | null
  | bool (b : Bool)
  | num (i : Int)
  | float (finite : Bool) (trunc : Int)
  | str (s : Bytes)
  | arr (l : List J)
  | obj (l : List (Bytes × J))

/-- An object member: `contains` and `[]`. -/
def member (k : Bytes) : List (Bytes × J) → Option J
  | [] => none
  | (n, v) :: l => if n == k then some v else member k l

/-- `payload[key]` of a JSON value; anything but an object has no members. -/
def J.get (j : J) (k : Bytes) : Option J := match j with
  | .obj l => member k l
  | _ => none

def J.isObj : J → Bool
  | .obj _ => true
  | _ => false

/-- `auth::Options::Algorithm`, options.h 41-52. -/
inductive Alg
  | hs256 | hs384 | hs512 | rs256 | rs384 | rs512 | es256 | es384 | es512 | eddsa
deriving DecidableEq

/-- `Options::algorithm_from_string`, options.cpp 22-44. -/
def algOf (s : Bytes) : Option Alg :=
  if iequals s b!"HS256" then some .hs256
  else if iequals s b!"HS384" then some .hs384
  else if iequals s b!"HS512" then some .hs512
  else if iequals s b!"RS256" then some .rs256
  else if iequals s b!"RS384" then some .rs384
  else if iequals s b!"RS512" then some .rs512
  else if iequals s b!"ES256" then some .es256
  else if iequals s b!"ES384" then some .es384
  else if iequals s b!"ES512" then some .es512
  else if iequals s b!"EdDSA" then some .eddsa
  else none

/-- Secret-key algorithms, manager.cpp 201-202, 301-302. -/
def Alg.isHmac : Alg → Bool
  | .hs256 | .hs384 | .hs512 => true
  | _ => false

/-- `auth::Options`, options.h 54-79. -/
structure Options where
  secretKey : Bytes := []
  publicKey : Bytes := []
  privateKey : Bytes := []
  alg : Alg := .hs256
  expiration : Int := 3600
  skew : Int := 0
  issuer : Bytes := []
  audience : Bytes := []
  headerName : Bytes := b!"Authorization"
  scheme : Bytes := b!"Bearer"
  requireSignature : Bool := true
  verifyExp : Bool := true
  verifyNbf : Bool := true
  verifyIss : Bool := false
  verifyAud : Bool := false

/-- `qb::jwt::VerifyOptions`, as filled in by manager.cpp 263-320 and jwt.h 377-403. -/
structure VerifyOptions where
  alg : Alg
  key : Bytes
  verifyExp : Bool
  verifyNbf : Bool
  skew : Int
  issuer : Option Bytes := none
  audience : Option Bytes := none
  subject : Option Bytes := none
deriving DecidableEq

/-- `qb::jwt::CreateOptions`. -/
structure CreateOptions where
  alg : Alg
  key : Bytes

/-- What `qb::jwt::verify` may find wrong, jwt.h 466-494. -/
inductive VerifyError
  | format | signature | expired | notActive | issuer | audience | subject | claim | other

/-- External functions. `verify` depends on the clock. -/
structure Ext where
  parse : Bytes → Option J
  dump : J → Bytes
  create : List (Bytes × Bytes) → CreateOptions → Bytes
  verify : Int → Bytes → VerifyOptions → Except VerifyError (List (Bytes × Bytes))
  decode : Bytes → Option Bytes
  jwtAlg : Bytes → Option Alg
  toInt : Bytes → Option Int
  toDouble : Bytes → Option (Bool × Int)

/-- `auth::User`, user.h 33-41. -/
structure User where
  id : Bytes := []
  username : Bytes := []
  roles : List Bytes := []
  metadata : List (Bytes × Bytes) := []
deriving DecidableEq

/-- `has_role`, user.h 48-51. -/
def User.hasRole (u : User) (r : Bytes) : Bool := u.roles.contains r

/-- `has_any_role`, user.cpp 20-32. -/
def User.hasAny (u : User) (rs : List Bytes) : Bool := if rs.isEmpty then false else rs.any u.hasRole

/-- `has_all_roles`, user.cpp 34-46. -/
def User.hasAll (u : User) (rs : List Bytes) : Bool := if rs.isEmpty then true else rs.all u.hasRole

/-! ## Token in a header -/

/-- `" \t\n\r\f\v"`, manager.cpp 220. -/
def ws6 (c : UInt8) : Bool := c == 32 || c == 9 || c == 10 || c == 13 || c == 12 || c == 11

/-- `find_last_not_of` and `substr(0, …)`: the string without trailing characters of the class. -/
def dropEnd (p : UInt8 → Bool) (s : Bytes) : Bytes := (s.reverse.dropWhile p).reverse

/-- `extract_token_from_header`, manager.cpp 218-256; the empty string for "no token". -/
def extractHeader (scheme header : Bytes) : Bytes :=
  let view := header.dropWhile ws6
  if view.isEmpty then []
  else if view.length < scheme.length + 2 then []
  else if !iequals (view.take scheme.length) scheme then []
  else if !ws6 (view.getD scheme.length 0) then []
  else
    let rest := (view.drop scheme.length).dropWhile ws6
    if rest.isEmpty then [] else dropEnd ws6 rest

/-! ## Claims -/

/-- `static_cast<int64_t>` of a stored integer. -/
def wrap64 (i : Int) : Int := if i ≥ 9223372036854775808 then i - 18446744073709551616 else i

/-- The digits of `std::from_chars`. -/
def digits : Bytes → Nat → Option Nat
  | [], n => some n
  | c :: s, n => if 48 ≤ c && c ≤ 57 then digits s (n * 10 + (c.toNat - 48)) else none

/-- `std::from_chars` of an `int64_t` that uses up the string. -/
def fromChars (s : Bytes) : Option Int :=
  match s with
  | [] => none
  | c :: t =>
    if c == 45 then
      (if t.isEmpty then none else match digits t 0 with
        | some n => if n ≤ 9223372036854775808 then some (-(n : Int)) else none
        | none => none)
    else match digits s 0 with
      | some n => if n ≤ 9223372036854775807 then some n else none
      | none => none

/-- `parse_time_claim_as_int64`, manager.cpp 68-92. (The unsigned branch, 73-79, is never reached: `is_number_integer` comes first.) -/
def timeClaim : J → Option Int
  | .num i => some (wrap64 i)
  | .str s => fromChars s
  | _ => none

/-- Replacing or adding a member. -/
def setMember (l : List (Bytes × J)) (k : Bytes) (v : J) : List (Bytes × J) := (k, v) :: l.filter (fun p => p.1 != k)

/-- `create_payload_json`, manager.cpp 96-133 (both clock readings are the same). -/
def payloadOf (o : Options) (now : Int) (u : User) : List (Bytes × J) :=
  [(b!"sub", J.str u.id), (b!"iat", J.num now)]
  ++ (if o.verifyExp then [(b!"exp", J.num (now + o.expiration))] else [])
  ++ (if o.verifyIss then [(b!"iss", J.str o.issuer)] else [])
  ++ (if o.verifyAud then [(b!"aud", J.str o.audience)] else [])
  ++ [(b!"username", J.str u.username), (b!"roles", J.arr (u.roles.map J.str))]
  ++ (if u.metadata.isEmpty then [] else [(b!"metadata", J.obj (u.metadata.map (fun p => (p.1, J.str p.2))))])

/-- A claim as a string, manager.cpp 152-158. -/
def flat (x : Ext) (v : J) : Bytes := match v with
  | .str s => s
  | v => x.dump v

/-- `generate_token`, manager.cpp 143-212. -/
def generate (x : Ext) (o : Options) (now : Int) (u : User) : Bytes :=
  x.create ((payloadOf o now u).map (fun p => (p.1, flat x p.2)))
    { alg := o.alg, key := if o.alg.isHmac then o.secretKey else o.privateKey }

/-- The options for the library, manager.cpp 263-320. -/
def verifyOptions (o : Options) : VerifyOptions where
  alg := o.alg
  key := if o.alg.isHmac then o.secretKey else o.publicKey
  verifyExp := o.verifyExp
  verifyNbf := o.verifyNbf
  skew := o.skew
  issuer := if o.verifyIss then some o.issuer else none
  audience := if o.verifyAud then some o.audience else none

/-- The claims of a verified token, manager.cpp 327-334. -/
def parsedClaims (x : Ext) (m : List (Bytes × Bytes)) : List (Bytes × J) :=
  m.map (fun p => (p.1, match x.parse p.2 with | some j => j | none => .str p.2))

/-- `exp`, manager.cpp 345-356: whether it is acceptable. -/
def expOk (o : Options) (now : Int) (p : List (Bytes × J)) : Bool :=
  if o.verifyExp then
    match member b!"exp" p with
    | none => true
    | some c => match timeClaim c with
      | none => false
      | some e => !decide (now - o.skew > e)
  else true

/-- `nbf`, manager.cpp 358-367. -/
def nbfOk (o : Options) (now : Int) (p : List (Bytes × J)) : Bool :=
  if o.verifyNbf then
    match member b!"nbf" p with
    | none => true
    | some c => match timeClaim c with
      | none => false
      | some n => !decide (now + o.skew < n)
  else true

/-- `iss`, manager.cpp 369-374. -/
def issOk (o : Options) (p : List (Bytes × J)) : Bool :=
  if o.verifyIss then
    match member b!"iss" p with
    | some (.str s) => s == o.issuer
    | _ => false
  else true

/-- One element of an `aud` array, manager.cpp 387. -/
def isAud (a : Bytes) : J → Bool
  | .str s => s == a
  | _ => false

/-- `aud`, manager.cpp 376-398. -/
def audOk (o : Options) (p : List (Bytes × J)) : Bool :=
  if o.verifyAud then
    match member b!"aud" p with
    | some (.str s) => s == o.audience
    | some (.arr l) => l.any (isAud o.audience)
    | _ => false
  else true

/-- A string member, manager.cpp 405-411. -/
def strMember (k : Bytes) (p : List (Bytes × J)) : Bytes := match member k p with
  | some (.str s) => s
  | _ => []

/-- The roles up to the first that is not a string (the exception keeps what was pushed), manager.cpp 422-431. -/
def rolesUntil : List J → List Bytes
  | .str s :: l => s :: rolesUntil l
  | _ => []

/-- Roles, manager.cpp 418-431. -/
def claimRoles (x : Ext) (p : List (Bytes × J)) : List Bytes :=
  match member b!"roles" p with
  | none => []
  | some c =>
    match (match c with | .str s => x.parse s | c => some c) with
    | some (.arr l) => rolesUntil l
    | _ => []

/-- Metadata, manager.cpp 433-451. -/
def claimMeta (x : Ext) (p : List (Bytes × J)) : List (Bytes × Bytes) :=
  match member b!"metadata" p with
  | none => []
  | some c =>
    match (match c with | .str s => x.parse s | c => some c) with
    | some (.obj l) => l.map (fun q => (q.1, flat x q.2))
    | _ => []

/-- The user of accepted claims, manager.cpp 402-453. -/
def userOf (x : Ext) (p : List (Bytes × J)) : Option User :=
  let id := strMember b!"sub" p
  let name := strMember b!"username" p
  if id.isEmpty && name.isEmpty then none
  else some { id := id, username := name, roles := claimRoles x p, metadata := claimMeta x p }

/-- `verify_token`, manager.cpp 259-454. -/
def verifyToken (x : Ext) (o : Options) (now : Int) (token : Bytes) : Option User :=
  if o.requireSignature then
    match x.verify now token (verifyOptions o) with
    | .error _ => none
    | .ok m => userOf x (parsedClaims x m)
  else
    match (x.decode token).bind x.parse with
    | some (.obj p) =>
      if !expOk o now p then none
      else if !nbfOk o now p then none
      else if !issOk o p then none
      else if !audOk o p then none
      else userOf x p
    | _ => none

/-! ## `AuthMiddleware` -/

/-- The request and the context variables the middleware reads. -/
structure Ctx where
  header : Bytes → Bytes
  user : Option User := none
  jwtPayload : Option J := none

/-- What becomes of the request: passed on with the user stored in the context (if any), or answered with a status. -/
inductive Verdict
  | pass (user : Option User)
  | answer (status : Nat)
deriving DecidableEq

/-- Members of `AuthMiddleware`, auth.h 364-369. -/
structure Mw where
  options : Options := {}
  requireAuth : Bool := true
  roles : List Bytes := []
  allRoles : Bool := false

/-- The strings of an array, auth.h 340-346. -/
def strings : List J → List Bytes
  | [] => []
  | .str s :: l => s :: strings l
  | _ :: l => strings l

/-- The roles of the claims, auth.h 340-358: an array, or a text holding one; members that are no string are passed over. -/
def rolesOf (x : Ext) (p : List (Bytes × J)) : List Bytes :=
  match member b!"roles" p with
  | some (.arr l) => strings l
  | some (.str s) => (match x.parse s with | some (.arr l) => strings l | _ => [])
  | _ => []

/-- `user_from_jwt_payload`, auth.h 315-362. -/
def userFromJwt (x : Ext) (j : J) : Option User :=
  match j with
  | .obj p =>
    let id := strMember b!"sub" p
    let name := strMember b!"username" p
    if id.isEmpty && name.isEmpty then none
    else
      some { id := id, username := name, roles := rolesOf x p }
  | _ => none

/-- The user an earlier middleware left, auth.h 106-129. -/
def ctxUser (x : Ext) (c : Ctx) : Option User :=
  match c.user with
  | some u => if !u.id.isEmpty || !u.username.isEmpty then some u else c.jwtPayload.bind (userFromJwt x)
  | none => c.jwtPayload.bind (userFromJwt x)

/-- The role check, auth.h 164-177. -/
def authorise (m : Mw) (u : User) : Verdict :=
  if !m.roles.isEmpty then
    if (if m.allRoles then u.hasAll m.roles else u.hasAny m.roles) then .pass (some u) else .answer 403
  else .pass (some u)

/-- `AuthMiddleware::process`, auth.h 99-178. -/
def process (x : Ext) (m : Mw) (now : Int) (c : Ctx) : Verdict :=
  match ctxUser x c with
  | some u => authorise m u
  | none =>
    let h := c.header m.options.headerName
    if h.isEmpty then (if m.requireAuth then .answer 401 else .pass none)
    else
      let token := extractHeader m.options.scheme h
      if token.isEmpty then .answer 401
      else match verifyToken x m.options now token with
        | none => .answer 401
        | some u => authorise m u

/-- `jwt_auth_middleware`, auth.h 398-435: `none` for the exception. -/
def jwtAuth (secret algStr : Bytes) : Option Mw :=
  match algOf algStr with
  | none => none
  | some a =>
    let o : Options := { alg := a }
    some { options := if a.isHmac then { o with secretKey := secret } else { o with publicKey := secret } }

/-- `role_auth_middleware`, auth.h 447-456. -/
def roleGate (roles : List Bytes) (all : Bool) : Mw := { options := {}, requireAuth := true, roles := roles, allRoles := all }

/-! ## `JwtMiddleware` -/

/-- `JwtTokenLocation`, jwt.h 39-43. -/
inductive Location
  | header | cookie | query
deriving DecidableEq

/-- `JwtOptions`, jwt.h 48-64, with `require_claims`. -/
structure JwtOptions where
  secret : Bytes
  algorithm : Bytes := b!"HS256"
  verifyExp : Bool := true
  verifyNbf : Bool := true
  verifyIat : Bool := true
  verifyIss : Bool := false
  verifyAud : Bool := false
  verifySub : Bool := false
  issuer : Bytes := []
  audience : Bytes := []
  subject : Bytes := []
  leeway : Int := 0
  location : Location := .header
  tokenName : Bytes := b!"Authorization"
  scheme : Bytes := b!"Bearer"
  required : List Bytes := []

/-- `" \t\n\r\f "`, jwt.h 303. -/
def ws5 (c : UInt8) : Bool := c == 32 || c == 9 || c == 10 || c == 13 || c == 12

/-- The parts of a request the middleware reads. -/
structure Req where
  header : Bytes → Bytes
  cookie : Bytes → Bytes
  query : Bytes → Bytes

/-- A token in a header, jwt.h 298-334. -/
def jwtHeader (scheme header : Bytes) : Option Bytes :=
  if header.isEmpty then none
  else
    let v := dropEnd ws5 (header.dropWhile ws5)
    if v.isEmpty then none
    else if scheme.isEmpty then some v
    else if v.length > scheme.length && (v.take scheme.length).map asciiToLower == scheme.map asciiToLower then
      if v.getD scheme.length 0 != 32 then none
      else
        let t := (v.drop scheme.length).dropWhile ws5
        if t.isEmpty then none else some t
    else none

/-- `extract_token`, jwt.h 295-343. -/
def jwtExtract (o : JwtOptions) (r : Req) : Option Bytes :=
  match o.location with
  | .header => jwtHeader o.scheme (r.header o.tokenName)
  | .cookie => let v := r.cookie o.tokenName; if v.isEmpty then none else some v
  | .query => let v := r.query o.tokenName; if v.isEmpty then none else some v

/-- Characters of a JSON number, jwt.h 428-434. -/
def numChar (c : UInt8) : Bool := (48 ≤ c && c ≤ 57) || c == 45 || c == 43 || c == 46 || c == 101 || c == 69

/-- A claim of a verified token, jwt.h 409-447. -/
def jwtClaim (x : Ext) (v : Bytes) : J :=
  if v == b!"true" then .bool true
  else if v == b!"false" then .bool false
  else match x.toInt v with
    | some i => .num i
    | none =>
      let number := (match v with | [] => false | c :: _ => c == 45 || (48 ≤ c && c ≤ 57)) && v.all numChar
      match (if number then x.toDouble v else none) with
      | some (true, t) => .float true t
      | _ => .str v

/-- `parse_int64_claim`, jwt.h 347-375. -/
def intClaim (x : Ext) : J → Option Int
  | .num i => some (wrap64 i)
  | .float fin t => if !fin || decide (t < -9223372036854775808) || decide (t ≥ 9223372036854775808) then none else some t
  | .str s => x.toInt s
  | _ => none

/-- `JwtError`, jwt.h 67-76. -/
inductive JwtError
  | missing | invalidToken | expired | notActive | signature | claim | algorithm
deriving DecidableEq

/-- jwt.h 466-494. -/
def ofVerifyError : VerifyError → JwtError
  | .format => .invalidToken
  | .signature => .signature
  | .expired => .expired
  | .notActive => .notActive
  | .issuer | .audience | .subject | .claim => .claim
  | .other => .invalidToken

/-- The options for the library, jwt.h 377-403. -/
def jwtVerifyOptions (o : JwtOptions) (a : Alg) : VerifyOptions where
  alg := a
  key := o.secret
  verifyExp := o.verifyExp
  verifyNbf := o.verifyNbf
  skew := o.leeway
  issuer := if o.verifyIss then some o.issuer else none
  audience := if o.verifyAud then some o.audience else none
  subject := if o.verifySub then some o.subject else none

/-- `verify_token`, jwt.h 345-497. -/
def jwtVerify (x : Ext) (o : JwtOptions) (now : Int) (token : Bytes) : Except JwtError (List (Bytes × J)) :=
  match x.jwtAlg o.algorithm with
  | none => .error .algorithm
  | some a =>
    match x.verify now token (jwtVerifyOptions o a) with
    | .error e => .error (ofVerifyError e)
    | .ok m =>
      let p := m.map (fun q => (q.1, jwtClaim x q.2))
      if o.verifyIat then
        match member b!"iat" p with
        | none => .ok p
        | some c => match intClaim x c with
          | none => .error .claim
          | some i => if i > now + o.leeway then .error .notActive else .ok p
      else .ok p

/-- A validator: the verdict and its own error, or an exception. -/
inductive Validated
  | accepted
  | refused (e : Option JwtError)
  | threw

/-- What becomes of the request: passed on with the claims in the context, refused (the error handler or a 401 answer), or failed
because the success handler threw (500). -/
inductive JwtVerdict
  | pass (claims : List (Bytes × J))
  | refused (e : JwtError)
  | failed (claims : List (Bytes × J))

/-- The first required claim that is missing, jwt.h 209-214. -/
def missingClaim (required : List Bytes) (p : List (Bytes × J)) : Bool := required.any (fun k => (member k p).isNone)

/-- The end of `process`, jwt.h 234-248. -/
def jwtDone (success : List (Bytes × J) → Bool) (p : List (Bytes × J)) : JwtVerdict := if success p then .pass p else .failed p

/-- `JwtMiddleware::process`, jwt.h 194-249. `validator` and `success` are the application's functions; `success` says whether the
handler returned (`true`) or threw. -/
def jwtProcess (x : Ext) (o : JwtOptions) (validator : Option (List (Bytes × J) → Validated)) (success : List (Bytes × J) → Bool) (now : Int) (r : Req) : JwtVerdict :=
  match jwtExtract o r with
  | none => .refused .missing
  | some t =>
    match jwtVerify x o now t with
    | .error e => .refused e
    | .ok p =>
      if missingClaim o.required p then .refused .claim
      else match validator with
        | none => jwtDone success p
        | some f => match f p with
          | .accepted => jwtDone success p
          | .refused (some e) => .refused e
          | .refused none => .refused .claim
          | .threw => .refused .claim

/-- The answer to a refused request without an error handler, jwt.h 513-518. -/
def jwtStatus : JwtVerdict → Option Nat
  | .pass _ => none
  | .refused _ => some 401
  | .failed _ => some 500

end Verif.Auth
