import Verif.Mid.Http

/-! # Header values: `headers.cpp`, `middleware/compression.h`, compression in `body.cpp`

Conventions. A thrown exception is `none`. `qb::icase_unordered_map<std::string>` filled by `emplace` is the list of the `emplace`
calls in order: the first entry for a name (compared without case) counts. `char` is signed, so octets from 128 on are not control
characters. -/

namespace Verif.Hdr
open Verif.Utility Verif.Wire Verif.Parse Verif.Mid

/-! ## `parse_header_attributes` -/

/-- `AttributeParseState`, headers.cpp 140-145. -/
inductive Mode
  | name | value | after
deriving DecidableEq

/-- The local variables of `parse_header_attributes`, headers.cpp 138-151. -/
structure A where
  mode : Mode := .name
  name : Bytes := []
  val : Bytes := []
  quote : UInt8 := 0
  esc : Bool := false
  out : List (Bytes × Bytes) := []
deriving DecidableEq

/-- headers.h 37. -/
def ATTRIBUTE_NAME_MAX : Nat := 1024
/-- headers.h 43. -/
def ATTRIBUTE_VALUE_MAX : Nat := 8192
/-- headers.cpp 130. -/
def MAX_HEADER_ATTRIBUTES_SIZE : Nat := 65536

/-- State `NAME`, headers.cpp 156-178. -/
def stepName (a : A) (c : UInt8) : Option A :=
  if c == 61 then
    if (trimWs a.name).isEmpty then none
    else some { a with quote := 0, val := [], mode := .value }
  else if c == 59 || c == 44 then
    if !a.name.isEmpty then some { a with out := a.out ++ [(trimWs a.name, [])], name := [] } else some a
  else if !isWs c then
    if isControl c || decide (a.name.length ≥ ATTRIBUTE_NAME_MAX) then none
    else some { a with name := a.name ++ [c] }
  else some a

/-- State `VALUE` outside quotes, headers.cpp 181-206. -/
def stepPlain (a : A) (c : UInt8) : Option A :=
  if c == 59 || c == 44 then
    some { a with out := a.out ++ [(trimWs a.name, trimWs a.val)], name := [], val := [], mode := .name }
  else if a.val.isEmpty && (c == 39 || c == 34) then some { a with quote := c }
  else if c == 32 || c == 9 then
    if !a.val.isEmpty then some { a with val := a.val ++ [c] } else some a
  else if isControl c || decide (a.val.length ≥ ATTRIBUTE_VALUE_MAX) then none
  else some { a with val := a.val ++ [c] }

/-- State `VALUE` inside quotes, headers.cpp 207-240. -/
def stepQuoted (a : A) (c : UInt8) : Option A :=
  if a.esc then
    if isControl c && c != 9 then none
    else if a.val.length ≥ ATTRIBUTE_VALUE_MAX then none
    else some { a with val := a.val ++ [c], esc := false }
  else if c == 92 then some { a with esc := true }
  else if c == a.quote then
    some { a with out := a.out ++ [(trimWs a.name, a.val)], name := [], val := [], quote := 0, mode := .after }
  else if a.val.length ≥ ATTRIBUTE_VALUE_MAX then none
  else if isControl c && c != 9 then none
  else some { a with val := a.val ++ [c] }

/-- State `AFTER_QUOTED_VALUE`, headers.cpp 243-250. -/
def stepAfter (a : A) (c : UInt8) : Option A :=
  if c == 59 || c == 44 then some { a with mode := .name }
  else if c != 32 && c != 9 then none
  else some a

/-- One iteration, headers.cpp 153-253. -/
def step (a : A) (c : UInt8) : Option A :=
  match a.mode with
  | .name => stepName a c
  | .value => if a.quote == 0 then stepPlain a c else stepQuoted a c
  | .after => stepAfter a c

/-- The loop, headers.cpp 153-253. -/
def run (a : A) : Bytes → Option A
  | [] => some a
  | c :: s => match step a c with
    | some b => run b s
    | none => none

/-- The end of the input, headers.cpp 256-267. -/
def finish (a : A) : Option (List (Bytes × Bytes)) :=
  if !a.name.isEmpty then
    if a.mode == .value && (a.quote != 0 || a.esc) then none
    else if a.mode == .name || a.mode == .value then some (a.out ++ [(trimWs a.name, trimWs a.val)])
    else some a.out
  else some a.out

/-- `parse_header_attributes`, headers.cpp 127-270. -/
def attributes (s : Bytes) : Option (List (Bytes × Bytes)) :=
  if s.length > MAX_HEADER_ATTRIBUTES_SIZE then none else (run {} s).bind finish

/-- `find` in the map. -/
def attr (l : List (Bytes × Bytes)) (k : Bytes) : Option Bytes := (l.find? (fun p => iequals p.1 k)).map (·.2)

/-- `Headers::ContentType::parse`, headers.cpp 429-454: type and charset. -/
def contentType (s : Bytes) : Bytes × Bytes :=
  let (m, rest) := match findChar c!";" s with
    | none => (s, none)
    | some (m, r) => (m, some r)
  let media := trimWs m
  if media.isEmpty then (b!"application/octet-stream", b!"utf-8")
  else match rest with
    | none => (media, b!"utf-8")
    | some r => match attributes r with
      | none => (media, b!"utf-8")
      | some l => match attr l b!"charset" with
        | some v => if v.isEmpty then (media, b!"utf-8") else (media, v)
        | none => (media, b!"utf-8")

/-! ## `Accept-Encoding` -/

/-- The digits after `0.`, headers.cpp 52-66 and compression.h 401-410. -/
def milliLoop (milli place : Nat) : Bytes → Option Nat
  | [] => some milli
  | c :: s =>
    if c < 48 || c > 57 then none
    else if place > 0 then milliLoop (milli + (c.toNat - 48) * place) (place / 10) s
    else none

/-- `parse_qvalue_milli`, headers.cpp 33-68; the lambda of compression.h 383-412 is the same with -1 for `nullopt`. -/
def qvalue (raw : Bytes) : Option Nat :=
  let q := trimWs raw
  if q.isEmpty then none
  else if q == b!"1" || q == b!"1.0" || q == b!"1.00" || q == b!"1.000" then some 1000
  else if q.getD 0 0 != 48 then none
  else if q.length == 1 then some 0
  else if decide (q.length < 3) || q.getD 1 0 != 46 then none
  else milliLoop 0 100 (q.drop 2)

/-- One parameter: its quality if it is `q`, headers.cpp 84-94, compression.h 417-427. -/
def qParam (p : Bytes) : Option Nat :=
  match findChar c!"=" (trimWs p) with
  | none => none
  | some (k, v) => if iequals (trimWs k) b!"q" then some ((qvalue (trimWs v)).getD 0) else none

/-- The first quality among the parameters, or 1000. -/
def firstQ : List Bytes → Nat
  | [] => 1000
  | p :: ps => match qParam p with
    | some q => q
    | none => firstQ ps

/-- `parse_q_value`, compression.h 414-430. -/
def tokenQ (token : Bytes) : Nat := firstQ ((splitString token b!";").drop 1)

/-- The name of a token, compression.h 436-439 and headers.cpp 380-389. -/
def tokenName (token : Bytes) : Bytes :=
  let n := trimWs token
  match findChar c!";" n with
  | none => n
  | some (m, _) => trimWs m

/-- The accepted encodings, compression.h 432-443. -/
def accepted (header : Bytes) : List (Bytes × Nat) :=
  (splitString header b!",").filterMap (fun t => let n := tokenName t; if n.isEmpty then none else some (n, tokenQ t))

/-- The quality of one encoding of the server, compression.h 448-461; `none` for -1. -/
def quality (e : Bytes) : List (Bytes × Nat) → Option Nat → Option Nat
  | [], w => w
  | (n, q) :: l, w =>
    if iequals n e then some q
    else if n == b!"*" then quality e l (some q)
    else quality e l w

/-- The choice, compression.h 445-467, with the best so far. -/
def bestOf (acc : List (Bytes × Nat)) : List Bytes → Bytes → Nat → Bytes × Nat
  | [], b, q => (b, q)
  | e :: es, b, q =>
    match quality e acc none with
    | some c => if c > q then bestOf acc es e c else bestOf acc es b q
    | none => bestOf acc es b q

/-- `select_best_encoding`, compression.h 366-468. -/
def selectEncoding (header : Bytes) (preferred : List Bytes) : Bytes :=
  if header.isEmpty then []
  else
    let (b, q) := bestOf (accepted header) preferred [] 0
    if q > 0 then b else []

/-- The parameters of `parse_accept_encoding_q`, headers.cpp 79-100. -/
def paramsQ (params : Bytes) : Nat :=
  if params.isEmpty then 1000
  else match _h : findChar c!";" params with
    | none => (qParam params).getD 1000
    | some (p, rest) => match qParam p with
      | some q => q
      | none => paramsQ rest
termination_by params.length
decreasing_by exact findChar_length _h

/-- `parse_accept_encoding_q`, headers.cpp 72-103. -/
def acceptQ (token : Bytes) : Nat := match findChar c!";" token with
  | none => 1000
  | some (_, params) => paramsQ params

/-- The loop of `content_encoding`, headers.cpp 379-421, over the tokens. `algos` are the algorithms of the server. -/
def contentLoop (algos : List Bytes) : List Bytes → List Bytes → Bytes
  | [], _ => []
  | t :: ts, disabled =>
    let q := acceptQ (trimWs t)
    let name := tokenName t
    if q == 0 then
      contentLoop algos ts (if !name.isEmpty && name != b!"*" then disabled ++ [name] else disabled)
    else if name.isEmpty then contentLoop algos ts disabled
    else if name == b!"*" then
      match algos.find? (fun a => !disabled.any (fun n => iequals n a)) with
      | some a => a
      | none => contentLoop algos ts disabled
    else match algos.find? (fun a => iequals a name) with
      | some a => a
      | none => contentLoop algos ts disabled

/-- `content_encoding`, headers.cpp 369-427. -/
def contentEncoding (algos : List Bytes) (header : Bytes) : Bytes := contentLoop algos (splitString header b!",") []

end Verif.Hdr
