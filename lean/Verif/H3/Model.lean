import Verif.Mid.Http
import Verif.Date.Model

/-! Model of the messages of `3/protocol/connection.h`: the fields built for an outgoing message, and the callbacks that
make a message of incoming fields and data. `nghttp3` is not part of the repository: it carries field sections,
data and the end of a stream in order, and is assumed to call back in that order (`Incoming`). The header map is the
one of `Verif.Wire.Model` (`find`, and `push` for `add_header`). -/

namespace Verif.H3
open Verif.Utility Verif.Wire Verif.Parse

/-- A field: name and value. -/
abbrev Field := Bytes × Bytes

/-- `MAX_HEADERS_COUNT`, `MAX_HEADER_NAME_LENGTH`, `MAX_HEADER_VALUE_LENGTH`, `MAX_URL_LENGTH`, 1.1/protocol/base.h 45-54. -/
def maxFields : Nat := 100
def maxName : Nat := 1024
def maxValue : Nat := 8192
def maxUrl : Nat := 8192

/-- `lower_header_name`, connection.h 77-82. -/
def lowerName (s : Bytes) : Bytes := s.map asciiToLower

/-- `is_forbidden_h3_header`, 91-96. -/
def isForbidden (name : Bytes) : Bool :=
  let l := lowerName name
  l == b!"connection" || l == b!"keep-alive" || l == b!"proxy-connection" || l == b!"proxy-authenticate" ||
    l == b!"proxy-authorization" || l == b!"transfer-encoding" || l == b!"upgrade"

/-- `is_forbidden_h3_trailer`, 104-108. -/
def isForbiddenTrailer (name : Bytes) : Bool :=
  let l := lowerName name
  l.isEmpty || l.head? == some c!":" || l == b!"content-length" || l == b!"trailer" || isForbidden l

/-- `std::from_chars` into an unsigned number below `bound`: the digits at the beginning, at least one of them. -/
def fromDigits (bound : Nat) (s : Bytes) : Option (Nat × Bytes) :=
  let ds := s.takeWhile isDigit
  if ds = [] then none
  else if digitsValue ds ≥ bound then none
  else some (digitsValue ds, s.dropWhile isDigit)

/-- `parse_content_length`, 116-126. -/
def parseLength (value : Bytes) : Option Nat :=
  match fromDigits (2 ^ 64) value with
  | some (n, []) => some n
  | _ => none

/-- The loop of `declared_content_length`, 154-161; the outer `none` is `ok = false`. -/
def lengthLoop : Option Nat → List Bytes → Option (Option Nat)
  | acc, [] => some acc
  | acc, raw :: rest =>
    match parseLength raw with
    | none => none
    | some n => if acc.isSome && acc != some n then none else lengthLoop (some n) rest

/-- `declared_content_length`, 147-163. -/
def declaredLength (h : Headers) : Option (Option Nat) :=
  match find h b!"content-length" with
  | none => some none
  | some vs => lengthLoop none vs

/-- `pseudo_headers_before_regular_headers`, 199-213, from the state `started`. -/
def pseudoFirst : Bool → List Field → Bool
  | _, [] => true
  | started, (name, _) :: fs =>
    if !name.isEmpty && name.head? == some c!":" then (if started then false else pseudoFirst started fs)
    else pseudoFirst true fs

/-- `has_required_request_pseudo_headers`, 223-227. -/
def hasRequired (method scheme authority path : Option Bytes) : Bool :=
  let ok : Option Bytes → Bool := fun x => match x with
    | some v => !v.isEmpty
    | none => false
  ok method && ok scheme && ok authority && ok path

/-- `is_header_name_char`, 235-239. -/
def isNameChar (c : Byte) : Bool :=
  (97 ≤ c && c ≤ 122) || (48 ≤ c && c ≤ 57) || c == 33 || c == 35 || c == 36 || c == 37 || c == 38 || c == 39 || c == 42 ||
    c == 43 || c == 45 || c == 46 || c == 94 || c == 95 || c == 96 || c == 124 || c == 126

/-- The loop over the value, 261-268 and 297-304. -/
def validValue (v : Bytes) : Bool :=
  v.all fun c => !(c == 0 || c == 13 || c == 10) && !((c < 32 && c != 9) || c == 127)

/-- `is_valid_header_field`, 248-271. -/
def validField (f : Field) : Bool :=
  if f.1.isEmpty || f.1.length > maxName || f.2.length > maxValue then false
  else f.1.all isNameChar && validValue f.2

/-- `is_valid_incoming_header_field`, 280-307. -/
def validIncoming (f : Field) : Bool :=
  if f.1.isEmpty || f.1.length > maxName || f.2.length > maxValue then false
  else
    let pseudo := f.1.head? == some c!":"
    (if pseudo then f.1.drop 1 else f.1).all isNameChar && !(pseudo && f.1.length == 1) && validValue f.2

/-! ### Outgoing messages -/

/-- `announced_trailers`, 317-345. -/
def announced (h : Headers) : List Bytes :=
  match find h b!"trailer" with
  | none => []
  | some vs => vs.flatMap fun v => (splitAndTrim v c!",").map lowerName

/-- The inner loop of `add_regular_headers`, 417-422, and `make_trailers`, 452-457: the number of fields and the block. -/
def addValues (lower : Bytes) : List Bytes → Nat → List Field → Option (Nat × List Field)
  | [], n, block => some (n, block)
  | v :: vs, n, block => if n + 1 > maxFields || !validField (lower, v) then none else addValues lower vs (n + 1) (block ++ [(lower, v)])

/-- `add_regular_headers`, 402-424. -/
def addRegular (trailers : List Bytes) : Headers → Nat → List Field → Option (Nat × List Field)
  | [], n, block => some (n, block)
  | (name, vs) :: h, n, block =>
    let lower := lowerName name
    if lower.isEmpty || lower.head? == some c!":" || isForbidden lower then none
    else if lower == b!"host" then addRegular trailers h n block
    else if lower != b!"trailer" && trailers.contains lower then addRegular trailers h n block
    else match addValues lower vs n block with
      | none => none
      | some (n, block) => addRegular trailers h n block

/-- The loop of `make_trailers`, 443-458. -/
def trailerLoop (trailers : List Bytes) : Headers → Nat → List Field → Option (List Field)
  | [], _, block => some block
  | (name, vs) :: h, n, block =>
    let lower := lowerName name
    if !trailers.contains lower then trailerLoop trailers h n block
    else if isForbiddenTrailer lower then none
    else match addValues lower vs n block with
      | none => none
      | some (n, block) => trailerLoop trailers h n block

/-- `make_trailers`, 435-459. -/
def makeTrailers (h : Headers) : Option (List Field) :=
  let trailers := announced h
  if trailers.isEmpty then none
  else match trailerLoop trailers h 0 [] with
    | none => none
    | some block => if block.isEmpty then none else some block

/-- The parts of a request that are sent. The parts of the address are those the URI class gives. -/
structure OutReq where
  method : Bytes
  scheme : Bytes
  host : Bytes
  port : Bytes
  path : Bytes
  query : Bytes
  headers : Headers
  body : Bytes

/-- `request_target`, 364-372. -/
def target (path query : Bytes) : Bytes := (if path.isEmpty then b!"/" else path) ++ (if query.isEmpty then [] else b!"?" ++ query)

/-- `authority`, 379-387. -/
def authority (host port : Bytes) : Bytes := host ++ (if port.isEmpty then [] else b!":" ++ port)

/-- The `content-length` added if there is none, 488-493 and 529-534. -/
def addLength (h : Headers) (body : Bytes) (n : Nat) (block : List Field) : Option (List Field) :=
  if !body.isEmpty && (find h b!"content-length").isNone then
    if n + 1 > maxFields then none else some (block ++ [(b!"content-length", Date.decNat body.length)])
  else some block

/-- The four pseudo header fields, 479-482. -/
def requestPseudo (r : OutReq) : List Field :=
  [(b!":method", r.method), (b!":scheme", if r.scheme.isEmpty then b!"https" else r.scheme),
    (b!":authority", authority r.host r.port), (b!":path", target r.path r.query)]

/-- `make_request_headers`, 469-495. -/
def makeRequest (r : OutReq) : Option (List Field) :=
  if (target r.path r.query).length > maxUrl then none
  else match declaredLength r.headers with
    | none => none
    | some declared =>
      if declared.isSome && declared != some r.body.length then none
      else match addRegular (announced r.headers) r.headers 4 (requestPseudo r) with
        | none => none
        | some (n, block) => addLength r.headers r.body n block

/-- `make_response_headers`, 521-536. -/
def makeResponse (status : Nat) (h : Headers) (body : Bytes) : Option (List Field) :=
  match addRegular (announced h) h 1 [(b!":status", Date.decNat status)] with
  | none => none
  | some (n, block) => addLength h body n block

/-- `response_body_length_must_match`, 505-512; `head` says that the request was a HEAD. -/
def mustMatch (status : Nat) (head : Bool) : Bool :=
  if head then false else !((100 ≤ status && status < 200) || status == 204 || status == 304)

/-- What a submission gives to `nghttp3`: the section of fields, the body, and the trailer section. -/
structure Sent where
  fields : List Field
  body : Bytes
  trailers : Option (List Field)
  deriving DecidableEq, Repr

/-- The end of `submit_response` and `submit_request`, 1204-1224 and 1249-1266, if `nghttp3` takes everything: what
was given to it, and whether the call returns true. -/
def submitWith (block : Option (List Field)) (h : Headers) (body : Bytes) : Bool × Option Sent :=
  match block with
  | none => (false, none)
  | some block =>
    match makeTrailers h with
    | some ts => (true, some ⟨block, body, some ts⟩)
    | none => ((find h b!"trailer").isNone, some ⟨block, body, none⟩)

/-- `submit_request`, 1236-1267, on a new stream. -/
def submitRequest (r : OutReq) : Bool × Option Sent := submitWith (makeRequest r) r.headers r.body

/-- `submit_response`, 1186-1225, on a stream without a response. -/
def submitResponse (status : Nat) (h : Headers) (body : Bytes) (head : Bool) : Bool × Option Sent :=
  match declaredLength h with
  | none => (false, none)
  | some declared =>
    if declared.isSome && mustMatch status head && declared != some body.length then (false, none)
    else submitWith (makeResponse status h body) h body

/-! ### Incoming messages -/

/-- `connection::role` -/
inductive Role where
  | client | server
  deriving DecidableEq, Repr

/-- `stream_state`, 567-583, as far as it concerns the message that comes in. `method` is that of the request (of the
one sent, for a client), a value of `Method` other than `UNINITIALIZED`. -/
structure St where
  method : Option Nat := none
  uri : Bytes := []
  status : Nat := 0
  headers : Headers := []
  body : Bytes := []
  block : List Field := []
  count : Nat := 0
  expected : Option Nat := none
  seen : Bool := false
  deriving DecidableEq, Repr

/-- The variables of `materialize_headers`, 853-858, and the header map it writes. -/
structure Vars where
  method : Option Bytes := none
  scheme : Option Bytes := none
  authority : Option Bytes := none
  path : Option Bytes := none
  status : Option Nat := none
  length : Option Nat := none
  headers : Headers
  deriving DecidableEq, Repr

/-- The parse of `:status`, 885-891: `from_chars` into an `int`, which takes a sign; a negative number is refused. -/
def parseStatus (value : Bytes) : Option Nat :=
  match fromDigits (2 ^ 31) value with
  | some (n, []) => if n < 100 || n > 999 then none else some n
  | _ => none

/-- One round of the loop of `materialize_headers`, 860-913; `none` is `return false`. -/
def varsStep (role : Role) (x : Vars) (f : Field) : Option Vars :=
  if f.1 == b!":method" then (if x.method.isSome || role != .server then none else some { x with method := some f.2 })
  else if f.1 == b!":scheme" then (if x.scheme.isSome || role != .server then none else some { x with scheme := some f.2 })
  else if f.1 == b!":authority" then (if x.authority.isSome || role != .server then none else some { x with authority := some f.2 })
  else if f.1 == b!":path" then (if x.path.isSome || role != .server then none else some { x with path := some f.2 })
  else if f.1 == b!":status" then
    if x.status.isSome || role != .client then none
    else match parseStatus f.2 with
      | none => none
      | some n => some { x with status := some n }
  else if !f.1.isEmpty && f.1.head? == some c!":" then none
  else if f.1 == b!"content-length" then
    match parseLength f.2 with
    | none => none
    | some n =>
      if x.length.isSome && x.length != some n then none
      else some { x with length := some n, headers := push x.headers f.1 f.2 }
  else if isForbidden f.1 then none
  else some { x with headers := push x.headers f.1 f.2 }

/-- The loop, 860-913. -/
def varsLoop (role : Role) : Vars → List Field → Option Vars
  | x, [] => some x
  | x, f :: fs => match varsStep role x f with
    | none => none
    | some x => varsLoop role x fs

/-- `materialize_headers`, 847-943. `methodOf` is the constructor of `Method`, `none` for `UNINITIALIZED`. -/
def materialize (methodOf : Bytes → Option Nat) (role : Role) (st : St) : Option St :=
  if !pseudoFirst false st.block then none
  else match varsLoop role { headers := st.headers } st.block with
    | none => none
    | some x =>
      let st := { st with headers := x.headers, expected := x.length }
      match role with
      | .server =>
        if !hasRequired x.method x.scheme x.authority x.path then none
        else match methodOf (x.method.getD b!"GET") with
          | none => none
          | some m => some { st with method := some m, uri := x.scheme.getD [] ++ b!"://" ++ x.authority.getD [] ++ x.path.getD [] }
      | .client => match x.status with
        | none => none
        | some n => some { st with status := n }

/-- The loop of `materialize_trailers`, 949-959. -/
def trailersLoop : Headers → List Field → Option Headers
  | h, [] => some h
  | h, f :: fs => if isForbiddenTrailer f.1 then none else trailersLoop (push h f.1 f.2) fs

/-- `materialize_trailers`, 945-961. -/
def materializeTrailers (st : St) : Option St :=
  if !st.seen then none
  else match trailersLoop st.headers st.block with
    | none => none
    | some h => some { st with headers := h }

/-- `content_length_matches`, 963-979; `headMethod` is the method HEAD. -/
def lengthMatches (headMethod : Nat) (role : Role) (st : St) : Bool :=
  match st.expected with
  | none => true
  | some n =>
    if role == .client && st.method == some headMethod then true
    else if role == .client && ((100 ≤ st.status && st.status < 200) || st.status == 204 || st.status == 304) then true
    else st.body.length == n

/-- The callbacks of `nghttp3` for one stream. -/
inductive Ev where
  | beginHeaders | field (f : Field) | endHeaders
  | data (d : Bytes)
  | beginTrailers | endTrailers
  | endStream
  deriving DecidableEq, Repr

/-- What a callback does: the stream goes on, the callback fails (and the connection is closed, 1109-1112), or the
message is delivered to the owner. -/
inductive Step where
  | go (st : St)
  | failed
  | deliver (st : St)
  deriving DecidableEq, Repr

/-- What the callbacks are given: the methods, the role and the limit of the owner for a body (0 is none). -/
structure Setup where
  methodOf : Bytes → Option Nat
  headMethod : Nat
  role : Role
  limit : Nat

/-- The callbacks, 693-814. -/
def Setup.step (S : Setup) (st : St) : Ev → Step
  | .beginHeaders => .go { st with block := [], count := 0 }                             -- 724-732
  | .field f =>                                                                          -- 734-748
    if st.count + 1 > maxFields || !validIncoming f then .failed
    else .go { st with block := st.block ++ [f], count := st.count + 1 }
  | .endHeaders => match materialize S.methodOf S.role st with                           -- 750-762
    | none => .failed
    | some st => .go { st with seen := true }
  | .data d =>                                                                           -- 693-713
    if S.limit != 0 && st.body.length + d.length > S.limit then .failed
    else if S.role == .server || st.method != some S.headMethod then .go { st with body := st.body ++ d }
    else .go st
  | .beginTrailers => .go { st with block := [], count := 0 }                            -- 764-772
  | .endTrailers => match materializeTrailers st with                                    -- 774-785
    | none => .failed
    | some st => .go st
  | .endStream => if lengthMatches S.headMethod S.role st then .deliver st else .failed  -- 787-814

/-- The callbacks one after another; nothing follows a failure, or the end of the stream. -/
def Setup.run (S : Setup) : St → List Ev → Step
  | st, [] => .go st
  | st, e :: es => match S.step st e with
    | .go st => S.run st es
    | r => r

/-- A section of fields as `nghttp3` reports it. -/
def sectionEvents (fs : List Field) : List Ev := .beginHeaders :: fs.map .field ++ [.endHeaders]

/-- A trailer section, if there is one. -/
def trailerEvents : Option (List Field) → List Ev
  | none => []
  | some ts => .beginTrailers :: ts.map .field ++ [.endTrailers]

/-- A whole message as `nghttp3` reports it: sections of fields, data, trailers, the end. -/
def messageEvents (sections : List (List Field)) (ds : List Bytes) (ts : Option (List Field)) : List Ev :=
  sections.flatMap sectionEvents ++ (ds.map .data ++ (trailerEvents ts ++ [.endStream]))

end Verif.H3
