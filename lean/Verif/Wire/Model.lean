import Verif.Utility.Model
import Verif.Date.Model

/-! Model of HTTP/1.x serialization: `request.cpp` 41-273, `response.cpp` 93-348, the chunk serializer of
`body.cpp` 41-60 and the limits of `1.1/protocol/base.h` 43-76.

The header map (`qb::icase_unordered_map<std::vector<std::string>>`) is a list of entries in iteration
order; its order is unspecified in C++ and arbitrary here. `pipe<char>` output is the returned byte string;
`none` stands for the thrown `std::length_error` (the pipe is cleared first). The texts of methods and
reason phrases come from llhttp's tables and are inputs. -/

namespace Verif.Wire
open Utility

/-- 1.1/protocol/base.h 45-60. -/
def MAX_URL_LENGTH : Nat := 8192
def MAX_HEADER_NAME_LENGTH : Nat := 1024
def MAX_HEADER_VALUE_LENGTH : Nat := 8192
def MAX_BODY_SIZE : Nat := 100 * 1024 * 1024
/-- request.cpp 233, response.cpp 301. -/
def MAX_SERIALIZED_SIZE : Nat := 110 * 1024 * 1024

/-- `is_header_name_char`, request.cpp 41-45, response.cpp 93-97. -/
def isHeaderNameChar (c : UInt8) : Bool :=
  (c ≥ 97 && c ≤ 122) || (c ≥ 65 && c ≤ 90) || (c ≥ 48 && c ≤ 57) || c == c!"!" || c == c!"#" || c == c!"$" ||
  c == c!"%" || c == c!"&" || c == 39 || c == c!"*" || c == c!"+" || c == c!"-" || c == c!"." || c == c!"^" ||
  c == c!"_" || c == c!"`" || c == c!"|" || c == c!"~"

/-- `header_name_is_valid`, request.cpp 47-53, response.cpp 99-105. -/
def headerNameIsValid (name : Bytes) : Bool :=
  if name.isEmpty || name.length > MAX_HEADER_NAME_LENGTH then false else name.all isHeaderNameChar

/-- `header_value_is_valid`, request.cpp 55-64, response.cpp 107-116. -/
def headerValueIsValid (value : Bytes) : Bool :=
  if value.length > MAX_HEADER_VALUE_LENGTH then false else value.all fun c => c == 9 || (c ≥ 0x20 && c != 0x7f)

/-- The value of a digit string. -/
def digitsValue (s : Bytes) : Nat := s.foldl (fun n c => 10 * n + (c.toNat - 48)) 0

/-- `parse_content_length`, request.cpp 76-90, response.cpp 128-142: `std::from_chars` into a `uint64_t`
that must consume everything. -/
def parseContentLength (value : Bytes) : Option Nat :=
  let v := trimWs value
  if v.isEmpty then none
  else if !v.all isDigit then none
  else if digitsValue v ≥ 2 ^ 64 then none
  else some (digitsValue v)

/-- A header map. -/
abbrev Headers := List (Bytes × List Bytes)

/-- `headers().find(name)`: keys are compared without case. -/
def find (h : Headers) (name : Bytes) : Option (List Bytes) := (h.find? fun e => iequals e.1 name).map (·.2)

/-- The loop of `declared_content_length`, request.cpp 99-107; the outer `none` = throws. -/
def declaredLoop (acc : Option Nat) : List Bytes → Option (Option Nat)
  | [] => some acc
  | raw :: rest =>
    match parseContentLength raw with
    | none => none
    | some n => if acc.isSome && acc != some n then none else declaredLoop (some n) rest

/-- `declared_content_length`, request.cpp 92-108, response.cpp 144-160. -/
def declaredContentLength (h : Headers) : Option (Option Nat) :=
  match find h b!"Content-Length" with
  | none => some none
  | some vs => declaredLoop none vs

/-- The tokens collected by `transfer_encoding`, request.cpp 118-126, response.cpp 170-178. -/
def teTokens (vs : List Bytes) : List Bytes :=
  vs.flatMap fun v => ((splitString v b!",").map trimWs).filter (fun t => !t.isEmpty)

/-- `transfer_encoding`, request.cpp 110-136, response.cpp 162-188; `none` for `ok = false`, otherwise
`chunked`. -/
def transferEncoding (h : Headers) : Option Bool :=
  match find h b!"Transfer-Encoding" with
  | none => some false
  | some vs =>
    match teTokens vs with
    | [t] => if iequals t b!"chunked" then some true else none
    | _ => none

/-- `std::to_chars(..., 16)`. -/
def hexNat (n : Nat) : Bytes :=
  if n < 16 then [b!"0123456789abcdef".getD n 0] else hexNat (n / 16) ++ [b!"0123456789abcdef".getD (n % 16) 0]

/-- `qb::http::endl`, types.h 713. -/
def endl : Bytes := [13, 10]

/-- `pipe<char>::put<Chunk>`, body.cpp 41-60 (the sixteen-digit buffer suffices for every `size_t`). -/
def putChunk (data : Bytes) : Bytes :=
  (if data.length != 0 then hexNat data.length ++ endl ++ data else b!"0" ++ endl) ++ endl

/-- The size estimate over the headers, request.cpp 215-228, response.cpp 283-296; `none` = throws. -/
def headersSize : Headers → Option Nat
  | [] => some 0
  | (n, vs) :: rest =>
    if !headerNameIsValid n then none
    else if !vs.all headerValueIsValid then none
    else (headersSize rest).map fun k => n.length + 2 + (vs.map fun v => v.length + 2).sum + k

/-- The header lines, request.cpp 250-258, response.cpp 316-324 (the check in the loop repeats the one of
the size estimate). -/
def putHeaders (h : Headers) : Bytes :=
  h.flatMap fun e => e.2.flatMap fun v => e.1 ++ b!": " ++ v ++ endl

/-- A request as far as serialization reads it. -/
structure Request where
  method : Bytes
  path : Bytes
  query : Bytes
  major : Nat := 1
  minor : Nat := 1
  headers : Headers
  body : Bytes
deriving DecidableEq

/-- `pipe<char>::put<Request>`, request.cpp 159-273. -/
def putRequest (r : Request) : Option Bytes :=
  if r.path.length + r.query.length > MAX_URL_LENGTH then none
  else if r.body.length > MAX_BODY_SIZE then none
  else match transferEncoding r.headers with
  | none => none
  | some chunked =>
  match declaredContentLength r.headers with
  | none => none
  | some cl =>
  if chunked && cl.isSome then none
  else if !chunked && cl.isSome && cl != some r.body.length then none
  else match headersSize r.headers with
  | none => none
  | some hs =>
  if 64 + r.path.length + (r.query.length + 1) + hs + 2 + r.body.length > MAX_SERIALIZED_SIZE then none
  else some (
    r.method ++ b!" " ++ r.path ++ (if !r.query.isEmpty then b!"?" ++ r.query else []) ++ b!" " ++ b!"HTTP/" ++
    Date.decNat r.major ++ b!"." ++ Date.decNat r.minor ++ endl ++
    putHeaders r.headers ++
    (if r.body.length != 0 then
      if chunked then endl ++ putChunk r.body ++ putChunk []
      else (if cl.isNone then b!"content-length: " ++ Date.decNat r.body.length ++ endl else []) ++ endl ++ r.body
    else endl))

/-- A response as far as serialization reads it. -/
structure Response where
  major : Nat := 1
  minor : Nat := 1
  status : Nat
  reason : Bytes
  headers : Headers
  body : Bytes
deriving DecidableEq

/-- `response_must_not_carry_body`, response.cpp 190-194. -/
def mustNotCarryBody (s : Nat) : Bool := (s ≥ 100 && s < 200) || s == 204 || s == 304

/-- `response_forbids_nonzero_content_length`, response.cpp 196-200. -/
def forbidsNonzeroLength (s : Nat) : Bool := (s ≥ 100 && s < 200) || s == 204

/-- `pipe<char>::put<Response>`, response.cpp 226-348. -/
def putResponse (r : Response) : Option Bytes :=
  if r.body.length > MAX_BODY_SIZE then none
  else if r.body.length != 0 && mustNotCarryBody r.status then none
  else match transferEncoding r.headers with
  | none => none
  | some chunked =>
  if chunked && mustNotCarryBody r.status then none
  else match declaredContentLength r.headers with
  | none => none
  | some cl =>
  if chunked && cl.isSome then none
  else if forbidsNonzeroLength r.status && cl.isSome && cl != some 0 then none
  else if r.body.length != 0 && !chunked && cl.isSome && cl != some r.body.length then none
  else match headersSize r.headers with
  | none => none
  | some hs =>
  if 32 + (Date.decNat r.status).length + 32 + hs + 2 + r.body.length > MAX_SERIALIZED_SIZE then none
  else some (
    b!"HTTP/" ++ Date.decNat r.major ++ b!"." ++ Date.decNat r.minor ++ b!" " ++ Date.decNat r.status ++ b!" " ++
    r.reason ++ endl ++
    putHeaders r.headers ++
    (if r.body.length != 0 then
      if chunked then endl ++ putChunk r.body ++ putChunk []
      else (if cl.isNone then b!"content-length: " ++ Date.decNat r.body.length ++ endl else []) ++ endl ++ r.body
    else
      (if !chunked && cl.isNone && !mustNotCarryBody r.status then b!"content-length: 0" ++ endl else []) ++ endl))

end Verif.Wire
