import Verif.Hdr.Model

/-! # Multipart bodies: `multipart.h`, `multipart.cpp`, the reader in `body.cpp`

Conventions. The callbacks of the parser are recorded as events in the order of the calls; a callback that throws ends the feed, so a
reader is a fold over the events that stops at the first exception. `size_t` positions are unbounded naturals (a buffer is shorter than
2^64), `UNMARKED` is `none`, the wrap-around of `i--` at 0 followed by `i++` is staying at the same position. -/

namespace Verif.Multi
open Verif.Utility Verif.Wire Verif.Parse Verif.Mid Verif.Hdr

/-- multipart.h 52. -/
def MAX_BOUNDARY_LENGTH : Nat := 70
/-- multipart.h 55. -/
def MAX_HEADER_NAME_LENGTH : Nat := 1024
/-- multipart.h 58. -/
def MAX_HEADER_VALUE_LENGTH : Nat := 8192
/-- multipart.h 61. -/
def MAX_PARTS_COUNT : Nat := 1000
/-- multipart.h 64. -/
def MAX_TOTAL_SIZE : Nat := 100 * 1024 * 1024

/-- `State`, multipart.h 135-150, without `PART_END`, which is never entered. -/
inductive PState
  | error | start | startBoundary | fieldStart | field | valueStart | value | valueAlmost | headersAlmost | dataStart | data | fin
deriving DecidableEq

/-- A call of a callback, multipart.h 292-347, with the octets `buffer[start..end)`. -/
inductive Ev
  | partBegin | field (b : Bytes) | value (b : Bytes) | headerEnd | headersEnd | data (b : Bytes) | partEnd | finish
deriving DecidableEq

/-- `MultipartParser`, multipart.h 163-175: the delimiter, the lookbehind buffer, the state, the two flags, the index, the three marks. -/
structure P where
  B : Bytes
  look : Bytes
  state : PState
  pb : Bool := false
  lb : Bool := false
  index : Nat := 0
  fm : Option Nat := none
  vm : Option Nat := none
  dm : Option Nat := none
deriving DecidableEq

/-- `reset`, multipart.cpp 225-239. -/
def reset : P := { B := [], look := [], state := .error }

/-- `setBoundary`, multipart.cpp 241-266. -/
def setBoundary (b : Bytes) : P :=
  if b.isEmpty || decide (b.length > MAX_BOUNDARY_LENGTH) then reset
  else if b.any (fun c => c < 32 || c == 127) then reset
  else
    let B := b!"\r\n--" ++ b
    { B := B, look := List.replicate (B.length + 8) 0, state := .start }

/-- `isHeaderFieldCharacter`, multipart.h 248-253; the same set as `is_multipart_header_name_char`, multipart.cpp 424-428. -/
def isNameChar (c : UInt8) : Bool :=
  (97 ≤ c && c ≤ 122) || (65 ≤ c && c ≤ 90) || (48 ≤ c && c ≤ 57) || c == c!"!" || c == c!"#" || c == c!"$" || c == c!"%" || c == c!"&" ||
    c == 39 || c == c!"*" || c == c!"+" || c == c!"-" || c == c!"." || c == c!"^" || c == c!"_" || c == c!"`" || c == c!"|" || c == c!"~"

/-- `buffer[a..b)`. -/
def slice (buf : Bytes) (a b : Nat) : Bytes := (buf.take b).drop a

/-- `callback` with a range, multipart.cpp 96-104: an empty range is passed over unless it is allowed. -/
def call (mk : Bytes → Ev) (b : Bytes) (allowEmpty : Bool) : List Ev := if b.isEmpty && !allowEmpty then [] else [mk b]

/-- `dataCallback` with `clear`, multipart.cpp 106-119: the call; the mark is cleared. -/
def flushTo (mk : Bytes → Ev) (mark : Option Nat) (buf : Bytes) (i : Nat) (allowEmpty : Bool) : List Ev :=
  match mark with
  | none => []
  | some k => call mk (slice buf k i) allowEmpty

/-- `dataCallback` without `clear`: the mark moves to the start of the next buffer. -/
def keep (mark : Option Nat) : Option Nat := mark.map (fun _ => 0)

/-- What one iteration of the loop of `feed` does: go on at a position, return early from the final state, fail, throw, or read outside
a buffer. -/
inductive Res
  | go (p : P) (i : Nat) (e : List Ev)
  | stop
  | fail (p : P)
  | throws (p : P) (e : List Ev)
  | ub

/-- The search for the delimiter, multipart.cpp 128-134: whole windows whose last octet does not occur in the delimiter are passed
over. -/
def skip (B buf : Bytes) : Nat → Nat → Nat
  | 0, i => i
  | f + 1, i =>
    if i + B.length ≤ buf.length then
      if B.contains (buf.getD (i + B.length - 1) 0) then i else skip B buf f (i + B.length)
    else i

/-- The comparison with the delimiter, multipart.cpp 141-197; the last component: `return`. -/
def matchStep (buf : Bytes) (i : Nat) (c : UInt8) (p : P) : P × List Ev × Bool :=
  let n := p.B.length
  if p.index < n then
    if p.B.getD p.index 0 == c then
      if p.index == 0 then ({ p with dm := none, index := p.index + 1 }, flushTo .data p.dm buf i false, false)
      else ({ p with index := p.index + 1 }, [], false)
    else ({ p with index := 0 }, [], false)
  else if p.index == n then
    if c == 13 then ({ p with index := p.index + 1, pb := true }, [], false)
    else if c == c!"-" then ({ p with index := p.index + 1, lb := true }, [], false)
    else ({ p with index := 0 }, [], false)
  else if p.index - 1 == n then
    if p.pb then
      if c == 10 then ({ p with index := 0, pb := false, state := .fieldStart }, [.partEnd, .partBegin], true)
      else ({ p with index := 0 }, [], false)
    else if p.lb then
      if c == c!"-" then ({ p with state := .fin }, [.partEnd, .finish], false)
      else ({ p with index := 0 }, [], false)
    else ({ p with index := 0 }, [], false)
  else if p.index - 2 == n then
    if c == 13 then ({ p with index := p.index + 1 }, [], false) else ({ p with index := 0 }, [], false)
  else if p.index - n == 3 then
    if c == 10 then ({ p with index := 0, state := .fin }, [.partEnd, .finish], true) else ({ p with index := 0 }, [], false)
  else (p, [], false)

/-- The lookbehind buffer, multipart.cpp 199-222: a matching octet is stored; after a mismatch the stored octets are data and the octet
is looked at again. -/
def lookStep (prev i : Nat) (c : UInt8) (p : P) (e : List Ev) : Res :=
  if p.index > 0 then
    if p.index - 1 ≥ p.look.length then .throws { p with state := .error } e
    else .go { p with look := p.look.set (p.index - 1) c } (i + 1) e
  else if prev > 0 then
    if prev > p.look.length then .ub else .go { p with dm := some i } i (e ++ [.data (p.look.take prev)])
  else .go p (i + 1) e

/-- `processPartData`, multipart.cpp 121-223. -/
def partData (buf : Bytes) (i : Nat) (p : P) : Res :=
  let j := if p.index == 0 then skip p.B buf buf.length i else i
  if p.index == 0 && j == buf.length then .go p (j + 1) []
  else
    let c := buf.getD j 0
    match matchStep buf j c p with
    | (q, e, true) => .go q (j + 1) e
    | (q, e, false) => lookStep p.index j c q e

/-- `HEADER_FIELD`, multipart.cpp 322-345. -/
def fieldStep (buf : Bytes) (i : Nat) (c : UInt8) (p : P) : Res :=
  if c == 13 then .go { p with fm := none, state := .headersAlmost } (i + 1) []
  else if c == c!":" then
    if p.index + 1 == 1 then .fail p
    else .go { p with index := p.index + 1, fm := none, state := .valueStart } (i + 1) (flushTo .field p.fm buf i false)
  else if !isNameChar c then .fail p
  else .go { p with index := p.index + 1 } (i + 1) []

/-- `HEADER_VALUE`, multipart.cpp 353-359. -/
def valueStep (buf : Bytes) (i : Nat) (c : UInt8) (p : P) : Res :=
  if c == 13 then .go { p with vm := none, state := .valueAlmost } (i + 1) (flushTo .value p.vm buf i true ++ [.headerEnd])
  else .go p (i + 1) []

/-- `START_BOUNDARY`, multipart.cpp 293-317. -/
def startStep (i : Nat) (c : UInt8) (p : P) : Res :=
  if p.index == p.B.length - 2 then
    if c != 13 then .fail p else .go { p with index := p.index + 1 } (i + 1) []
  else if p.index - 1 == p.B.length - 2 then
    if c != 10 then .fail p else .go { p with index := 0, state := .fieldStart } (i + 1) [.partBegin]
  else if p.index + 2 ≥ p.B.length then .ub
  else if c != p.B.getD (p.index + 2) 0 then .fail p
  else .go { p with index := p.index + 1 } (i + 1) []

/-- One iteration of the loop of `feed`, multipart.cpp 285-385; `p` carries the local variables `l_state`, `l_flags`, `l_index`. -/
def step (buf : Bytes) (i : Nat) (p : P) : Res :=
  let c := buf.getD i 0
  match p.state with
  | .error => .stop
  | .start => startStep i c { p with index := 0, state := .startBoundary }
  | .startBoundary => startStep i c p
  | .fieldStart => fieldStep buf i c { p with state := .field, fm := some i, index := 0 }
  | .field => fieldStep buf i c p
  | .valueStart => if c == 32 then .go p (i + 1) [] else valueStep buf i c { p with vm := some i, state := .value }
  | .value => valueStep buf i c p
  | .valueAlmost => if c != 10 then .fail p else .go { p with state := .fieldStart } (i + 1) []
  | .headersAlmost => if c != 10 then .fail p else .go { p with state := .dataStart } (i + 1) [.headersEnd]
  | .dataStart => partData buf i { p with state := .data, dm := some i }
  | .data => partData buf i p
  | .fin => .stop

/-- How `feed` ends. -/
inductive End
  | done | early | fail | throws | ub
deriving DecidableEq

/-- The loop of `feed` from position `i`, multipart.cpp 284-386, with what follows it, 388-394: the ranges still marked are reported
and the local variables are saved. An early return saves nothing: the parser keeps the state, flags and index of `p0`, but the marks
and the lookbehind buffer as they are. The fuel bounds the iterations (an octet is looked at twice at most). -/
def loop (p0 : P) (buf : Bytes) : Nat → Nat → P → P × List Ev × End
  | 0, _, p => (p, [], .ub)
  | f + 1, i, p =>
    if i < buf.length then
      match step buf i p with
      | .go q j e =>
        let (r, e', o) := loop p0 buf f j q
        (r, e ++ e', o)
      | .stop => ({ p with state := p0.state, pb := p0.pb, lb := p0.lb, index := p0.index }, [], .early)
      | .fail q => ({ q with state := .error, pb := p0.pb, lb := p0.lb, index := p0.index }, [], .fail)
      | .throws q e => ({ q with pb := p0.pb, lb := p0.lb, index := p0.index }, e, .throws)
      | .ub => (p, [], .ub)
    else
      ({ p with fm := keep p.fm, vm := keep p.vm, dm := keep p.dm },
        flushTo .field p.fm buf buf.length false ++ flushTo .value p.vm buf buf.length false ++ flushTo .data p.dm buf buf.length false, .done)

/-- `MultipartParser::feed`, multipart.cpp 270-397. -/
def feed (p : P) (buf : Bytes) : P × List Ev × End :=
  if p.state == .error || buf.isEmpty then (p, [], .done)
  else loop p buf (2 * buf.length + 2) 0 p

/-- Successive calls of `feed`; an exception leaves the rest unread. -/
def feeds (p : P) : List Bytes → P × List Ev × End
  | [] => (p, [], .done)
  | b :: l =>
    match feed p b with
    | (q, e, .throws) => (q, e, .throws)
    | (q, e, .ub) => (q, e, .ub)
    | (q, e, _) =>
      let (r, e', o) := feeds q l
      (r, e ++ e', o)

/-- `succeeded`, multipart.h 419-422. -/
def succeeded (p : P) : Bool := p.state == .fin

/-! ## `MultipartReader` and `Body::as<Multipart>` -/

/-- `Multipart::Part`, multipart.h 508-524, without the cached content type. -/
structure Part where
  headers : Headers := []
  body : Bytes := []
deriving DecidableEq

/-- `MultipartReader`, body.cpp 113-118, and the `Multipart` its callbacks fill, 750. -/
structure Rd where
  count : Nat := 0
  total : Nat := 0
  name : Bytes := []
  value : Bytes := []
  headers : Headers := []
  parts : List Part := []
deriving DecidableEq

/-- The result of a call: a value, an exception, or undefined behaviour. -/
inductive Out (α : Type)
  | ok (a : α) | throws | ub
deriving DecidableEq

/-- `part.headers() = ...; if (part.has_header("Content-Type")) part.set_content_type(part.header("Content-Type"))`, body.cpp 754-756:
`set_content_type` keeps the first value. -/
def settle (h : Headers) : Headers :=
  if (find h b!"Content-Type").isSome then setHeader h b!"Content-Type" (header h b!"Content-Type") else h

/-- The callbacks, body.cpp 158-277 and 752-765; `parts().back()` of an empty vector is undefined. -/
def handle (r : Rd) : Ev → Out Rd
  | .partBegin =>
    if r.count + 1 > MAX_PARTS_COUNT then .throws
    else .ok { r with count := r.count + 1, headers := [], name := [], value := [] }
  | .field b => if b.length > MAX_HEADER_NAME_LENGTH then .throws else .ok { r with name := b }
  | .value b => if b.length > MAX_HEADER_VALUE_LENGTH then .throws else .ok { r with value := b }
  | .headerEnd => .ok { r with headers := push r.headers r.name r.value, name := [], value := [] }
  | .headersEnd => .ok { r with parts := r.parts ++ [{ headers := settle r.headers, body := [] }], headers := [], name := [], value := [] }
  | .data b =>
    if r.total + b.length > MAX_TOTAL_SIZE then .throws
    else match r.parts.getLast? with
      | none => .ub
      | some q => .ok { r with total := r.total + b.length, parts := r.parts.dropLast ++ [{ q with body := q.body ++ b }] }
  | .partEnd => .ok r
  | .finish => .ok r

/-- The callbacks in order. -/
def handles (r : Rd) : List Ev → Out Rd
  | [] => .ok r
  | e :: l => match handle r e with
    | .ok q => handles q l
    | .throws => .throws
    | .ub => .ub

/-- `Multipart`, multipart.h 526-528. -/
structure Mp where
  boundary : Bytes
  parts : List Part := []
deriving DecidableEq

/-- `view.find_first_of("\r\n")`. -/
def lineEnd : Bytes → Option Nat
  | [] => none
  | c :: s => if c == 13 || c == 10 then some 0 else (lineEnd s).map (· + 1)

/-- `Body::as<Multipart>`, body.cpp 736-772. -/
def asMultipart (s : Bytes) : Out Mp :=
  match lineEnd s with
  | none => .throws
  | some pos =>
    if pos ≤ 2 then .throws
    else
      let b := slice s 2 pos
      match feed (setBoundary b) s with
      | (p, e, o) => match handles {} e with
        | .ub => .ub
        | .throws => .throws
        | .ok r =>
          if o == .ub then .ub else if o == .throws || p.state == .error then .throws else .ok { boundary := b, parts := r.parts }

/-! ## Boundaries and the writer -/

/-- `is_multipart_boundary_char`, multipart.cpp 18-22. -/
def isBoundaryChar (c : UInt8) : Bool :=
  (97 ≤ c && c ≤ 122) || (65 ≤ c && c ≤ 90) || (48 ≤ c && c ≤ 57) || c == 39 || c == c!"(" || c == c!")" || c == c!"+" || c == c!"_" ||
    c == c!"," || c == c!"-" || c == c!"." || c == c!"/" || c == c!":" || c == c!"=" || c == c!"?" || c == 32

/-- `is_valid_multipart_boundary`, multipart.cpp 24-28. -/
def validBoundary (b : Bytes) : Bool :=
  !b.isEmpty && decide (b.length ≤ MAX_BOUNDARY_LENGTH) && b.getLastD 0 != 32 && b.all isBoundaryChar

/-- `parse_boundary`, multipart.cpp 63-82: the exception is `none`. -/
def parseBoundary (s : Bytes) : Option Bytes :=
  let media := match findChar c!";" s with
    | none => trimWs s
    | some (m, _) => trimWs m
  if !iequals media b!"multipart/form-data" then some []
  else match attributes s with
    | none => none
    | some l => match attr l b!"boundary" with
      | none => some []
      | some v => if v.isEmpty then some [] else if validBoundary v then some v else none

/-- `generate_boundary`, multipart.cpp 400-418, with the 32 random alphanumeric characters as a parameter (the build with SSL). -/
def generateBoundary (random : Bytes) : Bytes := b!"----------------------------qb" ++ random

/-- `is_valid_multipart_header_name`, multipart.cpp 430-434. -/
def validName (n : Bytes) : Bool := !n.isEmpty && decide (n.length ≤ MAX_HEADER_NAME_LENGTH) && n.all isNameChar

/-- `is_valid_multipart_header_value`, multipart.cpp 436-446. -/
def validValue (v : Bytes) : Bool :=
  decide (v.length ≤ MAX_HEADER_VALUE_LENGTH) && v.all (fun c => c == 9 || (32 ≤ c && c != 127))

/-- `validate_multipart_for_serialization`, multipart.cpp 448-466. -/
def validate (m : Mp) : Bool :=
  validBoundary m.boundary && m.parts.all (fun p => p.headers.all (fun h => validName h.1 && h.2.all validValue))

/-- The header lines of a part, multipart.cpp 494-497. -/
def headerLines (h : Headers) : Bytes := h.flatMap (fun e => e.2.flatMap (fun v => e.1 ++ b!": " ++ v ++ b!"\r\n"))

/-- One part, multipart.cpp 493-498. -/
def writePart (b : Bytes) (p : Part) : Bytes := b!"--" ++ b ++ b!"\r\n" ++ headerLines p.headers ++ b!"\r\n" ++ p.body ++ b!"\r\n"

/-- `pipe<char>::put<Multipart>`, multipart.cpp 487-502: the exception is `none`. -/
def write (m : Mp) : Option Bytes :=
  if validate m then some (m.parts.flatMap (writePart m.boundary) ++ b!"--" ++ m.boundary ++ b!"--") else none

/-- `Part::size`, multipart.h 515-523; `sizeof(endl)` is 3. -/
def Part.size (p : Part) : Nat := p.body.length + 4 + (p.headers.map (fun e => (e.2.map (fun v => e.1.length + v.length + 4)).sum)).sum

/-- `content_length`, multipart.h 569-578. -/
def contentLength (m : Mp) : Nat := (m.parts.map (fun p => m.boundary.length + p.size + 4)).sum + m.boundary.length + 4

/-! ## Forms -/

/-- `qb::unordered_map<std::string, std::vector<std::string>>`. -/
abbrev Fields := List (Bytes × List Bytes)

/-- `Form::add`, form.h 47-63. -/
def addField : Fields → Bytes → Bytes → Fields
  | [], k, v => [(k, [v])]
  | e :: f, k, v => if e.1 == k then (e.1, e.2 ++ [v]) :: f else e :: addField f k v

/-- `Form::get`, form.h 71-78. -/
def getField (f : Fields) (k : Bytes) : List Bytes := ((f.find? (fun e => e.1 == k)).map (·.2)).getD []

/-- `qb::io::uri::encode` and `decode`, which are not in this repository. -/
structure Uri where
  encode : Bytes → Bytes
  decode : Bytes → Bytes

/-- `Body::operator=<Form>`, body.cpp 782-798; the map is walked in the order of the list. -/
def writeForm (u : Uri) (f : Fields) : Bytes :=
  (List.intersperse [c!"&"] (f.flatMap (fun e => e.2.map (fun v => u.encode e.1 ++ c!"=" :: u.encode v)))).flatten

/-- One pair, body.cpp 853-870. -/
def readPair (u : Uri) (f : Fields) (s : Bytes) : Fields :=
  match findChar c!"=" s with
  | some (k, v) => if (u.decode k).isEmpty then f else addField f (u.decode k) (u.decode v)
  | none => if (u.decode s).isEmpty then f else addField f (u.decode s) []

/-- The loop of `Body::as<Form>`, body.cpp 847-872. -/
def readPairs (u : Uri) : Nat → Fields → Bytes → Fields
  | 0, f, _ => f
  | n + 1, f, s =>
    if s.isEmpty then f
    else match findChar c!"&" s with
      | none => readPair u f s
      | some (a, r) => readPairs u n (readPair u f a) r

/-- `Body::as<Form>`, body.cpp 836-875. -/
def asForm (u : Uri) (s : Bytes) : Fields := readPairs u s.length [] s

end Verif.Multi
