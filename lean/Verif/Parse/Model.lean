import Verif.Wire.Model

/-! Model of the HTTP/1.1 message assembler: the llhttp callbacks of `1.1/protocol/base.h` 136-426 and
`Parser::reset` 525-545. llhttp itself (`http_execute`) is external: what it reports is an arbitrary
sequence of events, each with an arbitrary fragment of the text it reports on. -/

namespace Verif.Parse
open Utility Wire

/-- base.h 43-60 (`protocol_limits`). -/
def MAX_HEADERS_COUNT : Nat := 100
def MAX_CHUNK_SIZE : Nat := 16 * 1024 * 1024

/-- `HeaderToken`, base.h 467. -/
inductive Tok | none | field | value
deriving DecidableEq

/-- The callbacks' state: the parser members of base.h 468-476, the message under construction and
`parser->content_length` (`none` for `ULLONG_MAX`). `status` is `none` for a request parser, the status code
for a response parser. `_url_bytes_seen` is kept as in the code. -/
structure P where
  status : Option Nat
  key : Bytes := []
  value : Bytes := []
  tok : Tok := .none
  urlSeen : Nat := 0
  urlBuffer : Bytes := []
  uri : Bytes := []
  pairs : Nat := 0
  headers : Headers := []
  version : Nat × Nat := (0, 0)
  contentLength : Option Nat := none
  done : Bool := false
  bodySeen : Nat := 0
  chunked : Bytes := []
  body : Bytes := []
deriving DecidableEq

/-- What llhttp reports. -/
inductive Ev
  | url (b : Bytes)
  | field (b : Bytes)
  | value (b : Bytes)
  | headersComplete (major minor : Nat) (contentLength : Option Nat)
  | body (b : Bytes)
  | messageComplete
deriving DecidableEq

/-- `msg.headers()[key].push_back(value)` on a map whose keys are compared without case. -/
def push : Headers → Bytes → Bytes → Headers
  | [], k, v => [(k, [v])]
  | e :: h, k, v => if iequals e.1 k then (e.1, e.2 ++ [v]) :: h else e :: push h k v

/-- The flush of a finished header, base.h 258-265 and 327-334; `none` = error. -/
def flush (p : P) : Option P :=
  if p.tok == .value && !p.key.isEmpty then
    if p.value.length > MAX_HEADER_VALUE_LENGTH then none
    else some { p with headers := push p.headers p.key p.value, key := [], value := [] }
  else some p

/-- `on_url`, base.h 199-220. -/
def onUrl (p : P) (b : Bytes) : Option P :=
  if p.status.isSome then some p
  else if p.urlSeen + b.length > MAX_URL_LENGTH then none
  else
    let buf := (if p.urlSeen == 0 then [] else p.urlBuffer) ++ b
    some { p with urlBuffer := buf, urlSeen := p.urlSeen + b.length, uri := buf }

/-- `on_header_field`, base.h 256-280, after the flush. -/
def onFieldKey (p : P) (b : Bytes) : Option P :=
  if p.tok != .field then
    if p.pairs + 1 > MAX_HEADERS_COUNT then none
    else if b.length > MAX_HEADER_NAME_LENGTH then none
    else some { p with pairs := p.pairs + 1, key := b, tok := .field }
  else
    if (p.key ++ b).length > MAX_HEADER_NAME_LENGTH then none
    else some { p with key := p.key ++ b, tok := .field }

/-- `on_header_field`, base.h 256-280. -/
def onField (p : P) (b : Bytes) : Option P := (flush p).bind fun p => onFieldKey p b

/-- `on_header_value`, base.h 294-305. -/
def onValue (p : P) (b : Bytes) : Option P :=
  let v := (if p.tok != .value then [] else p.value) ++ b
  if v.length > MAX_HEADER_VALUE_LENGTH then none else some { p with value := v, tok := .value }

/-- The checks of `on_headers_complete`, base.h 338-345. -/
def framingOk (h : Headers) : Bool :=
  if (find h b!"Transfer-Encoding").isSome then
    !(find h b!"Content-Length").isSome && transferEncoding h == some true
  else true

/-- The content length after base.h 346-360. -/
def effectiveLength (status : Option Nat) (hasTE : Bool) (cl : Option Nat) : Option Nat :=
  match status with
  | none => if cl.isNone && !hasTE then some 0 else cl
  | some s => if (s ≥ 100 && s < 200) || s == 204 || s == 304 then some 0 else cl

/-- `on_headers_complete`, base.h 324-379 (`upgrade` and `keep_alive`, copied from llhttp, are left out). -/
def onHeadersComplete (p : P) (major minor : Nat) (cl : Option Nat) : Option P :=
  (flush p).bind fun p =>
    if !framingOk p.headers then none
    else
      let cl := effectiveLength p.status (find p.headers b!"Transfer-Encoding").isSome cl
      if cl.any (fun n => n > MAX_BODY_SIZE) then none
      else some { p with tok := .none, version := (major, minor), contentLength := cl, done := true }

/-- `on_body`, base.h 394-407. -/
def onBody (p : P) (b : Bytes) : Option P :=
  if b.length > MAX_CHUNK_SIZE then none
  else if p.bodySeen + b.length > MAX_BODY_SIZE then none
  else some { p with chunked := p.chunked ++ b, bodySeen := p.bodySeen + b.length }

/-- `header(name)`, headers.h 302-311. -/
def header (h : Headers) (name : Bytes) : Bytes := ((find h name).getD []).headD []

/-- `set_header(name, value)`, headers.h 437-446. -/
def setHeader : Headers → Bytes → Bytes → Headers
  | [], k, v => [(k, [v])]
  | e :: h, k, v => if iequals e.1 k then (e.1, [v]) :: h else e :: setHeader h k v

/-- `on_message_complete`, base.h 421-426, with `set_content_type`, headers.h 376-379 (the parsed content
type object is left out). -/
def onMessageComplete (p : P) : P :=
  { p with headers := setHeader p.headers b!"Content-Type" (header p.headers b!"Content-Type"), body := p.chunked, chunked := [] }

/-- One callback; `none` = the callback made llhttp fail. -/
def step (p : P) : Ev → Option P
  | .url b => onUrl p b
  | .field b => onField p b
  | .value b => onValue p b
  | .headersComplete a i cl => onHeadersComplete p a i cl
  | .body b => onBody p b
  | .messageComplete => some (onMessageComplete p)

/-- A sequence of callbacks. -/
def run (p : P) : List Ev → Option P
  | [] => some p
  | e :: es => (step p e).bind fun q => run q es

/-- `Parser::reset`, base.h 525-545. -/
def init (status : Option Nat) : P := { status := status }

end Verif.Parse
