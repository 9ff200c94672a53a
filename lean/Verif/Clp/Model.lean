import Verif.Stream.Model
import Verif.H2.FrameModel
import Verif.Parse.Model
import Verif.Date.Model

/-! # The HTTP/2 client connection

`ClientHttp2Protocol`, `src/qbm/http/2/protocol/client.h`: what it does with every frame the framer delivers and with the calls of the
application. The line numbers are those of `client.h`.

Conventions and simplifications.

* Everything that is received, written or told to the application is recorded in `log`, newest first. HEADERS with its CONTINUATIONs
  (`send_headers_with_continuation`, area H2, C24) is one entry. Debug texts and priorities are not modelled.
* Writing to the output pipe does not fail, so the `if (!this->ok())` branches right after a write are not taken.
* In a callback for a response or a stream error the application may send any requests: `Ext.react`, a function of all that happened so far. The
  context of the stream that is finished is erased before the callback, not after it (the code takes copies of all it needs first; the only difference is
  `last_stream_id` of a GOAWAY for a request made in the callback that cannot be encoded). In the callback for a GOAWAY that is written requests are refused
  (`_connection_active` is false), so it is not modelled; nor is it for a GOAWAY that was received (`_received_goaway` is true).
* Once `ok` is false, the framer delivers nothing more, and no window is kept up to date in the model. Of a SETTINGS frame that makes a stream window too large, all
  the windows are changed, then the connection is closed (the code stops in between).
* Identifiers, sizes and counters are `Nat`; in the code the identifier of the next stream wraps after 2^31 requests, and is not checked.
* `_client_streams` is a function from identifiers; it iterates in an unspecified order: `Ext.order` is any rearrangement. All keys are
  below `_next_client_stream_id`.
* HPACK is the parameter `Ext.decode`/`Ext.encode` (area Hpack has the concrete functions).
* Server push is off (`initialize_our_settings_map`, 1381): PUSH_PROMISE closes the connection, and the rest of the code for pushed streams is dead.
* The framer's rule on CONTINUATION (base.h 617-630) is part of the step: `need`. -/

namespace Verif.Clp
open Verif.Stream
open Verif.Wire (Headers find)

abbrev Field := Bytes × Bytes

/-- Error codes, frames.h 65-81. -/
def NO_ERROR : Nat := 0
def PROTOCOL_ERROR : Nat := 1
def INTERNAL_ERROR : Nat := 2
def FLOW_CONTROL_ERROR : Nat := 3
def STREAM_CLOSED : Nat := 5
def FRAME_SIZE_ERROR : Nat := 6
def COMPRESSION_ERROR : Nat := 9
def ENHANCE_YOUR_CALM : Nat := 11

/-- Limits, base.h 76-114, 1.1/protocol/base.h 60, client.h 1383. -/
def MAX_BODY_SIZE : Nat := 104857600
def MAX_HEADER_BLOCK_SIZE : Nat := 1048576
def MAX_QUEUED_CONTROL_REPLIES : Nat := 1000
def MAX_CONTINUATION_FRAMES : Nat := 512
def INITIAL_WINDOW : Nat := 65535
/-- Thresholds of WINDOW_UPDATE, stream.h 100-105, client.h 1834. -/
def THRESHOLD : Nat := 32767

/-- A request of the application; `qb::io::uri` is in its parts. -/
structure Req where
  app : Nat := 0
  method : Bytes := []
  scheme : Bytes := []
  host : Bytes := []
  port : Bytes := []
  path : Bytes := []
  query : Bytes := []
  headers : Headers := []
  body : Bytes := []
deriving DecidableEq

/-- The response under assembly. -/
structure Resp where
  status : Nat := 200
  headers : Headers := []
  body : Bytes := []
deriving DecidableEq

/-- A frame from the server. -/
inductive In
  | data (sid : Nat) (d : Bytes) (pad : Nat) (fin : Bool)
  | headers (sid : Nat) (frag : Bytes) (fin endHeaders : Bool)
  | continuation (sid : Nat) (frag : Bytes) (endHeaders : Bool)
  | settings (ack : Bool) (entries : List (UInt16 × UInt32))
  | rst (sid code : Nat)
  | goaway (last code : Nat)
  | windowUpdate (sid inc : Nat)
  | ping (ack : Bool) (d : Bytes)
  | pushPromise
  | priority (sid : Nat)
  /-- a frame the framer refuses, base.h 789-794 -/
  | bad
deriving DecidableEq

/-- What crosses the connection, and what the application is told. -/
inductive Ev
  | rx (i : In)
  /-- HEADERS of a request; `send_request` returns true -/
  | request (sid : Nat) (q : Req) (block : Bytes) (fin : Bool)
  /-- `send_request` returns false -/
  | refused (app : Nat)
  | trailers (sid : Nat) (block : Bytes)
  | data (sid : Nat) (d : Bytes) (fin : Bool)
  | rst (sid code : Nat)
  | goaway (last code : Nat)
  | windowUpdate (sid inc : Nat)
  | settingsAck
  | pong (d : Bytes)
  /-- callbacks -/
  | response (sid app : Nat) (r : Resp) (code : Nat)
  | streamError (sid code : Nat)
  | goawayEvent (code last : Nat)
deriving DecidableEq

/-- What is outside of this file. -/
structure Ext where
  D : Type
  E : Type
  decode : D → Bytes → Option (List Field) × D
  encode : E → List Field → Option Bytes × E
  encPeerMax : E → Nat → E
  order : List Nat → List Nat
  /-- the requests the application sends when it is called back -/
  react : List Ev → List Req

/-- `Http2ClientStream`, stream.h 117-148, 281-312. -/
structure CStream where
  req : Req
  state : State := .idle
  localW : Int := INITIAL_WINDOW
  peerW : Int
  processed : Nat := 0
  endRecv : Bool := false
  endSent : Bool := false
  rstRecv : Bool := false
  rstSent : Bool := false
  err : Nat := 0
  main : Bool := false
  trailersExp : Bool := false
  trailersRecv : Bool := false
  expecting : Bool := false
  cl : Option Nat := none
  resp : Resp := {}
  dispatched : Bool := false
  will : Bool := false
  names : List Bytes := []
  pending : Bool := false
  offset : Nat := 0
deriving DecidableEq

/-- The connection, 106-152. -/
structure Conn (x : Ext) where
  get : Nat → Option CStream := fun _ => none
  next : Nat := 1
  lastInit : Nat := 0
  frag : Bytes := []
  curSid : Nat := 0
  contCount : Nat := 0
  ctl : Nat := 0
  sendW : Int := INITIAL_WINDOW
  recvW : Int := INITIAL_WINDOW
  processed : Nat := 0
  initPeer : Nat := INITIAL_WINDOW
  peerMaxConc : Nat := 4294967295
  peerMaxFrame : Nat := 16384
  goawayRecv : Bool := false
  active : Bool := true
  ok : Bool := true
  /-- `_continuation_required`, `_continuation_stream_id` of the framer -/
  need : Nat := 0
  dec : x.D
  enc : x.E
  log : List Ev := []

variable {x : Ext}

/-- Assignment to an entry of `_client_streams`. -/
def Conn.put (c : Conn x) (sid : Nat) (s : Option CStream) : Conn x := { c with get := fun j => if j = sid then s else c.get j }

/-- `this->_io << ...`, `this->_io.on(...)`. -/
def Conn.add (c : Conn x) (e : Ev) : Conn x := { c with log := e :: c.log }

/-- The streams, in the order of the map. -/
def Conn.ids (c : Conn x) : List Nat := (x.order (List.range c.next)).filter fun j => (c.get j).isSome

/-- `_client_streams.empty()`. -/
def Conn.isEmpty (c : Conn x) : Bool := (List.range c.next).all fun j => (c.get j).isNone

/-- A stream that counts as active, 2448-2449. -/
def CStream.counts (s : CStream) : Bool := s.state != .idle && s.state != .closed && !s.rstSent && !s.rstRecv

/-- `get_active_stream_count(false)`, 2445-2465. -/
def Conn.activeCount (c : Conn x) : Nat :=
  ((List.range c.next).filter fun j => j % 2 != 0 && (match c.get j with | some s => s.counts | none => false)).length

/-- `send_goaway_and_close`, 1770-1809. -/
def goaway (c : Conn x) (code : Nat) : Conn x :=
  if !c.ok then c
  else
    let last := if c.isEmpty then 0 else c.lastInit
    let c := c.add (.goaway last code)
    let c := { c with active := false }
    let c := c.add (.goawayEvent code last)
    { c with ok := false }

/-! ### Requests -/

/-- `ascii_to_lower` on a name. -/
def lowerName (n : Bytes) : Bytes := n.map Verif.Utility.asciiToLower

/-- `std::to_string`. -/
def decimal (n : Nat) : Bytes := Date.decNat n

/-- The authority, 1541-1557. -/
def authority (q : Req) : Bytes :=
  if !q.host.isEmpty then
    let bracketed := decide (q.host.length ≥ 2) && q.host.head? == some c!"[" && q.host.getLast? == some c!"]"
    let h := if !bracketed && q.host.contains c!":" then c!"[" :: (q.host ++ [c!"]"]) else q.host
    if !q.port.isEmpty then h ++ c!":" :: q.port else h
  else match find q.headers b!"host" with
    | some (v :: _) => v
    | _ => []

/-- The fields that are not passed on, 1578-1597. -/
def skipped (name value : Bytes) : Bool :=
  if name == b!"te" then !isValidTe value
  else [b!"connection", b!"proxy-connection", b!"keep-alive", b!"transfer-encoding", b!"upgrade", b!"host", b!"content-length"].any (name == ·)

/-- The regular fields, 1571-1601. -/
def regular : Headers → List Field
  | [] => []
  | (n, vs) :: hs => (vs.filterMap fun v => if !skipped (lowerName n) v && isValidHeaderField (lowerName n) v then some (lowerName n, v) else none) ++ regular hs

/-- The names announced in `Trailer` headers, 1604-1619. -/
def trailerNames (hs : Headers) : List Bytes :=
  hs.flatMap fun h => if lowerName h.1 == b!"trailer" then h.2.flatMap fun v => Utility.splitAndTrim v c!"," else []

/-- Whether there is a `Trailer` header, 1604-1605. -/
def announces (hs : Headers) : Bool := hs.any fun h => lowerName h.1 == b!"trailer" && !h.2.isEmpty

/-- `prepare_request_headers`, 1528-1627. -/
def requestFields (q : Req) : List Field :=
  [(b!":method", q.method), (b!":scheme", if q.scheme.isEmpty then b!"https" else q.scheme)]
  ++ (if (authority q).isEmpty then [] else [(b!":authority", authority q)])
  ++ [(b!":path", (if q.path.isEmpty then b!"/" else q.path) ++ (if q.query.isEmpty then [] else c!"?" :: q.query))]
  ++ regular q.headers
  ++ (if !q.body.isEmpty && !announces q.headers then [(b!"content-length", decimal q.body.length)] else [])

/-- The next chunk of a body, 1655-1665: as much as is left, as the peer's frame size, and as both windows allow. -/
def chunk (s : CStream) (maxFrame : Nat) (w : Int) : Nat := min (s.req.body.length - s.offset) (min maxFrame (min w.toNat s.peerW.toNat))

/-- A chunk is sent, 1671-1706 (`has_pending_data_to_send` is set after the loop, 1710). -/
def CStream.sent (s : CStream) (k : Nat) (fin : Bool) : CStream :=
  { s with offset := s.offset + k, pending := decide (s.offset + k < s.req.body.length), peerW := s.peerW - (k : Int), endSent := s.endSent || fin, state := if fin then sendEnd s.state else s.state }

/-- The loop of `_send_request_body_data_internal`, 1641-1707: the stream, the connection window, the log. The first argument
bounds the iterations: every one sends at least one octet, the callers pass the number of octets left. -/
def pump (maxFrame sid : Nat) : Nat → CStream → Int → List Ev → CStream × Int × List Ev
  | 0, s, w, l => (s, w, l)
  | n + 1, s, w, l =>
    if s.offset < s.req.body.length then
      if w ≤ 0 || s.peerW ≤ 0 then (s, w, l)
      else
        let k := chunk s maxFrame w
        if k == 0 then (s, w, l)
        else
          let fin := s.offset + k == s.req.body.length && !s.will
          pump maxFrame sid n (s.sent k fin) (w - (k : Int)) (.data sid ((s.req.body.drop s.offset).take k) fin :: l)
    else (s, w, l)

/-- `_send_request_body_data_internal`, 1629-1711, while the connection is up. -/
def sendBody (c : Conn x) (sid : Nat) (s : CStream) : Conn x :=
  if !s.pending || s.req.body.isEmpty then c.put sid (some { s with pending := false })
  else
    let r := pump c.peerMaxFrame sid (s.req.body.length - s.offset) s c.sendW c.log
    { c.put sid (some { r.1 with pending := decide (r.1.offset < s.req.body.length) }) with sendW := r.2.1, log := r.2.2 }

/-- `try_close_stream_context`, 1433-1457. -/
def tryClose (c : Conn x) (sid : Nat) : Conn x :=
  match c.get sid with
  | none => c
  | some s => if s.state == .closed || s.rstSent || s.rstRecv then c.put sid none else c

/-- The new stream of a request, 1133-1143, 1177-1200. -/
def newStream (c : Conn x) (q : Req) (fin : Bool) : CStream :=
  { req := q, peerW := c.initPeer, will := announces q.headers, names := trailerNames q.headers, state := if fin then .halfClosedLocal else .open_,
    endSent := fin, pending := !q.body.isEmpty }

/-- `send_request`, 1111-1219. -/
def sendRequest (c : Conn x) (q : Req) : Conn x :=
  if !c.ok || !c.active || c.goawayRecv then c.add (.refused q.app)
  else if c.activeCount ≥ c.peerMaxConc then c.add (.refused q.app)
  else
    let sid := c.next
    let e := x.encode c.enc (requestFields q)
    let c := { c with next := sid + 2, lastInit := sid, enc := e.2 }
    match e.1 with
    | none => (goaway c INTERNAL_ERROR).add (.refused q.app)         -- 1152-1157
    | some block =>
      let fin := q.body.isEmpty && !announces q.headers
      let s := newStream c q fin
      let c := (c.add (.request sid q block fin)).put sid (some s)
      if s.pending then tryClose (sendBody c sid s) sid else c

/-- A callback in which the application may send requests. -/
def callback (c : Conn x) (e : Ev) : Conn x :=
  let c := c.add e
  (x.react c.log).foldl sendRequest c

/-- `send_rst_stream`, 1734-1763. -/
def sendRst (c : Conn x) (sid code : Nat) : Conn x :=
  if !c.ok || sid == 0 then c
  else
    let c := c.add (.rst sid code)
    match c.get sid with
    | none => c
    | some s =>
      let c := c.put sid none
      if !s.dispatched then callback c (.streamError sid code) else c

/-- The checks of the trailers, 1243-1268. -/
def trailersBad (hs : Headers) : Bool :=
  hs.any fun h => h.1.isEmpty || h.1.head? == some c!":" || isForbiddenTrailerHeader (lowerName h.1) || h.2.any fun v => !isValidHeaderField h.1 v

/-- `send_request_trailers`, 1231-1300. -/
def sendTrailers (c : Conn x) (sid : Nat) (hs : Headers) : Conn x :=
  match c.get sid with
  | none => c
  | some s =>
    if s.endSent then c
    else if !s.will then sendRst c sid PROTOCOL_ERROR
    else if trailersBad hs then sendRst c sid PROTOCOL_ERROR
    else
      let e := x.encode c.enc (hs.flatMap fun h => h.2.map fun v => (h.1, v))
      let c := { c with enc := e.2 }
      match e.1 with
      | none => sendRst c sid COMPRESSION_ERROR
      | some block => tryClose ((c.add (.trailers sid block)).put sid (some { s with endSent := true, state := sendEnd s.state })) sid

/-- The trailers of a request, taken from its headers, 2352-2387. -/
def ownTrailers (s : CStream) : List Field :=
  (s.names.filter fun n => n.head? != some c!":").flatMap fun n => match find s.req.headers n with
    | some vs => vs.map fun v => (n, v)
    | none => []

/-- The trailers after the body, 2346-2430. -/
def sendOwnTrailers (c : Conn x) (sid : Nat) (s : CStream) : Conn x :=
  if s.will && !s.endSent then
    let fs := ownTrailers s
    let e := x.encode c.enc fs
    if fs.isEmpty then (c.add (.trailers sid [])).put sid (some { s with endSent := true, state := .halfClosedLocal, will := false })
    else
      let c := { c with enc := e.2 }
      match e.1 with
      | none => sendRst c sid COMPRESSION_ERROR
      | some block => (c.add (.trailers sid block)).put sid (some { s with endSent := true, state := .halfClosedLocal, will := false })
  else c

/-- `try_send_pending_data_for_stream`, 2315-2437. -/
def trySend (c : Conn x) (sid : Nat) : Conn x :=
  if !c.ok || !c.active then c
  else match c.get sid with
    | none => c
    | some s =>
      if s.state != .open_ && s.state != .halfClosedLocal then c
      else
        let c := if s.pending then sendBody c sid s else c
        match c.get sid with
        | none => c
        | some s => if s.pending then c else tryClose (sendOwnTrailers c sid s) sid

/-! ### Responses -/

/-- `should_enforce_response_content_length`, 1974-1982. -/
def enforce (method : Bytes) (status : Nat) : Bool :=
  method != b!"HEAD" && !((decide (100 ≤ status) && decide (status < 200)) || status == 204 || status == 304)

/-- `expected_content_length && body size != *expected_content_length`. -/
def mismatch (cl : Option Nat) (body : Bytes) : Bool := match cl with | some n => body.length != n | none => false

/-- The end state of a stream whose response is complete, 2040-2044. -/
def CStream.done (s : CStream) : CStream :=
  { s with dispatched := true, resp := {},
           state := if s.endSent && s.endRecv then .closed else if s.endRecv then .halfClosedRemote else s.state }

/-- `process_complete_response_if_ready`, 1990-2076. -/
def complete (c : Conn x) (sid : Nat) : Conn x :=
  match c.get sid with
  | none => c
  | some s =>
    if s.dispatched || !s.main || !(s.endRecv || s.rstRecv) || (s.trailersExp && !s.trailersRecv && !s.rstRecv) then c
    else if enforce s.req.method s.resp.status && mismatch s.cl s.resp.body then sendRst c sid PROTOCOL_ERROR
    else
      let c := tryClose ({ c with ctl := 0 }.put sid (some s.done)) sid
      callback c (.response sid s.req.app s.resp (if s.rstRecv then s.err else NO_ERROR))

/-- `send_window_update`, 1816-1828, for more than 0 octets. -/
def sendWindowUpdate (c : Conn x) (sid inc : Nat) : Conn x := c.add (.windowUpdate sid inc)

/-- `conditionally_send_connection_window_update`, 1833-1842. -/
def condConnUpdate (c : Conn x) : Conn x :=
  if !c.ok then c
  else if c.processed ≥ THRESHOLD then { sendWindowUpdate c 0 c.processed with recvW := c.recvW + (c.processed : Int), processed := 0 }
  else c

/-- The stream's WINDOW_UPDATE, 389-394 and 418-423. -/
def creditStream (c : Conn x) (sid : Nat) : Conn x :=
  match c.get sid with
  | none => c
  | some s =>
    if s.processed ≥ THRESHOLD then
      (sendWindowUpdate c sid s.processed).put sid (some { s with localW := s.localW + (s.processed : Int), processed := 0 })
    else c

/-- DATA counted against the connection only, 1481-1484, 1499-1500. -/
def debit (c : Conn x) (n : Nat) : Conn x := { c with recvW := c.recvW - (n : Int), processed := c.processed + n }

/-- `handle_data_for_unknown_stream`, 1465-1485. -/
def dataUnknown (c : Conn x) (sid n : Nat) : Conn x :=
  let c := if sid % 2 == 0 then sendRst c sid STREAM_CLOSED else goaway c PROTOCOL_ERROR
  condConnUpdate (debit c n)

/-- The stream after an accepted DATA frame, 357-363, 370-372. -/
def CStream.accept (s : CStream) (n : Nat) (d : Bytes) : CStream :=
  { s with localW := s.localW - (n : Int), processed := s.processed + n, resp := { s.resp with body := s.resp.body ++ d } }

/-- The response ends with this DATA frame, 382-387. -/
def CStream.ended (s : CStream) : CStream := { s with endRecv := true, state := recvEnd s.state }

/-- The end of the response by DATA, 388-416. -/
def dataEnd (c : Conn x) (sid : Nat) : Conn x :=
  let c := condConnUpdate (creditStream c sid)
  match c.get sid with
  | none => c
  | some s =>
    if !s.trailersExp && enforce s.req.method s.resp.status && mismatch s.cl s.resp.body then sendRst c sid PROTOCOL_ERROR
    else
      let c := if !s.trailersExp then complete c sid else c
      match c.get sid with
      | none => c
      | some s => if s.state == .closed then tryClose c sid else c

/-- `expected_content_length && body_size > *expected_content_length`, 377. -/
def overlong (cl : Option Nat) (body : Bytes) : Bool := match cl with | some n => decide (body.length > n) | none => false

/-- `on(DataFrame)`, 316-437; `pad` is the padding with its length octet. -/
def onData (c : Conn x) (sid : Nat) (d : Bytes) (pad : Nat) (fin : Bool) : Conn x :=
  let n := d.length + pad
  match c.get sid with
  | none => dataUnknown c sid n
  | some s =>
    if s.state == .closed || s.rstSent || s.rstRecv then goaway c STREAM_CLOSED      -- 331-334, 1492-1513
    else if s.state != .open_ && s.state != .halfClosedLocal then sendRst c sid STREAM_CLOSED
    else if s.localW < (n : Int) then goaway (sendRst c sid FLOW_CONTROL_ERROR) FLOW_CONTROL_ERROR
    else if c.recvW < (n : Int) then goaway c FLOW_CONTROL_ERROR
    else
      let s := s.accept n d
      let c := { (debit c n).put sid (some s) with ctl := 0 }
      if !d.isEmpty && decide (s.resp.body.length > MAX_BODY_SIZE) then sendRst c sid ENHANCE_YOUR_CALM
      else if !d.isEmpty && overlong s.cl s.resp.body then sendRst c sid PROTOCOL_ERROR
      else if fin then dataEnd (c.put sid (some s.ended)) sid
      else condConnUpdate (creditStream c sid)

/-- The state of the field loop, 2205-2210. -/
structure Head where
  status : Option Bytes := none
  regular : Bool := false
  cl : Option Nat := none
  headers : Headers := []

/-- An earlier content-length that differs, 2281-2284. -/
def conflicts (cl : Option Nat) (n : Nat) : Bool := match cl with | some m => m != n | none => false

/-- One field of a response head (`trailers = false`) or of its trailers, 2227-2290. -/
def headField (trailers : Bool) (method : Bytes) (h : Head) (name value : Bytes) : Except Nat Head :=
  if name.isEmpty then .error PROTOCOL_ERROR
  else if name.head? == some c!":" then
    if trailers || h.regular then .error PROTOCOL_ERROR
    else if name == b!":status" then
      if h.status.isSome then .error PROTOCOL_ERROR
      else if value.length != 3 || value.any (fun b => b < 48 || b > 57) then .error PROTOCOL_ERROR
      else .ok { h with status := some value }
    else .error PROTOCOL_ERROR
  else if !isValidHeaderField name value then .error PROTOCOL_ERROR
  else if isForbiddenResponseHeader (lowerName name) then .error PROTOCOL_ERROR
  else if lowerName name == b!"content-length" then
    match parseContentLength value with
    | none => .error PROTOCOL_ERROR
    | some n =>
      if conflicts h.cl n.toNat then .error PROTOCOL_ERROR
      else if method != b!"HEAD" && decide (n.toNat > MAX_BODY_SIZE) then .error ENHANCE_YOUR_CALM
      else .ok { h with regular := true, cl := some n.toNat, headers := Parse.push h.headers name value }
  else .ok { h with regular := true, headers := Parse.push h.headers name value }

/-- The field loop, 2226-2291. -/
def headLoop (trailers : Bool) (method : Bytes) : List Field → Head → Except Nat Head
  | [], h => .ok h
  | (n, v) :: fs, h => match headField trailers method h n v with
    | .error e => .error e
    | .ok h' => headLoop trailers method fs h'

/-- The value of three digits, 35-50. -/
def statusValue (v : Bytes) : Nat := v.foldl (fun n b => 10 * n + (b.toNat - 48)) 0

/-- `parse_and_validate_headers_into_response`, 2203-2311: the response and the declared length after the block. -/
def respBlock (s : CStream) (trailers : Bool) (fs : List Field) : Except Nat (Resp × Option Nat) :=
  if !validateOrder fs then .error PROTOCOL_ERROR
  else if !trailers && !validateResponsePseudo fs then .error PROTOCOL_ERROR
  else match headLoop trailers s.req.method fs { cl := s.cl, headers := s.resp.headers } with
    | .error e => .error e
    | .ok h =>
      if trailers then .ok ({ s.resp with headers := h.headers }, h.cl)
      else match h.status with
        | none => .error PROTOCOL_ERROR
        | some v => if statusValue v < 100 then .error PROTOCOL_ERROR else .ok ({ s.resp with status := statusValue v, headers := h.headers }, h.cl)

/-- `hf.name == "trailer" || hf.name == "Trailer"`, 2143-2148. -/
def hasTrailer (fs : List Field) : Bool := fs.any fun f => f.1 == b!"trailer" || f.1 == b!"Trailer"

/-- The stream after a block, 2132-2150 and 545-569; `ended`: no trailers are expected after it. -/
def CStream.block (s : CStream) (r : Resp) (cl : Option Nat) (fs : List Field) (ended : Bool) : CStream :=
  let s1 := { s with resp := r, cl := cl }
  if s.main then { s1 with trailersRecv := true }
  else { s1 with main := true, trailersExp := s.trailersExp || (!ended && hasTrailer fs) }

/-- `clear_header_assembly_state`, 1404-1409. -/
def clear (c : Conn x) : Conn x := { c with frag := [], curSid := 0, contCount := 0 }

/-- A complete block is decoded and put into the response, 2103-2150 and 518-569; `false` if it was refused. -/
def takeBlock (c : Conn x) (sid : Nat) (s : CStream) (ended : Bool) : Conn x × Bool :=
  let d := x.decode c.dec c.frag
  let c := { c with dec := d.2 }
  match d.1 with
  | none => (clear (goaway (sendRst c sid COMPRESSION_ERROR) COMPRESSION_ERROR), false)
  | some fs =>
    let c := clear c
    match respBlock s s.main fs with
    | .error e => (sendRst c sid e, false)
    | .ok (r, cl) => (c.put sid (some (s.block r cl fs ended)), true)

/-- END_STREAM on HEADERS, 2173-2191. -/
def CStream.endHead (s : CStream) (endHeaders : Bool) : CStream :=
  { s with endRecv := true, main := s.main || endHeaders, trailersRecv := s.trailersRecv || (s.trailersExp && endHeaders),
           state := if s.endSent then .closed else if s.state == .open_ then .halfClosedRemote else s.state }

/-- The end of `process_incoming_headers`, 2173-2194. -/
def headersEnd (c : Conn x) (sid : Nat) (fin endHeaders : Bool) : Conn x :=
  match c.get sid with
  | none => c
  | some s => complete (if fin then c.put sid (some (s.endHead endHeaders)) else c) sid

/-- `process_incoming_headers`, 2084-2195. -/
def headersOn (c : Conn x) (sid : Nat) (s : CStream) (frag : Bytes) (fin endHeaders : Bool) : Conn x :=
  if s.endRecv && !s.trailersExp then sendRst c sid PROTOCOL_ERROR
  else if s.main && !s.trailersExp then sendRst c sid PROTOCOL_ERROR
  else if s.expecting then goaway (sendRst c sid PROTOCOL_ERROR) PROTOCOL_ERROR
  else
    let c := { c with curSid := sid, frag := c.frag ++ frag }
    if c.frag.length > MAX_HEADER_BLOCK_SIZE then clear (goaway c ENHANCE_YOUR_CALM)
    else if endHeaders then
      let r := takeBlock c sid s fin
      if r.2 then headersEnd r.1 sid fin endHeaders else r.1
    else headersEnd (c.put sid (some { s with expecting := true })) sid fin endHeaders

/-- `on(HeadersFrame)`, 443-468. -/
def onHeaders (c : Conn x) (sid : Nat) (frag : Bytes) (fin endHeaders : Bool) : Conn x :=
  match c.get sid with
  | none => if sid % 2 != 0 && decide (sid > c.lastInit) then goaway c PROTOCOL_ERROR else sendRst c sid STREAM_CLOSED
  | some s => headersOn c sid s frag fin endHeaders

/-- `on(ContinuationFrame)`, 474-590. -/
def onContinuation (c : Conn x) (sid : Nat) (frag : Bytes) (endHeaders : Bool) : Conn x :=
  if c.curSid == 0 || c.curSid != sid then goaway c PROTOCOL_ERROR
  else match c.get sid with
    | none => clear (goaway c INTERNAL_ERROR)
    | some s =>
      if !s.expecting then clear (goaway (sendRst c sid PROTOCOL_ERROR) PROTOCOL_ERROR)
      else
        let c := { c with contCount := c.contCount + 1 }
        if c.contCount > MAX_CONTINUATION_FRAMES then clear (goaway c ENHANCE_YOUR_CALM)
        else
          let c := { c with frag := c.frag ++ frag }
          if c.frag.length > MAX_HEADER_BLOCK_SIZE then clear (goaway c ENHANCE_YOUR_CALM)
          else if endHeaders then
            let r := takeBlock c sid { s with expecting := false } s.endRecv
            if r.2 then complete r.1 sid else r.1
          else complete c sid

/-! ### Control frames -/

/-- The loops that flush streams, 1040-1049 and 1884-1894. -/
def sendAll : List Nat → Conn x → Conn x
  | [], c => c
  | sid :: ids, c =>
    match c.get sid with
    | none => sendAll ids c
    | some s => if s.pending then (if !(trySend c sid).active then trySend c sid else sendAll ids (trySend c sid)) else sendAll ids c

/-- `update_initial_peer_window_size`, 1849-1896. -/
def updateInitial (c : Conn x) (new : Nat) : Conn x :=
  let delta : Int := (new : Int) - (c.initPeer : Int)
  let unblocked := c.ids.filter fun j => match c.get j with | some s => decide (s.peerW ≤ 0) && decide (s.peerW + delta > 0) && s.pending | none => false
  let c := { c with initPeer := new, get := fun j => (c.get j).map fun s => { s with peerW := s.peerW + delta } }
  if c.ids.any fun j => match c.get j with | some s => decide (s.peerW > 2147483647) | none => false then goaway c FLOW_CONTROL_ERROR
  else sendAll unblocked c

/-- One setting that passed validation, 637-667. -/
def applySetting (c : Conn x) (id : UInt16) (value : UInt32) : Conn x :=
  if id == 1 then { c with enc := x.encPeerMax c.enc value.toNat }
  else if id == 3 then { c with peerMaxConc := value.toNat }
  else if id == 4 then updateInitial c value.toNat
  else if id == 5 then { c with peerMaxFrame := (H2.clampPeerMax value).toNat }
  else c

/-- The loop over the entries, 625-668: `false` if a setting was refused. -/
def settingsLoop : List (UInt16 × UInt32) → Conn x → Conn x × Bool
  | [], c => (c, true)
  | (id, v) :: es, c =>
    match validateSetting id v with
    | some e => (goaway c e.toNat, false)
    | none => settingsLoop es (applySetting c id v)

/-- A reply to PING or SETTINGS, 672-682 and 2479-2490. -/
def reply (c : Conn x) (e : Ev) : Conn x :=
  let c := { c with ctl := c.ctl + 1 }
  if c.ctl > MAX_QUEUED_CONTROL_REPLIES then goaway c ENHANCE_YOUR_CALM else c.add e

/-- `on(SettingsFrame)`, 593-684. -/
def onSettings (c : Conn x) (ack : Bool) (entries : List (UInt16 × UInt32)) : Conn x :=
  if ack then (if entries.isEmpty then c else goaway c FRAME_SIZE_ERROR)
  else
    let r := settingsLoop entries c
    if r.2 then reply r.1 .settingsAck else r.1

/-- `on(RstStreamFrame)`, 688-721. -/
def onRst (c : Conn x) (sid code : Nat) : Conn x :=
  if sid == 0 then goaway c PROTOCOL_ERROR
  else match c.get sid with
    | some s =>
      let c := c.put sid none
      if !s.dispatched then callback c (.streamError sid code) else c
    | none => if sid % 2 != 0 && decide (sid > c.lastInit) then goaway c PROTOCOL_ERROR else c

/-- One stream that GOAWAY closes, 946-958. -/
def sweepOne (code : Nat) (c : Conn x) (sid : Nat) : Conn x :=
  match c.get sid with
  | none => c
  | some s =>
    let c := complete (c.put sid (some { s with err := code, rstRecv := true, state := .closed })) sid
    c.put sid none

/-- `are_all_relevant_streams_closed`, 1416-1426. -/
def relevantClosed (c : Conn x) (last : Nat) : Bool :=
  (List.range c.next).all fun j => match c.get j with
    | some s => !(j % 2 != 0 && decide (j ≤ last) && s.state != .closed && !s.rstSent && !s.rstRecv)
    | none => true

/-- `on(GoAwayFrame)`, 922-994. -/
def onGoaway (c : Conn x) (last code : Nat) : Conn x :=
  let c := { c with goawayRecv := true }
  let c := (c.ids.filter fun j => decide (j > last) && j % 2 != 0).foldl (sweepOne code) c
  let c := c.add (.goawayEvent code last)
  if code != NO_ERROR then { c with ok := false }
  else if relevantClosed c last then { c with ok := false }
  else c

/-- `on(WindowUpdateFrame)`, 997-1086. -/
def onWindowUpdate (c : Conn x) (sid inc : Nat) : Conn x :=
  if inc == 0 then (if sid == 0 then goaway c PROTOCOL_ERROR else sendRst c sid PROTOCOL_ERROR)
  else if sid == 0 then
    if c.sendW > 2147483647 - (inc : Int) then goaway c FLOW_CONTROL_ERROR
    else
      let c := { c with sendW := c.sendW + (inc : Int) }
      sendAll (c.ids.filter fun j => match c.get j with | some s => s.pending | none => false) c
  else match c.get sid with
    | none => if sid % 2 != 0 && decide (sid > c.lastInit) then goaway c PROTOCOL_ERROR else c
    | some s =>
      if s.state == .idle then goaway c PROTOCOL_ERROR
      else if s.peerW > 2147483647 - (inc : Int) then goaway (sendRst c sid FLOW_CONTROL_ERROR) FLOW_CONTROL_ERROR
      else
        let c := c.put sid (some { s with peerW := s.peerW + (inc : Int) })
        if s.pending then trySend c sid else c

/-- What the client does with a frame. -/
def handle (c : Conn x) : In → Conn x
  | .data sid d pad fin => onData c sid d pad fin
  | .headers sid frag fin eh => onHeaders c sid frag fin eh
  | .continuation sid frag eh => onContinuation c sid frag eh
  | .settings ack es => onSettings c ack es
  | .rst sid code => onRst c sid code
  | .goaway last code => onGoaway c last code
  | .windowUpdate sid inc => onWindowUpdate c sid inc
  | .ping ack d => if ack then c else reply c (.pong d)                  -- 2474-2494
  | .pushPromise => goaway c PROTOCOL_ERROR                              -- 725-758
  | .priority sid => if sid == 0 then goaway c PROTOCOL_ERROR else c     -- 1090-1104
  | .bad => { c with ok := false }                                       -- base.h 789-794, client.h 1910-1911

/-- The framer wants a CONTINUATION next, base.h 1281-1285, 1369-1372. -/
def nextNeed (c : Conn x) : In → Nat
  | .headers sid _ _ eh => if eh then 0 else sid
  | .continuation _ _ eh => if eh then 0 else c.need
  | _ => c.need

/-- The framer accepts the frame, base.h 617-630. -/
def admits (need : Nat) : In → Bool
  | .continuation sid _ _ => need == 0 || sid == need
  | _ => need == 0

/-- A frame arrives. -/
def receive (c : Conn x) (i : In) : Conn x :=
  if !c.ok then c
  else
    let c := c.add (.rx i)
    if !admits c.need i then { c with ok := false }
    else { handle c i with need := nextNeed c i }

/-- What can happen to a connection. -/
inductive Input
  | frame (i : In)
  | send (q : Req)
  | trailers (sid : Nat) (hs : Headers)

def step (c : Conn x) : Input → Conn x
  | .frame i => receive c i
  | .send q => sendRequest c q
  | .trailers sid hs => sendTrailers c sid hs

/-- A connection after `reset()`, 206-250, and the initial SETTINGS. -/
def Conn.init (d : x.D) (e : x.E) : Conn x := { dec := d, enc := e }

def run (c : Conn x) (is : List Input) : Conn x := is.foldl step c

/-- The frames of area H2 as inputs. -/
def ofFrame (f : H2.Frame) : In :=
  let sid := f.header.streamId.toNat
  let fin := H2.hasFlag f.header.flags H2.FLAG_END_STREAM
  let eh := H2.hasFlag f.header.flags H2.FLAG_END_HEADERS
  match f.payload with
  | .data d p => .data sid d p fin
  | .headers frag _ => .headers sid frag fin eh
  | .priority _ => .priority sid
  | .rst code => .rst sid code.toNat
  | .settings es => .settings (H2.hasFlag f.header.flags H2.FLAG_ACK) es
  | .pushPromise _ _ => .pushPromise
  | .ping d => .ping (H2.hasFlag f.header.flags H2.FLAG_ACK) d
  | .goaway last code _ => .goaway last.toNat code.toNat
  | .windowUpdate inc => .windowUpdate sid inc.toNat
  | .continuation frag => .continuation sid frag eh

end Verif.Clp
