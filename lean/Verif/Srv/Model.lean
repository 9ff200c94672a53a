import Verif.Stream.Model
import Verif.H2.FrameModel
import Verif.Parse.Model

/-! # The HTTP/2 server connection

`ServerHttp2Protocol`, `src/qbm/http/2/protocol/server.h`: what it does with every frame the framer delivers
(area H2) and with every call of the application.

Conventions and simplifications.

* Everything written to the peer and every callback into the application is appended to `out`, in order.
  `HEADERS` followed by its `CONTINUATION`s (`send_headers_with_continuation`, area H2, C24) is one entry.
  Debug texts are not modelled.
* Writing to the output pipe does not fail, so the `if (!this->ok())` branches right after a write are not taken.
* Callbacks for stream errors and GOAWAY do not call back into the protocol; the request handler may (`Script`).
* Identifiers, sizes and counters are `Nat`: identifiers have 31 bits, `_rst_stream_count * 2u` cannot wrap because
  the guard closes the connection long before, `processed_bytes_for_window_update` is below threshold + frame size.
  Flow-control windows are `Int` (`int64_t`).
* `std::unordered_map` iterates in an unspecified order: `Ext.order` is any rearrangement of the keys.
* HPACK is the parameter `Ext.decode`/`Ext.encode` (area Hpack has the concrete functions; `realExt` plugs them in).
  `qb::http::Method` and `qb::io::uri` are external: `methodKnown`, `pathEmpty`.
* `trailers_expected` is never set on the server, so it is `false`. Priorities, time stamps and
  `last_received_header_block_fragment` are left out; idle times are a parameter of `cleanup`. -/

namespace Verif.Srv
open Verif.Stream
open Verif.Wire (Headers find)

abbrev Field := Bytes × Bytes

/-- Error codes, frames.h 65-81. -/
def NO_ERROR : Nat := 0
def PROTOCOL_ERROR : Nat := 1
def INTERNAL_ERROR : Nat := 2
def FLOW_CONTROL_ERROR : Nat := 3
def STREAM_CLOSED : Nat := 5
def FRAME_SIZE_ERROR : Nat := 6
def REFUSED_STREAM : Nat := 7
def CANCEL : Nat := 8
def COMPRESSION_ERROR : Nat := 9
def ENHANCE_YOUR_CALM : Nat := 11

/-- Limits, base.h 76-114, 1.1/protocol/base.h 60, server.h 1469-1478, frames.h 104. -/
def MAX_BODY_SIZE : Nat := 104857600
def MAX_HEADER_BLOCK_SIZE : Nat := 1048576
def MAX_RAPID_RESETS : Nat := 100
def MAX_QUEUED_CONTROL_REPLIES : Nat := 1000
def MAX_CONTINUATION_FRAMES : Nat := 512
def OUR_MAX_CONCURRENT : Nat := 50
def INITIAL_WINDOW : Nat := 65535

/-- The request under assembly. -/
structure Request where
  method : Bytes := []
  scheme : Bytes := []
  authority : Bytes := []
  path : Bytes := []
  headers : Headers := []
  body : Bytes := []
deriving DecidableEq

/-- A response of the application. -/
structure Response where
  status : Nat
  headers : Headers
  body : Bytes
deriving DecidableEq

/-- External functions. -/
structure Ext where
  D : Type
  E : Type
  decode : D → Bytes → Option (List Field) × D
  encode : E → List Field → Option Bytes × E
  encPeerMax : E → Nat → E
  methodKnown : Bytes → Bool
  pathEmpty : Request → Bool
  order : List Nat → List Nat

/-- `Http2ServerStream`, stream.h 117-148, 320-370. -/
structure SStream where
  id : Nat
  state : State := .idle
  localW : Int := INITIAL_WINDOW
  peerW : Int
  threshold : Nat := 32767
  processed : Nat := 0
  endRecv : Bool := false
  endSent : Bool := false
  rstRecv : Bool := false
  rstSent : Bool := false
  err : Nat := 0
  headersMain : Bool := false
  trailersRecv : Bool := false
  expecting : Bool := false
  cl : Option Nat := none
  req : Request := {}
  dispatched : Bool := false
  body : Bytes := []
  offset : Nat := 0
  pending : Bool := false
  hasTrailer : Bool := false
  isTrailers : Bool := false
  parent : Nat := 0
deriving DecidableEq

/-- What leaves the protocol: frames to the peer and callbacks into the application. -/
inductive Out
  | settings
  | settingsAck
  | pong (d : Bytes)
  | headers (sid : Nat) (block : Bytes) (fin : Bool)
  | data (sid : Nat) (d : Bytes) (fin : Bool)
  | rst (sid code : Nat)
  | goaway (last code : Nat)
  | windowUpdate (sid inc : Nat)
  | pushPromise (sid promised : Nat) (block : Bytes)
  | request (sid : Nat) (r : Request)
  | streamError (sid code : Nat)
  | goawayEvent (code last : Nat)
deriving DecidableEq

/-- The connection, server.h 82-113. -/
structure Conn (x : Ext) where
  streams : List SStream := []
  lastClient : Nat := 0
  rstCount : Nat := 0
  ctl : Nat := 0
  contCount : Nat := 0
  frag : Bytes := []
  curSid : Nat := 0
  sendW : Int := INITIAL_WINDOW
  recvW : Int := INITIAL_WINDOW
  initPeer : Nat := INITIAL_WINDOW
  peerMaxConc : Nat := 4294967295
  peerMaxHdr : Nat := 4294967295
  peerMaxFrame : Nat := 16384
  allowPush : Bool := true
  settingsSent : Bool := false
  active : Bool := true
  shutdown : Bool := false
  ok : Bool := true
  goawayLast : Nat := 0
  dec : x.D
  enc : x.E
  out : List Out := []

variable {x : Ext}

/-- `_server_streams.find`. -/
def Conn.find (c : Conn x) (sid : Nat) : Option SStream := c.streams.find? (fun s => s.id == sid)

/-- Assignment through a reference into `_server_streams`. -/
def Conn.upd (c : Conn x) (sid : Nat) (f : SStream → SStream) : Conn x :=
  { c with streams := c.streams.map (fun s => if s.id == sid then f s else s) }

/-- `_server_streams.erase`. -/
def Conn.erase (c : Conn x) (sid : Nat) : Conn x := { c with streams := c.streams.filter (fun s => s.id != sid) }

/-- `this->_io << ...`, `this->_io.on(...)`. -/
def Conn.emit (c : Conn x) (o : Out) : Conn x := { c with out := c.out ++ [o] }

/-- `are_all_relevant_streams_closed`, server.h 2402-2421. -/
def relevantClosed (c : Conn x) (last : Nat) : Bool :=
  c.shutdown && c.streams.all (fun s =>
    !(s.id % 2 != 0 && decide (s.id ≤ last) && s.state != .closed && s.state != .idle && !s.rstSent && !s.rstRecv))

/-- `try_close_stream_context`, server.h 1952-1990. -/
def tryClose (c : Conn x) (sid : Nat) : Conn x :=
  match c.find sid with
  | none => c
  | some s =>
    if s.state == .closed || s.rstSent || s.rstRecv then
      let c := c.erase sid
      if c.shutdown && c.goawayLast != 0 then
        if relevantClosed c c.goawayLast then { c with active := false, ok := false } else c
      else if c.shutdown && c.streams.isEmpty && c.goawayLast == 0 then { c with active := false }
      else c
    else c

/-- `send_rst_stream`, server.h 1420-1462. -/
def sendRst (c : Conn x) (sid code : Nat) (closeCtx : Bool := true) : Conn x :=
  if !c.active && code != CANCEL then c
  else
    let c := c.emit (.rst sid code)
    match c.find sid with
    | none => c
    | some s =>
      let c := c.upd sid (fun s => { s with state := .closed, rstSent := true, err := code })
      let c := if (!s.dispatched || !s.endSent) && code != NO_ERROR then c.emit (.streamError sid code) else c
      if closeCtx then tryClose c sid else c

/-- `send_goaway_and_close` and `on_connection_error`, server.h 2002-2037, 2386-2391. -/
def goaway (c : Conn x) (code : Nat) : Conn x :=
  if !c.active then c
  else
    let c := c.emit (.goaway c.lastClient code)
    let c := { c with shutdown := true, active := false }
    let c := c.emit (.goawayEvent code c.lastClient)
    { c with ok := false }

/-- `send_window_update`, server.h 2046-2058. -/
def sendWindowUpdate (c : Conn x) (sid inc : Nat) : Conn x :=
  if !c.ok || inc == 0 then c else c.emit (.windowUpdate sid inc)

/-- `conditionally_send_connection_window_update`, server.h 2067-2079. -/
def condConnUpdate (c : Conn x) : Conn x :=
  if c.recvW < 32767 then
    let inc := (65535 - c.recvW).toNat
    if inc > 0 then
      let c := sendWindowUpdate c 0 inc
      { c with recvW := c.recvW + (inc : Int) }
    else c
  else c

/-- The loops that send the body, server.h 1760-1831 (`checkSent = false`) and 2178-2261 (`checkSent = true`):
the stream, the connection window, the frames, and whether it stopped for lack of window. The first argument
bounds the iterations (every iteration sends at least one octet, the callers pass the number of octets left). -/
def pump (checkSent : Bool) (maxFrame : Nat) : Nat → SStream → Int → SStream × Int × List Out × Bool
  | 0, s, w => (s, w, [], false)
  | n + 1, s, w =>
    if s.offset < s.body.length then
      if s.peerW ≤ 0 || w ≤ 0 then ({ s with pending := true }, w, [], true)
      else
        let k := min (s.body.length - s.offset) (min maxFrame (min s.peerW.toNat w.toNat))
        if k == 0 then ({ s with pending := true }, w, [], true)
        else
          let fin := s.offset + k == s.body.length && !s.isTrailers && !(checkSent && s.endSent)
          let o := Out.data s.id ((s.body.drop s.offset).take k) fin
          let s' := { s with offset := s.offset + k, peerW := s.peerW - (k : Int) }
          if fin then
            ({ s' with endSent := true, state := .halfClosedLocal, pending := if checkSent then false else s'.pending },
              w - (k : Int), [o], false)
          else
            let r := pump checkSent maxFrame n s' (w - (k : Int))
            (r.1, r.2.1, o :: r.2.2.1, r.2.2.2)
    else (s, w, [], false)

/-- Running a body loop on a stream of the connection. -/
def runPump (c : Conn x) (checkSent : Bool) (s : SStream) : Conn x × Bool :=
  let r := pump checkSent c.peerMaxFrame (s.body.length - s.offset) s c.sendW
  ({ c.upd s.id (fun _ => r.1) with sendW := r.2.1, out := c.out ++ r.2.2.1 }, r.2.2.2)

/-- The end of `try_send_pending_data_for_stream`, server.h 2269-2337. The trailer fields are the headers of the
response that were not in its first HEADERS frame; all of them were (server.h 1130), so the block is empty. -/
def finishSend (c : Conn x) (sid : Nat) : Conn x :=
  match c.find sid with
  | none => c
  | some s =>
    let full := s.offset == s.body.length
    let c := if full && s.isTrailers && !s.endSent then
        (c.emit (.headers sid [] true)).upd sid (fun s => { s with state := .halfClosedLocal, endSent := true, isTrailers := false })
      else c
    match c.find sid with
    | none => c
    | some s =>
      if s.endSent then
        let c := if s.state == .halfClosedLocal && s.endRecv then c.upd sid (fun s => { s with state := .closed }) else c
        tryClose c sid
      else c

/-- `try_send_pending_data_for_stream`, server.h 2157-2338. -/
def trySend (c : Conn x) (sid : Nat) : Conn x :=
  if !c.ok || !c.active then c
  else match c.find sid with
    | none => c
    | some s =>
      if s.state != .open_ && s.state != .halfClosedRemote then c
      else if s.pending && s.offset != s.body.length then
        let r := runPump c true s
        if r.2 then r.1
        else finishSend (r.1.upd sid (fun s => { s with pending := if s.offset == s.body.length then false else s.pending })) sid
      else finishSend c sid

/-- `send_response_body`, server.h 1744-1864 (it always reports success here, writes not failing). -/
def sendBody (c : Conn x) (sid : Nat) : Conn x :=
  match c.find sid with
  | none => c
  | some s0 =>
    let s := { s0 with isTrailers := s0.hasTrailer }
    let r := runPump c false s
    if r.2 then r.1
    else
      let c := r.1.upd sid (fun s => { s with pending := s.offset != s.body.length })
      match c.find sid with
      | none => c
      | some s =>
        if s.offset == s.body.length && s.isTrailers && !s.endSent then
          let c := trySend c sid
          match c.find sid with
          | none => c
          | some s => if s.endSent && s.endRecv then c.upd sid (fun s => { s with state := .closed }) else c
        else if s.endSent && s.endRecv then c.upd sid (fun s => { s with state := .closed })
        else c

/-- The values of one response header, server.h 1105-1124: the fields so far and the declared length so far. -/
def respValues (name : Bytes) : List Bytes → List Field → Option Nat → Except Nat (List Field × Option Nat)
  | [], fs, d => .ok (fs, d)
  | v :: vs, fs, d =>
    if !isValidHeaderField name v then .error PROTOCOL_ERROR
    else if name == b!"content-length" then
      match parseContentLength v with
      | none => .error PROTOCOL_ERROR
      | some n =>
        match d with
        | none => respValues name vs (fs ++ [(name, v)]) (some n.toNat)
        | some m => if m != n.toNat then .error PROTOCOL_ERROR else respValues name vs (fs ++ [(name, v)]) (some n.toNat)
    else respValues name vs (fs ++ [(name, v)]) d

/-- `ascii_to_lower` on a name, server.h 1097-1099. -/
def lowerName (n : Bytes) : Bytes := n.map Verif.Utility.asciiToLower

/-- The header loop of `send_response`, server.h 1096-1131. -/
def respFields : Headers → List Field → Option Nat → Except Nat (List Field × Option Nat)
  | [], fs, d => .ok (fs, d)
  | (n, vs) :: hs, fs, d =>
    let name := lowerName n
    if name.isEmpty || name.head? == some c!":" || isForbiddenResponseHeader name then .error PROTOCOL_ERROR
    else match respValues name vs fs d with
      | .error e => .error e
      | .ok (fs', d') => respFields hs fs' d'

/-- `std::to_string` of a status code. -/
def decimal (n : Nat) : Bytes := (Nat.toDigits 10 n).map (fun ch => UInt8.ofNat ch.toNat)

/-- The checks of the response body against the declared length, server.h 1133-1145. -/
def bodyCheck (isHead : Bool) (r : Response) (d : Option Nat) : Option Nat :=
  let mustMatch := !isHead && !((decide (100 ≤ r.status) && decide (r.status < 200)) || r.status == 204 || r.status == 304)
  if mustMatch && (match d with | some n => r.body.length != n | none => false) then some PROTOCOL_ERROR
  else if r.body.length > MAX_BODY_SIZE then some ENHANCE_YOUR_CALM
  else none

/-- The end of `send_response` once the header block is encoded, server.h 1154-1208. -/
def sendHead (c : Conn x) (sid : Nat) (block : Bytes) (r : Response) : Conn x :=
  if c.peerMaxHdr > 0 && decide (block.length > c.peerMaxHdr) then sendRst c sid INTERNAL_ERROR
  else
    let c := c.emit (.headers sid block r.body.isEmpty)
    if r.body.isEmpty then
      let c := c.upd sid (fun s => { s with endSent := true, state := sendEnd s.state })
      match c.find sid with
      | none => c
      | some s => if s.state == .closed then tryClose c sid else c
    else
      let c := sendBody c sid
      match c.find sid with
      | none => c
      | some s => if s.state == .closed then tryClose c sid else c

/-- `send_response`, server.h 1070-1209. -/
def sendResponse (c : Conn x) (sid : Nat) (r : Response) : Conn x :=
  match c.find sid with
  | none => c
  | some s =>
    let c := c.upd sid (fun s => { s with body := r.body, offset := 0, hasTrailer := (find r.headers b!"Trailer").isSome })
    if s.state == .idle || s.state == .reservedLocal then sendRst c sid PROTOCOL_ERROR
    else if s.state == .closed || s.state == .halfClosedLocal then c
    else match respFields r.headers [(b!":status", decimal r.status)] none with
      | .error e => sendRst c sid e
      | .ok (fs, d) =>
        match bodyCheck (s.req.method == b!"HEAD") r d with
        | some e => sendRst c sid e
        | none =>
          let e := x.encode c.enc fs
          let c := { c with enc := e.2 }
          match e.1 with
          | none => goaway c COMPRESSION_ERROR
          | some block => sendHead c sid block r

/-- `get_active_stream_count(true)`, server.h 2471-2488. -/
def pushedCount (c : Conn x) : Nat :=
  (c.streams.filter (fun s => s.state != .idle && s.state != .closed && !s.rstSent && !s.rstRecv && s.id % 2 == 0)).length

/-- `send_push_promise`, server.h 1223-1344; `fields` are the fields of the promised request, `none` if it lacks a
method, scheme or authority (1273-1318). -/
def sendPush (c : Conn x) (sid promised : Nat) (fields : Option (List Field)) : Conn x :=
  if !c.ok || !c.active then c
  else if !c.allowPush then c
  else if promised == 0 || promised % 2 != 0 then c
  else if pushedCount c ≥ c.peerMaxConc then c
  else match c.find sid with
    | none => c
    | some s =>
      if s.state != .open_ && s.state != .halfClosedRemote then c
      else if (c.find promised).isSome then c
      else match fields with
        | none => c
        | some fs =>
          let e := x.encode c.enc fs
          match e.1 with
          | none => { c with enc := e.2 }
          | some block =>
            { c with
              enc := e.2
              streams := c.streams ++ [{ id := promised, state := .reservedLocal, peerW := c.initPeer, parent := sid }]
              out := c.out ++ [.pushPromise sid promised block] }

/-- What an application may call. -/
inductive Act
  | respond (sid : Nat) (r : Response)
  | reset (sid code : Nat)
  | push (sid promised : Nat) (fields : Option (List Field))

def act (c : Conn x) : Act → Conn x
  | .respond sid r => sendResponse c sid r
  | .reset sid code => sendRst c sid code
  | .push sid p f => sendPush c sid p f

/-- What the request handler does when it is called: some calls, and perhaps it throws. -/
structure Script where
  acts : List Act := []
  throws : Bool := false

/-- `dispatch_complete_request`, server.h 1876-1941. -/
def dispatch (c : Conn x) (sid : Nat) (h : Script) : Conn x :=
  match c.find sid with
  | none => c
  | some s =>
    if s.dispatched || s.rstSent || s.rstRecv then c
    else if c.ok && c.active then
      if x.pathEmpty s.req then sendRst c sid INTERNAL_ERROR
      else
        let c := c.upd sid (fun s => { s with dispatched := true })
        let c := c.emit (.request sid s.req)
        let c := h.acts.foldl act c
        if h.throws then sendRst c sid INTERNAL_ERROR false
        else match c.find sid with
          | none => c
          | some s => if s.state == .closed then tryClose c sid else c
    else c

/-- The pseudo-headers seen and the request so far, server.h 1573-1577. -/
structure Head where
  method : Option Bytes := none
  scheme : Option Bytes := none
  path : Option Bytes := none
  authority : Option Bytes := none
  regular : Bool := false
  cl : Option Nat := none
  headers : Headers := []

/-- One field of the request head, server.h 1579-1655. -/
def headField (h : Head) (name value : Bytes) : Except Nat Head :=
  if name.isEmpty then .error PROTOCOL_ERROR
  else if name.head? == some c!":" then
    if h.regular then .error PROTOCOL_ERROR
    else if !isValidHeaderValue value then .error PROTOCOL_ERROR
    else if name == b!":method" then
      if h.method.isSome then .error PROTOCOL_ERROR else .ok { h with method := some value }
    else if name == b!":scheme" then
      if h.scheme.isSome then .error PROTOCOL_ERROR else .ok { h with scheme := some value }
    else if name == b!":path" then
      if h.path.isSome then .error PROTOCOL_ERROR else .ok { h with path := some value }
    else if name == b!":authority" then
      if h.authority.isSome then .error PROTOCOL_ERROR else .ok { h with authority := some value }
    else .error PROTOCOL_ERROR
  else if !isValidHeaderField name value then .error PROTOCOL_ERROR
  else if isForbiddenHeader name || (name == b!"te" && !isValidTe value) then .error PROTOCOL_ERROR
  else if name == b!"content-length" then
    match parseContentLength value with
    | none => .error PROTOCOL_ERROR
    | some n =>
      if (match h.cl with | some m => m != n.toNat | none => false) then .error PROTOCOL_ERROR
      else if n.toNat > MAX_BODY_SIZE then .error ENHANCE_YOUR_CALM
      else .ok { h with regular := true, cl := some n.toNat, headers := Parse.push h.headers name value }
  else .ok { h with regular := true, headers := Parse.push h.headers name value }

/-- The field loop, server.h 1578-1656. -/
def headLoop : List Field → Head → Except Nat Head
  | [], h => .ok h
  | (n, v) :: fs, h => match headField h n v with
    | .error e => .error e
    | .ok h' => headLoop fs h'

/-- The checks after the loop, server.h 1658-1681: the request head. -/
def headCheck (methodKnown : Bytes → Bool) (h : Head) : Except Nat Request :=
  match h.method, h.scheme, h.path with
  | some m, some s, some p =>
    if p.isEmpty then .error PROTOCOL_ERROR
    else match h.authority with
      | none => .error PROTOCOL_ERROR
      | some a =>
        if a.isEmpty then .error PROTOCOL_ERROR
        else if !methodKnown m then .error PROTOCOL_ERROR
        else .ok { method := m, scheme := s, authority := a, path := p, headers := h.headers }
  | _, _, _ => .error PROTOCOL_ERROR

/-- The request head and the declared length. -/
def requestHead (methodKnown : Bytes → Bool) (fs : List Field) : Except Nat (Request × Option Nat) :=
  match headLoop fs {} with
  | .error e => .error e
  | .ok h => match headCheck methodKnown h with
    | .error e => .error e
    | .ok r => .ok (r, h.cl)

/-- The trailer loop, server.h 1693-1710. -/
def trailerLoop : List Field → Headers → Option Headers
  | [], hs => some hs
  | (n, v) :: fs, hs =>
    if n.isEmpty || n.head? == some c!":" then none
    else if !isValidHeaderField n v then none
    else if isForbiddenTrailerHeader n then none
    else trailerLoop fs (Parse.push hs n v)

/-- `expected_content_length && body size != expected_content_length`. -/
def mismatch (cl : Option Nat) (body : Bytes) : Bool := match cl with | some n => body.length != n | none => false

/-- `process_complete_header_block` of a request head, server.h 1570-1689. -/
def processHead (c : Conn x) (sid : Nat) (fs : List Field) (h : Script) : Conn x × Bool :=
  match requestHead x.methodKnown fs with
  | .error e => (sendRst c sid e, false)
  | .ok (r, cl) =>
    let c := c.upd sid (fun s => { s with headersMain := true, cl := cl, req := { r with body := s.req.body } })
    match c.find sid with
    | none => (c, true)
    | some s =>
      if s.endRecv then
        if mismatch s.cl s.req.body then (sendRst c sid PROTOCOL_ERROR, false)
        else (dispatch c sid h, true)
      else (c, true)

/-- `process_complete_header_block` of trailers, server.h 1691-1729. -/
def processTrailers (c : Conn x) (sid : Nat) (fs : List Field) (h : Script) : Conn x × Bool :=
  match c.find sid with
  | none => (c, true)
  | some s =>
    match trailerLoop fs s.req.headers with
    | none => (sendRst c sid PROTOCOL_ERROR, false)
    | some hs =>
      let c := c.upd sid (fun s => { s with trailersRecv := true, req := { s.req with headers := hs } })
      if !s.endRecv then (sendRst c sid PROTOCOL_ERROR, false)
      else if mismatch s.cl s.req.body then (sendRst c sid PROTOCOL_ERROR, false)
      else if !s.dispatched then (dispatch c sid h, true)
      else (c, true)

/-- `process_complete_header_block`, server.h 1539-1731. -/
def processBlock (c : Conn x) (sid : Nat) (trailers : Bool) (h : Script) : Conn x × Bool :=
  let d := x.decode c.dec c.frag
  let c := { c with dec := d.2 }
  match d.1 with
  | none => (sendRst c sid COMPRESSION_ERROR, false)
  | some fs =>
    let c := { c with frag := [] }
    let c := c.upd sid (fun s => { s with expecting := false })
    if !trailers then processHead c sid fs h else processTrailers c sid fs h

/-- `clear_header_assembly_state`, server.h 1523-1526. -/
def clearAssembly (c : Conn x) : Conn x := { c with frag := [], curSid := 0 }

/-- DATA on a stream without context, server.h 286-296. -/
def dataUnknown (c : Conn x) (sid n : Nat) : Conn x :=
  if sid > c.lastClient then goaway c PROTOCOL_ERROR
  else condConnUpdate (sendRst { c with recvW := c.recvW - (n : Int) } sid STREAM_CLOSED)

/-- The stream's WINDOW_UPDATE, server.h 350-356 and 383-390. -/
def creditStream (c : Conn x) (sid n : Nat) : Conn x :=
  match c.find sid with
  | none => c
  | some s =>
    let p := s.processed + n
    if p ≥ s.threshold && decide (s.threshold > 0) then
      (sendWindowUpdate c sid p).upd sid (fun s => { s with localW := s.localW + (p : Int), processed := 0 })
    else c.upd sid (fun s => { s with processed := p })

/-- The end of the request by DATA, server.h 348-379. -/
def dataEnd (c : Conn x) (sid n : Nat) (h : Script) : Conn x :=
  let c := c.upd sid (fun s => { s with endRecv := true })
  let c := condConnUpdate (creditStream c sid n)
  match c.find sid with
  | none => c
  | some s =>
    if s.headersMain && mismatch s.cl s.req.body then sendRst c sid PROTOCOL_ERROR
    else
      let c := if s.headersMain then dispatch c sid h else c
      match c.find sid with
      | none => c
      | some s =>
        if s.endSent then tryClose (c.upd sid (fun s => { s with state := .closed })) sid
        else c.upd sid (fun s => { s with state := .halfClosedRemote })

/-- `expected_content_length && body size > *expected_content_length`, server.h 342. -/
def overlong (cl : Option Nat) (body : Bytes) : Bool := match cl with | some n => decide (body.length > n) | none => false

/-- `_connection_receive_window -= data_payload_size`. -/
def recvLess (c : Conn x) (n : Nat) : Conn x := { c with recvW := c.recvW - (n : Int) }

/-- DATA accepted on a stream, server.h 324-394. -/
def dataAccept (c : Conn x) (sid n : Nat) (d : Bytes) (fin : Bool) (h : Script) : Conn x :=
  let c := { c with recvW := c.recvW - (n : Int), ctl := 0 }
  let c := c.upd sid (fun s => { s with localW := s.localW - (n : Int), req := { s.req with body := s.req.body ++ d } })
  match c.find sid with
  | none => c
  | some s =>
    if s.req.body.length > MAX_BODY_SIZE then sendRst c sid ENHANCE_YOUR_CALM
    else if overlong s.cl s.req.body then sendRst c sid PROTOCOL_ERROR
    else if fin then dataEnd c sid n h
    else condConnUpdate (creditStream c sid n)

/-- `on(DataFrame)`, server.h 260-394; `pad` is the padding with its length octet. -/
def onData (c : Conn x) (sid : Nat) (d : Bytes) (pad : Nat) (fin : Bool) (h : Script) : Conn x :=
  let n := d.length + pad
  if !c.ok || !c.active then c
  else if sid == 0 then goaway c PROTOCOL_ERROR
  else if (n : Int) > c.recvW && decide (n > 0) then goaway c FLOW_CONTROL_ERROR
  else match c.find sid with
    | none => dataUnknown c sid n
    | some s =>
      if s.state == .idle || s.state == .closed || s.rstSent || s.rstRecv then
        let c := condConnUpdate (recvLess c n)
        if s.state == .idle then sendRst c sid STREAM_CLOSED else c
      else if s.endRecv then
        condConnUpdate (recvLess (sendRst c sid STREAM_CLOSED) n)
      else if (n : Int) > s.localW && decide (n > 0) then
        condConnUpdate (recvLess (sendRst c sid FLOW_CONTROL_ERROR) n)
      else dataAccept c sid n d fin h

/-- Open, half-closed (local) or half-closed (remote). -/
def isActive (s : SStream) : Bool := s.state == .open_ || s.state == .halfClosedLocal || s.state == .halfClosedRemote

/-- Active client streams, server.h 435-444. -/
def activeCount (c : Conn x) : Nat := (c.streams.filter (fun s => s.id % 2 != 0 && isActive s)).length

/-- The state changes of a HEADERS frame, server.h 497-508. -/
def markHeaders (c : Conn x) (sid : Nat) (fin endHeaders : Bool) : Conn x :=
  let c := c.upd sid (fun s => { s with state := if s.state == .idle then .open_ else s.state })
  if fin then c.upd sid (fun s => { s with endRecv := true, state := if endHeaders then recvEnd s.state else s.state })
  else c

/-- A header block that is complete with its HEADERS frame, server.h 510-529. -/
def headersEnd (c : Conn x) (sid : Nat) (trailers : Bool) (h : Script) : Conn x :=
  let c := c.upd sid (fun s => { s with expecting := false })
  let r := processBlock c sid trailers h
  clearAssembly (if !r.2 then r.1
    else match r.1.find sid with
      | none => r.1
      | some s => if s.state == .closed then tryClose r.1 sid else r.1)

/-- `on(HeadersFrame)` on a stream with a context, server.h 461-533. -/
def headersOn (c : Conn x) (s : SStream) (frag : Bytes) (fin endHeaders : Bool) (h : Script) : Conn x :=
  let sid := s.id
  if s.expecting then clearAssembly (goaway c PROTOCOL_ERROR)
  else if s.state == .closed || s.rstRecv || s.rstSent then c
  else if s.state == .halfClosedRemote then sendRst c sid PROTOCOL_ERROR
  else
    let c := { c with ctl := 0, contCount := 0 }
    if c.curSid != 0 && c.curSid != sid then goaway c PROTOCOL_ERROR
    else
      let c := { c with curSid := sid, frag := c.frag ++ frag }
      if c.frag.length > MAX_HEADER_BLOCK_SIZE then goaway c ENHANCE_YOUR_CALM
      else
        let c := markHeaders c sid fin endHeaders
        if endHeaders then headersEnd c sid s.headersMain h
        else c.upd sid (fun s => { s with expecting := true })

/-- `on(HeadersFrame)`, server.h 401-534. -/
def onHeaders (c : Conn x) (sid : Nat) (frag : Bytes) (fin endHeaders : Bool) (h : Script) : Conn x :=
  if !c.ok || !c.active then c
  else if sid == 0 then goaway c PROTOCOL_ERROR
  else if sid % 2 == 0 then goaway c PROTOCOL_ERROR
  else match c.find sid with
    | none =>
      if sid ≤ c.lastClient then sendRst c sid STREAM_CLOSED
      else if c.shutdown then sendRst c sid REFUSED_STREAM
      else if activeCount c ≥ OUR_MAX_CONCURRENT then sendRst c sid REFUSED_STREAM
      else
        let s : SStream := { id := sid, peerW := c.initPeer }
        headersOn { c with streams := c.streams ++ [s], lastClient := max c.lastClient sid } s frag fin endHeaders h
    | some s => headersOn c s frag fin endHeaders h

/-- The end of a header block with CONTINUATION, server.h 587-622. -/
def continuationEnd (c : Conn x) (s : SStream) (h : Script) : Conn x :=
  let sid := s.id
  let c := c.upd sid (fun s => { s with expecting := false })
  let trailers := s.headersMain
  let r := processBlock c sid trailers h
  let c := if !r.2 then r.1
    else match r.1.find sid with
      | none => r.1
      | some _ =>
        let c := if trailers then r.1.upd sid (fun s => { s with trailersRecv := true }) else r.1
        let c := c.upd sid (fun s => { s with state := if s.endRecv then recvEnd s.state else s.state })
        match c.find sid with
        | none => c
        | some s => if s.state == .closed then tryClose (dispatch c sid h) sid else c
  clearAssembly c

/-- `on(ContinuationFrame)`, server.h 541-626. -/
def onContinuation (c : Conn x) (sid : Nat) (frag : Bytes) (endHeaders : Bool) (h : Script) : Conn x :=
  if !c.ok || !c.active then c
  else if sid == 0 || c.curSid == 0 || sid != c.curSid then clearAssembly (goaway c PROTOCOL_ERROR)
  else match c.find sid with
    | none => clearAssembly (goaway c PROTOCOL_ERROR)
    | some s =>
      if !s.expecting then clearAssembly (goaway c PROTOCOL_ERROR)
      else
        let c := { c with contCount := c.contCount + 1 }
        if c.contCount > MAX_CONTINUATION_FRAMES then clearAssembly (goaway c ENHANCE_YOUR_CALM)
        else
          let c := { c with frag := c.frag ++ frag }
          if c.frag.length > MAX_HEADER_BLOCK_SIZE then clearAssembly (goaway c ENHANCE_YOUR_CALM)
          else if endHeaders then continuationEnd c s h
          else c.upd sid (fun s => { s with expecting := true })

/-- One stream in `update_initial_peer_window_size`, server.h 2105-2144: `none` after a window overflow. -/
def shiftStream (c : Conn x) (delta : Int) (sid : Nat) : Conn x × Bool :=
  match c.find sid with
  | none => (c, true)
  | some s =>
    if s.state == .open_ || s.state == .halfClosedLocal || s.state == .reservedLocal then
      let c := c.upd sid (fun s => { s with peerW := s.peerW + delta })
      if s.peerW + delta > 2147483647 then
        (goaway (sendRst c sid FLOW_CONTROL_ERROR) FLOW_CONTROL_ERROR, false)
      else if s.peerW ≤ 0 && decide (s.peerW + delta > 0) && s.pending then (trySend c sid, true)
      else (c, true)
    else (c, true)

/-- The loop of `update_initial_peer_window_size`. -/
def shiftLoop (delta : Int) : List Nat → Conn x → Conn x
  | [], c => c
  | sid :: ids, c =>
    let r := shiftStream c delta sid
    if r.2 then shiftLoop delta ids r.1 else r.1

/-- `update_initial_peer_window_size`, server.h 2090-2145. -/
def updateInitial (c : Conn x) (new : Nat) : Conn x :=
  let delta : Int := (new : Int) - (c.initPeer : Int)
  let c := { c with initPeer := new }
  shiftLoop delta (x.order (c.streams.map (·.id))) c

/-- One setting that passed validation, server.h 669-707. -/
def applySetting (c : Conn x) (id : UInt16) (value : UInt32) : Conn x :=
  if id == 1 then { c with enc := x.encPeerMax c.enc value.toNat }
  else if id == 2 then { c with allowPush := value == 1 }
  else if id == 3 then { c with peerMaxConc := value.toNat }
  else if id == 4 then updateInitial c value.toNat
  else if id == 5 then { c with peerMaxFrame := (H2.clampPeerMax value).toNat }
  else if id == 6 then { c with peerMaxHdr := value.toNat }
  else c

/-- The loop over the entries, server.h 657-708: `false` if a setting was refused. -/
def settingsLoop : List (UInt16 × UInt32) → Conn x → Conn x × Bool
  | [], c => (c, true)
  | (id, v) :: es, c =>
    match validateSetting id v with
    | some e => (goaway c e.toNat, false)
    | none => settingsLoop es (applySetting c id v)

/-- `on(SettingsFrame)`, server.h 633-724. -/
def onSettings (c : Conn x) (sid : Nat) (ack : Bool) (entries : List (UInt16 × UInt32)) : Conn x :=
  if !c.ok || !c.active then c
  else if sid != 0 then goaway c PROTOCOL_ERROR
  else if ack then (if entries.isEmpty then c else goaway c FRAME_SIZE_ERROR)
  else
    let r := settingsLoop entries c
    if !r.2 then r.1
    else
      let c := { r.1 with ctl := r.1.ctl + 1 }
      if c.ctl > MAX_QUEUED_CONTROL_REPLIES then goaway c ENHANCE_YOUR_CALM
      else c.emit .settingsAck

/-- `on(RstStreamFrame)`, server.h 731-779. -/
def onRst (c : Conn x) (sid code : Nat) : Conn x :=
  if !c.ok || !c.active then c
  else if sid == 0 then goaway c PROTOCOL_ERROR
  else
    let flood := sid ≤ c.lastClient && (c.rstCount + 1 > MAX_RAPID_RESETS && decide ((c.rstCount + 1) * 2 > (c.lastClient + 1) / 2))
    let c := if sid ≤ c.lastClient then { c with rstCount := c.rstCount + 1 } else c
    if flood then goaway c ENHANCE_YOUR_CALM
    else match c.find sid with
      | some s =>
        let c := c.upd sid (fun s => { s with rstRecv := true, err := code, state := .closed })
        let c := if (!s.dispatched || !s.endSent) && code != NO_ERROR then c.emit (.streamError sid code) else c
        tryClose c sid
      | none => if sid > c.lastClient then goaway c PROTOCOL_ERROR else c

/-- Whether GOAWAY closes a stream, server.h 814-882. (The result does not depend on the iteration order: a pushed
stream whose parent this loop erases is closed because of its parent's number anyway.) -/
def goawayCloses (c : Conn x) (last : Nat) (s : SStream) : Bool :=
  if s.id % 2 == 0 then
    s.state != .closed &&
    ((decide (s.parent > last) && last != 0) ||
     (match c.find s.parent with
      | some p => p.id % 2 != 0 && decide (p.id > last)
      | none => true))
  else decide (s.id > last) && s.state != .idle && s.state != .closed

/-- The error reported for a stream that GOAWAY closes, server.h 850-853, 870-873. -/
def goawayError (code : Nat) (s : SStream) : Out :=
  .streamError s.id (if code == NO_ERROR then (if s.id % 2 == 0 then CANCEL else STREAM_CLOSED) else code)

/-- The end of `on(GoAwayFrame)`, server.h 884-893. -/
def goawayEnd (c : Conn x) (last code : Nat) : Conn x :=
  if code != NO_ERROR then { c with active := false, ok := false }
  else if relevantClosed c last then { c with active := false, ok := false }
  else c

/-- `on(GoAwayFrame)`, server.h 796-894. -/
def onGoaway (c : Conn x) (last code : Nat) : Conn x :=
  if !c.ok && c.shutdown then c
  else
    let c := { c with shutdown := true, goawayLast := last }
    let c := c.emit (.goawayEvent code last)
    let gone := c.streams.filter (goawayCloses c last)
    goawayEnd { c with
      streams := c.streams.filter (fun s => !goawayCloses c last s)
      out := c.out ++ gone.map (goawayError code) } last code

/-- The loop over the streams with pending data, server.h 933-942. -/
def sendAll : List Nat → Conn x → Conn x
  | [], c => c
  | sid :: ids, c =>
    match c.find sid with
    | none => sendAll ids c
    | some s =>
      if s.pending then
        let c := trySend c sid
        if !c.active then c else sendAll ids c
      else sendAll ids c

/-- `on(WindowUpdateFrame)`, server.h 901-983. -/
def onWindowUpdate (c : Conn x) (sid inc : Nat) : Conn x :=
  if inc == 0 then (if sid == 0 then goaway c PROTOCOL_ERROR else sendRst c sid PROTOCOL_ERROR)
  else if sid == 0 then
    if c.sendW > 2147483647 - (inc : Int) then goaway c FLOW_CONTROL_ERROR
    else
      let c := { c with sendW := c.sendW + (inc : Int) }
      sendAll (x.order ((c.streams.filter (·.pending)).map (·.id))) c
  else match c.find sid with
    | none => if sid > c.lastClient then goaway c PROTOCOL_ERROR else c
    | some s =>
      if s.state == .idle then sendRst c sid PROTOCOL_ERROR
      else if s.state == .closed then
        (if s.peerW > 2147483647 - (inc : Int) then sendRst c sid FLOW_CONTROL_ERROR else c)
      else if s.peerW > 2147483647 - (inc : Int) then sendRst c sid FLOW_CONTROL_ERROR
      else
        let c := c.upd sid (fun s => { s with peerW := s.peerW + (inc : Int) })
        if s.pending then trySend c sid else c

/-- `on(PingFrame)`, server.h 990-1028. -/
def onPing (c : Conn x) (sid : Nat) (ack : Bool) (d : Bytes) : Conn x :=
  if !c.ok || !c.active then c
  else if sid != 0 then goaway c PROTOCOL_ERROR
  else if ack then c
  else
    let c := { c with ctl := c.ctl + 1 }
    if c.ctl > MAX_QUEUED_CONTROL_REPLIES then goaway c ENHANCE_YOUR_CALM else c.emit (.pong d)

/-- `on(PriorityFrame)`, server.h 1035-1057. -/
def onPriority (c : Conn x) (sid : Nat) : Conn x :=
  if !c.ok || !c.active then c else if sid == 0 then goaway c PROTOCOL_ERROR else c

/-- `on(PrefaceCompleteEvent)`, server.h 231-253. -/
def onPreface (c : Conn x) : Conn x :=
  if !c.ok || !c.active then c
  else if c.settingsSent then c
  else { c.emit .settings with settingsSent := true }

/-- `handle_framer_detected_error`, server.h 2350-2358, after the framer's `not_ok`, base.h 789-794. -/
def onFramerError (c : Conn x) (code sid : Nat) : Conn x :=
  let c := { c with ok := false }
  if sid != 0 then sendRst c sid code else goaway c code

/-- `cleanup_idle_streams`, server.h 1357-1406: `expired` says which streams have been idle too long. -/
def cleanupLoop (expired : SStream → Bool) : List Nat → Conn x → Conn x
  | [], c => c
  | sid :: ids, c =>
    match c.find sid with
    | none => cleanupLoop expired ids c
    | some s =>
      if s.state != .closed && expired s then cleanupLoop expired ids ((sendRst c sid CANCEL).erase sid)
      else cleanupLoop expired ids c

def cleanup (c : Conn x) (expired : SStream → Bool) : Conn x :=
  cleanupLoop expired (x.order (c.streams.map (·.id))) c

/-- Everything that can happen to a connection. -/
inductive Input
  | preface
  | data (sid : Nat) (d : Bytes) (pad : Nat) (fin : Bool) (h : Script)
  | headers (sid : Nat) (frag : Bytes) (fin endHeaders : Bool) (h : Script)
  | continuation (sid : Nat) (frag : Bytes) (endHeaders : Bool) (h : Script)
  | settings (sid : Nat) (ack : Bool) (entries : List (UInt16 × UInt32))
  | rst (sid code : Nat)
  | goaway (last code : Nat)
  | windowUpdate (sid inc : Nat)
  | ping (sid : Nat) (ack : Bool) (d : Bytes)
  | pushPromise
  | priority (sid : Nat)
  | framerError (code sid : Nat)
  | app (a : Act)
  | cleanup (expired : SStream → Bool)

def step (c : Conn x) : Input → Conn x
  | .preface => onPreface c
  | .data sid d pad fin h => onData c sid d pad fin h
  | .headers sid frag fin eh h => onHeaders c sid frag fin eh h
  | .continuation sid frag eh h => onContinuation c sid frag eh h
  | .settings sid ack es => onSettings c sid ack es
  | .rst sid code => onRst c sid code
  | .goaway last code => onGoaway c last code
  | .windowUpdate sid inc => onWindowUpdate c sid inc
  | .ping sid ack d => onPing c sid ack d
  | .pushPromise => goaway c PROTOCOL_ERROR
  | .priority sid => onPriority c sid
  | .framerError code sid => onFramerError c code sid
  | .app a => act c a
  | .cleanup e => cleanup c e

/-- A connection after `reset()`, server.h 182-224. -/
def Conn.init (d : x.D) (e : x.E) : Conn x := { dec := d, enc := e }

def run (c : Conn x) (is : List Input) : Conn x := is.foldl step c

/-- The frames of area H2 as inputs; `h` is what the request handler would do. -/
def ofFrame (h : Script) (f : H2.Frame) : Input :=
  let sid := f.header.streamId.toNat
  let fin := H2.hasFlag f.header.flags H2.FLAG_END_STREAM
  let eh := H2.hasFlag f.header.flags H2.FLAG_END_HEADERS
  match f.payload with
  | .data d p => .data sid d p fin h
  | .headers frag _ => .headers sid frag fin eh h
  | .priority _ => .priority sid
  | .rst code => .rst sid code.toNat
  | .settings es => .settings sid (H2.hasFlag f.header.flags H2.FLAG_ACK) es
  | .pushPromise _ _ => .pushPromise
  | .ping d => .ping sid (H2.hasFlag f.header.flags H2.FLAG_ACK) d
  | .goaway last code _ => .goaway last.toNat code.toNat
  | .windowUpdate inc => .windowUpdate sid inc.toNat
  | .continuation frag => .continuation sid frag eh h

end Verif.Srv
