import Verif.Base

/-! HTTP/2 frame serializers and the incremental framer
(`2/protocol/frames.h`, `2/protocol/base.cpp`, `2/protocol/base.h`). -/

namespace Verif.H2
open Verif

/-! ## Frame header -/

/-- `struct FrameHeader` (packed, 9 octets), frames.h:123-136. -/
structure FrameHeader where
  l0 : Byte := 0
  l1 : Byte := 0
  l2 : Byte := 0
  type : Byte := 0
  flags : Byte := 0
  s0 : Byte := 0
  s1 : Byte := 0
  s2 : Byte := 0
  s3 : Byte := 0
deriving DecidableEq, Repr

/-- `FRAME_HEADER_SIZE`, frames.h:188. -/
def FRAME_HEADER_SIZE : Nat := 9

/-- `get_payload_length`, frames.h:138-142. -/
def FrameHeader.payloadLength (h : FrameHeader) : UInt32 :=
  (h.l0.toUInt32 <<< 16) ||| (h.l1.toUInt32 <<< 8) ||| h.l2.toUInt32

/-- `set_payload_length`, frames.h:148-153. -/
def FrameHeader.setPayloadLength (h : FrameHeader) (len : UInt32) : FrameHeader :=
  { h with
    l0 := ((len >>> 16) &&& 0xFF).toUInt8
    l1 := ((len >>> 8) &&& 0xFF).toUInt8
    l2 := (len &&& 0xFF).toUInt8 }

/-- `get_stream_id`, frames.h:167-172. -/
def FrameHeader.streamId (h : FrameHeader) : UInt32 :=
  ((h.s0 &&& 0x7F).toUInt32 <<< 24) ||| (h.s1.toUInt32 <<< 16) ||| (h.s2.toUInt32 <<< 8)
    ||| h.s3.toUInt32

/-- `set_stream_id`, frames.h:178-184. -/
def FrameHeader.setStreamId (h : FrameHeader) (id : UInt32) : FrameHeader :=
  { h with
    s0 := (((id >>> 24) &&& 0xFF) &&& 0x7F).toUInt8
    s1 := ((id >>> 16) &&& 0xFF).toUInt8
    s2 := ((id >>> 8) &&& 0xFF).toUInt8
    s3 := (id &&& 0xFF).toUInt8 }

/-- The 9 octets `put(reinterpret_cast<const char *>(&header), FRAME_HEADER_SIZE)` writes
(base.cpp:508 and the like; the struct is packed, frames.h:123,186). -/
def FrameHeader.bytes (h : FrameHeader) : Bytes :=
  [h.l0, h.l1, h.l2, h.type, h.flags, h.s0, h.s1, h.s2, h.s3]

/-- `std::memcpy(&_current_frame_header, in_buffer.cbegin(), FRAME_HEADER_SIZE)`, base.h:617.
Missing octets read as 0: never reached, the caller has checked the size (base.h:609-616). -/
def FrameHeader.ofBytes (b : Bytes) : FrameHeader :=
  { l0 := b.getD 0 0, l1 := b.getD 1 0, l2 := b.getD 2 0, type := b.getD 3 0, flags := b.getD 4 0
    s0 := b.getD 5 0, s1 := b.getD 6 0, s2 := b.getD 7 0, s3 := b.getD 8 0 }

/-! ## Frame types, flags, error codes -/

/-- `enum class FrameType`, frames.h:37-49. -/
def T_DATA : Byte := 0
def T_HEADERS : Byte := 1
def T_PRIORITY : Byte := 2
def T_RST_STREAM : Byte := 3
def T_SETTINGS : Byte := 4
def T_PUSH_PROMISE : Byte := 5
def T_PING : Byte := 6
def T_GOAWAY : Byte := 7
def T_WINDOW_UPDATE : Byte := 8
def T_CONTINUATION : Byte := 9

/-- Frame flags, frames.h:55-59. -/
def FLAG_END_STREAM : Byte := 0x1
def FLAG_ACK : Byte := 0x1
def FLAG_END_HEADERS : Byte := 0x4
def FLAG_PADDED : Byte := 0x8
def FLAG_PRIORITY : Byte := 0x20

/-- `flags & FLAG` used as a condition. -/
def hasFlag (flags f : Byte) : Bool := (flags &&& f) != 0

/-- `enum class ErrorCode`, frames.h:65-81 (values used by the framer). -/
def E_NO_ERROR : Nat := 0
def E_PROTOCOL_ERROR : Nat := 1
def E_INTERNAL_ERROR : Nat := 2
def E_FLOW_CONTROL_ERROR : Nat := 3
def E_FRAME_SIZE_ERROR : Nat := 6

/-- `DEFAULT_MAX_FRAME_SIZE`, `MAX_FRAME_SIZE_LIMIT`, frames.h:106-108. -/
def DEFAULT_MAX_FRAME_SIZE : UInt32 := 16384
def MAX_FRAME_SIZE_LIMIT : UInt32 := 16777215

/-! ## Frame payloads -/

/-- `Http2PriorityData`, frames.h:193-197. -/
structure PriorityData where
  dep : UInt32
  weight : Byte
  exclusive : Bool
deriving DecidableEq, Repr

/-- The ten payload structs, frames.h:205-305. `ErrorCode` and `Http2SettingIdentifier` are enums
over `uint32_t`/`uint16_t` that any wire value is cast to; `opaque_data` is an array of 8 octets,
here a byte list (the theorems ask for length 8 on the sending side). -/
inductive Payload where
  | data (d : Bytes) (paddingSize : Nat)
  | headers (frag : Bytes) (pri : Option PriorityData)
  | priority (p : PriorityData)
  | rst (code : UInt32)
  | settings (entries : List (UInt16 × UInt32))
  | pushPromise (id : UInt32) (frag : Bytes)
  | ping (opaqueData : Bytes)
  | goaway (last code : UInt32) (debug : Bytes)
  | windowUpdate (inc : UInt32)
  | continuation (frag : Bytes)
deriving DecidableEq, Repr

/-- `Http2FrameData<...>`: header and payload. -/
structure Frame where
  header : FrameHeader
  payload : Payload
deriving DecidableEq, Repr

/-! ## Big-endian codecs, base.h:126-175 -/

/-- `extract_uint16_be`, base.h:126-129. -/
def extract16 (b : Bytes) : UInt16 := ((b.getD 0 0).toUInt16 <<< 8) ||| (b.getD 1 0).toUInt16

/-- `extract_uint32_be`, base.h:136-140. -/
def extract32 (b : Bytes) : UInt32 :=
  ((b.getD 0 0).toUInt32 <<< 24) ||| ((b.getD 1 0).toUInt32 <<< 16) |||
    ((b.getD 2 0).toUInt32 <<< 8) ||| (b.getD 3 0).toUInt32

/-- `extract_uint31_be`, base.h:147-151. -/
def extract31 (b : Bytes) : UInt32 :=
  ((b.getD 0 0 &&& 0x7F).toUInt32 <<< 24) ||| ((b.getD 1 0).toUInt32 <<< 16) |||
    ((b.getD 2 0).toUInt32 <<< 8) ||| (b.getD 3 0).toUInt32

/-- The two octets pushed for a setting identifier, base.cpp:639-641
(also `encode_uint16_be`, base.h:158-162). -/
def encode16 (v : UInt16) : Bytes := [((v >>> 8) &&& 0xFF).toUInt8, (v &&& 0xFF).toUInt8]

/-- The four octets of a 32-bit value, base.cpp:573-576 and the like
(also `encode_uint32_be`, base.h:169-175). -/
def encode32 (v : UInt32) : Bytes :=
  [((v >>> 24) &&& 0xFF).toUInt8, ((v >>> 16) &&& 0xFF).toUInt8,
   ((v >>> 8) &&& 0xFF).toUInt8, (v &&& 0xFF).toUInt8]

/-! ## Serializers, base.cpp:500-832 -/

/-- `stream_dep_val`, base.cpp:567-570. -/
def depWord (p : PriorityData) : UInt32 :=
  let v := p.dep &&& 0x7FFFFFFF
  if p.exclusive then v ||| 0x80000000 else v

/-- The payload octets each serializer writes after the header:
DATA 510-512, HEADERS 536-538 (priority information is NOT written), PRIORITY 564-577,
RST_STREAM 600-607, SETTINGS 631-649 (an ACK is written with an empty payload), PUSH_PROMISE
682-692, PING 723, GOAWAY 756-773, WINDOW_UPDATE 792-799, CONTINUATION 828-830. -/
def payloadBytes (flags : Byte) : Payload → Bytes
  | .data d _ => d
  | .headers frag _ => frag
  | .priority p => encode32 (depWord p) ++ [p.weight]
  | .rst code => encode32 code
  | .settings entries =>
    if !hasFlag flags FLAG_ACK then
      entries.flatMap fun e => encode16 e.1 ++ encode32 e.2
    else []
  | .pushPromise id frag => encode32 (id &&& 0x7FFFFFFF) ++ frag
  | .ping o => o
  | .goaway last code debug => encode32 (last &&& 0x7FFFFFFF) ++ encode32 code ++ debug
  | .windowUpdate inc => encode32 (inc &&& 0x7FFFFFFF)
  | .continuation frag => frag

/-- `pipe<char>::put<Http2FrameData<X>>`: header with the payload length set, then the payload
(base.cpp:500-832). -/
def serialize (f : Frame) : Bytes :=
  let p := payloadBytes f.header.flags f.payload
  (f.header.setPayloadLength (UInt32.ofNat p.length)).bytes ++ p

/-! ## The framer, base.h:449-1376 -/

/-- `ParserState`, base.h:457-461. -/
inductive PState | preface | header | payload
deriving DecidableEq, Repr

/-- What the framer hands to the side protocol: `on(PrefaceCompleteEvent)` (base.h:596),
`on(Http2FrameData<X>)` and `handle_framer_detected_error(code, msg, stream)`. -/
inductive Event
  | prefaceComplete
  | frame (f : Frame)
  | framerError (code : Nat) (sid : UInt32)
deriving DecidableEq, Repr

/-- The side protocol: an arbitrary function of everything it has been handed so far, answering
whether its `on(...)` handler leaves the connection alive (`none`) or calls `not_ok(code)`. -/
abbrev Handler := List Event → Option Nat

/-- The data members of `Http2Protocol` (base.h:464-473) plus `ok()` of the base class and the log
of what was handed to the side protocol (oldest first). -/
structure Framer where
  state : PState := .preface
  prefaceBuf : Bytes := []
  hdr : FrameHeader := {}
  expected : Nat := 0
  ourMax : UInt32 := DEFAULT_MAX_FRAME_SIZE
  lastErr : Option Nat := none
  contReq : Bool := false
  contSid : UInt32 := 0
  ok : Bool := true
  log : List Event := []
deriving DecidableEq, Repr

/-- `Http2Protocol(io, our_max_frame_size_setting)`, base.h:490-498. -/
def Framer.init (setting : UInt32) : Framer :=
  { ourMax := if setting < DEFAULT_MAX_FRAME_SIZE || setting > MAX_FRAME_SIZE_LIMIT
      then DEFAULT_MAX_FRAME_SIZE else setting }

/-- `HTTP2_CONNECTION_PREFACE`, base.h:53-58. -/
def PREFACE : Bytes := b!"PRI * HTTP/2.0\r\n\r\nSM\r\n\r\n"

/-- `not_ok(reason)`, base.h:773-780. -/
def Framer.notOk (f : Framer) (code : Nat) : Framer := { f with lastErr := some code, ok := false }

/-- `report_frame_error`, base.h:789-794 (also the inlined pairs at 624-627, 669-671, 1010-1012,
1039-1044, 1048-1050). -/
def Framer.report (f : Framer) (code : Nat) (sid : UInt32) : Framer :=
  let g := f.notOk code
  { g with log := g.log ++ [.framerError code sid] }

/-- `static_cast<SideProtocol *>(this)->on(...)`. -/
def Framer.on (h : Handler) (f : Framer) (e : Event) : Framer :=
  let log := f.log ++ [e]
  match h log with
  | none => { f with log := log }
  | some c => { f with log := log, lastErr := some c, ok := false }

/-- `validate_padded_frame`, base.h:836-854: `some (pad, rest)` or the error code reported. -/
def validatePadded (p : Bytes) : Except Nat (Nat × Bytes) :=
  match p with
  | [] => .error E_FRAME_SIZE_ERROR
  | pad :: rest => if pad.toNat > rest.length then .error E_PROTOCOL_ERROR else .ok (pad.toNat, rest)

/-- Strip padding when FLAG_PADDED is set; pad length is 0 otherwise (base.h:1119-1130,
1145-1152, 1259-1266). -/
def stripPad (flags : Byte) (p : Bytes) : Except Nat (Nat × Bytes) :=
  if hasFlag flags FLAG_PADDED then validatePadded p else .ok (0, p)

/-- Decoding of a priority field, base.h:1164-1168 and 1195-1198. -/
def priorityOf (p : Bytes) : PriorityData :=
  { exclusive := ((extract32 p >>> 31) &&& 0x1) != 0
    dep := extract32 p &&& 0x7FFFFFFF
    weight := p.getD 4 0 }

/-- The loop of `handle_settings_frame_payload`, base.h:1239-1244, over the remaining payload. -/
def settingsEntries : Bytes → List (UInt16 × UInt32)
  | a :: b :: c :: d :: e :: g :: rest =>
    (extract16 [a, b], extract32 [c, d, e, g]) :: settingsEntries rest
  | _ => []

/-- Frame payload parsing, without state effects: what is delivered, or the error reported.
`none` for an ignored (unknown) frame type.  base.h:1074-1374. -/
def parsePayload (hdr : FrameHeader) (p : Bytes) : Except Nat (Option Payload) :=
  if hdr.type = T_DATA then                                         -- base.h:1112-1134
    match stripPad hdr.flags p with
    | .error c => .error c
    | .ok (pad, q) =>
      .ok (some (.data (q.take (q.length - pad))
        (if hasFlag hdr.flags FLAG_PADDED then 1 + pad else 0)))
  else if hdr.type = T_HEADERS then                                 -- base.h:1139-1182
    match stripPad hdr.flags p with
    | .error c => .error c
    | .ok (pad, q) =>
      if hasFlag hdr.flags FLAG_PRIORITY then
        if q.length < 5 + pad then .error E_FRAME_SIZE_ERROR
        else
          let r := q.drop 5
          .ok (some (.headers (r.take (r.length - pad)) (some (priorityOf q))))
      else .ok (some (.headers (q.take (q.length - pad)) none))
  else if hdr.type = T_PRIORITY then                                -- base.h:1187-1202
    if 5 ≠ p.length then .error E_FRAME_SIZE_ERROR else .ok (some (.priority (priorityOf p)))
  else if hdr.type = T_RST_STREAM then                              -- base.h:1207-1219
    if 4 ≠ p.length then .error E_FRAME_SIZE_ERROR else .ok (some (.rst (extract32 p)))
  else if hdr.type = T_SETTINGS then                                -- base.h:1224-1248
    if hasFlag hdr.flags FLAG_ACK then .error E_FRAME_SIZE_ERROR
    else if p.length % 6 ≠ 0 then .error E_FRAME_SIZE_ERROR
    else .ok (some (.settings (settingsEntries p)))
  else if hdr.type = T_PUSH_PROMISE then                            -- base.h:1253-1286
    match stripPad hdr.flags p with
    | .error c => .error c
    | .ok (pad, q) =>
      if q.length < 4 + pad then .error E_FRAME_SIZE_ERROR
      else
        let r := q.drop 4
        .ok (some (.pushPromise (extract31 q) (r.take (r.length - pad))))
  else if hdr.type = T_PING then                                    -- base.h:1291-1303
    if 8 ≠ p.length then .error E_FRAME_SIZE_ERROR else .ok (some (.ping p))
  else if hdr.type = T_GOAWAY then                                  -- base.h:1308-1325
    if p.length < 8 then .error E_FRAME_SIZE_ERROR
    else .ok (some (.goaway (extract31 p) (extract32 (p.drop 4))
      (if p.length > 8 then p.drop 8 else [])))
  else if hdr.type = T_WINDOW_UPDATE then                           -- base.h:1330-1357
    if 4 ≠ p.length then .error E_FRAME_SIZE_ERROR
    else if extract31 p = 0 then .error E_PROTOCOL_ERROR
    else if extract31 p > 0x7FFFFFFF then .error E_FLOW_CONTROL_ERROR
    else .ok (some (.windowUpdate (extract31 p)))
  else if hdr.type = T_CONTINUATION then                            -- base.h:1362-1374
    .ok (some (.continuation p))
  else .ok none                                                     -- base.h:1103-1105

/-- The continuation bookkeeping after a delivered payload: HEADERS 1177-1180, PUSH_PROMISE
1281-1284, CONTINUATION 1369-1372. -/
def Framer.afterDelivery (f : Framer) : Framer :=
  if f.ok then
    if f.hdr.type = T_HEADERS || f.hdr.type = T_PUSH_PROMISE then
      let req := !hasFlag f.hdr.flags FLAG_END_HEADERS
      { f with contReq := req, contSid := if req then f.hdr.streamId else 0 }
    else if f.hdr.type = T_CONTINUATION && hasFlag f.hdr.flags FLAG_END_HEADERS then
      { f with contReq := false, contSid := 0 }
    else f
  else f

/-- `handle_payload_frame_dispatch`, base.h:1074-1107, with the handlers 1112-1374.
The Boolean is the C++ return value. -/
def Framer.dispatchPayload (h : Handler) (f : Framer) (p : Bytes) : Framer × Bool :=
  if !f.ok then (f, false)
  else
    match parsePayload f.hdr p with
    | .error c => (f.report c f.hdr.streamId, false)
    | .ok none => (f, true)
    | .ok (some pl) => ((f.on h (.frame ⟨f.hdr, pl⟩)).afterDelivery, true)

/-- What a zero-length frame delivers, base.h:995-1066. -/
def parseZero (hdr : FrameHeader) : Except Nat (Option Payload) :=
  if hdr.type = T_SETTINGS then .ok (some (.settings []))
  else if hdr.type = T_PING then .error E_FRAME_SIZE_ERROR
  else if hdr.type = T_HEADERS then .ok (some (.headers [] none))
  else if hdr.type = T_DATA then .ok (some (.data [] 0))
  else if hdr.type = T_PRIORITY || hdr.type = T_RST_STREAM || hdr.type = T_GOAWAY
      || hdr.type = T_WINDOW_UPDATE then .error E_FRAME_SIZE_ERROR
  else if hdr.type = T_PUSH_PROMISE then .error E_FRAME_SIZE_ERROR
  else if hdr.type = T_CONTINUATION then .ok (some (.continuation []))
  else .ok none

/-- `handle_zero_payload_frame_dispatch`, base.h:990-1067. It does not touch the continuation
state. -/
def Framer.dispatchZero (h : Handler) (f : Framer) : Framer :=
  if !f.ok then f
  else
    match parseZero f.hdr with
    | .error c => f.report c f.hdr.streamId
    | .ok none => f
    | .ok (some pl) => f.on h (.frame ⟨f.hdr, pl⟩)

/-- `getMessageSize`, base.h:530-563, as a function of the bytes in the input buffer. -/
def Framer.messageSize (f : Framer) (buf : Bytes) : Nat :=
  match f.state with
  | .preface =>
    if PREFACE.length - f.prefaceBuf.length = 0 then 0
    else if buf.length < PREFACE.length - f.prefaceBuf.length then 0
    else PREFACE.length - f.prefaceBuf.length
  | .header => if buf.length < FRAME_HEADER_SIZE then 0 else FRAME_HEADER_SIZE
  | .payload =>
    if f.expected = 0 then 0 else if buf.length < f.expected then 0 else f.expected

/-- `onMessage` in state EXPECTING_PREFACE, base.h:580-606. -/
def Framer.onPreface (h : Handler) (f : Framer) (msg : Bytes) : Framer :=
  let g := { f with prefaceBuf := f.prefaceBuf ++ msg }
  if g.prefaceBuf.length = PREFACE.length then
    if g.prefaceBuf = PREFACE then Framer.on h { g with state := .header } .prefaceComplete
    else g.notOk E_PROTOCOL_ERROR
  else if g.prefaceBuf.length > PREFACE.length then g.notOk E_INTERNAL_ERROR
  else g

/-- `onMessage` in state EXPECTING_FRAME_HEADER, base.h:608-665. -/
def Framer.onHeader (h : Handler) (f : Framer) (msg : Bytes) : Framer :=
  if msg.length ≠ FRAME_HEADER_SIZE then f.notOk E_INTERNAL_ERROR
  else
    let hdr := FrameHeader.ofBytes msg
    let g := { f with hdr := hdr, expected := hdr.payloadLength.toNat }
    if g.contReq && (hdr.type != T_CONTINUATION || hdr.streamId != g.contSid) then
      g.report E_PROTOCOL_ERROR g.contSid
    else if hdr.type = T_SETTINGS && hdr.streamId != 0 then g.notOk E_PROTOCOL_ERROR
    else if (hdr.type = T_PING || hdr.type = T_GOAWAY) && hdr.streamId != 0 then
      g.notOk E_PROTOCOL_ERROR
    else if g.expected > g.ourMax.toNat then g.notOk E_FRAME_SIZE_ERROR
    else if !g.ok then g
    else if g.expected = 0 then
      let k := g.dispatchZero h
      if k.ok then { k with state := .header } else k
    else { g with state := .payload }

/-- `onMessage` in state EXPECTING_FRAME_PAYLOAD, base.h:667-687. -/
def Framer.onPayload (h : Handler) (f : Framer) (msg : Bytes) : Framer :=
  if msg.length ≠ f.expected then f.report E_FRAME_SIZE_ERROR f.hdr.streamId
  else if msg.length = 0 then f
  else
    match f.dispatchPayload h msg with
    | (g, false) => g
    | (g, true) => { g with state := .header, expected := 0 }

/-- `onMessage`, base.h:569-699; `msg` is the first `received_size` bytes of the input buffer
(the only bytes the code reads; that it has that many is the contract of the qb I/O loop). -/
def Framer.onMessage (h : Handler) (f : Framer) (msg : Bytes) : Framer :=
  match f.state with
  | .preface => f.onPreface h msg
  | .header => f.onHeader h msg
  | .payload => f.onPayload h msg

theorem Framer.messageSize_le (f : Framer) (buf : Bytes) : f.messageSize buf ≤ buf.length := by
  unfold Framer.messageSize
  split <;> repeat' split
  all_goals omega

/-- The read loop of the qb I/O layer (not in /repo): while `getMessageSize() > 0`, hand that many
bytes to `onMessage` and drop them from the input buffer. The model keeps looping after `not_ok`
(a real connection is disconnected at the latest when the loop ends), so what is proved does not
rely on the loop stopping early. -/
def Framer.pump (h : Handler) (f : Framer) (buf : Bytes) : Framer × Bytes :=
  if _hz : f.messageSize buf = 0 then (f, buf)
  else Framer.pump h (f.onMessage h (buf.take (f.messageSize buf))) (buf.drop (f.messageSize buf))
termination_by buf.length
decreasing_by
  have := f.messageSize_le buf
  simp [List.length_drop]; omega

/-- One read from the socket: the new bytes are appended to the input buffer and the loop runs. -/
def Framer.read (h : Handler) (s : Framer × Bytes) (chunk : Bytes) : Framer × Bytes :=
  Framer.pump h s.1 (s.2 ++ chunk)

/-- A connection: any sequence of reads. -/
def Framer.reads (h : Handler) (s : Framer × Bytes) (chunks : List Bytes) : Framer × Bytes :=
  chunks.foldl (Framer.read h) s

/-! ## Sending a header block -/

/-- `set_peer_max_frame_size`, base.h:966-969. -/
def clampPeerMax (size : UInt32) : UInt32 :=
  max DEFAULT_MAX_FRAME_SIZE (min size MAX_FRAME_SIZE_LIMIT)

/-- The HEADERS frame built at base.h:729-739. -/
def headersFrame (sid : UInt32) (flags : Byte) (last : Bool) (frag : Bytes) : Frame :=
  ⟨({ type := T_HEADERS
      flags := if last then flags ||| FLAG_END_HEADERS else flags &&& ~~~FLAG_END_HEADERS }
      : FrameHeader).setStreamId sid, .headers frag none⟩

/-- The CONTINUATION frame built at base.h:741-746. -/
def continuationFrame (sid : UInt32) (last : Bool) (frag : Bytes) : Frame :=
  ⟨({ type := T_CONTINUATION, flags := if last then FLAG_END_HEADERS else 0 }
      : FrameHeader).setStreamId sid, .continuation frag⟩

/-- One turn of the loop at base.h:722-747: the frame written with `remaining` bytes left. -/
def fragmentFrame (sid : UInt32) (flags : Byte) (first last : Bool) (frag : Bytes) : Frame :=
  if first then headersFrame sid flags last frag else continuationFrame sid last frag

/-- The do-while loop of `send_headers_with_continuation`, base.h:721-755; `blk` is what is left
of the encoded block from `offset`. The stream staying `ok` while writing is assumed
(base.h:749-751 aborts otherwise). `max_fragment_size ≥ 1` (base.h:717). -/
def sendLoop (sid : UInt32) (flags : Byte) (maxFrag : Nat) (first : Bool) (blk : Bytes) :
    List Frame :=
  let frag := blk.take maxFrag
  let rest := blk.drop maxFrag
  if _h : rest = [] ∨ maxFrag = 0 then [fragmentFrame sid flags first true frag]
  else fragmentFrame sid flags first false frag :: sendLoop sid flags maxFrag false rest
termination_by blk.length
decreasing_by
  have h2 : blk.drop maxFrag ≠ [] := fun e => _h (Or.inl e)
  have : maxFrag < blk.length := by
    rcases Nat.lt_or_ge maxFrag blk.length with g | g
    · exact g
    · exact absurd (List.drop_eq_nil_of_le g) h2
  simp [List.length_drop]; omega

/-- `send_headers_with_continuation`, base.h:715-758. -/
def sendHeaders (sid : UInt32) (flags : Byte) (peerMax : UInt32) (blk : Bytes) : List Frame :=
  sendLoop sid flags (max 1 peerMax).toNat true blk

end Verif.H2
