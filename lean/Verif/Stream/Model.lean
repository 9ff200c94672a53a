import Verif.Base
import Verif.Utility.Model
import Verif.Hpack.CodecModel

/-! Model of `src/qbm/http/2/protocol/stream.h`, `stream.cpp` and of the validators in
`2/protocol/base.h` / `base.cpp` (settings, header fields, pseudo headers, Content-Length, stream
identifiers).

`int64_t` windows are modelled as `Int` (the theorem `C28_window_no_overflow` shows that the values
reachable from 31-bit windows stay far from the 64-bit limits); `uint32_t` values are `UInt32`. -/

namespace Verif.Stream
open Verif.Utility

/-! ## Flow control and stream state -/

/-- `Http2StreamConcreteState`, stream.h 46-54. -/
inductive State
  | idle | open_ | reservedLocal | reservedRemote | halfClosedLocal | halfClosedRemote | closed
deriving DecidableEq, Repr

/-- `MAX_WINDOW_SIZE_LIMIT`, frames.h: 2^31-1. -/
def maxWindow : Int := 2147483647

/-- The fields of `Http2StreamBase` (stream.h 117-148) that the functions below read or write.
Not modelled: timestamps, priority, and the header/trailer bookkeeping flags. -/
structure Stream where
  state : State
  localWindow : Int
  peerWindow : Int
  threshold : UInt32
  processed : UInt32
  endRecv : Bool := false
  endSent : Bool := false
  rstRecv : Bool := false
  rstSent : Bool := false
  error : UInt32 := 0
deriving DecidableEq, Repr

/-- `FlowControlManager::update_window_safe`, stream.h 73-80. -/
def updateWindowSafe (current : Int) (increment : UInt32) (max : Int) : Int :=
  if current + (increment.toNat : Int) > max then -1 else current + (increment.toNat : Int)

/-- `FlowControlManager::should_send_window_update`, stream.h 88-91. -/
def shouldSendWindowUpdate (processed threshold : UInt32) : Bool :=
  processed ≥ threshold && threshold > 0

/-- `FlowControlManager::calculate_window_threshold`, stream.h 99-105 (C++ division truncates toward
zero; the dividend is positive here). -/
def windowThreshold (initial : Int) (divisor : Int := 2) : UInt32 :=
  if initial ≤ 0 || divisor ≤ 0 then 1
  else if UInt32.ofNat (initial / divisor).toNat == 0 then 1
  else UInt32.ofNat (initial / divisor).toNat

/-- The constructor, stream.h 159-165. -/
def Stream.new (peerInit localInit : Int) : Stream :=
  { state := .idle, localWindow := localInit, peerWindow := peerInit,
    threshold := windowThreshold localInit, processed := 0 }

/-- `is_closed`, stream.h 180-182. -/
def Stream.isClosed (s : Stream) : Bool := s.state == .closed || s.rstRecv || s.rstSent

/-- `can_send_data`, stream.h 189-191. -/
def Stream.canSend (s : Stream) : Bool := s.state == .open_ || s.state == .halfClosedRemote

/-- `can_receive_data`, stream.h 198-200. -/
def Stream.canReceive (s : Stream) : Bool := s.state == .open_ || s.state == .halfClosedLocal

/-- `process_received_data`, stream.h 233-240. -/
def Stream.processReceived (s : Stream) (n : UInt32) : Stream × Bool :=
  ({ s with localWindow := s.localWindow - (n.toNat : Int), processed := s.processed + n },
   shouldSendWindowUpdate (s.processed + n) s.threshold)

/-- `reset_window_update_tracking`, stream.h 254-258. -/
def Stream.resetTracking (s : Stream) (inc : UInt32) : Stream :=
  { s with localWindow := s.localWindow + (inc.toNat : Int), processed := 0 }

/-- `update_peer_window_size`, stream.cpp 18-30. `static_cast<uint32_t>(std::abs(delta))` never
truncates, the difference of two `uint32_t` being below 2^32 in absolute value. -/
def Stream.updatePeerWindow (s : Stream) (new old : UInt32) : Stream × Bool :=
  if updateWindowSafe s.peerWindow (UInt32.ofNat ((new.toNat : Int) - old.toNat).natAbs) maxWindow == -1 then
    (s, false)
  else if (new.toNat : Int) - old.toNat ≥ 0 then
    ({ s with peerWindow :=
        updateWindowSafe s.peerWindow (UInt32.ofNat ((new.toNat : Int) - old.toNat).natAbs) maxWindow },
      decide (updateWindowSafe s.peerWindow
        (UInt32.ofNat ((new.toNat : Int) - old.toNat).natAbs) maxWindow ≥ 0))
  else
    ({ s with peerWindow := s.peerWindow + ((new.toNat : Int) - old.toNat) },
      decide (s.peerWindow + ((new.toNat : Int) - old.toNat) ≥ 0))

/-- The `switch` of `transition_state` for the sending side, stream.cpp 39-49. -/
def sendEnd : State → State
  | .open_ => .halfClosedLocal
  | .halfClosedRemote => .closed
  | s => s

/-- The `switch` of `transition_state` for the receiving side, stream.cpp 52-62. -/
def recvEnd : State → State
  | .open_ => .halfClosedRemote
  | .halfClosedLocal => .closed
  | s => s

/-- `transition_state`, stream.cpp 32-65. -/
def Stream.transition (s : Stream) (endStream sending : Bool) : Stream :=
  if !endStream then s
  else if sending then { s with endSent := true, state := sendEnd s.state }
  else { s with endRecv := true, state := recvEnd s.state }

/-- `mark_reset`, stream.cpp 67-78. -/
def Stream.markReset (s : Stream) (code : UInt32) (sending : Bool) : Stream :=
  if sending then { s with error := code, state := .closed, rstSent := true }
  else { s with error := code, state := .closed, rstRecv := true }

/-! ## Validators -/

/-- Frame/settings limits, frames.h. -/
def minMaxFrameSize : UInt32 := 16384
def maxFrameSizeLimit : UInt32 := 16777215
def maxWindowLimit : UInt32 := 2147483647

/-- `SettingsHelper::validate_setting`, base.cpp 31-79: `none` = valid, `some e` = invalid with that
HTTP/2 error code (1 = PROTOCOL_ERROR, 3 = FLOW_CONTROL_ERROR). Error texts are not modelled. -/
def validateSetting (id : UInt16) (value : UInt32) : Option UInt32 :=
  if id == 1 then none
  else if id == 2 then (if value > 1 then some 1 else none)
  else if id == 3 then none
  else if id == 4 then (if value > maxWindowLimit then some 3 else none)
  else if id == 5 then (if value < minMaxFrameSize || value > maxFrameSizeLimit then some 1 else none)
  else if id == 6 then none
  else if id == 8 then (if value > 1 then some 1 else none)
  else none

/-- `SettingsHelper::calculate_safe_max_frame_size`, base.cpp 92-102; the map lookup is an argument. -/
def safeMaxFrameSize (entry : Option UInt32) : UInt32 :=
  match entry with
  | some v => if v ≥ minMaxFrameSize && v ≤ maxFrameSizeLimit then v else 16384
  | none => 16384

/-- `HeaderValidator::is_forbidden_header`, base.cpp 106-116. -/
def isForbiddenHeader (name : Bytes) : Bool :=
  if name == b!"te" then false
  else [b!"connection", b!"upgrade", b!"http2-settings", b!"te", b!"transfer-encoding",
        b!"proxy-connection", b!"keep-alive", b!"host"].contains name

/-- `is_forbidden_response_header`, base.h 252-256. -/
def isForbiddenResponseHeader (name : Bytes) : Bool := isForbiddenHeader name || name == b!"te"

/-- `is_forbidden_trailer_header`, base.h 263-266. -/
def isForbiddenTrailerHeader (name : Bytes) : Bool :=
  isForbiddenResponseHeader name || name == b!"trailer" || name == b!"content-length"

/-- The token check inside `is_valid_request_te_value`, base.cpp 128-133. -/
def teTokenBad (tok : Bytes) : Bool := !(trimWs tok).isEmpty && !iequals (trimWs tok) b!"trailers"

/-- The loop of `is_valid_request_te_value`, base.cpp 118-142. -/
def teLoop (remaining : Bytes) (saw : Bool) : Bool :=
  if remaining.isEmpty then saw
  else
    match _h : findChar c!"," remaining with
    | none => if teTokenBad remaining then false else (saw || !(trimWs remaining).isEmpty)
    | some (tok, rest) => if teTokenBad tok then false else teLoop rest (saw || !(trimWs tok).isEmpty)
termination_by remaining.length
decreasing_by exact findChar_length _h

/-- `is_valid_request_te_value`, base.cpp 118-142. -/
def isValidTe (value : Bytes) : Bool := teLoop value false

/-- The `is_valid_char` expression, base.cpp 154-156. -/
def isNameChar (c : UInt8) : Bool :=
  (c ≥ 97 && c ≤ 122) || (c ≥ 48 && c ≤ 57) || c == c!"!" || c == c!"#" || c == c!"$" || c == c!"%" ||
  c == c!"&" || c == 39 || c == c!"*" || c == c!"+" || c == c!"-" || c == c!"." || c == c!"^" ||
  c == c!"_" || c == c!"`" || c == c!"|" || c == c!"~"

/-- Loop body of the name check, base.cpp 150-160: `false` = reject. -/
def nameByteOk (c : UInt8) : Bool :=
  if c == 0 || c == 0x0D || c == 0x0A || (c ≥ 65 && c ≤ 90) then false else isNameChar c

/-- Loop body of `is_valid_header_value`, base.cpp 167-174. -/
def valueByteOk (c : UInt8) : Bool :=
  if c == 0 || c == 0x0D || c == 0x0A then false
  else if (c < 0x20 && c != 0x09) || c == 0x7F then false else true

/-- `is_valid_header_value`, base.cpp 165-177. -/
def isValidHeaderValue (v : Bytes) : Bool := v.all valueByteOk

/-- `is_valid_header_field`, base.cpp 144-163. -/
def isValidHeaderField (name value : Bytes) : Bool :=
  if name.isEmpty then false else if name.all nameByteOk then isValidHeaderValue value else false

/-- `is_pseudo_header`, base.h 282-285. -/
def isPseudo (name : Bytes) : Bool :=
  match name with
  | [] => false
  | c :: _ => c == c!":"

/-- The loop of `validate_pseudo_header_order`, base.cpp 183-191. -/
def orderLoop (seen : Bool) : List (Bytes × Bytes) → Bool
  | [] => true
  | h :: t => if isPseudo h.1 then (if seen then false else orderLoop seen t) else orderLoop true t

/-- `validate_pseudo_header_order`, base.cpp 179-193. -/
def validateOrder (hs : List (Bytes × Bytes)) : Bool := orderLoop false hs

/-- The digit loop of `parse_content_length`, base.cpp 201-212. -/
def clLoop (parsed : UInt64) : Bytes → Option UInt64
  | [] => some parsed
  | c :: t =>
    if c < 48 || c > 57 then none
    else if parsed > (0xFFFFFFFFFFFFFFFF - (c - 48).toUInt64) / 10 then none
    else clLoop (parsed * 10 + (c - 48).toUInt64) t

/-- `parse_content_length`, base.cpp 195-213. -/
def parseContentLength (value : Bytes) : Option UInt64 :=
  if (trimWs value).isEmpty then none else clLoop 0 (trimWs value)

/-- The four `has_*` flags of `validate_request_pseudo_headers`, base.cpp 217. -/
structure Seen where
  method : Bool := false
  path : Bool := false
  scheme : Bool := false
  authority : Bool := false
deriving DecidableEq

/-- The loop of `validate_request_pseudo_headers`, base.cpp 219-258, and the final test 260-263.
`false` = invalid with PROTOCOL_ERROR (error texts not modelled). -/
def reqPseudoLoop (s : Seen) : List (Bytes × Bytes) → Bool
  | [] => s.method && s.path && s.scheme && s.authority
  | h :: t =>
    if !isPseudo h.1 then reqPseudoLoop s t
    else if h.1 == b!":method" then
      if s.method then false else if h.2.isEmpty then false else reqPseudoLoop { s with method := true } t
    else if h.1 == b!":path" then
      if s.path then false else if h.2.isEmpty then false else reqPseudoLoop { s with path := true } t
    else if h.1 == b!":scheme" then
      if s.scheme then false else if h.2.isEmpty then false else reqPseudoLoop { s with scheme := true } t
    else if h.1 == b!":authority" then
      if s.authority then false else if h.2.isEmpty then false
      else reqPseudoLoop { s with authority := true } t
    else false

/-- `validate_request_pseudo_headers`, base.cpp 215-266. -/
def validateRequestPseudo (hs : List (Bytes × Bytes)) : Bool := reqPseudoLoop {} hs

/-- The loop of `validate_response_pseudo_headers`, base.cpp 272-300. -/
def respPseudoLoop (has : Bool) : List (Bytes × Bytes) → Bool
  | [] => has
  | h :: t =>
    if !isPseudo h.1 then respPseudoLoop has t
    else if h.1 == b!":status" then
      if has then false
      else if h.2.isEmpty || h.2.length != 3 then false
      else if h.2.any (fun c => c < 48 || c > 57) then false
      else respPseudoLoop true t
    else false

/-- `validate_response_pseudo_headers`, base.cpp 268-303. The `char` comparison of line 287 is
signed: a byte above 0x7F is negative, hence `< '0'`, hence rejected, as is `> '9'` unsigned. -/
def validateResponsePseudo (hs : List (Bytes × Bytes)) : Bool := respPseudoLoop false hs

/-- `should_escalate_to_connection`, base.cpp 307-336, by numeric error code (frames.h `ErrorCode`). -/
def shouldEscalate (code streamId : UInt32) : Bool :=
  if streamId == 0 then true
  else if code == 1 || code == 9 || code == 10 || code == 11 || code == 12 || code == 13 then true
  else if code == 2 || code == 3 || code == 4 || code == 6 then true
  else false

/-- `StreamIdValidator::validate_stream_id_for_frame`, base.cpp 395-442, by frame type octet. -/
def validateStreamId (ftype : UInt8) (sid : UInt32) (isServer : Bool) : Bool :=
  if ftype == 4 || ftype == 6 || ftype == 7 then sid == 0
  else if ftype == 0 || ftype == 1 || ftype == 2 || ftype == 3 || ftype == 5 || ftype == 9 then
    if sid == 0 then false
    else if ftype == 1 || ftype == 5 then
      if isServer && !(sid != 0 && sid % 2 == 1) then false
      else if !isServer && ftype == 5 && !(sid != 0 && sid % 2 == 0) then false
      else true
    else true
  else true

end Verif.Stream
