import Verif.Base

/-! Model of the WebSocket codec: `src/qbm/http/ws/ws.cpp` and the protocol class
`ws_internal::base` of `src/qbm/http/ws/ws.h`.

Sizes (`std::size_t`) are `Nat`: every length computed by the code is below 2^63 (the 64-bit length
form with its top bit set is refused), so no addition of the code can wrap. User handlers (`on(...)`)
are modelled as events appended to a trace; handlers that throw or call back into the protocol are
not modelled. -/

namespace Verif.Ws

/-! ## UTF-8 -/

/-- The lambda `is_cont`, ws.cpp 101-103. -/
def isCont (b : UInt8) : Bool := (b &&& 0xC0) == 0x80

/-- `is_utf8`, ws.cpp 96-203. The index loop becomes recursion on the remaining bytes;
`i + k >= n` (return false) is the failure to match `k` more bytes. -/
def isUtf8 : Bytes → Bool
  | [] => true
  | b0 :: t =>
    if b0 ≤ 0x7F then isUtf8 t
    else if b0 ≥ 0xC2 && b0 ≤ 0xDF then
      match t with
      | b1 :: t' => if !isCont b1 then false else isUtf8 t'
      | _ => false
    else if b0 == 0xE0 then
      match t with
      | b1 :: b2 :: t' => if b1 < 0xA0 || b1 > 0xBF || !isCont b2 then false else isUtf8 t'
      | _ => false
    else if b0 ≥ 0xE1 && b0 ≤ 0xEC then
      match t with
      | b1 :: b2 :: t' => if !isCont b1 || !isCont b2 then false else isUtf8 t'
      | _ => false
    else if b0 == 0xED then
      match t with
      | b1 :: b2 :: t' => if b1 < 0x80 || b1 > 0x9F || !isCont b2 then false else isUtf8 t'
      | _ => false
    else if b0 ≥ 0xEE && b0 ≤ 0xEF then
      match t with
      | b1 :: b2 :: t' => if !isCont b1 || !isCont b2 then false else isUtf8 t'
      | _ => false
    else if b0 == 0xF0 then
      match t with
      | b1 :: b2 :: b3 :: t' =>
        if b1 < 0x90 || b1 > 0xBF || !isCont b2 || !isCont b3 then false else isUtf8 t'
      | _ => false
    else if b0 ≥ 0xF1 && b0 ≤ 0xF3 then
      match t with
      | b1 :: b2 :: b3 :: t' => if !isCont b1 || !isCont b2 || !isCont b3 then false else isUtf8 t'
      | _ => false
    else if b0 == 0xF4 then
      match t with
      | b1 :: b2 :: b3 :: t' =>
        if b1 < 0x80 || b1 > 0x8F || !isCont b2 || !isCont b3 then false else isUtf8 t'
      | _ => false
    else false

/-! ## Messages and their serialization -/

/-- `struct Message`, ws.h 96-138. -/
structure Msg where
  frop : UInt8
  masked : Bool
  data : Bytes
deriving DecidableEq, Repr

/-- `is_sendable_close_code`, ws.h 253-266. -/
def isSendableCloseCode (code : UInt16) : Bool :=
  if code < 1000 || code > 4999 then false
  else if code == 1004 || code == 1005 || code == 1006 || code == 1015 then false
  else true

/-- The loop `while (!reason.empty() && !is_utf8(reason)) reason.remove_suffix(1)`, ws.cpp 224-226. -/
def trimToUtf8 (reason : Bytes) : Bytes :=
  if _h : reason = [] then []
  else if isUtf8 reason then reason
  else trimToUtf8 reason.dropLast
termination_by reason.length
decreasing_by
  have : reason.length ≠ 0 := by simpa using _h
  rw [List.length_dropLast]; omega

/-- The reason actually used, ws.cpp 222-227. -/
def closeReason (reason : Bytes) : Bytes :=
  if reason.length > 123 then trimToUtf8 (reason.take 123) else reason

/-- `MessageClose::MessageClose`, ws.cpp 210-234; `none` = `std::invalid_argument` is thrown. -/
def messageClose (status : UInt16) (reason : Bytes) : Option Msg :=
  if !isSendableCloseCode status then none
  else if !(closeReason reason).isEmpty && !isUtf8 (closeReason reason) then none
  else some { frop := 136, masked := false,
              data := (status >>> 8).toUInt8 :: (status &&& 0xFF).toUInt8 :: closeReason reason }

/-- `is_valid_frame_opcode`, ws.h 398-411. -/
def isValidOpcode (op : UInt8) : Bool :=
  op == 0 || op == 1 || op == 2 || op == 8 || op == 9 || op == 10

/-- `is_control_opcode`, ws.cpp 257-261. -/
def isControlOpcode (frop : UInt8) : Bool := (frop &&& 0x0F) ≥ 8

/-- `enforce_outgoing_frame_constraints`, ws.cpp 263-278; `false` = throws. -/
def enforceOutgoing (m : Msg) : Bool :=
  if (m.frop &&& 0x70) != 0 then false
  else if !isValidOpcode (m.frop &&& 0x0F) then false
  else if isControlOpcode m.frop && m.data.length > 125 then false
  else if isControlOpcode m.frop && (m.frop &&& 0x80) == 0 then false
  else true

/-- The length loop `for (c = num_bytes-1; ...; --c) pipe << (length >> (8*c)) % 256`, ws.cpp 315-316
and 366-367. -/
def lengthBytes (length : Nat) : Nat → Bytes
  | 0 => []
  | c + 1 => UInt8.ofNat ((length >>> (8 * c)) % 256) :: lengthBytes length c

/-- Second byte and extended length, ws.cpp 302-320 (`maskBit` = 0) and 353-371 (`maskBit` = 128). -/
def lengthField (maskBit : Nat) (length : Nat) : Bytes :=
  if length ≥ 126 then
    if length > 0xffff then UInt8.ofNat (127 + maskBit) :: lengthBytes length 8
    else UInt8.ofNat (126 + maskBit) :: lengthBytes length 2
  else [UInt8.ofNat (length + maskBit)]

/-- `fill_unmasked_message`, ws.cpp 291-324; `none` = throws. -/
def fillUnmasked (m : Msg) : Option Bytes :=
  if !enforceOutgoing m then none
  else some (m.frop :: (lengthField 0 m.data.length ++ m.data))

/-- The masking key (`fill_secure_bytes`, random): four bytes. -/
structure Mask where
  k0 : UInt8
  k1 : UInt8
  k2 : UInt8
  k3 : UInt8
deriving DecidableEq, Repr

/-- The key as a byte string. -/
def Mask.bytes (k : Mask) : Bytes := [k.k0, k.k1, k.k2, k.k3]

/-- The masking loops, ws.cpp 385-394: whole 4-byte words are XORed with the key loaded as one word
(byte-wise the same as XOR with `k0..k3` whatever the endianness), the rest byte by byte with
`mask[i & 3]`. -/
def maskLoop (k : Mask) : Bytes → Bytes
  | a :: b :: c :: d :: t => (a ^^^ k.k0) :: (b ^^^ k.k1) :: (c ^^^ k.k2) :: (d ^^^ k.k3) :: maskLoop k t
  | [a, b, c] => [a ^^^ k.k0, b ^^^ k.k1, c ^^^ k.k2]
  | [a, b] => [a ^^^ k.k0, b ^^^ k.k1]
  | [a] => [a ^^^ k.k0]
  | [] => []

/-- `fill_masked_message`, ws.cpp 336-395, for the random key `k`; `none` = throws. -/
def fillMasked (m : Msg) (k : Mask) : Option Bytes :=
  if !enforceOutgoing m then none
  else some (m.frop :: (lengthField 128 m.data.length ++ k.bytes ++ maskLoop k m.data))

/-- `pipe<char>::put<Message>`, ws.cpp 405-413. -/
def putMessage (m : Msg) (k : Mask) : Option Bytes :=
  if m.masked then fillMasked m k else fillUnmasked m

/-! ## The receiving protocol -/

/-- What the protocol does to its surroundings: user handler calls and queued outgoing messages. -/
inductive Ev
  /-- `_io.on(message{...})`: FIN|opcode and payload -/
  | message (frop : UInt8) (data : Bytes)
  | ping (data : Bytes)
  | pong (data : Bytes)
  | close (data : Bytes)
  /-- `_io << msg` -/
  | send (m : Msg)
  /-- `notify_protocol_error` -/
  | error
deriving DecidableEq, Repr

/-- Compile-time configuration: `IO_::has_server`, and whether the IO has an `on(close&&)`. -/
structure Cfg where
  server : Bool
  hasClose : Bool
  /-- `_max_payload_size` (0 = unlimited), ws.h 437, set by `set_max_payload_size` 610-613 -/
  maxPayload : Nat

/-- The members of `base`, ws.h 429-437, `ok()` of the base class, and the trace of effects. -/
structure P where
  parsed : Nat := 0
  expected : Nat := 0
  frop : UInt8 := 0
  dataOp : UInt8 := 0
  msgFrop : UInt8 := 0
  msgMasked : Bool := false
  msgData : Bytes := []
  ok : Bool := true
  out : List Ev := []
deriving DecidableEq, Repr

/-- `fail_connection`, ws.h 457-471, without its return value (always the input buffer's size). If
`MessageClose` threw, `getMessageSize` (noexcept) would terminate the process; the model then records
nothing, and `C34_fail_sends_close` shows it never happens. -/
def fail (cfg : Cfg) (status : UInt16) (reason : Bytes) (p : P) : P :=
  if p.ok then
    match messageClose status reason with
    | some m =>
      { p with out := p.out ++ [Ev.send { m with masked := !cfg.server }, Ev.error], ok := false,
               msgFrop := 0, msgData := [], dataOp := 0 }
    | none => { p with ok := false }
  else p

/-- The payload check of `processControlFrame` for Close frames, ws.h 492-508: `none` = acceptable,
otherwise the status and reason to fail with. -/
def closePayloadError (data : Bytes) : Option (UInt16 × Bytes) :=
  match data with
  | [] => none
  | [_] => some (1002, b!"Close frame payload of 1 byte is invalid")
  | a :: b :: reason =>
    if !isSendableCloseCode ((a.toUInt16 <<< 8) ||| b.toUInt16) then some (1002, b!"Invalid close status code")
    else if data.length > 2 && !isUtf8 reason then some (1007, b!"Invalid UTF-8 in close reason")
    else none

/-- `processControlFrame`, ws.h 482-534. -/
def processControl (cfg : Cfg) (op : UInt8) (data : Bytes) (p : P) : P :=
  if op == 8 then
    match closePayloadError data with
    | some (st, r) => fail cfg st r p
    | none =>
      if cfg.hasClose then { p with out := p.out ++ [Ev.close data], ok := false }
      else { p with out := p.out ++ [Ev.send ⟨p.frop, !cfg.server, data⟩], ok := false }
  else if op == 9 then
    { p with out := p.out ++ [Ev.ping data, Ev.send ⟨138, !cfg.server, data⟩] }
  else if op == 10 then { p with out := p.out ++ [Ev.pong data] }
  else p

/-- First half of `processDataFrame`, ws.h 539-552. -/
def dataStart (cfg : Cfg) (op : UInt8) (p : P) : P :=
  if op != 0 then
    if p.dataOp != 0 then
      fail cfg 1002 b!"Received new data message before previous was complete" p
    else { p with dataOp := op, msgFrop := 0, msgData := [] }
  else if p.dataOp == 0 then
    fail cfg 1002 b!"Received continuation frame without initial data frame" p
  else p

/-- The completion of a message, ws.h 564-586. -/
def dataFinish (cfg : Cfg) (p : P) : P :=
  if p.dataOp == 0 then
    fail cfg 1002 b!"Received final continuation frame with no initial data frame" p
  else if p.dataOp == 1 && !isUtf8 p.msgData then
    { fail cfg 1007 b!"Invalid UTF-8 in text message" { p with msgFrop := p.dataOp ||| 0x80 } with
      msgFrop := 0, msgData := [], dataOp := 0 }
  else
    { p with out := p.out ++ [Ev.message (p.dataOp ||| 0x80) p.msgData], msgMasked := !cfg.server,
             msgFrop := 0, msgData := [], dataOp := 0 }

/-- The size test of ws.h 555-560. -/
def tooBig (cfg : Cfg) (p : P) (data : Bytes) : Bool :=
  decide (cfg.maxPayload > 0) &&
    (decide (p.msgData.length > cfg.maxPayload) || decide (data.length > cfg.maxPayload - p.msgData.length))

/-- Second half of `processDataFrame`, ws.h 554-588. -/
def dataAppend (cfg : Cfg) (fin : Bool) (data : Bytes) (p : P) : P :=
  if p.ok then
    if tooBig cfg p data then fail cfg 1009 b!"Payload size exceeds configured limit" p
    else if fin then dataFinish cfg { p with msgData := p.msgData ++ data }
    else { p with msgData := p.msgData ++ data }
  else p

/-- `processDataFrame`, ws.h 536-589. -/
def processData (cfg : Cfg) (op : UInt8) (fin : Bool) (data : Bytes) (p : P) : P :=
  dataAppend cfg fin data (dataStart cfg op p)

/-- The length loop, ws.h 695-696: `length += byte << (8 * (num_bytes - 1 - c))`. -/
def readLength : Bytes → Nat
  | [] => 0
  | b :: t => b.toNat * 256 ^ t.length + readLength t

/-- First stage of `getMessageSize`, ws.h 634-666, on the first two bytes: `inl` = fail with that
reason (status 1002), `inr masked` = go on. -/
def checkFirst (server : Bool) (b0 b1 : UInt8) : Sum Bytes Bool :=
  if !isValidOpcode (b0 &&& 0x0F) then .inl b!"Reserved or unknown opcode"
  else if (b0 &&& 0x70) != 0 then .inl b!"RSV bits must be 0"
  else if (b0 &&& 0x0F) ≥ 8 && (b0 &&& 0x80) == 0 then .inl b!"Control frame cannot be fragmented"
  else if server && (b1 &&& 0x80) == 0 then .inl b!"Message from client not masked"
  else if !server && (b1 &&& 0x80) != 0 then .inl b!"Message from server must not be masked"
  else .inr ((b1 &&& 0x80) != 0)

/-- `num_bytes`, ws.h 679-684. -/
def numBytes (ind : UInt8) : Nat := if ind == 126 then 2 else if ind == 127 then 8 else 0

/-- Outcome of the length stage: fail, wait for more input, or a length. -/
inductive LenRes
  | bad (status : UInt16) (reason : Bytes)
  | more
  | len (n : Nat)
deriving DecidableEq

/-- The checks on the decoded length, ws.h 698-715. `ext` are the extended length bytes. -/
def checkLength (cfg : Cfg) (control : Bool) (ind : UInt8) (ext : Bytes) (length : Nat) : LenRes :=
  if ind == 127 && (ext.headD 0 &&& 0x80) != 0 then
    .bad 1002 b!"Most significant bit of 64-bit payload length must be 0"
  else if ind == 126 && length < 126 then .bad 1002 b!"Non-minimal payload length encoding"
  else if ind == 127 && length ≤ 0xFFFF then .bad 1002 b!"Non-minimal payload length encoding"
  else if !control && cfg.maxPayload > 0 && length > cfg.maxPayload then
    .bad 1009 b!"Payload size exceeds configured limit"
  else .len length

/-- Second stage of `getMessageSize`, ws.h 669-717: the payload length. `buf` is the whole input. -/
def lengthStage (cfg : Cfg) (frop b1 : UInt8) (buf : Bytes) : LenRes :=
  if (frop &&& 0x0F) ≥ 8 && (b1 &&& 127) > 125 then
    .bad 1002 b!"Control frame payload cannot exceed 125 bytes"
  else if numBytes (b1 &&& 127) != 0 && (frop &&& 0x0F) ≥ 8 then
    .bad 1002 b!"Control frame cannot have extended payload length"
  else if numBytes (b1 &&& 127) != 0 then
    if buf.length < numBytes (b1 &&& 127) + 2 then .more
    else checkLength cfg ((frop &&& 0x0F) ≥ 8) (b1 &&& 127) ((buf.drop 2).take (numBytes (b1 &&& 127)))
      (readLength ((buf.drop 2).take (numBytes (b1 &&& 127))))
  else checkLength cfg ((frop &&& 0x0F) ≥ 8) (b1 &&& 127) [] (b1 &&& 127).toNat

/-- `full_size`, ws.h 719. -/
def fullSize (p : P) : Nat := p.expected + p.parsed + (if p.msgMasked then 4 else 0)

/-- End of `getMessageSize`, ws.h 719-723. -/
def sizeStage (buf : Bytes) (p : P) : Nat × P := if buf.length < fullSize p then (0, p) else (fullSize p, p)

/-- `getMessageSize` from line 669 on. -/
def getSize2 (cfg : Cfg) (buf : Bytes) (p : P) : Nat × P :=
  if p.expected == 0 then
    match lengthStage cfg p.frop (buf.getD 1 0) buf with
    | .bad st r => (buf.length, fail cfg st r p)
    | .more => (0, p)
    | .len n => sizeStage buf { p with expected := n, parsed := p.parsed + numBytes (buf.getD 1 0 &&& 127) }
  else sizeStage buf p

/-- `getMessageSize`, ws.h 622-724. On refusal the members assigned before the refusal
(`_fin_rsv_opcode`, `_message.masked`) are not updated by the model; nothing reads them afterwards
(`ok()` is false). -/
def getSize (cfg : Cfg) (buf : Bytes) (p : P) : Nat × P :=
  if !p.ok then (0, p)
  else if p.parsed == 0 then
    if buf.length < 2 then (0, p)
    else
      match checkFirst cfg.server (buf.getD 0 0) (buf.getD 1 0) with
      | .inl r => (buf.length, fail cfg 1002 r p)
      | .inr m => getSize2 cfg buf { p with frop := buf.getD 0 0, msgMasked := m, parsed := 2 }
  else getSize2 cfg buf p

/-- The unmasking loop, ws.h 755-756: byte `i` XOR `mask[i % 4]`. -/
def unmask (key : Bytes) (i : Nat) : Bytes → Bytes
  | [] => []
  | b :: t => (b ^^^ key.getD (i % 4) 0) :: unmask key (i + 1) t

/-- The frame payload extracted by `onMessage`, ws.h 744-759. -/
def framePayload (buf : Bytes) (p : P) : Bytes :=
  if p.msgMasked then
    unmask ((buf.drop p.parsed).take 4) 0 ((buf.drop (p.parsed + 4)).take p.expected)
  else (buf.drop p.parsed).take p.expected

/-- Dispatch of `onMessage`, ws.h 761-766. -/
def dispatch (cfg : Cfg) (data : Bytes) (p : P) : P :=
  if (p.frop &&& 0x0F) ≥ 8 then processControl cfg (p.frop &&& 0x0F) data p
  else processData cfg (p.frop &&& 0x0F) ((p.frop &&& 0x80) != 0) data p

/-- `onMessage`, ws.h 726-777. -/
def onMessage (cfg : Cfg) (buf : Bytes) (p : P) : P :=
  if !p.ok then p
  else { dispatch cfg (framePayload buf p) p with expected := 0, parsed := 0, frop := 0 }

/-- The read loop of the I/O layer (qb `io::async::input`, not in this repository):
`while ((n = getMessageSize()) > 0) { onMessage(n); flush(n); }`. Returns the protocol and the bytes
left in the input buffer. -/
def drive (cfg : Cfg) (buf : Bytes) (p : P) : P × Bytes :=
  if _h : (getSize cfg buf p).1 = 0 ∨ buf = [] then ((getSize cfg buf p).2, buf)
  else drive cfg (buf.drop (getSize cfg buf p).1) (onMessage cfg buf (getSize cfg buf p).2)
termination_by buf.length
decreasing_by
  rw [List.length_drop]
  have : buf.length ≠ 0 := fun hh => _h (Or.inr (by simpa using hh))
  have : (getSize cfg buf p).1 ≠ 0 := fun hh => _h (Or.inl hh)
  omega

/-- Input arriving in chunks: each chunk is appended to the input buffer and the read loop runs. -/
def feed (cfg : Cfg) : List Bytes → P × Bytes → P × Bytes
  | [], s => s
  | c :: cs, s => feed cfg cs (drive cfg (s.2 ++ c) s.1)

end Verif.Ws
