import Verif.H2.FrameModel

/-! Independent vocabulary for the framing properties (RFC 9113 section 4 and 6). -/

namespace Verif.H2
open Verif

/-- The frame type a payload belongs to. -/
def Payload.typeOf : Payload → Byte
  | .data .. => 0 | .headers .. => 1 | .priority .. => 2 | .rst .. => 3 | .settings .. => 4
  | .pushPromise .. => 5 | .ping .. => 6 | .goaway .. => 7 | .windowUpdate .. => 8
  | .continuation .. => 9

/-- Number of payload octets of a frame sent without padding and without priority information. -/
def Payload.wireSize : Payload → Nat
  | .data d _ => d.length
  | .headers frag _ => frag.length
  | .priority _ => 5
  | .rst _ => 4
  | .settings es => 6 * es.length
  | .pushPromise _ frag => 4 + frag.length
  | .ping _ => 8
  | .goaway _ _ dbg => 8 + dbg.length
  | .windowUpdate _ => 4
  | .continuation frag => frag.length

/-- Values that fit the field widths of the wire format. -/
def Payload.InRange (flags : Byte) : Payload → Prop
  | .data _ pad => hasFlag flags FLAG_PADDED = false ∧ pad = 0
  | .headers _ pri => hasFlag flags FLAG_PADDED = false ∧ hasFlag flags FLAG_PRIORITY = false
      ∧ pri = none
  | .priority p => p.dep.toNat < 2 ^ 31
  | .rst _ => True
  | .settings es => hasFlag flags FLAG_ACK = true → es = []
  | .pushPromise id _ => hasFlag flags FLAG_PADDED = false ∧ id.toNat < 2 ^ 31
  | .ping o => o.length = 8
  | .goaway last _ _ => last.toNat < 2 ^ 31
  | .windowUpdate inc => 0 < inc.toNat ∧ inc.toNat < 2 ^ 31
  | .continuation _ => True

/-- A frame a sender may put on the wire towards a receiver that accepts payloads of up to `max`
octets: the header names the payload's type, SETTINGS/PING/GOAWAY are on stream 0, fields fit. -/
structure Sendable (max : Nat) (f : Frame) : Prop where
  typ : f.header.type = f.payload.typeOf
  size : f.payload.wireSize ≤ max
  stream0 : f.header.type = 4 ∨ f.header.type = 6 ∨ f.header.type = 7 → f.header.streamId = 0
  range : f.payload.InRange f.header.flags

/-- The frame as it is on the wire: the length field says how many payload octets follow. -/
def Frame.onWire (f : Frame) : Frame :=
  { f with header := f.header.setPayloadLength (UInt32.ofNat f.payload.wireSize) }

/-- The frames handed to the application layer, in order. -/
def delivered (l : List Event) : List Frame :=
  l.filterMap fun | .frame f => some f | _ => none

/-- Which stream has an unfinished header block after the given frames (RFC 9113 section 6.10). -/
def openBlock (fs : List Frame) : Option UInt32 :=
  fs.foldl (fun o f =>
    if f.header.type = 1 ∨ f.header.type = 5 then
      if hasFlag f.header.flags FLAG_END_HEADERS then none else some f.header.streamId
    else if f.header.type = 9 then
      if hasFlag f.header.flags FLAG_END_HEADERS then none else o
    else o) none

/-- While a header block is open, the only frame that follows is a CONTINUATION of its stream. -/
def NotInterleaved (fs : List Frame) : Prop :=
  ∀ pre f post, fs = pre ++ f :: post → ∀ sid, openBlock pre = some sid →
    f.header.type = 9 ∧ f.header.streamId = sid

/-- A CONTINUATION frame that ends a header block and carries no octets. -/
def EmptyFinalContinuation (f : Frame) : Prop :=
  f.header.type = 9 ∧ hasFlag f.header.flags FLAG_END_HEADERS = true ∧ f.payload.wireSize = 0

/-- A framer between two frames on a live connection with no header block open. -/
structure AtBoundary (f : Framer) : Prop where
  state : f.state = .header
  ok : f.ok = true
  closed : f.contReq = false

/-- Network byte order (the constructor `UInt8.ofNat` reduces modulo 256). -/
def be32 (v : UInt32) : Bytes :=
  [.ofNat (v.toNat / 2 ^ 24), .ofNat (v.toNat / 2 ^ 16), .ofNat (v.toNat / 2 ^ 8), .ofNat v.toNat]

/-- Network byte order. -/
def be16 (v : UInt16) : Bytes := [.ofNat (v.toNat / 2 ^ 8), .ofNat v.toNat]

/-- Layout of the payload of a received frame (RFC 9113 section 6): how the octets `p` decompose
for the header `hdr`, and what they mean. Padding: with PADDED set, `p` starts with the pad length
and ends with that many octets. -/
inductive Layout (hdr : FrameHeader) : Bytes → Payload → Prop
  | data (d) : hdr.type = 0 → hasFlag hdr.flags FLAG_PADDED = false → Layout hdr d (.data d 0)
  | dataPadded (n : Byte) (d padding : Bytes) : hdr.type = 0 →
      hasFlag hdr.flags FLAG_PADDED = true → padding.length = n.toNat →
      Layout hdr (n :: (d ++ padding)) (.data d (1 + n.toNat))
  | headers (frag) : hdr.type = 1 → hasFlag hdr.flags FLAG_PADDED = false →
      hasFlag hdr.flags FLAG_PRIORITY = false → Layout hdr frag (.headers frag none)
  | headersPadded (n : Byte) (frag padding : Bytes) : hdr.type = 1 →
      hasFlag hdr.flags FLAG_PADDED = true → hasFlag hdr.flags FLAG_PRIORITY = false →
      padding.length = n.toNat → Layout hdr (n :: (frag ++ padding)) (.headers frag none)
  | headersPri (w : UInt32) (wt : Byte) (frag) : hdr.type = 1 →
      hasFlag hdr.flags FLAG_PADDED = false → hasFlag hdr.flags FLAG_PRIORITY = true →
      Layout hdr (be32 w ++ wt :: frag)
        (.headers frag (some ⟨w &&& 0x7FFFFFFF, wt, w.toNat ≥ 2 ^ 31⟩))
  | headersPaddedPri (n : Byte) (w : UInt32) (wt : Byte) (frag padding : Bytes) : hdr.type = 1 →
      hasFlag hdr.flags FLAG_PADDED = true → hasFlag hdr.flags FLAG_PRIORITY = true →
      padding.length = n.toNat →
      Layout hdr (n :: (be32 w ++ wt :: (frag ++ padding)))
        (.headers frag (some ⟨w &&& 0x7FFFFFFF, wt, w.toNat ≥ 2 ^ 31⟩))
  | priority (w : UInt32) (wt : Byte) : hdr.type = 2 →
      Layout hdr (be32 w ++ [wt]) (.priority ⟨w &&& 0x7FFFFFFF, wt, w.toNat ≥ 2 ^ 31⟩)
  | rst (c : UInt32) : hdr.type = 3 → Layout hdr (be32 c) (.rst c)
  | settings (es : List (UInt16 × UInt32)) : hdr.type = 4 → hasFlag hdr.flags FLAG_ACK = false →
      Layout hdr (es.flatMap fun e => be16 e.1 ++ be32 e.2) (.settings es)
  | push (w : UInt32) (frag) : hdr.type = 5 → hasFlag hdr.flags FLAG_PADDED = false →
      Layout hdr (be32 w ++ frag) (.pushPromise (w &&& 0x7FFFFFFF) frag)
  | pushPadded (n : Byte) (w : UInt32) (frag padding : Bytes) : hdr.type = 5 →
      hasFlag hdr.flags FLAG_PADDED = true → padding.length = n.toNat →
      Layout hdr (n :: (be32 w ++ (frag ++ padding))) (.pushPromise (w &&& 0x7FFFFFFF) frag)
  | ping (o) : hdr.type = 6 → o.length = 8 → Layout hdr o (.ping o)
  | goaway (w c : UInt32) (dbg) : hdr.type = 7 →
      Layout hdr (be32 w ++ be32 c ++ dbg) (.goaway (w &&& 0x7FFFFFFF) c dbg)
  | windowUpdate (w : UInt32) : hdr.type = 8 → w &&& 0x7FFFFFFF ≠ 0 →
      Layout hdr (be32 w) (.windowUpdate (w &&& 0x7FFFFFFF))
  | continuation (frag) : hdr.type = 9 → Layout hdr frag (.continuation frag)

end Verif.H2
