import Verif.H2.SendLemmas

/-! HTTP/2 framing: property theorems C23-C27, C43, C44. -/

namespace Verif.H2
open Verif

/-- A side protocol that never closes the connection. -/
def keepAlive : Handler := fun _ => none

/-! ## C23 -/

/-- C23. A legal sequence of frames (each within the receiver's limits, header blocks not
interleaved, no empty final CONTINUATION), written by the serializers and cut into reads in any
way, is delivered frame by frame; the input buffer ends empty and the framer waits for the next
header, with no header block pending if the last one was finished. -/
theorem C23_frames_roundtrip_partial (h : Handler) (hh : ∀ l, h l = none) (f : Framer) (hb : AtBoundary f)
    (hlim : f.ourMax.toNat < 2 ^ 24) (fs : List Frame)
    (hs : ∀ x ∈ fs, Sendable f.ourMax.toNat x) (hni : NotInterleaved fs)
    (hne : ∀ x ∈ fs, ¬ EmptyFinalContinuation x)
    (chunks : List Bytes) (hc : chunks.flatten = (fs.map serialize).flatten) :
    (Framer.reads h (f, []) chunks).1.log = f.log ++ fs.map (fun x => .frame x.onWire) ∧
    (Framer.reads h (f, []) chunks).2 = [] ∧
    (Framer.reads h (f, []) chunks).1.state = .header ∧
    (Framer.reads h (f, []) chunks).1.ok = true ∧
    (openBlock fs = none → AtBoundary (Framer.reads h (f, []) chunks).1) := by
  rw [reads_flatten h chunks (f, []) (pump_nil h f)]
  simp only [List.nil_append, hc]
  obtain ⟨g, g1, g2, g3, g4, g5, g6⟩ :=
    pump_sendables hh fs hb.state hb.ok hs hlim (o := none) (by rw [hb.closed]; simp) hni hne
  have := g1 []
  rw [List.append_nil] at this
  rw [this, pump_nil]
  refine ⟨g5, rfl, g2, g3, ?_⟩
  intro ho
  refine ⟨g2, g3, ?_⟩
  cases hcr : g.contReq
  · rfl
  · have := g6 hcr
    rw [openFrom_none, ho] at this; cases this

/-- C23, one frame: any sendable frame (other than a continuation, so no open block is needed)
arrives unchanged, with any bytes behind it still to be processed from a frame boundary. -/
theorem C23_single_frame (h : Handler) (hh : ∀ l, h l = none) (f : Framer) (hb : AtBoundary f)
    (hlim : f.ourMax.toNat < 2 ^ 24) (x : Frame) (hx : Sendable f.ourMax.toNat x)
    (hne : ¬ EmptyFinalContinuation x) :
    ∃ g : Framer, g.state = .header ∧ g.ok = true ∧ g.log = f.log ++ [.frame x.onWire] ∧
      ∀ rest, Framer.pump h f (serialize x ++ rest) = Framer.pump h g rest := by
  obtain ⟨g, g1, g2, g3, _, g5, _⟩ :=
    pump_sendable hh hb.state hb.ok hx hlim (o := none) (by rw [hb.closed]; simp) (by simp) hne
  exact ⟨g, g2, g3, g5, g1⟩

/-- C23: how the byte stream is cut into reads never matters, whatever the bytes and whatever the
side protocol does. -/
theorem C23_segmentation (h : Handler) (f : Framer) (c1 c2 : List Bytes)
    (hc : c1.flatten = c2.flatten) :
    Framer.reads h (f, []) c1 = Framer.reads h (f, []) c2 := by
  rw [reads_flatten h c1 (f, []) (pump_nil h f), reads_flatten h c2 (f, []) (pump_nil h f), hc]

/-- C23: the length field of the frame on the wire announces exactly the payload. -/
theorem C23_length_field (max : Nat) (hmax : max < 2 ^ 24) (x : Frame) (hx : Sendable max x) :
    (serialize x).length = 9 + x.onWire.header.payloadLength.toNat ∧
    x.onWire.header.payloadLength.toNat = x.payload.wireSize := by
  have h1 := payloadBytes_length hx.range
  have h2 : x.onWire.header.payloadLength.toNat = x.payload.wireSize :=
    payloadLength_set _ _ (by have := hx.size; omega)
  refine ⟨?_, h2⟩
  rw [h2]
  unfold serialize
  simp only [List.length_append, bytes_length, h1]

/-- C23 is FALSE for HEADERS frames with priority information: the serializer writes the flag but
not the five priority octets, so the receiver takes them out of the header block fragment. -/
theorem C23_false_priority :
    let x : Frame := ⟨({ type := 1, flags := 0x24 } : FrameHeader).setStreamId 1,
      .headers [0x82, 0x84, 0x86, 0x41, 0x01, 0x61] (some ⟨3, 15, false⟩)⟩
    (Framer.reads keepAlive ({ state := .header }, []) [serialize x]).1.log =
      [.frame ⟨x.onWire.header, .headers [0x61] (some ⟨0x02848641, 1, true⟩)⟩] := by decide +kernel

/-- Non-vacuity: a HEADERS/CONTINUATION pair and a WINDOW_UPDATE satisfy the hypotheses. -/
def exampleFrames : List Frame :=
  [⟨({ type := 1, flags := 1 } : FrameHeader).setStreamId 5, .headers [0x82, 0x84] none⟩,
   ⟨({ type := 9, flags := 4 } : FrameHeader).setStreamId 5, .continuation [0x86]⟩,
   ⟨({ type := 8 } : FrameHeader), .windowUpdate 1000⟩]

example : (∀ x ∈ exampleFrames, Sendable 16384 x) ∧ NotInterleaved exampleFrames ∧
    (∀ x ∈ exampleFrames, ¬ EmptyFinalContinuation x) := by
  refine ⟨?_, ?_, ?_⟩
  · intro x hx
    simp only [exampleFrames, List.mem_cons, List.not_mem_nil, or_false] at hx
    rcases hx with rfl | rfl | rfl <;>
      exact ⟨by decide, by decide, by decide, by
        first | trivial | (simp only [Payload.InRange]; decide)⟩
  · intro pre f post e sid ho
    match pre, e with
    | [], _ => cases ho
    | [a], e =>
      simp only [exampleFrames, List.cons_append, List.nil_append, List.cons.injEq] at e
      obtain ⟨rfl, rfl, _⟩ := e
      revert ho; simp only [show openBlock [⟨({ type := 1, flags := 1 } : FrameHeader).setStreamId 5, .headers [0x82, 0x84] none⟩] = some 5 by decide +kernel]
      intro ho; cases ho; decide +kernel
    | [a, b], e =>
      simp only [exampleFrames, List.cons_append, List.nil_append, List.cons.injEq] at e
      obtain ⟨rfl, rfl, rfl, _⟩ := e
      revert ho
      rw [show openBlock [⟨({ type := 1, flags := 1 } : FrameHeader).setStreamId 5, .headers [0x82, 0x84] none⟩,
        ⟨({ type := 9, flags := 4 } : FrameHeader).setStreamId 5, .continuation [0x86]⟩] = none by decide +kernel]
      intro ho; cases ho
    | a :: b :: c :: d, e =>
      have := congrArg List.length e
      simp [exampleFrames] at this
  · intro x hx
    simp only [exampleFrames, List.mem_cons, List.not_mem_nil, or_false] at hx
    rcases hx with rfl | rfl | rfl <;> rintro ⟨_, _, h⟩ <;> revert h <;> decide

example : AtBoundary { state := .header } := ⟨rfl, rfl, rfl⟩

/-! ## C24 -/

/-- C24. The fragments of the frames written for a header block concatenate to the block. -/
theorem C24_reassembles (sid : UInt32) (flags : Byte) (peerMax : UInt32) (blk : Bytes) :
    ((sendHeaders sid flags peerMax blk).map Frame.fragment).flatten = blk :=
  (sendLoop_spec sid flags _ (by rw [peer_toNat]; omega) _ blk true (Nat.le_refl _)).1

/-- C24. No fragment is longer than the peer's maximum frame size (which is at least 1). -/
theorem C24_fragment_size (sid : UInt32) (flags : Byte) (peerMax : UInt32) (hp : 1 ≤ peerMax.toNat)
    (blk : Bytes) : ∀ x ∈ sendHeaders sid flags peerMax blk, x.fragment.length ≤ peerMax.toNat := by
  have := (sendLoop_spec sid flags (max 1 peerMax).toNat (by rw [peer_toNat]; omega) _ blk true
    (Nat.le_refl _)).2.1
  intro x hx
  have h1 := this x hx
  rw [peer_toNat] at h1; omega

/-- C24. END_HEADERS is set on the last frame and on no other. -/
theorem C24_end_headers_exactly_last (sid : UInt32) (flags : Byte) (peerMax : UInt32) (blk : Bytes)
    (pre post : List Frame) (x : Frame) (h : sendHeaders sid flags peerMax blk = pre ++ x :: post) :
    hasFlag x.header.flags FLAG_END_HEADERS = true ↔ post = [] :=
  (sendLoop_spec sid flags _ (by rw [peer_toNat]; omega) _ blk true (Nat.le_refl _)).2.2.1 pre x post h

/-- C24. One HEADERS frame carrying the caller's END_STREAM flag, then CONTINUATION frames, all on
the given stream. -/
theorem C24_shape (sid : UInt32) (hsid : sid.toNat < 2 ^ 31) (flags : Byte) (peerMax : UInt32) (blk : Bytes) :
    ∃ x rest, sendHeaders sid flags peerMax blk = x :: rest ∧
      x.header.type = 1 ∧ hasFlag x.header.flags FLAG_END_STREAM = hasFlag flags FLAG_END_STREAM ∧
      x.header.streamId = sid ∧
      ∀ y ∈ rest, y.header.type = 9 ∧ y.header.streamId = sid ∧ y.fragment ≠ [] := by
  obtain ⟨x, rest, e, ⟨lst, frag, hx⟩, hr⟩ :=
    (sendLoop_spec sid flags _ (by rw [peer_toNat]; omega : 1 ≤ (max 1 peerMax).toNat) _ blk true (Nat.le_refl _)).2.2.2.2
  refine ⟨x, rest, e, ?_, ?_, ?_, ?_⟩
  · rw [hx, fragmentFrame_type]; rfl
  · rw [hx]; unfold fragmentFrame headersFrame
    cases lst
    · exact (flag_es flags).2
    · exact (flag_es flags).1
  · rw [hx, fragmentFrame_sid, and31 sid hsid]
  · intro y hy
    obtain ⟨l2, f2, e2, hne⟩ := hr y hy
    refine ⟨by rw [e2, fragmentFrame_type]; rfl, by rw [e2, fragmentFrame_sid, and31 sid hsid], ?_⟩
    rw [e2, fragmentFrame_fragment]; exact hne

/-- C24, end to end: what a peer at a frame boundary receives, however the bytes are cut into
reads, is exactly those frames, and its framer is then free for other frames. The peer's advertised
limit is the sender's `peerMax`. -/
theorem C24_received (h : Handler) (hh : ∀ l, h l = none) (f : Framer) (hb : AtBoundary f)
    (hlim : f.ourMax.toNat < 2 ^ 24) (hpos : 1 ≤ f.ourMax.toNat)
    (sid : UInt32) (hsid : sid.toNat < 2 ^ 31) (flags : Byte)
    (hfl : hasFlag flags FLAG_PADDED = false ∧ hasFlag flags FLAG_PRIORITY = false) (blk : Bytes)
    (chunks : List Bytes)
    (hc : chunks.flatten = ((sendHeaders sid flags f.ourMax blk).map serialize).flatten) :
    (Framer.reads h (f, []) chunks).1.log =
      f.log ++ (sendHeaders sid flags f.ourMax blk).map (fun x => .frame x.onWire) ∧
    (Framer.reads h (f, []) chunks).2 = [] ∧ AtBoundary (Framer.reads h (f, []) chunks).1 := by
  obtain ⟨x, rest, e, hx1, _, hx3, hr⟩ := C24_shape sid hsid flags f.ourMax blk
  have hspec := sendLoop_spec sid flags (max 1 f.ourMax).toNat (by rw [peer_toNat]; omega) _ blk true (Nat.le_refl _)
  have hsz := C24_fragment_size sid flags f.ourMax hpos blk
  have hall : ∀ y ∈ sendHeaders sid flags f.ourMax blk, y.header.streamId = sid := by
    intro y hy; rw [e] at hy
    rcases List.mem_cons.1 hy with rfl | hy
    · exact hx3
    · exact (hr y hy).2.1
  have hsend : ∀ y ∈ sendHeaders sid flags f.ourMax blk, Sendable f.ourMax.toNat y := by
    intro y hy
    have hl := hsz y hy
    obtain ⟨fst, lst, frag, ey, _⟩ := hspec.2.2.2.1 y hy
    rw [ey, fragmentFrame_fragment] at hl
    have ht := fragmentFrame_type sid flags fst lst frag
    rw [← ey] at ht
    cases fst
    · subst ey
      exact ⟨rfl, hl, by rw [ht]; simp, trivial⟩
    · subst ey
      refine ⟨rfl, hl, by rw [ht]; simp, ?_, ?_, rfl⟩
      · unfold fragmentFrame headersFrame; cases lst
        · exact (flag_pad flags).2.1.trans hfl.1
        · exact (flag_pad flags).1.trans hfl.1
      · unfold fragmentFrame headersFrame; cases lst
        · exact (flag_pad flags).2.2.2.trans hfl.2
        · exact (flag_pad flags).2.2.1.trans hfl.2
  have hni : NotInterleaved (sendHeaders sid flags f.ourMax blk) := by
    intro pre y post ep s ho
    have hpre : ∀ z ∈ pre, z.header.streamId = sid := fun z hz => hall z (by rw [ep]; simp [hz])
    have hs := openBlock_sid pre none hpre (by simp) s ho
    cases pre with
    | nil => cases ho
    | cons a as =>
      rw [e] at ep
      simp at ep
      have := hr y (by rw [ep.2]; simp)
      exact ⟨this.1, by rw [this.2.1, hs]⟩
  have hemp : ∀ y ∈ sendHeaders sid flags f.ourMax blk, ¬ EmptyFinalContinuation y := by
    intro y hy hE
    rw [e] at hy
    rcases List.mem_cons.1 hy with rfl | hy
    · rw [hE.1] at hx1; cases hx1
    · obtain ⟨fst, lst, frag, ey, _⟩ := hspec.2.2.2.1 y (by show y ∈ sendHeaders sid flags f.ourMax blk; rw [e]; simp [hy])
      have h3 := (hr y hy).2.2
      have h1 := (hr y hy).1
      have hw := hE.2.2
      rw [ey, fragmentFrame_fragment] at h3
      rw [ey] at hw
      cases fst <;> exact h3 (List.length_eq_zero_iff.1 hw)
  have hopen : openBlock (sendHeaders sid flags f.ourMax blk) = none := by
    rcases List.eq_nil_or_concat (sendHeaders sid flags f.ourMax blk) with h0 | ⟨pre, y, h0⟩
    · rw [h0]; rfl
    · rw [List.concat_eq_append] at h0
      have hend := (C24_end_headers_exactly_last sid flags f.ourMax blk pre [] y h0).2 rfl
      rw [h0, openBlock_snoc, openFrom_one]
      have hty : y.header.type = 1 ∨ y.header.type = 9 := by
        have hy : y ∈ sendHeaders sid flags f.ourMax blk := by rw [h0]; simp
        rw [e] at hy
        rcases List.mem_cons.1 hy with rfl | hy
        · exact .inl hx1
        · exact .inr (hr y hy).1
      rcases hty with h1 | h9
      · simp [h1, hend]
      · simp [h9, hend]
  obtain ⟨a, b, _, _, c⟩ := C23_frames_roundtrip_partial h hh f hb hlim _ hsend hni hemp chunks hc
  exact ⟨a, b, c hopen⟩

/-- Non-vacuity and meaning: 7 octets for a peer that takes 3 at a time. -/
example : (sendHeaders 5 1 3 [1, 2, 3, 4, 5, 6, 7]).map (fun f => (f.header.type, f.header.flags, f.fragment)) =
    [(1, 1, [1, 2, 3]), (9, 0, [4, 5, 6]), (9, 4, [7])] := by decide +kernel

/-! ## C25 -/

/-- C25, first half, for every byte stream and any side protocol: frames are delivered
uninterleaved, provided no zero-length HEADERS frame without END_HEADERS is among them.  The
proviso is needed (`C25_false`). -/
theorem C25_not_interleaved_partial (h : Handler) (setting : UInt32) (chunks : List Bytes)
    (hyp : ∀ x ∈ delivered (Framer.reads h (Framer.init setting, []) chunks).1.log,
      x.header.type = 1 → hasFlag x.header.flags FLAG_END_HEADERS = false →
      x.header.payloadLength.toNat ≠ 0) :
    NotInterleaved (delivered (Framer.reads h (Framer.init setting, []) chunks).1.log) := by
  have := reads_summary_inv (P := NIInv) h (fun _ _ => NIInv_step) chunks (Framer.init setting, [])
    (by intro hs; cases hs)
    (by intro _
        refine ⟨?_, ?_⟩
        · intro pre f post e; cases pre <;> cases e
        · intro _ sid e; cases e)
  exact (this.2 hyp).1

/-- C25, second half: on a live connection the framer insists on CONTINUATION only while a block
is open, so after END_HEADERS every other frame is admitted again, provided no zero-length
CONTINUATION with END_HEADERS was received.  The proviso is needed (`C25_false_stuck`). -/
theorem C25_released_partial (h : Handler) (setting : UInt32) (chunks : List Bytes)
    (hyp : ∀ x ∈ delivered (Framer.reads h (Framer.init setting, []) chunks).1.log,
      x.header.type = 9 → hasFlag x.header.flags FLAG_END_HEADERS = true →
      x.header.payloadLength.toNat ≠ 0)
    (hok : (Framer.reads h (Framer.init setting, []) chunks).1.ok = true)
    (hend : openBlock (delivered (Framer.reads h (Framer.init setting, []) chunks).1.log) = none)
    (hst : (Framer.reads h (Framer.init setting, []) chunks).1.state = .header) :
    AtBoundary (Framer.reads h (Framer.init setting, []) chunks).1 := by
  have := reads_summary_inv (P := ConvInv) h (fun _ _ => ConvInv_step) chunks (Framer.init setting, [])
    (by intro hs; cases hs) (by intro _ _ hc; cases hc)
  refine ⟨hst, hok, ?_⟩
  cases hc : (Framer.reads h (Framer.init setting, []) chunks).1.contReq
  · rfl
  · have := this.2 hyp hok hc
    rw [hend] at this; cases this

/-- C25 is FALSE as stated: after a zero-length HEADERS frame without END_HEADERS on stream 1 the
framer delivers a DATA frame of stream 3. -/
theorem C25_false : ∃ chunks, ¬ NotInterleaved
    (delivered (Framer.reads keepAlive (Framer.init 16384, []) chunks).1.log) := by
  refine ⟨[PREFACE, [0,0,0, 1, 0, 0,0,0,1], [0,0,1, 0, 0, 0,0,0,3, 0x41]], ?_⟩
  intro hni
  have e : delivered (Framer.reads keepAlive (Framer.init 16384, [])
      [PREFACE, [0,0,0, 1, 0, 0,0,0,1], [0,0,1, 0, 0, 0,0,0,3, 0x41]]).1.log =
      [⟨FrameHeader.ofBytes [0,0,0, 1, 0, 0,0,0,1], .headers [] none⟩] ++
      ⟨FrameHeader.ofBytes [0,0,1, 0, 0, 0,0,0,3], .data [0x41] 0⟩ :: [] := by decide +kernel
  have := (hni _ _ _ e 1 (by decide +kernel)).1
  revert this; decide +kernel

/-- C25 is FALSE in the other direction too: HEADERS without END_HEADERS, then an empty
CONTINUATION with END_HEADERS, then DATA on the same stream: all three are legal, both header
frames are delivered, the DATA frame is refused and the connection dies with PROTOCOL_ERROR. -/
theorem C25_false_stuck :
    let s := Framer.reads keepAlive (Framer.init 16384, [])
      [PREFACE, [0,0,1, 1, 0, 0,0,0,1, 0x82], [0,0,0, 9, 4, 0,0,0,1], [0,0,1, 0, 0, 0,0,0,1, 0x41]]
    (delivered s.1.log).length = 2 ∧ openBlock (delivered s.1.log) = none ∧ s.1.ok = false ∧
      s.1.lastErr = some E_PROTOCOL_ERROR := by decide +kernel

/-- Non-vacuity of the two partial theorems: an ordinary HEADERS+CONTINUATION exchange. -/
example : (delivered (Framer.reads keepAlive (Framer.init 16384, [])
    [PREFACE, [0,0,1, 1, 0, 0,0,0,1, 0x82], [0,0,1, 9, 4, 0,0,0,1, 0x84]]).1.log).map
      (fun x => (x.header.type, x.header.payloadLength)) = [(1, 1), (9, 1)] := by decide +kernel

/-! ## C26 and C44: what a received payload means -/

/-- C44 (and C26): a non-empty frame passing the header checks is delivered with content `pl` iff
its payload octets have the RFC layout for its type and flags with exactly that content: the pad
length octet, priority fields and padding are in nothing delivered, and nothing outside the payload
is. -/
theorem C44_received_exactly (h : Handler) (f : Framer) (hb : AtBoundary f) (hdr : FrameHeader)
    (p : Bytes) (hp : p ≠ []) (hl : p.length = hdr.payloadLength.toNat)
    (hmax : p.length ≤ f.ourMax.toNat)
    (h0 : hdr.type = 4 ∨ hdr.type = 6 ∨ hdr.type = 7 → hdr.streamId = 0) (pl : Payload) :
    (Framer.read h (f, []) (hdr.bytes ++ p)).1.log = f.log ++ [.frame ⟨hdr, pl⟩] ↔ Layout hdr p pl := by
  have hacc : Accepts f hdr := ⟨by rw [hb.closed]; simp, h0, by omega⟩
  have e := pump_frame (h := h) hb.state hb.ok hacc hl hp []
  rw [List.append_nil, pump_nil] at e
  unfold Framer.read
  simp only [List.nil_append, e]
  have hok : ({ f.withHeader hdr with state := .payload } : Framer).ok = true := hb.ok
  have hex : p.length = ({ f.withHeader hdr with state := .payload } : Framer).expected := hl
  constructor
  · intro hlog
    rcases hpar : parsePayload hdr p with c | _ | pl'
    · rw [onPayload_error hok hex hp hpar] at hlog
      simp [Framer.report, Framer.notOk, Framer.withHeader] at hlog
    · rw [onPayload_none hok hex hp hpar] at hlog
      simp [Framer.withHeader] at hlog
    · rw [onPayload_some hok hex hp hpar] at hlog
      simp only [afterDelivery_log, on_log] at hlog
      have : pl' = pl := by simpa [Framer.withHeader] using hlog
      subst this
      exact parse_sound hpar
  · intro hlay
    rw [onPayload_some hok hex hp (parse_complete hlay)]
    simp only [afterDelivery_log, on_log]; rfl

/-- C26. Padded DATA: delivered iff the pad length fits, and then the data is the payload minus
the pad-length octet and the padding. -/
theorem C26_padded_data (h : Handler) (f : Framer) (hb : AtBoundary f) (hdr : FrameHeader)
    (n : Byte) (rest : Bytes) (ht : hdr.type = 0) (hf : hasFlag hdr.flags FLAG_PADDED = true)
    (hl : rest.length + 1 = hdr.payloadLength.toNat) (hmax : rest.length + 1 ≤ f.ourMax.toNat) (d : Bytes)
    (k : Nat) :
    (Framer.read h (f, []) (hdr.bytes ++ n :: rest)).1.log = f.log ++ [.frame ⟨hdr, .data d k⟩] ↔
      ∃ padding, rest = d ++ padding ∧ padding.length = n.toNat ∧ k = 1 + n.toNat := by
  rw [C44_received_exactly h f hb hdr (n :: rest) (by simp) (by simpa using hl) (by simpa using hmax)
    (by rw [ht]; simp)]
  constructor
  · intro hL
    generalize hp : n :: rest = p at hL
    cases hL with
    | data _ _ h2 => rw [hf] at h2; cases h2
    | dataPadded m _ padding _ _ h4 =>
      simp at hp; obtain ⟨rfl, rfl⟩ := hp
      exact ⟨padding, rfl, h4, rfl⟩
  · rintro ⟨padding, rfl, h1, rfl⟩
    exact .dataPadded n d padding ht hf h1

/-- C26. A known frame whose payload has no legal layout (for instance a pad length or priority
field that does not fit) is not delivered and closes the connection. -/
theorem C26_malformed_rejected_partial (h : Handler) (f : Framer) (hb : AtBoundary f) (hdr : FrameHeader)
    (p : Bytes) (hp : p ≠ []) (hl : p.length = hdr.payloadLength.toNat)
    (hmax : p.length ≤ f.ourMax.toNat) (hk : hdr.type ≤ 9)
    (h0 : hdr.type = 4 ∨ hdr.type = 6 ∨ hdr.type = 7 → hdr.streamId = 0)
    (hbad : ∀ pl, ¬ Layout hdr p pl) :
    (Framer.read h (f, []) (hdr.bytes ++ p)).1.ok = false ∧
    delivered (Framer.read h (f, []) (hdr.bytes ++ p)).1.log = delivered f.log := by
  have hacc : Accepts f hdr := ⟨by rw [hb.closed]; simp, h0, by omega⟩
  have e := pump_frame (h := h) hb.state hb.ok hacc hl hp []
  rw [List.append_nil, pump_nil] at e
  unfold Framer.read
  simp only [List.nil_append, e]
  have hok : ({ f.withHeader hdr with state := .payload } : Framer).ok = true := hb.ok
  have hex : p.length = ({ f.withHeader hdr with state := .payload } : Framer).expected := hl
  rcases hpar : parsePayload hdr p with c | _ | pl'
  · rw [onPayload_error hok hex hp hpar]
    simp [Framer.report, Framer.notOk, Framer.withHeader, delivered]
  · have := parse_none hpar
    exact absurd hk (by simpa [UInt8.not_le] using this)
  · exact absurd (parse_sound hpar) (hbad pl')

/-- C26: a pad length larger than what is left has no layout (so the frame is rejected). -/
theorem C26_pad_too_long (hdr : FrameHeader) (n : Byte) (rest : Bytes)
    (ht : hdr.type = 0 ∨ hdr.type = 1 ∨ hdr.type = 5) (hf : hasFlag hdr.flags FLAG_PADDED = true)
    (hn : rest.length < n.toNat) (pl : Payload) : ¬ Layout hdr (n :: rest) pl := by
  intro hL
  generalize hp : n :: rest = p at hL
  cases hL <;> simp_all <;> (try omega)

/-- C26, the exception: a ZERO-length DATA or HEADERS frame with the PADDED flag has no pad-length
octet, so it is malformed, but it is delivered as an empty frame. -/
theorem C26_empty_padded_accepted :
    (Framer.reads keepAlive ({ state := .header }, []) [[0,0,0, 0, 8, 0,0,0,1]]).1.log =
      [.frame ⟨FrameHeader.ofBytes [0,0,0, 0, 8, 0,0,0,1], .data [] 0⟩] ∧
    ∀ pl, ¬ Layout (FrameHeader.ofBytes [0,0,0, 0, 8, 0,0,0,1]) [] pl := by
  refine ⟨by decide +kernel, ?_⟩
  intro pl hL
  generalize hp : ([] : Bytes) = p at hL
  cases hL <;> simp_all [FrameHeader.ofBytes, hasFlag, FLAG_PADDED]

example : (Framer.read keepAlive ({ state := .header }, [])
    ([0,0,6, 0, 8, 0,0,0,1] ++ [2, 65, 66, 67, 0, 0])).1.log =
      [.frame ⟨FrameHeader.ofBytes [0,0,6, 0, 8, 0,0,0,1], .data [65, 66, 67] 3⟩] := by decide +kernel

/-! ## C27 -/

theorem init_ourMax (setting : UInt32) :
    16384 ≤ (Framer.init setting).ourMax.toNat ∧ (Framer.init setting).ourMax.toNat ≤ 16777215 := by
  unfold Framer.init
  simp only [Bool.or_eq_true, decide_eq_true_eq]
  split
  · decide
  · rename_i h
    simp only [not_or] at h
    obtain ⟨h1, h2⟩ := h
    have h1' : ¬ setting.toNat < DEFAULT_MAX_FRAME_SIZE.toNat := fun g => h1 (UInt32.lt_iff_toNat_lt.2 g)
    have h2' : ¬ MAX_FRAME_SIZE_LIMIT.toNat < setting.toNat := fun g => h2 (UInt32.lt_iff_toNat_lt.2 g)
    have e1 : DEFAULT_MAX_FRAME_SIZE.toNat = 16384 := rfl
    have e2 : MAX_FRAME_SIZE_LIMIT.toNat = 16777215 := rfl
    omega

/-- Octets of application content in a payload. -/
def Payload.contentSize : Payload → Nat
  | .data d _ => d.length
  | .headers frag _ => frag.length
  | .pushPromise _ frag => frag.length
  | .goaway _ _ dbg => dbg.length
  | .continuation frag => frag.length
  | .ping o => o.length
  | _ => 0

theorem received_size {h : FrameHeader} {pl : Payload} (hr : Received h pl) :
    pl.contentSize ≤ h.payloadLength.toNat := by
  rcases hr with ⟨p, _, hl, hL⟩ | ⟨hz, hp⟩
  · rw [← hl]
    cases hL <;> simp [Payload.contentSize] <;> omega
  · unfold parseZero at hp
    repeat' split at hp
    all_goals first
      | cases hp; done
      | (cases hp; simp [Payload.contentSize])

/-- C27. From the start of a connection, whatever bytes arrive and whatever the side protocol
does: no delivered frame announces, or contains, more than our limit, and the framer never waits
for a payload longer than the limit. -/
theorem C27_frame_size (h : Handler) (setting : UInt32) (chunks : List Bytes) :
    (∀ x ∈ delivered (Framer.reads h (Framer.init setting, []) chunks).1.log,
      x.header.payloadLength.toNat ≤ (Framer.init setting).ourMax.toNat ∧
      x.payload.contentSize ≤ (Framer.init setting).ourMax.toNat) ∧
    ((Framer.reads h (Framer.init setting, []) chunks).1.state = .payload →
      (Framer.reads h (Framer.init setting, []) chunks).1.expected ≤ (Framer.init setting).ourMax.toNat) ∧
    16384 ≤ (Framer.init setting).ourMax.toNat ∧ (Framer.init setting).ourMax.toNat ≤ 16777215 := by
  have := reads_summary_inv (P := SizeInv (Framer.init setting).ourMax) h (fun _ _ => SizeInv_step) chunks
    (Framer.init setting, []) (by intro hs; cases hs) ⟨rfl, by intro x hx; cases hx⟩
  obtain ⟨h1, h2, h3⟩ := this
  refine ⟨?_, ?_, init_ourMax setting⟩
  · intro x hx
    obtain ⟨a, b⟩ := h3 x hx
    exact ⟨a, Nat.le_trans (received_size b) a⟩
  · intro hs
    obtain ⟨a, b, _⟩ := h1 hs
    rw [b]
    have := a.2.2
    rw [h2] at this; exact this

/-- C27. A header that announces more than the limit closes the connection at once: nothing is
delivered and the framer does not go on to wait for the payload. -/
theorem C27_oversize_rejected (h : Handler) (f : Framer) (hb : AtBoundary f) (hdr : FrameHeader)
    (hbig : f.ourMax.toNat < hdr.payloadLength.toNat) :
    (Framer.read h (f, []) hdr.bytes).1.ok = false ∧
    (Framer.read h (f, []) hdr.bytes).1.state = .header ∧
    delivered (Framer.read h (f, []) hdr.bytes).1.log = delivered f.log := by
  have hna : ¬ Accepts f hdr := fun ha => by have := ha.2.2; omega
  have e := pump_header (h := h) hb.state hdr []
  rw [List.append_nil, pump_nil] at e
  unfold Framer.read
  simp only [List.nil_append, e]
  exact ⟨(onHeader_reject hna).1, (onHeader_reject' hna).1.trans hb.state, (onHeader_reject hna).2⟩

example : (FrameHeader.ofBytes [0, 0x40, 1, 0, 0, 0, 0, 0, 1]).payloadLength.toNat = 16385 := by decide

/-! ## C43 -/

/-- C43. Once the connection has failed (framing error, bad preface, or the side protocol closed
it), nothing more is delivered, whatever arrives afterwards, even if the I/O layer keeps reading. -/
theorem C43_nothing_after_failure (h : Handler) (setting : UInt32) (before after : List Bytes)
    (hdead : (Framer.reads h (Framer.init setting, []) before).1.ok = false) :
    (Framer.reads h (Framer.init setting, []) (before ++ after)).1.ok = false ∧
    delivered (Framer.reads h (Framer.init setting, []) (before ++ after)).1.log =
      delivered (Framer.reads h (Framer.init setting, []) before).1.log := by
  have e : Framer.reads h (Framer.init setting, []) (before ++ after) =
      Framer.reads h (Framer.reads h (Framer.init setting, []) before) after := List.foldl_append
  rw [e]
  have hp := (reads_summary_inv (P := fun _ => True) h (fun _ _ _ _ _ => trivial) before
    (Framer.init setting, []) (by intro hs; cases hs) trivial).1
  exact (reads_summary_inv (P := fun g => g.ok = false ∧
      delivered g.log = delivered (Framer.reads h (Framer.init setting, []) before).1.log) h
    (fun _ _ => dead_step) after _ hp ⟨hdead, rfl⟩).2

/-- C43. Nothing is delivered before the exact 24-octet connection preface: a different preface
closes the connection. -/
theorem C43_preface (h : Handler) (setting : UInt32) (first rest : Bytes) (hl : first.length = 24)
    (hne : first ≠ PREFACE) :
    delivered (Framer.read h (Framer.init setting, []) (first ++ rest)).1.log = [] ∧
    (Framer.read h (Framer.init setting, []) (first ++ rest)).1.ok = false := by
  unfold Framer.read
  simp only [List.nil_append]
  have e : (Framer.init setting).messageSize (first ++ rest) = 24 := by
    unfold Framer.messageSize Framer.init
    simp [PREFACE, hl]
  rw [pump_go (by rw [e]; decide), e, List.take_append_of_le_length (by omega),
    List.drop_append_of_le_length (by omega), List.take_of_length_le (by omega)]
  have es : (Framer.init setting).onMessage h first =
      Framer.notOk { Framer.init setting with prefaceBuf := first } E_PROTOCOL_ERROR := by
    unfold Framer.onMessage Framer.onPreface Framer.init
    simp only [List.nil_append]
    rw [if_pos (by rw [hl]; rfl), if_neg hne]
  rw [es]
  have ez : (Framer.notOk { Framer.init setting with prefaceBuf := first } E_PROTOCOL_ERROR).messageSize
      (first.drop 24 ++ rest) = 0 := by
    unfold Framer.messageSize Framer.notOk Framer.init
    simp [PREFACE, hl]
  rw [pump_stop ez]
  exact ⟨rfl, rfl⟩

example : (Framer.reads keepAlive (Framer.init 16384, []) [b!"GET / HTTP/1.1\r\nHost: a\r\n\r\n"]).1.ok = false := by
  decide +kernel

end Verif.H2
