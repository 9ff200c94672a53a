import Verif.H2.FrameLemmas

namespace Verif.H2
open Verif

/-! ## The read loop -/

theorem pump_stop {h : Handler} {f : Framer} {buf : Bytes} (hz : f.messageSize buf = 0) :
    Framer.pump h f buf = (f, buf) := by
  rw [Framer.pump.eq_def, dif_pos hz]

theorem pump_go {h : Handler} {f : Framer} {buf : Bytes} (hz : f.messageSize buf ≠ 0) :
    Framer.pump h f buf =
      Framer.pump h (f.onMessage h (buf.take (f.messageSize buf))) (buf.drop (f.messageSize buf)) := by
  rw [Framer.pump.eq_def, dif_neg hz]

theorem messageSize_append {f : Framer} {a b : Bytes} (hz : f.messageSize a ≠ 0) :
    f.messageSize (a ++ b) = f.messageSize a := by
  unfold Framer.messageSize at *
  have hl : (a ++ b).length = a.length + b.length := List.length_append
  revert hz
  cases f.state <;> simp only [hl]
  · generalize PREFACE.length - f.prefaceBuf.length = n
    intro hz
    repeat' split at hz
    all_goals first | omega | (repeat' split) <;> omega
  · intro hz
    repeat' split at hz
    all_goals first | omega | (repeat' split) <;> omega
  · intro hz
    repeat' split at hz
    all_goals first | omega | (repeat' split) <;> omega

/-- Reading `a` and later `b` is the same as reading `a ++ b` at once. -/
theorem pump_append (h : Handler) (f : Framer) (a b : Bytes) :
    Framer.pump h f (a ++ b) =
      Framer.pump h (Framer.pump h f a).1 ((Framer.pump h f a).2 ++ b) := by
  by_cases hz : f.messageSize a = 0
  · rw [pump_stop hz]
  · have hle := f.messageSize_le a
    rw [pump_go hz, pump_go (by rw [messageSize_append hz]; exact hz), messageSize_append hz,
      List.take_append_of_le_length hle, List.drop_append_of_le_length hle]
    exact pump_append h _ _ b
termination_by a.length
decreasing_by simp [List.length_drop]; omega

theorem pump_idem (h : Handler) (f : Framer) (a : Bytes) :
    Framer.pump h (Framer.pump h f a).1 (Framer.pump h f a).2 = Framer.pump h f a := by
  have := pump_append h f a []
  simp only [List.append_nil] at this
  exact this.symm

theorem reads_flatten (h : Handler) (chunks : List Bytes) : ∀ (s : Framer × Bytes),
    Framer.pump h s.1 s.2 = s →
    Framer.reads h s chunks = Framer.pump h s.1 (s.2 ++ chunks.flatten) := by
  induction chunks with
  | nil => intro s hs; simp [Framer.reads, hs]
  | cons c cs ih =>
    intro s hs
    have e : Framer.reads h s (c :: cs) = Framer.reads h (Framer.read h s c) cs := rfl
    rw [e, ih _ (by unfold Framer.read; exact pump_idem h _ _)]
    unfold Framer.read
    rw [← pump_append]
    simp

/-- An invariant of `onMessage` (on messages of the announced size) is an invariant of `pump`. -/
theorem pump_inv {P : Framer → Prop} (h : Handler)
    (hstep : ∀ f msg, P f → f.messageSize msg = msg.length → msg ≠ [] → P (f.onMessage h msg)) :
    ∀ (buf : Bytes) (f : Framer), P f → P (Framer.pump h f buf).1 := by
  intro buf f hf
  by_cases hz : f.messageSize buf = 0
  · rw [pump_stop hz]; exact hf
  · rw [pump_go hz]
    have hle := f.messageSize_le buf
    refine pump_inv h hstep _ _ (hstep _ _ hf ?_ ?_)
    · have hl : (buf.take (f.messageSize buf)).length = f.messageSize buf := by
        rw [List.length_take]; omega
      rw [hl]
      unfold Framer.messageSize at hz hl ⊢
      revert hz hl
      cases f.state <;> simp only
      · generalize PREFACE.length - f.prefaceBuf.length = n
        intro hz hl
        repeat' split at hz
        all_goals first | omega | skip
        rename_i h1 h2
        simp only [h1, h2, if_false] at hl ⊢
        rw [hl]; simp
      · intro hz hl
        split at hz
        · omega
        rename_i h1
        simp only [h1, if_false] at hl ⊢
        rw [hl]; simp
      · intro hz hl
        repeat' split at hz
        all_goals first | omega | skip
        rename_i h1 h2
        simp only [h1, h2, if_false] at hl ⊢
        rw [hl]; simp
    · intro e
      have := congrArg List.length e
      rw [List.length_take, List.length_nil] at this
      omega
termination_by buf => buf.length
decreasing_by simp [List.length_drop]; omega

theorem reads_inv {P : Framer → Prop} (h : Handler)
    (hstep : ∀ f msg, P f → f.messageSize msg = msg.length → msg ≠ [] → P (f.onMessage h msg))
    (chunks : List Bytes) : ∀ s : Framer × Bytes, P s.1 → P (Framer.reads h s chunks).1 := by
  induction chunks with
  | nil => intro s hs; exact hs
  | cons c cs ih => intro s hs; exact ih _ (pump_inv h hstep _ _ hs)

/-! ## One frame through the framer -/

theorem take_hdr (hdr : FrameHeader) (r : Bytes) : (hdr.bytes ++ r).take 9 = hdr.bytes := by
  rw [List.take_append_of_le_length (by rw [bytes_length])]; rfl
theorem drop_hdr (hdr : FrameHeader) (r : Bytes) : (hdr.bytes ++ r).drop 9 = r := by
  rw [List.drop_append_of_le_length (by rw [bytes_length])]; rfl

theorem pump_header {h : Handler} {f : Framer} (hs : f.state = .header) (hdr : FrameHeader) (r : Bytes) :
    Framer.pump h f (hdr.bytes ++ r) = Framer.pump h (f.onHeader h hdr.bytes) r := by
  have e : f.messageSize (hdr.bytes ++ r) = 9 := by
    unfold Framer.messageSize; rw [hs]
    simp [FRAME_HEADER_SIZE, bytes_length]
  rw [pump_go (by rw [e]; decide), e, take_hdr, drop_hdr]
  simp only [Framer.onMessage, hs]

theorem pump_payload {h : Handler} {f : Framer} (hs : f.state = .payload) (p r : Bytes)
    (hl : f.expected = p.length) (hp : p ≠ []) :
    Framer.pump h f (p ++ r) = Framer.pump h (f.onPayload h p) r := by
  have hp' : p.length ≠ 0 := by intro e; exact hp (List.length_eq_zero_iff.1 e)
  have e : f.messageSize (p ++ r) = p.length := by
    unfold Framer.messageSize; rw [hs]
    simp only [hl, List.length_append, hp', if_false]
    rw [if_neg (by omega)]
  rw [pump_go (by rw [e]; exact hp'), e, List.take_left, List.drop_left]
  simp only [Framer.onMessage, hs]

/-- The header checks at base.h:621-651 that a frame must pass. -/
def Accepts (f : Framer) (hdr : FrameHeader) : Prop :=
  (f.contReq = true → hdr.type = 9 ∧ hdr.streamId = f.contSid) ∧
  (hdr.type = 4 ∨ hdr.type = 6 ∨ hdr.type = 7 → hdr.streamId = 0) ∧
  hdr.payloadLength.toNat ≤ f.ourMax.toNat

/-- The framer after the header of an accepted frame was read. -/
def Framer.withHeader (f : Framer) (hdr : FrameHeader) : Framer :=
  { f with hdr := hdr, expected := hdr.payloadLength.toNat }

theorem onHeader_accept {h : Handler} {f : Framer} {hdr : FrameHeader} (hok : f.ok = true)
    (ha : Accepts f hdr) :
    f.onHeader h hdr.bytes =
      if hdr.payloadLength.toNat = 0 then
        (if ((f.withHeader hdr).dispatchZero h).ok
          then { (f.withHeader hdr).dispatchZero h with state := .header }
          else (f.withHeader hdr).dispatchZero h)
      else { f.withHeader hdr with state := .payload } := by
  obtain ⟨h1, h2, h3⟩ := ha
  unfold Framer.onHeader
  rw [if_neg (by rw [bytes_length]; decide), ofBytes_bytes]
  simp only []
  have c1 : ¬ ((f.contReq && (hdr.type != T_CONTINUATION || hdr.streamId != f.contSid)) = true) := by
    intro c
    rw [Bool.and_eq_true] at c
    obtain ⟨e1, e2⟩ := h1 c.1
    rw [e1, e2] at c
    simp [T_CONTINUATION] at c
  have c2 : ¬ ((decide (hdr.type = T_SETTINGS) && hdr.streamId != 0) = true) := by
    intro c
    rw [Bool.and_eq_true, decide_eq_true_eq] at c
    have := h2 (Or.inl c.1)
    rw [this] at c; simp at c
  have c3 : ¬ (((decide (hdr.type = T_PING) || decide (hdr.type = T_GOAWAY)) && hdr.streamId != 0) = true) := by
    intro c
    rw [Bool.and_eq_true, Bool.or_eq_true, decide_eq_true_eq, decide_eq_true_eq] at c
    have := h2 (Or.inr c.1)
    rw [this] at c; simp at c
  rw [if_neg c1, if_neg c2, if_neg c3, if_neg (by omega), if_neg (by simp [hok])]
  rfl

/-- Conversely a frame failing the checks is never delivered and ends the connection. -/
theorem onHeader_reject {h : Handler} {f : Framer} {hdr : FrameHeader} (ha : ¬ Accepts f hdr) :
    (f.onHeader h hdr.bytes).ok = false ∧
      delivered (f.onHeader h hdr.bytes).log = delivered f.log := by
  unfold Framer.onHeader
  rw [if_neg (by rw [bytes_length]; decide), ofBytes_bytes]
  simp only []
  split
  · simp [Framer.report, Framer.notOk, delivered]
  rename_i c1
  split
  · simp [Framer.notOk]
  rename_i c2
  split
  · simp [Framer.notOk]
  rename_i c3
  split
  · simp [Framer.notOk]
  rename_i c4
  exfalso
  apply ha
  refine ⟨?_, ?_, by omega⟩
  · intro hc
    simp only [hc, Bool.true_and, Bool.or_eq_true, bne_iff_ne, ne_eq, not_or, Decidable.not_not] at c1
    exact c1
  · intro ht
    rcases ht with ht | ht | ht <;>
    simp [ht, T_SETTINGS, T_PING, T_GOAWAY] at c2 c3 <;> assumption

theorem onPayload_eq {h : Handler} {f : Framer} {p : Bytes} (hp : p ≠ []) (hl : p.length = f.expected) :
    f.onPayload h p = (if (f.dispatchPayload h p).2
      then { (f.dispatchPayload h p).1 with state := .header, expected := 0 }
      else (f.dispatchPayload h p).1) := by
  unfold Framer.onPayload
  rw [if_neg (by simp [hl]), if_neg (by simpa using hp)]
  rcases hd : f.dispatchPayload h p with ⟨g, b⟩
  cases b <;> simp

theorem parse_none {hdr : FrameHeader} {p : Bytes} (h : parsePayload hdr p = .ok none) : hdr.type > 9 := by
  unfold parsePayload at h
  by_cases h9 : hdr.type > 9
  · exact h9
  exfalso
  have : ∀ b : UInt8, ¬ b > 9 → b = 0 ∨ b = 1 ∨ b = 2 ∨ b = 3 ∨ b = 4 ∨ b = 5 ∨ b = 6 ∨ b = 7 ∨ b = 8 ∨ b = 9 :=
    forall_byte (by decide +kernel)
  rcases this _ h9 with e | e | e | e | e | e | e | e | e | e <;>
    simp only [e, T_DATA, T_HEADERS, T_PRIORITY, T_RST_STREAM, T_SETTINGS, T_PUSH_PROMISE, T_PING,
      T_GOAWAY, T_WINDOW_UPDATE, T_CONTINUATION] at h <;>
    simp at h <;> (repeat' split at h) <;> cases h

theorem on_none {h : Handler} {f : Framer} {e : Event} (hn : h (f.log ++ [e]) = none) :
    f.on h e = { f with log := f.log ++ [e] } := by
  unfold Framer.on; simp only [hn]

end Verif.H2
