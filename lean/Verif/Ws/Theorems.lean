import Verif.Ws.DriveLemmas
import Mathlib.Tactic.Tauto
import Mathlib.Tactic.ByContra

/-! Properties C32–C37 and C50–C52: the WebSocket codec. -/

namespace Verif.Ws
open Spec

attribute [-simp] UInt8.toNat_and List.headD_eq_head?_getD

/-! ## C36, C37 -/

/-- C36: `is_utf8` accepts exactly the concatenations of RFC 3629 encodings of scalar values. -/
theorem C36_utf8_exact (s : Bytes) : isUtf8 s = true ↔ Utf8 s := isUtf8_iff s

example : isUtf8 [0xE2, 0x82, 0xAC] = true ∧ isUtf8 [0xED, 0xA0, 0x80] = false ∧ isUtf8 [0xC0, 0xAF] = false := by decide
example : utf8Enc 0x20AC = [0xE2, 0x82, 0xAC] := by decide

/-- C37: construction fails exactly for an unsendable code or a reason of at most 123 octets that is
not UTF-8. -/
theorem C37_close_fails_iff (st : UInt16) (r : Bytes) :
    messageClose st r = none ↔ ¬ SendableCode st.toNat ∨ (r.length ≤ 123 ∧ ¬ Utf8 r) := by
  unfold messageClose closeReason
  have hs := sendable_iff st
  by_cases h1 : SendableCode st.toNat
  · have c1 : ¬ ((!isSendableCloseCode st) = true) := by rw [hs.2 h1]; simp
    rw [if_neg c1]
    by_cases h2 : r.length > 123
    · rw [if_pos h2]
      have c2 : ¬ ((!(trimToUtf8 (r.take 123)).isEmpty && !isUtf8 (trimToUtf8 (r.take 123))) = true) := by
        rw [(trimToUtf8_spec _).2.1]; simp
      rw [if_neg c2]
      simp only [reduceCtorEq, false_iff, not_or]
      exact ⟨not_not_intro h1, fun h => by omega⟩
    · rw [if_neg h2]
      by_cases h3 : Utf8 r
      · have c2 : ¬ ((!r.isEmpty && !isUtf8 r) = true) := by rw [(isUtf8_iff r).2 h3]; simp
        rw [if_neg c2]
        simp only [reduceCtorEq, false_iff, not_or]
        exact ⟨not_not_intro h1, fun h => h.2 h3⟩
      · have hf : isUtf8 r = false := by rw [← Bool.not_eq_true, isUtf8_iff]; exact h3
        have hne : r ≠ [] := by rintro rfl; exact absurd hf (by decide)
        have c2 : ((!r.isEmpty && !isUtf8 r) = true) := by rw [hf]; simpa using hne
        rw [if_pos c2]
        simp only [true_iff]
        exact Or.inr ⟨by omega, h3⟩
  · have c1 : ((!isSendableCloseCode st) = true) := by
      rw [Bool.not_eq_true', ← Bool.not_eq_true, hs]; exact h1
    rw [if_pos c1]
    simp [h1]

/-- C37: a constructed Close frame is final, unmasked, carries the code in network order and the
longest UTF-8 prefix of the reason that fits in 123 octets (the whole reason when it fits). -/
theorem C37_close_valid (st : UInt16) (r : Bytes) (m : Msg) (h : messageClose st r = some m) :
    ∃ reason, m = ⟨136, false, UInt8.ofNat (st.toNat / 256) :: UInt8.ofNat (st.toNat % 256) :: reason⟩ ∧
      SendableCode st.toNat ∧ Utf8 reason ∧ reason <+: r ∧ reason.length ≤ 123 ∧
      (r.length ≤ 123 → reason = r) ∧
      ∀ t, t <+: r → t.length ≤ 123 → Utf8 t → t.length ≤ reason.length := by
  have hn : messageClose st r ≠ none := by rw [h]; simp
  rw [Ne, C37_close_fails_iff, not_or, Classical.not_not, not_and, Classical.not_not] at hn
  obtain ⟨hs, hu⟩ := hn
  have e : m = ⟨136, false, UInt8.ofNat (st.toNat / 256) :: UInt8.ofNat (st.toNat % 256) :: closeReason r⟩ := by
    unfold messageClose at h
    split at h
    · exact absurd h (by simp)
    · split at h
      · exact absurd h (by simp)
      · rw [(hi_lo st).1, (hi_lo st).2] at h
        exact (Option.some.inj h).symm
  refine ⟨closeReason r, e, hs, ?_⟩
  unfold closeReason
  by_cases hl : r.length > 123
  · rw [if_pos hl]
    obtain ⟨t1, t2, t3⟩ := trimToUtf8_spec (r.take 123)
    refine ⟨(isUtf8_iff _).1 t2, t1.trans (List.take_prefix _ _), ?_, fun h => by omega, ?_⟩
    · have := t1.length_le; rw [List.length_take] at this; omega
    · intro t ht hlt hut
      apply t3 t _ ((isUtf8_iff t).2 hut)
      rw [List.prefix_iff_eq_take] at ht ⊢
      rw [List.take_take, Nat.min_eq_left hlt]
      exact ht
  · rw [if_neg hl]
    exact ⟨hu (by omega), List.prefix_refl _, by omega, fun _ => rfl, fun t ht _ _ => ht.length_le⟩

example : messageClose 1000 b!"bye" = some ⟨136, false, [3, 232, 98, 121, 101]⟩ := by decide
example : messageClose 1005 [] = none ∧ messageClose 1000 [0xFF] = none := by decide

/-! ## C32: round trip -/

/-- The frame a message stands for. -/
def Stands (m : Msg) (f : Frame) : Prop :=
  f.op ∈ [0, 1, 2, 8, 9, 10] ∧ (8 ≤ f.op → f.fin = true ∧ f.payload.length ≤ 125) ∧
  m.frop = UInt8.ofNat (f.fin.toNat * 128 + f.op) ∧ f.payload = m.data

theorem enforce_iff (m : Msg) : enforceOutgoing m = true ↔ ∃ f, Stands m f := by
  have key : ∀ b : UInt8, (((b &&& 0x70) = 0 ∧ isValidOpcode (b &&& 0x0F) = true) ↔
      ∃ (fin : Bool) (op : Fin 11), op.val ∈ [0, 1, 2, 8, 9, 10] ∧ b = UInt8.ofNat (fin.toNat * 128 + op.val)) :=
    forall_byte (by decide +kernel)
  have k2 : ∀ (fin : Bool) (op : Fin 11), op.val ∈ [0, 1, 2, 8, 9, 10] →
      isControlOpcode (UInt8.ofNat (fin.toNat * 128 + op.val)) = decide (8 ≤ op.val) ∧
      ((UInt8.ofNat (fin.toNat * 128 + op.val) &&& 0x80) == 0) = !fin := by decide +kernel
  unfold enforceOutgoing
  by_cases h : (m.frop &&& 0x70) = 0 ∧ isValidOpcode (m.frop &&& 0x0F) = true
  · obtain ⟨fin, op, h1, h2⟩ := (key m.frop).1 h
    obtain ⟨k3, k4⟩ := k2 fin op h1
    rw [← h2] at k3 k4
    have c1 : ¬ ((m.frop &&& 0x70) != 0) = true := by rw [h.1]; decide
    have c2 : ¬ (!isValidOpcode (m.frop &&& 0x0F)) = true := by rw [h.2]; decide
    rw [if_neg c1, if_neg c2, k3, k4]
    have huniq : ∀ f, Stands m f → f.fin = fin ∧ f.op = op.val := by
      rintro ⟨ff, fo, fp⟩ ⟨a, _, b, _⟩
      have : ∀ (fin fin' : Bool) (op op' : Fin 11), UInt8.ofNat (fin.toNat * 128 + op.val) =
          UInt8.ofNat (fin'.toNat * 128 + op'.val) → fin = fin' ∧ op = op' := by decide +kernel
      have hfo : fo < 11 := by simp at a; omega
      have := this ff fin ⟨fo, hfo⟩ op (by rw [← h2]; exact b.symm)
      exact ⟨this.1, by rw [← this.2]⟩
    by_cases h3 : 8 ≤ op.val ∧ (m.data.length > 125 ∨ fin = false)
    · have : ¬ ∃ f, Stands m f := by
        rintro ⟨f, hf⟩
        obtain ⟨u1, u2⟩ := huniq f hf
        have := hf.2.1 (by omega)
        rw [hf.2.2.2, u1] at this
        rcases h3.2 with h | h
        · omega
        · rw [h] at this; exact absurd this.1 (by simp)
      simp only [this, iff_false]
      by_cases h4 : m.data.length > 125
      · simp [h3.1, h4]
      · have : fin = false := by tauto
        subst this
        simp [h3.1]
    · have c3 : ¬ (decide (8 ≤ op.val) && decide (m.data.length > 125)) = true := by
        simp only [Bool.and_eq_true, decide_eq_true_eq]; tauto
      have c4 : ¬ (decide (8 ≤ op.val) && !fin) = true := by
        simp only [Bool.and_eq_true, decide_eq_true_eq, Bool.not_eq_true']; tauto
      rw [if_neg c3, if_neg c4]
      simp only [true_iff]
      refine ⟨⟨fin, op.val, m.data⟩, h1, ?_, h2, rfl⟩
      intro h8
      simp only [] at h8 ⊢
      cases fin with
      | true => exact ⟨rfl, by by_contra hc; exact h3 ⟨h8, Or.inl (by omega)⟩⟩
      | false => exact absurd ⟨h8, Or.inr rfl⟩ h3
  · have hno : ¬ ∃ f, Stands m f := by
      rintro ⟨f, hf⟩
      apply h
      have hfo : f.op < 11 := by have := hf.1; simp at this; omega
      exact (key m.frop).2 ⟨f.fin, ⟨f.op, hfo⟩, hf.1, hf.2.2.1⟩
    simp only [hno, iff_false]
    by_cases h5 : (m.frop &&& 0x70) = 0
    · have h6 : ¬ isValidOpcode (m.frop &&& 0x0F) = true := fun hh => h ⟨h5, hh⟩
      simp [h6]
    · simp [h5]

/-- C32: serialization succeeds exactly for the messages RFC 6455 allows, and yields exactly the wire
form of the frame: masked with the key iff the message is flagged as masked. -/
theorem C32_serialize_exact (m : Msg) (k : Mask) (w : Bytes) : putMessage m k = some w ↔
    ∃ f, Stands m f ∧ w = wire (if m.masked then some k.fn else none) f := by
  have hno : (¬ ∃ f, Stands m f) → (¬ ∃ f, Stands m f ∧ w = wire (if m.masked then some k.fn else none) f) :=
    fun h ⟨f, hf, _⟩ => h ⟨f, hf⟩
  have huniq : ∀ f, Stands m f → m.frop :: (lengthField 0 m.data.length ++ m.data) = wire none f ∧
      m.frop :: (lengthField 128 m.data.length ++ k.bytes ++ maskLoop k m.data) = wire (some k.fn) f := by
    rintro ⟨fin, op, pl⟩ ⟨h1, _, h3, h4⟩
    simp only at h4; subst h4
    exact fill_eq_wire m k fin op h1 h3
  have he := enforce_iff m
  unfold putMessage fillMasked fillUnmasked
  by_cases h : ∃ f, Stands m f
  · have c : ¬ ((!enforceOutgoing m) = true) := by rw [he.2 h]; decide
    rw [if_neg c, if_neg c]
    obtain ⟨f, hf⟩ := h
    cases hm : m.masked with
    | true =>
      simp only [if_true, Option.some.injEq]
      constructor
      · intro e; exact ⟨f, hf, by rw [← e]; exact (huniq f hf).2⟩
      · rintro ⟨f', hf', e⟩; rw [e]; exact (huniq f' hf').2
    | false =>
      simp only [Bool.false_eq_true, if_false, Option.some.injEq]
      constructor
      · intro e; exact ⟨f, hf, by rw [← e]; exact (huniq f hf).1⟩
      · rintro ⟨f', hf', e⟩; rw [e]; exact (huniq f' hf').1
  · have c : ((!enforceOutgoing m) = true) := by
      rw [Bool.not_eq_true', ← Bool.not_eq_true, he]; exact h
    rw [if_pos c, if_pos c]
    simp only [ite_self, reduceCtorEq, false_iff]
    exact hno h

/-- C32: the peer's parser, between frames, reads from the serialized frame exactly its octets, its
FIN/opcode octet and its payload, whatever follows in the buffer. -/
theorem C32_roundtrip (m : Msg) (k : Mask) (w : Bytes) (hw : putMessage m k = some w)
    (hlen : m.data.length < 2 ^ 63) (cfg : Cfg) (hrole : cfg.server = m.masked)
    (hmax : cfg.maxPayload = 0 ∨ m.data.length ≤ cfg.maxPayload)
    (p : P) (hok : p.ok = true) (h0 : p.parsed = 0 ∧ p.expected = 0) (rest : Bytes) :
    (getSize cfg (w ++ rest) p).1 = w.length ∧ (getSize cfg (w ++ rest) p).2.ok = true ∧
    (getSize cfg (w ++ rest) p).2.out = p.out ∧
    (getSize cfg (w ++ rest) p).2.frop = m.frop ∧
    framePayload (w ++ rest) (getSize cfg (w ++ rest) p).2 = m.data := by
  obtain ⟨f, ⟨h1, h2, h3, h4⟩, rfl⟩ := (C32_serialize_exact m k w).1 hw
  have hk : (if m.masked then some k.fn else none).isSome = cfg.server := by
    rw [hrole]; cases m.masked <;> rfl
  rw [getSize_wire hok h0 ⟨h1, by rw [h4]; exact hlen, h2⟩ hk (Or.inr (by rw [h4]; exact hmax)) rest]
  refine ⟨rfl, hok, rfl, h3.symm, ?_⟩
  rw [framePayload_wire hk, h4]

example : putMessage ⟨0x81, true, b!"Hello"⟩ ⟨0x37, 0xfa, 0x21, 0x3d⟩ =
    some [0x81, 0x85, 0x37, 0xfa, 0x21, 0x3d, 0x7f, 0x9f, 0x4d, 0x51, 0x58] := by decide
example : putMessage ⟨0x09, false, []⟩ ⟨0, 0, 0, 0⟩ = none := by decide

/-! ## C50, C34: arbitrary streams in arbitrary chunks -/

/-- C50: the effects of a byte stream do not depend on how it is cut into reads. -/
theorem C50_chunk_independent (cfg : Cfg) (chunks chunks' : List Bytes) (h : chunks.flatten = chunks'.flatten) :
    (feed cfg chunks ({}, [])).1 = (feed cfg chunks' ({}, [])).1 := by
  rw [feed_init, feed_init, h]

example : [[0x82, 0x01], [0x07]].flatten = ([[0x82], [0x01, 0x07]] : List Bytes).flatten := by decide

/-- C34: every input stream is a sequence of legal frames, whose effects are exactly those the
receiver specification demands, followed by an incomplete frame, a Close, or a violation answered by one
well-formed Close frame with the right code. -/
theorem C34_stream (cfg : Cfg) (chunks : List Bytes) :
    ∃ (items : List Item) (rest : Bytes) (evs tail : List Ev) (s : RState),
      chunks.flatten = wires items ++ rest ∧ (∀ i ∈ items, Good cfg i) ∧
      RunsTo cfg .idle (items.map (·.2)) evs s ∧
      (feed cfg chunks ({}, [])).1.out = evs ++ tail ∧
      End cfg s rest (feed cfg chunks ({}, [])).1.ok tail := by
  rw [feed_init]
  obtain ⟨⟨items, rest, evs, tail, s, e1, e2, e3, e4, e5⟩, _⟩ :=
    drive_main cfg chunks.flatten {} .idle ⟨rfl, ⟨rfl, rfl⟩, rfl⟩ (by simp)
  exact ⟨items, rest, evs, tail, s, e1, e2, e3, by simpa using e4, e5⟩

/-- C34: frames the receiver specification accepts are all processed, with exactly their effects. -/
theorem C34_accepts_legal (cfg : Cfg) (items : List Item) (evs : List Ev) (s : RState)
    (hg : ∀ i ∈ items, Good cfg i) (hr : RunsTo cfg .idle (items.map (·.2)) evs s)
    (chunks : List Bytes) (hc : chunks.flatten = wires items) :
    (feed cfg chunks ({}, [])).1.out = evs ∧ ((feed cfg chunks ({}, [])).1.ok = true ↔ s ≠ .closed) := by
  rw [feed_init, hc]
  obtain ⟨p', h1, h2, h3⟩ := drive_complete (p := {}) (s := .idle) ⟨rfl, ⟨rfl, rfl⟩, rfl⟩ hg hr []
  rw [List.append_nil] at h1
  rw [h1]
  by_cases hs : s = .closed
  · subst hs
    have : p'.ok = false := h2
    rw [drive_notok this]
    simp [this, h3]
  · obtain ⟨hok, hcl⟩ := h2.ok hs
    have hg : getSize cfg [] p' = (0, p') := by
      unfold getSize; rw [if_neg (by simp [hok]), if_pos (by simp [hcl.1]), if_pos (by simp)]
    rw [drive.eq_def, dif_pos (Or.inr rfl), hg]
    simp [hok, h3, hs]

/-- C34: once the connection is closed or failed, no further input has any effect. -/
theorem C34_dead_is_final (cfg : Cfg) (chunks more : List Bytes) (h : (feed cfg chunks ({}, [])).1.ok = false) :
    (feed cfg (chunks ++ more) ({}, [])).1 = (feed cfg chunks ({}, [])).1 := by
  rw [feed_append, feed_notok more h]

/-- C34: effects are never taken back, and input after a violation adds none. -/
theorem C34_fail_sends_close (cfg : Cfg) (st : UInt16) (r : Bytes) (p : P) (hok : p.ok = true)
    (hs : SendableCode st.toNat) (hl : r.length ≤ 123) (ha : ∀ c ∈ r, c.toNat ≤ 127) :
    ∃ evs, Failure cfg st.toNat evs ∧ (fail cfg st r p).ok = false ∧ (fail cfg st r p).out = p.out ++ evs :=
  fail_out hok hs hl ha

example : (feed ⟨true, true, 0⟩ [[0x81, 0x01, 0x41]] ({}, [])).1.ok = false := by decide +kernel
example : (feed ⟨false, true, 0⟩ [[0x81], [0x01, 0x41, 0xC1, 0x00]] ({}, [])).1.out =
    [.message 0x81 [0x41], .send ⟨136, true, [3, 234] ++ b!"RSV bits must be 0"⟩, .error] := by decide +kernel

/-! ## C33 -/

theorem runs_append {cfg : Cfg} {s s' s'' : RState} {a b : List Frame} {e1 e2 : List Ev}
    (h1 : RunsTo cfg s a e1 s') (h2 : RunsTo cfg s' b e2 s'') : RunsTo cfg s (a ++ b) (e1 ++ e2) s'' := by
  induction h1 with
  | nil => simpa using h2
  | cons hs hr _ ih => rw [List.cons_append, List.append_assoc]; exact .cons hs hr (ih h2)

theorem recv_control {cfg : Cfg} {op : Nat} {acc : Bytes} {f : Frame} (h : f.op = 9 ∨ f.op = 10) :
    recv cfg (.inMsg op acc) f = .inr (controlEffects cfg f, .inMsg op acc) := by
  unfold recv controlEffects
  rcases h with h | h <;> simp [h]

theorem runs_body {cfg : Cfg} {op : Nat} (body : List Frame) (acc : Bytes)
    (hb : ∀ f ∈ body, (f.op = 9 ∨ f.op = 10) ∨ (f.op = 0 ∧ f.fin = false))
    (hl : WithinLimit cfg (acc.length + ((body.filter (fun f => f.op == 0)).flatMap (·.payload)).length)) :
    RunsTo cfg (.inMsg op acc) body ((body.filter (fun f => f.op != 0)).flatMap (controlEffects cfg))
      (.inMsg op (acc ++ (body.filter (fun f => f.op == 0)).flatMap (·.payload))) := by
  induction body generalizing acc with
  | nil => simpa using RunsTo.nil
  | cons f t ih =>
    rcases hb f (by simp) with h | ⟨h0, hfin⟩
    · have hne : f.op ≠ 0 := by omega
      have e1 : (f.op == 0) = false := by simp [hne]
      have e2 : (f.op != 0) = true := by simp [hne]
      simp only [List.filter_cons, e1, e2, if_true, Bool.false_eq_true, if_false, List.flatMap_cons] at hl ⊢
      exact .cons (by simp) (recv_control h) (ih acc (fun g hg => hb g (by simp [hg])) hl)
    · have e1 : (f.op == 0) = true := by simp [h0]
      have e2 : (f.op != 0) = false := by simp [h0]
      simp only [List.filter_cons, e1, e2, if_true, Bool.false_eq_true, if_false, List.flatMap_cons,
        List.length_append] at hl ⊢
      rw [← List.append_assoc]
      have hw : WithinLimit cfg (acc.length + f.payload.length) := by
        unfold WithinLimit at hl ⊢; omega
      have hr : recv cfg (.inMsg op acc) f = .inr ([], .inMsg op (acc ++ f.payload)) := by
        unfold recv addFragment
        simp [h0, hfin, hw]
      have := RunsTo.cons (by simp) hr (ih (acc ++ f.payload) (fun g hg => hb g (by simp [hg]))
        (by rw [List.length_append]; unfold WithinLimit at hl ⊢; omega))
      simpa using this

/-- C33: a text or binary message sent as a first fragment, any sequence of continuation fragments with
pings and pongs in between, and a final continuation, is delivered once, as the concatenation of the
fragments, under the opcode of the first; each ping is answered by a pong when it arrives. Any masking
keys, any segmentation of the input. -/
theorem C33_reassembly (cfg : Cfg) (op : Nat) (hop : op = 1 ∨ op = 2) (first last : Bytes) (body : List Frame)
    (hb : ∀ f ∈ body, ((f.op = 9 ∨ f.op = 10) ∧ f.fin = true ∧ f.payload.length ≤ 125) ∨
      (f.op = 0 ∧ f.fin = false))
    (whole : Bytes) (hwhole : whole = first ++ (body.filter (fun f => f.op == 0)).flatMap (·.payload) ++ last)
    (hlen : whole.length < 2 ^ 63) (hlim : WithinLimit cfg whole.length) (hutf : op = 1 → Utf8 whole)
    (items : List Item) (hrole : ∀ i ∈ items, i.1.isSome = cfg.server)
    (hframes : items.map (·.2) = ⟨false, op, first⟩ :: (body ++ [⟨true, 0, last⟩]))
    (chunks : List Bytes) (hc : chunks.flatten = wires items) :
    (feed cfg chunks ({}, [])).1.out = (body.filter (fun f => f.op != 0)).flatMap (controlEffects cfg) ++
      [Ev.message (UInt8.ofNat (128 + op)) whole] ∧
    (feed cfg chunks ({}, [])).1.ok = true := by
  have hop0 : op ≠ 0 ∧ op ≠ 8 ∧ op ≠ 9 ∧ op ≠ 10 := by omega
  generalize hmid : (body.filter (fun f => f.op == 0)).flatMap (·.payload) = mid at hwhole
  have hsum : whole.length = first.length + mid.length + last.length := by rw [hwhole]; simp; omega
  have hr1 : recv cfg .idle ⟨false, op, first⟩ = .inr ([], .inMsg op first) := by
    unfold recv addFragment
    have : WithinLimit cfg first.length := by unfold WithinLimit at hlim ⊢; omega
    simp [hop0, this]
  have hr2 : recv cfg (.inMsg op (first ++ mid)) ⟨true, 0, last⟩ =
      .inr ([Ev.message (UInt8.ofNat (128 + op)) whole], .idle) := by
    have e : whole.length = (first ++ mid).length + last.length := by rw [hwhole]; simp; omega
    have hw : WithinLimit cfg ((first ++ mid).length + last.length) := e ▸ hlim
    have hu : ¬ (op = 1 ∧ ¬ Utf8 (first ++ mid ++ last)) := by
      rw [← hwhole]; exact fun h => h.2 (hutf h.1)
    unfold recv addFragment
    simp only []
    have n2 : ¬ ¬ WithinLimit cfg ((first ++ mid).length + last.length) := not_not_intro hw
    rw [if_neg (by decide), if_neg (by decide), if_neg (by decide), if_pos trivial, if_neg n2, if_neg (by decide),
      if_neg hu, hwhole]
  have hmidlen : ∀ f ∈ body, f.op = 0 → f.payload.length ≤ mid.length := by
    intro f hf h0
    rw [← hmid, List.length_flatMap]
    have : ∀ (l : List Nat) (a : Nat), a ∈ l → a ≤ l.sum := by
      intro l
      induction l with
      | nil => simp
      | cons b t ih =>
        intro a ha
        rw [List.sum_cons]
        rcases List.mem_cons.1 ha with rfl | ha
        · omega
        · have := ih a ha; omega
    apply this
    simp only [List.mem_map, List.mem_filter]
    exact ⟨f, ⟨hf, by simp [h0]⟩, rfl⟩
  have hbody := runs_body (cfg := cfg) (op := op) body first
    (fun f hf => (hb f hf).imp (fun h => h.1) id) (by rw [hmid]; unfold WithinLimit at hlim ⊢; omega)
  rw [hmid] at hbody
  have hrun : RunsTo cfg .idle (items.map (·.2))
      ((body.filter (fun f => f.op != 0)).flatMap (controlEffects cfg) ++
        [Ev.message (UInt8.ofNat (128 + op)) whole]) .idle := by
    rw [hframes]
    have h2 := RunsTo.cons (by simp) hr2 (RunsTo.nil (cfg := cfg))
    have := RunsTo.cons (by simp) hr1 (runs_append hbody h2)
    simpa using this
  have hg : ∀ i ∈ items, Good cfg i := by
    intro i hi
    have hm : i.2 ∈ items.map (·.2) := List.mem_map_of_mem (f := (·.2)) hi
    rw [hframes] at hm
    simp only [List.mem_cons, List.mem_append, List.not_mem_nil, or_false] at hm
    have hfit : ∀ n, n ≤ whole.length → cfg.maxPayload = 0 ∨ n ≤ cfg.maxPayload := by
      intro n hn; unfold WithinLimit at hlim; omega
    refine ⟨?_, hrole i hi, ?_⟩
    · rcases hm with h | h | h
      · rw [h]
        refine ⟨?_, by simp only []; omega, fun h8 => ?_⟩
        · rcases hop with rfl | rfl <;> simp
        · simp only [] at h8; omega
      · rcases hb _ h with ⟨h1, h2, h3⟩ | ⟨h1, _⟩
        · refine ⟨?_, by omega, fun _ => ⟨h2, h3⟩⟩
          rcases h1 with h1 | h1 <;> simp [h1]
        · have := hmidlen _ h h1
          exact ⟨by simp [h1], by omega, fun h8 => by omega⟩
      · rw [h]
        exact ⟨by simp, by simp only []; omega, fun h8 => by simp at h8⟩
    · rcases hm with h | h | h
      · rw [h]; exact Or.inr (hfit _ (by simp only []; omega))
      · rcases hb _ h with ⟨h1, _⟩ | ⟨h1, _⟩
        · exact Or.inl (by omega)
        · have := hmidlen _ h h1
          exact Or.inr (hfit _ (by omega))
      · rw [h]; exact Or.inr (hfit _ (by simp only []; omega))
  obtain ⟨o1, o2⟩ := C34_accepts_legal cfg items _ _ hg hrun chunks hc
  exact ⟨o1, o2.2 (by simp)⟩

/-- the hypotheses can be met: "Hel" ping "lo" -/
example : (feed ⟨false, true, 0⟩ [wire none ⟨false, 1, b!"Hel"⟩, wire none ⟨true, 9, b!"?"⟩, wire none ⟨true, 0, b!"lo"⟩]
    ({}, [])).1.out = [.ping b!"?", .send ⟨138, true, b!"?"⟩, .message 0x81 b!"Hello"] := by decide +kernel

/-! ## C35, C51, C52: what can be delivered or sent -/

/-- What a single effect of an accepted frame may be. -/
def EvOk (cfg : Cfg) : Ev → Prop
  | .message op d => WithinLimit cfg d.length ∧ ((op = 0x81 ∧ Utf8 d) ∨ op = 0x82)
  | .send m => m.masked = (!cfg.server) ∧ (m.frop = 136 ∨ m.frop = 138) ∧ m.data.length ≤ 125
  | _ => True

theorem recv_evOk {cfg : Cfg} {s s' : RState} {f : Frame} {evs : List Ev} (hf : f.Legal)
    (hs : ∀ op acc, s = .inMsg op acc → op = 1 ∨ op = 2) (h : recv cfg s f = .inr (evs, s')) :
    (∀ e ∈ evs, EvOk cfg e) ∧ (∀ op acc, s' = .inMsg op acc → op = 1 ∨ op = 2) := by
  have hfrag : ∀ op acc, (op = 1 ∨ op = 2) → addFragment cfg op acc f = .inr (evs, s') →
      (∀ e ∈ evs, EvOk cfg e) ∧ (∀ op acc, s' = .inMsg op acc → op = 1 ∨ op = 2) := by
    intro op acc hop h
    unfold addFragment at h
    split at h
    · exact absurd h (by simp)
    · rename_i hw
      split at h
      · simp only [Sum.inr.injEq, Prod.mk.injEq] at h
        obtain ⟨rfl, rfl⟩ := h
        refine ⟨by simp, fun o a e => ?_⟩
        simp only [RState.inMsg.injEq] at e
        omega
      · split at h
        · exact absurd h (by simp)
        · rename_i hu
          simp only [Sum.inr.injEq, Prod.mk.injEq] at h
          obtain ⟨rfl, rfl⟩ := h
          refine ⟨?_, by simp⟩
          intro e he
          simp only [List.mem_singleton] at he
          subst he
          refine ⟨by rw [List.length_append]; exact Classical.not_not.1 hw, ?_⟩
          rcases hop with rfl | rfl
          · exact Or.inl ⟨rfl, by by_contra hc; exact hu ⟨rfl, hc⟩⟩
          · exact Or.inr rfl
  have hctl : 8 ≤ f.op → f.payload.length ≤ 125 := fun h => (hf.2.2 h).2
  have hclose : f.op = 8 → ∀ e ∈ [recv.closeEv cfg f.payload], EvOk cfg e := by
    intro h8 e he
    simp only [List.mem_singleton] at he
    subst he
    unfold recv.closeEv
    split
    · trivial
    · exact ⟨rfl, Or.inl rfl, hctl (by omega)⟩
  have hping : f.op = 9 → ∀ e ∈ [Ev.ping f.payload, Ev.send ⟨138, !cfg.server, f.payload⟩], EvOk cfg e := by
    intro h9 e he
    simp only [List.mem_cons, List.not_mem_nil, or_false] at he
    rcases he with rfl | rfl
    · trivial
    · exact ⟨rfl, Or.inr rfl, hctl (by omega)⟩
  unfold recv at h
  have hcl : ∀ s0 : RState, (if f.payload.length = 1 then (Sum.inl 1002 : Sum Nat (List Ev × RState))
      else open Classical in if ClosePayload f.payload then .inr ([recv.closeEv cfg f.payload], .closed)
      else .inl (recv.closeErr f.payload)) = .inr (evs, s') → f.op = 8 →
      (∀ e ∈ evs, EvOk cfg e) ∧ (∀ op acc, s' = .inMsg op acc → op = 1 ∨ op = 2) := by
    intro _ h h8
    split at h
    · exact absurd h (by simp)
    · split at h
      · simp only [Sum.inr.injEq, Prod.mk.injEq] at h
        obtain ⟨rfl, rfl⟩ := h
        exact ⟨hclose h8, by simp⟩
      · exact absurd h (by simp)
  cases s with
  | closed =>
    simp only [Sum.inr.injEq, Prod.mk.injEq] at h
    obtain ⟨rfl, rfl⟩ := h
    exact ⟨by simp, by simp⟩
  | idle =>
    simp only [] at h
    by_cases h8 : f.op = 8
    · rw [if_pos h8] at h; exact hcl .idle h h8
    · rw [if_neg h8] at h
      by_cases h9 : f.op = 9
      · rw [if_pos h9] at h
        simp only [Sum.inr.injEq, Prod.mk.injEq] at h
        obtain ⟨rfl, rfl⟩ := h
        exact ⟨hping h9, by simp⟩
      · rw [if_neg h9] at h
        by_cases h10 : f.op = 10
        · rw [if_pos h10] at h
          simp only [Sum.inr.injEq, Prod.mk.injEq] at h
          obtain ⟨rfl, rfl⟩ := h
          exact ⟨by simp [EvOk], by simp⟩
        · rw [if_neg h10] at h
          by_cases h0 : f.op = 0
          · rw [if_pos h0] at h; exact absurd h (by simp)
          · rw [if_neg h0] at h
            have := hf.1
            simp only [List.mem_cons, List.not_mem_nil, or_false] at this
            exact hfrag f.op [] (by omega) h
  | inMsg op acc =>
    simp only [] at h
    by_cases h8 : f.op = 8
    · rw [if_pos h8] at h; exact hcl .idle h h8
    · rw [if_neg h8] at h
      by_cases h9 : f.op = 9
      · rw [if_pos h9] at h
        simp only [Sum.inr.injEq, Prod.mk.injEq] at h
        obtain ⟨rfl, rfl⟩ := h
        exact ⟨hping h9, hs⟩
      · rw [if_neg h9] at h
        by_cases h10 : f.op = 10
        · rw [if_pos h10] at h
          simp only [Sum.inr.injEq, Prod.mk.injEq] at h
          obtain ⟨rfl, rfl⟩ := h
          exact ⟨by simp [EvOk], hs⟩
        · rw [if_neg h10] at h
          by_cases h0 : f.op = 0
          · rw [if_pos h0] at h; exact hfrag op acc (hs op acc rfl) h
          · rw [if_neg h0] at h; exact absurd h (by simp)

theorem runs_evOk {cfg : Cfg} {s s' : RState} {fs : List Frame} {evs : List Ev} (h : RunsTo cfg s fs evs s')
    (hf : ∀ f ∈ fs, f.Legal) (hs : ∀ op acc, s = .inMsg op acc → op = 1 ∨ op = 2) : ∀ e ∈ evs, EvOk cfg e := by
  induction h with
  | nil => simp
  | cons _ hr _ ih =>
    obtain ⟨h1, h2⟩ := recv_evOk (hf _ (by simp)) hs hr
    intro e he
    rcases List.mem_append.1 he with he | he
    · exact h1 e he
    · exact ih (fun g hg => hf g (by simp [hg])) h2 e he

theorem failure_evOk {cfg : Cfg} {code : Nat} {evs : List Ev} (h : Failure cfg code evs) :
    ∀ e ∈ evs, EvOk cfg e := by
  obtain ⟨r, rfl, _, hl, _⟩ := h
  intro e he
  simp only [List.mem_cons, List.not_mem_nil, or_false] at he
  rcases he with rfl | rfl
  · refine ⟨rfl, Or.inl rfl, ?_⟩
    simp only [List.length_cons]; omega
  · trivial

theorem out_evOk (cfg : Cfg) (chunks : List Bytes) : ∀ e ∈ (feed cfg chunks ({}, [])).1.out, EvOk cfg e := by
  obtain ⟨items, rest, evs, tail, s, _, h2, h3, h4, h5⟩ := C34_stream cfg chunks
  rw [h4]
  intro e he
  rcases List.mem_append.1 he with he | he
  · refine runs_evOk h3 ?_ (by simp) e he
    intro f hf
    obtain ⟨i, hi, rfl⟩ := List.mem_map.1 hf
    exact (h2 i hi).1
  · cases h5 with
    | wait _ h => subst h; simp at he
    | closed _ h => subst h; simp at he
    | violation code i r _ h => exact failure_evOk h e he
    | illegal code _ h => exact failure_evOk h e he

/-- C35: with a limit `L > 0` no delivered message is longer than `L`. -/
theorem C35_message_limit (cfg : Cfg) (hL : 0 < cfg.maxPayload) (chunks : List Bytes) (op : UInt8) (d : Bytes)
    (h : Ev.message op d ∈ (feed cfg chunks ({}, [])).1.out) : d.length ≤ cfg.maxPayload := by
  have h1 : WithinLimit cfg d.length := (out_evOk cfg chunks _ h).1
  unfold WithinLimit at h1; omega

theorem fail_buf (cfg : Cfg) (st : UInt16) (r : Bytes) (p : P) :
    (fail cfg st r p).msgData = [] ∨ (fail cfg st r p).msgData = p.msgData := by
  unfold fail
  split
  · split
    · exact Or.inl rfl
    · exact Or.inr rfl
  · exact Or.inr rfl

theorem getSize_buf (cfg : Cfg) (buf : Bytes) (p : P) :
    (getSize cfg buf p).2.msgData = [] ∨ (getSize cfg buf p).2.msgData = p.msgData := by
  have h2 : ∀ q : P, (getSize2 cfg buf q).2.msgData = [] ∨ (getSize2 cfg buf q).2.msgData = q.msgData := by
    intro q
    have h3 : ∀ q : P, (sizeStage buf q).2.msgData = q.msgData := by
      intro q; unfold sizeStage; split <;> rfl
    unfold getSize2
    split
    · split
      · exact fail_buf ..
      · exact Or.inr rfl
      · exact Or.inr (h3 _)
    · exact Or.inr (h3 _)
  unfold getSize
  split
  · exact Or.inr rfl
  · split
    · split
      · exact Or.inr rfl
      · split
        · exact fail_buf ..
        · exact h2 _
    · exact h2 _

theorem le_of_buf {p q : P} {L : Nat} (h : q.msgData = [] ∨ q.msgData = p.msgData) (hp : p.msgData.length ≤ L) :
    q.msgData.length ≤ L := by
  rcases h with h | h <;> rw [h]
  · simp
  · exact hp

theorem onMessage_buf {cfg : Cfg} (hL : 0 < cfg.maxPayload) (buf : Bytes) (p : P)
    (hp : p.msgData.length ≤ cfg.maxPayload) : (onMessage cfg buf p).msgData.length ≤ cfg.maxPayload := by
  have hdisp : (dispatch cfg (framePayload buf p) p).msgData.length ≤ cfg.maxPayload := by
    unfold dispatch
    split
    · unfold processControl
      repeat' split
      all_goals first | exact hp | exact le_of_buf (fail_buf ..) hp
    · unfold processData
      have h1 : ∀ op, (dataStart cfg op p).msgData.length ≤ cfg.maxPayload := by
        intro op
        unfold dataStart
        repeat' split
        all_goals first | exact hp | exact le_of_buf (fail_buf ..) hp | simp
      generalize hq : dataStart cfg (p.frop &&& 0x0F) p = q
      have hq1 : q.msgData.length ≤ cfg.maxPayload := hq ▸ h1 _
      unfold dataAppend
      split
      · split
        · exact le_of_buf (fail_buf ..) hq1
        · rename_i hb
          rw [tooBig_iff, Classical.not_not] at hb
          have hb2 : (q.msgData ++ framePayload buf p).length ≤ cfg.maxPayload := by
            rw [List.length_append]; unfold WithinLimit at hb; omega
          split
          · unfold dataFinish
            split
            · exact le_of_buf (fail_buf ..) hb2
            · split <;> simp
          · exact hb2
      · exact hq1
  unfold onMessage
  split
  · exact hp
  · exact hdisp

theorem drive_buf {cfg : Cfg} (hL : 0 < cfg.maxPayload) (buf : Bytes) (p : P)
    (hp : p.msgData.length ≤ cfg.maxPayload) : (drive cfg buf p).1.msgData.length ≤ cfg.maxPayload := by
  induction hl : buf.length using Nat.strongRecOn generalizing buf p with
  | _ n ih =>
    have hg := le_of_buf (getSize_buf cfg buf p) hp
    rw [drive.eq_def]
    by_cases h : (getSize cfg buf p).1 = 0 ∨ buf = []
    · rw [dif_pos h]; exact hg
    · rw [dif_neg h]
      refine ih _ ?_ _ _ (onMessage_buf hL _ _ hg) rfl
      rw [not_or] at h
      have : buf.length ≠ 0 := by simpa using h.2
      rw [List.length_drop]; omega

/-- C35: nor does the receiver ever buffer more than `L` octets of an unfinished message. -/
theorem C35_buffer_limit (cfg : Cfg) (hL : 0 < cfg.maxPayload) (chunks : List Bytes) :
    (feed cfg chunks ({}, [])).1.msgData.length ≤ cfg.maxPayload := by
  rw [feed_init]
  exact drive_buf hL _ _ (Nat.zero_le _)

/-- C35: a message within the limit is not refused for its size (see `C33_reassembly`); one frame above it
fails the connection with 1009. -/
theorem C35_oversize_refused (cfg : Cfg) (i : Item) (hleg : i.2.Legal) (hrole : i.1.isSome = cfg.server)
    (hdata : i.2.op < 8) (hL : 0 < cfg.maxPayload) (hbig : cfg.maxPayload < i.2.payload.length) (rest : Bytes) :
    ∃ tail, Failure cfg 1009 tail ∧ (feed cfg [wire i.1 i.2 ++ rest] ({}, [])).1.out = tail := by
  have hfit : ¬ HdrFits cfg i.2 := by unfold HdrFits; omega
  rw [feed_init]
  obtain ⟨r, p', o1, o2, o3, o4, o5⟩ := getSize_big (cfg := cfg) (p := {}) rfl ⟨rfl, rfl⟩ hleg hrole hfit rest
  obtain ⟨evs, f1, f2, f3⟩ := fail_out (cfg := cfg) o1 code1009 o3 o4
  have : [wire i.1 i.2 ++ rest].flatten = wire i.1 i.2 ++ rest := by simp
  rw [this, drive_fail (wire_ne_nil _ _ _) f2 o5]
  refine ⟨evs, f1, ?_⟩
  rw [f3, o2]; rfl

example : (feed ⟨false, true, 3⟩ [[0x01, 0x02, 0x41, 0x41], [0x80, 0x02, 0x41, 0x41]] ({}, [])).1.out =
    [.send ⟨136, true, [3, 241] ++ b!"Payload size exceeds configured limit"⟩, .error] := by decide +kernel

/-- C51: the only messages delivered are final text messages that are valid UTF-8 and final binary
messages. -/
theorem C51_delivered_valid (cfg : Cfg) (chunks : List Bytes) (op : UInt8) (d : Bytes)
    (h : Ev.message op d ∈ (feed cfg chunks ({}, [])).1.out) : (op = 0x81 ∧ Utf8 d) ∨ op = 0x82 :=
  (out_evOk cfg chunks _ h).2

example : Ev.message 0x81 [0x41] ∈ (feed ⟨false, true, 0⟩ [[0x81, 0x01, 0x41]] ({}, [])).1.out := by decide +kernel

/-- C52: every frame the protocol sends of its own accord can be serialized, is a Pong or a Close of at
most 125 octets, and is masked exactly by a client. -/
theorem C52_replies_legal (cfg : Cfg) (chunks : List Bytes) (m : Msg)
    (h : Ev.send m ∈ (feed cfg chunks ({}, [])).1.out) :
    m.masked = (!cfg.server) ∧ (m.frop = 136 ∨ m.frop = 138) ∧ m.data.length ≤ 125 ∧
    ∀ k, ∃ w, putMessage m k = some w := by
  obtain ⟨h1, h2, h3⟩ := out_evOk cfg chunks _ h
  refine ⟨h1, h2, h3, fun k => ?_⟩
  rcases h2 with h2 | h2
  · exact ⟨_, (C32_serialize_exact m k _).2 ⟨⟨true, 8, m.data⟩, ⟨by simp, fun _ => ⟨rfl, h3⟩, h2, rfl⟩, rfl⟩⟩
  · exact ⟨_, (C32_serialize_exact m k _).2 ⟨⟨true, 10, m.data⟩, ⟨by simp, fun _ => ⟨rfl, h3⟩, h2, rfl⟩, rfl⟩⟩

example : Ev.send ⟨138, true, [7]⟩ ∈ (feed ⟨false, true, 0⟩ [[0x89, 0x01, 0x07]] ({}, [])).1.out := by decide +kernel

end Verif.Ws
