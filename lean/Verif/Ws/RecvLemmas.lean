import Verif.Ws.ParserLemmas
import Verif.Ws.RecvSpec

/-! The protocol class refines the frame-level receiver specification. -/

namespace Verif.Ws
open Spec

attribute [-simp] UInt8.toNat_and List.headD_eq_head?_getD

/-! ### Close frames -/

theorem sendable_iff (c : UInt16) : isSendableCloseCode c = true ↔ SendableCode c.toNat := by
  unfold isSendableCloseCode SendableCode
  have e : ∀ n : Nat, n < 65536 → ((c == UInt16.ofNat n) = decide (c.toNat = n)) := by
    intro n hn
    rw [Bool.eq_iff_iff, beq_iff_eq, decide_eq_true_eq, ← UInt16.toNat_inj, UInt16.toNat_ofNat_of_lt' hn]
  have e1 := e 1004 (by decide)
  have e2 := e 1005 (by decide)
  have e3 := e 1006 (by decide)
  have e4 := e 1015 (by decide)
  have l1 : (c < 1000) = (c.toNat < 1000) := by rw [UInt16.lt_iff_toNat_lt]; rfl
  have l2 : (c > 4999) = (4999 < c.toNat) := by rw [gt_iff_lt, UInt16.lt_iff_toNat_lt]; rfl
  simp only [show ((c == 1004) = decide (c.toNat = 1004)) from e1, show ((c == 1005) = decide (c.toNat = 1005)) from e2,
    show ((c == 1006) = decide (c.toNat = 1006)) from e3, show ((c == 1015) = decide (c.toNat = 1015)) from e4, l1, l2]
  by_cases h1 : c.toNat < 1000 ∨ 4999 < c.toNat
  · rw [if_pos (by simpa using h1)]; simp; omega
  · rw [if_neg (by simpa using h1)]
    by_cases h2 : c.toNat = 1004 ∨ c.toNat = 1005 ∨ c.toNat = 1006 ∨ c.toNat = 1015
    · rw [if_pos (by simpa [or_assoc] using h2)]; simp; omega
    · rw [if_neg (by simpa [or_assoc] using h2)]; simp; omega

theorem trimToUtf8_spec (s : Bytes) : trimToUtf8 s <+: s ∧ isUtf8 (trimToUtf8 s) = true ∧
    ∀ t, t <+: s → isUtf8 t = true → t.length ≤ (trimToUtf8 s).length := by
  induction hl : s.length using Nat.strongRecOn generalizing s with
  | _ n ih =>
    rw [trimToUtf8.eq_def]
    by_cases h0 : s = []
    · rw [dif_pos h0]; subst h0
      exact ⟨List.prefix_refl _, rfl, fun t ht _ => by simpa using ht⟩
    · rw [dif_neg h0]
      by_cases h1 : isUtf8 s = true
      · rw [if_pos h1]
        exact ⟨List.prefix_refl _, h1, fun t ht _ => ht.length_le⟩
      · rw [if_neg h1]
        have hpos : s.length ≠ 0 := by simpa using h0
        obtain ⟨a, b, c⟩ := ih (s.length - 1) (by omega) s.dropLast (by simp)
        refine ⟨a.trans (List.dropLast_prefix s), b, fun t ht hu => ?_⟩
        apply c t _ hu
        have hlen := ht.length_le
        have hne : t.length ≠ s.length := fun he => h1 (by
          rw [← List.IsPrefix.eq_of_length ht he]; exact hu)
        rw [List.prefix_iff_eq_take] at ht
        rw [ht, List.dropLast_eq_take, List.prefix_iff_eq_take, List.take_take, List.length_take]
        congr 1
        omega

theorem hi_lo (c : UInt16) : (c >>> 8).toUInt8 = UInt8.ofNat (c.toNat / 256) ∧
    (c &&& 0xFF).toUInt8 = UInt8.ofNat (c.toNat % 256) := by
  have h1 : (c >>> 8).toNat = c.toNat / 256 := by
    rw [UInt16.toNat_shiftRight, Nat.shiftRight_eq_div_pow]; rfl
  have h2 : (c &&& 0xFF).toNat = c.toNat % 256 := by
    rw [UInt16.toNat_and]
    exact Nat.and_two_pow_sub_one_eq_mod c.toNat 8
  have hc := c.toNat_lt
  constructor
  · apply u8_eq_ofNat; rw [UInt16.toNat_toUInt8, h1]; omega
  · apply u8_eq_ofNat; rw [UInt16.toNat_toUInt8, h2]; omega

theorem messageClose_ascii {st : UInt16} {r : Bytes} (hs : SendableCode st.toNat) (hl : r.length ≤ 123)
    (ha : ∀ c ∈ r, c.toNat ≤ 127) : messageClose st r = some ⟨136, false,
      UInt8.ofNat (st.toNat / 256) :: UInt8.ofNat (st.toNat % 256) :: r⟩ := by
  unfold messageClose
  have hr : closeReason r = r := by unfold closeReason; rw [if_neg (by omega)]
  rw [hr, if_neg (by simp [(sendable_iff st).2 hs]), if_neg (by simp [isUtf8_ascii ha]), (hi_lo st).1, (hi_lo st).2]

theorem fail_out {cfg : Cfg} {st : UInt16} {r : Bytes} {p : P} (hok : p.ok = true)
    (hs : SendableCode st.toNat) (hl : r.length ≤ 123) (ha : ∀ c ∈ r, c.toNat ≤ 127) :
    ∃ evs, Failure cfg st.toNat evs ∧ (fail cfg st r p).ok = false ∧ (fail cfg st r p).out = p.out ++ evs := by
  unfold fail
  rw [if_pos hok, messageClose_ascii hs hl ha]
  exact ⟨_, ⟨r, rfl, (isUtf8_iff r).1 (isUtf8_ascii ha), hl, hs⟩, rfl, rfl⟩

/-! ### one frame -/

/-- The protocol object `p` (between frames) is in receiver state `s`. -/
def Abs (p : P) (s : RState) : Prop :=
  match s with
  | .closed => p.ok = false
  | .idle => p.ok = true ∧ p.Clean ∧ p.dataOp = 0
  | .inMsg op acc => p.ok = true ∧ p.Clean ∧ (op = 1 ∨ op = 2) ∧ p.dataOp = UInt8.ofNat op ∧ p.msgData = acc

/-- After `onMessage`: the required effects and state, or the required failure. -/
def Outcome (cfg : Cfg) (p p' : P) : Sum Nat (List Ev × RState) → Prop
  | .inl code => p'.ok = false ∧ ∃ evs, Failure cfg code evs ∧ p'.out = p.out ++ evs
  | .inr (evs, s') => Abs p' s' ∧ p'.out = p.out ++ evs

theorem code1002 : SendableCode (1002 : UInt16).toNat := by unfold SendableCode; decide
theorem code1007 : SendableCode (1007 : UInt16).toNat := by unfold SendableCode; decide
theorem code1009 : SendableCode (1009 : UInt16).toNat := by unfold SendableCode; decide

theorem u16_of_bytes (a b : UInt8) : ((a.toUInt16 <<< 8) ||| b.toUInt16).toNat = a.toNat * 256 + b.toNat := by
  have h1 : (a.toUInt16 <<< 8).toNat = a.toNat * 256 := by
    rw [UInt16.toNat_shiftLeft, UInt8.toNat_toUInt16]
    have := a.toNat_lt
    rw [show ((8 : UInt16).toNat % 16) = 8 from rfl, Nat.shiftLeft_eq]; omega
  rw [UInt16.toNat_or, h1, UInt8.toNat_toUInt16]
  have := b.toNat_lt
  rw [show a.toNat * 256 = a.toNat <<< 8 by rw [Nat.shiftLeft_eq]]
  exact (Nat.shiftLeft_add_eq_or_of_lt (by omega) _).symm

/-- The state with the per-frame fields reset, as at the end of `onMessage`. -/
def reset (p : P) : P := { p with expected := 0, parsed := 0, frop := 0 }

/-- What `closePayloadError` decides. -/
theorem closePayloadError_spec (d : Bytes) :
    (closePayloadError d = none ∧ ClosePayload d ∧ d.length ≠ 1) ∨
    (∃ st r, closePayloadError d = some (st, r) ∧ ¬ ClosePayload d ∧
      st.toNat = (if d.length = 1 then 1002 else recv.closeErr d) ∧
      SendableCode st.toNat ∧ r.length ≤ 123 ∧ ∀ c ∈ r, c.toNat ≤ 127) := by
  match d with
  | [] => exact Or.inl ⟨rfl, Or.inl rfl, by simp⟩
  | [x] =>
    refine Or.inr ⟨1002, _, rfl, ?_, rfl, code1002, by decide, by decide⟩
    rintro (h | ⟨a, b, r, h, _⟩)
    · exact absurd h (by simp)
    · exact absurd h (by simp)
  | a :: b :: reason =>
    have hcode : isSendableCloseCode ((a.toUInt16 <<< 8) ||| b.toUInt16) = true ↔
        SendableCode (a.toNat * 256 + b.toNat) := by rw [sendable_iff, u16_of_bytes]
    have hl : ¬ (a :: b :: reason).length = 1 := by simp
    rw [if_neg hl]
    unfold closePayloadError recv.closeErr
    simp only []
    by_cases hs : SendableCode (a.toNat * 256 + b.toNat)
    · have hs1 : ¬ ((!isSendableCloseCode ((a.toUInt16 <<< 8) ||| b.toUInt16)) = true) := by
        rw [hcode.2 hs]; simp
      rw [if_neg hs1, if_pos hs]
      by_cases hu : Utf8 reason
      · have hu1 : ¬ ((decide ((a :: b :: reason).length > 2) && !isUtf8 reason) = true) := by
          rw [(isUtf8_iff reason).2 hu]; simp
        rw [if_neg hu1]
        exact Or.inl ⟨rfl, Or.inr ⟨a, b, reason, rfl, hs, hu⟩, hl⟩
      · have hf : isUtf8 reason = false := by
          rw [← Bool.not_eq_true, isUtf8_iff]; exact hu
        have hu1 : ((decide ((a :: b :: reason).length > 2) && !isUtf8 reason) = true) := by
          have hne : reason ≠ [] := by rintro rfl; exact absurd hf (by decide)
          have : reason.length ≠ 0 := by simpa using hne
          rw [hf]; simp; omega
        rw [if_pos hu1]
        refine Or.inr ⟨1007, _, rfl, ?_, rfl, code1007, by decide, by decide⟩
        rintro (h | ⟨a', b', r', h, _, hu'⟩)
        · exact absurd h (by simp)
        · simp only [List.cons.injEq] at h
          exact hu (h.2.2 ▸ hu')
    · have hs1 : ((!isSendableCloseCode ((a.toUInt16 <<< 8) ||| b.toUInt16)) = true) := by
        rw [Bool.not_eq_true', ← Bool.not_eq_true, hcode]; exact hs
      rw [if_pos hs1, if_neg hs]
      refine Or.inr ⟨1002, _, rfl, ?_, rfl, code1002, by decide, by decide⟩
      rintro (h | ⟨a', b', r', h, hs', _⟩)
      · exact absurd h (by simp)
      · simp only [List.cons.injEq] at h
        obtain ⟨rfl, rfl, rfl⟩ := h
        exact hs hs'

theorem control_close {cfg : Cfg} {p : P} {d : Bytes} (hok : p.ok = true) (hfr : p.frop = 136) :
    Outcome cfg p (reset (processControl cfg 8 d p))
      (open Classical in
       if d.length = 1 then .inl 1002
       else if ClosePayload d then .inr ([recv.closeEv cfg d], .closed)
       else .inl (recv.closeErr d)) := by
  unfold processControl
  rw [if_pos (show ((8:UInt8) == 8) = true from rfl)]
  rcases closePayloadError_spec d with ⟨he, hc, hl⟩ | ⟨st, r, he, hc, hst, hs, hl, ha⟩
  · rw [he, if_neg hl, if_pos hc]
    simp only []
    unfold recv.closeEv Outcome Abs reset
    by_cases hc : cfg.hasClose = true
    · simp [hc]
    · simp [hc, hfr]
  · rw [he]
    simp only []
    obtain ⟨evs, h1, h2, h3⟩ := fail_out (cfg := cfg) hok hs hl ha
    by_cases hl1 : d.length = 1
    · rw [if_pos hl1] at hst ⊢
      rw [hst] at h1
      exact ⟨h2, evs, h1, h3⟩
    · rw [if_neg hl1] at hst ⊢
      rw [if_neg hc]
      rw [hst] at h1
      exact ⟨h2, evs, h1, h3⟩

theorem tooBig_iff (cfg : Cfg) (p : P) (d : Bytes) :
    tooBig cfg p d = true ↔ ¬ WithinLimit cfg (p.msgData.length + d.length) := by
  unfold tooBig WithinLimit
  simp
  omega

theorem or80 {op : Nat} (h : op = 1 ∨ op = 2) : UInt8.ofNat op ||| 0x80 = UInt8.ofNat (128 + op) := by
  rcases h with rfl | rfl <;> decide

theorem dataAppend_spec {cfg : Cfg} {p : P} {op : Nat} {fin : Bool} {d : Bytes} (hok : p.ok = true)
    (hop : op = 1 ∨ op = 2) (hd : p.dataOp = UInt8.ofNat op) (fop : Nat) :
    Outcome cfg p (reset (dataAppend cfg fin d p)) (addFragment cfg op p.msgData ⟨fin, fop, d⟩) := by
  unfold dataAppend addFragment
  rw [if_pos hok]
  simp only []
  by_cases hb : WithinLimit cfg (p.msgData.length + d.length)
  · have hb1 : ¬ tooBig cfg p d = true := by rw [tooBig_iff]; simp [hb]
    have hb2 : ¬ ¬ WithinLimit cfg (p.msgData.length + d.length) := by simp [hb]
    rw [if_neg hb1, if_neg hb2]
    cases fin with
    | false =>
      rw [if_neg (by simp), if_pos rfl]
      exact ⟨⟨hok, ⟨rfl, rfl⟩, hop, hd, rfl⟩, (List.append_nil _).symm⟩
    | true =>
      rw [if_pos rfl, if_neg (by simp)]
      unfold dataFinish
      have h0 : (UInt8.ofNat op == 0) = false := by rcases hop with rfl | rfl <;> decide
      have h1 : (UInt8.ofNat op == 1) = decide (op = 1) := by rcases hop with rfl | rfl <;> decide
      simp only [hd]
      rw [if_neg (by simp [h0])]
      by_cases hu : op = 1 ∧ ¬ Utf8 (p.msgData ++ d)
      · rw [if_pos hu, if_pos]
        · obtain ⟨evs, a1, a2, a3⟩ := fail_out (cfg := cfg) (r := b!"Invalid UTF-8 in text message")
            (p := { p with msgData := p.msgData ++ d, msgFrop := UInt8.ofNat op ||| 0x80 })
            hok code1007 (by decide) (by decide)
          rw [hd] at *
          exact ⟨a2, evs, a1, a3⟩
        · rw [h1]
          have := hu.2
          rw [← isUtf8_iff] at this
          simp [hu.1, this]
      · rw [if_neg hu, if_neg]
        · refine ⟨⟨hok, ⟨rfl, rfl⟩, rfl⟩, ?_⟩
          simp only [reset, or80 hop]
        · rw [h1]
          intro hh
          simp only [Bool.and_eq_true, decide_eq_true_eq, Bool.not_eq_true'] at hh
          apply hu
          refine ⟨hh.1, ?_⟩
          rw [← isUtf8_iff, hh.2]; simp
  · rw [if_pos (by rw [tooBig_iff]; exact hb), if_pos hb]
    obtain ⟨evs, a1, a2, a3⟩ := fail_out (cfg := cfg) (p := p) (r := b!"Payload size exceeds configured limit")
      hok code1009 (by decide) (by decide)
    exact ⟨a2, evs, a1, a3⟩

theorem dataAppend_notok {cfg : Cfg} {p : P} {fin : Bool} {d : Bytes} (h : p.ok = false) :
    dataAppend cfg fin d p = p := by unfold dataAppend; rw [if_neg (by simp [h])]

/-- The heart of the refinement: `onMessage` does to a legal frame what the receiver specification
demands. -/
theorem onMessage_recv {cfg : Cfg} {p : P} {s : RState} (ha : Abs p s) (hs : s ≠ .closed) {f : Frame}
    (hf : f.Legal) {key : Option (Fin 4 → UInt8)} (hk : key.isSome = cfg.server) (rest : Bytes) :
    Outcome cfg p (onMessage cfg (wire key f ++ rest) (hdrState cfg key f p)) (recv cfg s f) := by
  have hok : p.ok = true := by cases s with
    | closed => exact absurd rfl hs
    | idle => exact ha.1
    | inMsg => exact ha.1
  unfold onMessage
  rw [if_neg (by simp [hdrState, hok]), framePayload_wire hk]
  obtain ⟨_, _, hop, hfin⟩ := firstByte_facts hf.1
  have hfr : (hdrState cfg key f p).frop = firstByte f := rfl
  unfold dispatch
  rw [hfr, hop, hfin]
  have hout : (hdrState cfg key f p).out = p.out := rfl
  have key1 : ∀ (q : P) (r : Sum Nat (List Ev × RState)), Outcome cfg (hdrState cfg key f p) (reset q) r →
      Outcome cfg p { q with expected := 0, parsed := 0, frop := 0 } r := fun q r h => h
  apply key1
  have hops := hf.1
  simp only [List.mem_cons, List.not_mem_nil, or_false] at hops
  obtain ⟨fin, op, pl⟩ := f
  simp only at hops ⊢
  have hok' : (hdrState cfg key ⟨fin, op, pl⟩ p).ok = true := hok
  rcases hops with rfl | rfl | rfl | rfl | rfl | rfl
  · -- continuation
    rw [if_neg (by decide)]
    unfold processData dataStart
    rw [if_neg (by decide)]
    cases s with
    | closed => exact absurd rfl hs
    | idle =>
      have hd0 : (hdrState cfg key ⟨fin, 0, pl⟩ p).dataOp = 0 := ha.2.2
      rw [if_pos (by rw [hd0]; rfl)]
      obtain ⟨evs, a1, a2, a3⟩ := fail_out (cfg := cfg) (p := hdrState cfg key ⟨fin, 0, pl⟩ p)
        (r := b!"Received continuation frame without initial data frame") hok' code1002 (by decide) (by decide)
      rw [dataAppend_notok a2]
      unfold recv
      simp only []
      exact ⟨a2, evs, a1, a3⟩
    | inMsg mop acc =>
      obtain ⟨_, _, h12, hd, hacc⟩ := ha
      have hdn : ((hdrState cfg key ⟨fin, 0, pl⟩ p).dataOp == 0) = false := by
        show (p.dataOp == 0) = false
        rw [hd]; rcases h12 with rfl | rfl <;> decide
      rw [if_neg (by simp [hdn])]
      have := dataAppend_spec (cfg := cfg) (p := hdrState cfg key ⟨fin, 0, pl⟩ p) (fin := fin) (d := pl)
        hok' h12 hd 0
      have hm : (hdrState cfg key ⟨fin, 0, pl⟩ p).msgData = acc := hacc
      rw [hm] at this
      unfold recv
      simp only []
      exact this
  · rw [if_neg (by decide)]
    unfold processData dataStart
    rw [if_pos (by decide)]
    cases s with
    | closed => exact absurd rfl hs
    | idle =>
      have hd0 : (hdrState cfg key ⟨fin, 1, pl⟩ p).dataOp = 0 := ha.2.2
      rw [if_neg (by rw [hd0]; decide)]
      have := dataAppend_spec (cfg := cfg) (op := 1) (p := { hdrState cfg key ⟨fin, 1, pl⟩ p with
        dataOp := UInt8.ofNat 1, msgFrop := 0, msgData := [] }) (fin := fin) (d := pl) hok' (Or.inl rfl) rfl 1
      unfold recv
      simp only []
      exact this
    | inMsg mop acc =>
      obtain ⟨_, _, h12, hd, hacc⟩ := ha
      have hdn : ((hdrState cfg key ⟨fin, 1, pl⟩ p).dataOp != 0) = true := by
        show (p.dataOp != 0) = true
        rw [hd]; rcases h12 with rfl | rfl <;> decide
      rw [if_pos hdn]
      obtain ⟨evs, a1, a2, a3⟩ := fail_out (cfg := cfg) (p := hdrState cfg key ⟨fin, 1, pl⟩ p)
        (r := b!"Received new data message before previous was complete") hok' code1002 (by decide) (by decide)
      rw [dataAppend_notok a2]
      unfold recv
      simp only []
      exact ⟨a2, evs, a1, a3⟩
  · rw [if_neg (by decide)]
    unfold processData dataStart
    rw [if_pos (by decide)]
    cases s with
    | closed => exact absurd rfl hs
    | idle =>
      have hd0 : (hdrState cfg key ⟨fin, 2, pl⟩ p).dataOp = 0 := ha.2.2
      rw [if_neg (by rw [hd0]; decide)]
      have := dataAppend_spec (cfg := cfg) (op := 2) (p := { hdrState cfg key ⟨fin, 2, pl⟩ p with
        dataOp := UInt8.ofNat 2, msgFrop := 0, msgData := [] }) (fin := fin) (d := pl) hok' (Or.inr rfl) rfl 2
      unfold recv
      simp only []
      exact this
    | inMsg mop acc =>
      obtain ⟨_, _, h12, hd, hacc⟩ := ha
      have hdn : ((hdrState cfg key ⟨fin, 2, pl⟩ p).dataOp != 0) = true := by
        show (p.dataOp != 0) = true
        rw [hd]; rcases h12 with rfl | rfl <;> decide
      rw [if_pos hdn]
      obtain ⟨evs, a1, a2, a3⟩ := fail_out (cfg := cfg) (p := hdrState cfg key ⟨fin, 2, pl⟩ p)
        (r := b!"Received new data message before previous was complete") hok' code1002 (by decide) (by decide)
      rw [dataAppend_notok a2]
      unfold recv
      simp only []
      exact ⟨a2, evs, a1, a3⟩
  · -- close
    rw [if_pos (by decide)]
    have hfin1 : fin = true := (hf.2.2 (by simp)).1
    have h136 : (hdrState cfg key ⟨fin, 8, pl⟩ p).frop = 136 := by
      rw [hfr, hfin1]; rfl
    have := control_close (cfg := cfg) (d := pl) hok' h136
    unfold recv
    cases s with
    | closed => exact absurd rfl hs
    | idle => exact this
    | inMsg => exact this
  · -- ping
    rw [if_pos (by decide)]
    unfold processControl
    rw [if_neg (by decide), if_pos (by decide)]
    unfold recv
    cases s with
    | closed => exact absurd rfl hs
    | idle => exact ⟨⟨hok, ⟨rfl, rfl⟩, ha.2.2⟩, rfl⟩
    | inMsg => exact ⟨⟨hok, ⟨rfl, rfl⟩, ha.2.2⟩, rfl⟩
  · rw [if_pos (by decide)]
    unfold processControl
    rw [if_neg (by decide), if_neg (by decide), if_pos (by decide)]
    unfold recv
    cases s with
    | closed => exact absurd rfl hs
    | idle => exact ⟨⟨hok, ⟨rfl, rfl⟩, ha.2.2⟩, rfl⟩
    | inMsg => exact ⟨⟨hok, ⟨rfl, rfl⟩, ha.2.2⟩, rfl⟩

end Verif.Ws
