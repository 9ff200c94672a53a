import Verif.Ws.FrameLemmas
import Verif.Ws.RecvSpec

/-! The receiving side: what `getMessageSize` and `onMessage` do to whole frames. -/

namespace Verif.Ws
open Spec

attribute [-simp] UInt8.toNat_and List.headD_eq_head?_getD

/-- Between frames. -/
def P.Clean (p : P) : Prop := p.parsed = 0 ∧ p.expected = 0

theorem checkFirst_ok {server : Bool} {b0 b1 : UInt8} {m : Bool} (h : checkFirst server b0 b1 = .inr m) :
    isValidOpcode (b0 &&& 0x0F) = true ∧ (b0 &&& 0x70) = 0 ∧ (8 ≤ (b0 &&& 0x0F).toNat → ((b0 &&& 0x80) != 0) = true) ∧
    m = server ∧ decide (128 ≤ b1.toNat) = server := by
  unfold checkFirst at h
  by_cases h1 : (!isValidOpcode (b0 &&& 0x0F)) = true
  · rw [if_pos h1] at h; exact absurd h (by simp)
  rw [if_neg h1] at h
  by_cases h2 : ((b0 &&& 0x70) != 0) = true
  · rw [if_pos h2] at h; exact absurd h (by simp)
  rw [if_neg h2] at h
  by_cases h3 : ((b0 &&& 0x0F) ≥ 8 && (b0 &&& 0x80) == 0) = true
  · rw [if_pos h3] at h; exact absurd h (by simp)
  rw [if_neg h3] at h
  by_cases h4 : (server && (b1 &&& 0x80) == 0) = true
  · rw [if_pos h4] at h; exact absurd h (by simp)
  rw [if_neg h4] at h
  by_cases h5 : (!server && (b1 &&& 0x80) != 0) = true
  · rw [if_pos h5] at h; exact absurd h (by simp)
  rw [if_neg h5] at h
  simp only [Sum.inr.injEq] at h
  have e := and80 b1
  refine ⟨by simpa using h1, by simpa using h2, ?_, ?_, ?_⟩
  · intro h8
    have : (b0 &&& 0x0F) ≥ 8 := by rw [ge_iff_le, UInt8.le_iff_toNat_le]; exact h8
    cases hh : (b0 &&& 0x80) == 0
    · simp [bne, hh]
    · exact absurd (by simp [this, hh]) h3
  · cases server <;> cases hb : (b1 &&& 0x80) == 0 <;> simp_all [bne]
  · cases server <;> cases hb : (b1 &&& 0x80) == 0 <;> simp_all [bne]

theorem checkFirst_legal {server : Bool} {f : Frame} (hf : f.Legal) {b1 : UInt8}
    (hb : decide (128 ≤ b1.toNat) = server) : checkFirst server (firstByte f) b1 = .inr server := by
  obtain ⟨h1, h2, h3⟩ := hf
  obtain ⟨a, b, c, d⟩ := firstByte_facts h1
  have e := and80 b1
  have e' : ((b1 &&& 0x80) == 0) = !server := by
    rw [hb] at e; rw [← e]; simp [bne]
  unfold checkFirst
  rw [if_neg (by simp [a]), if_neg (by simp [b]), if_neg, if_neg (by rw [e']; simp),
    if_neg (by rw [e, hb]; simp), e, hb]
  rw [Bool.and_eq_true, decide_eq_true_eq, ge_iff_le, UInt8.le_iff_toNat_le, c]
  rintro ⟨h8, hz⟩
  have : f.op < 256 := by simp at h1; omega
  rw [ofNat_toNat_lt this] at h8
  have := (h3 h8).1
  rw [← d, bne, hz] at this
  exact absurd this (by simp)

theorem numBytes_eq (ind : UInt8) :
    numBytes ind = if ind.toNat = 126 then 2 else if ind.toNat = 127 then 8 else 0 := by
  unfold numBytes
  have a : (ind == 126) = decide (ind.toNat = 126) := by
    rw [Bool.eq_iff_iff, beq_iff_eq, decide_eq_true_eq, ← UInt8.toNat_inj]; rfl
  have b : (ind == 127) = decide (ind.toNat = 127) := by
    rw [Bool.eq_iff_iff, beq_iff_eq, decide_eq_true_eq, ← UInt8.toNat_inj]; rfl
  simp only [a, b, decide_eq_true_eq]

theorem beq_nat (a : UInt8) (n : Nat) (h : n < 256) : (a == UInt8.ofNat n) = decide (a.toNat = n) := by
  rw [Bool.eq_iff_iff, beq_iff_eq, decide_eq_true_eq, ← UInt8.toNat_inj, ofNat_toNat_lt h]

theorem ge8_iff (a : UInt8) : (a ≥ 8) ↔ 8 ≤ a.toNat := by rw [ge_iff_le, UInt8.le_iff_toNat_le]; rfl

/-- What a successful length stage means. -/
theorem checkLength_ok {cfg : Cfg} {control : Bool} {ind : UInt8} {ext : Bytes} {len n : Nat}
    (h : checkLength cfg control ind ext len = .len n) :
    n = len ∧ (ind.toNat = 127 → (ext.headD 0).toNat < 128) ∧ (ind.toNat = 126 → 126 ≤ len) ∧
    (ind.toNat = 127 → 0xFFFF < len) ∧ (control = true ∨ cfg.maxPayload = 0 ∨ len ≤ cfg.maxPayload) := by
  unfold checkLength at h
  have e127 : (ind == 127) = decide (ind.toNat = 127) := beq_nat ind 127 (by decide)
  have e126 : (ind == 126) = decide (ind.toNat = 126) := beq_nat ind 126 (by decide)
  rw [e127, e126, and80] at h
  by_cases h1 : (decide (ind.toNat = 127) && decide (128 ≤ (ext.headD 0).toNat)) = true
  · rw [if_pos h1] at h; exact absurd h (by simp)
  rw [if_neg h1] at h
  by_cases h2 : (decide (ind.toNat = 126) && decide (len < 126)) = true
  · rw [if_pos h2] at h; exact absurd h (by simp)
  rw [if_neg h2] at h
  by_cases h3 : (decide (ind.toNat = 127) && decide (len ≤ 0xFFFF)) = true
  · rw [if_pos h3] at h; exact absurd h (by simp)
  rw [if_neg h3] at h
  by_cases h4 : (!control && decide (cfg.maxPayload > 0) && decide (len > cfg.maxPayload)) = true
  · rw [if_pos h4] at h; exact absurd h (by simp)
  rw [if_neg h4] at h
  simp only [LenRes.len.injEq] at h
  simp at h1 h2 h3 h4
  refine ⟨h.symm, h1, h2, h3, ?_⟩
  cases control
  · right; have := h4 rfl; omega
  · left; rfl

theorem checkLength_pass {cfg : Cfg} {control : Bool} {ind : UInt8} {ext : Bytes} {len : Nat}
    (h1 : ind.toNat = 127 → (ext.headD 0).toNat < 128) (h2 : ind.toNat = 126 → 126 ≤ len)
    (h3 : ind.toNat = 127 → 0xFFFF < len) (h4 : control = true ∨ cfg.maxPayload = 0 ∨ len ≤ cfg.maxPayload) :
    checkLength cfg control ind ext len = .len len := by
  unfold checkLength
  have e127 : (ind == 127) = decide (ind.toNat = 127) := beq_nat ind 127 (by decide)
  have e126 : (ind == 126) = decide (ind.toNat = 126) := beq_nat ind 126 (by decide)
  rw [e127, e126, and80]
  rw [if_neg (by simp; omega), if_neg (by simp; omega), if_neg (by simp; omega), if_neg]
  rcases h4 with h | h | h
  · simp [h]
  · simp [h]
  · simp; intro _ _; exact h

theorem checkLength_big {cfg : Cfg} {ind : UInt8} {ext : Bytes} {len : Nat}
    (h1 : ind.toNat = 127 → (ext.headD 0).toNat < 128) (h2 : ind.toNat = 126 → 126 ≤ len)
    (h3 : ind.toNat = 127 → 0xFFFF < len) (h4 : 0 < cfg.maxPayload) (h5 : cfg.maxPayload < len) :
    checkLength cfg false ind ext len = .bad 1009 b!"Payload size exceeds configured limit" := by
  unfold checkLength
  have e127 : (ind == 127) = decide (ind.toNat = 127) := beq_nat ind 127 (by decide)
  have e126 : (ind == 126) = decide (ind.toNat = 126) := beq_nat ind 126 (by decide)
  rw [e127, e126, and80]
  rw [if_neg (by simp; omega), if_neg (by simp; omega), if_neg (by simp; omega), if_pos]
  simp [h4, h5]

theorem readLength_head (bs : Bytes) (h : bs.length = 8) :
    (readLength bs < 2 ^ 63 ↔ (bs.headD 0).toNat < 128) := by
  match bs, h with
  | b :: t, h =>
    simp only [List.length_cons] at h
    have ht : t.length = 7 := by omega
    have := readLength_lt t
    rw [ht] at this
    simp only [readLength, ht, List.headD_cons]
    omega

/-- The length stage on a complete, legal header. -/
theorem lengthStage_sound {cfg : Cfg} {frop b1 : UInt8} {buf : Bytes} {n : Nat}
    (h : lengthStage cfg frop b1 buf = .len n) (hb : buf.getD 1 0 = b1) (hl : 2 ≤ buf.length) :
    n < 2 ^ 63 ∧ (8 ≤ (frop &&& 0x0F).toNat → n ≤ 125) ∧
    (8 ≤ (frop &&& 0x0F).toNat ∨ cfg.maxPayload = 0 ∨ n ≤ cfg.maxPayload) ∧
    2 + numBytes (b1 &&& 127) ≤ buf.length ∧
    (buf.drop 1).take (1 + numBytes (b1 &&& 127)) = lengthOctets (decide (128 ≤ b1.toNat)) n ∧
    1 + numBytes (b1 &&& 127) = (lengthOctets (decide (128 ≤ b1.toNat)) n).length := by
  obtain ⟨b0, t, rfl⟩ : ∃ b0 t, buf = b0 :: b1 :: t := by
    match buf, hl, hb with
    | b0 :: b1' :: t, _, hb => exact ⟨b0, t, by simp at hb; rw [hb]⟩
  unfold lengthStage at h
  have e127 := and127 b1
  have hb256 := b1.toNat_lt
  have hg : ∀ (x : UInt8), decide (x ≥ 8) = decide (8 ≤ x.toNat) := fun x => by
    simp only [ge8_iff]
  have hgt : ((b1 &&& 127) > 125) ↔ 125 < b1.toNat % 128 := by
    rw [gt_iff_lt, UInt8.lt_iff_toNat_lt, e127]; rfl
  by_cases hc : 8 ≤ (frop &&& 0x0F).toNat
  · rw [hg] at h
    by_cases h1 : 125 < b1.toNat % 128
    · rw [if_pos (by simp [hc, hgt, h1])] at h; exact absurd h (by simp)
    rw [if_neg (by simp [hgt, h1])] at h
    have hn0 : numBytes (b1 &&& 127) = 0 := by
      rw [numBytes_eq, e127, if_neg (by omega), if_neg (by omega)]
    rw [hn0] at h ⊢
    rw [if_neg (by simp), if_neg (by simp)] at h
    obtain ⟨h2, _, _, _, h6⟩ := checkLength_ok h
    rw [e127] at h2
    subst h2
    refine ⟨by omega, fun _ => by omega, Or.inl hc, by simp, ?_, ?_⟩
    · unfold lengthOctets
      rw [if_pos (by omega)]
      simp only [List.drop_succ_cons, List.drop_zero, List.take_succ_cons, List.take_zero]
      congr 1
      apply u8_eq_ofNat
      by_cases hh : 128 ≤ b1.toNat
      · simp [hh]; omega
      · simp [hh]; omega
    · unfold lengthOctets; rw [if_pos (by omega)]; rfl
  · rw [hg, if_neg (by simp [hc]), if_neg (by simp [hc])] at h
    by_cases h1 : b1.toNat % 128 ≤ 125
    · have hn0 : numBytes (b1 &&& 127) = 0 := by
        rw [numBytes_eq, e127, if_neg (by omega), if_neg (by omega)]
      rw [hn0] at h ⊢
      rw [if_neg (by simp)] at h
      obtain ⟨h2, _, _, _, h6⟩ := checkLength_ok h
      rw [e127] at h2 h6
      subst h2
      refine ⟨by omega, fun hh => absurd hh hc, ?_, by simp, ?_, ?_⟩
      · rcases h6 with h6 | h6
        · simp [hc] at h6
        · exact Or.inr h6
      · unfold lengthOctets
        rw [if_pos (by omega)]
        simp only [List.drop_succ_cons, List.drop_zero, List.take_succ_cons, List.take_zero]
        congr 1
        apply u8_eq_ofNat
        by_cases hh : 128 ≤ b1.toNat
        · simp [hh]; omega
        · simp [hh]; omega
      · unfold lengthOctets; rw [if_pos (by omega)]; rfl
    · by_cases h6 : b1.toNat % 128 = 126
      · have hn : numBytes (b1 &&& 127) = 2 := by rw [numBytes_eq, e127, if_pos h6]
        rw [hn] at h ⊢
        rw [if_pos (by simp)] at h
        by_cases hlen : (b0 :: b1 :: t).length < 2 + 2
        · rw [if_pos hlen] at h; exact absurd h (by simp)
        rw [if_neg hlen] at h
        obtain ⟨h2, _, h4, _, h7⟩ := checkLength_ok h
        rw [e127] at h4
        simp only [List.length_cons] at hlen
        have hext : (List.take 2 (List.drop 2 (b0 :: b1 :: t))).length = 2 := by simp; omega
        have hlt := readLength_lt (List.take 2 (List.drop 2 (b0 :: b1 :: t)))
        rw [hext] at hlt
        have hbe := bigEndian_readLength (List.take 2 (List.drop 2 (b0 :: b1 :: t)))
        rw [hext] at hbe
        rw [← h2] at hlt hbe h4 h7
        have h4' := h4 h6
        refine ⟨by omega, fun hh => absurd hh hc, ?_, by simp; omega, ?_, ?_⟩
        · rcases h7 with h7 | h7
          · simp [hc] at h7
          · exact Or.inr h7
        · unfold lengthOctets
          rw [if_neg (by omega), if_pos (by omega), hbe]
          simp only [List.drop_succ_cons, List.drop_zero, show 1 + 2 = 2 + 1 from rfl,
            List.take_succ_cons]
          congr 1
          apply u8_eq_ofNat
          by_cases hh : 128 ≤ b1.toNat
          · simp [hh]; omega
          · simp [hh]; omega
        · rw [lengthOctets_length, if_neg (by omega), if_pos (by omega)]
      · have h7' : b1.toNat % 128 = 127 := by omega
        have hn : numBytes (b1 &&& 127) = 8 := by
          rw [numBytes_eq, e127, if_neg (by omega), if_pos h7']
        rw [hn] at h ⊢
        rw [if_pos (by simp)] at h
        by_cases hlen : (b0 :: b1 :: t).length < 8 + 2
        · rw [if_pos hlen] at h; exact absurd h (by simp)
        rw [if_neg hlen] at h
        obtain ⟨h2, h3, _, h4, h7⟩ := checkLength_ok h
        rw [e127] at h4 h3
        simp only [List.length_cons] at hlen
        have hext : (List.take 8 (List.drop 2 (b0 :: b1 :: t))).length = 8 := by simp; omega
        have hbe := bigEndian_readLength (List.take 8 (List.drop 2 (b0 :: b1 :: t)))
        rw [hext] at hbe
        have hlt := (readLength_head _ hext).2 (h3 h7')
        rw [← h2] at hlt hbe h4 h7
        have h4' := h4 h7'
        refine ⟨by omega, fun hh => absurd hh hc, ?_, by simp; omega, ?_, ?_⟩
        · rcases h7 with h7 | h7
          · simp [hc] at h7
          · exact Or.inr h7
        · unfold lengthOctets
          rw [if_neg (by omega), if_neg (by omega), hbe]
          simp only [List.drop_succ_cons, List.drop_zero, show 1 + 8 = 8 + 1 from rfl,
            List.take_succ_cons]
          congr 1
          apply u8_eq_ofNat
          by_cases hh : 128 ≤ b1.toNat
          · simp [hh]; omega
          · simp [hh]; omega
        · rw [lengthOctets_length, if_neg (by omega), if_neg (by omega)]

/-- The second byte of a frame and its extended length. -/
theorem lengthOctets_cons (m : Bool) (n : Nat) : ∃ b1 ext, lengthOctets m n = b1 :: ext ∧
    decide (128 ≤ b1.toNat) = m ∧ ext.length = numBytes (b1 &&& 127) ∧
    (n ≤ 125 → b1.toNat % 128 = n) ∧
    (125 < n → n < 2 ^ 16 → b1.toNat % 128 = 126 ∧ ext = bigEndian n 2) ∧
    (2 ^ 16 ≤ n → b1.toNat % 128 = 127 ∧ ext = bigEndian n 8) := by
  unfold lengthOctets
  by_cases h1 : n ≤ 125
  · have e : (UInt8.ofNat (n + m.toNat * 128)).toNat = n + m.toNat * 128 :=
      ofNat_toNat_lt (by cases m <;> simp <;> omega)
    refine ⟨_, [], by rw [if_pos h1], ?_, ?_, ?_, ?_, ?_⟩
    · rw [e]; cases m <;> simp; omega
    · rw [numBytes_eq, and127, e]
      cases m <;> simp <;> (try rw [if_neg (by omega), if_neg (by omega)])
    · intro _; rw [e]; cases m <;> simp <;> omega
    · intro h; omega
    · intro h; omega
  · by_cases h2 : n < 2 ^ 16
    · refine ⟨_, _, by rw [if_neg h1, if_pos h2], ?_, ?_, fun h => absurd h h1, ?_, fun h => by omega⟩
      · cases m <;> decide
      · rw [bigEndian_length]; cases m <;> decide
      · intro _ _; exact ⟨by cases m <;> decide, rfl⟩
    · refine ⟨_, _, by rw [if_neg h1, if_neg h2], ?_, ?_, fun h => absurd h h1, fun _ h => absurd h h2, ?_⟩
      · cases m <;> decide
      · rw [bigEndian_length]; cases m <;> decide
      · intro _; exact ⟨by cases m <;> decide, rfl⟩

/-- The length stage accepts every legal header (up to the size limit). -/
theorem lengthStage_complete {cfg : Cfg} {frop b1 : UInt8} {ext t : Bytes} {n : Nat} {b0 : UInt8}
    (hn : n < 2 ^ 63) (hc : 8 ≤ (frop &&& 0x0F).toNat → n ≤ 125)
    (hext : ext.length = numBytes (b1 &&& 127))
    (h1 : n ≤ 125 → b1.toNat % 128 = n)
    (h2 : 125 < n → n < 2 ^ 16 → b1.toNat % 128 = 126 ∧ ext = bigEndian n 2)
    (h3 : 2 ^ 16 ≤ n → b1.toNat % 128 = 127 ∧ ext = bigEndian n 8) :
    lengthStage cfg frop b1 (b0 :: b1 :: (ext ++ t)) =
      if 8 ≤ (frop &&& 0x0F).toNat ∨ cfg.maxPayload = 0 ∨ n ≤ cfg.maxPayload then .len n
      else .bad 1009 b!"Payload size exceeds configured limit" := by
  have e127 := and127 b1
  have hg : ∀ (x : UInt8), decide (x ≥ 8) = decide (8 ≤ x.toNat) := fun x => by
    simp only [ge8_iff]
  have hgt : ((b1 &&& 127) > 125) ↔ 125 < b1.toNat % 128 := by
    rw [gt_iff_lt, UInt8.lt_iff_toNat_lt, e127]; rfl
  have htake : List.take (numBytes (b1 &&& 127)) (List.drop 2 (b0 :: b1 :: (ext ++ t))) = ext := by
    rw [List.drop_succ_cons, List.drop_succ_cons, List.drop_zero, ← hext, List.take_left]
  have hlen : ¬ (b0 :: b1 :: (ext ++ t)).length < numBytes (b1 &&& 127) + 2 := by
    simp only [List.length_cons, List.length_append]; omega
  have key : ∀ (e : Bytes) (h1 : (b1 &&& 127).toNat = 127 → (e.headD 0).toNat < 128)
      (h2 : (b1 &&& 127).toNat = 126 → 126 ≤ n) (h3 : (b1 &&& 127).toNat = 127 → 0xFFFF < n),
      checkLength cfg (decide (8 ≤ (frop &&& 0x0F).toNat)) (b1 &&& 127) e n =
      if 8 ≤ (frop &&& 0x0F).toNat ∨ cfg.maxPayload = 0 ∨ n ≤ cfg.maxPayload then .len n
      else .bad 1009 b!"Payload size exceeds configured limit" := by
    intro e g1 g2 g3
    by_cases hf : 8 ≤ (frop &&& 0x0F).toNat ∨ cfg.maxPayload = 0 ∨ n ≤ cfg.maxPayload
    · rw [if_pos hf, checkLength_pass g1 g2 g3]
      rcases hf with h | h
      · exact Or.inl (by simpa using h)
      · exact Or.inr h
    · rw [if_neg hf]
      have : decide (8 ≤ (frop &&& 0x0F).toNat) = false := by simp; omega
      rw [this, checkLength_big g1 g2 g3 (by omega) (by omega)]
  unfold lengthStage
  rw [hg, htake]
  by_cases a : n ≤ 125
  · have e := h1 a
    have hn0 : numBytes (b1 &&& 127) = 0 := by
      rw [numBytes_eq, e127, if_neg (by omega), if_neg (by omega)]
    rw [if_neg (by simp [hgt]; omega), if_neg (by simp [hn0]), if_neg (by simp [hn0])]
    rw [e127, e]
    exact key _ (by omega) (by omega) (by omega)
  · have hnc : ¬ 8 ≤ (frop &&& 0x0F).toNat := fun h => a (hc h)
    by_cases b : n < 2 ^ 16
    · obtain ⟨e, ee⟩ := h2 (by omega) b
      have hn2 : numBytes (b1 &&& 127) = 2 := by rw [numBytes_eq, e127, if_pos e]
      rw [if_neg (by simp [hnc]), if_neg (by simp [hnc]), if_pos (by simp [hn2]), if_neg hlen]
      have er : readLength ext = n := by
        rw [ee, readLength_bigEndian]; exact Nat.mod_eq_of_lt (by omega)
      rw [er]
      exact key _ (by omega) (by omega) (by omega)
    · obtain ⟨e, ee⟩ := h3 (by omega)
      have hn8 : numBytes (b1 &&& 127) = 8 := by rw [numBytes_eq, e127, if_neg (by omega), if_pos e]
      rw [if_neg (by simp [hnc]), if_neg (by simp [hnc]), if_pos (by simp [hn8]), if_neg hlen]
      have er : readLength ext = n := by
        rw [ee, readLength_bigEndian]; exact Nat.mod_eq_of_lt (by omega)
      rw [er]
      refine key _ (fun _ => ?_) (by omega) (by omega)
      exact (readLength_head ext (by omega)).1 (by omega)

/-- The protocol state once the header of `f` has been read. -/
def hdrState (cfg : Cfg) (key : Option (Fin 4 → UInt8)) (f : Frame) (p : P) : P :=
  { p with frop := firstByte f, msgMasked := cfg.server, expected := f.payload.length,
           parsed := 1 + (lengthOctets key.isSome f.payload.length).length }

theorem getSize_clean {cfg : Cfg} {p : P} (hok : p.ok = true) (hcl : p.Clean) {b0 b1 : UInt8} {t : Bytes} :
    getSize cfg (b0 :: b1 :: t) p =
      match checkFirst cfg.server b0 b1 with
      | .inl r => ((b0 :: b1 :: t).length, fail cfg 1002 r p)
      | .inr m =>
        match lengthStage cfg b0 b1 (b0 :: b1 :: t) with
        | .bad st r => ((b0 :: b1 :: t).length, fail cfg st r { p with frop := b0, msgMasked := m, parsed := 2 })
        | .more => (0, { p with frop := b0, msgMasked := m, parsed := 2 })
        | .len n => sizeStage (b0 :: b1 :: t)
            { p with frop := b0, msgMasked := m, expected := n, parsed := 2 + numBytes (b1 &&& 127) } := by
  unfold getSize getSize2
  rw [if_neg (by simp [hok]), if_pos (by simp [hcl.1]), if_neg (by simp)]
  simp only [List.getD_cons_zero, List.getD_cons_succ, hcl.2]
  rfl

/-- A complete legal frame at the front of the buffer is recognised. -/
theorem getSize_wire {cfg : Cfg} {p : P} (hok : p.ok = true) (hcl : p.Clean) {f : Frame} (hf : f.Legal)
    {key : Option (Fin 4 → UInt8)} (hk : key.isSome = cfg.server) (hfit : HdrFits cfg f) (rest : Bytes) :
    getSize cfg (wire key f ++ rest) p = ((wire key f).length, hdrState cfg key f p) := by
  obtain ⟨b1, ext, e, hm, hext, h1, h2, h3⟩ := lengthOctets_cons key.isSome f.payload.length
  have hop : (firstByte f &&& 0x0F).toNat = f.op := by
    rw [(firstByte_facts hf.1).2.2.1]; apply ofNat_toNat_lt
    have := hf.1; simp at this; omega
  have hw := wire_eq key f
  have hwl := wire_length key f
  rw [e] at hw hwl
  generalize hbody : (match key with
    | none => f.payload
    | some k => [k 0, k 1, k 2, k 3] ++ maskWith k f.payload) = body at hw
  have hbuf : wire key f ++ rest = firstByte f :: b1 :: (ext ++ (body ++ rest)) := by
    rw [hw, ← hbody]; cases key <;> simp
  have hfit' : 8 ≤ (firstByte f &&& 0x0F).toNat ∨ cfg.maxPayload = 0 ∨ f.payload.length ≤ cfg.maxPayload := by
    rw [hop]; exact hfit
  have hls := lengthStage_complete (cfg := cfg) (frop := firstByte f) (b0 := firstByte f) (t := body ++ rest)
    hf.2.1 (fun h => (hf.2.2 (hop ▸ h)).2) hext h1 h2 h3
  rw [if_pos hfit'] at hls
  have hlen : (wire key f ++ rest).length = (wire key f).length + rest.length := List.length_append ..
  rw [hbuf] at hlen ⊢
  rw [getSize_clean hok hcl, checkFirst_legal hf (hm.trans hk), hls]
  simp only []
  have hst : ({ p with frop := firstByte f, msgMasked := cfg.server, expected := f.payload.length, parsed := 2 + numBytes (b1 &&& 127) } : P) = hdrState cfg key f p := by
    unfold hdrState; rw [e, ← hext, List.length_cons]
    congr 1; omega
  rw [hst]
  have hfull : fullSize (hdrState cfg key f p) = (wire key f).length := by
    unfold fullSize hdrState
    simp only []
    rw [e, hwl, ← hk]; omega
  unfold sizeStage
  rw [hfull, if_neg (by omega)]

theorem framePayload_wire {cfg : Cfg} {p : P} {f : Frame}
    {key : Option (Fin 4 → UInt8)} (hk : key.isSome = cfg.server) (rest : Bytes) :
    framePayload (wire key f ++ rest) (hdrState cfg key f p) = f.payload := by
  unfold framePayload hdrState
  simp only []
  rw [wire_eq]
  generalize hlo : lengthOctets key.isSome f.payload.length = lo
  have hd : ∀ (x : Bytes) k, List.drop (1 + lo.length + k) (firstByte f :: (lo ++ x) ++ rest) =
      List.drop k (x ++ rest) := by
    intro x k
    rw [show 1 + lo.length + k = (lo.length + k) + 1 by omega]
    simp only [List.cons_append, List.drop_succ_cons, List.append_assoc]
    rw [← List.drop_drop, List.drop_left]
  cases key with
  | none =>
    simp only [Option.isSome_none] at hk
    rw [← hk, if_neg (by simp)]
    have := hd f.payload 0
    simp only [Nat.add_zero, List.drop_zero] at this
    simp only []
    rw [this, List.take_left]
  | some k =>
    simp only [Option.isSome_some] at hk
    rw [← hk, if_pos rfl]
    have h0 := hd ([k 0, k 1, k 2, k 3] ++ maskWith k f.payload) 0
    have h4 := hd ([k 0, k 1, k 2, k 3] ++ maskWith k f.payload) 4
    simp only [Nat.add_zero, List.drop_zero] at h0
    simp only []
    rw [h0, h4]
    have a1 : List.take 4 ([k 0, k 1, k 2, k 3] ++ maskWith k f.payload ++ rest) = [k 0, k 1, k 2, k 3] := by
      simp
    have a2 : List.drop 4 ([k 0, k 1, k 2, k 3] ++ maskWith k f.payload ++ rest) = maskWith k f.payload ++ rest := by
      simp
    rw [a1, a2]
    have a3 : List.take f.payload.length (maskWith k f.payload ++ rest) = maskWith k f.payload := by
      rw [← maskWith_length k f.payload, List.take_left]
    rw [a3, unmask_eq, ← maskWith_eq, maskWith_invol]

theorem lengthStage_append {cfg : Cfg} {frop b1 : UInt8} {buf x : Bytes}
    (h : lengthStage cfg frop b1 buf ≠ .more) :
    lengthStage cfg frop b1 (buf ++ x) = lengthStage cfg frop b1 buf := by
  unfold lengthStage at h ⊢
  split
  · rfl
  · split
    · rfl
    · split
      · rename_i h1 h2 h3
        rw [if_neg h1, if_neg h2, if_pos h3] at h
        by_cases hl : buf.length < numBytes (b1 &&& 127) + 2
        · rw [if_pos hl] at h; exact absurd rfl h
        · have hl2 : ¬ (buf ++ x).length < numBytes (b1 &&& 127) + 2 := by
            rw [List.length_append]; omega
          rw [if_neg hl, if_neg hl2]
          have : List.take (numBytes (b1 &&& 127)) (List.drop 2 (buf ++ x)) =
              List.take (numBytes (b1 &&& 127)) (List.drop 2 buf) := by
            rw [List.drop_append_of_le_length (by omega), List.take_append_of_le_length]
            rw [List.length_drop]; omega
          rw [this]
      · rfl

/-- A complete header and payload at the front of the buffer is a legal frame. -/
theorem wire_of_len {cfg : Cfg} {b0 b1 : UInt8} {t : Bytes} {m : Bool} {n : Nat}
    (hc : checkFirst cfg.server b0 b1 = .inr m) (hl : lengthStage cfg b0 b1 (b0 :: b1 :: t) = .len n)
    (hlen : n + (2 + numBytes (b1 &&& 127)) + (if m then 4 else 0) ≤ (b0 :: b1 :: t).length) :
    ∃ key f rest, b0 :: b1 :: t = wire key f ++ rest ∧ f.Legal ∧ key.isSome = cfg.server ∧ HdrFits cfg f ∧
      f.payload.length = n := by
  obtain ⟨v1, v2, v3, v4, v5⟩ := checkFirst_ok hc
  obtain ⟨l1, l2, l3, l4, l5, l6⟩ := lengthStage_sound hl (by simp) (by simp)
  rw [v5] at l5 l6
  subst v4
  rw [List.drop_succ_cons, List.drop_zero] at l5
  have hsplit : b0 :: b1 :: t = b0 :: (lengthOctets cfg.server n ++ (b1 :: t).drop (1 + numBytes (b1 &&& 127))) := by
    rw [← l5, List.take_append_drop]
  generalize hrem : (b1 :: t).drop (1 + numBytes (b1 &&& 127)) = rem at hsplit
  have hreml : n + (if cfg.server then 4 else 0) ≤ rem.length := by
    rw [← hrem, List.length_drop]
    simp only [List.length_cons] at hlen ⊢
    split at hlen <;> split <;> simp_all <;> omega
  cases hs : cfg.server with
  | false =>
    rw [hs] at hreml hsplit
    simp only [Bool.false_eq_true, if_false, Nat.add_zero] at hreml
    have hpl : (rem.take n).length = n := by rw [List.length_take]; omega
    refine ⟨none, frameOf b0 (rem.take n), rem.drop n, ?_, ⟨?_, ?_, ?_⟩, rfl, ?_, hpl⟩
    · rw [hsplit, wire_eq, firstByte_frameOf b0 v2]
      simp only [frameOf, Option.isSome_none, hpl, List.cons_append, List.append_assoc, List.take_append_drop]
    · exact (validOpcode_iff _).1 v1
    · simp only [frameOf, hpl]; exact l1
    · intro h8; simp only [frameOf, hpl]; exact ⟨v3 h8, l2 h8⟩
    · unfold HdrFits; simp only [frameOf, hpl]; exact l3
  | true =>
    rw [hs] at hreml hsplit
    simp only [if_true] at hreml
    have hk4 : (rem.take 4).length = 4 := by rw [List.length_take]; omega
    have hpl0 : ((rem.drop 4).take n).length = n := by rw [List.length_take, List.length_drop]; omega
    have hpl : (maskWith (keyOf (rem.take 4)) ((rem.drop 4).take n)).length = n := by
      rw [maskWith_length, hpl0]
    refine ⟨some (keyOf (rem.take 4)), frameOf b0 (maskWith (keyOf (rem.take 4)) ((rem.drop 4).take n)),
      (rem.drop 4).drop n, ?_, ⟨?_, ?_, ?_⟩, rfl, ?_, hpl⟩
    · rw [hsplit, wire_eq, firstByte_frameOf b0 v2]
      simp only [frameOf, Option.isSome_some, hpl, keyOf_bytes hk4, maskWith_invol, List.cons_append,
        List.append_assoc, List.take_append_drop]
    · exact (validOpcode_iff _).1 v1
    · simp only [frameOf, hpl]; exact l1
    · intro h8; simp only [frameOf, hpl]; exact ⟨v3 h8, l2 h8⟩
    · unfold HdrFits; simp only [frameOf, hpl]; exact l3

/-- Trichotomy of `getMessageSize` between frames. -/
theorem getSize_cases {cfg : Cfg} {p : P} (hok : p.ok = true) (hcl : p.Clean) (buf : Bytes) :
    (∃ p', getSize cfg buf p = (0, p') ∧ p'.ok = true ∧ p'.out = p.out ∧ p'.dataOp = p.dataOp ∧
      p'.msgData = p.msgData ∧ Incomplete cfg buf ∧
      ∀ x, getSize cfg (buf ++ x) p' = getSize cfg (buf ++ x) p) ∨
    (∃ st r p', buf ≠ [] ∧ getSize cfg buf p = (buf.length, fail cfg st r p') ∧ p'.ok = true ∧ p'.out = p.out ∧
      ((st = 1002 ∨ st = 1009) ∧ r.length ≤ 123 ∧ ∀ c ∈ r, c.toNat ≤ 127) ∧
      ∀ x, getSize cfg (buf ++ x) p = ((buf ++ x).length, fail cfg st r p')) ∨
    (∃ key f rest, buf = wire key f ++ rest ∧ f.Legal ∧ key.isSome = cfg.server ∧ HdrFits cfg f) := by
  match buf with
  | [] =>
    left
    refine ⟨p, ?_, hok, rfl, rfl, rfl, Or.inl (by simp), fun _ => rfl⟩
    simp [getSize, hok, hcl.1]
  | [b0] =>
    left
    refine ⟨p, ?_, hok, rfl, rfl, rfl, Or.inl (by simp), fun _ => rfl⟩
    simp [getSize, hok, hcl.1]
  | b0 :: b1 :: t =>
    have hgc := getSize_clean hok hcl (cfg := cfg) (b0 := b0) (b1 := b1) (t := t)
    cases hc : checkFirst cfg.server b0 b1 with
    | inl r =>
      right; left
      rw [hc] at hgc
      refine ⟨1002, r, p, by simp, hgc, hok, rfl, ⟨Or.inl rfl, ?_⟩, ?_⟩
      · unfold checkFirst at hc
        split at hc
        · simp only [Sum.inl.injEq] at hc; subst hc; decide
        · split at hc
          · simp only [Sum.inl.injEq] at hc; subst hc; decide
          · split at hc
            · simp only [Sum.inl.injEq] at hc; subst hc; decide
            · split at hc
              · simp only [Sum.inl.injEq] at hc; subst hc; decide
              · split at hc
                · simp only [Sum.inl.injEq] at hc; subst hc; decide
                · exact absurd hc (by simp)
      · intro x
        have := getSize_clean hok hcl (cfg := cfg) (b0 := b0) (b1 := b1) (t := t ++ x)
        rw [hc] at this; exact this
    | inr m =>
      rw [hc] at hgc
      simp only [] at hgc
      cases hl : lengthStage cfg b0 b1 (b0 :: b1 :: t) with
      | bad st r =>
        right; left
        rw [hl] at hgc
        refine ⟨st, r, _, by simp, hgc, hok, rfl, ?_, ?_⟩
        · unfold lengthStage checkLength at hl
          repeat' split at hl
          all_goals first
            | (simp only [LenRes.bad.injEq] at hl; obtain ⟨rfl, rfl⟩ := hl; decide)
            | exact absurd hl (by simp)
        · intro x
          have := getSize_clean hok hcl (cfg := cfg) (b0 := b0) (b1 := b1) (t := t ++ x)
          have ha := lengthStage_append (x := x) (cfg := cfg) (frop := b0) (b1 := b1) (buf := b0 :: b1 :: t)
            (by rw [hl]; simp)
          rw [hl] at ha
          simp only [List.cons_append] at ha
          rw [hc, ha] at this; exact this
      | more =>
        left
        rw [hl] at hgc
        refine ⟨_, hgc, hok, rfl, rfl, rfl, Or.inl ?_, ?_⟩
        · unfold lengthStage at hl
          have hnb : numBytes (b1 &&& 127) ≤ 8 := by rw [numBytes_eq]; split <;> (try split) <;> omega
          have hcl2 : ∀ a b c d, checkLength cfg a b c d ≠ .more := by
            intro a b c d; unfold checkLength
            repeat' split
            all_goals simp
          split at hl
          · exact absurd hl (by simp)
          · split at hl
            · exact absurd hl (by simp)
            · split at hl
              · split at hl
                · omega
                · exact absurd hl (hcl2 _ _ _ _)
              · exact absurd hl (hcl2 _ _ _ _)
        · intro x
          have hg := getSize_clean hok hcl (cfg := cfg) (b0 := b0) (b1 := b1) (t := t ++ x)
          rw [hc] at hg
          simp only [List.cons_append]
          rw [hg]
          unfold getSize getSize2
          simp [hok, hcl.2]
          try rfl
      | len n =>
        rw [hl] at hgc
        simp only [] at hgc
        unfold sizeStage at hgc
        by_cases hs : (b0 :: b1 :: t).length < fullSize { p with frop := b0, msgMasked := m, expected := n, parsed := 2 + numBytes (b1 &&& 127) }
        · left
          rw [if_pos hs] at hgc
          refine ⟨_, hgc, hok, rfl, rfl, rfl, Or.inr ?_, ?_⟩
          · unfold fullSize at hs
            simp only [] at hs
            generalize hk : n + (2 + numBytes (b1 &&& 127)) + (if m = true then 4 else 0) = full at hs
            have ha := lengthStage_append (x := List.replicate (full - (b0 :: b1 :: t).length) 0) (cfg := cfg)
              (frop := b0) (b1 := b1) (buf := b0 :: b1 :: t) (by rw [hl]; simp)
            rw [hl, List.cons_append, List.cons_append] at ha
            obtain ⟨key, f, rest, e, f1, f2, f3, f4⟩ := wire_of_len hc ha (by
              rw [hk]; simp only [List.length_cons, List.length_append, List.length_replicate]; omega)
            refine ⟨key, f, f1, f2, f3, ?_, ?_⟩
            · have hwl : (wire key f).length ≥ (b0 :: b1 :: t).length := by
                have hlo := lengthStage_sound ha (by simp) (by simp)
                have v5 := (checkFirst_ok hc).2.2.2
                have h6 := hlo.2.2.2.2.2
                rw [v5.2] at h6
                rw [wire_length, f4, f2, ← h6, ← v5.1]; omega
              have : b0 :: b1 :: t = (wire key f).take (b0 :: b1 :: t).length := by
                have := congrArg (List.take (b0 :: b1 :: t).length) e
                rw [← List.cons_append, ← List.cons_append, List.take_left,
                  List.take_append_of_le_length hwl] at this
                exact this
              rw [this]; exact List.take_prefix _ _
            · have hlo := lengthStage_sound ha (by simp) (by simp)
              have v5 := (checkFirst_ok hc).2.2.2
              have h6 := hlo.2.2.2.2.2
              rw [v5.2] at h6
              rw [wire_length, f4, f2, ← h6, ← v5.1]; omega
          · intro x
            have hg := getSize_clean hok hcl (cfg := cfg) (b0 := b0) (b1 := b1) (t := t ++ x)
            have ha := lengthStage_append (x := x) (cfg := cfg)
              (frop := b0) (b1 := b1) (buf := b0 :: b1 :: t) (by rw [hl]; simp)
            rw [hl, List.cons_append, List.cons_append] at ha
            rw [hc, ha] at hg
            simp only [List.cons_append]
            rw [hg]
            unfold getSize getSize2
            by_cases hn : n = 0
            · subst hn
              have hnb : numBytes (b1 &&& 127) = 0 := by
                have hlo := lengthStage_sound hl (by simp) (by simp)
                have h6 := hlo.2.2.2.2.2
                rw [lengthOctets_length, if_pos (by omega)] at h6; omega
              simp [hok, hnb, ha]
            · simp [hok, hn]
        · right; right
          unfold fullSize at hs
          simp only [] at hs
          obtain ⟨key, f, rest, e, f1, f2, f3, _⟩ := wire_of_len hc hl (by omega)
          exact ⟨key, f, rest, e, f1, f2, f3⟩

end Verif.Ws
