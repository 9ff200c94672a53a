import Verif.Ws.Model
import Verif.Ws.Spec

/-! `is_utf8` is exact. -/

namespace Verif.Ws
open Spec

theorem isCont_iff : ∀ b : UInt8, isCont b = true ↔ (0x80 ≤ b.toNat ∧ b.toNat ≤ 0xBF) :=
  forall_byte (by decide +kernel)

theorem isCont_false (b : UInt8) : isCont b = false ↔ ¬ (0x80 ≤ b.toNat ∧ b.toNat ≤ 0xBF) := by
  rw [← isCont_iff]; simp

theorem u8_le (a : UInt8) (n : Nat) (h : n < 256) : a ≤ UInt8.ofNat n ↔ a.toNat ≤ n := by
  rw [UInt8.le_iff_toNat_le, UInt8.toNat_ofNat_of_lt' h]

theorem le_u8 (a : UInt8) (n : Nat) (h : n < 256) : UInt8.ofNat n ≤ a ↔ n ≤ a.toNat := by
  rw [UInt8.le_iff_toNat_le, UInt8.toNat_ofNat_of_lt' h]

theorem u8_eq_ofNat {a : UInt8} {n : Nat} (h : a.toNat = n) : a = UInt8.ofNat n := by
  rw [← h]; simp

/-- One step of `is_utf8`, in arithmetic form. -/
inductive Step : Bytes → Bytes → Prop
  | one {a t} : a.toNat ≤ 0x7F → Step (a :: t) t
  | two {a b t} : 0xC2 ≤ a.toNat → a.toNat ≤ 0xDF → 0x80 ≤ b.toNat → b.toNat ≤ 0xBF → Step (a :: b :: t) t
  | three {a b c t} : 0xE0 ≤ a.toNat → a.toNat ≤ 0xEF → 0x80 ≤ b.toNat → b.toNat ≤ 0xBF →
      0x80 ≤ c.toNat → c.toNat ≤ 0xBF → (a.toNat = 0xE0 → 0xA0 ≤ b.toNat) →
      (a.toNat = 0xED → b.toNat ≤ 0x9F) → Step (a :: b :: c :: t) t
  | four {a b c d t} : 0xF0 ≤ a.toNat → a.toNat ≤ 0xF4 → 0x80 ≤ b.toNat → b.toNat ≤ 0xBF →
      0x80 ≤ c.toNat → c.toNat ≤ 0xBF → 0x80 ≤ d.toNat → d.toNat ≤ 0xBF →
      (a.toNat = 0xF0 → 0x90 ≤ b.toNat) → (a.toNat = 0xF4 → b.toNat ≤ 0x8F) → Step (a :: b :: c :: d :: t) t

theorem lt_lit (a b : UInt8) : (a < b) = (a.toNat < b.toNat) := by rw [UInt8.lt_iff_toNat_lt]
theorem le_lit (a b : UInt8) : (a ≤ b) = (a.toNat ≤ b.toNat) := by rw [UInt8.le_iff_toNat_le]

theorem beq_lit (a b : UInt8) : (a == b) = decide (a.toNat = b.toNat) := by
  rw [Bool.eq_iff_iff, beq_iff_eq, decide_eq_true_eq, UInt8.toNat_inj]

theorem isUtf8_of_step {s t : Bytes} (h : Step s t) : isUtf8 s = isUtf8 t := by
  cases h with
  | @one a _ h1 => rw [isUtf8.eq_def]; simp [le_lit, h1]
  | @two a b _ h1 h2 h3 h4 =>
    rw [isUtf8.eq_def]
    simp only [le_lit, ge_iff_le, beq_lit]
    have hb := (isCont_iff b).2 ⟨h3, h4⟩
    simp [hb, show ¬ a.toNat ≤ 127 by omega, h1, h2]
  | @three a b c _ h1 h2 h3 h4 h5 h6 h7 h8 =>
    rw [isUtf8.eq_def]
    have hb := (isCont_iff b).2 ⟨h3, h4⟩
    have hc := (isCont_iff c).2 ⟨h5, h6⟩
    simp only [le_lit, lt_lit, ge_iff_le, gt_iff_lt, beq_lit, UInt8.reduceToNat, hb, hc]
    rw [if_neg (show ¬ a.toNat ≤ 127 by omega)]
    rw [if_neg (by simp; omega)]
    by_cases e0 : a.toNat = 0xE0
    · rw [if_pos (by simpa using e0), if_neg]
      have := h7 e0; simp; omega
    rw [if_neg (by simpa using e0)]
    by_cases e1 : a.toNat ≤ 0xEC
    · rw [if_pos (by simp; omega)]; simp
    rw [if_neg (by simp; omega)]
    by_cases e2 : a.toNat = 0xED
    · rw [if_pos (by simpa using e2), if_neg]
      have := h8 e2; simp; omega
    rw [if_neg (by simpa using e2), if_pos (by simp; omega)]; simp
  | @four a b c d _ h1 h2 h3 h4 h5 h6 h7 h8 h9 h10 =>
    rw [isUtf8.eq_def]
    have hb := (isCont_iff b).2 ⟨h3, h4⟩
    have hc := (isCont_iff c).2 ⟨h5, h6⟩
    have hd := (isCont_iff d).2 ⟨h7, h8⟩
    simp only [le_lit, lt_lit, ge_iff_le, gt_iff_lt, beq_lit, UInt8.reduceToNat, hb, hc, hd]
    rw [if_neg (show ¬ a.toNat ≤ 127 by omega)]
    rw [if_neg (by simp; omega), if_neg (by simp; omega), if_neg (by simp; omega), if_neg (by simp; omega),
      if_neg (by simp; omega)]
    by_cases e0 : a.toNat = 0xF0
    · rw [if_pos (by simpa using e0), if_neg]
      have := h9 e0; simp; omega
    rw [if_neg (by simpa using e0)]
    by_cases e1 : a.toNat ≤ 0xF3
    · rw [if_pos (by simp; omega)]; simp
    rw [if_neg (by simp; omega), if_pos (by simp; omega), if_neg]
    have := h10 (by omega); simp; omega

theorem step_of_isUtf8 {s : Bytes} (h : isUtf8 s = true) (hne : s ≠ []) : ∃ t, Step s t ∧ isUtf8 t = true := by
  cases s with
  | nil => exact absurd rfl hne
  | cons a s =>
    rw [isUtf8.eq_def] at h
    simp only [le_lit, lt_lit, ge_iff_le, gt_iff_lt, beq_lit, UInt8.reduceToNat] at h
    by_cases c1 : a.toNat ≤ 127
    · rw [if_pos c1] at h; exact ⟨s, .one c1, h⟩
    rw [if_neg c1] at h
    by_cases c2 : 0xC2 ≤ a.toNat ∧ a.toNat ≤ 0xDF
    · rw [if_pos (by simpa using c2)] at h
      match s, h with
      | b :: t, h =>
        simp only [] at h
        by_cases hb : isCont b = true
        · simp [hb] at h; have := (isCont_iff b).1 hb
          exact ⟨t, .two c2.1 c2.2 this.1 this.2, h⟩
        · simp [hb] at h
    rw [if_neg (by simpa using c2)] at h
    by_cases c3 : a.toNat = 0xE0
    · rw [if_pos (by simpa using c3)] at h
      match s, h with
      | b :: c :: t, h =>
        simp only [] at h
        split at h
        · exact absurd h (by simp)
        · rename_i hc
          simp [isCont_iff] at hc
          exact ⟨t, .three (by omega) (by omega) (by omega) (by omega) (by omega) (by omega) (by omega) (by omega), h⟩
    rw [if_neg (by simpa using c3)] at h
    by_cases c4 : 0xE1 ≤ a.toNat ∧ a.toNat ≤ 0xEC
    · rw [if_pos (by simpa using c4)] at h
      match s, h with
      | b :: c :: t, h =>
        simp only [] at h
        split at h
        · exact absurd h (by simp)
        · rename_i hc
          simp [isCont_iff] at hc
          exact ⟨t, .three (by omega) (by omega) (by omega) (by omega) (by omega) (by omega) (by omega) (by omega), h⟩
    rw [if_neg (by simpa using c4)] at h
    by_cases c5 : a.toNat = 0xED
    · rw [if_pos (by simpa using c5)] at h
      match s, h with
      | b :: c :: t, h =>
        simp only [] at h
        split at h
        · exact absurd h (by simp)
        · rename_i hc
          simp [isCont_iff] at hc
          exact ⟨t, .three (by omega) (by omega) (by omega) (by omega) (by omega) (by omega) (by omega) (by omega), h⟩
    rw [if_neg (by simpa using c5)] at h
    by_cases c6 : 0xEE ≤ a.toNat ∧ a.toNat ≤ 0xEF
    · rw [if_pos (by simpa using c6)] at h
      match s, h with
      | b :: c :: t, h =>
        simp only [] at h
        split at h
        · exact absurd h (by simp)
        · rename_i hc
          simp [isCont_iff] at hc
          exact ⟨t, .three (by omega) (by omega) (by omega) (by omega) (by omega) (by omega) (by omega) (by omega), h⟩
    rw [if_neg (by simpa using c6)] at h
    by_cases c7 : a.toNat = 0xF0
    · rw [if_pos (by simpa using c7)] at h
      match s, h with
      | b :: c :: d :: t, h =>
        simp only [] at h
        split at h
        · exact absurd h (by simp)
        · rename_i hc
          simp [isCont_iff] at hc
          exact ⟨t, .four (by omega) (by omega) (by omega) (by omega) (by omega) (by omega) (by omega) (by omega) (by omega) (by omega), h⟩
    rw [if_neg (by simpa using c7)] at h
    by_cases c8 : 0xF1 ≤ a.toNat ∧ a.toNat ≤ 0xF3
    · rw [if_pos (by simpa using c8)] at h
      match s, h with
      | b :: c :: d :: t, h =>
        simp only [] at h
        split at h
        · exact absurd h (by simp)
        · rename_i hc
          simp [isCont_iff] at hc
          exact ⟨t, .four (by omega) (by omega) (by omega) (by omega) (by omega) (by omega) (by omega) (by omega) (by omega) (by omega), h⟩
    rw [if_neg (by simpa using c8)] at h
    by_cases c9 : a.toNat = 0xF4
    · rw [if_pos (by simpa using c9)] at h
      match s, h with
      | b :: c :: d :: t, h =>
        simp only [] at h
        split at h
        · exact absurd h (by simp)
        · rename_i hc
          simp [isCont_iff] at hc
          exact ⟨t, .four (by omega) (by omega) (by omega) (by omega) (by omega) (by omega) (by omega) (by omega) (by omega) (by omega), h⟩
    rw [if_neg (by simpa using c9)] at h
    exact absurd h (by simp)

theorem ofNat_toNat_lt {n : Nat} (h : n < 256) : (UInt8.ofNat n).toNat = n := UInt8.toNat_ofNat_of_lt' h

theorem step_of_enc {n : Nat} (h : Scalar n) (t : Bytes) : Step (utf8Enc n ++ t) t := by
  obtain ⟨h1, h2⟩ := h
  unfold utf8Enc
  by_cases c1 : n ≤ 0x7F
  · rw [if_pos c1]; exact .one (by rw [ofNat_toNat_lt (by omega)]; exact c1)
  rw [if_neg c1]
  by_cases c2 : n ≤ 0x7FF
  · rw [if_pos c2]
    have e1 := ofNat_toNat_lt (n := 0xC0 + n / 64) (by omega)
    have e2 := ofNat_toNat_lt (n := 0x80 + n % 64) (by omega)
    exact .two (by omega) (by omega) (by omega) (by omega)
  rw [if_neg c2]
  by_cases c3 : n ≤ 0xFFFF
  · rw [if_pos c3]
    have e1 := ofNat_toNat_lt (n := 0xE0 + n / 4096) (by omega)
    have e2 := ofNat_toNat_lt (n := 0x80 + n / 64 % 64) (by omega)
    have e3 := ofNat_toNat_lt (n := 0x80 + n % 64) (by omega)
    exact .three (by omega) (by omega) (by omega) (by omega) (by omega) (by omega) (by omega) (by omega)
  rw [if_neg c3]
  have e1 := ofNat_toNat_lt (n := 0xF0 + n / 262144) (by omega)
  have e2 := ofNat_toNat_lt (n := 0x80 + n / 4096 % 64) (by omega)
  have e3 := ofNat_toNat_lt (n := 0x80 + n / 64 % 64) (by omega)
  have e4 := ofNat_toNat_lt (n := 0x80 + n % 64) (by omega)
  exact .four (by omega) (by omega) (by omega) (by omega) (by omega) (by omega) (by omega) (by omega)
    (by omega) (by omega)

theorem enc_of_step {s t : Bytes} (h : Step s t) : ∃ n, Scalar n ∧ s = utf8Enc n ++ t := by
  cases h with
  | @one a _ h1 =>
    refine ⟨a.toNat, ⟨by omega, by omega⟩, ?_⟩
    unfold utf8Enc; rw [if_pos h1]; simp
  | @two a b _ h1 h2 h3 h4 =>
    refine ⟨(a.toNat - 0xC0) * 64 + (b.toNat - 0x80), ⟨by omega, by omega⟩, ?_⟩
    unfold utf8Enc
    rw [if_neg (by omega), if_pos (by omega)]
    rw [← u8_eq_ofNat (a := a) (by omega), ← u8_eq_ofNat (a := b) (by omega)]; rfl
  | @three a b c _ h1 h2 h3 h4 h5 h6 h7 h8 =>
    refine ⟨(a.toNat - 0xE0) * 4096 + (b.toNat - 0x80) * 64 + (c.toNat - 0x80), ⟨by omega, by omega⟩, ?_⟩
    unfold utf8Enc
    rw [if_neg (by omega), if_neg (by omega), if_pos (by omega)]
    rw [← u8_eq_ofNat (a := a) (by omega), ← u8_eq_ofNat (a := b) (by omega), ← u8_eq_ofNat (a := c) (by omega)]
    rfl
  | @four a b c d _ h1 h2 h3 h4 h5 h6 h7 h8 h9 h10 =>
    refine ⟨(a.toNat - 0xF0) * 262144 + (b.toNat - 0x80) * 4096 + (c.toNat - 0x80) * 64 + (d.toNat - 0x80),
      ⟨by omega, by omega⟩, ?_⟩
    unfold utf8Enc
    rw [if_neg (by omega), if_neg (by omega), if_neg (by omega)]
    rw [← u8_eq_ofNat (a := a) (by omega), ← u8_eq_ofNat (a := b) (by omega), ← u8_eq_ofNat (a := c) (by omega),
      ← u8_eq_ofNat (a := d) (by omega)]
    rfl

theorem step_length {s t : Bytes} (h : Step s t) : t.length < s.length := by
  cases h <;> simp <;> omega

theorem isUtf8_iff (s : Bytes) : isUtf8 s = true ↔ Utf8 s := by
  constructor
  · induction hl : s.length using Nat.strongRecOn generalizing s with
    | _ n ih =>
      intro h
      by_cases he : s = []
      · subst he; exact ⟨[], by simp, rfl⟩
      · obtain ⟨t, hs, ht⟩ := step_of_isUtf8 h he
        obtain ⟨ns, hn, e⟩ := ih t.length (hl ▸ step_length hs) t rfl ht
        obtain ⟨m, hm, e'⟩ := enc_of_step hs
        exact ⟨m :: ns, by simpa [hm] using hn, by rw [e', e]; rfl⟩
  · rintro ⟨ns, hn, rfl⟩
    induction ns with
    | nil => rfl
    | cons m ns ih =>
      rw [List.flatMap_cons, isUtf8_of_step (step_of_enc (hn m (by simp)) _)]
      exact ih fun x hx => hn x (by simp [hx])

theorem isUtf8_ascii {s : Bytes} (h : ∀ c ∈ s, c.toNat ≤ 127) : isUtf8 s = true := by
  induction s with
  | nil => rfl
  | cons a s ih =>
    rw [isUtf8_of_step (.one (h a (by simp)))]
    exact ih fun c hc => h c (by simp [hc])

end Verif.Ws
