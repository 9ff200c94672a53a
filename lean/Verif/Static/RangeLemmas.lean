import Verif.Static.PathLemmas
import Verif.Utility.Lemmas

/-! Lemmas on byte ranges, decimal numerals and entity tags. -/

namespace Verif.Static
open Verif Verif.Utility

/-! ## Numbers -/

def val (a : Nat) (s : Bytes) : Nat := s.foldl (fun a c => 10 * a + (c.toNat - 48)) a

theorem val_mono (s : Bytes) : ∀ a, a ≤ val a s := by
  induction s with
  | nil => intro a; exact Nat.le_refl _
  | cons c s ih =>
    intro a
    have := ih (10 * a + (c.toNat - 48))
    unfold val at this ⊢
    rw [List.foldl_cons]; omega

theorem parseU64Loop_iff (s : Bytes) : ∀ v r, v ≤ MAXNUM → (parseU64Loop v s = some r ↔
    (∀ c ∈ s, 48 ≤ c.toNat ∧ c.toNat ≤ 57) ∧ r = val v s ∧ r ≤ MAXNUM) := by
  induction s with
  | nil =>
    intro v r hv
    simp only [parseU64Loop, val, List.foldl_nil, Option.some.injEq]
    constructor
    · intro h; subst h; exact ⟨by simp, rfl, hv⟩
    · rintro ⟨-, h, -⟩; exact h.symm
  | cons c s ih =>
    intro v r hv
    rw [parseU64Loop]
    by_cases hd : c.toNat < 48 ∨ c.toNat > 57
    · rw [if_pos hd]
      constructor
      · intro h; cases h
      · rintro ⟨h, -, -⟩
        have := h c (by simp); omega
    · rw [if_neg hd]
      have hval : val v (c :: s) = val (10 * v + (c.toNat - 48)) s := rfl
      by_cases hb : v > (9223372036854775807 - (c.toNat - 48)) / 10
      · rw [if_pos hb]
        constructor
        · intro h; cases h
        · rintro ⟨-, h, h2⟩
          exfalso
          have := val_mono s (10 * v + (c.toNat - 48))
          rw [← hval, ← h] at this
          unfold MAXNUM at h2; omega
      · rw [if_neg hb, ih _ _ (by unfold MAXNUM; omega), hval, Nat.mul_comm v 10]
        constructor
        · rintro ⟨h1, h2, h3⟩
          refine ⟨?_, h2, h3⟩
          intro x hx
          rcases List.mem_cons.1 hx with rfl | hx
          · omega
          · exact h1 x hx
        · rintro ⟨h1, h2, h3⟩
          exact ⟨fun x hx => h1 x (by simp [hx]), h2, h3⟩

theorem parseU64_iff (s : Bytes) (r : Nat) : parseU64 s = some r ↔ Decimal s r ∧ r ≤ MAXNUM := by
  unfold parseU64 Decimal
  cases s with
  | nil => simp
  | cons c s =>
    rw [if_neg (by simp), parseU64Loop_iff _ _ _ (by simp [MAXNUM])]
    unfold val
    simp only [ne_eq, reduceCtorEq, not_false_eq_true, true_and]
    constructor
    · rintro ⟨a, b, c⟩; exact ⟨⟨a, b⟩, c⟩
    · rintro ⟨⟨a, b⟩, c⟩; exact ⟨a, b, c⟩

theorem Decimal.unique {s : Bytes} {a b : Nat} (h : Decimal s a) (h' : Decimal s b) : a = b := by
  rw [h.2.2, h'.2.2]

theorem Decimal.nodash {s : Bytes} {a : Nat} (h : Decimal s a) : c!"-" ∉ s ∧ c!"," ∉ s := by
  constructor <;> intro hm <;> have := (h.2.1 _ hm).1 <;> revert this <;> decide

theorem findChar_append {d : Byte} {p : Bytes} (h : d ∉ p) (q : Bytes) : findChar d (p ++ d :: q) = some (p, q) := by
  induction p with
  | nil => simp [findChar]
  | cons c p ih =>
    simp only [List.mem_cons, not_or] at h
    rw [List.cons_append, findChar, if_neg (by simpa using fun e => h.1 e.symm), ih h.2]

theorem findChar_notmem {d : Byte} {p : Bytes} (h : d ∉ p) : findChar d p = none := by
  induction p with
  | nil => rfl
  | cons c p ih =>
    simp only [List.mem_cons, not_or] at h
    rw [findChar, if_neg (by simpa using fun e => h.1 e.symm), ih h.2]

/-! ## Ranges -/

theorem parseByteRange_sound {v : Bytes} {total a len : Nat} (h : parseByteRange v total = some (a, len)) :
    Selects MAXNUM v total a len := by
  unfold parseByteRange at h
  split at h
  · cases h
  rename_i ht
  split at h
  · cases h
  rename_i hp
  have hp' : b!"bytes=" <+: v := by simpa using hp
  obtain ⟨spec, rfl⟩ := hp'
  simp only at h
  have hd : (b!"bytes=" ++ spec).drop 6 = spec := by
    rw [List.drop_append_of_le_length (by decide)]; rfl
  rw [hd] at h
  split at h
  · cases h
  split at h
  · cases h
  split at h
  · cases h
  rename_i st et hf
  obtain ⟨rfl, _⟩ := findChar_some hf
  split at h
  · split at h
    · rename_i x y hx hy
      rw [parseU64_iff] at hx hy
      split at h
      · cases h
      · cases h
        rename_i hc
        have := Selects.both (max := MAXNUM) st et a y total hx.1 hy.1 hy.2 (by omega) (by omega)
        simpa using this
    · cases h
  · rename_i hne
    split at h
    · rename_i hs
      have he : et = [] := by
        cases st with
        | nil => simp at hs
        | cons _ _ => cases et with
          | nil => rfl
          | cons _ _ => simp at hne
      subst he
      split at h
      · cases h
      · rename_i x hx
        rw [parseU64_iff] at hx
        split at h
        · cases h
        · cases h
          have := Selects.from (max := MAXNUM) st a total hx.1 hx.2 (by omega)
          simpa using this
    · rename_i hs
      have he : st = [] := by
        cases st with
        | nil => rfl
        | cons _ _ => simp at hs
      subst he
      split at h
      · cases h
      · rename_i x hx
        rw [parseU64_iff] at hx
        split at h
        · cases h
        · have hsel := Selects.suffix (max := MAXNUM) et x total hx.1 hx.2 (by omega) (by omega)
          split at h
          · cases h
            rw [Nat.sub_eq_zero_of_le (by omega), Nat.min_eq_right (by omega)] at hsel
            exact hsel
          · cases h
            rw [Nat.min_eq_left (by omega)] at hsel
            exact hsel

theorem parseByteRange_complete {v : Bytes} {total a len : Nat} (h : Selects MAXNUM v total a len) :
    parseByteRange v total = some (a, len) := by
  have key : ∀ spec : Bytes, total ≠ 0 → spec ≠ [] → c!"," ∉ spec → ∀ x y, findChar c!"-" spec = some (x, y) →
      parseByteRange (b!"bytes=" ++ spec) total = 
        if !x.isEmpty && !y.isEmpty then
          match parseU64 x, parseU64 y with
          | some start, some e =>
            if start > e ∨ start ≥ total then none
            else some (start, min e (total - 1) - start + 1)
          | _, _ => none
        else if !x.isEmpty then
          match parseU64 x with
          | none => none
          | some start => if start ≥ total then none else some (start, total - start)
        else
          match parseU64 y with
          | none => none
          | some suffix =>
            if suffix = 0 then none
            else if suffix ≥ total then some (0, total)
            else some (total - suffix, suffix) := by
    intro spec ht hs hc x y hf
    unfold parseByteRange
    have hp : (b!"bytes=").isPrefixOf (b!"bytes=" ++ spec) = true := by
      rw [List.isPrefixOf_iff_prefix]; exact ⟨spec, rfl⟩
    have hd : (b!"bytes=" ++ spec).drop 6 = spec := by
      rw [List.drop_append_of_le_length (by decide)]; rfl
    rw [if_neg ht, hp]
    simp only [hd, Bool.not_true]
    rw [if_neg (by simp), if_neg (by simpa using hs), if_neg hc, hf]
    try rfl
  cases h with
  | both A B a b total hA hB hbm hab hat =>
    have hA0 := hA.1
    have hB0 := hB.1
    have e : b!"bytes=" ++ A ++ b!"-" ++ B = b!"bytes=" ++ (A ++ c!"-" :: B) := by simp
    rw [e, key _ (by omega) (by simp) ?_ A B (findChar_append hA.nodash.1 B)]
    · rw [if_pos (by simp [hA0, hB0]), (parseU64_iff A _).2 ⟨hA, by omega⟩, (parseU64_iff B _).2 ⟨hB, hbm⟩]
      simp only
      rw [if_neg (by omega)]
    · have : ¬ c!"," = c!"-" := by decide
      simp [hA.nodash.2, hB.nodash.2]
  | «from» A a total hA hm hat =>
    have hA0 := hA.1
    have e : b!"bytes=" ++ A ++ b!"-" = b!"bytes=" ++ (A ++ c!"-" :: []) := by simp
    rw [e, key _ (by omega) (by simp) ?_ A [] (findChar_append hA.nodash.1 [])]
    · rw [if_neg (by simp), if_pos (by simp [hA0]), (parseU64_iff A _).2 ⟨hA, hm⟩]
      simp only
      rw [if_neg (by omega)]
    · simp [hA.nodash.2]
  | suffix B n total hB hm hn ht =>
    have hB0 := hB.1
    have e : b!"bytes=-" ++ B = b!"bytes=" ++ ([] ++ c!"-" :: B) := by simp
    rw [e, key _ (by omega) (by simp) ?_ [] B (findChar_append (by simp) B)]
    · rw [if_neg (by simp), if_neg (by simp), (parseU64_iff B _).2 ⟨hB, hm⟩]
      simp only
      rw [if_neg (by omega)]
      split
      · rw [Nat.sub_eq_zero_of_le (by omega), Nat.min_eq_right (by omega)]
      · rw [Nat.min_eq_left (by omega)]
    · simp [hB.nodash.2]

end Verif.Static
