import Verif.Utility.Theorems

/-! More lemmas about the utility functions, shared by other areas. -/

namespace Verif.Utility
open Spec

theorem isWs_iff_ows (c : UInt8) : isWs c = true ↔ Ows c := by simp [isWs, Ows]

/-- The trimmed string is determined by the specification. -/
theorem trimWs_eq {t u : Bytes} (h : IsTrim t u) : trimWs t = u := by
  obtain ⟨pre, post, e, hpre, hpost, hh, hl⟩ := h
  subst e
  have d1 : ∀ (p r : Bytes), (∀ c ∈ p, Ows c) → (p ++ r).dropWhile isWs = r.dropWhile isWs := by
    intro p r hp
    induction p with
    | nil => rfl
    | cons c p ih =>
      rw [List.cons_append, List.dropWhile_cons_of_pos ((isWs_iff_ows c).2 (hp c (by simp)))]
      exact ih fun x hx => hp x (by simp [hx])
  have d2 : ∀ r : Bytes, (∀ c, r.head? = some c → ¬ Ows c) → r.dropWhile isWs = r := by
    intro r hr
    cases r with
    | nil => rfl
    | cons c r =>
      rw [List.dropWhile_cons_of_neg]
      rw [isWs_iff_ows]; exact hr c rfl
  unfold trimWs
  rw [List.append_assoc, d1 pre _ hpre]
  by_cases hu : u = []
  · subst hu
    have : (post.dropWhile isWs) = [] := by
      have := d1 post [] hpost
      simpa using this
    simp [this]
  · rw [d2 (u ++ post), List.reverse_append, d1, d2, List.reverse_reverse]
    · intro c hc; apply hl c; simpa using hc
    · intro c hc; exact hpost c (by simpa using hc)
    · intro c hc; apply hh c
      cases u with
      | nil => exact absurd rfl hu
      | cons a u => simpa using hc

theorem trimWs_iff {t u : Bytes} : trimWs t = u ↔ IsTrim t u :=
  ⟨fun h => h ▸ trimWs_spec t, trimWs_eq⟩

theorem trimWs_of_clean {u : Bytes} (hh : ∀ c, u.head? = some c → ¬ Ows c)
    (hl : ∀ c, u.getLast? = some c → ¬ Ows c) : trimWs u = u :=
  trimWs_eq ⟨[], [], by simp, by simp, by simp, hh, hl⟩

theorem trimWs_cons_space {u : Bytes} (hh : ∀ c, u.head? = some c → ¬ Ows c)
    (hl : ∀ c, u.getLast? = some c → ¬ Ows c) : trimWs (32 :: u) = u :=
  trimWs_eq ⟨[32], [], by simp, by simp [Ows], by simp, hh, hl⟩

theorem findChar_app {d : UInt8} {p : Bytes} (h : d ∉ p) (q : Bytes) : findChar d (p ++ d :: q) = some (p, q) := by
  induction p with
  | nil => simp [findChar]
  | cons c p ih =>
    simp at h
    have : (c == d) = false := by simpa using fun e => h.1 e.symm
    rw [List.cons_append, findChar, this, ih h.2]; simp

theorem findChar_none_iff {d : UInt8} {p : Bytes} : findChar d p = none ↔ d ∉ p := by
  induction p with
  | nil => simp [findChar]
  | cons c p ih =>
    rw [findChar]
    by_cases hc : (c == d) = true
    · rw [if_pos hc]; simp at hc; simp [hc]
    · rw [if_neg hc]
      have hcd : ¬ d = c := fun e => hc (by simp [e])
      cases hf : findChar d p with
      | none => simp [hcd, ih.1 hf]
      | some pq =>
        have : d ∈ p := by
          by_cases hm : d ∈ p
          · exact hm
          · rw [ih.2 hm] at hf; simp at hf
        simp [this]

theorem findChar_some_iff {d : UInt8} {s p q : Bytes} : findChar d s = some (p, q) ↔ s = p ++ d :: q ∧ d ∉ p := by
  constructor
  · intro h
    induction s generalizing p with
    | nil => simp [findChar] at h
    | cons c s ih =>
      rw [findChar] at h
      by_cases hc : (c == d) = true
      · rw [if_pos hc] at h
        simp only [Option.some.injEq, Prod.mk.injEq] at h
        obtain ⟨rfl, rfl⟩ := h
        simp at hc; simp [hc]
      · rw [if_neg hc] at h
        cases hf : findChar d s with
        | none => rw [hf] at h; simp at h
        | some pq =>
          obtain ⟨p', q'⟩ := pq
          rw [hf] at h
          simp only [Option.some.injEq, Prod.mk.injEq] at h
          obtain ⟨rfl, rfl⟩ := h
          obtain ⟨e, hn⟩ := ih hf
          refine ⟨by simp [e], ?_⟩
          simp only [List.mem_cons, not_or]
          exact ⟨fun e => hc (by simp [e]), hn⟩
  · rintro ⟨rfl, h⟩; exact findChar_app h q

theorem iequals_refl (a : Bytes) : iequals a a = true := C04_iequals_equivalence.refl a
theorem iequals_comm (a b : Bytes) : iequals a b = iequals b a := by
  have h1 := @C04_iequals_equivalence.symm a b
  have h2 := @C04_iequals_equivalence.symm b a
  cases h : iequals a b <;> cases h' : iequals b a <;> simp_all
theorem iequals_congr {a b : Bytes} (h : iequals a b = true) (c : Bytes) : iequals a c = iequals b c := by
  have t1 : iequals a c = true → iequals b c = true := fun h' =>
    C04_iequals_equivalence.trans (C04_iequals_equivalence.symm h) h'
  have t2 : iequals b c = true → iequals a c = true := fun h' => C04_iequals_equivalence.trans h h'
  cases h1 : iequals a c <;> cases h2 : iequals b c <;> simp_all

end Verif.Utility
