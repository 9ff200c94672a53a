import Verif.Hpack.StaticTable

namespace Verif.Hpack

/-- position (from 1) of the first entry with a given name -/
def firstName (name : Bytes) : Option Nat := (staticTable.findIdx? (fun e => e.1 == name)).map (· + 1)

theorem index_sound : ∀ e ∈ nameIndex, e.2 = 0 ∨ firstName (staticName e.2) = some e.2 := by decide +kernel

theorem index_complete : ∀ e ∈ staticTable, (findName e.1).isSome = true := by decide +kernel

theorem probeFind_sound (h : UInt32) (name : Bytes) (f : Nat) : ∀ slot i, probeFind h name f slot = some i →
    staticName i = name ∧ i ≠ 0 ∧ firstName name = some i := by
  induction f with
  | zero => intro slot i h; cases h
  | succ f ih =>
    intro slot i hp
    rw [probeFind] at hp
    split at hp
    · cases hp
    · rename_i hne
      split at hp
      · rename_i hc
        simp only [Option.some.injEq] at hp; subst hp
        refine ⟨hc.2, hne, ?_⟩
        by_cases hs : slot < nameIndex.length
        · have hm : nameIndex.getD slot (0, 0) ∈ nameIndex := by
            simp [List.getD, List.getElem?_eq_getElem hs]
          rcases index_sound _ hm with h0 | h1
          · exact absurd h0 hne
          · rwa [hc.2] at h1
        · exfalso; apply hne
          simp [List.getD, List.getElem?_eq_none (Nat.le_of_not_lt hs)]
      · exact ih _ _ hp

/-- the hash index is exact: it finds the first entry with the name, for every name -/
theorem findName_eq (name : Bytes) : findName name = firstName name := by
  cases h : findName name with
  | some i => exact (probeFind_sound _ _ _ _ _ h).2.2.symm
  | none =>
    symm
    unfold firstName
    rw [Option.map_eq_none_iff, List.findIdx?_eq_none_iff]
    intro e he
    have := index_complete e he
    simp only [beq_eq_false_iff_ne, ne_eq]
    intro heq
    rw [heq, h] at this; cases this

theorem scanExact_sound (name value : Bytes) (l : List (Bytes × Bytes)) : ∀ i j, scanExact name value i l = some j →
    i < j ∧ l[j - 1 - i]? = some (name, value) := by
  induction l with
  | nil => intro i j h; cases h
  | cons e l ih =>
    intro i j h
    rw [scanExact] at h
    split at h
    · cases h
    · rename_i h1
      split at h
      · rename_i h2
        simp only [Option.some.injEq] at h; subst h
        refine ⟨by omega, ?_⟩
        simp only [Nat.add_sub_cancel, Nat.sub_self, List.getElem?_cons_zero, Option.some.injEq]
        exact Prod.ext (Decidable.of_not_not h1) h2
      · obtain ⟨h3, h4⟩ := ih _ _ h
        refine ⟨by omega, ?_⟩
        have : j - 1 - i = (j - 1 - (i + 1)) + 1 := by omega
        rw [this]; simpa using h4

theorem firstName_some {name : Bytes} {i : Nat} (h : firstName name = some i) :
    1 ≤ i ∧ i ≤ 61 ∧ ∃ v, staticTable[i - 1]? = some (name, v) := by
  unfold firstName at h
  rw [Option.map_eq_some_iff] at h
  obtain ⟨j, hj, rfl⟩ := h
  rw [List.findIdx?_eq_some_iff_getElem] at hj
  obtain ⟨hlt, heq, -⟩ := hj
  have hlen : staticTable.length = 61 := by decide +kernel
  refine ⟨by omega, by omega, ?_⟩
  simp only [Nat.add_sub_cancel]
  refine ⟨(staticTable[j]).2, ?_⟩
  rw [List.getElem?_eq_getElem hlt]
  simp only [beq_iff_eq] at heq
  rw [← heq]

theorem findExact_sound {name value : Bytes} {i : Nat} (h : findExact name value = some i) :
    1 ≤ i ∧ i ≤ 61 ∧ staticTable[i - 1]? = some (name, value) := by
  unfold findExact at h
  split at h
  · cases h
  · rename_i first hf
    rw [findName_eq] at hf
    obtain ⟨h1, h2, -⟩ := firstName_some hf
    obtain ⟨h3, h4⟩ := scanExact_sound _ _ _ _ _ h
    rw [List.getElem?_drop] at h4
    have he : first - 1 + (i - 1 - (first - 1)) = i - 1 := by omega
    rw [he] at h4
    have hlt := (List.getElem?_eq_some_iff.mp h4).1
    have hlen : staticTable.length = 61 := by decide +kernel
    exact ⟨by omega, by omega, h4⟩

theorem exact_complete : ∀ e ∈ staticTable, (findExact e.1 e.2).isSome = true := by decide +kernel

end Verif.Hpack
