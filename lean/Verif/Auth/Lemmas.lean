import Verif.Auth.Spec
import Verif.Utility.Theorems

namespace Verif.Auth
open Verif.Utility

theorem low_eq (c : UInt8) : asciiToLower c = low c := by
  have h := C04_lower_exact c
  apply UInt8.toNat_inj.mp
  rw [h]
  unfold low
  split
  · rename_i k
    rw [UInt8.toNat_ofNat']
    omega
  · rfl

theorem iequals_low (a b : Bytes) : iequals a b = true ↔ a.map low = b.map low := by
  rw [C04_iequals_lower]
  have : asciiToLower = low := funext low_eq
  rw [this]

theorem split_ws (p : UInt8 → Bool) (s : Bytes) : ∃ a, s = a ++ s.dropWhile p ∧ All p a := by
  refine ⟨s.takeWhile p, (List.takeWhile_append_dropWhile).symm, ?_⟩
  intro c hc
  induction s with
  | nil => cases hc
  | cons d s ih =>
    rw [List.takeWhile_cons] at hc
    split at hc
    · rename_i hd
      rcases List.mem_cons.mp hc with e | e
      · subst e; exact hd
      · exact ih e
    · cases hc

theorem head_dropWhile (p : UInt8 → Bool) (s : Bytes) (h : s.dropWhile p ≠ []) : ∃ c, (s.dropWhile p).head? = some c ∧ p c = false := by
  induction s with
  | nil => exact absurd rfl h
  | cons d s ih =>
    rw [List.dropWhile_cons] at h ⊢
    split
    · rename_i hd; rw [if_pos hd] at h; exact ih h
    · rename_i hd; exact ⟨d, rfl, by simpa using hd⟩

theorem dropWhile_app (p : UInt8 → Bool) (a t : Bytes) (ha : All p a) (ht : ∀ c, t.head? = some c → p c = false) : (a ++ t).dropWhile p = t := by
  induction a with
  | nil =>
    cases t with
    | nil => rfl
    | cons d t => simp [List.dropWhile_cons, ht d rfl]
  | cons d a ih =>
    rw [List.cons_append, List.dropWhile_cons, if_pos (ha d (by simp))]
    exact ih (fun c hc => ha c (by simp [hc]))

theorem dropEnd_app (p : UInt8 → Bool) (t z : Bytes) (hz : All p z) (ht : ∀ c, t.getLast? = some c → p c = false) : dropEnd p (t ++ z) = t := by
  unfold dropEnd
  rw [List.reverse_append, dropWhile_app]
  · simp
  · intro c hc; exact hz c (by simpa using hc)
  · intro c hc; rw [List.head?_reverse] at hc; exact ht c hc

theorem dropEnd_split (p : UInt8 → Bool) (s : Bytes) : ∃ z, s = dropEnd p s ++ z ∧ All p z := by
  obtain ⟨a, e, ha⟩ := split_ws p s.reverse
  refine ⟨a.reverse, ?_, fun c hc => ha c (by simpa using hc)⟩
  unfold dropEnd
  have := congrArg List.reverse e
  rw [List.reverse_reverse, List.reverse_append] at this
  exact this

theorem dropEnd_last (p : UInt8 → Bool) (s : Bytes) (h : dropEnd p s ≠ []) : ∃ c, (dropEnd p s).getLast? = some c ∧ p c = false := by
  unfold dropEnd at h ⊢
  rw [List.getLast?_reverse]
  exact head_dropWhile p s.reverse (by intro e; rw [e] at h; exact h rfl)

/-- Something that is not a blank at the start survives. -/
theorem dropEnd_ne (p : UInt8 → Bool) (s : Bytes) {c : UInt8} (hm : c ∈ s) (hc : p c = false) : dropEnd p s ≠ [] := by
  intro e
  obtain ⟨z, hz, az⟩ := dropEnd_split p s
  rw [e] at hz
  simp at hz
  rw [hz] at hm
  rw [az c hm] at hc; cases hc

theorem dropEnd_head (p : UInt8 → Bool) (s : Bytes) (h : dropEnd p s ≠ []) : (dropEnd p s).head? = s.head? := by
  obtain ⟨z, hz, _⟩ := dropEnd_split p s
  cases hd : dropEnd p s with
  | nil => exact absurd hd h
  | cons c t => rw [hd] at hz; rw [hz]; rfl

end Verif.Auth
