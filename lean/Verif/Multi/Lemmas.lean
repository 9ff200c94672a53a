import Verif.Multi.Spec

/-! # The parser follows the reference reader, however the input is cut -/

namespace Verif.Multi
open Verif.Utility Verif.Wire

theorem tok_eq (c : UInt8) : isNameChar c = tok c := by
  revert c
  apply forall_byte
  decide +kernel

/-! ## Small things -/

theorem getD_lt {l : Bytes} {i : Nat} (h : i < l.length) (d : UInt8) : l.getD i d = l[i] := by simp [h]

theorem drop_getD {l : Bytes} {i : Nat} (h : i < l.length) : l.drop i = l.getD i 0 :: l.drop (i + 1) := by
  rw [getD_lt h, List.drop_eq_getElem_cons h]

theorem slice_succ {buf : Bytes} {k i : Nat} (hk : k ≤ i) (hi : i < buf.length) : slice buf k (i + 1) = slice buf k i ++ [buf.getD i 0] := by
  unfold slice
  rw [List.take_succ_eq_append_getElem hi, List.drop_append_of_le_length (by simp; omega), getD_lt hi]

theorem slice_self (buf : Bytes) (i : Nat) : slice buf i i = [] := by
  unfold slice; simp

theorem slice_add {buf : Bytes} {k i j : Nat} (hk : k ≤ i) (hi : i ≤ j) (hj : j ≤ buf.length) : slice buf k j = slice buf k i ++ slice buf i j := by
  unfold slice
  have e : buf.take j = buf.take i ++ (buf.take j).drop i := by
    conv => lhs; rw [← List.take_append_drop i (buf.take j)]
    rw [List.take_take, Nat.min_eq_left hi]
  conv => lhs; rw [e]
  rw [List.drop_append_of_le_length (by simp; omega)]

theorem octets_append (a b : List Ev) : octets (a ++ b) = octets a ++ octets b := by
  unfold octets; rw [List.flatMap_append]

theorem octets_nil : octets [] = [] := rfl

theorem octets_data (b : Bytes) (f : Bool) : octets (call .data b f) = b.map (fun c => Ev.data [c]) := by
  unfold call
  by_cases h : b.isEmpty && !f
  · rw [if_pos h]
    simp only [Bool.and_eq_true, List.isEmpty_iff] at h
    rw [h.1]; rfl
  · rw [if_neg h]; simp [octets]

theorem octets_field (b : Bytes) (f : Bool) : octets (call .field b f) = b.map (fun c => Ev.field [c]) := by
  unfold call
  by_cases h : b.isEmpty && !f
  · rw [if_pos h]
    simp only [Bool.and_eq_true, List.isEmpty_iff] at h
    rw [h.1]; rfl
  · rw [if_neg h]; simp [octets]

theorem octets_value (b : Bytes) (f : Bool) : octets (call .value b f) = b.map (fun c => Ev.value [c]) := by
  unfold call
  by_cases h : b.isEmpty && !f
  · rw [if_pos h]
    simp only [Bool.and_eq_true, List.isEmpty_iff] at h
    rw [h.1]; rfl
  · rw [if_neg h]; simp [octets]

theorem refRun_append (b : Bytes) (s : St) (t u : Bytes) :
    refRun b s (t ++ u) = ((refRun b s t).1 ++ (refRun b (refRun b s t).2 u).1, (refRun b (refRun b s t).2 u).2) := by
  induction t generalizing s with
  | nil => simp [refRun]
  | cons c t ih => simp only [List.cons_append, refRun, ih, List.append_assoc]

theorem refRun_cons (b : Bytes) (s : St) (c : UInt8) (t : Bytes) :
    refRun b s (c :: t) = ((refStep b s c).1 ++ (refRun b (refStep b s c).2 t).1, (refRun b (refStep b s c).2 t).2) := rfl

theorem refRun_bad (b t : Bytes) : refRun b .bad t = ([], .bad) := by
  induction t with
  | nil => rfl
  | cons c t ih => rw [refRun_cons]; simp [refStep, ih]

theorem refRun_stray (b t : Bytes) : refRun b .stray t = ([], .stray) := by
  induction t with
  | nil => rfl
  | cons c t ih => rw [refRun_cons]; simp [refStep, ih]

theorem refRun_past (b t : Bytes) : refRun b .past t = ([], .past) := by
  induction t with
  | nil => rfl
  | cons c t ih => rw [refRun_cons]; simp [refStep, ih]

/-! ## The delimiter -/

theorem delim_length (b : Bytes) : (delim b).length = b.length + 4 := by simp [delim]

theorem delim_head (b : Bytes) : (delim b).getD 0 0 = 13 := rfl

/-- The delimiter contains CR only at its start. -/
theorem delim_tail {b : Bytes} (hb : Boundary b) {i : Nat} (h0 : 0 < i) (h : i < (delim b).length) : (delim b).getD i 0 ≠ 13 := by
  rw [getD_lt h]
  match i, h with
  | 1, _ => simp [delim]
  | 2, _ => simp [delim]
  | 3, _ => simp [delim]
  | i + 4, h =>
    have hi : i < b.length := by rw [delim_length] at h; omega
    have : (delim b)[i + 4] = b[i] := by simp [delim]
    rw [this]
    intro e
    have := (hb.2.2 b[i] (List.getElem_mem hi)).1
    rw [e] at this
    exact absurd this (by decide)

/-- What the octets held back are, in the data of a part. -/
def Held (b m : Bytes) : Prop := (m.length ≤ (delim b).length ∧ m = (delim b).take m.length) ∨
  ∃ c, m = delim b ++ [c] ∧ (c = 13 ∨ c = c!"-")

theorem Held.nil (b : Bytes) : Held b [] := .inl ⟨by simp, by simp⟩

theorem take_succ_getD {l : Bytes} {i : Nat} (h : i < l.length) : l.take (i + 1) = l.take i ++ [l.getD i 0] := by
  rw [List.take_succ_eq_append_getElem h, getD_lt h]

theorem Held.le {b m : Bytes} (h : Held b m) : m.length ≤ (delim b).length + 1 := by
  rcases h with ⟨h, _⟩ | ⟨c, e, _⟩
  · omega
  · rw [e]; simp

theorem body_nil (b : Bytes) (pb : Bool) (c : UInt8) :
    refStep b (.body [] pb) c = if c = 13 then ([], .body [c] pb) else ([.data [c]], .body [] pb) := by
  have hl : ([] : Bytes).length < (delim b).length := by rw [delim_length]; simp
  unfold refStep bodyStep
  simp only []
  rw [if_pos hl]
  by_cases hc : c = 13
  · rw [if_pos (by rw [hc]; rfl), if_pos hc]; rfl
  · rw [if_neg (fun e => hc e.symm), if_neg hc, if_neg hc]; rfl

theorem body_fit {b m : Bytes} {pb : Bool} {c : UInt8} (hm : m.length < (delim b).length) (hc : (delim b).getD m.length 0 = c) :
    refStep b (.body m pb) c = ([], .body (m ++ [c]) pb) := by
  unfold refStep bodyStep
  simp only []
  rw [if_pos hm, if_pos hc]

/-- Reading from `m` and reading from nothing agree, up to the octets held back, if the octet does not fit. -/
theorem bodyStep_again {b m : Bytes} {pb : Bool} {c : UInt8}
    (h1 : m.length < (delim b).length → (delim b).getD m.length 0 ≠ c)
    (h2 : m.length = (delim b).length → c ≠ 13 ∧ c ≠ c!"-")
    (h3 : (delim b).length < m.length → if pb then c ≠ 10 else c ≠ c!"-") :
    refStep b (.body m pb) c = (m.map (fun x => Ev.data [x]) ++ (refStep b (.body [] pb) c).1, (refStep b (.body [] pb) c).2) := by
  have hl : 0 < (delim b).length := by rw [delim_length]; omega
  rw [body_nil]
  unfold refStep bodyStep
  simp only []
  by_cases a : m.length < (delim b).length
  · rw [if_pos a, if_neg (h1 a)]
    by_cases hc : c = 13 <;> simp [hc]
  · rw [if_neg a]
    by_cases a2 : m.length = (delim b).length
    · rw [if_pos a2, if_neg (h2 a2).1, if_neg (h2 a2).1, if_neg (h2 a2).2, if_neg (h2 a2).1]
    · rw [if_neg a2]
      have a3 := h3 (by omega)
      cases pb with
      | true =>
        rw [if_pos rfl] at a3 ⊢
        rw [if_neg a3]
        by_cases hc : c = 13 <;> simp [hc]
      | false =>
        rw [if_neg (by simp)] at a3 ⊢
        rw [if_neg a3]
        by_cases hc : c = 13 <;> simp [hc]

/-- Any text shorter than or as long as the delimiter, and different from it, read from nothing: what is reported and what is held back
make up the text. -/
theorem body_short {b : Bytes} (hb : Boundary b) (pb : Bool) (t : Bytes) (hl : t.length ≤ (delim b).length) :
    (∃ e m, refRun b (.body [] pb) t = (e.map (fun x => Ev.data [x]), .body m pb) ∧ e ++ m = t ∧ m.length ≤ (delim b).length ∧
      m = (delim b).take m.length) := by
  have hpos : 0 < (delim b).length := by rw [delim_length]; omega
  induction ht : t.length generalizing t with
  | zero =>
    have : t = [] := List.length_eq_zero_iff.mp ht
    subst this
    exact ⟨[], [], rfl, rfl, by simp, by simp⟩
  | succ n ih =>
    obtain ⟨u, c, rfl⟩ : ∃ u c, t = u ++ [c] := by
      rcases List.eq_nil_or_concat t with h | ⟨u, c, h⟩
      · subst h; simp at ht
      · exact ⟨u, c, by simpa using h⟩
    simp only [List.length_append, List.length_cons, List.length_nil] at ht hl
    obtain ⟨e, m, h1, h2, h3, h4⟩ := ih u (by omega) (by omega)
    have hm : m.length < (delim b).length := by
      have : e.length + m.length = u.length := by rw [← h2]; simp
      omega
    rw [refRun_append, h1]
    simp only [refRun, List.append_nil]
    by_cases hc : (delim b).getD m.length 0 = c
    · refine ⟨e, m ++ [c], ?_, by rw [← h2]; simp, by simp; omega, ?_⟩
      · rw [body_fit hm hc]; simp
      · simp only [List.length_append, List.length_cons, List.length_nil]
        rw [take_succ_getD hm, hc, ← h4]
    · rw [bodyStep_again (fun _ => hc) (fun h => by omega) (fun h => by omega)]
      rw [body_nil]
      by_cases hcr : c = 13
      · refine ⟨e ++ m, [c], ?_, (by rw [← h2]), Nat.le_trans (by simp) (Nat.succ_le_of_lt hpos), ?_⟩
        · simp [hcr]
        · rw [hcr]; rfl
      · refine ⟨e ++ m ++ [c], [], ?_, by rw [← h2]; simp, by simp, by simp⟩
        rw [if_neg hcr]; simp

/-- A window whose last octet is not in the delimiter is data. -/
theorem window {b : Bytes} (hb : Boundary b) (pb : Bool) (w : Bytes) (c : UInt8) (hl : (w ++ [c]).length = (delim b).length)
    (hc : (delim b).contains c = false) :
    refRun b (.body [] pb) (w ++ [c]) = ((w ++ [c]).map (fun x => Ev.data [x]), .body [] pb) := by
  obtain ⟨e, m, h1, h2, h3, h4⟩ := body_short hb pb (w ++ [c]) (by omega)
  have hm : m = [] := by
    rcases List.eq_nil_or_concat m with h | ⟨u, d, h⟩
    · exact h
    · exfalso
      rw [List.concat_eq_append] at h
      have hd : c = d := by
        have : (e ++ (u ++ [d])) = w ++ [c] := by rw [← h, h2]
        rw [← List.append_assoc] at this
        have := List.append_inj_right' this (by simp)
        simpa using this.symm
      have : c ∈ delim b := by
        have hmem : d ∈ m := by rw [h]; simp
        rw [h4] at hmem
        rw [hd]
        exact List.mem_of_mem_take hmem
      simp only [List.contains_eq_mem, decide_eq_false_iff_not] at hc
      exact hc this
  subst hm
  rw [h1]
  simp only [List.append_nil] at h2
  rw [h2]

theorem skip_spec {b : Bytes} (hb : Boundary b) (pb : Bool) (buf : Bytes) (f i : Nat) (hi : i ≤ buf.length) :
    i ≤ skip (delim b) buf f i ∧ skip (delim b) buf f i ≤ buf.length ∧
    refRun b (.body [] pb) (buf.drop i) =
      ((slice buf i (skip (delim b) buf f i)).map (fun x => Ev.data [x]) ++ (refRun b (.body [] pb) (buf.drop (skip (delim b) buf f i))).1,
        (refRun b (.body [] pb) (buf.drop (skip (delim b) buf f i))).2) := by
  have hpos : 0 < (delim b).length := by rw [delim_length]; omega
  induction f generalizing i with
  | zero => simp [skip, hi, slice_self]
  | succ f ih =>
    rw [skip]
    by_cases h : i + (delim b).length ≤ buf.length
    · rw [if_pos h]
      by_cases hc : (delim b).contains (buf.getD (i + (delim b).length - 1) 0) = true
      · rw [if_pos hc]; simp [hi, slice_self]
      · rw [if_neg hc]
        obtain ⟨h1, h2, h3⟩ := ih (i + (delim b).length) h
        refine ⟨by omega, h2, ?_⟩
        have hcut : buf.drop i = slice buf i (i + (delim b).length) ++ buf.drop (i + (delim b).length) := by
          unfold slice
          conv => lhs; rw [← List.take_append_drop (i + (delim b).length) buf]
          rw [List.drop_append_of_le_length (by simp; omega)]
        have hw : slice buf i (i + (delim b).length) = slice buf i (i + (delim b).length - 1) ++ [buf.getD (i + (delim b).length - 1) 0] := by
          rw [← slice_succ (by omega) (by omega), Nat.sub_add_cancel (by omega)]
        rw [slice_add (i := i + (delim b).length) (by omega) h1 h2, List.map_append, List.append_assoc]
        rw [hcut, refRun_append]
        have hwin : refRun b (.body [] pb) (slice buf i (i + (delim b).length)) =
            ((slice buf i (i + (delim b).length)).map (fun x => Ev.data [x]), .body [] pb) := by
          rw [hw]
          apply window hb
          · rw [← hw]; simp [slice]; omega
          · simpa using hc
        rw [hwin]
        simp only []
        rw [h3]
    · rw [if_neg h]; simp [hi, slice_self]

end Verif.Multi
