import Verif.H3.LemmasIn
import Verif.Wire.TheoremsAccept

namespace Verif.H3
open Verif.Utility Verif.Wire Verif.Parse Verif.Mid
open Verif.Utility.Spec Verif.Wire.Spec Verif.H3.Spec
open scoped Classical

theorem addValues_iff (lower : Bytes) (vs : List Bytes) (n : Nat) (block : List Field) (x : Nat × List Field) (hn : n ≤ 100) : addValues lower vs n block = some x ↔
    ((∀ v ∈ vs, Regular (lower, v)) ∧ n + vs.length ≤ 100) ∧ x = (n + vs.length, block ++ vs.map (lower, ·)) := by
  induction vs generalizing n block with
  | nil => simp [addValues, hn, eq_comm]
  | cons v vs ih =>
    rw [addValues]
    by_cases hc : (n + 1 > maxFields || !validField (lower, v)) = true
    · rw [if_pos hc]
      refine ⟨fun h => (by cases h), ?_⟩
      rintro ⟨⟨h1, h2⟩, -⟩
      rw [(validField_iff _).2 (h1 v List.mem_cons_self)] at hc
      simp only [List.length_cons, maxFields, gt_iff_lt, Bool.not_true, Bool.or_false, decide_eq_true_eq] at hc h2
      omega
    · rw [if_neg hc]
      simp only [Bool.or_eq_true, decide_eq_true_eq, maxFields, gt_iff_lt, Bool.not_eq_true', not_or, Bool.not_eq_false] at hc
      rw [ih (n + 1) _ (by omega)]
      have hv := (validField_iff _).1 hc.2
      simp only [List.mem_cons, forall_eq_or_imp, hv, true_and, List.length_cons, List.map_cons, List.append_assoc, List.singleton_append]
      rw [show n + 1 + vs.length = n + (vs.length + 1) by omega]

/-- Whether a header is left to the section of fields. -/
def keeps (trailers : List Bytes) (e : Bytes × List Bytes) : Bool :=
  !(lowerName e.1 == b!"host") && !(lowerName e.1 != b!"trailer" && trailers.contains (lowerName e.1))

/-- The fields made of headers. -/
def lowerFlat (h : Headers) : List Field := h.flatMap fun e => e.2.map (lowerName e.1, ·)

theorem flat_cons (a : Bytes) (vs : List Bytes) (fs : List Field) : (∀ f ∈ vs.map (a, ·) ++ fs, Regular f) ↔
    (∀ v ∈ vs, Regular (a, v)) ∧ ∀ f ∈ fs, Regular f := by
  simp only [List.mem_append, List.mem_map]
  constructor
  · exact fun h => ⟨fun v hv => h _ (.inl ⟨v, hv, rfl⟩), fun f hf => h f (.inr hf)⟩
  · rintro ⟨h1, h2⟩ f (⟨v, hv, rfl⟩ | hf)
    · exact h1 v hv
    · exact h2 f hf

theorem addRegular_iff (trailers : List Bytes) (h : Headers) (n : Nat) (block : List Field) (x : Nat × List Field) (hn : n ≤ 100) :
    addRegular trailers h n block = some x ↔
    ((∀ e ∈ h, e.1 ≠ [] ∧ ¬ Pseudo e.1 ∧ ¬ ConnectionField e.1) ∧ (∀ f ∈ lowerFlat (h.filter (keeps trailers)), Regular f) ∧
      n + (lowerFlat (h.filter (keeps trailers))).length ≤ 100) ∧
    x = (n + (lowerFlat (h.filter (keeps trailers))).length, block ++ lowerFlat (h.filter (keeps trailers))) := by
  induction h generalizing n block with
  | nil => simp [addRegular, lowerFlat, hn, eq_comm]
  | cons e h ih =>
    obtain ⟨name, vs⟩ := e
    have hlow : (lowerName name).isEmpty = name.isEmpty := by simp [lowerName]
    have hhead : ((lowerName name).head? == some c!":") = true ↔ Pseudo name := by
      rw [lowerName_eq, beq_iff_eq]; exact lower_head name
    have hforb : isForbidden (lowerName name) = true ↔ ConnectionField name := by
      rw [← isForbidden_iff, isForbidden, isForbidden]
      have : lowerName (lowerName name) = lowerName name := by rw [lowerName_eq, lowerName_eq, lower_idem]
      rw [this]
    rw [addRegular]
    by_cases hbad : ((lowerName name).isEmpty || (lowerName name).head? == some c!":" || isForbidden (lowerName name)) = true
    · rw [if_pos hbad]
      refine ⟨fun h => (by cases h), ?_⟩
      rintro ⟨⟨h1, -⟩, -⟩
      obtain ⟨g1, g2, g3⟩ := h1 _ List.mem_cons_self
      simp only [Bool.or_eq_true, hlow, hhead, hforb, g2, g3, or_false, List.isEmpty_iff] at hbad
      exact absurd hbad g1
    · rw [if_neg hbad]
      have hgood : name ≠ [] ∧ ¬ Pseudo name ∧ ¬ ConnectionField name := by
        simp only [Bool.or_eq_true, hlow, hhead, hforb, not_or, List.isEmpty_iff] at hbad
        exact ⟨hbad.1.1, hbad.1.2, hbad.2⟩
      have hall : (∀ e ∈ (name, vs) :: h, e.1 ≠ [] ∧ ¬ Pseudo e.1 ∧ ¬ ConnectionField e.1) ↔ ∀ e ∈ h, e.1 ≠ [] ∧ ¬ Pseudo e.1 ∧ ¬ ConnectionField e.1 := by
        rw [List.forall_mem_cons]
        exact ⟨fun h => h.2, fun h => ⟨hgood, h⟩⟩
      rw [hall]
      by_cases hk : keeps trailers (name, vs) = true
      · have hk' := hk
        unfold keeps at hk'
        simp only [Bool.and_eq_true, Bool.not_eq_true'] at hk'
        rw [if_neg (by rw [hk'.1]; simp), if_neg (by rw [hk'.2]; simp)]
        have hfl : lowerFlat (List.filter (keeps trailers) ((name, vs) :: h)) = vs.map (lowerName name, ·) ++ lowerFlat (h.filter (keeps trailers)) := by
          rw [List.filter_cons_of_pos hk]; rfl
        rw [hfl, flat_cons]
        have hadd := addValues_iff (lowerName name) vs n block
        cases hx : addValues (lowerName name) vs n block with
        | none =>
          refine ⟨fun h => (by cases h), ?_⟩
          rintro ⟨⟨-, h2, h3⟩, -⟩
          simp only [List.length_append, List.length_map] at h3
          rw [(hadd _ hn).2 ⟨⟨h2.1, by omega⟩, rfl⟩] at hx
          cases hx
        | some y =>
          obtain ⟨h1, rfl⟩ := (hadd y hn).1 hx
          simp only
          rw [ih _ _ h1.2, iff_true_intro h1.1]
          simp only [List.length_append, List.length_map, List.append_assoc, Nat.add_assoc, implies_true, true_and]
      · have hfl : List.filter (keeps trailers) ((name, vs) :: h) = h.filter (keeps trailers) := List.filter_cons_of_neg hk
        rw [hfl, ← ih n block hn]
        by_cases h1 : (lowerName name == b!"host") = true
        · rw [if_pos h1]
        · rw [if_neg h1, if_pos]
          unfold keeps at hk
          simp only [Bool.not_eq_true] at h1
          simp only [h1, Bool.not_false, Bool.true_and, Bool.not_eq_true', Bool.not_eq_false] at hk
          exact hk

/-- Whether a header is sent as a trailer. -/
def trails (trailers : List Bytes) (e : Bytes × List Bytes) : Bool := trailers.contains (lowerName e.1)

theorem trailerLoop_iff (trailers : List Bytes) (h : Headers) (n : Nat) (block x : List Field) (hn : n ≤ 100) : trailerLoop trailers h n block = some x ↔
    ((∀ e ∈ h, trails trailers e = true → isForbiddenTrailer e.1 = false) ∧
      (∀ f ∈ lowerFlat (h.filter (trails trailers)), Regular f) ∧ n + (lowerFlat (h.filter (trails trailers))).length ≤ 100) ∧
    x = block ++ lowerFlat (h.filter (trails trailers)) := by
  induction h generalizing n block with
  | nil => rw [trailerLoop]; exact ⟨fun h => (by cases h; simp [lowerFlat, hn]), fun h => (by rw [h.2]; simp [lowerFlat])⟩
  | cons e h ih =>
    obtain ⟨name, vs⟩ := e
    have hforb : isForbiddenTrailer (lowerName name) = isForbiddenTrailer name := by
      have : lowerName (lowerName name) = lowerName name := by rw [lowerName_eq, lowerName_eq, lower_idem]
      rw [isForbiddenTrailer, isForbiddenTrailer, this]
    rw [trailerLoop, List.forall_mem_cons]
    by_cases hc : trails trailers (name, vs) = true
    · have hc' : trailers.contains (lowerName name) = true := hc
      rw [if_neg (by rw [hc']; simp), hforb]
      have hfl : lowerFlat (List.filter (trails trailers) ((name, vs) :: h)) = vs.map (lowerName name, ·) ++ lowerFlat (h.filter (trails trailers)) := by
        rw [List.filter_cons_of_pos hc]; rfl
      rw [hfl, flat_cons]
      by_cases hb : isForbiddenTrailer name = true
      · rw [if_pos hb]
        refine ⟨fun h => (by cases h), ?_⟩
        rintro ⟨⟨⟨h1, -⟩, -⟩, -⟩
        have := h1 hc
        simp only [hb] at this
        cases this
      · rw [if_neg hb]
        simp only [Bool.not_eq_true] at hb
        have hadd := addValues_iff (lowerName name) vs n block
        cases hx : addValues (lowerName name) vs n block with
        | none =>
          refine ⟨fun h => (by cases h), ?_⟩
          rintro ⟨⟨-, h2, h3⟩, -⟩
          simp only [List.length_append, List.length_map] at h3
          rw [(hadd _ hn).2 ⟨⟨h2.1, by omega⟩, rfl⟩] at hx
          cases hx
        | some y =>
          obtain ⟨h1, rfl⟩ := (hadd y hn).1 hx
          simp only
          rw [ih _ _ h1.2, iff_true_intro h1.1]
          simp only [hb, List.length_append, List.length_map, List.append_assoc, Nat.add_assoc, implies_true, true_and]
    · have hc' : ¬ (trailers.contains (lowerName name) = true) := hc
      rw [if_pos (by simpa using hc'), ih n block hn, List.filter_cons_of_neg hc]
      simp only [hc, Bool.false_eq_true, false_implies, true_and]

/-- `Trailer` names a header. -/
theorem announced_iff (h : Headers) (n : Bytes) : n.map lower ∈ announced h ↔ Announced ((find h b!"trailer").getD []) n := by
  unfold announced Announced
  have hel : ∀ v, Elements v (splitAndTrim v c!",") := by
    intro v
    obtain ⟨fields, trimmed, h1, -, h2, h3, h4⟩ := C05_split_trim_exact v c!","
    refine ⟨fields, trimmed, h1, ?_, h4⟩
    clear h1 h4
    induction fields generalizing trimmed with
    | nil => cases trimmed with
      | nil => exact .nil
      | cons => simp at h2
    | cons f fields ih => cases trimmed with
      | nil => simp at h2
      | cons t trimmed =>
        refine .cons (h3 0 f t rfl rfl) (ih trimmed (by simpa using h2) fun i f' t' a b => h3 (i + 1) f' t' (by simpa using a) (by simpa using b))
  have huniq : ∀ v ts, Elements v ts → ts = splitAndTrim v c!"," := by
    intro v ts ht
    exact elements_unique ht (hel v)
  cases find h b!"trailer" with
  | none => simp
  | some vs =>
    simp only [Option.getD_some, List.mem_flatMap, List.mem_map, lowerName_eq]
    constructor
    · rintro ⟨v, hv, t, ht, e⟩
      exact ⟨v, hv, _, hel v, t, ht, e⟩
    · rintro ⟨v, hv, ts, hts, t, ht, e⟩
      exact ⟨v, hv, t, huniq v ts hts ▸ ht, e⟩

/-- The values of a header map with distinct names are found. -/
theorem values_lowerFlat (h : Headers) (hd : Distinct h) (p : Bytes × List Bytes → Bool) (q : Bool) (n : Bytes)
    (hp : ∀ e : Bytes × List Bytes, SameName e.1 n → p e = q) :
    values (lowerFlat (h.filter p)) n = if q then (find h n).getD [] else [] := by
  have hval : ∀ (a : Bytes) (vs : List Bytes), values (vs.map (lowerName a, ·)) n = if SameName a n then vs else [] := by
    intro a vs
    unfold values
    by_cases hs : SameName a n
    · rw [if_pos hs, List.filter_eq_self.2]
      · simp [List.map_map, Function.comp_def]
      · intro f hf
        obtain ⟨v, -, rfl⟩ := List.mem_map.1 hf
        simp only [lowerName_eq, lower_idem, decide_eq_true_eq]
        exact hs
    · rw [if_neg hs, List.filter_eq_nil_iff.2]
      · rfl
      · intro f hf
        obtain ⟨v, -, rfl⟩ := List.mem_map.1 hf
        simp only [lowerName_eq, lower_idem, decide_eq_true_eq]
        exact hs
  have happ : ∀ a b, values (a ++ b) n = values a n ++ values b n := by intro a b; simp [values]
  have hnone : ∀ h : Headers, (∀ e ∈ h, ¬ SameName e.1 n) → values (lowerFlat (h.filter p)) n = [] := by
    intro h
    induction h with
    | nil => intro _; rfl
    | cons e h ih =>
      intro hs
      have ih := ih fun e he => hs e (List.mem_cons_of_mem _ he)
      by_cases hpe : p e = true
      · rw [List.filter_cons_of_pos hpe]
        show values (e.2.map (lowerName e.1, ·) ++ lowerFlat _) n = _
        rw [happ, hval, if_neg (hs e List.mem_cons_self), ih]; rfl
      · rw [List.filter_cons_of_neg hpe, ih]
  induction h with
  | nil => cases q <;> rfl
  | cons e h ih =>
    unfold Distinct at hd
    rw [List.pairwise_cons] at hd
    have hi : iequals e.1 n = true ↔ SameName e.1 n := C04_iequals_exact e.1 n
    by_cases hs : SameName e.1 n
    · have hr : ∀ e' ∈ h, ¬ SameName e'.1 n := fun e' he' hs' => hd.1 e' he' (hs.trans hs'.symm)
      have hf : find (e :: h) n = some e.2 := by unfold find; rw [List.find?_cons_of_pos (by simpa using hi.2 hs)]; rfl
      rw [hf]
      cases q with
      | true =>
        rw [List.filter_cons_of_pos (hp e hs)]
        show values (e.2.map (lowerName e.1, ·) ++ lowerFlat _) n = _
        rw [happ, hval, if_pos hs, hnone h hr]; simp
      | false => rw [List.filter_cons_of_neg (by rw [hp e hs]; simp), hnone h hr]; rfl
    · have hf : find (e :: h) n = find h n := by
        unfold find; rw [List.find?_cons_of_neg (by simpa using fun hh => hs (hi.1 hh))]
      rw [hf, ← ih hd.2]
      by_cases hpe : p e = true
      · rw [List.filter_cons_of_pos hpe]
        show values (e.2.map (lowerName e.1, ·) ++ lowerFlat _) n = _
        rw [happ, hval, if_neg hs]; rfl
      · rw [List.filter_cons_of_neg hpe]

end Verif.H3
