import Verif.Parse.Model
import Verif.Wire.TheoremsAccept

namespace Verif.Parse
open Utility Utility.Spec Wire Wire.Spec

theorem run_append (p : P) (a b : List Ev) : run p (a ++ b) = (run p a).bind fun q => run q b := by
  induction a generalizing p with
  | nil => rfl
  | cons e a ih =>
    simp only [List.cons_append, run]
    cases step p e with
    | none => rfl
    | some q => simp [ih]

theorem same_of {a b : Bytes} : iequals a b = true ↔ SameName a b := ieq

theorem sameName_trans {a b c : Bytes} (h : SameName a b) (h' : SameName b c) : SameName a c := Eq.trans h h'
theorem sameName_symm {a b : Bytes} (h : SameName a b) : SameName b a := Eq.symm h

/-! ### the header map -/

theorem push_keys {h : Headers} {k v : Bytes} : ∀ e ∈ push h k v, (∃ e' ∈ h, e'.1 = e.1) ∨ (e.1 = k ∧ ∀ e' ∈ h, ¬ SameName e'.1 k) := by
  induction h with
  | nil =>
    intro e he
    simp only [push, List.mem_singleton] at he
    subst he; simp
  | cons x h ih =>
    intro e he
    unfold push at he
    split at he
    · simp only [List.mem_cons] at he
      rcases he with rfl | he
      · exact Or.inl ⟨x, by simp, rfl⟩
      · exact Or.inl ⟨e, by simp [he], rfl⟩
    · rename_i hx
      simp only [List.mem_cons] at he
      rcases he with rfl | he
      · exact Or.inl ⟨e, by simp, rfl⟩
      · rcases ih e he with ⟨e', h1, h2⟩ | ⟨h1, h2⟩
        · exact Or.inl ⟨e', by simp [h1], h2⟩
        · refine Or.inr ⟨h1, ?_⟩
          intro e' he'
          simp only [List.mem_cons] at he'
          rcases he' with rfl | he'
          · exact fun hs => hx (same_of.2 hs)
          · exact h2 e' he'

theorem push_distinct {h : Headers} (hd : Distinct h) (k v : Bytes) : Distinct (push h k v) := by
  induction h with
  | nil => simp [push, Distinct]
  | cons x h ih =>
    unfold Distinct at hd ⊢
    rw [List.pairwise_cons] at hd
    unfold push
    split
    · exact List.pairwise_cons.2 ⟨hd.1, hd.2⟩
    · rename_i hx
      refine List.pairwise_cons.2 ⟨?_, ih hd.2⟩
      intro e he hs
      rcases push_keys e he with ⟨e', h1, h2⟩ | ⟨h1, _⟩
      · exact hd.1 e' h1 (h2 ▸ hs)
      · exact hx (same_of.2 (h1 ▸ hs))

theorem push_nonEmpty {h : Headers} (hn : NonEmptyEntries h) (k v : Bytes) : NonEmptyEntries (push h k v) := by
  induction h with
  | nil => intro e he; simp only [push, List.mem_singleton] at he; subst he; simp
  | cons x h ih =>
    unfold push
    split
    · intro e he
      simp only [List.mem_cons] at he
      rcases he with rfl | he
      · simp
      · exact hn e (by simp [he])
    · intro e he
      simp only [List.mem_cons] at he
      rcases he with rfl | he
      · exact hn e (by simp)
      · exact ih (fun e he => hn e (by simp [he])) e he

theorem valuesOf_exists (name : Bytes) (l : List (Bytes × Bytes)) : ∃ us, ValuesOf name l us := by
  induction l with
  | nil => exact ⟨[], .nil⟩
  | cons f l ih =>
    obtain ⟨us, hu⟩ := ih
    by_cases hf : SameName f.1 name
    · exact ⟨_, .hit hf hu⟩
    · exact ⟨_, .miss hf hu⟩

/-- The values of `name` after a push. -/
theorem push_values {h : Headers} (hd : Distinct h) {k v name : Bytes} {vs : List Bytes} (hv : ValuesOf name (flat h) vs) :
    (SameName k name → ValuesOf name (flat (push h k v)) (vs ++ [v])) ∧
    (¬ SameName k name → ValuesOf name (flat (push h k v)) vs) := by
  induction h generalizing vs with
  | nil =>
    have : vs = [] := valuesOf_unique hv .nil
    subst this
    exact ⟨fun hs => .hit hs .nil, fun hs => .miss hs .nil⟩
  | cons x h ih =>
    have hd' := hd
    unfold Distinct at hd'
    rw [List.pairwise_cons] at hd'
    have hflat : ∀ (e : Bytes × List Bytes) (t : Headers), flat (e :: t) = e.2.map (e.1, ·) ++ flat t := by
      intro e t; simp [flat]
    unfold push
    by_cases hx : iequals x.1 k = true
    · rw [if_pos hx]
      have hxk := same_of.1 hx
      by_cases hn : SameName x.1 name
      · have htail : NoField name (flat h) := by
          intro f hf hs
          obtain ⟨e, he, hf⟩ := List.mem_flatMap.1 hf
          obtain ⟨w, _, rfl⟩ := List.mem_map.1 hf
          exact hd'.1 e he (sameName_trans hn (sameName_symm hs))
        have h1 : ValuesOf name (flat (x :: h)) x.2 := by
          rw [hflat]
          have := valuesOf_app (valuesOf_map hn x.2) (valuesOf_none htail)
          simpa using this
        have := valuesOf_unique hv h1
        subst this
        refine ⟨fun _ => ?_, fun hs => absurd (sameName_trans (sameName_symm hxk) hn) hs⟩
        rw [hflat]
        have := valuesOf_app (valuesOf_map hn (x.2 ++ [v])) (valuesOf_none htail)
        simpa using this
      · have hmiss : ∀ l : List Bytes, ValuesOf name (l.map (x.1, ·)) [] := by
          intro l
          refine valuesOf_none ?_
          intro f hf
          obtain ⟨w, _, rfl⟩ := List.mem_map.1 hf
          exact hn
        refine ⟨fun hs => absurd (sameName_trans hxk hs) hn, fun _ => ?_⟩
        have htl : ValuesOf name (flat h) vs := by
          obtain ⟨us, hu⟩ := valuesOf_exists name (flat h)
          have h2 := valuesOf_app (hmiss x.2) hu
          rw [hflat] at hv
          have := valuesOf_unique hv h2
          simp at this
          rw [this]; exact hu
        rw [hflat]
        simpa using valuesOf_app (hmiss (x.2 ++ [v])) htl
    · rw [if_neg hx]
      obtain ⟨us, hu⟩ := valuesOf_exists name (x.2.map (x.1, ·))
      obtain ⟨ws, hw⟩ := valuesOf_exists name (flat h)
      have h2 := valuesOf_app hu hw
      rw [hflat] at hv
      have := valuesOf_unique hv h2
      subst this
      obtain ⟨i1, i2⟩ := ih hd'.2 hw
      constructor
      · intro hs
        rw [hflat, List.append_assoc]
        exact valuesOf_app hu (i1 hs)
      · intro hs
        rw [hflat]
        exact valuesOf_app hu (i2 hs)

/-- A header map holds exactly these fields: the same values under every name, in order. -/
def Holds (h : Headers) (fields : List (Bytes × Bytes)) : Prop :=
  ∀ name vs, ValuesOf name (flat h) vs ↔ ValuesOf name fields vs

theorem holds_push {h : Headers} {fields : List (Bytes × Bytes)} (hd : Distinct h) (hh : Holds h fields) (k v : Bytes) :
    Holds (push h k v) (fields ++ [(k, v)]) := by
  intro name vs
  obtain ⟨us, hu⟩ := valuesOf_exists name fields
  obtain ⟨p1, p2⟩ := push_values (k := k) (v := v) hd ((hh name us).2 hu)
  by_cases hs : SameName k name
  · have a := p1 hs
    have b : ValuesOf name (fields ++ [(k, v)]) (us ++ [v]) := valuesOf_app hu (.hit hs .nil)
    constructor
    · intro h; rw [valuesOf_unique h a]; exact b
    · intro h; rw [valuesOf_unique h b]; exact a
  · have a := p2 hs
    have b : ValuesOf name (fields ++ [(k, v)]) us := by
      have := valuesOf_app hu (.miss (f := (k, v)) hs .nil)
      simpa using this
    constructor
    · intro h; rw [valuesOf_unique h a]; exact b
    · intro h; rw [valuesOf_unique h b]; exact a

theorem holds_noField {h : Headers} {fields : List (Bytes × Bytes)} (hh : Holds h fields) (name : Bytes) :
    NoField name (flat h) ↔ NoField name fields :=
  ⟨fun x => valuesOf_noField ((hh name []).1 (valuesOf_none x)), fun x => valuesOf_noField ((hh name []).2 (valuesOf_none x))⟩

theorem holds_chunked {h : Headers} {fields : List (Bytes × Bytes)} (hh : Holds h fields) :
    DeclaresChunked (flat h) ↔ DeclaresChunked fields := by
  constructor
  · rintro ⟨vs, tss, t, h1, h2⟩; exact ⟨vs, tss, t, (hh _ _).1 h1, h2⟩
  · rintro ⟨vs, tss, t, h1, h2⟩; exact ⟨vs, tss, t, (hh _ _).2 h1, h2⟩

end Verif.Parse
