import Verif.Router.Lemmas

/-! Path segmentation: the views produced by the splitting loop against the string-level spec. -/

namespace Verif.Router
open Spec Verif.Utility Verif.Utility.Spec

/-- The segments of a path as a function. -/
def segsOf (s : Bytes) : List Bytes := (splitView s 47).filter (· ≠ [])

theorem isSegments_iff (s : Bytes) (l : List Bytes) : IsSegments s l ↔ l = segsOf s := by
  constructor
  · rintro ⟨fs, h1, rfl⟩
    rw [isFields_unique h1 (splitView_spec s 47)]; rfl
  · rintro rfl; exact ⟨_, splitView_spec s 47, rfl⟩

theorem splitView_cons {a b : Bytes} (h : 47 ∉ a) : splitView (a ++ 47 :: b) 47 = a :: splitView b 47 :=
  isFields_unique (splitView_spec _ _) (isFields_cons h (splitView_spec b 47))

theorem splitView_single {a : Bytes} (h : 47 ∉ a) : splitView a 47 = [a] :=
  isFields_unique (splitView_spec _ _) (isFields_single h)

theorem segsOf_nil : segsOf [] = [] := by
  unfold segsOf; rw [splitView_single (by simp)]; simp

theorem segsOf_single {a : Bytes} (h : 47 ∉ a) (hne : a ≠ []) : segsOf a = [a] := by
  unfold segsOf; rw [splitView_single h]; simp [hne]

theorem exists_slash (a : Bytes) : 47 ∉ a ∨ ∃ x y, a = x ++ 47 :: y ∧ 47 ∉ x := by
  induction a with
  | nil => simp
  | cons c a ih =>
    by_cases hc : c = 47
    · right; exact ⟨[], a, by simp [hc], by simp⟩
    · rcases ih with h | ⟨x, y, h1, h2⟩
      · left; simp [h]; exact fun e => hc e.symm
      · right; refine ⟨c :: x, y, by simp [h1], ?_⟩
        simp [h2]; exact fun e => hc e.symm

theorem splitView_append (a b : Bytes) :
    splitView (a ++ 47 :: b) 47 = splitView a 47 ++ splitView b 47 := by
  induction ha : a.length using Nat.strongRecOn generalizing a with
  | _ n ih =>
    rcases exists_slash a with h | ⟨x, y, h1, h2⟩
    · rw [splitView_cons h, splitView_single h]; rfl
    · subst h1
      rw [List.append_assoc, List.cons_append, splitView_cons h2, splitView_cons h2,
        ih y.length (by simp at ha; omega) y rfl]; rfl

theorem segsOf_append (a b : Bytes) : segsOf (a ++ 47 :: b) = segsOf a ++ segsOf b := by
  unfold segsOf; rw [splitView_append, List.filter_append]

theorem segsOf_slash (b : Bytes) : segsOf (47 :: b) = segsOf b := by
  have := segsOf_append [] b
  rwa [segsOf_nil] at this

theorem segsOf_slashes {sl : Bytes} (h : ∀ c ∈ sl, c = 47) (b : Bytes) : segsOf (sl ++ b) = segsOf b := by
  induction sl with
  | nil => rfl
  | cons c sl ih =>
    have : c = 47 := h c (by simp)
    subst this
    rw [List.cons_append, segsOf_slash, ih (fun c hc => h c (by simp [hc]))]

theorem segsOf_append_slashes {sl : Bytes} (h : ∀ c ∈ sl, c = 47) (a : Bytes) : segsOf (a ++ sl) = segsOf a := by
  cases sl with
  | nil => simp
  | cons c sl =>
    have : c = 47 := h c (by simp)
    subst this
    rw [segsOf_append]
    have := segsOf_slashes (sl := sl) (fun c hc => h c (by simp [hc])) []
    rw [List.append_nil, segsOf_nil] at this
    rw [this, List.append_nil]

/-- Segments of a string whose left part ends at a segment boundary. -/
theorem segsOf_boundary {a : Bytes} (h : a = [] ∨ a.getLast? = some 47) (b : Bytes) :
    segsOf (a ++ b) = segsOf a ++ segsOf b := by
  rcases h with rfl | h
  · simp [segsOf_nil]
  · obtain ⟨a', rfl⟩ := List.getLast?_eq_some_iff.1 h
    rw [List.append_assoc, List.singleton_append, segsOf_append, segsOf_append, segsOf_nil]
    simp

theorem segsOf_ne_nil {b : Bytes} {c : UInt8} (hc : c ≠ 47) : segsOf (c :: b) ≠ [] := by
  rcases exists_slash (c :: b) with h | ⟨x, y, h1, h2⟩
  · rw [segsOf_single h (by simp)]; simp
  · cases x with
    | nil => simp at h1; exact absurd h1.1 hc
    | cons d x =>
      rw [h1, segsOf_append, segsOf_single h2 (by simp)]; simp

/-! ### the views -/

/-- `vs` are the views of the segments of `rest`, which starts at offset `off`. -/
inductive Chunks : Nat → Bytes → List View → Prop
  | done {off rest} : (∀ c ∈ rest, c = 47) → Chunks off rest []
  | more {off sl seg tail vs} : (∀ c ∈ sl, c = 47) → 47 ∉ seg → seg ≠ [] →
      (tail = [] ∨ tail.head? = some 47) → Chunks (off + sl.length + seg.length) tail vs →
      Chunks off (sl ++ (seg ++ tail)) (⟨off + sl.length, seg.length⟩ :: vs)

theorem chunks_slash {off : Nat} {rest : Bytes} {vs} (h : Chunks (off + 1) rest vs) :
    Chunks off (47 :: rest) vs := by
  cases h with
  | done h => exact .done (by simpa using h)
  | @more _ sl seg tail vs h1 h2 h3 h4 h5 =>
    have e1 : off + 1 + sl.length = off + (47 :: sl).length := by simp; omega
    rw [e1] at h5 ⊢
    rw [← List.cons_append]
    exact .more (by simpa using h1) h2 h3 h4 h5

theorem splitLoop_chunks (start : Nat) (rest cur : Bytes) (hcur : 47 ∉ cur) :
    Chunks start (cur ++ rest) (splitLoop start (start + cur.length) rest) := by
  induction rest generalizing start cur with
  | nil =>
    rw [splitLoop]
    by_cases h : cur = []
    · subst h; simp; exact .done (by simp)
    · have : 0 < cur.length := List.length_pos_iff.2 h
      rw [if_pos (by omega)]
      have e : start + cur.length - start = cur.length := by omega
      rw [e]
      exact .more (sl := []) (by simp) hcur h (.inl rfl) (.done (by simp))
  | cons c rest ih =>
    rw [splitLoop]
    split
    · rename_i hc
      have hc : c = 47 := by simpa using hc
      subst hc
      have h0 := ih (start + cur.length + 1) [] (by simp)
      simp only [List.nil_append, List.length_nil, Nat.add_zero] at h0
      split
      · rename_i hgt
        have hne : cur ≠ [] := by rintro rfl; simp at hgt
        have e : start + cur.length - start = cur.length := by omega
        rw [e]
        exact .more (sl := []) (by simp) hcur hne (.inr rfl) (chunks_slash h0)
      · rename_i hgt
        have : cur = [] := by
          cases cur with
          | nil => rfl
          | cons a b => simp at hgt
        subst this
        exact chunks_slash h0
    · rename_i hc
      have hc : c ≠ 47 := by simpa using hc
      have := ih start (cur ++ [c]) (by simp [hcur]; exact fun e => hc e.symm)
      simpa [Nat.add_assoc] using this

theorem splitPath_chunks (path : Bytes) : Chunks 0 path (splitPath path) := by
  unfold splitPath
  split
  · exact .done (by simp)
  · rename_i c rest
    split
    · rename_i hc
      have hc : c = 47 := by simpa using hc
      subst hc
      exact chunks_slash (by simpa using splitLoop_chunks 1 rest [] (by simp))
    · simpa using splitLoop_chunks 0 (c :: rest) [] (by simp)

theorem text_eq (pre seg tail : Bytes) (off : Nat) (h : off = pre.length) :
    View.text (pre ++ (seg ++ tail)) ⟨off, seg.length⟩ = seg := by
  subst h; simp [View.text]

theorem chunks_texts {off : Nat} {rest : Bytes} {vs : List View} (h : Chunks off rest vs)
    (path pre : Bytes) (hp : path = pre ++ rest) (hoff : off = pre.length) :
    vs.map (View.text path) = segsOf rest := by
  induction h generalizing pre with
  | done h =>
    have := segsOf_slashes h []
    rw [List.append_nil, segsOf_nil] at this
    rw [this]; rfl
  | @more off sl seg tail vs h1 h2 h3 h4 h5 ih =>
    have e : path = (pre ++ sl) ++ (seg ++ tail) := by rw [hp]; simp
    have ht := text_eq (pre ++ sl) seg tail (off + sl.length) (by simp [hoff])
    rw [List.map_cons, ih (pre ++ sl ++ seg) (by rw [e]; simp) (by simp [hoff, Nat.add_assoc]), segsOf_slashes h1]
    rw [e, ht]
    rcases h4 with rfl | h4
    · rw [List.append_nil, segsOf_single h2 h3, segsOf_nil]
    · cases tail with
      | nil => simp at h4
      | cons c t =>
        simp at h4; subst h4
        rw [segsOf_append, segsOf_slash, segsOf_single h2 h3]; rfl

theorem splitPath_texts (path : Bytes) : (splitPath path).map (View.text path) = segsOf path :=
  chunks_texts (splitPath_chunks path) path [] rfl rfl

theorem chunks_capture {off : Nat} {rest : Bytes} {vs : List View} (h : Chunks off rest vs)
    (v : View) (vs' : List View) (hv : vs = v :: vs') :
    ∃ sl rem post, rest = sl ++ (rem ++ post) ∧ (∀ c ∈ sl, c = 47) ∧ (∀ c ∈ post, c = 47) ∧
      v.off = off + sl.length ∧
      ((v :: vs').getLast (by simp)).off + ((v :: vs').getLast (by simp)).len = off + sl.length + rem.length ∧
      (∃ c, rem.head? = some c ∧ c ≠ 47) ∧ (∃ c, rem.getLast? = some c ∧ c ≠ 47) := by
  induction h generalizing v vs' with
  | done h => simp at hv
  | @more off sl seg tail vs h1 h2 h3 h4 h5 ih =>
    simp at hv
    obtain ⟨rfl, rfl⟩ := hv
    obtain ⟨c, seg', rfl⟩ := List.exists_cons_of_ne_nil h3
    cases vs with
    | nil =>
      cases h5 with
      | done h5 =>
        refine ⟨sl, c :: seg', tail, rfl, h1, h5, rfl, by simp, ⟨c, rfl, ?_⟩, ?_⟩
        · rintro rfl; simp at h2
        · refine ⟨(c :: seg').getLast (by simp), List.getLast?_eq_some_getLast _, ?_⟩
          intro e; apply h2; rw [← e]; exact List.getLast_mem _
    | cons v2 vs2 =>
      obtain ⟨sl2, rem2, post, e1, e2, e3, e4, e5, e6, e7⟩ := ih v2 vs2 rfl
      refine ⟨sl, c :: seg' ++ sl2 ++ rem2, post, by rw [e1]; simp, h1, e3, rfl, ?_, ⟨c, rfl, ?_⟩, ?_⟩
      · rw [List.getLast_cons (by simp), e5]; simp; omega
      · rintro rfl; simp at h2
      · obtain ⟨d, hd, hd'⟩ := e7
        refine ⟨d, ?_, hd'⟩
        rw [List.getLast?_append, hd]; rfl

theorem chunks_nil {off : Nat} {vs : List View} (h : Chunks off [] vs) : vs = [] := by
  generalize hr : ([] : Bytes) = r at h
  cases h with
  | done => rfl
  | more _ _ h3 => simp at hr; exact absurd hr.2.1 h3

theorem chunks_split {off : Nat} {rest : Bytes} {vs : List View} (h : Chunks off rest vs)
    (vs1 vs2 : List View) (hv : vs = vs1 ++ vs2) :
    ∃ pre' rest', rest = pre' ++ rest' ∧ Chunks (off + pre'.length) rest' vs2 ∧
      (vs2 ≠ [] → pre' = [] ∨ rest'.head? = some 47) := by
  induction vs1 generalizing off rest vs with
  | nil => exact ⟨[], rest, rfl, by simpa [hv] using h, fun _ => .inl rfl⟩
  | cons v vs1 ih =>
    subst hv
    cases h with
    | @more _ sl seg tail vs h1 h2 h3 h4 h5 =>
      obtain ⟨p, r, e1, e2, e3⟩ := ih h5 rfl
      refine ⟨sl ++ seg ++ p, r, by rw [e1]; simp, by simpa [Nat.add_assoc] using e2, ?_⟩
      intro hne
      rcases e3 hne with rfl | e3
      · right
        rcases h4 with h4 | h4
        · simp at e1; subst e1
          subst h4
          exfalso
          exact hne (chunks_nil e2)
        · rwa [e1] at h4
      · exact .inr e3

/-! ### from views to the string-level specification -/

theorem remainder_capture (path : Bytes) (vs1 : List View) (v : View) (vs2 : List View)
    (h : splitPath path = vs1 ++ v :: vs2) :
    Remainder path (vs1.map (View.text path)) (capture path v ((v :: vs2).getLast (by simp))) := by
  obtain ⟨pre, rest, e1, e2, e3⟩ := chunks_split (splitPath_chunks path) vs1 (v :: vs2) h
  obtain ⟨sl, rem, post, f1, f2, f3, f4, f5, f6, f7⟩ := chunks_capture e2 v vs2 rfl
  have hpath : path = (pre ++ sl) ++ rem ++ post := by rw [e1, f1]; simp
  have hcap : capture path v ((v :: vs2).getLast (by simp)) = rem := by
    unfold capture
    rw [f5, f4, hpath]
    have : 0 + pre.length + sl.length = (pre ++ sl).length := by simp
    rw [this, List.append_assoc, List.drop_left]
    have : (pre ++ sl).length + rem.length - (pre ++ sl).length = rem.length := by omega
    rw [this, List.take_left]
  rw [hcap]
  have hbound : pre ++ sl = [] ∨ (pre ++ sl).getLast? = some 47 := by
    cases sl with
    | nil =>
      rcases e3 (by simp) with rfl | e3
      · exact .inl rfl
      · obtain ⟨c, hc, hc'⟩ := f6
        rw [f1] at e3
        cases rem with
        | nil => simp at hc
        | cons d rem => simp at hc e3; exact absurd (hc ▸ e3) hc'
    | cons c sl =>
      right
      rw [List.getLast?_append, List.getLast?_eq_some_getLast (by simp)]
      simp only [Option.some_or]
      rw [f2 _ (List.getLast_mem _)]
  refine ⟨pre ++ sl, post, hpath, ?_, f3, hbound, f6, f7⟩
  rw [isSegments_iff]
  -- segments of the whole path, cut at the boundary
  have h1 := splitPath_texts path
  rw [h, List.map_append] at h1
  have h2 : segsOf path = segsOf (pre ++ sl) ++ segsOf (rem ++ post) := by
    rw [← segsOf_boundary hbound, ← List.append_assoc, ← hpath]
  have h3 : (v :: vs2).map (View.text path) = segsOf rest :=
    chunks_texts e2 path pre e1 (by simp)
  rw [f1, segsOf_slashes f2] at h3
  rw [h2, h3] at h1
  exact List.append_cancel_right h1

theorem segMatch_cases {path : Bytes} {q vs bs} (h : SegMatch path q vs bs) :
    PointMatch q (vs.map (View.text path)) bs ∨
    (∃ p n bs0, q = p ++ [.wild n] ∧ bs = bs0 ++ [(n, [])] ∧ PointMatch p (vs.map (View.text path)) bs0) ∨
    (∃ p n vs1 v vs2 bs0, vs = vs1 ++ v :: vs2 ∧ q = p ++ [.wild n] ∧
      PointMatch p (vs1.map (View.text path)) bs0 ∧
      bs = bs0 ++ [(n, capture path v ((v :: vs2).getLast (by simp)))]) := by
  induction h with
  | nil => exact .inl .nil
  | lit _ ih =>
    rcases ih with h | ⟨p, n, bs0, rfl, rfl, h⟩ | ⟨p, n, vs1, v', vs2, bs0, rfl, rfl, h, rfl⟩
    · exact .inl (.lit h)
    · exact .inr (.inl ⟨_ :: p, n, bs0, rfl, rfl, .lit h⟩)
    · exact .inr (.inr ⟨_ :: p, n, _ :: vs1, v', vs2, bs0, rfl, rfl, .lit h, rfl⟩)
  | par _ ih =>
    rcases ih with h | ⟨p, n, bs0, rfl, rfl, h⟩ | ⟨p, n, vs1, v', vs2, bs0, rfl, rfl, h, rfl⟩
    · exact .inl (.par h)
    · exact .inr (.inl ⟨_ :: p, n, _ :: bs0, rfl, rfl, .par h⟩)
    · exact .inr (.inr ⟨_ :: p, n, _ :: vs1, v', vs2, _ :: bs0, rfl, rfl, .par h, rfl⟩)
  | wildEmpty => exact .inr (.inl ⟨[], _, [], rfl, rfl, .nil⟩)
  | wildRest => exact .inr (.inr ⟨[], _, [], _, _, [], rfl, rfl, .nil, rfl⟩)

theorem segMatch_pat {path : Bytes} {q bs} (h : SegMatch path q (splitPath path) bs) :
    PatMatch path q bs := by
  rcases segMatch_cases h with hh | ⟨p, n, bs0, rfl, rfl, hh⟩ | ⟨p, n, vs1, v', vs2, bs0, e, rfl, hh, rfl⟩
  · exact .exact ((isSegments_iff _ _).2 (splitPath_texts path)) hh
  · exact .wildEmpty ((isSegments_iff _ _).2 (splitPath_texts path)) hh
  · refine .wildRest (after := (v' :: vs2).map (View.text path)) ?_ (by simp) hh
      (remainder_capture path vs1 v' vs2 e)
    rw [isSegments_iff, ← List.map_append, ← e]
    exact splitPath_texts path

theorem pointMatch_seg {path : Bytes} {p ss bs} (h : PointMatch p ss bs) :
    ∀ vs : List View, vs.map (View.text path) = ss → SegMatch path p vs bs := by
  induction h with
  | nil => intro vs hv; simp at hv; subst hv; exact .nil
  | lit _ ih =>
    intro vs hv
    cases vs with
    | nil => simp at hv
    | cons v vs => simp at hv; rw [← hv.1]; exact .lit (ih vs hv.2)
  | par _ ih =>
    intro vs hv
    cases vs with
    | nil => simp at hv
    | cons v vs => simp at hv; rw [← hv.1]; exact .par (ih vs hv.2)

theorem pointMatch_wild {path : Bytes} {p ss bs} (h : PointMatch p ss bs) (n : Bytes) (vs2 : List View) :
    ∀ vs : List View, vs.map (View.text path) = ss →
      ∃ bs', SegMatch path (p ++ [.wild n]) (vs ++ vs2) bs' := by
  induction h with
  | nil =>
    intro vs hv
    simp at hv; subst hv
    cases vs2 with
    | nil => exact ⟨_, .wildEmpty⟩
    | cons v vs2 => exact ⟨_, .wildRest⟩
  | lit _ ih =>
    intro vs hv
    cases vs with
    | nil => simp at hv
    | cons v vs =>
      simp at hv; rw [← hv.1]
      obtain ⟨bs', h⟩ := ih vs hv.2
      exact ⟨_, .lit h⟩
  | par _ ih =>
    intro vs hv
    cases vs with
    | nil => simp at hv
    | cons v vs =>
      simp at hv
      obtain ⟨bs', h⟩ := ih vs hv.2
      exact ⟨_, .par h⟩

theorem pat_segMatch {path : Bytes} {q bs} (h : PatMatch path q bs) :
    ∃ bs', SegMatch path q (splitPath path) bs' := by
  cases h with
  | exact h1 h2 =>
    rw [isSegments_iff] at h1
    exact ⟨_, pointMatch_seg h2 _ (by rw [splitPath_texts, h1])⟩
  | @wildEmpty pat segs bs n h1 h2 =>
    rw [isSegments_iff] at h1
    have := pointMatch_wild (path := path) h2 n [] (splitPath path) (by rw [splitPath_texts, h1])
    simpa using this
  | @wildRest pat before after bs n rem h1 h2 h3 h4 =>
    rw [isSegments_iff] at h1
    have ht := splitPath_texts path
    rw [← h1] at ht
    obtain ⟨vs1, vs2, e1, e2, e3⟩ := List.map_eq_append_iff.1 ht
    rw [e1]
    exact pointMatch_wild h3 n vs2 vs1 e2

/-- The remainder after given segments is determined by the path. -/
theorem remainder_unique {path : Bytes} {before : List Bytes} {r1 r2 : Bytes}
    (h1 : Remainder path before r1) (h2 : Remainder path before r2) : r1 = r2 := by
  have wlog : ∀ (a1 r1 p1 a2 r2 p2 : Bytes), path = a1 ++ r1 ++ p1 → path = a2 ++ r2 ++ p2 →
      segsOf a1 = before → segsOf a2 = before → (a1 = [] ∨ a1.getLast? = some 47) →
      (∃ c, r1.head? = some c ∧ c ≠ 47) → a1.length ≤ a2.length → a1 = a2 := by
    intro a1 r1 p1 a2 r2 p2 e1 e2 s1 s2 b1 hd hl
    have hp : a1 <+: a2 := by
      apply List.prefix_of_prefix_length_le (l₃ := path) _ _ hl
      · rw [e1, List.append_assoc]; exact List.prefix_append _ _
      · rw [e2, List.append_assoc]; exact List.prefix_append _ _
    obtain ⟨x, rfl⟩ := hp
    rw [segsOf_boundary b1, s1] at s2
    cases x with
    | nil => simp
    | cons d x =>
      exfalso
      rw [e1] at e2
      simp only [List.append_assoc] at e2
      have e2 := List.append_cancel_left e2
      obtain ⟨c, hc, hc'⟩ := hd
      cases r1 with
      | nil => simp at hc
      | cons c' r1 =>
        simp at hc; subst hc
        simp at e2
        have : segsOf (d :: x) = [] := by
          have := congrArg List.length s2
          simp at this
          exact this
        exact segsOf_ne_nil (e2.1 ▸ hc') this
  have trail : ∀ (r1 p1 r2 p2 : Bytes), r1 ++ p1 = r2 ++ p2 → (∀ c ∈ p1, c = 47) → (∀ c ∈ p2, c = 47) →
      (∃ c, r1.getLast? = some c ∧ c ≠ 47) → (∃ c, r2.getLast? = some c ∧ c ≠ 47) →
      r1.length ≤ r2.length → r1 = r2 := by
    intro r1 p1 r2 p2 e h1 h2 l1 l2 hl
    have hp : r1 <+: r2 := by
      apply List.prefix_of_prefix_length_le (l₃ := r1 ++ p1) (List.prefix_append _ _) _ hl
      rw [e]; exact List.prefix_append _ _
    obtain ⟨x, rfl⟩ := hp
    rw [List.append_assoc] at e
    have e := List.append_cancel_left e
    cases hx : x.getLast? with
    | none => rw [List.getLast?_eq_none_iff] at hx; simp [hx]
    | some d =>
      exfalso
      obtain ⟨c, hc, hc'⟩ := l2
      rw [List.getLast?_append, hx] at hc
      simp at hc; subst hc
      exact hc' (h1 d (by rw [e]; simp [List.mem_of_getLast? hx]))
  obtain ⟨a1, p1, e1, s1, q1, b1, hd1, l1⟩ := h1
  obtain ⟨a2, p2, e2, s2, q2, b2, hd2, l2⟩ := h2
  rw [isSegments_iff] at s1 s2
  have ha : a1 = a2 := by
    rcases Nat.le_total a1.length a2.length with h | h
    · exact wlog a1 r1 p1 a2 r2 p2 e1 e2 s1.symm s2.symm b1 hd1 h
    · exact (wlog a2 r2 p2 a1 r1 p1 e2 e1 s2.symm s1.symm b2 hd2 h).symm
  subst ha
  have e : r1 ++ p1 = r2 ++ p2 := by
    rw [e1] at e2
    simpa using e2
  rcases Nat.le_total r1.length r2.length with h | h
  · exact trail _ _ _ _ e q1 q2 l1 l2 h
  · exact (trail _ _ _ _ e.symm q2 q1 l2 l1 h).symm

end Verif.Router
