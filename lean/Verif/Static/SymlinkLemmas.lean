import Verif.Static.ServeLemmas

/-! Lemmas on the symbolic-link check and on plain request paths. -/

namespace Verif.Static
open Verif Verif.Utility

/-- The segments of a path that name something. -/
def nameSegs (segs : List Bytes) : List Bytes := segs.filter fun c => decide (c ≠ [] ∧ c ≠ b!".")

theorem normFold_segs {abs : Bool} : ∀ (segs acc : List Bytes) (b : Bool), DOTDOT ∉ segs →
    ∃ b', segs.foldl (normStep abs) (acc, b) = ((nameSegs segs).reverse ++ acc, b')
  | [], acc, b, _ => ⟨b, rfl⟩
  | c :: segs, acc, b, h => by
    simp only [List.mem_cons, not_or] at h
    rw [List.foldl_cons]
    by_cases hc : c = [] ∨ c = DOT
    · have e : normStep abs (acc, b) c = (acc, true) := by simp only [normStep]; rw [if_pos hc]
      rw [e]
      obtain ⟨b', hb⟩ := normFold_segs (abs := abs) segs acc true h.2
      refine ⟨b', ?_⟩
      rw [hb, nameSegs, nameSegs, List.filter_cons_of_neg]
      rcases hc with rfl | rfl <;> decide
    · have e : normStep abs (acc, b) c = (c :: acc, false) := by
        simp only [normStep]; rw [if_neg hc, if_neg (fun h' => h.1 h'.symm)]
      rw [e]
      obtain ⟨b', hb⟩ := normFold_segs (abs := abs) segs (c :: acc) false h.2
      refine ⟨b', ?_⟩
      rw [hb, nameSegs, nameSegs, List.filter_cons_of_pos]
      · simp
      · simp only [not_or] at hc
        simpa [DOT] using hc

theorem normComps_segs {abs : Bool} {segs : List Bytes} (h : DOTDOT ∉ segs) :
    normComps abs segs = nameSegs segs ∨ (nameSegs segs ≠ [] ∧ normComps abs segs = nameSegs segs ++ [[]]) := by
  obtain ⟨b', hb⟩ := normFold_segs (abs := abs) segs [] false h
  unfold normComps
  rw [hb]
  simp only [List.append_nil]
  split
  · rename_i hc
    right
    rw [Bool.and_eq_true] at hc
    refine ⟨by simpa using hc.2, by simp⟩
  · left; simp

theorem nameSegs_names {segs : List Bytes} (hs : ∀ c ∈ segs, c!"/" ∉ c) (hd : DOTDOT ∉ segs) :
    ∀ c ∈ nameSegs segs, IsName c := by
  intro c hc
  unfold nameSegs at hc
  rw [List.mem_filter] at hc
  have h2 := of_decide_eq_true hc.2
  refine ⟨h2.1, h2.2, ?_, hs c hc.1⟩
  rintro rfl
  exact hd hc.1

/-- If the check sees no link, walking the names follows none. -/
theorem symlink_free (fs : FS) (k : Nat) : ∀ (segs cur : List Bytes), Phys fs cur → symlinkSeen fs cur segs = false →
    DOTDOT ∉ segs → (∀ c ∈ segs, c!"/" ∉ c) → ∀ m, m <+: nameSegs segs →
    (walk fs k cur m = .ok (cur ++ m) ∧ Phys fs (cur ++ m)) ∨ walk fs k cur m = .notFound
  | [], cur, hp, _, _, _, m, hm => by
    have : m = [] := by simpa [nameSegs] using hm
    subst this
    left; rw [walk_nil]; simpa using hp
  | c :: segs, cur, hp, hsee, hdd, hsl, m, hm => by
    simp only [List.mem_cons, not_or] at hdd
    rw [symlinkSeen] at hsee
    by_cases hc : c = [] ∨ c = DOT
    · rw [if_pos hc] at hsee
      rw [nameSegs, List.filter_cons_of_neg (by rcases hc with rfl | rfl <;> decide)] at hm
      exact symlink_free fs k segs cur hp hsee hdd.2 (fun x hx => hsl x (by simp [hx])) m hm
    · rw [if_neg hc] at hsee
      have hn : IsName c := by
        simp only [not_or] at hc
        exact ⟨hc.1, hc.2, fun h => hdd.1 h.symm, hsl c (by simp)⟩
      rw [nameSegs, List.filter_cons_of_pos (by simp only [not_or] at hc; simpa [DOT] using hc)] at hm
      cases m with
      | nil => left; rw [walk_nil]; simpa using hp
      | cons x m =>
        obtain ⟨t, ht⟩ := hm
        simp only [List.cons_append, List.cons.injEq] at ht
        obtain ⟨rfl, ht⟩ := ht
        split at hsee
        · cases hsee
        rename_i hl
        by_cases hd : fs.node cur = some .dir
        · unfold isSymlink at hl
          rw [hp.stat] at hl
          simp only at hl
          rw [if_pos ⟨hd, hn.1, hn.2.1, hn.2.2.1⟩] at hl
          cases hnode : fs.node (cur ++ [x]) with
          | none => right; exact walk_missing hn hnode
          | some n =>
            have hnl : ∀ t, n ≠ .link t := by
              rintro t rfl
              rw [hnode] at hl; exact hl rfl
            have hp' : Phys fs (cur ++ [x]) := .snoc cur x n hp hd hn hnode hnl
            rw [walk_step hd hn hnode hnl]
            have := symlink_free fs k segs (cur ++ [x]) hp' hsee hdd.2 (fun y hy => hsl y (by simp [hy])) m ⟨t, ht⟩
            simpa using this
        · right; exact walk_notdir hd

theorem Phys.prefix {fs : FS} {p : List Bytes} (h : Phys fs p) : ∀ {d : List Bytes}, d <+: p → Phys fs d := by
  induction h with
  | root h => intro d hd; have : d = [] := by simpa using hd
              subst this; exact .root h
  | snoc p c n hp hd hc hn hl ih =>
    intro d hpre
    rw [List.prefix_concat_iff] at hpre
    rcases hpre with rfl | hpre
    · exact .snoc p c n hp hd hc hn hl
    · exact ih hpre

/-- Without links, `weakly_canonical` changes nothing (but a separator at the end). -/
theorem weaklyCanonical_free {fs : FS} {base ns tl l : List Bytes} (hb : Phys fs base)
    (hn : ∀ c ∈ ns, IsName c) (ht : tl = [] ∨ (ns ≠ [] ∧ tl = [[]]))
    (hfree : ∀ m, m <+: ns → (stat fs (base ++ m) = .ok (base ++ m) ∧ Phys fs (base ++ m)) ∨ stat fs (base ++ m) = .notFound)
    (h : weaklyCanonical fs (base ++ (ns ++ tl)) = some l) : l = base ++ ns ∨ (ns ≠ [] ∧ l = base ++ ns ++ [[]]) := by
  have hbn : ∀ c ∈ base ++ ns, IsName c := by
    intro c hc
    rcases List.mem_append.1 hc with hc | hc
    · exact hb.names c hc
    · exact hn c hc
  have hfull : normComps true (base ++ (ns ++ tl)) = base ++ (ns ++ tl) := by
    rcases ht with rfl | ⟨hne, rfl⟩
    · rw [List.append_nil, normComps_names hbn]
    · rw [← List.append_assoc, normComps_names_sep hbn (by simp [hne])]
  have hgoal : ∀ x, x = base ++ (ns ++ tl) → x = base ++ ns ∨ (ns ≠ [] ∧ x = base ++ ns ++ [[]]) := by
    rintro x rfl
    rcases ht with rfl | ⟨hne, rfl⟩
    · simp
    · right; simp [hne]
  unfold weaklyCanonical at h
  split at h
  · cases h
  rename_i d r he
  obtain ⟨h1, -, -⟩ := existingPrefix_spec fs _ _ _ _ he
  rw [List.nil_append] at h1
  split at h
  rotate_left
  · cases h
  rename_i p hp
  cases h
  -- which part of the path the existing prefix is
  have hpre : d <+: base ++ (ns ++ tl) := ⟨r, h1.symm⟩
  by_cases hdb : d <+: base
  · have := (hb.prefix hdb).stat
    rw [hp] at this; cases this
    rw [← h1, hfull]; exact hgoal _ rfl
  · have hbd : base <+: d := by
      rcases List.prefix_or_prefix_of_prefix hpre (List.prefix_append base (ns ++ tl)) with h | h
      · exact absurd h hdb
      · exact h
    obtain ⟨m, rfl⟩ := hbd
    have hm : m <+: ns ++ tl := by
      obtain ⟨t, ht'⟩ := hpre
      rw [List.append_assoc] at ht'
      exact ⟨t, List.append_cancel_left ht'⟩
    rw [List.append_assoc] at h1
    have h1 := List.append_cancel_left h1
    by_cases hmn : m <+: ns
    · rcases hfree m hmn with hf | hf
      · rw [hf.1] at hp; cases hp
        rw [List.append_assoc, ← h1, hfull]; exact hgoal _ rfl
      · rw [hf] at hp; cases hp
    · -- the whole path, separator included
      rcases ht with rfl | ⟨hne, rfl⟩
      · rw [List.append_nil] at hm; exact absurd hm hmn
      · have hme : m = ns ++ [[]] := by
          rw [List.prefix_concat_iff] at hm
          rcases hm with rfl | h
          · rfl
          · exact absurd h hmn
        subst hme
        have hr : r = [] := by
          have := congrArg List.length h1
          simp at this; simpa using this
        subst hr
        left
        rcases hfree ns (List.prefix_refl _) with hf | hf
        · have hap := (walk_append fs [[]] MAXLINKS (base ++ ns) [] (fun c hc => (hbn c hc).2.2.2)).1 _ hf.1
          obtain ⟨j, _, hj⟩ := hap
          unfold stat at hp
          rw [← List.append_assoc, hj] at hp
          by_cases hdir : fs.node (base ++ ns) = some .dir
          · rw [walk_skip hdir (.inl rfl), walk_nil] at hp
            cases hp
            rw [List.append_nil, normComps_names hbn]
          · rw [walk_notdir hdir] at hp; cases hp
        · have hap := (walk_append fs [[]] MAXLINKS (base ++ ns) [] (fun c hc => (hbn c hc).2.2.2)).2.1 hf
          unfold stat at hp
          rw [← List.append_assoc, hap] at hp; cases hp

/-- The resolved path, when no link is seen on the way and there is no parent reference. -/
theorem sanitize_free {fs : FS} {base : List Bytes} {rel s : Bytes} (hb : Phys fs base)
    (h : sanitize fs base rel = some s) (hdd : DOTDOT ∉ splitSlash ((decodePath rel).dropWhile (· == c!"/")))
    (hsee : symlinkSeen fs base (splitSlash ((decodePath rel).dropWhile (· == c!"/"))) = false)
    {p : List Bytes} (hp : stat fs (comps s) = .ok p) :
    p = base ++ nameSegs (splitSlash ((decodePath rel).dropWhile (· == c!"/"))) := by
  have hbs : ∀ c ∈ base, c!"/" ∉ c := fun c hc => (hb.names c hc).2.2.2
  generalize hx : (decodePath rel).dropWhile (· == c!"/") = x at *
  have hsl := splitSlash_noslash x
  have hfree0 := symlink_free fs MAXLINKS (splitSlash x) base hb hsee hdd hsl
  have hnames := nameSegs_names hsl hdd
  have hfree : ∀ m, m <+: nameSegs (splitSlash x) →
      (stat fs (base ++ m) = .ok (base ++ m) ∧ Phys fs (base ++ m)) ∨ stat fs (base ++ m) = .notFound := by
    intro m hm
    unfold stat
    rw [hb.walk MAXLINKS m]
    exact hfree0 m hm
  -- the path that is canonicalised
  have hcomb : ∃ tl, (tl = [] ∨ (nameSegs (splitSlash x) ≠ [] ∧ tl = [[]]) ∨ (base = [] ∧ nameSegs (splitSlash x) = [] ∧ tl = [[]])) ∧
      comps (if normalRel x = [] ∨ normalRel x = DOT then absStr base
        else if base = [] then absStr base ++ normalRel x else absStr base ++ c!"/" :: normalRel x) =
      base ++ (nameSegs (splitSlash x) ++ tl) := by
    have hnc := normComps_segs (abs := false) hdd
    have hnr : normalRel x = [] ∨ normalRel x = DOT ↔ nameSegs (splitSlash x) = [] := by
      unfold normalRel
      by_cases h0 : x = []
      · subst h0
        simp [splitSlash, nameSegs]
      · rw [if_neg h0]
        simp only
        by_cases h1 : nameSegs (splitSlash x) = []
        · rcases hnc with h2 | ⟨h2, _⟩
          · rw [h2, if_pos h1]; simp [h1]
          · exact absurd h1 h2
        · have h3 : normComps false (splitSlash x) ≠ [] := by
            rcases hnc with h2 | ⟨_, h2⟩ <;> rw [h2] <;> simp [h1]
          rw [if_neg h3]
          simp only [h1, iff_false, not_or]
          obtain ⟨a, l, hal⟩ : ∃ a l, nameSegs (splitSlash x) = a :: l := by
            cases hh : nameSegs (splitSlash x) with
            | nil => exact absurd hh h1
            | cons a l => exact ⟨a, l, rfl⟩
          have ha := hnames a (by rw [hal]; simp)
          obtain ⟨l', hl'⟩ : ∃ l', normComps false (splitSlash x) = a :: l' := by
            rcases hnc with h2 | ⟨_, h2⟩ <;> rw [h2, hal] <;> exact ⟨_, rfl⟩
          rw [hl']
          cases l' with
          | nil => exact ⟨ha.1, ha.2.1⟩
          | cons b l'' =>
            rw [joinSlash]
            refine ⟨by simp, ?_⟩
            intro he
            have hm : c!"/" ∈ a ++ c!"/" :: joinSlash (b :: l'') := by simp
            rw [he] at hm; revert hm; decide
    split
    · rename_i hc
      rw [hnr] at hc
      rw [hc]
      by_cases hb0 : base = []
      · subst hb0
        exact ⟨[[]], .inr (.inr ⟨rfl, rfl, rfl⟩), by rw [comps_root]; rfl⟩
      · exact ⟨[], .inl rfl, by rw [comps_absStr hb0 hbs]; simp⟩
    · rename_i hc
      have hc' := hc
      rw [hnr] at hc'
      have h3 : normComps false (splitSlash x) ≠ [] := by
        rcases hnc with h2 | ⟨_, h2⟩ <;> rw [h2] <;> simp [hc']
      have hx0 : x ≠ [] := by rintro rfl; exact hc' (by decide)
      have hjr : normalRel x = joinSlash (normComps false (splitSlash x)) := by
        unfold normalRel; rw [if_neg hx0]; simp only; rw [if_neg h3]
      have hns : ∀ c ∈ normComps false (splitSlash x), c!"/" ∉ c := (normComps_rel _ hsl).noslash
      have hcc : comps (if base = [] then absStr base ++ normalRel x else absStr base ++ c!"/" :: normalRel x) =
          base ++ normComps false (splitSlash x) := by
        rw [hjr]
        split
        · rename_i hb0
          subst hb0
          have : absStr [] ++ joinSlash (normComps false (splitSlash x)) = absStr (normComps false (splitSlash x)) := rfl
          rw [this, comps_absStr h3 hns]; rfl
        · rename_i hb0
          unfold comps absStr
          rw [List.cons_append, splitSlash, if_pos rfl, comps_join base _ hbs hb0, split_join _ h3 hns]
          rfl
      rw [hcc]
      rcases hnc with h2 | ⟨h1, h2⟩
      · exact ⟨[], .inl rfl, by rw [h2]; simp⟩
      · exact ⟨[[]], .inr (.inl ⟨h1, rfl⟩), by rw [h2]⟩
  obtain ⟨tl, htl, hcomb⟩ := hcomb
  unfold sanitize at h
  simp only [hx] at h
  split at h
  · cases h
  split at h
  · cases h
  rw [hcomb] at h
  split at h
  · cases h
  rename_i l hw
  have hs : s = absStr l := by
    split at h
    · split at h
      · exact (Option.some.inj h).symm
      · split at h
        · exact (Option.some.inj h).symm
        · cases h
    · cases h
  subst hs
  have hl : l = base ++ nameSegs (splitSlash x) ∨
      (nameSegs (splitSlash x) ≠ [] ∧ l = base ++ nameSegs (splitSlash x) ++ [[]]) := by
    rcases htl with htl | htl | ⟨hb0, hn0, htl⟩
    · exact weaklyCanonical_free hb hnames (.inl htl) hfree hw
    · exact weaklyCanonical_free hb hnames (.inr htl) hfree hw
    · left
      subst hb0
      rw [hn0, htl] at hw
      rw [hn0]
      unfold weaklyCanonical existingPrefix at hw
      have e : stat fs ([] ++ [[]]) = .ok [] := by
        unfold stat
        rw [List.nil_append, walk_skip hb.rootDir (.inl rfl), walk_nil]
      simp only [List.append_nil, List.nil_append] at hw e
      rw [e] at hw
      simp only [existingPrefix] at hw
      rw [e] at hw
      simp only at hw
      exact (Option.some.inj hw).symm
  have hbn : ∀ c ∈ base ++ nameSegs (splitSlash x), IsName c := by
    intro c hc
    rcases List.mem_append.1 hc with hc | hc
    · exact hb.names c hc
    · exact hnames c hc
  rcases hl with rfl | ⟨hne, rfl⟩
  · by_cases he : base ++ nameSegs (splitSlash x) = []
    · rw [he, comps_root] at hp
      unfold stat at hp
      rw [walk_skip hb.rootDir (.inl rfl), walk_nil] at hp
      cases hp; exact he.symm
    · rw [comps_absStr he (fun c hc => (hbn c hc).2.2.2)] at hp
      rcases hfree _ (List.prefix_refl _) with hf | hf
      · rw [hf.1] at hp; cases hp; rfl
      · rw [hf] at hp; cases hp
  · rw [comps_absStr (by simp) (by
      intro c hc
      rcases List.mem_append.1 hc with hc | hc
      · exact (hbn c hc).2.2.2
      · simp at hc; subst hc; simp)] at hp
    have hwa := walk_append fs [[]] MAXLINKS (base ++ nameSegs (splitSlash x)) [] (fun c hc => (hbn c hc).2.2.2)
    unfold stat at hp
    rcases hfree _ (List.prefix_refl _) with hf | hf
    · obtain ⟨j, _, hj⟩ := hwa.1 _ hf.1
      rw [hj] at hp
      by_cases hdir : fs.node (base ++ nameSegs (splitSlash x)) = some .dir
      · rw [walk_skip hdir (.inl rfl), walk_nil] at hp
        cases hp; rfl
      · rw [walk_notdir hdir] at hp; cases hp
    · rw [hwa.2.1 hf] at hp; cases hp

end Verif.Static

namespace Verif.Static
open Verif Verif.Utility

theorem decodePath_plain : ∀ {s : Bytes}, c!"%" ∉ s → decodePath s = s
  | [], _ => rfl
  | c :: rest, h => by
    simp only [List.mem_cons, not_or] at h
    have hc : (c == c!"%") = false := by simpa using fun e => h.1 e.symm
    rw [decodePath.eq_def]
    match rest, h with
    | [], _ => simp [decodePath]
    | [a], h => simp only []; rw [decodePath_plain h.2]
    | a :: b :: tl, h => simp only [hc, Bool.false_and, Bool.false_eq_true, if_false]; rw [decodePath_plain h.2]

theorem existingPrefix_phys {fs : FS} : ∀ (l done : List Bytes), Phys fs (done ++ l) →
    existingPrefix fs done l = some (done ++ l, [])
  | [], done, _ => by simp [existingPrefix]
  | c :: l, done, h => by
    have h' : Phys fs ((done ++ [c]) ++ l) := by simpa using h
    rw [existingPrefix, (h'.prefix (List.prefix_append _ _)).stat]
    simp only
    rw [existingPrefix_phys l _ h']
    simp

theorem weaklyCanonical_phys {fs : FS} {p : List Bytes} (h : Phys fs p) : weaklyCanonical fs p = some p := by
  unfold weaklyCanonical
  rw [existingPrefix_phys p [] (by simpa using h)]
  simp only [List.nil_append]
  rw [h.stat]
  simp only [List.append_nil]
  rw [normComps_names h.names]

theorem joinSlash_append {a b : List Bytes} (ha : a ≠ []) (hb : b ≠ []) :
    joinSlash (a ++ b) = joinSlash a ++ c!"/" :: joinSlash b := by
  match a, ha with
  | [x], _ =>
    cases b with
    | nil => exact absurd rfl hb
    | cons y b => simp [joinSlash]
  | x :: y :: a, _ =>
    have ih := joinSlash_append (a := y :: a) (by simp) hb
    simp only [List.cons_append] at ih ⊢
    rw [joinSlash, ih, joinSlash]
    simp

theorem joinSlash_mem {l : List Bytes} {c : Byte} (h : c ∈ joinSlash l) : c = c!"/" ∨ ∃ x ∈ l, c ∈ x := by
  match l, h with
  | [x], h => exact .inr ⟨x, by simp, h⟩
  | x :: y :: l, h =>
    rw [joinSlash] at h
    rcases List.mem_append.1 h with h | h
    · exact .inr ⟨x, by simp, h⟩
    · rcases List.mem_cons.1 h with h | h
      · exact .inl h
      · rcases joinSlash_mem h with h | ⟨z, hz, h⟩
        · exact .inl h
        · exact .inr ⟨z, by simp at hz ⊢; rcases hz with h | h <;> simp [h], h⟩

theorem joinSlash_head {l : List Bytes} (hn : ∀ c ∈ l, IsName c) (hne : l ≠ []) :
    ∃ a r, joinSlash l = a :: r ∧ a ≠ c!"/" := by
  match l, hne with
  | [x], _ =>
    have hx := hn x (by simp)
    cases x with
    | nil => exact absurd rfl hx.1
    | cons a r => exact ⟨a, r, rfl, fun e => hx.2.2.2 (by simp [e])⟩
  | x :: y :: l, _ =>
    have hx := hn x (by simp)
    cases x with
    | nil => exact absurd rfl hx.1
    | cons a r => exact ⟨a, _, rfl, fun e => hx.2.2.2 (by simp [e])⟩

/-- A plain path to something physical resolves to it. -/
theorem sanitize_plain {fs : FS} {base names : List Bytes} (hb : base ≠ []) (hn : names ≠ [])
    (hp : Phys fs (base ++ names)) (hplain : ∀ x ∈ names, c!"%" ∉ x ∧ (0 : Byte) ∉ x) :
    sanitize fs base (absStr names) = some (absStr (base ++ names)) ∧
    (decodePath (absStr names)).dropWhile (· == c!"/") = joinSlash names := by
  have hnames : ∀ c ∈ names, IsName c := fun c hc => hp.names c (by simp [hc])
  have hbase : ∀ c ∈ base, IsName c := fun c hc => hp.names c (by simp [hc])
  have hns : ∀ c ∈ names, c!"/" ∉ c := fun c hc => (hnames c hc).2.2.2
  have hdec : decodePath (absStr names) = absStr names := by
    apply decodePath_plain
    unfold absStr
    intro h
    rcases List.mem_cons.1 h with h | h
    · revert h; decide
    · rcases joinSlash_mem h with h | ⟨x, hx, h⟩
      · revert h; decide
      · exact (hplain x hx).1 h
  obtain ⟨a, r, har, ha⟩ := joinSlash_head hnames hn
  have hdrop : (absStr names).dropWhile (· == c!"/") = joinSlash names := by
    unfold absStr
    rw [List.dropWhile_cons_of_pos (by decide), har, List.dropWhile_cons_of_neg (by simpa using ha)]
  refine ⟨?_, by rw [hdec, hdrop]⟩
  unfold sanitize
  simp only [hdec]
  rw [if_neg]
  rotate_left
  · unfold absStr
    intro h
    rcases List.mem_cons.1 h with h | h
    · revert h; decide
    · rcases joinSlash_mem h with h | ⟨x, hx, h⟩
      · revert h; decide
      · exact (hplain x hx).2 h
  rw [hdrop, if_neg (by rw [har]; simpa using ha)]
  have hnr : normalRel (joinSlash names) = joinSlash names := by
    unfold normalRel
    rw [if_neg (by rw [har]; simp), split_join names hn hns, normComps_names hnames]
    simp only
    rw [if_neg hn]
  rw [hnr]
  have hne : ¬ (joinSlash names = [] ∨ joinSlash names = DOT) := by
    rintro (h | h)
    · rw [har] at h; cases h
    · have e := congrArg splitSlash h
      rw [split_join names hn hns] at e
      have : names = [DOT] := by rw [e]; decide
      exact (hnames DOT (by rw [this]; simp)).2.1 rfl
  rw [if_neg hne, if_neg hb]
  have hstr : absStr base ++ c!"/" :: joinSlash names = absStr (base ++ names) := by
    unfold absStr; rw [joinSlash_append hb hn]; rfl
  rw [hstr, comps_absStr (by simp [hb]) (fun c hc => (hp.names c hc).2.2.2), weaklyCanonical_phys hp]
  simp only
  rw [if_pos (by rw [List.isPrefixOf_iff_prefix]; exact ⟨_, hstr⟩), if_neg (by rw [← hstr]; simp), if_pos]
  rw [← hstr]
  refine ⟨by simp, ?_⟩
  rw [List.getElem?_append_right (Nat.le_refl _)]
  simp

theorem symlinkSeen_phys {fs : FS} : ∀ (names base : List Bytes), Phys fs (base ++ names) →
    symlinkSeen fs base names = false
  | [], _, _ => rfl
  | c :: names, base, h => by
    have h' : Phys fs ((base ++ [c]) ++ names) := by simpa using h
    have hc := h.names c (by simp)
    rw [symlinkSeen, if_neg (by rintro (h | h); exact hc.1 h; exact hc.2.1 h), symlinkSeen_phys names _ h']
    have hb := (h.prefix (List.prefix_append base _)).stat
    have hbc := h'.prefix (List.prefix_append (base ++ [c]) _)
    have : isSymlink fs base c = false := by
      unfold isSymlink
      rw [hb]
      simp only
      split
      · cases hbc' : base ++ [c] with
        | nil => simp at hbc'
        | cons x y =>
          have hk : ∀ t, fs.node (base ++ [c]) ≠ some (.link t) := by
            generalize hg : base ++ [c] = g at hbc
            cases hbc with
            | root _ => simp at hg
            | snoc p d n _ _ _ hn hl => intro t ht; rw [ht] at hn; cases hn; exact hl t rfl
          rw [← hbc']
          cases hnn : fs.node (base ++ [c]) with
          | none => rfl
          | some n => cases n with
            | link t => exact absurd hnn (hk t)
            | dir => rfl
            | file a b => rfl
            | special => rfl
      · rfl
    rw [this]; rfl

end Verif.Static
