import Verif.Static.Lemmas

namespace Verif.Static
open Verif Verif.Utility

/-! ## Lexical normalisation -/

/-- Normalising a relative path: parent references first, then names. -/
theorem normFold_rel : ∀ (l : List Bytes) (st : List Bytes × Bool), (∀ c ∈ l, c!"/" ∉ c) →
    (∃ names n, st.1 = names ++ List.replicate n DOTDOT ∧ ∀ c ∈ names, IsName c) →
    ∃ names n, (l.foldl (normStep false) st).1 = names ++ List.replicate n DOTDOT ∧ ∀ c ∈ names, IsName c
  | [], st, _, h => h
  | c :: l, st, hs, ⟨names, n, e, hn⟩ => by
    rw [List.foldl_cons]
    apply normFold_rel l _ (fun x hx => hs x (by simp [hx]))
    unfold normStep
    split
    · exact ⟨names, n, e, hn⟩
    · rename_i h1
      split
      · rename_i h2
        rw [e]
        cases names with
        | nil =>
          cases n with
          | zero => exact ⟨[], 1, rfl, by simp⟩
          | succ n =>
            simp only [List.nil_append, List.replicate_succ, if_true]
            exact ⟨[], n + 2, by simp [List.replicate_succ], by simp⟩
        | cons x names =>
          simp only [List.cons_append]
          rw [if_neg (show ¬ x = DOTDOT from (hn x (by simp)).2.2.1)]
          exact ⟨names, n, rfl, fun y hy => hn y (by simp [hy])⟩
      · rename_i h2
        refine ⟨c :: names, n, by simp [e], ?_⟩
        intro y hy
        rcases List.mem_cons.1 hy with rfl | hy
        · exact ⟨fun e => h1 (.inl e), fun e => h1 (.inr e), h2, hs y (by simp)⟩
        · exact hn y hy

/-- The shape of a normalised relative path. -/
def RelShape (l : List Bytes) : Prop :=
  ∃ n names tail, l = List.replicate n DOTDOT ++ names ++ tail ∧ (∀ c ∈ names, IsName c) ∧ (tail = [] ∨ tail = [[]])

theorem normComps_rel (l : List Bytes) (hs : ∀ c ∈ l, c!"/" ∉ c) : RelShape (normComps false l) := by
  obtain ⟨names, n, e, hn⟩ := normFold_rel l ([], false) hs ⟨[], 0, rfl, by simp⟩
  unfold normComps
  simp only
  rw [e]
  split
  · refine ⟨n, names.reverse, [[]], by simp, by simpa using hn, .inr rfl⟩
  · refine ⟨n, names.reverse, [], by simp, by simpa using hn, .inl rfl⟩

theorem RelShape.noslash {l : List Bytes} (h : RelShape l) : ∀ c ∈ l, c!"/" ∉ c := by
  obtain ⟨n, names, tail, rfl, hn, ht⟩ := h
  intro c hc
  rcases List.mem_append.1 hc with hc | hc
  · rcases List.mem_append.1 hc with hc | hc
    · rw [List.eq_of_mem_replicate hc]; decide
    · exact (hn c hc).2.2.2
  · rcases ht with rfl | rfl
    · cases hc
    · simp at hc; subst hc; simp

/-- Normalising an absolute path made of names, with at most a trailing separator, changes nothing. -/
theorem normFold_names {abs : Bool} : ∀ (l acc : List Bytes) (b : Bool), (∀ c ∈ l, IsName c) → l ≠ [] →
    l.foldl (normStep abs) (acc, b) = (l.reverse ++ acc, false)
  | [], _, _, _, h => absurd rfl h
  | [c], acc, b, hn, _ => by
    have hc := hn c (by simp)
    simp only [List.foldl_cons, List.foldl_nil, normStep]
    rw [if_neg (by rintro (h | h); exact hc.1 h; exact hc.2.1 h), if_neg (show ¬ c = DOTDOT from hc.2.2.1)]
    rfl
  | c :: d :: l, acc, b, hn, _ => by
    have hc := hn c (by simp)
    rw [List.foldl_cons]
    have : normStep abs (acc, b) c = (c :: acc, false) := by
      simp only [normStep]
      rw [if_neg (by rintro (h | h); exact hc.1 h; exact hc.2.1 h), if_neg (show ¬ c = DOTDOT from hc.2.2.1)]
    rw [this, normFold_names (d :: l) (c :: acc) false (fun x hx => hn x (by simp [hx])) (by simp)]
    simp

theorem normComps_names {abs : Bool} {l : List Bytes} (hn : ∀ c ∈ l, IsName c) : normComps abs l = l := by
  cases l with
  | nil => rfl
  | cons a l =>
    unfold normComps
    rw [normFold_names (a :: l) [] false hn (by simp)]
    simp

theorem normComps_names_sep {abs : Bool} {l : List Bytes} (hn : ∀ c ∈ l, IsName c) (hne : l ≠ []) :
    normComps abs (l ++ [[]]) = l ++ [[]] := by
  unfold normComps
  rw [List.foldl_append, normFold_names l [] false hn hne]
  simp only [List.foldl_cons, List.foldl_nil, normStep, true_or, if_true, List.append_nil, Bool.true_and]
  rw [if_pos (by simpa using hne)]
  simp

/-! ## Weakly canonical -/

/-- The loop splits the path into an existing part and a rest whose first component is missing. -/
theorem existingPrefix_spec (fs : FS) : ∀ (l done d r : List Bytes), existingPrefix fs done l = some (d, r) →
    done ++ l = d ++ r ∧ done.length ≤ d.length ∧
    (r = [] ∨ ∃ c r', r = c :: r' ∧ stat fs (d ++ [c]) = .notFound)
  | [], done, d, r, h => by
    simp only [existingPrefix, Option.some.injEq, Prod.mk.injEq] at h
    obtain ⟨rfl, rfl⟩ := h
    simp
  | c :: l, done, d, r, h => by
    rw [existingPrefix] at h
    split at h
    · obtain ⟨h1, h2, h3⟩ := existingPrefix_spec fs l _ d r h
      refine ⟨by rw [← h1]; simp, by simp at h2; omega, h3⟩
    · rename_i he
      simp only [Option.some.injEq, Prod.mk.injEq] at h
      obtain ⟨rfl, rfl⟩ := h
      exact ⟨rfl, Nat.le_refl _, .inr ⟨c, l, rfl, he⟩⟩
    · cases h

/-- Walking up from a directory always succeeds. -/
theorem walk_ups {fs : FS} (k : Nat) : ∀ (n : Nat) (p : List Bytes), Phys fs p → fs.node p = some .dir →
    ∃ q, Phys fs q ∧ fs.node q = some .dir ∧ walk fs k p (List.replicate n DOTDOT) = .ok q
  | 0, p, hp, hd => ⟨p, hp, hd, by rw [List.replicate_zero, walk_nil]⟩
  | n + 1, p, hp, hd => by
    rw [List.replicate_succ, walk_up hd]
    apply walk_ups k n _ hp.dropLast
    cases hp with
    | root h => exact h
    | snoc p c m _ h _ _ _ => simpa using h

/-- What `weakly_canonical` makes of a path under a physical directory, as the middleware builds them: a
physical path, or a path that cannot be reached. -/
theorem weaklyCanonical_spec {fs : FS} {base rel l : List Bytes} (hb : Phys fs base) (hd : fs.node base = some .dir)
    (hrel : RelShape rel) (h : weaklyCanonical fs (base ++ rel) = some l) :
    Phys fs l ∨ (l ≠ [] ∧ (∀ c ∈ l, c!"/" ∉ c) ∧ stat fs l = .notFound) := by
  unfold weaklyCanonical at h
  split at h
  · cases h
  · rename_i done rest he
    split at h
    rotate_left
    · cases h
    · rename_i p hp
      cases h
      obtain ⟨h1, _, h3⟩ := existingPrefix_spec fs _ _ _ _ he
      rw [List.nil_append] at h1
      have hslash : ∀ c ∈ base ++ rel, c!"/" ∉ c := by
        intro c hc
        rcases List.mem_append.1 hc with hc | hc
        · exact (hb.names c hc).2.2.2
        · exact hrel.noslash c hc
      have hdone : ∀ c ∈ done, c!"/" ∉ c := fun c hc => hslash c (by rw [h1]; simp [hc])
      have hpp : Phys fs p := walk_phys fs _ _ _ _ hdone (.root hb.rootDir) hp
      rcases h3 with rfl | ⟨c, r', rfl, hnf⟩
      · left
        rw [List.append_nil, normComps_names hpp.names]
        exact hpp
      · -- the missing component is neither in the base nor a parent reference
        obtain ⟨n, names, tail, rfl, hn, ht⟩ := hrel
        have hnames : (∀ x ∈ c :: r', IsName x ∨ x = []) ∧ ∃ ns tl, c :: r' = ns ++ tl ∧ (∀ x ∈ ns, IsName x) ∧
            (tl = [] ∨ tl = [[]]) := by
          have hlen : base.length + n ≤ done.length := by
            rcases Nat.lt_or_ge done.length (base.length + n) with hlt | hge
            · exfalso
              -- then done ++ [c] is a prefix of base ++ replicate n ..
              have hpre : done ++ [c] <+: base ++ List.replicate n DOTDOT := by
                have e : base ++ List.replicate n DOTDOT ++ (names ++ tail) = done ++ [c] ++ r' := by
                  rw [List.append_assoc done, List.singleton_append, ← h1]; simp
                have := List.prefix_append (done ++ [c]) r'
                rw [← e] at this
                exact List.prefix_of_prefix_length_le this (List.prefix_append _ _) (by simp; omega)
              obtain ⟨post, hpost⟩ := hpre
              obtain ⟨q, hq, hqd, hw⟩ := walk_ups (fs := fs) MAXLINKS n base hb hd
              have hok : walk fs MAXLINKS [] (base ++ List.replicate n DOTDOT) = .ok q := by
                rw [hb.walk, hw]
              rw [← hpost] at hok
              have hsl : ∀ x ∈ done ++ [c], c!"/" ∉ x := by
                intro x hx
                apply hslash x
                rw [h1]
                rcases List.mem_append.1 hx with hx | hx
                · simp [hx]
                · simp at hx; simp [hx]
              have := (walk_append fs post MAXLINKS (done ++ [c]) [] hsl).2.1 hnf
              rw [this] at hok; cases hok
            · exact hge
          have e : c :: r' = (names ++ tail).drop (done.length - (base.length + n)) := by
            have := congrArg (List.drop done.length) h1
            rw [List.drop_left] at this
            rw [← this]
            simp only [List.append_assoc]
            rw [List.drop_append, List.drop_append]
            simp only [List.length_replicate]
            rw [List.drop_eq_nil_of_le (by omega), List.drop_eq_nil_of_le (by simp; omega)]
            simp [Nat.sub_sub]
          rw [List.drop_append] at e
          have h2 : ∀ x ∈ names.drop (done.length - (base.length + n)), IsName x := fun x hx => hn x (List.mem_of_mem_drop hx)
          have h3 : tail.drop (done.length - (base.length + n) - names.length) = [] ∨
              tail.drop (done.length - (base.length + n) - names.length) = [[]] := by
            rcases ht with rfl | rfl
            · simp
            · rcases Nat.eq_zero_or_pos (done.length - (base.length + n) - names.length) with h0 | h0
              · rw [h0]; simp
              · left; exact List.drop_eq_nil_of_le (by simp; omega)
          refine ⟨?_, _, _, e, h2, h3⟩
          intro x hx
          rw [e] at hx
          rcases List.mem_append.1 hx with hx | hx
          · exact .inl (h2 x hx)
          · rcases h3 with h3 | h3 <;> rw [h3] at hx
            · cases hx
            · simp at hx; exact .inr hx
        obtain ⟨hall, ns, tl, ens, hns, htl⟩ := hnames
        right
        -- walking on from p
        have hwalk : walk fs MAXLINKS p [c] = .notFound := by
          obtain ⟨j, hj, e⟩ := (walk_append fs [c] MAXLINKS done [] hdone).1 p hp
          have : walk fs j p [c] = .notFound := by rw [← e]; exact hnf
          have hc1 : ∀ x ∈ [c], c!"/" ∉ x := by
            intro x hx; simp at hx; subst hx; exact hslash x (by rw [h1]; simp)
          rw [walk_mono fs j [c] p MAXLINKS hc1 hj (by rw [this]; simp), this]
        have hl : normComps true (p ++ c :: r') = p ++ c :: r' ∨ (p = [] ∧ c :: r' = [[]]) := by
          rw [ens]
          rcases htl with rfl | rfl
          · left
            rw [List.append_nil]
            apply normComps_names
            intro x hx
            rcases List.mem_append.1 hx with hx | hx
            · exact hpp.names x hx
            · exact hns x hx
          · by_cases h0 : p ++ ns = []
            · right
              simp only [List.append_eq_nil_iff] at h0
              exact ⟨h0.1, by rw [h0.2]; rfl⟩
            · left
              rw [← List.append_assoc]
              apply normComps_names_sep _ h0
              intro x hx
              rcases List.mem_append.1 hx with hx | hx
              · exact hpp.names x hx
              · exact hns x hx
        rcases hl with hl | ⟨rfl, hl⟩
        · rw [hl]
          refine ⟨by simp, ?_, ?_⟩
          · intro x hx
            rcases List.mem_append.1 hx with hx | hx
            · exact (hpp.names x hx).2.2.2
            · exact hslash x (by rw [h1]; simp only [List.mem_append]; exact .inr hx)
          · unfold stat
            rw [hpp.walk]
            have hc1 : ∀ x ∈ [c], c!"/" ∉ x := by
              intro x hx; simp at hx; subst hx; exact hslash x (by rw [h1]; simp)
            have := (walk_append fs r' MAXLINKS [c] p hc1).2.1 hwalk
            simpa using this
        · simp only [List.cons.injEq] at hl
          obtain ⟨rfl, _⟩ := hl
          rw [walk_skip hb.rootDir (.inl rfl), walk_nil] at hwalk
          cases hwalk

/-! ## Sanitizing -/

theorem joinSlash_nil {l : List Bytes} (hn : ∀ c ∈ l, IsName c) (h : joinSlash l = []) : l = [] := by
  match l, h with
  | [], _ => rfl
  | [a], h => exact absurd h (hn a (by simp)).1
  | a :: b :: r, h => rw [joinSlash] at h; simp at h

/-- A string prefix that ends at a separator is a component prefix. -/
theorem prefix_comps {base l : List Bytes} (hb : ∀ c ∈ base, IsName c) (hl : ∀ c ∈ l, c!"/" ∉ c) {t : Bytes}
    (h : absStr l = absStr base ++ t) (ht : t = [] ∨ t.head? = some c!"/") : Inside base l := by
  by_cases hb0 : base = []
  · subst hb0; exact ⟨l, rfl⟩
  have hbs : ∀ c ∈ base, c!"/" ∉ c := fun c hc => (hb c hc).2.2.2
  unfold absStr at h
  simp only [List.cons_append, List.cons.injEq, true_and] at h
  by_cases hl0 : l = []
  · subst hl0
    simp only [joinSlash] at h
    have := (List.append_eq_nil_iff.1 h.symm).1
    exact absurd (joinSlash_nil hb this) hb0
  have e := congrArg splitSlash h
  rw [split_join l hl0 hl] at e
  rcases ht with rfl | ht
  · rw [List.append_nil, split_join base hb0 hbs] at e
    exact ⟨[], by simp [e]⟩
  · cases t with
    | nil => cases ht
    | cons x t' =>
      simp at ht; subst ht
      rw [comps_join base t' hbs hb0] at e
      exact ⟨_, e⟩

/-- The path the middleware combines, as components. -/
theorem combined_comps {base : List Bytes} (hb : ∀ c ∈ base, IsName c) (toAppend : Bytes) :
    ∃ rel, RelShape rel ∧ comps (if normalRel toAppend = [] ∨ normalRel toAppend = DOT then absStr base
        else if base = [] then absStr base ++ normalRel toAppend else absStr base ++ c!"/" :: normalRel toAppend) = base ++ rel := by
  have hbs : ∀ c ∈ base, c!"/" ∉ c := fun c hc => (hb c hc).2.2.2
  split
  · by_cases hb0 : base = []
    · subst hb0
      exact ⟨[[]], ⟨0, [], [[]], by simp, by simp, .inr rfl⟩, by rw [comps_root]; rfl⟩
    · exact ⟨[], ⟨0, [], [], by simp, by simp, .inl rfl⟩, by rw [comps_absStr hb0 hbs]; simp⟩
  · rename_i hne
    have hs : RelShape (normComps false (splitSlash toAppend)) := normComps_rel _ (splitSlash_noslash _)
    have hnr : normalRel toAppend = joinSlash (normComps false (splitSlash toAppend)) ∧
        normComps false (splitSlash toAppend) ≠ [] := by
      unfold normalRel at hne ⊢
      by_cases h0 : toAppend = []
      · simp [h0] at hne
      · rw [if_neg h0] at hne ⊢
        simp only at hne ⊢
        by_cases h1 : normComps false (splitSlash toAppend) = []
        · rw [if_pos h1] at hne; simp at hne
        · rw [if_neg h1]; exact ⟨rfl, h1⟩
    refine ⟨_, hs, ?_⟩
    rw [hnr.1]
    split
    · rename_i hb0
      subst hb0
      have : absStr [] ++ joinSlash (normComps false (splitSlash toAppend)) = absStr (normComps false (splitSlash toAppend)) := rfl
      rw [this, comps_absStr hnr.2 hs.noslash]; rfl
    · rename_i hb0
      unfold comps absStr
      rw [List.cons_append, splitSlash, if_pos rfl, comps_join base _ hbs hb0, split_join _ hnr.2 hs.noslash]
      rfl

/-- What `sanitize` yields: the string of a path inside the base, physical or unreachable. -/
theorem sanitize_spec {fs : FS} {base : List Bytes} {rel s : Bytes} (hb : Phys fs base) (hd : fs.node base = some .dir)
    (h : sanitize fs base rel = some s) :
    ∃ l, s = absStr l ∧ Inside base l ∧ (Phys fs l ∨ (l ≠ [] ∧ (∀ c ∈ l, c!"/" ∉ c) ∧ stat fs l = .notFound)) := by
  unfold sanitize at h
  simp only at h
  split at h
  · cases h
  split at h
  · cases h
  obtain ⟨r, hr, hc⟩ := combined_comps hb.names ((decodePath rel).dropWhile (· == c!"/"))
  rw [hc] at h
  split at h
  · cases h
  rename_i l hw
  have hsp := weaklyCanonical_spec hb hd hr hw
  have hls : ∀ c ∈ l, c!"/" ∉ c := by
    rcases hsp with h | h
    · exact fun c hc => (h.names c hc).2.2.2
    · exact h.2.1
  split at h
  rotate_left
  · cases h
  rename_i hpre
  obtain ⟨t, ht⟩ := List.isPrefixOf_iff_prefix.1 hpre
  refine ⟨l, ?_, ?_, hsp⟩
  · split at h
    · exact (Option.some.inj h).symm
    · split at h
      · exact (Option.some.inj h).symm
      · cases h
  · apply prefix_comps hb.names hls ht.symm
    split at h
    · rename_i he
      left
      rw [← ht, List.length_append] at he
      exact List.length_eq_zero_iff.1 (by omega)
    · split at h
      · rename_i he
        right
        have := he.2
        rw [← ht, List.getElem?_append_right (Nat.le_refl _), Nat.sub_self] at this
        rw [List.head?_eq_getElem?]; exact this
      · cases h

/-- The file the middleware looks at is physically inside the base. -/
theorem sanitize_stat {fs : FS} {base : List Bytes} {rel s : Bytes} (hb : Phys fs base) (hd : fs.node base = some .dir)
    (h : sanitize fs base rel = some s) {p : List Bytes} (hp : stat fs (comps s) = .ok p) :
    Phys fs p ∧ Inside base p ∧ (comps s = p ∨ (p = [] ∧ comps s = [[]])) := by
  obtain ⟨l, rfl, hin, hc⟩ := sanitize_spec hb hd h
  by_cases hl0 : l = []
  · subst hl0
    rw [comps_root] at hp
    unfold stat at hp
    rw [walk_skip hb.rootDir (.inl rfl), walk_nil] at hp
    cases hp
    exact ⟨.root hb.rootDir, hin, .inr ⟨rfl, comps_root⟩⟩
  · have hls : ∀ c ∈ l, c!"/" ∉ c := by
      rcases hc with h | h
      · exact fun c hc => (h.names c hc).2.2.2
      · exact h.2.1
    rw [comps_absStr hl0 hls] at hp ⊢
    rcases hc with hc | hc
    · rw [hc.stat] at hp; cases hp
      exact ⟨hc, hin, .inl rfl⟩
    · rw [hc.2.2] at hp; cases hp

end Verif.Static
