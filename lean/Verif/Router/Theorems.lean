import Verif.Router.History

/-! Property theorems C07–C12 about the radix-tree router. `regs` is an arbitrary sequence of
`add_route` calls on a fresh tree (some of which may throw); `accepted .empty regs` are the calls
that returned normally. -/

namespace Verif.Router
open Spec Verif.Utility Verif.Utility.Spec

variable {H : Type}

theorem matchPath_valid {t : Node H} {path : Bytes} {m : Int} {r} (h : matchPath t path m = some r) :
    (0 ≤ m ∧ m < 64) ∧ matchRec path (methodSlot m) t (splitPath path) [] = some r := by
  unfold matchPath at h
  dsimp only at h
  split at h
  · simp at h
  · rename_i hs
    exact ⟨methodSlot_lt.1 (Nat.lt_of_not_le hs), h⟩

theorem matchPath_eq {t : Node H} {path : Bytes} {m : Int} (h : 0 ≤ m ∧ m < 64) :
    matchPath t path m = matchRec path (methodSlot m) t (splitPath path) [] := by
  unfold matchPath
  dsimp only
  rw [if_neg (Nat.not_le.2 (methodSlot_lt.2 h))]

theorem prefer_refl (p : List Seg) : Prefer p p := by
  induction p with
  | nil => exact .nil
  | cons a p ih => exact .eq rfl ih

/-- Everything about one successful match, from which C07–C09 follow. -/
theorem match_full (regs : List (Reg H)) (path : Bytes) (m : Int) (ps : Params) (h : H)
    (hm : matchPath (build regs) path m = some (ps, h)) :
    ∃ pat bs, Registered (accepted .empty regs) pat m h ∧ PatMatch path pat bs ∧
      (∀ k v, ps.get k = some v ↔ (k, v) ∈ bs) ∧
      ∀ q bs' h', Registered (accepted .empty regs) q m h' → PatMatch path q bs' → Prefer pat q := by
  obtain ⟨hv, hm⟩ := matchPath_valid hm
  have hb := matchRec_best path (methodSlot m) (build regs) (splitPath path) []
  rw [hm] at hb
  obtain ⟨pat, bs, h1, h2, h3, h4⟩ := hb
  have hreg := (stores_build regs m hv pat h).1 h1
  have hpm := segMatch_pat h2
  refine ⟨pat, bs, hreg, hpm, ?_, ?_⟩
  · intro k v
    obtain ⟨_, r, _, _, hp, _⟩ := hreg
    rw [h3, applyBs_get bs [] (by rw [patMatch_names hpm]; exact hp.2.2)]
    simp [Params.get, List.lookup]
  · intro q bs' h' hq hpq
    obtain ⟨bs'', hs⟩ := pat_segMatch hpq
    exact h4 q bs'' hs (by rw [(stores_build regs m hv q h').2 hq]; simp)

/-- C07: a returned route is a registered one whose pattern matches the path, and the captured
parameters are exactly the bindings of that match. -/
theorem C07_match_sound (regs : List (Reg H)) (path : Bytes) (m : Int) (ps : Params) (h : H)
    (hm : matchPath (build regs) path m = some (ps, h)) :
    ∃ pat bs, Registered (accepted .empty regs) pat m h ∧ PatMatch path pat bs ∧
      ∀ k v, ps.get k = some v ↔ (k, v) ∈ bs := by
  obtain ⟨pat, bs, h1, h2, h3, _⟩ := match_full regs path m ps h hm
  exact ⟨pat, bs, h1, h2, h3⟩

/-- C07: bindings are determined by pattern and path (the specification is functional), so the
previous theorem pins the parameters down. -/
theorem C07_bindings_unique (path : Bytes) (pat : List Seg) (bs bs' : List (Bytes × Bytes))
    (h1 : PatMatch path pat bs) (h2 : PatMatch path pat bs') : bs = bs' := by
  have pm_det : ∀ {p ss bs bs'}, PointMatch p ss bs → PointMatch p ss bs' → bs = bs' := by
    intro p ss bs bs' h
    induction h generalizing bs' with
    | nil => intro h; cases h; rfl
    | lit _ ih => intro h; cases h with | lit h => exact ih h
    | par _ ih => intro h; cases h with | par h => rw [ih h]
  have pm_nowild : ∀ {p ss bs}, PointMatch p ss bs → ∀ n, Seg.wild n ∉ p := by
    intro p ss bs h
    induction h with
    | nil => simp
    | lit _ ih => intro n; simpa using ih n
    | par _ ih => intro n; simpa using ih n
  have pm_len : ∀ {p ss bs}, PointMatch p ss bs → p.length = ss.length := by
    intro p ss bs h
    induction h with
    | nil => rfl
    | lit _ ih => simp [ih]
    | par _ ih => simp [ih]
  have snoc : ∀ {p p' : List Seg} {n n'}, p ++ [Seg.wild n] = p' ++ [Seg.wild n'] → p = p' ∧ n = n' := by
    intro p p' n n' h
    obtain ⟨h1, h2⟩ := List.append_inj' h rfl
    simp at h2
    exact ⟨h1, h2⟩
  cases h1 with
  | exact s1 p1 =>
    rw [isSegments_iff] at s1; subst s1
    generalize hq : pat = pat' at h2
    cases h2 with
    | exact s2 p2 =>
      rw [isSegments_iff] at s2; subst s2; subst hq
      exact pm_det p1 p2
    | @wildEmpty _ _ _ n _ _ => exact absurd (by rw [hq]; simp) (pm_nowild p1 n)
    | @wildRest _ _ _ _ n _ _ _ _ _ => exact absurd (by rw [hq]; simp) (pm_nowild p1 n)
  | @wildEmpty pat segs bs n s1 p1 =>
    rw [isSegments_iff] at s1; subst s1
    generalize hq : pat ++ [Seg.wild n] = pat' at h2
    cases h2 with
    | exact s2 p2 => exact absurd (by rw [← hq]; simp) (pm_nowild p2 n)
    | wildEmpty s2 p2 =>
      rw [isSegments_iff] at s2; subst s2
      obtain ⟨rfl, rfl⟩ := snoc hq
      rw [pm_det p1 p2]
    | wildRest s2 ne p2 r2 =>
      rw [isSegments_iff] at s2
      obtain ⟨rfl, rfl⟩ := snoc hq
      have l1 := pm_len p1
      have l2 := pm_len p2
      rw [← s2] at l1
      rename_i after _ _
      have : after.length = 0 := by simp at l1; omega
      exact absurd (List.length_eq_zero_iff.1 this) ne
  | @wildRest pat before after bs n rem s1 ne p1 r1 =>
    rw [isSegments_iff] at s1
    generalize hq : pat ++ [Seg.wild n] = pat' at h2
    cases h2 with
    | exact s2 p2 => exact absurd (by rw [← hq]; simp) (pm_nowild p2 n)
    | wildEmpty s2 p2 =>
      rw [isSegments_iff] at s2; subst s2
      obtain ⟨rfl, rfl⟩ := snoc hq
      have l1 := pm_len p1
      have l2 := pm_len p2
      rw [← s1] at l2
      have : after.length = 0 := by simp at l2; omega
      exact absurd (List.length_eq_zero_iff.1 this) ne
    | wildRest s2 ne' p2 r2 =>
      rw [isSegments_iff] at s2
      obtain ⟨rfl, rfl⟩ := snoc hq
      have l1 := pm_len p1
      have l2 := pm_len p2
      rw [← s2] at s1
      obtain ⟨rfl, rfl⟩ := List.append_inj s1 (by omega)
      rw [pm_det p1 p2, remainder_unique r1 r2]

/-- C08: if any accepted route for the method matches the path, a route is returned. -/
theorem C08_match_complete (regs : List (Reg H)) (path : Bytes) (m : Int) (pat : List Seg) (h : H) (bs)
    (hr : Registered (accepted .empty regs) pat m h) (hp : PatMatch path pat bs) :
    (matchPath (build regs) path m).isSome := by
  have hv : 0 ≤ m ∧ m < 64 := by
    obtain ⟨l1, r, l2, e, _, hmm, _⟩ := hr
    have := accepted_pattern regs .empty r (by rw [e]; simp)
    rw [← hmm]; exact this.2
  rw [matchPath_eq hv]
  have hb := matchRec_best path (methodSlot m) (build regs) (splitPath path) []
  cases e : matchRec path (methodSlot m) (build regs) (splitPath path) [] with
  | some r => rfl
  | none =>
    rw [e] at hb
    obtain ⟨bs', hs⟩ := pat_segMatch hp
    have := hb pat bs' hs
    rw [(stores_build regs m hv pat h).2 hr] at this
    simp at this

/-- C09: the returned route is the first in priority order among all accepted routes that match. -/
theorem C09_match_priority (regs : List (Reg H)) (path : Bytes) (m : Int) (ps : Params) (h : H)
    (hm : matchPath (build regs) path m = some (ps, h)) :
    ∃ pat bs, Registered (accepted .empty regs) pat m h ∧ PatMatch path pat bs ∧
      ∀ q bs' h', Registered (accepted .empty regs) q m h' → PatMatch path q bs' → Prefer pat q := by
  obtain ⟨pat, bs, h1, h2, _, h4⟩ := match_full regs path m ps h hm
  exact ⟨pat, bs, h1, h2, h4⟩

/-- C09: the priority order is strict on accepted matching routes: two of equal priority are the
same route, so "the first" is unique. -/
theorem C09_priority_strict (regs : List (Reg H)) (path : Bytes) (m : Int) (p q : List Seg) (h h' : H)
    (bs bs') (hp : Registered (accepted .empty regs) p m h) (hq : Registered (accepted .empty regs) q m h')
    (mp : PatMatch path p bs) (mq : PatMatch path q bs') (h1 : Prefer p q) (h2 : Prefer q p) :
    p = q ∧ h = h' := by
  have hv : 0 ≤ m ∧ m < 64 := by
    obtain ⟨l1, r, l2, e, _, hmm, _⟩ := hp
    have := accepted_pattern regs .empty r (by rw [e]; simp)
    rw [← hmm]; exact this.2
  have f1 := (stores_build regs m hv p h).2 hp
  have f2 := (stores_build regs m hv q h').2 hq
  obtain ⟨b1, s1⟩ := pat_segMatch mp
  obtain ⟨b2, s2⟩ := pat_segMatch mq
  obtain ⟨rfl, _⟩ := find_unique path (methodSlot m) (methodSlot m) (build regs) (splitPath path) p q b1 b2
    s1 s2 (by rw [f1]; simp) (by rw [f2]; simp) h1 h2
  rw [f1] at f2
  exact ⟨rfl, by simpa using f2⟩

theorem build_snoc (regs : List (Reg H)) (r : Reg H) :
    build (regs ++ [r]) = (addRoute (build regs) r.pattern r.method r.handler).1 := by
  simp [build]

/-- C10: when a registration is accepted, every path for which its pattern is the preferred one is
answered by the new handler, whatever was registered for that pattern before. -/
theorem C10_replace (regs : List (Reg H)) (r : Reg H) (pat : List Seg) (path : Bytes) (bs)
    (hok : (addRoute (build regs) r.pattern r.method r.handler).2 = true)
    (hpat : IsPattern r.pattern pat) (hm : PatMatch path pat bs)
    (hpref : ∀ q bs' h', Registered (accepted .empty regs) q r.method h' → PatMatch path q bs' → Prefer pat q) :
    ∃ ps, matchPath (build (regs ++ [r])) path r.method = some (ps, r.handler) ∧
      ∀ k v, ps.get k = some v ↔ (k, v) ∈ bs := by
  rcases addRoute_find (build regs) r with ⟨h1, _⟩ | ⟨_, hv, pat', h3, h4⟩
  · rw [hok] at h1; simp at h1
  obtain rfl := isPattern_det hpat h3
  rw [build_snoc]
  have hb := matchRec_best path (methodSlot r.method) (addRoute (build regs) r.pattern r.method r.handler).1
    (splitPath path) []
  obtain ⟨b1, s1⟩ := pat_segMatch hm
  have fnew : find (methodSlot r.method) (addRoute (build regs) r.pattern r.method r.handler).1 pat =
      some r.handler := by rw [h4]; simp
  rw [matchPath_eq hv]
  cases e : matchRec path (methodSlot r.method) (addRoute (build regs) r.pattern r.method r.handler).1
      (splitPath path) [] with
  | none => rw [e] at hb; have := hb pat b1 s1; rw [fnew] at this; simp at this
  | some x =>
    obtain ⟨ps, h⟩ := x
    rw [e] at hb
    obtain ⟨q, b2, g1, g2, g3, g4⟩ := hb
    have p1 : Prefer q pat := g4 pat b1 s1 (by rw [fnew]; simp)
    have p2 : Prefer pat q := by
      rw [h4] at g1
      split at g1
      · rename_i hc; rw [hc.2]; exact prefer_refl pat
      · exact hpref q b2 h ((stores_build regs r.method hv q h).1 g1) (segMatch_pat g2)
    obtain ⟨rfl, rfl⟩ := find_unique path _ _ _ _ q pat b2 b1 g2 s1 (by rw [g1]; simp) (by rw [fnew]; simp) p1 p2
    rw [fnew] at g1
    refine ⟨ps, by simp at g1; rw [g1], ?_⟩
    intro k v
    rw [g3, applyBs_get b2 [] (by rw [patMatch_names (segMatch_pat g2)]; exact hpat.2.2)]
    rw [C07_bindings_unique path q b2 bs (segMatch_pat g2) hm]
    simp [Params.get, List.lookup]

/-- C10: a registration (accepted or not) never changes how another method, or a path its pattern
does not match, is answered — neither the handler nor the captured parameters. -/
theorem C10_frame (regs : List (Reg H)) (r : Reg H) (path : Bytes) (m : Int)
    (h : m ≠ r.method ∨ ∀ pat bs, IsPattern r.pattern pat → ¬ PatMatch path pat bs) :
    matchPath (build (regs ++ [r])) path m = matchPath (build regs) path m := by
  rw [build_snoc]
  by_cases hv : 0 ≤ m ∧ m < 64
  · rw [matchPath_eq hv, matchPath_eq hv]
    apply matchRec_congr
    intro q bs hs
    rcases addRoute_find (build regs) r with ⟨_, h2⟩ | ⟨_, hv', pat, h3, h4⟩
    · exact h2 _ _
    · rw [h4, if_neg]
      rintro ⟨e1, rfl⟩
      rcases h with h | h
      · exact h ((methodSlot_inj hv hv').1 e1)
      · exact h q bs h3 (segMatch_pat hs)
  · unfold matchPath
    dsimp only
    have : ¬ methodSlot m < slotCount := fun e => hv (methodSlot_lt.1 e)
    rw [if_pos (Nat.le_of_not_lt this), if_pos (Nat.le_of_not_lt this)]

/-- C10: a call that throws registers nothing: no path is answered differently. -/
theorem C10_throw_no_effect (regs : List (Reg H)) (r : Reg H) (path : Bytes) (m : Int)
    (hthrow : (addRoute (build regs) r.pattern r.method r.handler).2 = false) :
    matchPath (build (regs ++ [r])) path m = matchPath (build regs) path m := by
  rw [build_snoc]
  rcases addRoute_find (build regs) r with ⟨_, h2⟩ | ⟨h1, _⟩
  · unfold matchPath
    dsimp only
    split
    · rfl
    · exact matchRec_congr _ _ _ _ _ _ fun q bs _ => h2 _ _
  · rw [hthrow] at h1; simp at h1

/-- C10: an accepted call has a well-formed pattern (named captures, wildcard last, distinct capture
names) and a real method. -/
theorem C10_accepted_wellformed (regs : List (Reg H)) (r : Reg H) (h : r ∈ accepted .empty regs) :
    (∃ pat, IsPattern r.pattern pat) ∧ 0 ≤ r.method ∧ r.method < 64 :=
  accepted_pattern regs .empty r h

/-- C11: a method is listed as allowed for a path exactly when matching that method succeeds. -/
theorem C11_allowed_iff_match (regs : List (Reg H)) (path : Bytes) (m : Int) (hv : 0 ≤ m ∧ m < 64) :
    (∃ ps ms, allowedMethods (build regs) path = some (ps, ms) ∧ m.toNat ∈ ms) ↔
      (matchPath (build regs) path m).isSome := by
  have ha := (allowedRec_ok path (build regs) (splitPath path) []).2 (m.toNat)
  have hslot : m.toNat < slotCount := by unfold slotCount; omega
  unfold allowedMethods
  rw [show (∃ ps ms, allowedRec path (build regs) (splitPath path) [] = some (ps, ms) ∧ m.toNat ∈ ms) ↔ _ from ha,
    matchPath_eq hv, methodSlot_val hv]
  have hb := matchRec_best path m.toNat (build regs) (splitPath path) []
  cases e : matchRec path m.toNat (build regs) (splitPath path) [] with
  | none =>
    rw [e] at hb
    simp only [Option.isSome_none, Bool.false_eq_true, iff_false]
    rintro ⟨_, q, bs, h1, h2⟩
    exact h2 (hb q bs h1)
  | some r =>
    obtain ⟨ps, h⟩ := r
    rw [e] at hb
    obtain ⟨pat, bs, h1, h2, _⟩ := hb
    simp only [Option.isSome_some, iff_true]
    exact ⟨hslot, pat, bs, h2, by rw [h1]; simp⟩

/-- C11: the list is non-empty, strictly increasing, and contains only real methods. -/
theorem C11_allowed_sorted (regs : List (Reg H)) (path : Bytes) (ps : Params) (ms : List Nat)
    (h : allowedMethods (build regs) path = some (ps, ms)) :
    ms ≠ [] ∧ ms.Pairwise (· < ·) ∧ ∀ s ∈ ms, s < 64 := by
  have ha := allowedRec_ok path (build regs) (splitPath path) []
  obtain ⟨h1, h2⟩ := ha.1 ps ms h
  exact ⟨h1, h2, fun s hs => ((ha.2 s).1 ⟨ps, ms, h, hs⟩).1⟩

/-- C11: nothing is reported exactly when no method at all matches (404 rather than 405). -/
theorem C11_not_found_iff (regs : List (Reg H)) (path : Bytes) :
    allowedMethods (build regs) path = none ↔
      ∀ m : Int, matchPath (build regs) path m = none := by
  constructor
  · intro h m
    by_cases hv : 0 ≤ m ∧ m < 64
    · cases e : matchPath (build regs) path m with
      | none => rfl
      | some r =>
        obtain ⟨ps, ms, h1, _⟩ := (C11_allowed_iff_match regs path m hv).2 (by rw [e]; rfl)
        rw [h] at h1; simp at h1
    · cases e : matchPath (build regs) path m with
      | none => rfl
      | some r => exact absurd (matchPath_valid e).1 hv
  · intro h
    cases e : allowedMethods (build regs) path with
    | none => rfl
    | some r =>
      obtain ⟨ps, ms⟩ := r
      obtain ⟨h1, _, h3⟩ := C11_allowed_sorted regs path ps ms e
      obtain ⟨s, ms', rfl⟩ := List.exists_cons_of_ne_nil h1
      have hs := h3 s (by simp)
      have := (C11_allowed_iff_match regs path (s : Int) (by omega)).1 ⟨ps, _, e, by simp⟩
      rw [h] at this; simp at this

/-- C12: the segments of a path are its non-empty `/`-separated fields, in order. -/
theorem C12_segments_exact (path : Bytes) : IsSegments path ((splitPath path).map (View.text path)) :=
  (isSegments_iff _ _).2 (splitPath_texts path)

/-- C12: segments are never empty and never contain a slash. -/
theorem C12_segments_wf (path : Bytes) :
    ∀ s ∈ (splitPath path).map (View.text path), s ≠ [] ∧ c!"/" ∉ s := by
  intro s hs
  obtain ⟨fs, h1, h2⟩ := C12_segments_exact path
  rw [h2] at hs
  simp at hs
  exact ⟨hs.2, h1.2.1 s hs.1⟩

/-- Bindings of one pattern on two paths with the same segments have the same segments. -/
theorem same_bindings (a b : Bytes) (pat : List Seg) (bs bs' : List (Bytes × Bytes)) (hs : segsOf a = segsOf b)
    (h1 : PatMatch a pat bs) (h2 : PatMatch b pat bs') (hn : (pat.filterMap Seg.name).Nodup)
    (k v1 v2 : Bytes) (m1 : (k, v1) ∈ bs) (m2 : (k, v2) ∈ bs') : segsOf v1 = segsOf v2 := by
  have nodup_val : ∀ (l : List (Bytes × Bytes)) k v v', (l.map Prod.fst).Nodup → (k, v) ∈ l → (k, v') ∈ l → v = v' := by
    intro l
    induction l with
    | nil => simp
    | cons x l ih =>
      intro k v v' hn hv hv'
      simp only [List.map_cons, List.nodup_cons] at hn
      rcases List.mem_cons.1 hv with hv | hv <;> rcases List.mem_cons.1 hv' with hv' | hv'
      · rw [← hv] at hv'; simpa using hv'.symm
      · exact absurd (List.mem_map.2 ⟨_, hv', by rw [← hv]⟩) hn.1
      · exact absurd (List.mem_map.2 ⟨_, hv, by rw [← hv']⟩) hn.1
      · exact ih k v v' hn.2 hv hv'
  -- transport the first match to the second path, replacing only the wildcard value
  have trans : ∃ bs'', PatMatch b pat bs'' ∧ ∃ v, (k, v) ∈ bs'' ∧ segsOf v1 = segsOf v := by
    cases h1 with
    | exact s1 p1 =>
      rw [isSegments_iff] at s1
      exact ⟨bs, .exact ((isSegments_iff _ _).2 (by rw [s1, hs])) p1, v1, m1, rfl⟩
    | @wildEmpty pat segs bs n s1 p1 =>
      rw [isSegments_iff] at s1
      exact ⟨_, .wildEmpty ((isSegments_iff _ _).2 (by rw [s1, hs])) p1, v1, m1, rfl⟩
    | @wildRest pat before after bs n rem s1 ne p1 r1 =>
      rw [isSegments_iff] at s1
      have remsegs : ∀ (path rem : Bytes), segsOf path = before ++ after → Remainder path before rem → segsOf rem = after := by
        rintro path rem e ⟨pre, post, e1, e2, e3, e4, _⟩
        rw [isSegments_iff] at e2
        rw [e1, List.append_assoc, segsOf_boundary e4, segsOf_append_slashes e3, ← e2] at e
        exact List.append_cancel_left e
      have ht := splitPath_texts b
      rw [← hs, ← s1] at ht
      obtain ⟨vs1, vs2, f1, f2, f3⟩ := List.map_eq_append_iff.1 ht
      cases vs2 with
      | nil => simp at f3; exact absurd f3 (by simpa using ne)
      | cons v vs2 =>
        have hr := remainder_capture b vs1 v vs2 f1
        rw [f2] at hr
        refine ⟨_, .wildRest ((isSegments_iff _ _).2 (by rw [s1, hs])) ne p1 hr, ?_⟩
        simp only [List.mem_append, List.mem_singleton, Prod.mk.injEq] at m1 ⊢
        rcases m1 with m1 | ⟨rfl, rfl⟩
        · exact ⟨v1, .inl m1, rfl⟩
        · refine ⟨_, .inr ⟨rfl, rfl⟩, ?_⟩
          rw [remsegs a v1 s1.symm r1, remsegs b _ (by rw [← hs, s1]) hr]
  obtain ⟨bs'', hp, v, hv, e⟩ := trans
  rw [C07_bindings_unique b pat bs'' bs' hp h2] at hv
  rw [e, nodup_val bs' k v v2 (by rw [patMatch_names h2]; exact hn) hv m2]

/-- C12: two paths with the same segments get the same answer for every method: both find nothing,
or both find the same route with the same parameter names, and each parameter's values have the same
segments (so `:name` values, being single segments, are equal; a wildcard value may differ only in
redundant slashes). -/
theorem C12_same_segments (regs : List (Reg H)) (p1 p2 : Bytes) (m : Int)
    (hseg : ∀ l, IsSegments p1 l ↔ IsSegments p2 l) :
    (matchPath (build regs) p1 m = none ∧ matchPath (build regs) p2 m = none) ∨
    ∃ ps1 ps2 h, matchPath (build regs) p1 m = some (ps1, h) ∧ matchPath (build regs) p2 m = some (ps2, h) ∧
      (∀ k, (ps1.get k).isSome = (ps2.get k).isSome) ∧
      ∀ k v1 v2, ps1.get k = some v1 → ps2.get k = some v2 → ∀ l, IsSegments v1 l ↔ IsSegments v2 l := by
  have hs : segsOf p1 = segsOf p2 := by
    have := (hseg (segsOf p1)).1 ((isSegments_iff _ _).2 rfl)
    exact (isSegments_iff _ _).1 this
  have conv : ∀ (a b : Bytes), segsOf a = segsOf b → ∀ q bs, PatMatch a q bs → ∃ bs', PatMatch b q bs' := by
    intro a b hab q bs h
    have key : ∀ p ss bs, PointMatch p ss bs → ∀ ss', segsOf b = ss ++ ss' → ∀ n,
        ∃ bs', PatMatch b (p ++ [.wild n]) bs' := by
      intro p ss bs h ss' e n
      have ht := splitPath_texts b
      rw [e] at ht
      obtain ⟨vs1, vs2, e1, e2, e3⟩ := List.map_eq_append_iff.1 ht
      obtain ⟨bs', hh⟩ := pointMatch_wild (path := b) h n vs2 vs1 e2
      rw [← e1] at hh
      exact ⟨bs', segMatch_pat hh⟩
    cases h with
    | exact h1 h2 =>
      rw [isSegments_iff] at h1
      exact ⟨bs, .exact ((isSegments_iff _ _).2 (by rw [h1, hab])) h2⟩
    | wildEmpty h1 h2 =>
      rw [isSegments_iff] at h1
      exact key _ _ _ h2 [] (by rw [← hab, ← h1]; simp) _
    | wildRest h1 _ h2 _ =>
      rw [isSegments_iff] at h1
      exact key _ _ _ h2 _ (by rw [← hab, ← h1]) _
  cases e1 : matchPath (build regs) p1 m with
  | none =>
    cases e2 : matchPath (build regs) p2 m with
    | none => exact .inl ⟨rfl, rfl⟩
    | some r =>
      obtain ⟨ps, h⟩ := r
      obtain ⟨pat, bs, hr, hp, _⟩ := match_full regs p2 m ps h e2
      obtain ⟨bs', hp'⟩ := conv p2 p1 hs.symm pat bs hp
      have := C08_match_complete regs p1 m pat h bs' hr hp'
      rw [e1] at this; simp at this
  | some r =>
    obtain ⟨ps, h⟩ := r
    obtain ⟨pat, bs, hr, hp, hg1, hpref⟩ := match_full regs p1 m ps h e1
    obtain ⟨bs', hp'⟩ := conv p1 p2 hs pat bs hp
    cases e2 : matchPath (build regs) p2 m with
    | none =>
      have := C08_match_complete regs p2 m pat h bs' hr hp'
      rw [e2] at this; simp at this
    | some r2 =>
      obtain ⟨ps2, h2⟩ := r2
      obtain ⟨pat2, bs2, hr2, hp2, hg2, hpref2⟩ := match_full regs p2 m ps2 h2 e2
      obtain ⟨bs2', hp2'⟩ := conv p2 p1 hs.symm pat2 bs2 hp2
      obtain ⟨rfl, rfl⟩ := C09_priority_strict regs p1 m pat pat2 h h2 bs bs2' hr hr2 hp hp2'
        (hpref _ _ _ hr2 hp2') (hpref2 _ _ _ hr hp')
      have hn1 := patMatch_names hp
      have hn2 := patMatch_names hp2
      have hkeys : ∀ k, k ∈ bs.map Prod.fst ↔ k ∈ bs2.map Prod.fst := by intro k; rw [hn1, hn2]
      refine .inr ⟨ps, ps2, h, rfl, rfl, ?_, ?_⟩
      · intro k
        have hh := hkeys k
        rw [Bool.eq_iff_iff, Option.isSome_iff_exists, Option.isSome_iff_exists]
        simp only [hg1, hg2]
        simpa using hh
      · intro k v1 v2 g1 g2 l
        rw [hg1] at g1
        rw [hg2] at g2
        obtain ⟨_, r, _, _, hpat, _⟩ := hr
        rw [isSegments_iff, isSegments_iff,
          same_bindings p1 p2 pat bs bs2 hs hp hp2 hpat.2.2 k v1 v2 g1 g2]

/-! ### a concrete history meeting the hypotheses -/

/-- GET = 1, POST = 3 in llhttp numbering. -/
def demo : List (Reg Nat) :=
  [⟨b!"/users/:id", 1, 10⟩, ⟨b!"/users/me", 1, 20⟩, ⟨b!"/files/*rest", 1, 30⟩,
   ⟨b!"/users/:name/x", 1, 40⟩ /- throws: conflicting name -/, ⟨b!"/users/:id", 3, 50⟩]

example : (accepted .empty demo).map Reg.handler = [10, 20, 30, 50] := by decide +kernel
example : matchPath (build demo) b!"/users/me" 1 = some ([], 20) := by decide +kernel
example : matchPath (build demo) b!"//users/42/" 1 = some ([(b!"id", b!"42")], 10) := by decide +kernel
example : matchPath (build demo) b!"/files/a//b/" 1 = some ([(b!"rest", b!"a//b")], 30) := by decide +kernel
example : allowedMethods (build demo) b!"/users/me" = some ([], [1, 3]) := by decide +kernel
example : allowedMethods (build demo) b!"/nope" = none := by decide +kernel

end Verif.Router
