import Verif.Router.Accept

/-! C53: which registrations are accepted. -/

namespace Verif.Router
open Verif.Utility Verif.Router.Spec

variable {H : Type}

theorem addRoute_ok (t : Node H) (r : Reg H) :
    (addRoute t r.pattern r.method r.handler).2 = true ↔
      (0 ≤ r.method ∧ r.method < 64) ∧ ∃ pat, IsPattern r.pattern pat ∧ Fits t pat := by
  unfold addRoute
  rw [splitPath_texts, insert_ok, methodSlot_lt]
  constructor
  · rintro ⟨h1, pat, h2, ⟨h3, h4, _⟩, h5⟩
    exact ⟨h1, pat, ⟨⟨_, (isSegments_iff _ _).2 rfl, h2⟩, h3, h4⟩, h5⟩
  · rintro ⟨h1, pat, ⟨⟨segs, hs, h2⟩, h3, h4⟩, h5⟩
    rw [isSegments_iff] at hs
    subst hs
    exact ⟨h1, pat, h2, ⟨h3, h4, by simp⟩, h5⟩

theorem addRoute_names (t : Node H) (r : Reg H) (pat : List Seg)
    (hok : (addRoute t r.pattern r.method r.handler).2 = true) (hp : IsPattern r.pattern pat)
    (w : Bool) (c : List Seg) (b : Bytes) :
    nameAt w (addRoute t r.pattern r.method r.handler).1 c = some b ↔ (nameAt w t c = some b ∨ CapAt w pat c b) := by
  obtain ⟨⟨segs, hs, h2⟩, _⟩ := hp
  rw [isSegments_iff] at hs
  subst hs
  unfold addRoute at hok ⊢
  rw [splitPath_texts] at hok ⊢
  exact insert_names _ _ _ _ _ _ hok h2 w c b

theorem addRoute_keeps (t : Node H) (r : Reg H) (w : Bool) (c : List Seg) (b : Bytes)
    (hb : nameAt w t c = some b) : nameAt w (addRoute t r.pattern r.method r.handler).1 c = some b := by
  unfold addRoute; exact insert_keeps _ _ _ _ _ w c b hb

/-- The capture names of the accepted registrations are in the tree. -/
theorem build_has (regs : List (Reg H)) (t : Node H) (w : Bool) (c : List Seg) (b : Bytes)
    (h : nameAt w t c = some b ∨ ∃ r ∈ accepted t regs, ∃ pat, IsPattern r.pattern pat ∧ CapAt w pat c b) :
    nameAt w (regs.foldl (fun t r => (addRoute t r.pattern r.method r.handler).1) t) c = some b := by
  induction regs generalizing t with
  | nil =>
    rcases h with h | ⟨r, hr, _⟩
    · exact h
    · simp [accepted] at hr
  | cons r rs ih =>
    rw [List.foldl_cons]
    apply ih
    rcases h with h | ⟨x, hx, pat, hp, hc⟩
    · exact .inl (addRoute_keeps t r w c b h)
    · rw [accepted] at hx
      cases hb : (addRoute t r.pattern r.method r.handler).2 with
      | false => rw [hb] at hx; exact .inr ⟨x, by simpa using hx, pat, hp, hc⟩
      | true =>
        simp [hb] at hx
        rcases hx with rfl | hx
        · exact .inl ((addRoute_names t x pat hb hp w c b).2 (.inr hc))
        · exact .inr ⟨x, hx, pat, hp, hc⟩

/-- With only accepted calls, the names in the tree are exactly those of the registrations. -/
theorem build_names (regs : List (Reg H)) (t : Node H) (hall : accepted t regs = regs)
    (w : Bool) (c : List Seg) (b : Bytes)
    (h : nameAt w (regs.foldl (fun t r => (addRoute t r.pattern r.method r.handler).1) t) c = some b) :
    nameAt w t c = some b ∨ ∃ r ∈ regs, ∃ pat, IsPattern r.pattern pat ∧ CapAt w pat c b := by
  induction regs generalizing t with
  | nil => exact .inl h
  | cons r rs ih =>
    rw [List.foldl_cons] at h
    rw [accepted] at hall
    cases hb : (addRoute t r.pattern r.method r.handler).2 with
    | false =>
      simp only [hb, Bool.false_eq_true, if_false] at hall
      have : ∀ (t : Node H) (l : List (Reg H)), (accepted t l).length ≤ l.length := by
        intro t l
        induction l generalizing t with
        | nil => simp [accepted]
        | cons a l ih => rw [accepted]; split <;> simp <;> have := ih (addRoute t a.pattern a.method a.handler).1 <;> omega
      have := this (addRoute t r.pattern r.method r.handler).1 rs
      rw [hall] at this; simp at this
      omega
    | true =>
      simp only [hb, if_true, List.cons.injEq, true_and] at hall
      obtain ⟨_, pat, hp, _⟩ := (addRoute_ok t r).1 hb
      rcases ih _ hall h with h | ⟨x, hx, p2, hp2, hc⟩
      · rw [addRoute_names t r pat hb hp] at h
        rcases h with h | h
        · exact .inl h
        · exact .inr ⟨r, by simp, pat, hp, h⟩
      · exact .inr ⟨x, by simp [hx], p2, hp2, hc⟩

theorem clash_iff (p q : List Seg) : Clash p q ↔ ∃ w c a b, CapAt w p c a ∧ CapAt w q c b ∧ a ≠ b := by
  constructor
  · rintro ⟨c, p', q', x, y, hne, ⟨h1, h2⟩ | ⟨h1, h2⟩⟩
    · exact ⟨false, c, x, y, ⟨_, _, h1, by simp [capName]⟩, ⟨_, _, h2, by simp [capName]⟩, hne⟩
    · exact ⟨true, c, x, y, ⟨_, _, h1, by simp [capName]⟩, ⟨_, _, h2, by simp [capName]⟩, hne⟩
  · rintro ⟨w, c, a, b, ⟨s1, r1, e1, c1⟩, ⟨s2, r2, e2, c2⟩, hne⟩
    refine ⟨c, r1, r2, a, b, hne, ?_⟩
    cases w <;> cases s1 <;> simp [capName] at c1 <;> cases s2 <;> simp [capName] at c2
    · subst c1; subst c2; exact .inl ⟨e1, e2⟩
    · subst c1; subst c2; exact .inr ⟨e1, e2⟩

/-- C53: whatever was registered or refused before, a call that is accepted has a well-formed
pattern, a real method, and no capture named differently from that of an earlier accepted route. -/
theorem C53_accepted_sound (regs : List (Reg H)) (r : Reg H)
    (h : (addRoute (build regs) r.pattern r.method r.handler).2 = true) :
    (0 ≤ r.method ∧ r.method < 64) ∧ ∃ pat, IsPattern r.pattern pat ∧
      ∀ r' ∈ accepted .empty regs, ∀ pat', IsPattern r'.pattern pat' → ¬ Clash pat pat' := by
  obtain ⟨h1, pat, h2, h3⟩ := (addRoute_ok _ _).1 h
  refine ⟨h1, pat, h2, ?_⟩
  intro r' hr' pat' hp' hc
  obtain ⟨w, c, a, b, ca, cb, hne⟩ := (clash_iff _ _).1 hc
  exact hne ((fits_iff _ _).1 h3 w c a b ca (build_has regs .empty w c b (.inr ⟨r', hr', pat', hp', cb⟩)))

/-- C53: when no earlier call was refused, a registration is accepted exactly when its pattern is
well formed, its method is a real one, and its captures agree with those of the routes already
registered. What is missing (hence `_partial`): histories with a refused call, see `C53_false_poisoned`. -/
theorem C53_accept_iff_partial (regs : List (Reg H)) (r : Reg H) (hall : accepted .empty regs = regs) :
    (addRoute (build regs) r.pattern r.method r.handler).2 = true ↔
      (0 ≤ r.method ∧ r.method < 64) ∧ ∃ pat, IsPattern r.pattern pat ∧
        ∀ r' ∈ regs, ∀ pat', IsPattern r'.pattern pat' → ¬ Clash pat pat' := by
  constructor
  · intro h
    have := C53_accepted_sound regs r h
    rwa [hall] at this
  · rintro ⟨h1, pat, h2, h3⟩
    refine (addRoute_ok _ _).2 ⟨h1, pat, h2, (fits_iff _ _).2 ?_⟩
    intro w c a b ca hb
    rcases build_names regs .empty hall w c b hb with h | ⟨r', hr', pat', hp', cb⟩
    · rw [nameAt_empty] at h; simp at h
    · apply Classical.byContradiction
      intro hne
      exact h3 r' hr' pat' hp' ((clash_iff _ _).2 ⟨w, c, a, b, ca, cb, hne⟩)

/-- The first two calls of `demo` are all accepted, and a third with another name is refused. -/
example : accepted .empty (demo.take 2) = demo.take 2 ∧
    (addRoute (build (demo.take 2)) b!"/users/:name/x" 1 40).2 = false ∧
    (addRoute (build (demo.take 2)) b!"/users/:id/x" 1 40).2 = true := by
  refine ⟨?_, by decide +kernel, by decide +kernel⟩
  have h1 : (addRoute (.empty : Node Nat) b!"/users/:id" 1 10).2 = true := by decide +kernel
  have h2 : (addRoute (addRoute (.empty : Node Nat) b!"/users/:id" 1 10).1 b!"/users/me" 1 20).2 = true := by
    decide +kernel
  show accepted .empty [⟨b!"/users/:id", 1, 10⟩, ⟨b!"/users/me", 1, 20⟩] = _
  simp only [accepted, h1, h2, if_true]
  rfl

/-- C53, FALSE without that hypothesis: a refused call leaves the nodes it made before it threw, so
after `add_route("/:a/*")` threw (nameless wildcard), the valid `add_route("/:b")` is refused although
no route is registered at all. -/
theorem C53_false_poisoned :
    accepted .empty [(⟨b!"/:a/*", 1, 10⟩ : Reg Nat)] = [] ∧
    (addRoute (build [(⟨b!"/:a/*", 1, 10⟩ : Reg Nat)]) b!"/:b" 1 20).2 = false ∧
    (addRoute (build ([] : List (Reg Nat))) b!"/:b" 1 20).2 = true := by
  have h1 : (addRoute (.empty : Node Nat) b!"/:a/*" 1 10).2 = false := by decide +kernel
  refine ⟨?_, by decide +kernel, by decide +kernel⟩
  simp [accepted, h1]

end Verif.Router
