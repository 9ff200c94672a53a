import Verif.Adp.Model

/-! The invariant of a request whose handlers keep their contract. -/

namespace Verif.Adp

open Verif.Context (Ctx Act Result Frame State)

/-- The request is answered, or will be as soon as the deferral scopes are left. -/
def Settled (c : Ctx) : Prop := c.state = .finalised ∨ c.pending = true

theorem settled_finalize (c : Ctx) : Settled (Context.finalize c) := by
  unfold Context.finalize Settled
  split
  · rename_i h; exact .inl (by simpa using h)
  split
  · exact .inr rfl
  · exact .inl rfl

theorem Settled.finalize {c : Ctx} (_ : Settled c) : Settled (Context.finalize c) := settled_finalize c

/-- What a call of the context does to the scopes and the stack. -/
structure Same (c d : Ctx) : Prop where
  depth : d.depth = c.depth
  dead : d.dead = c.dead
  pend : d.pending = true → c.pending = true ∨ 0 < c.depth
  mono : Settled c → Settled d
  pf : (c.pending = true → c.state ≠ .finalised) → d.pending = true → d.state ≠ .finalised
  stack : d.stack = c.stack ∨ (∃ e i, d.stack = .task e i :: c.stack) ∨ d.stack = .hooks :: c.stack

theorem Same.finalize (c : Ctx) : Same c (Context.finalize c) := by
  refine ⟨?_, ?_, ?_, fun _ => settled_finalize c, ?_, ?_⟩ <;> unfold Context.finalize
  · split
    · rfl
    split <;> rfl
  · split
    · rfl
    split <;> rfl
  · split
    · exact .inl
    split
    · rename_i h; exact fun _ => .inr h
    · intro h; cases h
  · split
    · exact id
    split
    · rename_i h1 _; exact fun _ _ h => h1 (by simpa using h)
    · intro _ h; cases h
  · split
    · exact .inl rfl
    split
    · exact .inl rfl
    · exact .inr (.inr rfl)

/-- The members of `c` that matter are those of `b`. -/
theorem Same.of {b c d : Ctx} (h : Same c d) (h1 : c.depth = b.depth) (h2 : c.dead = b.dead) (h3 : c.pending = b.pending) (h4 : c.state = b.state) (h5 : c.stack = b.stack) : Same b d := by
  refine ⟨by rw [h.depth, h1], by rw [h.dead, h2], by rw [← h3, ← h1]; exact h.pend, fun hs => h.mono ?_, by rw [← h3, ← h4]; exact h.pf, by rw [← h5]; exact h.stack⟩
  unfold Settled at hs ⊢
  rw [h3, h4]; exact hs

theorem Same.refl (c : Ctx) : Same c c := ⟨rfl, rfl, .inl, id, id, .inl rfl⟩

theorem Same.proceed (c : Ctx) : Same c (Context.proceed c) := by
  unfold Context.proceed
  split
  · split
    · exact Same.finalize c
    · exact .refl c
  split
  · exact ⟨rfl, rfl, .inl, id, id, .inr (.inl ⟨_, _, rfl⟩)⟩
  · exact (Same.finalize _).of rfl rfl rfl rfl rfl

theorem Same.complete (c : Ctx) (r : Result) : Same c (Context.complete r c) := by
  unfold Context.complete
  split
  · exact .refl c
  split
  · split
    · exact Same.finalize c
    · exact .refl c
  cases r with
  | «continue» => exact (Same.proceed _).of rfl rfl rfl rfl rfl
  | complete => exact (Same.finalize _).of rfl rfl rfl rfl rfl
  | cancelled => exact (Same.finalize _).of rfl rfl rfl rfl rfl
  | fatal => exact (Same.finalize _).of rfl rfl rfl rfl rfl
  | error =>
    simp only [Context.completeError]
    split
    · exact (Same.finalize _).of rfl rfl rfl rfl rfl
    split
    · exact (Same.proceed _).of rfl rfl rfl rfl rfl
    · exact (Same.finalize _).of rfl rfl rfl rfl rfl

/-- The next task, or the answer. -/
def Goes (c d : Ctx) : Prop := Settled d ∨ ((∃ e i, d.stack = .task e i :: c.stack) ∧ d.cancelled = c.cancelled)

theorem Goes.of {b c d : Ctx} (h : Goes c d) (h1 : c.stack = b.stack) (h2 : c.cancelled = b.cancelled) : Goes b d := by
  unfold Goes at h ⊢
  rw [← h1, ← h2]; exact h

theorem goes_finalize (c : Ctx) : Goes c (Context.finalize c) := .inl (settled_finalize c)

theorem goes_proceed {c : Ctx} : Goes c (Context.proceed c) := by
  unfold Context.proceed
  split
  · split
    · exact goes_finalize c
    · rename_i h; exact .inl (.inl (by simpa using h))
  split
  · exact .inr ⟨⟨_, _, rfl⟩, rfl⟩
  · exact (goes_finalize _).of rfl rfl

theorem goes_complete {c : Ctx} (r : Result) : Goes c (Context.complete r c) := by
  unfold Context.complete
  split
  · rename_i h
    simp only [Bool.and_eq_true, beq_iff_eq] at h
    exact .inl (.inl h.1)
  split
  · split
    · exact goes_finalize c
    · rename_i h; exact .inl (.inl (by simpa using h))
  cases r with
  | «continue» => exact goes_proceed.of rfl rfl
  | complete => exact .inl (settled_finalize _)
  | cancelled => exact .inl (settled_finalize _)
  | fatal => exact .inl (settled_finalize _)
  | error =>
    simp only [Context.completeError]
    split
    · exact .inl (settled_finalize _)
    split
    · exact goes_proceed.of rfl rfl
    · exact .inl (settled_finalize _)

theorem proceed_count (c : Ctx) : (Context.proceed c).count = c.count := by
  have f : ∀ d : Ctx, (Context.finalize d).count = d.count := by
    intro d; unfold Context.finalize
    split
    · rfl
    split <;> rfl
  unfold Context.proceed
  split
  · split
    · exact f c
    · rfl
  split
  · rfl
  · exact f _

theorem complete_count {c : Ctx} (h : over c = false) (r : Result) : (Context.complete r c).count = c.count + 1 := by
  have f : ∀ d : Ctx, (Context.finalize d).count = d.count := by
    intro d; unfold Context.finalize
    split
    · rfl
    split <;> rfl
  unfold over at h
  simp only [Bool.or_eq_false_iff] at h
  unfold Context.complete
  rw [if_neg (by simp [h.1]), if_neg (by simp [h.2])]
  cases r with
  | «continue» => exact proceed_count _
  | complete => exact f _
  | cancelled => exact f _
  | fatal => exact f _
  | error =>
    simp only [Context.completeError]
    split
    · exact f _
    split
    · exact proceed_count _
    · exact f _

/-- A task on the stack that holds a scope. -/
def scopedFrame (kind : Bool → Nat → Kind) : Frame → Bool
  | .task e i => (kind e i).scoped
  | _ => false

structure D (kind : Bool → Nat → Kind) (c : Ctx) : Prop where
  depth : c.depth = (c.stack.filter (scopedFrame kind)).length
  pend : c.pending = true → 0 < c.depth
  pf : c.pending = true → c.state ≠ .finalised
  dead : c.dead = false
  noCancel : .taskCancel ∉ c.stack
  noDtor : .dtor ∉ c.stack

/-- What is waited for. -/
inductive Main (t : St) : Prop
  /-- not started -/
  | fresh (h : t.invs = []) (h' : t.ctx.started = false) (h'' : t.ctx.cancelled = false)
  | settled (h : Settled t.ctx)
  /-- the last invocation is to say how it ends; all others did -/
  | live (pre : List Inv) (k : Inv) (h : t.invs = pre ++ [k]) (hst : t.ctx.started = true) (hc : t.ctx.cancelled = false) (hk : ¬ k.spent) (hb : ∀ b, k.before = some b → b = t.ctx.count)
      (hp : ∀ m ∈ pre, m.spent) (ho : ∀ m ∈ pre, m.kind.coro = true → m.ended = false → ∃ b, m.before = some b ∧ b < t.ctx.count)

theorem Same.start (c : Ctx) (ch : List Bool) : Same c (Context.start ch c) := by
  unfold Context.start
  split
  · exact ⟨rfl, rfl, .inl, id, id, .inl rfl⟩
  rename_i h
  have hs : c.state ≠ .finalised := by
    intro he; apply h; unfold Context.doneOrCancelled; simp [he]
  have key : ∀ d e : Ctx, Same d e → d.depth = c.depth → d.dead = c.dead → d.pending = c.pending → d.state = .running → d.stack = c.stack → Same c e := by
    intro d e k h1 h2 h3 h4 h5
    refine ⟨by rw [k.depth, h1], by rw [k.dead, h2], by rw [← h3, ← h1]; exact k.pend, fun hc => k.mono ?_, fun _ => k.pf (fun _ => by rw [h4]; simp), by rw [← h5]; exact k.stack⟩
    rcases hc with hc | hc
    · exact absurd hc hs
    · exact .inr (by rw [h3]; exact hc)
  split
  · exact key _ _ (Same.complete _ _) rfl rfl rfl rfl rfl
  · exact key _ _ (Same.proceed _) rfl rfl rfl rfl rfl

theorem goes_start (c : Ctx) (ch : List Bool) (h : c.cancelled = false) : Goes c (Context.start ch c) := by
  unfold Context.start
  split
  · rename_i hd
    unfold Context.doneOrCancelled at hd
    rw [h] at hd
    exact .inl (.inl (by simpa using hd))
  split
  · exact (goes_complete .complete).of rfl rfl
  · exact goes_proceed.of rfl rfl

theorem step_complete {c : Ctx} (h : c.dead = false) (r : Result) : Context.run c [.complete r] = Context.complete r c := by
  show Context.step c (.complete r) = _
  unfold Context.step; rw [if_neg (by simp [h])]

theorem step_fail {c : Ctx} (h : c.dead = false) : Context.run c [.setStatus 500, .complete .error] = Context.complete .error { c with status := 500 } := by
  show Context.step (Context.step c (.setStatus 500)) (.complete .error) = _
  have e : Context.step c (.setStatus 500) = { c with status := 500 } := by unfold Context.step; rw [if_neg (by simp [h])]
  rw [e]; unfold Context.step; rw [if_neg (by simp [h])]

theorem Same.fail (c : Ctx) : Same c (Context.complete .error { c with status := 500 }) := (Same.complete _ _).of rfl rfl rfl rfl rfl

theorem D.same {kind : Bool → Nat → Kind} {c d : Ctx} (h : D kind c) (s : Same c d) (hs : d.stack = c.stack ∨ d.stack = .hooks :: c.stack) : D kind d := by
  refine ⟨?_, fun hp => ?_, s.pf h.pf, by rw [s.dead]; exact h.dead, ?_, ?_⟩
  · rw [s.depth, h.depth]
    rcases hs with e | e <;> rw [e]
    rw [List.filter_cons, if_neg (by simp [scopedFrame])]
  · rw [s.depth]
    rcases s.pend hp with h1 | h1
    · exact h.pend h1
    · exact h1
  · rcases hs with e | e <;> rw [e]
    · exact h.noCancel
    · intro hm; rcases List.mem_cons.1 hm with hm | hm
      · cases hm
      · exact h.noCancel hm
  · rcases hs with e | e <;> rw [e]
    · exact h.noDtor
    · intro hm; rcases List.mem_cons.1 hm with hm | hm
      · cases hm
      · exact h.noDtor hm

/-- What `enter` does. -/
theorem enter_eq (kind : Bool → Nat → Kind) (t : St) (as : List Act) (s : Same t.ctx (Context.run t.ctx as)) :
    (enter kind t as = { t with ctx := Context.run t.ctx as } ∧ ((Context.run t.ctx as).stack = t.ctx.stack ∨ (Context.run t.ctx as).stack = .hooks :: t.ctx.stack)) ∨
    ∃ e i, (Context.run t.ctx as).stack = .task e i :: t.ctx.stack ∧
      enter kind t as = { ctx := if (kind e i).scoped then Context.step (Context.run t.ctx as) .openScope else Context.run t.ctx as, invs := t.invs ++ [{ kind := kind e i }] } := by
  rcases s.stack with h | ⟨e, i, h⟩ | h
  · refine .inl ⟨?_, .inl h⟩
    unfold enter
    dsimp only
    rw [h, if_neg (by omega)]
  · refine .inr ⟨e, i, h, ?_⟩
    unfold enter
    dsimp only
    rw [h, if_pos (by simp)]
  · refine .inl ⟨?_, .inr h⟩
    unfold enter
    dsimp only
    rw [h, if_pos (by simp)]

theorem D.enter {kind : Bool → Nat → Kind} {t : St} {as : List Act} (h : D kind t.ctx) (s : Same t.ctx (Context.run t.ctx as)) : D kind (enter kind t as).ctx := by
  rcases enter_eq kind t as s with ⟨e, hs⟩ | ⟨er, i, hs, e⟩
  · rw [e]; exact h.same s hs
  · rw [e]
    dsimp only
    have hd : (Context.run t.ctx as).dead = false := by rw [s.dead]; exact h.dead
    have nc : .taskCancel ∉ (Context.run t.ctx as).stack := by
      rw [hs]; intro hm; rcases List.mem_cons.1 hm with hm | hm
      · cases hm
      · exact h.noCancel hm
    have nd : .dtor ∉ (Context.run t.ctx as).stack := by
      rw [hs]; intro hm; rcases List.mem_cons.1 hm with hm | hm
      · cases hm
      · exact h.noDtor hm
    by_cases hk : (kind er i).scoped = true
    · rw [if_pos hk]
      have eo : Context.step (Context.run t.ctx as) .openScope = { Context.run t.ctx as with depth := (Context.run t.ctx as).depth + 1 } := by
        unfold Context.step; rw [if_neg (by simp [hd])]
      rw [eo]
      refine ⟨?_, fun _ => by simp, s.pf h.pf, hd, nc, nd⟩
      show (Context.run t.ctx as).depth + 1 = ((Context.run t.ctx as).stack.filter _).length
      rw [s.depth, h.depth, hs, List.filter_cons, if_pos (by simpa [scopedFrame] using hk)]
      rfl
    · rw [if_neg hk]
      refine ⟨?_, fun hp => ?_, s.pf h.pf, hd, nc, nd⟩
      · rw [s.depth, h.depth, hs, List.filter_cons, if_neg (by simpa [scopedFrame] using hk)]
      · rw [s.depth]
        rcases s.pend hp with h1 | h1
        · exact h.pend h1
        · exact h1

theorem openScope_frame (c : Ctx) : (Context.step c .openScope).state = c.state ∧ (Context.step c .openScope).pending = c.pending ∧ (Context.step c .openScope).cancelled = c.cancelled ∧
    (Context.step c .openScope).count = c.count ∧ (Context.step c .openScope).started = c.started := by
  unfold Context.step
  split <;> exact ⟨rfl, rfl, rfl, rfl, rfl⟩

theorem settled_enter {kind : Bool → Nat → Kind} {t : St} {as : List Act} (s : Same t.ctx (Context.run t.ctx as)) (h : Settled (Context.run t.ctx as)) : Settled (enter kind t as).ctx := by
  rcases enter_eq kind t as s with ⟨e, -⟩ | ⟨er, i, hs, e⟩
  · rw [e]; exact h
  · rw [e]
    dsimp only
    split
    · have f := openScope_frame (Context.run t.ctx as)
      unfold Settled; rw [f.1, f.2.1]; exact h
    · exact h

/-- All said how they end; the context goes on. -/
theorem main_enter {kind : Bool → Nat → Kind} {t : St} {as : List Act} (s : Same t.ctx (Context.run t.ctx as)) (g : Goes t.ctx (Context.run t.ctx as)) (hst' : (Context.run t.ctx as).started = true) (hc : t.ctx.cancelled = false)
    (hp : ∀ m ∈ t.invs, m.spent) (ho : ∀ m ∈ t.invs, m.kind.coro = true → m.ended = false → ∃ b, m.before = some b ∧ b < (Context.run t.ctx as).count) : Main (enter kind t as) := by
  by_cases hs : Settled (Context.run t.ctx as)
  · exact .settled (settled_enter s hs)
  rcases g with g | ⟨⟨e', i', hst⟩, hcan⟩
  · exact absurd g hs
  rcases enter_eq kind t as s with ⟨e, h1⟩ | ⟨er, i, -, e⟩
  · exfalso
    rcases h1 with h1 | h1 <;> rw [hst] at h1
    · have := congrArg List.length h1
      simp at this
    · cases h1
  · rw [e]
    have f := openScope_frame (Context.run t.ctx as)
    have hcount : (if (kind er i).scoped = true then Context.step (Context.run t.ctx as) .openScope else Context.run t.ctx as).count = (Context.run t.ctx as).count := by
      split
      · exact f.2.2.2.1
      · rfl
    refine .live t.invs _ rfl ?_ ?_ ?_ (fun b hb => by cases hb) hp ?_
    · show (if (kind er i).scoped = true then _ else _ : Ctx).started = true
      split
      · rw [f.2.2.2.2]; exact hst'
      · exact hst'
    · show (if (kind er i).scoped = true then _ else _ : Ctx).cancelled = false
      split
      · rw [f.2.2.1, hcan]; exact hc
      · rw [hcan]; exact hc
    · rintro (h | ⟨-, h⟩) <;> cases h
    · intro m hm h1 h2
      show ∃ b, _ ∧ b < (if (kind er i).scoped = true then _ else _ : Ctx).count
      rw [hcount]; exact ho m hm h1 h2

/-- Changing one of the invocations. -/
theorem modify_cases {pre : List Inv} {k v : Inv} {j : Nat} (f : Inv → Inv) (h : (pre ++ [k])[j]? = some v) :
    (v ∈ pre ∧ ∃ pre', (pre ++ [k]).modify j f = pre' ++ [k] ∧ ∀ m ∈ pre', m ∈ pre ∨ m = f v) ∨ (v = k ∧ (pre ++ [k]).modify j f = pre ++ [f k]) := by
  induction pre generalizing j with
  | nil =>
    cases j with
    | zero => cases h; exact .inr ⟨rfl, rfl⟩
    | succ j => cases h
  | cons x pre ih =>
    cases j with
    | zero =>
      cases h
      refine .inl ⟨List.mem_cons_self .., f v :: pre, rfl, fun m hm => ?_⟩
      rcases List.mem_cons.1 hm with hm | hm
      · exact .inr hm
      · exact .inl (List.mem_cons_of_mem _ hm)
    | succ j =>
      have h : (pre ++ [k])[j]? = some v := by simpa using h
      rcases ih h with ⟨h1, pre', h2, h3⟩ | ⟨h1, h2⟩
      · refine .inl ⟨List.mem_cons_of_mem _ h1, x :: pre', by simpa using h2, fun m hm => ?_⟩
        rcases List.mem_cons.1 hm with hm | hm
        · exact .inl (by rw [hm]; exact List.mem_cons_self ..)
        · exact (h3 m hm).imp (List.mem_cons_of_mem _) id
      · exact .inr ⟨h1, by simpa using h2⟩

theorem finalize_started (c : Ctx) : (Context.finalize c).started = c.started := by
  unfold Context.finalize
  split
  · rfl
  split <;> rfl

theorem proceed_started (c : Ctx) : (Context.proceed c).started = c.started := by
  unfold Context.proceed
  split
  · split
    · exact finalize_started c
    · rfl
  split
  · rfl
  · exact finalize_started _

theorem complete_started (c : Ctx) (r : Result) : (Context.complete r c).started = c.started := by
  unfold Context.complete
  split
  · rfl
  split
  · split
    · exact finalize_started c
    · rfl
  cases r with
  | «continue» => exact proceed_started _
  | complete => exact finalize_started _
  | cancelled => exact finalize_started _
  | fatal => exact finalize_started _
  | error =>
    simp only [Context.completeError]
    split
    · exact finalize_started _
    split
    · exact proceed_started _
    · exact finalize_started _

theorem start_started (c : Ctx) (ch : List Bool) : (Context.start ch c).started = true := by
  unfold Context.start
  split
  · rfl
  split
  · exact complete_started _ _
  · exact proceed_started _

structure Ok (kind : Bool → Nat → Kind) (t : St) : Prop where
  d : D kind t.ctx
  m : Main t

theorem not_settled {c : Ctx} (h : ¬ Settled c) : c.state ≠ .finalised ∧ c.pending = false := by
  unfold Settled at h
  refine ⟨fun e => h (.inl e), ?_⟩
  cases hp : c.pending
  · rfl
  · exact absurd (.inr hp) h

theorem over_live {c : Ctx} (h : ¬ Settled c) (hc : c.cancelled = false) : over c = false := by
  unfold over
  rw [hc]
  simpa using (not_settled h).1

/-- The last invocation says how it ends. -/
theorem ok_says {kind : Bool → Nat → Kind} {t : St} {pre : List Inv} {k k' : Inv} {as : List Act} {d0 : Ctx} {r : Result} (hd : D kind t.ctx) (hs : ¬ Settled t.ctx)
    (hst : t.ctx.started = true) (hc : t.ctx.cancelled = false) (hb : ∀ b, k.before = some b → b = t.ctx.count) (hp : ∀ m ∈ pre, m.spent)
    (ho : ∀ m ∈ pre, m.kind.coro = true → m.ended = false → ∃ b, m.before = some b ∧ b < t.ctx.count)
    (hr : Context.run t.ctx as = Context.complete r d0) (e0 : d0 = t.ctx ∨ d0 = { t.ctx with status := 500 })
    (hk : k'.spent) (hbef : k'.before = k.before) (hko : k'.kind.coro = true → k'.ended = false → k.before ≠ none) :
    Main (enter kind { t with invs := pre ++ [k'] } as) := by
  have ec : (Context.run t.ctx as).count = t.ctx.count + 1 := by
    have h0 := over_live hs hc
    rcases e0 with e | e <;> rw [hr, e]
    · exact complete_count h0 r
    · exact complete_count (c := { t.ctx with status := 500 }) h0 r
  have es : (Context.run t.ctx as).started = true := by
    rw [hr, complete_started]
    rcases e0 with e | e <;> rw [e] <;> exact hst
  have same : Same t.ctx (Context.run t.ctx as) := by
    rw [hr]
    rcases e0 with e | e <;> rw [e]
    · exact Same.complete _ _
    · exact (Same.complete _ _).of rfl rfl rfl rfl rfl
  have goes : Goes t.ctx (Context.run t.ctx as) := by
    rw [hr]
    rcases e0 with e | e <;> rw [e]
    · exact goes_complete _
    · exact (goes_complete _).of rfl rfl
  refine main_enter (t := { t with invs := pre ++ [k'] }) same goes es hc ?_ ?_
  · intro m hm
    rcases List.mem_append.1 hm with h | h
    · exact hp m h
    · rw [List.mem_singleton.1 h]; exact hk
  · intro m hm h1 h2
    show ∃ b, _ ∧ b < (Context.run t.ctx as).count
    rw [ec]
    rcases List.mem_append.1 hm with h | h
    · obtain ⟨b, h3, h4⟩ := ho m h h1 h2
      exact ⟨b, h3, by omega⟩
    · rw [List.mem_singleton.1 h] at h1 h2 ⊢
      have := hko h1 h2
      cases h3 : k.before with
      | none => exact absurd h3 this
      | some b => exact ⟨b, by rw [hbef, h3], by have := hb b h3; omega⟩

theorem ok_enter_settled {kind : Bool → Nat → Kind} {t : St} {as : List Act} (hd : D kind t.ctx) (s : Same t.ctx (Context.run t.ctx as)) (h : Settled t.ctx) : Ok kind (enter kind t as) :=
  ⟨hd.enter s, .settled (settled_enter s (s.mono h))⟩

theorem run_complete_same {kind : Bool → Nat → Kind} {c : Ctx} (hd : D kind c) (r : Result) : Same c (Context.run c [.complete r]) := by
  rw [step_complete hd.dead]; exact Same.complete _ _

theorem run_fail_same {kind : Bool → Nat → Kind} {c : Ctx} (hd : D kind c) : Same c (Context.run c [.setStatus 500, .complete .error]) := by
  rw [step_fail hd.dead]; exact Same.fail _

/-- Only the invocations change: nothing that matters. -/
theorem ok_upd_settled {kind : Bool → Nat → Kind} {t : St} (h : Ok kind t) (hs : Settled t.ctx) (j : Nat) (f : Inv → Inv) : Ok kind (upd t j f) := ⟨h.d, .settled hs⟩

theorem ok_begin {kind : Bool → Nat → Kind} {t : St} (h : Ok kind t) (j : Nat) : Ok kind (step kind t (.begin j)) := by
  unfold step
  dsimp only
  split
  swap
  · exact h
  rename_i v hv
  split
  swap
  · exact h
  rename_i hg
  simp only [Bool.and_eq_true, Option.isNone_iff_eq_none] at hg
  refine ⟨h.d, ?_⟩
  cases h.m with
  | fresh h1 _ => rw [h1] at hv; cases hv
  | settled hs => exact .settled hs
  | live pre k e hst hc hk hb hp ho =>
    rw [e] at hv
    rcases modify_cases (fun v => { v with before := some t.ctx.count }) hv with ⟨h1, pre', h2, h3⟩ | ⟨h1, h2⟩
    · refine .live pre' k (by unfold upd; rw [e]; exact h2) hst hc hk hb ?_ ?_
      · intro m hm
        rcases h3 m hm with h | h
        · exact hp m h
        · rw [h]; exact hp v h1
      · intro m hm ha hb
        rcases h3 m hm with h | h
        · exact ho m h ha hb
        · rw [h] at ha hb
          obtain ⟨b, h4, -⟩ := ho v h1 ha hb
          rw [hg.2] at h4; cases h4
    · refine .live pre { k with before := some t.ctx.count } (by unfold upd; rw [e]; exact h2) hst hc hk ?_ hp ho
      intro b hb; cases hb; rfl

theorem ok_signal {kind : Bool → Nat → Kind} {t : St} (h : Ok kind t) (j : Nat) (r : Result) (hf : Fair t (.signal j r)) : Ok kind (step kind t (.signal j r)) := by
  unfold step
  dsimp only
  split
  swap
  · exact h
  rename_i v hv
  split
  swap
  · exact h
  rename_i ha
  have hsame := run_complete_same h.d r
  by_cases hs : Settled t.ctx
  · exact ok_enter_settled (t := upd t j _) h.d hsame hs
  refine ⟨D.enter (t := upd t j _) h.d hsame, ?_⟩
  cases h.m with
  | fresh h1 _ => rw [h1] at hv; cases hv
  | settled hs' => exact absurd hs' hs
  | live pre k e hst hc hk hb hp ho =>
    have hns := hf v hv
    rw [e] at hv
    unfold Inv.active at ha
    rcases modify_cases (fun v => { v with signalled := true }) hv with ⟨h1, -⟩ | ⟨h1, h2⟩
    · exfalso
      rcases hp v h1 with h3 | ⟨h3, h4⟩
      · rw [hns] at h3; cases h3
      · rw [h3, h4] at ha; simp at ha
    · subst h1
      unfold upd
      rw [e, h2]
      refine ok_says h.d hs hst hc hb hp ho (step_complete h.d.dead r) (.inl rfl) (.inl rfl) rfl ?_
      intro h3 h4 h5
      have h3 : v.kind.coro = true := h3
      rw [h3, h5] at ha; simp at ha

theorem ok_next {kind : Bool → Nat → Kind} {t : St} (h : Ok kind t) (j : Nat) (hf : Fair t (.next j)) : Ok kind (step kind t (.next j)) := by
  unfold step
  dsimp only
  split
  swap
  · exact h
  rename_i v hv
  split
  · exact h
  rename_i hkind
  have hkind : v.kind = .mw := by simpa using hkind
  split
  · exact h
  rename_i hnc
  have hsame := run_complete_same h.d .continue
  by_cases hs : Settled t.ctx
  · split
    · exact ok_upd_settled h hs _ _
    · exact ok_enter_settled (t := upd t j _) h.d hsame hs
  cases h.m with
  | fresh h1 _ => rw [h1] at hv; cases hv
  | settled hs' => exact absurd hs' hs
  | live pre k e hst hc hk hb hp ho =>
    have hns := hf v hv
    rw [if_neg (by rw [show (upd t j fun v => { v with nextCalled := true, signalled := true }).ctx = t.ctx from rfl, over_live hs hc]; simp)]
    refine ⟨D.enter (t := upd t j _) h.d hsame, ?_⟩
    rw [e] at hv
    rcases modify_cases (fun v => { v with nextCalled := true, signalled := true }) hv with ⟨h1, -⟩ | ⟨h1, h2⟩
    · exfalso
      rcases hp v h1 with h3 | ⟨h3, h4⟩
      · exact hnc (hns h3)
      · rw [hkind] at h3; cases h3
    · subst h1
      unfold upd
      rw [e, h2]
      refine ok_says h.d hs hst hc hb hp ho (step_complete h.d.dead _) (.inl rfl) (.inl rfl) rfl ?_
      intro h3
      have h3 : v.kind.coro = true := h3
      rw [hkind] at h3; cases h3

theorem ok_done {kind : Bool → Nat → Kind} {t : St} (h : Ok kind t) (j : Nat) : Ok kind (step kind t (.done j)) := by
  unfold step
  dsimp only
  split
  swap
  · exact h
  rename_i v hv
  split
  · exact h
  rename_i hne
  split
  · rename_i hco
    have hco : v.kind.coro = false := by simpa using hco
    refine ⟨h.d, ?_⟩
    cases h.m with
    | fresh h1 _ => rw [h1] at hv; cases hv
    | settled hs => exact .settled hs
    | live pre k e hst hc hk hb hp ho =>
      rw [e] at hv
      rcases modify_cases (fun v => { v with ended := true }) hv with ⟨h1, pre', h2, h3⟩ | ⟨h1, h2⟩
      · refine .live pre' k (by unfold upd; rw [e]; exact h2) hst hc hk hb ?_ ?_
        · intro m hm
          rcases h3 m hm with h | h
          · exact hp m h
          · rw [h]
            rcases hp v h1 with h4 | ⟨h4, -⟩
            · exact .inl h4
            · rw [hco] at h4; cases h4
        · intro m hm ha hb
          rcases h3 m hm with h | h
          · exact ho m h ha hb
          · rw [h] at hb; cases hb
      · subst h1
        refine .live pre { v with ended := true } (by unfold upd; rw [e]; exact h2) hst hc ?_ hb hp ho
        rintro (h3 | ⟨h3, -⟩)
        · exact hk (.inl h3)
        · have h3 : v.kind.coro = true := h3
          rw [hco] at h3; cases h3
  rename_i hco
  have hco : v.kind.coro = true := by simpa using hco
  split
  · exact h
  rename_i b hbv
  have hsame := run_complete_same h.d (if v.kind == .coroRoute then .complete else .continue)
  by_cases hs : Settled t.ctx
  · split
    · exact ok_enter_settled (t := upd t j _) h.d hsame hs
    · exact ok_upd_settled h hs _ _
  cases h.m with
  | fresh h1 _ => rw [h1] at hv; cases hv
  | settled hs' => exact absurd hs' hs
  | live pre k e hst hc hk hb hp ho =>
    have hov := over_live hs hc
    rw [e] at hv
    rcases modify_cases (fun v => { v with ended := true }) hv with ⟨h1, pre', h2, h3⟩ | ⟨h1, h2⟩
    · obtain ⟨b', h4, h5⟩ := ho v h1 hco (by simpa using hne)
      rw [hbv] at h4; cases h4
      rw [if_neg (by show ¬ ((t.ctx.count == b && !over t.ctx) = true); simp; omega)]
      refine ⟨h.d, .live pre' k (by unfold upd; rw [e]; exact h2) hst hc hk hb ?_ ?_⟩
      · intro m hm
        rcases h3 m hm with h | h
        · exact hp m h
        · rw [h]; exact .inr ⟨hco, rfl⟩
      · intro m hm ha hb
        rcases h3 m hm with h | h
        · exact ho m h ha hb
        · rw [h] at hb; cases hb
    · subst h1
      rw [if_pos (by show (t.ctx.count == b && !over t.ctx) = true; rw [hov, hb b hbv]; simp)]
      refine ⟨D.enter (t := upd t j _) h.d hsame, ?_⟩
      unfold upd
      rw [e, h2]
      refine ok_says h.d hs hst hc hb hp ho (step_complete h.d.dead _) (.inl rfl) (.inr ⟨hco, rfl⟩) rfl ?_
      intro _ h4; cases h4

theorem ok_fail {kind : Bool → Nat → Kind} {t : St} (h : Ok kind t) (j : Nat) (hf : Fair t (.fail j)) : Ok kind (step kind t (.fail j)) := by
  unfold step
  dsimp only
  split
  swap
  · exact h
  rename_i v hv
  split
  · exact h
  rename_i hne
  split
  · exact h
  have hsame := run_fail_same h.d
  by_cases hs : Settled t.ctx
  · split
    · exact ok_upd_settled h hs _ _
    · exact ok_enter_settled (t := upd t j _) h.d hsame hs
  cases h.m with
  | fresh h1 _ => rw [h1] at hv; cases hv
  | settled hs' => exact absurd hs' hs
  | live pre k e hst hc hk hb hp ho =>
    have hns := hf v hv
    rw [if_neg (by rw [show (upd t j fun v => { v with ended := true, signalled := true }).ctx = t.ctx from rfl, over_live hs hc]; simp)]
    refine ⟨D.enter (t := upd t j _) h.d hsame, ?_⟩
    rw [e] at hv
    rcases modify_cases (fun v => { v with ended := true, signalled := true }) hv with ⟨h1, -⟩ | ⟨h1, h2⟩
    · exfalso
      rcases hp v h1 with h3 | ⟨h3, h4⟩
      · rw [hns] at h3; cases h3
      · exact hne h4
    · subst h1
      unfold upd
      rw [e, h2]
      refine ok_says h.d hs hst hc hb hp ho (step_fail h.d.dead) (.inr rfl) (.inl rfl) rfl ?_
      intro _ h4; cases h4

theorem ok_start {kind : Bool → Nat → Kind} {t : St} (h : Ok kind t) (ch : List Bool) : Ok kind (step kind t (.start ch)) := by
  show Ok kind (enter kind t [.start ch])
  by_cases hg : (t.ctx.started || !t.ctx.stack.isEmpty) = true
  · have e : Context.run t.ctx [.start ch] = t.ctx := by
      show Context.step t.ctx (.start ch) = _
      unfold Context.step
      rw [if_neg (by simp [h.d.dead])]
      dsimp only
      rw [if_pos hg]
    have e' : enter kind t [.start ch] = t := by
      unfold enter
      dsimp only
      rw [e, if_neg (by omega)]
    rw [e']; exact h
  have e : Context.run t.ctx [.start ch] = Context.start ch t.ctx := by
    show Context.step t.ctx (.start ch) = _
    unfold Context.step
    rw [if_neg (by simp [h.d.dead])]
    dsimp only
    rw [if_neg hg]
  have hsame : Same t.ctx (Context.run t.ctx [.start ch]) := by rw [e]; exact Same.start _ _
  refine ⟨h.d.enter hsame, ?_⟩
  by_cases hs : Settled t.ctx
  · exact .settled (settled_enter hsame (hsame.mono hs))
  cases h.m with
  | settled hs' => exact absurd hs' hs
  | live pre k e hst => simp [hst] at hg
  | fresh h1 h2 h3 =>
    refine main_enter hsame (by rw [e]; exact goes_start _ _ h3) (by rw [e]; exact start_started _ _) h3 ?_ ?_ <;> rw [h1] <;> intro m hm <;> cases hm

/-- The last invocation is unaffected by what leaves the members below alone. -/
theorem main_frame {t : St} {d : Ctx} (h : Main t) (hs : Settled t.ctx → Settled d) (h1 : d.started = t.ctx.started) (h2 : d.cancelled = t.ctx.cancelled) (h3 : d.count = t.ctx.count) : Main { t with ctx := d } := by
  cases h with
  | fresh a b c => exact .fresh a (by rw [← b, ← h1]) (by rw [← c, ← h2])
  | settled a => exact .settled (hs a)
  | live pre k e hst hc hk hb hp ho =>
    exact .live pre k e (by rw [← hst, ← h1]) (by rw [← hc, ← h2]) hk (fun b hb' => by rw [hb b hb']; exact h3.symm) hp
      (fun m hm ha hb => by obtain ⟨b, h4, h5⟩ := ho m hm ha hb; exact ⟨b, h4, by show b < d.count; rw [h3]; exact h5⟩)

theorem ok_setStatus {kind : Bool → Nat → Kind} {t : St} (h : Ok kind t) (n : Nat) : Ok kind (step kind t (.setStatus n)) := by
  have e : Context.run t.ctx [.setStatus n] = { t.ctx with status := n } := by
    show Context.step t.ctx (.setStatus n) = _
    unfold Context.step
    rw [if_neg (by simp [h.d.dead])]
  show Ok kind { t with ctx := Context.run t.ctx [.setStatus n] }
  rw [e]
  exact ⟨⟨h.d.depth, h.d.pend, h.d.pf, h.d.dead, h.d.noCancel, h.d.noDtor⟩, main_frame h.m id rfl rfl rfl⟩

theorem step_ret {c : Ctx} (h : c.dead = false) : Context.step c .ret = Context.ret c := by
  unfold Context.step; rw [if_neg (by simp [h])]

theorem finalize_cancelled (c : Ctx) : (Context.finalize c).cancelled = c.cancelled := by
  unfold Context.finalize
  split
  · rfl
  split <;> rfl

theorem finalize_count (c : Ctx) : (Context.finalize c).count = c.count := by
  unfold Context.finalize
  split
  · rfl
  split <;> rfl

theorem ok_ret {kind : Bool → Nat → Kind} {t : St} (h : Ok kind t) : Ok kind (step kind t .ret) := by
  have hd := h.d
  unfold step
  dsimp only
  cases hst : t.ctx.stack with
  | nil =>
    have e : Context.run t.ctx [.ret] = t.ctx := by
      show Context.step t.ctx .ret = _
      rw [step_ret hd.dead]; unfold Context.ret; rw [hst]
    dsimp only
    rw [e]; exact h
  | cons fr st =>
    have nc : .taskCancel ∉ st := fun hm => hd.noCancel (by rw [hst]; exact List.mem_cons_of_mem _ hm)
    have nd : .dtor ∉ st := fun hm => hd.noDtor (by rw [hst]; exact List.mem_cons_of_mem _ hm)
    cases fr with
    | taskCancel => exact absurd (by rw [hst]; exact List.mem_cons_self ..) hd.noCancel
    | dtor => exact absurd (by rw [hst]; exact List.mem_cons_self ..) hd.noDtor
    | callback =>
      have e : Context.run t.ctx [.ret] = { t.ctx with stack := st } := by
        show Context.step t.ctx .ret = _
        rw [step_ret hd.dead]; unfold Context.ret; rw [hst]
      dsimp only
      rw [e]
      refine ⟨⟨?_, hd.pend, hd.pf, hd.dead, nc, nd⟩, main_frame h.m id rfl rfl rfl⟩
      show t.ctx.depth = _
      rw [hd.depth, hst, List.filter_cons, if_neg (by simp [scopedFrame])]
    | hooks =>
      dsimp only
      by_cases hcb : t.ctx.hasCallback = true
      · have e : Context.run t.ctx [.ret] = { t.ctx with stack := .callback :: st, trace := t.ctx.trace ++ [.callback t.ctx.status] } := by
          show Context.step t.ctx .ret = _
          rw [step_ret hd.dead]; unfold Context.ret; rw [hst]; dsimp only; rw [if_pos hcb]
        rw [e]
        refine ⟨⟨?_, hd.pend, hd.pf, hd.dead, ?_, ?_⟩, main_frame h.m id rfl rfl rfl⟩
        · show t.ctx.depth = ((Frame.callback :: st).filter _).length
          rw [hd.depth, hst, List.filter_cons, if_neg (by simp [scopedFrame]), List.filter_cons, if_neg (by simp [scopedFrame])]
        · intro hm; rcases List.mem_cons.1 hm with hm | hm
          · cases hm
          · exact nc hm
        · intro hm; rcases List.mem_cons.1 hm with hm | hm
          · cases hm
          · exact nd hm
      · have e : Context.run t.ctx [.ret] = { t.ctx with stack := st } := by
          show Context.step t.ctx .ret = _
          rw [step_ret hd.dead]; unfold Context.ret; rw [hst]; dsimp only; rw [if_neg hcb]
        rw [e]
        refine ⟨⟨?_, hd.pend, hd.pf, hd.dead, nc, nd⟩, main_frame h.m id rfl rfl rfl⟩
        show t.ctx.depth = _
        rw [hd.depth, hst, List.filter_cons, if_neg (by simp [scopedFrame])]
    | task er i =>
      dsimp only
      have e1 : Context.step t.ctx .ret = { t.ctx with stack := st } := by
        rw [step_ret hd.dead]; unfold Context.ret; rw [hst]
      by_cases hk : (kind er i).scoped = true
      · rw [if_pos hk]
        have hdep : t.ctx.depth = (st.filter (scopedFrame kind)).length + 1 := by
          rw [hd.depth, hst, List.filter_cons, if_pos (by simpa [scopedFrame] using hk)]; rfl
        have e : Context.run t.ctx [.ret, .closeScope] = Context.release { t.ctx with stack := st } := by
          show Context.step (Context.step t.ctx .ret) .closeScope = _
          rw [e1]
          unfold Context.step
          rw [if_neg (by simp [hd.dead])]
          dsimp only
          rw [if_neg (by omega)]
        rw [e]
        unfold Context.release
        split
        · rename_i hg
          simp only [Bool.and_eq_true, beq_iff_eq] at hg
          have hg : t.ctx.depth - 1 = 0 ∧ t.ctx.pending = true := hg
          have hs : Settled t.ctx := .inr hg.2
          refine ⟨?_, .settled (settled_finalize _)⟩
          unfold Context.finalize
          rw [if_neg (by simpa using hd.pf hg.2), if_neg (by show ¬ (t.ctx.depth - 1 > 0); omega)]
          refine ⟨?_, fun hp => (by cases hp), fun hp => (by cases hp), hd.dead, ?_, ?_⟩
          · show t.ctx.depth - 1 = ((Frame.hooks :: st).filter _).length
            rw [List.filter_cons, if_neg (by simp [scopedFrame])]; omega
          · intro hm; rcases List.mem_cons.1 hm with hm | hm
            · cases hm
            · exact nc hm
          · intro hm; rcases List.mem_cons.1 hm with hm | hm
            · cases hm
            · exact nd hm
        · rename_i hg
          simp only [Bool.and_eq_true, beq_iff_eq, not_and] at hg
          have hg : t.ctx.depth - 1 = 0 → ¬ t.ctx.pending = true := hg
          refine ⟨⟨?_, fun hp => ?_, hd.pf, hd.dead, nc, nd⟩, main_frame h.m id rfl rfl rfl⟩
          · show t.ctx.depth - 1 = (st.filter (scopedFrame kind)).length
            omega
          · show 0 < t.ctx.depth - 1
            by_cases hz : t.ctx.depth - 1 = 0
            · exact absurd hp (hg hz)
            · omega
      · rw [if_neg hk]
        have e : Context.run t.ctx [.ret] = { t.ctx with stack := st } := e1
        rw [e]
        refine ⟨⟨?_, hd.pend, hd.pf, hd.dead, nc, nd⟩, main_frame h.m id rfl rfl rfl⟩
        show t.ctx.depth = _
        rw [hd.depth, hst, List.filter_cons, if_neg (by simpa [scopedFrame] using hk)]

theorem afterCancel_settled {c : Ctx} : Settled (Context.afterCancel c) ∧ ((Context.afterCancel c).stack = c.stack ∨ (Context.afterCancel c).stack = .hooks :: c.stack) ∧ Same c (Context.afterCancel c) := by
  have e : Context.afterCancel c = Context.finalize { c with status := 503, inFlight := false, lastResult := .cancelled, count := c.count + 1, cancelled := true } := by
    unfold Context.afterCancel Context.complete
    rw [if_neg (by simp), if_neg (by simp)]
  rw [e]
  refine ⟨settled_finalize _, ?_, (Same.finalize _).of rfl rfl rfl rfl rfl⟩
  unfold Context.finalize
  split
  · exact .inl rfl
  split
  · exact .inl rfl
  · exact .inr rfl

/-- What cancelling does: nothing when it is over, and otherwise the request is answered. -/
theorem cancel_cases {kind : Bool → Nat → Kind} {c : Ctx} (hd : D kind c) :
    ∃ d, Context.run c (match (Context.step c .cancel).stack with | .taskCancel :: _ => [.cancel, .ret] | _ => [.cancel]) = d ∧ (d = c ∧ Context.doneOrCancelled c = true ∨ Settled d ∧ Context.doneOrCancelled c = false) ∧
      Same c d ∧ (d.stack = c.stack ∨ d.stack = .hooks :: c.stack) := by
  have e1 : Context.step c .cancel = Context.cancel c := by unfold Context.step; rw [if_neg (by simp [hd.dead])]
  refine ⟨_, rfl, ?_⟩
  rw [e1]
  have nt : ∀ st : List Frame, st = c.stack ∨ st = .hooks :: c.stack → (match (generalizing := false) st with | .taskCancel :: _ => [Act.cancel, .ret] | _ => [.cancel]) = [.cancel] := by
    intro st h
    rcases h with h | h <;> rw [h]
    cases hst : c.stack with
    | nil => rfl
    | cons fr st =>
      cases fr with
      | taskCancel => exact absurd (by rw [hst]; exact List.mem_cons_self ..) hd.noCancel
      | _ => rfl
  by_cases hdc : Context.doneOrCancelled c = true
  · have e2 : Context.cancel c = c := by unfold Context.cancel; rw [if_pos hdc]
    rw [e2, nt _ (.inl rfl)]
    have : Context.run c [.cancel] = c := by show Context.step c .cancel = c; rw [e1, e2]
    rw [this]
    exact ⟨.inl ⟨rfl, hdc⟩, .refl c, .inl rfl⟩
  have hdc' : Context.doneOrCancelled c = false := by simpa using hdc
  by_cases hf : (c.inFlight && c.idx < c.chain.length && c.chain.getD c.idx false) = true
  · have e2 : Context.cancel c = { c with cancelled := true, stack := .taskCancel :: c.stack } := by unfold Context.cancel; rw [if_neg hdc, if_pos hf]
    rw [e2]
    dsimp only
    have e3 : Context.run c [.cancel, .ret] = Context.afterCancel { c with cancelled := true } := by
      show Context.step (Context.step c .cancel) .ret = _
      rw [e1, e2, step_ret (show ({ c with cancelled := true, stack := .taskCancel :: c.stack } : Ctx).dead = false from hd.dead)]
      rfl
    rw [e3]
    have a := afterCancel_settled (c := { c with cancelled := true })
    exact ⟨.inr ⟨a.1, hdc'⟩, a.2.2.of rfl rfl rfl rfl rfl, a.2.1⟩
  · have e2 : Context.cancel c = Context.afterCancel { c with cancelled := true } := by unfold Context.cancel; rw [if_neg hdc, if_neg hf]
    have a := afterCancel_settled (c := { c with cancelled := true })
    rw [e2, nt _ a.2.1]
    have : Context.run c [.cancel] = Context.afterCancel { c with cancelled := true } := by show Context.step c .cancel = _; rw [e1, e2]
    rw [this]
    exact ⟨.inr ⟨a.1, hdc'⟩, a.2.2.of rfl rfl rfl rfl rfl, a.2.1⟩

theorem ok_cancel {kind : Bool → Nat → Kind} {t : St} (h : Ok kind t) : Ok kind (step kind t .cancel) := by
  obtain ⟨d, e, h1, h2, h3⟩ := cancel_cases h.d
  have e' : step kind t .cancel = { t with ctx := d } := by rw [← e]; rfl
  rw [e']
  rcases h1 with ⟨h1, -⟩ | ⟨h1, -⟩
  · rw [h1]; exact h
  · exact ⟨h.d.same h2 h3, .settled h1⟩

theorem ok_step {kind : Bool → Nat → Kind} {t : St} (h : Ok kind t) (i : In) (hf : Fair t i) : Ok kind (step kind t i) := by
  cases i with
  | start ch => exact ok_start h ch
  | begin j => exact ok_begin h j
  | signal j r => exact ok_signal h j r hf
  | next j => exact ok_next h j hf
  | done j => exact ok_done h j
  | fail j => exact ok_fail h j hf
  | ret => exact ok_ret h
  | cancel => exact ok_cancel h
  | setStatus n => exact ok_setStatus h n

theorem ok_init (kind : Bool → Nat → Kind) (e : Option (List Bool)) : Ok kind { ctx := Context.init e } := by
  refine ⟨⟨rfl, fun h => (by cases h), fun h => (by cases h), rfl, ?_, ?_⟩, .fresh rfl rfl rfl⟩ <;> intro h <;> cases h

theorem ok_foldl {kind : Bool → Nat → Kind} : ∀ (is : List In) {t : St}, Ok kind t → FairRun kind t is → Ok kind (is.foldl (step kind) t)
  | [], _, h, _ => h
  | i :: is, _, h, hf => ok_foldl is (ok_step h i hf.1) hf.2

theorem ok_run {kind : Bool → Nat → Kind} {e : Option (List Bool)} {is : List In} (hf : FairRun kind { ctx := Context.init e } is) : Ok kind (run kind e is) := ok_foldl is (ok_init kind e) hf

/-! The context only does what contexts do. -/

def Reach (e : Option (List Bool)) (c : Ctx) : Prop := ∃ as, c = Context.run (Context.init e) as ∧ Act.suppress ∉ as

theorem Reach.run {e : Option (List Bool)} {c : Ctx} (h : Reach e c) (as : List Act) (hs : Act.suppress ∉ as) : Reach e (Context.run c as) := by
  obtain ⟨bs, h1, h2⟩ := h
  refine ⟨bs ++ as, ?_, ?_⟩
  · rw [h1]; unfold Context.run; rw [List.foldl_append]
  · intro hm; rcases List.mem_append.1 hm with hm | hm
    · exact h2 hm
    · exact hs hm

theorem Reach.enter {e : Option (List Bool)} {kind : Bool → Nat → Kind} {t : St} (h : Reach e t.ctx) (as : List Act) (hs : Act.suppress ∉ as) : Reach e (enter kind t as).ctx := by
  have h1 := h.run as hs
  unfold Adp.enter
  dsimp only
  split
  · split
    · dsimp only
      split
      · exact h1.run [.openScope] (by simp)
      · exact h1
    · exact h1
  · exact h1

theorem Reach.step {e : Option (List Bool)} {kind : Bool → Nat → Kind} {t : St} (h : Reach e t.ctx) (i : In) : Reach e (step kind t i).ctx := by
  cases i with
  | start ch => exact h.enter _ (by simp)
  | begin j =>
    unfold Adp.step; dsimp only
    split
    · split <;> exact h
    · exact h
  | signal j r =>
    unfold Adp.step; dsimp only
    split
    · split
      · exact Reach.enter (t := upd t j _) h _ (by simp)
      · exact h
    · exact h
  | next j =>
    unfold Adp.step; dsimp only
    split
    · split
      · exact h
      split
      · exact h
      split
      · exact h
      · exact Reach.enter (t := upd t j _) h _ (by simp)
    · exact h
  | done j =>
    unfold Adp.step; dsimp only
    split
    · split
      · exact h
      split
      · exact h
      split
      · exact h
      split
      · exact Reach.enter (t := upd t j _) h _ (by simp)
      · exact h
    · exact h
  | fail j =>
    unfold Adp.step; dsimp only
    split
    · split
      · exact h
      split
      · exact h
      split
      · exact h
      · exact Reach.enter (t := upd t j _) h _ (by simp)
    · exact h
  | ret =>
    unfold Adp.step; dsimp only
    split
    · dsimp only
      split
      · exact h.run _ (by simp)
      · exact h.run _ (by simp)
    · exact h.run _ (by simp)
  | cancel =>
    unfold Adp.step; dsimp only
    split
    · exact h.run _ (by simp)
    · exact h.run _ (by simp)
  | setStatus n => exact h.run _ (by simp)

theorem reach_foldl {e : Option (List Bool)} {kind : Bool → Nat → Kind} : ∀ (is : List In) {t : St}, Reach e t.ctx → Reach e (is.foldl (step kind) t).ctx
  | [], _, h => h
  | i :: is, _, h => reach_foldl is (h.step i)

theorem reach_run (kind : Bool → Nat → Kind) (e : Option (List Bool)) (is : List In) : Reach e (run kind e is).ctx := reach_foldl is ⟨[], rfl, by simp⟩

end Verif.Adp
