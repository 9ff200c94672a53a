import Verif.Context.Theorems

/-! Progress: what a completion makes happen next (C39, C40, C41), and deferred finalisation (C65). -/

namespace Verif.Context

/-- `j` is the first non-null task at position `i` or later. -/
def FirstTask (chain : List Bool) (i j : Nat) : Prop :=
  i ≤ j ∧ chain[j]? = some true ∧ ∀ k, i ≤ k → k < j → chain[k]? = some false

/-- There is no task at position `i` or later. -/
def NoTask (chain : List Bool) (i : Nat) : Prop := ∀ k, i ≤ k → chain[k]? ≠ some true

theorem skipNull_first {chain : List Bool} {i j : Nat} (h : FirstTask chain i j) : skipNull chain i = j := by
  obtain ⟨hij, hj, hk⟩ := h
  unfold skipNull
  obtain ⟨n, rfl⟩ := Nat.exists_eq_add_of_le hij
  suffices H : ∀ (l : List Bool) (n : Nat), l[n]? = some true → (∀ k, k < n → l[k]? = some false) →
      (l.takeWhile (fun t => !t)).length = n by
    rw [H (chain.drop i) n (by rw [List.getElem?_drop]; exact hj)
      (fun k hkn => by rw [List.getElem?_drop]; exact hk _ (by omega) (by omega))]
  intro l
  induction l with
  | nil => intro n h; simp at h
  | cons a t ih =>
    intro n h1 h2
    cases n with
    | zero =>
      simp only [List.getElem?_cons_zero, Option.some.injEq] at h1
      subst h1; rfl
    | succ n =>
      have h0 := h2 0 (by omega)
      simp only [List.getElem?_cons_zero, Option.some.injEq] at h0
      subst h0
      rw [List.takeWhile_cons_of_pos (by rfl), List.length_cons, ih n (by simpa using h1)]
      intro k hk
      have := h2 (k + 1) (by omega)
      simpa using this

theorem skipNull_none {chain : List Bool} {i : Nat} (h : NoTask chain i) : chain.length ≤ skipNull chain i := by
  unfold skipNull
  have : (chain.drop i).takeWhile (fun t => !t) = chain.drop i := by
    suffices H : ∀ l : List Bool, (∀ b ∈ l, (!b) = true) → l.takeWhile (fun t => !t) = l by
      apply H
      intro b hb
      obtain ⟨n, hn⟩ := List.mem_iff_getElem?.mp hb
      rw [List.getElem?_drop] at hn
      have := h (i + n) (by omega)
      rw [hn] at this
      cases b
      · rfl
      · exact absurd rfl this
    intro l
    induction l with
    | nil => intro _; rfl
    | cons a t ih =>
      intro hl
      rw [List.takeWhile_cons_of_pos (hl a (by simp)), ih (fun b hb => hl b (by simp [hb]))]
  rw [this, List.length_drop]
  omega

theorem FirstTask.lt {chain : List Bool} {i j : Nat} (h : FirstTask chain i j) : j < chain.length := by
  have := h.2.1
  rw [List.getElem?_eq_some_iff] at this
  exact this.1

/-- C39: a task that completes with `CONTINUE` makes the next task of the same chain start at once, null
entries being skipped, and that task becomes the one in flight. -/
theorem C39_continue_starts_next (c : Ctx) (hdead : c.dead = false) (hc : c.cancelled = false)
    (hs : c.state ≠ .finalised) (j : Nat) (hj : FirstTask c.chain (c.idx + 1) j) :
    (step c (.complete .continue)).trace = c.trace ++ [.start c.curErr j] ∧
    (step c (.complete .continue)).stack = .task c.curErr j :: c.stack ∧
    (step c (.complete .continue)).idx = j ∧ (step c (.complete .continue)).inFlight = true := by
  have hs1 : (c.state == State.finalised) = false := by simpa using hs
  have e := skipNull_first hj
  have hl := hj.lt
  simp [step, hdead, complete, hc, hs1, proceed, doneOrCancelled, e, hl]

/-- C39: when no task is left, `CONTINUE` finalises the request with the status it has (at once unless
finalisation is deferred). -/
theorem C39_end_of_chain_finalises (c : Ctx) (hdead : c.dead = false) (hc : c.cancelled = false)
    (hs : c.state ≠ .finalised) (hj : NoTask c.chain (c.idx + 1)) :
    (c.depth = 0 → (step c (.complete .continue)).trace = c.trace ++ [.finalised c.status] ∧
      (step c (.complete .continue)).state = .finalised) ∧
    (c.depth ≠ 0 → (step c (.complete .continue)).trace = c.trace ∧
      (step c (.complete .continue)).pending = true) := by
  have hs1 : (c.state == State.finalised) = false := by simpa using hs
  have e : ¬ skipNull c.chain (c.idx + 1) < c.chain.length := by
    have := skipNull_none hj; omega
  constructor
  · intro hd
    simp [step, hdead, complete, hc, hs1, proceed, doneOrCancelled, e, finalize, hd]
  · intro hd
    have : c.depth > 0 := by omega
    simp [step, hdead, complete, hc, hs1, proceed, doneOrCancelled, e, finalize, this]

/-- C39: `COMPLETE` finalises the request with the status it has. -/
theorem C39_complete_finalises (c : Ctx) (hdead : c.dead = false) (hc : c.cancelled = false)
    (hs : c.state ≠ .finalised) (hd : c.depth = 0) :
    (step c (.complete .complete)).trace = c.trace ++ [.finalised c.status] ∧
    (step c (.complete .complete)).state = .finalised ∧
    (step c (.complete .complete)).stack = .hooks :: c.stack := by
  have hs1 : (c.state == State.finalised) = false := by simpa using hs
  simp [step, hdead, complete, hc, hs1, finalize, hd]

example : FirstTask [true, false, true] (0 + 1) 2 := by
  refine ⟨by omega, by decide, fun k h1 h2 => ?_⟩
  have : k = 1 := by omega
  subst this; decide
example : NoTask [true, false] (0 + 1) := by
  intro k hk
  match k, hk with
  | 1, _ => decide
  | k + 2, _ => simp
example : (run (init none) [.start [true, false, true], .complete .continue]).trace =
    [.start false 0, .start false 2] := by decide

/-- C39: the router's start begins with the first task of the chain; a chain without any task is
answered at once. -/
theorem C39_start_runs_first (e : Option (List Bool)) (ch : List Bool) :
    (∀ j, FirstTask ch 0 j → (step (init e) (.start ch)).trace = [.start false j]) ∧
    (NoTask ch 0 → (step (init e) (.start ch)).trace = [.finalised 200]) := by
  constructor
  · intro j hj
    have e1 := skipNull_first hj
    have hl := hj.lt
    have hne : ch ≠ [] := by intro h; subst h; simp at hl
    simp [step, init, start, hne, proceed, doneOrCancelled, e1, hl]
  · intro h
    by_cases hne : ch = []
    · subst hne
      simp [step, init, start, complete, finalize, doneOrCancelled]
    · have e1 : ¬ skipNull ch 0 < ch.length := by
        have := skipNull_none h; omega
      simp [step, init, start, hne, proceed, doneOrCancelled, e1, finalize]

/-- C40: `FATAL` never runs the error chain: the request is finalised with status 500. -/
theorem C40_fatal_500 (c : Ctx) (hdead : c.dead = false) (hc : c.cancelled = false) (hs : c.state ≠ .finalised) :
    (step c (.complete .fatal)).status = 500 ∧
    (c.depth = 0 → (step c (.complete .fatal)).trace = c.trace ++ [.finalised 500]) ∧
    (c.depth ≠ 0 → (step c (.complete .fatal)).trace = c.trace ∧ (step c (.complete .fatal)).pending = true) := by
  have hs1 : (c.state == State.finalised) = false := by simpa using hs
  by_cases hd : c.depth = 0
  · simp [step, hdead, complete, hc, hs1, finalize, hd]
  · have : c.depth > 0 := by omega
    simp [step, hdead, complete, hc, hs1, finalize, hd, this]

/-- C40: a task that throws before completing is treated as if it had completed with `ERROR`: the error
chain's first task starts, or, inside the error chain or without one, the request is finalised with
500. -/
theorem C40_throw_is_error (c : Ctx) (hdead : c.dead = false) (hc : c.cancelled = false)
    (hs : c.state ≠ .finalised) (err : Bool) (i : Nat) (st : List Frame) (hst : c.stack = .task err i :: st) :
    (∀ ts, c.phase ≠ .errorChain → c.errChain = some (true :: ts) →
      (step c .throw).trace = c.trace ++ [.enterError, .start true 0] ∧
      (step c .throw).stack = .task true 0 :: st) ∧
    (c.phase = .errorChain ∨ c.errChain = none ∨ c.errChain = some [] → c.depth = 0 →
      (step c .throw).trace = c.trace ++ [.finalised 500] ∧ (step c .throw).stack = .hooks :: st) := by
  have hs1 : (c.state == State.finalised) = false := by simpa using hs
  constructor
  · intro ts hp he
    have hp1 : (c.phase == Phase.errorChain) = false := by simpa using hp
    simp [step, hdead, throwing, hst, complete, hc, hs1, completeError, hp1, he, proceed, doneOrCancelled, skipNull]
  · intro h hd
    by_cases hp : c.phase = .errorChain
    · simp [step, hdead, throwing, hst, doneOrCancelled, complete, hc, hs1, completeError, hp, finalize, hd]
    · have hp1 : (c.phase == Phase.errorChain) = false := by simpa using hp
      rcases h.resolve_left hp with h | h <;>
        simp [step, hdead, throwing, hst, doneOrCancelled, complete, hc, hs1, completeError, hp1, finalize, hd, h]

example : (run (init (some [true])) [.start [true], .throw]).trace = [.start false 0, .enterError, .start true 0] := by
  decide

/-- C41: cancelling while a task is in flight calls the `cancel()` method of that task, exactly once:
a second `cancel()` does nothing. -/
theorem C41_task_notified (c : Ctx) (hdead : c.dead = false) (hc : c.cancelled = false) (hs : c.state ≠ .finalised)
    (j : Nat) (hj : FirstTask c.chain (c.idx + 1) j) :
    (run c [.complete .continue, .cancel]).stack = .taskCancel :: .task c.curErr j :: c.stack ∧
    run c [.complete .continue, .cancel, .cancel] = run c [.complete .continue, .cancel] := by
  have hs1 : (c.state == State.finalised) = false := by simpa using hs
  have e := skipNull_first hj
  have hl := hj.lt
  have hg : c.chain[j] = true := by
    have := hj.2.1
    rw [List.getElem?_eq_some_iff] at this
    exact this.2
  simp [run, step, hdead, complete, hc, hs1, proceed, doneOrCancelled, e, hl, cancel, hg]

example : (run (init none) [.start [true, true], .complete .continue, .cancel]).stack =
    [.taskCancel, .task false 1, .task false 0] := by decide

/-! ## C65 deferred finalisation -/

theorem finalize_deferred {c : Ctx} (hd : 0 < c.depth) :
    (finalize c).depth = c.depth ∧ finals (finalize c).trace = finals c.trace := by
  unfold finalize
  split
  · exact ⟨rfl, rfl⟩
  · exact ⟨rfl, rfl⟩

theorem finals_append_start (t : List Ev) (e : Bool) (i : Nat) : finals (t ++ [.start e i]) = finals t := by
  simp [finals, List.filter_append]

theorem proceed_deferred {c : Ctx} (hd : 0 < c.depth) :
    (proceed c).depth = c.depth ∧ finals (proceed c).trace = finals c.trace := by
  unfold proceed
  split
  · split
    · exact finalize_deferred hd
    · exact ⟨rfl, rfl⟩
  · split
    · exact ⟨rfl, finals_append_start _ _ _⟩
    · exact finalize_deferred (c := { c with idx := _ }) hd

theorem complete_deferred {c : Ctx} (r : Result) (hd : 0 < c.depth) :
    (complete r c).depth = c.depth ∧ finals (complete r c).trace = finals c.trace := by
  unfold complete
  split
  · exact ⟨rfl, rfl⟩
  split
  · split
    · exact finalize_deferred hd
    · exact ⟨rfl, rfl⟩
  split
  · exact proceed_deferred (c := { c with inFlight := _, lastResult := _, count := _, idx := _ }) hd
  · exact finalize_deferred (c := { c with inFlight := _, lastResult := _, count := _ }) hd
  · exact finalize_deferred (c := { c with inFlight := _, lastResult := _, count := _, cancelled := _ }) hd
  · exact finalize_deferred (c := { c with inFlight := _, lastResult := _, count := _, status := _ }) hd
  · unfold completeError
    split
    · exact finalize_deferred (c := { c with inFlight := _, lastResult := _, count := _, status := _ }) hd
    · split
      · rename_i t ts _
        have := proceed_deferred (c := { c with inFlight := false, lastResult := .error, count := c.count + 1, phase := .errorChain, chain := t :: ts, idx := 0, curErr := true, trace := c.trace ++ [.enterError] }) hd
        refine ⟨this.1, this.2.trans ?_⟩
        simp [finals, List.filter_append]
      · exact finalize_deferred (c := { c with inFlight := _, lastResult := _, count := _, status := _ }) hd

theorem ret_deferred (c : Ctx) (hd : 0 < c.depth) :
    (ret c).depth = c.depth ∧ finals (ret c).trace = finals c.trace := by
  unfold ret
  split
  · split
    · exact ⟨rfl, by simp [finals, List.filter_append]⟩
    · exact ⟨rfl, rfl⟩
  · exact complete_deferred (c := { c with stack := _, status := _ }) _ hd
  · exact ⟨rfl, rfl⟩
  · exact ⟨rfl, rfl⟩
  · exact ⟨rfl, rfl⟩

theorem step_deferred (c : Ctx) (a : Act) (ha : a ≠ .closeScope) (hd : 0 < c.depth) :
    c.depth ≤ (step c a).depth ∧ finals (step c a).trace = finals c.trace := by
  suffices H : (∃ d, (step c a).depth = d ∧ c.depth ≤ d) ∧ finals (step c a).trace = finals c.trace by
    obtain ⟨⟨d, h1, h2⟩, h3⟩ := H
    exact ⟨h1 ▸ h2, h3⟩
  unfold step
  split
  · exact ⟨⟨_, rfl, Nat.le_refl _⟩, rfl⟩
  cases a with
  | complete r => have := complete_deferred r hd; exact ⟨⟨_, this.1, Nat.le_refl _⟩, this.2⟩
  | cancel =>
    simp only []
    unfold cancel
    split
    · exact ⟨⟨_, rfl, Nat.le_refl _⟩, rfl⟩
    · split
      · exact ⟨⟨_, rfl, Nat.le_refl _⟩, rfl⟩
      · have := complete_deferred (c := { c with cancelled := true, status := 503 }) .cancelled hd
        exact ⟨⟨_, this.1, Nat.le_refl _⟩, this.2⟩
  | suppress => exact ⟨⟨_, rfl, Nat.le_refl _⟩, rfl⟩
  | openScope => exact ⟨⟨_, rfl, Nat.le_succ _⟩, rfl⟩
  | closeScope => exact absurd rfl ha
  | setStatus n => exact ⟨⟨_, rfl, Nat.le_refl _⟩, rfl⟩
  | ret => have := ret_deferred c hd; exact ⟨⟨_, this.1, Nat.le_refl _⟩, this.2⟩
  | throw =>
    simp only []
    unfold throwing
    split
    · split
      · exact ⟨⟨_, rfl, Nat.le_refl _⟩, rfl⟩
      · rename_i st _ _
        have := complete_deferred (c := { c with stack := st, inFlight := false }) .error hd
        exact ⟨⟨_, this.1, Nat.le_refl _⟩, this.2⟩
    · have := ret_deferred c hd; exact ⟨⟨_, this.1, Nat.le_refl _⟩, this.2⟩
  | start ch =>
    simp only []
    split
    · exact ⟨⟨_, rfl, Nat.le_refl _⟩, rfl⟩
    · unfold start
      split
      · exact ⟨⟨_, rfl, Nat.le_refl _⟩, rfl⟩
      · split
        · have := complete_deferred (c := { c with phase := .normal, started := true, chain := ch, main := ch, idx := 0, state := .running, curErr := false }) .complete hd
          exact ⟨⟨_, this.1, Nat.le_refl _⟩, this.2⟩
        · have := proceed_deferred (c := { c with phase := .normal, started := true, chain := ch, main := ch, idx := 0, state := .running, curErr := false }) hd
          exact ⟨⟨_, this.1, Nat.le_refl _⟩, this.2⟩
  | destroy =>
    simp only []
    split
    · unfold destroy
      split
      · have := finalize_deferred (c := { c with stack := .dtor :: c.stack }) hd
        exact ⟨⟨_, this.1, Nat.le_refl _⟩, this.2⟩
      · exact ⟨⟨_, rfl, Nat.le_refl _⟩, rfl⟩
    · exact ⟨⟨_, rfl, Nat.le_refl _⟩, rfl⟩

/-- C65: as long as a deferral scope stays open the request is not finalised, whatever is called on it:
completions, cancellation, errors, exceptions. -/
theorem C65_no_finalisation_in_scope (c : Ctx) (hd : 0 < c.depth) (as : List Act) (ha : Act.closeScope ∉ as) :
    finals (run c as).trace = finals c.trace := by
  induction as generalizing c with
  | nil => rfl
  | cons a t ih =>
    obtain ⟨h1, h2⟩ := step_deferred c a (fun h => ha (by rw [h]; simp)) hd
    show finals (run (step c a) t).trace = _
    rw [ih (step c a) (by omega) (fun h => ha (List.mem_cons_of_mem _ h)), h2]

/-- C65: closing the last scope finalises the request, with its current status, exactly when a
finalisation was requested meanwhile; otherwise, and for an inner scope, closing changes nothing but
the nesting depth. -/
theorem C65_release (c : Ctx) (hdead : c.dead = false) (hs : c.state ≠ .finalised) (hd : 0 < c.depth) :
    (c.depth = 1 ∧ c.pending = true →
      (step c .closeScope).trace = c.trace ++ [.finalised c.status] ∧ (step c .closeScope).state = .finalised ∧
      (step c .closeScope).stack = .hooks :: c.stack) ∧
    (¬ (c.depth = 1 ∧ c.pending = true) → step c .closeScope = { c with depth := c.depth - 1 }) := by
  have hs1 : (c.state == State.finalised) = false := by simpa using hs
  constructor
  · rintro ⟨h1, h2⟩
    simp [step, hdead, release, h1, h2, finalize, hs1]
  · intro h
    have h0 : c.depth ≠ 0 := by omega
    have h2 : ¬ (c.depth - 1 = 0 ∧ c.pending = true) := by
      rintro ⟨a, b⟩; exact h ⟨by omega, b⟩
    simp only [step, hdead, Bool.false_eq_true, if_false, h0]
    unfold release
    rw [if_neg (by simpa using h2)]
    simp [hdead]

/-- C65: every finalising completion inside a scope is remembered until the scope closes: `COMPLETE`
inside the scope and then any calls that only set the status, then closing, finalise with that status. -/
theorem C65_completion_remembered (c : Ctx) (hdead : c.dead = false) (hc : c.cancelled = false)
    (hs : c.state ≠ .finalised) (hd : c.depth = 1) (n : Nat) :
    (run c [.complete .complete, .setStatus n, .closeScope]).trace = c.trace ++ [.finalised n] := by
  have hs1 : (c.state == State.finalised) = false := by simpa using hs
  simp [run, step, hdead, complete, hc, hs1, finalize, hd, release]

example : (run (init none) [.start [true], .openScope, .complete .complete, .setStatus 204, .closeScope]).trace =
    [.start false 0, .finalised 204] := by decide
example : 0 < (run (init none) [.start [true], .openScope]).depth := by decide

end Verif.Context
