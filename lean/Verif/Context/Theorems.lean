import Verif.Context.Order
import Mathlib.Data.List.Perm.Subperm

/-! Properties C38–C41: the life of a request. Every theorem quantifies over all lists of actions, that
is over every behaviour of tasks, hooks, callbacks and outside callers. -/

namespace Verif.Context

/-! ### what never changes -/

/-- `d` comes after `c`. -/
structure Later (c d : Ctx) : Prop where
  main : d.main = c.main
  err : d.errChain = c.errChain
  started : d.started = c.started
  cancelled : c.cancelled = true → d.cancelled = true
  final : c.state = .finalised → d.state = .finalised
  supp : d.suppressed = c.suppressed
  depth : d.depth = c.depth
  quiet : doneOrCancelled c = true → starts d.trace = starts c.trace

theorem Later.refl (c : Ctx) : Later c c := ⟨rfl, rfl, rfl, id, id, rfl, rfl, fun _ => rfl⟩

theorem Later.done {c d : Ctx} (h : Later c d) (hd : doneOrCancelled c = true) : doneOrCancelled d = true := by
  simp only [doneOrCancelled, Bool.or_eq_true, beq_iff_eq] at hd ⊢
  exact hd.imp h.cancelled h.final

theorem Later.trans {c d e : Ctx} (h1 : Later c d) (h2 : Later d e) : Later c e :=
  ⟨h2.main.trans h1.main, h2.err.trans h1.err, h2.started.trans h1.started, fun h => h2.cancelled (h1.cancelled h),
   fun h => h2.final (h1.final h), h2.supp.trans h1.supp, h2.depth.trans h1.depth,
   fun h => (h2.quiet (h1.done h)).trans (h1.quiet h)⟩

theorem Later.after {c d e : Ctx} (h2 : Later d e) (h1 : Later c d) : Later c e := h1.trans h2

theorem Later.finalize (c : Ctx) : Later c (finalize c) := by
  obtain ⟨h1, h2, h3, h4, h5, h6, h7, h8, h9⟩ := finalize_same c
  refine ⟨h3, h5, h7, ?_, ?_, ?_, ?_, fun _ => h4⟩ <;> unfold Context.finalize
  · intro h; split
    · exact h
    · split <;> exact h
  · intro h; rw [if_pos (by simp [h])]; exact h
  · split
    · rfl
    · split <;> rfl
  · split
    · rfl
    · split <;> rfl

theorem Later.proceed (c : Ctx) : Later c (proceed c) := by
  unfold Context.proceed
  split
  · split
    · exact .finalize c
    · exact .refl c
  · rename_i hn
    split
    · exact ⟨rfl, rfl, rfl, id, id, rfl, rfl, fun h => absurd h hn⟩
    · exact Later.after (.finalize _) ⟨rfl, rfl, rfl, id, id, rfl, rfl, fun _ => rfl⟩

theorem Later.complete (c : Ctx) (r : Result) : Later c (complete r c) := by
  unfold Context.complete
  split
  · exact .refl c
  rename_i h1
  split
  · split
    · exact .finalize c
    · exact .refl c
  rename_i h2
  have hsame : ∀ d : Ctx, d.main = c.main → d.errChain = c.errChain → d.started = c.started → d.suppressed = c.suppressed →
      d.depth = c.depth → d.trace = c.trace → d.state = c.state → (c.cancelled = true → d.cancelled = true) → Later c d :=
    fun d a1 a2 a3 a4 a5 a6 a7 a8 => ⟨a1, a2, a3, a8, fun h => by rw [a7]; exact h, a4, a5, fun _ => by rw [a6]⟩
  cases r with
  | «continue» => exact Later.after (.proceed _) (hsame _ rfl rfl rfl rfl rfl rfl rfl id)
  | complete => exact Later.after (.finalize _) (hsame _ rfl rfl rfl rfl rfl rfl rfl id)
  | cancelled => exact Later.after (.finalize _) (hsame _ rfl rfl rfl rfl rfl rfl rfl (fun _ => rfl))
  | fatal => exact Later.after (.finalize _) (hsame _ rfl rfl rfl rfl rfl rfl rfl id)
  | error =>
    have hnd : ¬ doneOrCancelled c = true := by
      simp at h1 h2
      simp [doneOrCancelled, h1, h2]
    simp only []
    unfold Context.completeError
    split
    · exact Later.after (.finalize _) (hsame _ rfl rfl rfl rfl rfl rfl rfl id)
    · split
      · refine Later.after (.proceed _) ⟨rfl, rfl, rfl, id, id, rfl, rfl, fun h => absurd h hnd⟩
      · exact Later.after (.finalize _) (hsame _ rfl rfl rfl rfl rfl rfl rfl id)

theorem Later.afterCancel (c : Ctx) : Later c (afterCancel c) := by
  unfold Context.afterCancel
  refine Later.after (.complete _ _) ⟨rfl, rfl, rfl, id, id, rfl, rfl, fun _ => rfl⟩

theorem Later.cancel (c : Ctx) : Later c (cancel c) := by
  unfold Context.cancel
  split
  · exact .refl c
  · split
    · exact ⟨rfl, rfl, rfl, fun _ => rfl, id, rfl, rfl, fun _ => rfl⟩
    · refine Later.after (.afterCancel _) ⟨rfl, rfl, rfl, fun _ => rfl, id, rfl, rfl, fun _ => rfl⟩

theorem Later.ret (c : Ctx) : Later c (ret c) := by
  unfold Context.ret
  split
  · split
    · exact ⟨rfl, rfl, rfl, id, id, rfl, rfl, fun _ => by simp⟩
    · exact ⟨rfl, rfl, rfl, id, id, rfl, rfl, fun _ => rfl⟩
  · exact Later.after (.afterCancel _) ⟨rfl, rfl, rfl, id, id, rfl, rfl, fun _ => rfl⟩
  · exact ⟨rfl, rfl, rfl, id, id, rfl, rfl, fun _ => rfl⟩
  · exact ⟨rfl, rfl, rfl, id, id, rfl, rfl, fun _ => rfl⟩
  · exact .refl c

theorem Later.throwing (c : Ctx) : Later c (throwing c) := by
  unfold Context.throwing
  split
  · split
    · exact ⟨rfl, rfl, rfl, id, id, rfl, rfl, fun _ => rfl⟩
    · exact Later.after (.complete _ _) ⟨rfl, rfl, rfl, id, id, rfl, rfl, fun _ => rfl⟩
  · exact .ret c

/-- What a step may change at all. -/
structure Next (c d : Ctx) : Prop where
  main : c.started = true → d.main = c.main
  err : d.errChain = c.errChain
  started : c.started = true → d.started = true
  cancelled : c.cancelled = true → d.cancelled = true
  final : c.state = .finalised → d.state = .finalised
  quiet : doneOrCancelled c = true → starts d.trace = starts c.trace

theorem Later.next {c d : Ctx} (h : Later c d) : Next c d :=
  ⟨fun _ => h.main, h.err, fun hs => h.started.trans hs, h.cancelled, h.final, h.quiet⟩

theorem Next.done {c d : Ctx} (h : Next c d) (hd : doneOrCancelled c = true) : doneOrCancelled d = true := by
  simp only [doneOrCancelled, Bool.or_eq_true, beq_iff_eq] at hd ⊢
  exact hd.imp h.cancelled h.final

theorem Next.trans {c d e : Ctx} (h1 : Next c d) (h2 : Next d e) : Next c e :=
  ⟨fun h => (h2.main (h1.started h)).trans (h1.main h), h2.err.trans h1.err, fun h => h2.started (h1.started h),
   fun h => h2.cancelled (h1.cancelled h), fun h => h2.final (h1.final h),
   fun h => (h2.quiet (h1.done h)).trans (h1.quiet h)⟩

theorem Next.after {c d e : Ctx} (h2 : Next d e) (h1 : Next c d) : Next c e := h1.trans h2

theorem Next.step (c : Ctx) (a : Act) : Next c (step c a) := by
  unfold Context.step
  split
  · exact (Later.refl c).next
  cases a with
  | complete r => exact (Later.complete c r).next
  | cancel => exact (Later.cancel c).next
  | suppress => exact ⟨fun _ => rfl, rfl, id, id, fun _ => rfl, fun _ => rfl⟩
  | openScope => exact ⟨fun _ => rfl, rfl, id, id, id, fun _ => rfl⟩
  | closeScope =>
    show Next c (if c.depth = 0 then c else release c)
    split
    · exact (Later.refl c).next
    · unfold release
      split
      · exact Next.after (Later.finalize _).next ⟨fun _ => rfl, rfl, id, id, id, fun _ => rfl⟩
      · exact ⟨fun _ => rfl, rfl, id, id, id, fun _ => rfl⟩
  | setStatus n => exact ⟨fun _ => rfl, rfl, id, id, id, fun _ => rfl⟩
  | ret => exact (Later.ret c).next
  | throw => exact (Later.throwing c).next
  | start ch =>
    show Next c (if (c.started || !c.stack.isEmpty) = true then c else start ch c)
    split
    · exact (Later.refl c).next
    · rename_i hs
      have hs : ¬ c.started = true := by intro h; simp [h] at hs
      unfold start
      split
      · exact ⟨fun h => absurd h hs, rfl, fun _ => rfl, id, id, fun _ => rfl⟩
      · rename_i hn
        have hf : ¬ c.state = .finalised := by intro h; simp [doneOrCancelled, h] at hn
        split
        · exact Next.after (Later.complete _ _).next ⟨fun h => absurd h hs, rfl, fun _ => rfl, id, fun h => absurd h hf, fun h => absurd h hn⟩
        · exact Next.after (Later.proceed _).next ⟨fun h => absurd h hs, rfl, fun _ => rfl, id, fun h => absurd h hf, fun h => absurd h hn⟩
  | destroy =>
    show Next c (if c.stack.isEmpty = true then destroy c else c)
    split
    · unfold destroy
      split
      · exact Next.after (Later.finalize _).next ⟨fun _ => rfl, rfl, id, id, id, fun _ => rfl⟩
      · exact ⟨fun _ => rfl, rfl, id, id, id, fun _ => rfl⟩
    · exact (Later.refl c).next

theorem Next.run (c : Ctx) (as : List Act) : Next c (run c as) := by
  induction as generalizing c with
  | nil => exact (Later.refl c).next
  | cons a t ih => exact (Next.step c a).trans (ih (Context.step c a))

theorem step_supp (c : Ctx) (a : Act) (h : a ≠ .suppress) : (step c a).suppressed = c.suppressed := by
  unfold step
  split
  · rfl
  cases a with
  | suppress => exact absurd rfl h
  | complete r => exact (Later.complete c r).supp
  | cancel => exact (Later.cancel c).supp
  | openScope => rfl
  | closeScope =>
    show (if c.depth = 0 then c else release c).suppressed = _
    split
    · rfl
    · unfold release
      split
      · exact (Later.finalize _).supp
      · rfl
  | setStatus n => rfl
  | ret => exact (Later.ret c).supp
  | throw => exact (Later.throwing c).supp
  | start ch =>
    show (if (c.started || !c.stack.isEmpty) = true then c else start ch c).suppressed = _
    split
    · rfl
    · unfold start
      split
      · rfl
      · split
        · exact (Later.complete _ _).supp
        · exact (Later.proceed _).supp
  | destroy =>
    show (if c.stack.isEmpty = true then destroy c else c).suppressed = _
    split
    · unfold destroy
      split
      · exact (Later.finalize _).supp
      · rfl
    · rfl

theorem run_supp (c : Ctx) (as : List Act) (h : Act.suppress ∉ as) : (run c as).suppressed = c.suppressed := by
  induction as generalizing c with
  | nil => rfl
  | cons a t ih =>
    show (run (step c a) t).suppressed = _
    rw [ih _ (fun hm => h (List.mem_cons_of_mem _ hm)), step_supp c a (fun hh => h (by rw [hh]; simp))]

theorem run_append (c : Ctx) (as bs : List Act) : run c (as ++ bs) = run (run c as) bs := by
  unfold run; exact List.foldl_append ..

/-! ## C38 -/

/-- C38: whatever tasks, hooks, callbacks and outside callers do, the finalisation callback runs at most
once (and the request is finalised at most once). -/
theorem C38_at_most_once (e : Option (List Bool)) (as : List Act) :
    callbacks (run (init e) as).trace ≤ 1 ∧ finals (run (init e) as).trace ≤ 1 := by
  have h := (Inv.init e).run as
  by_cases hs : (run (init e) as).state = .finalised
  · have := h.post hs; omega
  · have := h.pre hs; omega

/-- C38: while no user code is running, a finalised request that was not suppressed has had its callback
run exactly once. -/
theorem C38_finalised_responded (e : Option (List Bool)) (as : List Act) (hsup : Act.suppress ∉ as)
    (hfin : (run (init e) as).state = .finalised) (hidle : (run (init e) as).stack = []) :
    callbacks (run (init e) as).trace = 1 := by
  have h := (Inv.init e).run as
  have hs : (run (init e) as).suppressed = false := run_supp _ as hsup
  have := ((h.post hfin).2.2 hs).1
  rw [hidle] at this
  simpa using this

/-- C38: destroying the context (no deferral scope open) and letting the destructor's hooks and callback
run in any way, the callback has run exactly once unless the response was suppressed. -/
theorem C38_exactly_once_at_destruction (e : Option (List Bool)) (as bs : List Act)
    (hidle : (run (init e) as).stack = []) (hdepth : (run (init e) as).depth = 0)
    (hd0 : (run (init e) as).dead = false)
    (hsup : Act.suppress ∉ as ++ .destroy :: bs) (hdead : (run (init e) (as ++ .destroy :: bs)).dead = true) :
    callbacks (run (init e) (as ++ .destroy :: bs)).trace = 1 := by
  have h := (Inv.init e).run (as ++ .destroy :: bs)
  have hst := h.dead hdead
  have hfin : (run (init e) (as ++ .destroy :: bs)).state = .finalised := by
    · rw [run_append]
      have : (step (run (init e) as) .destroy).state = .finalised := by
        unfold step
        rw [if_neg (by simp [hd0])]
        simp only []
        rw [if_pos (by simp [hidle])]
        unfold destroy
        split
        · rename_i hne
          unfold finalize
          rw [if_neg (by simpa using hne), if_neg (by simp [hdepth])]
        · rename_i hne
          have : (run (init e) as).state = .finalised := by simpa using hne
          exact this
      exact (Next.run _ bs).final this
  exact C38_finalised_responded e _ hsup hfin hst

/-- a task that completes twice, throws afterwards, and is cancelled: one response -/
example : (run (init none) [.start [true], .complete .complete, .ret, .complete .complete, .cancel, .ret, .throw]).trace =
    [.start false 0, .finalised 200, .callback 200] := by decide
/-- an abandoned request is answered by the destructor -/
example : (run (init none) [.start [true], .ret, .destroy, .ret, .ret, .ret]).dead = true ∧
    callbacks (run (init none) [.start [true], .ret, .destroy, .ret, .ret, .ret]).trace = 1 := by decide

/-! ## C39 -/

/-- C39: the tasks started are exactly a prefix of the route chain, in order, each once (null entries
skipped), followed by a prefix of the error chain. No assumption on how often tasks complete. -/
theorem C39_tasks_in_order (e : Option (List Bool)) (ch : List Bool) (as : List Act) :
    ∃ k m, starts (run (init e) (.start ch :: as)).trace =
      (tasksBelow ch k).map (false, ·) ++ (tasksBelow (e.getD []) m).map (true, ·) := by
  have hp : ∀ (c : Ctx) (l : List Act), c.started = true → Proper c l := by
    intro c l
    induction l generalizing c with
    | nil => intro _; trivial
    | cons a t ih => intro hs; exact ⟨fun _ => hs, ih _ ((Next.step c a).started hs)⟩
  have hstep : step (init e) (.start ch) = start ch (init e) := rfl
  have hst : (step (init e) (.start ch)).started = true := by
    rw [hstep]
    unfold start
    split
    · rfl
    · split
      · rw [complete_started]
      · rw [proceed_started]
  have hmain : (step (init e) (.start ch)).main = ch := by
    rw [hstep]
    unfold start
    rw [if_neg (by simp [doneOrCancelled, init])]
    split
    · rw [(Later.complete _ _).main]
    · rw [(Later.proceed _).main]
  have herr : (step (init e) (.start ch)).errChain = e := (Next.step (init e) (.start ch)).err
  have hg : Good (run (init e) (.start ch :: as)) :=
    ((Good.init e).step (.start ch) (fun h => by simp at h)).run as (hp _ _ hst)
  have hn := Next.run (step (init e) (.start ch)) as
  have hm : (run (init e) (.start ch :: as)).main = ch := (hn.main hst).trans hmain
  have he : (run (init e) (.start ch :: as)).errChain = e := hn.err.trans herr
  cases hc : (run (init e) (.start ch :: as)).curErr with
  | false =>
    have := (hg.1.route hc).2
    rw [hm] at this
    exact ⟨(run (init e) (.start ch :: as)).idx + 1, 0, by rw [this]; simp [tasksBelow_zero]⟩
  | true =>
    obtain ⟨h1, k, h2⟩ := hg.1.err hc
    rw [hm] at h2
    rw [he] at h1
    have h3 : e.getD [] = (run (init e) (.start ch :: as)).chain := congrArg (·.getD []) h1
    exact ⟨k, (run (init e) (.start ch :: as)).idx + 1, by rw [h2, h3]⟩

/-- C39: the same when hooks act before the chain starts, as long as none of them calls
`complete(ERROR)` before that (see `C40_false_prerouting`). -/
theorem C39_tasks_in_order_hooks (e : Option (List Bool)) (as : List Act) (hp : Proper (init e) as) :
    ∃ k m, starts (run (init e) as).trace =
      (tasksBelow (run (init e) as).main k).map (false, ·) ++ (tasksBelow (e.getD []) m).map (true, ·) := by
  have hg := (Good.init e).run as hp
  have he : (run (init e) as).errChain = e := (Next.run (init e) as).err
  cases hc : (run (init e) as).curErr with
  | false => exact ⟨(run (init e) as).idx + 1, 0, by rw [(hg.1.route hc).2]; simp [tasksBelow_zero]⟩
  | true =>
    obtain ⟨h1, k, h2⟩ := hg.1.err hc
    rw [he] at h1
    have h3 : e.getD [] = (run (init e) as).chain := congrArg (·.getD []) h1
    exact ⟨k, (run (init e) as).idx + 1, by rw [h2, h3]⟩

/-- C39: once the request is finalised or cancelled, no task is ever started again. -/
theorem C39_none_after_termination (c : Ctx) (as : List Act) (h : c.cancelled = true ∨ c.state = .finalised) :
    starts (run c as).trace = starts c.trace :=
  (Next.run c as).quiet (by simpa [doneOrCancelled] using h)

/-- Each task completes at most once: `complete` is called only while a task is in flight, and a task
throws only while it is the one in flight. `cancel` is unrestricted. -/
def CompletesOnce : Ctx → List Act → Prop
  | _, [] => True
  | c, a :: t =>
    ((∀ r, a = .complete r → c.inFlight = true) ∧
     (a = .throw → ∀ e i st, c.stack = .task e i :: st → c.inFlight = true ∧ e = c.curErr ∧ i = c.idx)) ∧
    CompletesOnce (step c a) t

theorem finalize_inFlight {c : Ctx} (h : c.inFlight = false) : (finalize c).inFlight = false := by
  unfold finalize
  split
  · exact h
  · split
    · exact h
    · rfl

theorem completeCancelled_quiet (c : Ctx) (h : c.inFlight = false) :
    (complete .cancelled c).inFlight = false ∧ starts (complete .cancelled c).trace = starts c.trace := by
  unfold complete
  rw [if_neg (by simp), if_neg (by simp)]
  exact ⟨finalize_inFlight rfl, (finalize_same _).2.2.2.1⟩

theorem quiet_step {c : Ctx} (hs : c.started = true) (hf : c.inFlight = false) (a : Act)
    (h1 : ∀ r, a = .complete r → c.inFlight = true)
    (h2 : a = .throw → ∀ e i st, c.stack = .task e i :: st → c.inFlight = true ∧ e = c.curErr ∧ i = c.idx) :
    (step c a).inFlight = false ∧ starts (step c a).trace = starts c.trace := by
  have hret : (ret c).inFlight = false ∧ starts (ret c).trace = starts c.trace := by
    unfold ret
    split
    · split
      · exact ⟨hf, by simp⟩
      · exact ⟨hf, rfl⟩
    · exact completeCancelled_quiet _ hf
    · exact ⟨hf, rfl⟩
    · exact ⟨hf, rfl⟩
    · exact ⟨hf, rfl⟩
  unfold step
  split
  · exact ⟨hf, rfl⟩
  cases a with
  | complete r => exact absurd (h1 r rfl) (by simp [hf])
  | cancel =>
    show (cancel c).inFlight = false ∧ _
    unfold cancel
    split
    · exact ⟨hf, rfl⟩
    · split
      · exact ⟨hf, rfl⟩
      · exact completeCancelled_quiet _ hf
  | suppress => exact ⟨rfl, rfl⟩
  | openScope => exact ⟨hf, rfl⟩
  | closeScope =>
    show (if c.depth = 0 then c else release c).inFlight = false ∧ starts (if c.depth = 0 then c else release c).trace = _
    split
    · exact ⟨hf, rfl⟩
    · unfold release
      split
      · exact ⟨finalize_inFlight hf, (finalize_same _).2.2.2.1⟩
      · exact ⟨hf, rfl⟩
  | setStatus n => exact ⟨hf, rfl⟩
  | ret => exact hret
  | throw =>
    show (throwing c).inFlight = false ∧ _
    unfold throwing
    split
    · rename_i e i st hst
      exact absurd (h2 rfl e i st hst).1 (by simp [hf])
    · exact hret
  | start ch =>
    show (if (c.started || !c.stack.isEmpty) = true then c else start ch c).inFlight = false ∧ starts
      (if (c.started || !c.stack.isEmpty) = true then c else start ch c).trace = _
    rw [if_pos (by simp [hs])]
    exact ⟨hf, rfl⟩
  | destroy =>
    show (if c.stack.isEmpty = true then destroy c else c).inFlight = false ∧ starts
      (if c.stack.isEmpty = true then destroy c else c).trace = _
    split
    · unfold destroy
      split
      · exact ⟨finalize_inFlight hf, (finalize_same _).2.2.2.1⟩
      · exact ⟨hf, rfl⟩
    · exact ⟨hf, rfl⟩

/-- C39: when each task completes at most once, no task starts after a `COMPLETE`, even while the
finalisation is deferred. -/
theorem C39_none_after_complete (c : Ctx) (hs : c.started = true) (hfl : c.inFlight = true) (hdead : c.dead = false)
    (as : List Act) (h : CompletesOnce c (.complete .complete :: as)) :
    starts (run c (.complete .complete :: as)).trace = starts c.trace := by
  obtain ⟨_, h⟩ := h
  show starts (run (step c (.complete .complete)) as).trace = _
  by_cases hd : doneOrCancelled c = true
  · exact (Next.run c (.complete .complete :: as)).quiet hd
  have e : step c (.complete .complete) =
      finalize { c with inFlight := false, lastResult := .complete, count := c.count + 1 } := by
    unfold step
    rw [if_neg (by simp [hdead])]
    simp only []
    unfold complete
    have hd' : c.cancelled = false ∧ ¬ c.state = .finalised := by simpa [doneOrCancelled] using hd
    rw [if_neg (by simp [hd'.2]), if_neg (by simp [hd'.1])]
  have hf : (step c (.complete .complete)).inFlight = false := by rw [e]; exact finalize_inFlight rfl
  have hst : (step c (.complete .complete)).started = true := (Next.step c _).started hs
  have hsame : starts (step c (.complete .complete)).trace = starts c.trace := by
    rw [e]; exact (finalize_same _).2.2.2.1
  rw [← hsame]
  clear e hsame
  generalize step c (.complete .complete) = d at *
  induction as generalizing d with
  | nil => rfl
  | cons a t ih =>
    obtain ⟨⟨h1, h2⟩, h3⟩ := h
    obtain ⟨q1, q2⟩ := quiet_step hst hf a h1 h2
    show starts (run (step d a) t).trace = _
    rw [← q2]
    exact ih (step d a) h3 q1 ((Next.step d a).started hst)

example : CompletesOnce (run (init none) [.start [true, true]])
    [.openScope, .complete .complete, .ret, .closeScope] := by
  simp [CompletesOnce, step, init, run, start, proceed, skipNull, doneOrCancelled, complete, finalize]

/-- Without that discipline it fails: a task that completes twice inside a deferral scope, first with
`COMPLETE`, then with `CONTINUE`, does start the next task. -/
theorem C39_double_completion_runs_on : starts (run (init none)
    [.start [true, true], .openScope, .complete .complete, .complete .continue]).trace = [(false, 0), (false, 1)] := by
  decide

/-! ## C40 -/

theorem enterError_count (e : Option (List Bool)) (as : List Act) (hp : Proper (init e) as) :
    (run (init e) as).trace.count .enterError ≤ 1 := by
  have := ((Good.init e).run as hp).1.enter
  rw [this]; split <;> omega

theorem tasksBelow_length (ch : List Bool) (n : Nat) : (tasksBelow ch n).length ≤ ch.length := by
  unfold tasksBelow
  have : (List.range n).filter (fun i => ch.getD i false) ⊆ List.range ch.length := by
    intro i hi
    rw [List.mem_filter] at hi
    rw [List.mem_range]
    apply Classical.byContradiction
    intro hlt
    have h2 := hi.2
    rw [List.getD_eq_getElem?_getD, List.getElem?_eq_none (Nat.le_of_not_lt hlt)] at h2
    simp at h2
  have hnd : ((List.range n).filter (fun i => ch.getD i false)).Nodup := List.nodup_range.filter _
  have := (List.subperm_of_subset hnd this).length_le
  simpa using this

/-- C40: the error chain is entered at most once, and no execution, however long, starts more tasks than
the two chains contain. -/
theorem C40_error_chain_once (e : Option (List Bool)) (as : List Act) (hp : Proper (init e) as) :
    (run (init e) as).trace.count .enterError ≤ 1 ∧
    (starts (run (init e) as).trace).length ≤ (run (init e) as).main.length + (e.getD []).length := by
  refine ⟨enterError_count e as hp, ?_⟩
  obtain ⟨k, m, h⟩ := C39_tasks_in_order_hooks e as hp
  rw [h, List.length_append, List.length_map, List.length_map]
  have := tasksBelow_length (run (init e) as).main k
  have := tasksBelow_length (e.getD []) m
  omega

example : Proper (init (some [true])) [.start [true], .complete .error, .complete .error] := by
  simp [Proper, ActOk, step, init, start, proceed, skipNull, doneOrCancelled, complete_started]

/-- C40: an `ERROR` outside the error chain makes the first task of the configured error chain run
next. -/
theorem C40_error_runs_chain (c : Ctx) (hdead : c.dead = false) (hc : c.cancelled = false) (hs : c.state ≠ .finalised)
    (hp : c.phase ≠ .errorChain) (ts : List Bool) (he : c.errChain = some (true :: ts)) :
    (step c (.complete .error)).trace = c.trace ++ [.enterError, .start true 0] ∧
    (step c (.complete .error)).phase = .errorChain ∧ (step c (.complete .error)).status = c.status := by
  have hs1 : (c.state == State.finalised) = false := by simpa using hs
  have hp1 : (c.phase == Phase.errorChain) = false := by simpa using hp
  simp [step, hdead, complete, hc, hs1, completeError, hp1, he, proceed, doneOrCancelled, skipNull]

/-- C40: an `ERROR` inside the error chain, or with no error chain configured, starts no task and
finalises the request with status 500 (at once unless finalisation is deferred). -/
theorem C40_error_in_error_chain (c : Ctx) (hdead : c.dead = false) (hc : c.cancelled = false)
    (hs : c.state ≠ .finalised) (h : c.phase = .errorChain ∨ c.errChain = none ∨ c.errChain = some []) :
    (step c (.complete .error)).status = 500 ∧
    starts (step c (.complete .error)).trace = starts c.trace ∧
    (c.depth = 0 → (step c (.complete .error)).trace = c.trace ++ [.finalised 500]) ∧
    (c.depth ≠ 0 → (step c (.complete .error)).pending = true) := by
  have hs1 : (c.state == State.finalised) = false := by simpa using hs
  by_cases hp : c.phase = .errorChain
  · by_cases hd : c.depth = 0
    · simp [step, hdead, complete, hc, hs1, completeError, hp, finalize, hd]
    · have : c.depth > 0 := by omega
      simp [step, hdead, complete, hc, hs1, completeError, hp, finalize, hd, this]
  · have hp1 : (c.phase == Phase.errorChain) = false := by simpa using hp
    have hec : c.errChain = none ∨ c.errChain = some [] := h.resolve_left hp
    by_cases hd : c.depth = 0
    · rcases hec with h | h <;> simp [step, hdead, complete, hc, hs1, completeError, hp1, finalize, hd, h]
    · have : c.depth > 0 := by omega
      rcases hec with h | h <;> simp [step, hdead, complete, hc, hs1, completeError, hp1, finalize, hd, h, this]

example : (run (init (some [true])) [.start [true], .complete .error, .complete .error]).trace =
    [.start false 0, .enterError, .start true 0, .finalised 500] := by decide

/-- The exception: a PRE_ROUTING hook that calls `complete(ERROR)` starts the error chain, and the
router then starts the route chain on top of it; a later error enters the error chain a second time. -/
theorem C40_false_prerouting : (run (init (some [true]))
    [.complete .error, .ret, .start [true], .complete .error]).trace.count .enterError = 2 := by decide

/-! ## C41 -/

/-- C41: cancellation is sticky, and no task starts after it. -/
theorem C41_sticky (c : Ctx) (as : List Act) (h : c.cancelled = true) :
    (run c as).cancelled = true ∧ starts (run c as).trace = starts c.trace :=
  ⟨(Next.run c as).cancelled h, C39_none_after_termination c as (Or.inl h)⟩

/-- C41: after finalisation, `complete` with any result but `CANCELLED` changes nothing at all, and
`cancel` and `complete(CANCELLED)` produce no event and leave the status alone. -/
theorem C41_late_calls_ignored (c : Ctx) (h : c.state = .finalised) :
    (∀ r, r ≠ .cancelled → step c (.complete r) = c) ∧ step c .cancel = c ∧
    (step c (.complete .cancelled)).trace = c.trace ∧ (step c (.complete .cancelled)).status = c.status ∧
    (step c (.complete .cancelled)).state = .finalised ∧ (step c (.complete .cancelled)).stack = c.stack := by
  refine ⟨?_, ?_, ?_⟩
  · intro r hr
    unfold step complete
    cases hd : c.dead <;> simp [h, hr]
  · unfold step cancel
    cases hd : c.dead <;> simp [doneOrCancelled, h]
  · unfold step complete finalize
    cases hd : c.dead <;> simp [h]

theorem complete_503 {c : Ctx} (hc : c.cancelled = true) (hs : c.status = 503) (r : Result) :
    (complete r c).status = 503 ∧ ∀ n, Ev.finalised n ∈ (complete r c).trace → Ev.finalised n ∈ c.trace ∨ n = 503 := by
  have hfin : ∀ d : Ctx, d.status = 503 → d.trace = c.trace → (finalize d).status = 503 ∧
      ∀ n, Ev.finalised n ∈ (finalize d).trace → Ev.finalised n ∈ c.trace ∨ n = 503 := by
    intro d h1 h2
    unfold finalize
    split
    · exact ⟨h1, fun n hn => Or.inl (h2 ▸ hn)⟩
    · split
      · exact ⟨h1, fun n hn => Or.inl (h2 ▸ hn)⟩
      · refine ⟨h1, fun n hn => ?_⟩
        simp only [List.mem_append, List.mem_singleton, Ev.finalised.injEq] at hn
        rcases hn with hn | hn
        · exact Or.inl (h2 ▸ hn)
        · exact Or.inr (hn.trans h1)
  unfold complete
  split
  · exact ⟨hs, fun n hn => Or.inl hn⟩
  · split
    · split
      · exact hfin c hs rfl
      · exact ⟨hs, fun n hn => Or.inl hn⟩
    · rename_i hx
      have hr : r = .cancelled := by
        simp only [hc, Bool.true_and] at hx
        simpa using hx
      subst hr
      exact hfin _ hs rfl

/-- One step of `C41_status_503`. -/
theorem step_503 {c : Ctx} (hc : c.cancelled = true) (hs : c.status = 503) (a : Act) (ha : ∀ n, a ≠ .setStatus n) :
    (step c a).status = 503 ∧ ∀ n, Ev.finalised n ∈ (step c a).trace → Ev.finalised n ∈ c.trace ∨ n = 503 := by
  have htriv : ∀ d : Ctx, d.status = c.status → d.trace = c.trace → d.status = 503 ∧
      ∀ n, Ev.finalised n ∈ d.trace → Ev.finalised n ∈ c.trace ∨ n = 503 :=
    fun d h1 h2 => ⟨h1.trans hs, fun n hn => Or.inl (h2 ▸ hn)⟩
  have hfin : ∀ d : Ctx, d.status = 503 → d.trace = c.trace → (finalize d).status = 503 ∧
      ∀ n, Ev.finalised n ∈ (finalize d).trace → Ev.finalised n ∈ c.trace ∨ n = 503 := by
    intro d h1 h2
    unfold finalize
    split
    · exact ⟨h1, fun n hn => Or.inl (h2 ▸ hn)⟩
    · split
      · exact ⟨h1, fun n hn => Or.inl (h2 ▸ hn)⟩
      · refine ⟨h1, fun n hn => ?_⟩
        simp only [List.mem_append, List.mem_singleton, Ev.finalised.injEq] at hn
        rcases hn with hn | hn
        · exact Or.inl (h2 ▸ hn)
        · exact Or.inr (hn.trans h1)
  have hret : (ret c).status = 503 ∧ ∀ n, Ev.finalised n ∈ (ret c).trace → Ev.finalised n ∈ c.trace ∨ n = 503 := by
    unfold ret
    split
    · split
      · refine ⟨hs, fun n hn => Or.inl ?_⟩
        simpa using hn
      · exact htriv _ rfl rfl
    · rename_i st hst
      have := complete_503 (c := { c with stack := st, status := 503 }) hc rfl .cancelled
      exact this
    · exact htriv _ rfl rfl
    · exact htriv _ rfl rfl
    · exact htriv _ rfl rfl
  unfold step
  split
  · exact htriv _ rfl rfl
  cases a with
  | complete r => exact complete_503 hc hs r
  | cancel =>
    show (cancel c).status = 503 ∧ _
    have : cancel c = c := by unfold cancel; rw [if_pos (by simp [doneOrCancelled, hc])]
    rw [this]; exact htriv _ rfl rfl
  | suppress => exact htriv _ rfl rfl
  | openScope => exact htriv _ rfl rfl
  | closeScope =>
    show (if c.depth = 0 then c else release c).status = 503 ∧ ∀ n, Ev.finalised n ∈
      (if c.depth = 0 then c else release c).trace → _
    split
    · exact htriv _ rfl rfl
    · unfold release
      split
      · exact hfin _ hs rfl
      · exact htriv _ rfl rfl
  | setStatus n => exact absurd rfl (ha n)
  | ret => exact hret
  | throw =>
    show (throwing c).status = 503 ∧ _
    unfold throwing
    split
    · rw [if_pos (by simp [doneOrCancelled, hc])]
      exact htriv _ rfl rfl
    · exact hret
  | start ch =>
    show (if (c.started || !c.stack.isEmpty) = true then c else start ch c).status = 503 ∧ ∀ n, Ev.finalised n ∈
      (if (c.started || !c.stack.isEmpty) = true then c else start ch c).trace → _
    split
    · exact htriv _ rfl rfl
    · unfold start
      rw [if_pos (by simp [doneOrCancelled, hc])]
      exact htriv _ rfl rfl
  | destroy =>
    show (if c.stack.isEmpty = true then destroy c else c).status = 503 ∧ ∀ n, Ev.finalised n ∈
      (if c.stack.isEmpty = true then destroy c else c).trace → _
    split
    · unfold destroy
      split
      · exact hfin _ hs rfl
      · exact htriv _ rfl rfl
    · exact htriv _ rfl rfl

/-- C41: once cancelled with status 503 set, whatever completions, errors, exceptions and deferrals
follow, a finalisation happens with 503 (unless user code overwrites the status itself). -/
theorem C41_status_503 (c : Ctx) (hc : c.cancelled = true) (hs : c.status = 503) (as : List Act)
    (ha : ∀ n, Act.setStatus n ∉ as) (n : Nat) (h : Ev.finalised n ∈ (run c as).trace) :
    Ev.finalised n ∈ c.trace ∨ n = 503 := by
  induction as generalizing c with
  | nil => exact Or.inl h
  | cons a t ih =>
    obtain ⟨s1, s2⟩ := step_503 hc hs a (fun m hm => ha m (by rw [hm]; simp))
    rcases ih (step c a) ((Next.step c a).cancelled hc) s1 (fun m hm => ha m (List.mem_cons_of_mem _ hm)) h with h | h
    · exact s2 n h
    · exact Or.inr h

/-- C41: `cancel()` marks the request cancelled and finalises it with 503, provided the `cancel()` method of
the task in flight (if any) does not itself complete the request. Missing for the full claim: that
method may call `complete`, see `C41_false_reentrant_cancel`. -/
theorem C41_cancel_503_partial (c : Ctx) (hdead : c.dead = false) (hc : c.cancelled = false)
    (hs : c.state ≠ .finalised) (hd : c.depth = 0) :
    (step c .cancel).cancelled = true ∧
    ((step c .cancel).trace = c.trace ++ [.finalised 503] ∨
     ((step c .cancel).stack = .taskCancel :: c.stack ∧ (step c .cancel).trace = c.trace ∧
      ∀ bs : List Act, (∀ a ∈ bs, ∃ n, a = .setStatus n) → ∀ last, last = .ret ∨ last = .throw →
        (run c (.cancel :: bs ++ [last])).trace = c.trace ++ [.finalised 503] ∧
        (run c (.cancel :: bs ++ [last])).status = 503)) := by
  have hs1 : (c.state == State.finalised) = false := by simpa using hs
  have hdc : ¬ doneOrCancelled c = true := by simp [doneOrCancelled, hc, hs]
  unfold step
  rw [if_neg (by simp [hdead])]
  simp only []
  unfold cancel
  rw [if_neg hdc]
  by_cases hfl : (c.inFlight && decide (c.idx < c.chain.length) && c.chain.getD c.idx false) = true
  · rw [if_pos hfl]
    refine ⟨rfl, Or.inr ⟨rfl, rfl, ?_⟩⟩
    intro bs hbs last hlast
    have e1 : step c .cancel = { c with cancelled := true, stack := .taskCancel :: c.stack } := by
      unfold step
      rw [if_neg (by simp [hdead])]
      simp only []
      unfold cancel
      rw [if_neg hdc, if_pos hfl]
    have e2 : ∀ (bs : List Act), (∀ a ∈ bs, ∃ n, a = .setStatus n) → ∀ d : Ctx, d.dead = false →
        ∃ m, run d bs = { d with status := m } := by
      intro bs
      induction bs with
      | nil => intro _ d _; exact ⟨d.status, rfl⟩
      | cons a t ih =>
        intro ht d hd
        obtain ⟨n, rfl⟩ := ht a (by simp)
        have : step d (.setStatus n) = { d with status := n } := by unfold step; rw [if_neg (by simp [hd])]
        show ∃ m, run (step d (.setStatus n)) t = _
        rw [this]
        obtain ⟨m, hm⟩ := ih (fun a ha => ht a (List.mem_cons_of_mem _ ha)) { d with status := n } hd
        exact ⟨m, hm⟩
    obtain ⟨m, hm⟩ := e2 bs hbs { c with cancelled := true, stack := .taskCancel :: c.stack } hdead
    have e3 : run c (.cancel :: bs ++ [last]) = step { c with cancelled := true, stack := .taskCancel :: c.stack, status := m } last := by
      rw [List.cons_append]
      show run (step c .cancel) (bs ++ [last]) = _
      rw [e1, run_append, hm]; rfl
    rw [e3]
    rcases hlast with rfl | rfl <;>
      simp [step, hdead, ret, throwing, afterCancel, complete, finalize, hs1, hd]
  · rw [if_neg hfl]
    refine ⟨?_, Or.inl ?_⟩
    · simp [afterCancel, complete, finalize, hs1, hd]
    · simp [afterCancel, complete, finalize, hs1, hd]

example : (run (init none) [.start [true], .ret, .cancel, .ret]).trace = [.start false 0, .finalised 503] := by decide

/-- The exception: a task whose `cancel()` calls `complete(...)` finalises the request with the old
status, before 503 is set. -/
theorem C41_false_reentrant_cancel : (run (init none) [.start [true], .ret, .cancel, .complete .complete, .ret]).trace =
    [.start false 0, .finalised 200, .callback 200] := by decide

end Verif.Context
