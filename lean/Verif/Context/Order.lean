import Verif.Context.Lemmas

/-! Which tasks have been started. -/

namespace Verif.Context

/-- The indices below `n` of the non-null tasks of a chain, in order. -/
def tasksBelow (chain : List Bool) (n : Nat) : List Nat := (List.range n).filter fun i => chain.getD i false

theorem tasksBelow_zero (ch : List Bool) : tasksBelow ch 0 = [] := rfl

theorem tasksBelow_nil (n : Nat) : tasksBelow [] n = [] := by simp [tasksBelow]

theorem tasksBelow_succ (ch : List Bool) (n : Nat) :
    tasksBelow ch (n + 1) = tasksBelow ch n ++ (if ch.getD n false then [n] else []) := by
  unfold tasksBelow
  rw [List.range_succ, List.filter_append]
  congr 1
  simp only [List.filter_cons, List.filter_nil]

theorem tasksBelow_skip (ch : List Bool) (i k : Nat) (h : ∀ j, i ≤ j → j < i + k → ch.getD j false = false) :
    tasksBelow ch (i + k) = tasksBelow ch i := by
  induction k with
  | zero => rfl
  | succ k ih =>
    rw [← Nat.add_assoc, tasksBelow_succ, h (i + k) (by omega) (by omega), ih (fun j h1 h2 => h j h1 (by omega))]
    simp

theorem skipNull_spec (ch : List Bool) (i : Nat) :
    i ≤ skipNull ch i ∧ (∀ j, i ≤ j → j < skipNull ch i → ch.getD j false = false) ∧
    (skipNull ch i < ch.length → ch.getD (skipNull ch i) false = true) := by
  unfold skipNull
  have key : ∀ (l : List Bool), (∀ j, j < (l.takeWhile (fun t => !t)).length → l.getD j false = false) ∧
      ((l.takeWhile (fun t => !t)).length < l.length → l.getD (l.takeWhile (fun t => !t)).length false = true) := by
    intro l
    induction l with
    | nil => exact ⟨by simp, by simp⟩
    | cons b t ih =>
      cases b with
      | true => simp
      | false =>
        obtain ⟨h1, h2⟩ := ih
        simp only [List.takeWhile_cons, Bool.not_false, if_true, List.length_cons]
        refine ⟨fun j hj => ?_, fun h => ?_⟩
        · cases j with
          | zero => rfl
          | succ j => rw [List.getD_cons_succ]; exact h1 j (by omega)
        · rw [List.getD_cons_succ]; exact h2 (by omega)
  obtain ⟨h1, h2⟩ := key (ch.drop i)
  have hg : ∀ k, (ch.drop i).getD k false = ch.getD (i + k) false := by
    intro k; simp [List.getD_eq_getElem?_getD, List.getElem?_drop]
  refine ⟨by omega, fun j hj1 hj2 => ?_, fun h => ?_⟩
  · have := h1 (j - i) (by omega)
    rw [hg] at this
    rw [← this]; congr 1; omega
  · rw [← hg]; apply h2; rw [List.length_drop]; omega

theorem tasksBelow_skipNull (ch : List Bool) (i : Nat) : tasksBelow ch (skipNull ch i + 1) =
    tasksBelow ch i ++ (if skipNull ch i < ch.length then [skipNull ch i] else []) := by
  obtain ⟨h1, h2, h3⟩ := skipNull_spec ch i
  rw [tasksBelow_succ]
  have e : skipNull ch i = i + (skipNull ch i - i) := by omega
  have := tasksBelow_skip ch i (skipNull ch i - i) (fun j a b => h2 j a (by omega))
  rw [← e] at this
  rw [this]
  by_cases hl : skipNull ch i < ch.length
  · rw [if_pos (h3 hl), if_pos hl]
  · rw [if_neg hl]
    have : ch.getD (skipNull ch i) false = false := by
      simp [List.getD_eq_getElem?_getD, List.getElem?_eq_none (Nat.le_of_not_lt hl)]
    rw [this]; simp

/-- The tasks started so far are exactly the non-null ones below `n` of the current chain, after those of
the abandoned route chain. -/
structure Sofar (c : Ctx) (n : Nat) : Prop where
  route : c.curErr = false → c.chain = c.main ∧ starts c.trace = (tasksBelow c.main n).map (false, ·)
  err : c.curErr = true → c.errChain = some c.chain ∧
    ∃ k, starts c.trace = (tasksBelow c.main k).map (false, ·) ++ (tasksBelow c.chain n).map (true, ·)
  phase : c.phase = .errorChain ↔ c.curErr = true
  pre : c.started = false → c.main = [] ∧ c.curErr = false
  enter : c.trace.count .enterError = if c.curErr then 1 else 0

theorem Sofar.congr {c d : Ctx} {n : Nat} (h : Sofar c n) (h1 : d.curErr = c.curErr) (h2 : d.chain = c.chain)
    (h3 : d.main = c.main) (h4 : starts d.trace = starts c.trace) (h5 : d.errChain = c.errChain)
    (h6 : d.phase = c.phase) (h7 : d.started = c.started)
    (h8 : d.trace.count .enterError = c.trace.count .enterError) : Sofar d n := by
  obtain ⟨a, b, e, f, g⟩ := h
  constructor
  · rw [h1, h2, h3, h4]; exact a
  · rw [h1, h2, h3, h4, h5]; exact b
  · rw [h6, h1]; exact e
  · rw [h7, h3, h1]; exact f
  · rw [h8, h1]; exact g

theorem finalize_same (c : Ctx) : (finalize c).curErr = c.curErr ∧ (finalize c).chain = c.chain ∧
    (finalize c).main = c.main ∧ starts (finalize c).trace = starts c.trace ∧ (finalize c).errChain = c.errChain ∧
    (finalize c).phase = c.phase ∧ (finalize c).started = c.started ∧ (finalize c).idx = c.idx ∧
    (finalize c).trace.count .enterError = c.trace.count .enterError := by
  unfold finalize
  split
  · simp
  · split
    · simp
    · simp

theorem Sofar.finalize {c : Ctx} {n : Nat} (h : Sofar c n) : Sofar (finalize c) n := by
  obtain ⟨h1, h2, h3, h4, h5, h6, h7, _, h8⟩ := finalize_same c
  exact h.congr h1 h2 h3 h4 h5 h6 h7 h8

theorem Sofar.proceed {c : Ctx} (h : Sofar c c.idx) (hn : doneOrCancelled c = false) (hst : c.started = true) :
    Sofar (proceed c) ((proceed c).idx + 1) := by
  have hk := tasksBelow_skipNull c.chain c.idx
  unfold Context.proceed
  rw [if_neg (by simp [hn])]
  by_cases hl : skipNull c.chain c.idx < c.chain.length
  · rw [if_pos hl] at hk ⊢
    obtain ⟨a, b, e, f, g⟩ := h
    constructor
    · intro hc
      have hc : c.curErr = false := hc
      obtain ⟨a1, a2⟩ := a hc
      refine ⟨a1, ?_⟩
      simp only [starts_append, starts_st, a2, hc]
      rw [← a1, hk]; simp
    · intro hc
      have hc : c.curErr = true := hc
      obtain ⟨b1, k, b2⟩ := b hc
      refine ⟨b1, k, ?_⟩
      simp only [starts_append, starts_st, b2, hc]
      rw [hk]; simp
    · exact e
    · intro hh; exact absurd hh (by simp [hst])
    · simpa using g
  · rw [if_neg hl] at hk ⊢
    rw [(finalize_same _).2.2.2.2.2.2.2.1]
    apply Sofar.finalize
    obtain ⟨a, b, e, f, g⟩ := h
    constructor
    · intro hc
      have hc : c.curErr = false := hc
      obtain ⟨a1, a2⟩ := a hc
      refine ⟨a1, ?_⟩
      simp only [a2]
      rw [← a1, hk]; simp
    · intro hc
      obtain ⟨b1, k, b2⟩ := b hc
      refine ⟨b1, k, ?_⟩
      simp only [b2]
      rw [hk]; simp
    · exact e
    · exact f
    · exact g

/-- Invariant between steps. -/
def Ord (c : Ctx) : Prop := Sofar c (c.idx + 1)

theorem Ord.finalize {c : Ctx} (h : Ord c) : Ord (finalize c) := by
  unfold Ord at *
  rw [(finalize_same c).2.2.2.2.2.2.2.1]
  exact Sofar.finalize h

theorem Ord.of_same {c d : Ctx} (h : Ord c) (hi : d.idx = c.idx) (h1 : d.curErr = c.curErr) (h2 : d.chain = c.chain)
    (h3 : d.main = c.main) (h4 : starts d.trace = starts c.trace) (h5 : d.errChain = c.errChain)
    (h6 : d.phase = c.phase) (h7 : d.started = c.started)
    (h8 : d.trace.count .enterError = c.trace.count .enterError) : Ord d := by
  unfold Ord at *; rw [hi]; exact Sofar.congr h h1 h2 h3 h4 h5 h6 h7 h8

theorem Ord.complete {c : Ctx} (h : Ord c) (r : Result) (hr : r = .error → c.started = true) : Ord (complete r c) := by
  unfold Context.complete
  split
  · exact h
  rename_i hfin
  split
  · split
    · exact h.finalize
    · exact h
  rename_i hcan
  have hnd : r ≠ .cancelled → doneOrCancelled c = false := by
    intro hrc
    have : (r != Result.cancelled) = true := by simpa using hrc
    rw [this, Bool.and_true] at hfin hcan
    have h1 : c.cancelled = false := by simpa using hcan
    have h2 : (c.state == .finalised) = false := by simpa using hfin
    simp [doneOrCancelled, h1, h2]
  have hsame : ∀ (d : Ctx), d.idx = c.idx → d.curErr = c.curErr → d.chain = c.chain → d.main = c.main →
      starts d.trace = starts c.trace → d.errChain = c.errChain → d.phase = c.phase → d.started = c.started →
      d.trace.count .enterError = c.trace.count .enterError → Ord d := fun d => h.of_same
  cases r with
  | «continue» =>
    have hnd := hnd (by simp)
    by_cases hst : c.started = true
    · refine Sofar.proceed ?_ (by simpa [doneOrCancelled] using hnd) hst
      exact Sofar.congr h rfl rfl rfl rfl rfl rfl rfl rfl
    · -- nothing to run before the chain is set
      have hst : c.started = false := by simpa using hst
      obtain ⟨m1, m2⟩ := h.pre hst
      have hch : c.chain = [] := by rw [(h.route m2).1]; exact m1
      simp only []
      unfold Context.proceed
      have hnd' : ∀ d : Ctx, d.cancelled = c.cancelled → d.state = c.state → ¬ doneOrCancelled d = true := by
        intro d h1 h2; simpa [doneOrCancelled, h1, h2] using hnd
      split
      · rename_i hx; exact absurd hx (hnd' _ rfl rfl)
      simp only [hch]
      rw [if_neg (by simp)]
      apply Ord.finalize
      constructor
      · intro _
        refine ⟨by simp [m1], ?_⟩
        have := (h.route m2).2
        simp only [m1, tasksBelow_nil] at this ⊢
        exact this
      · intro hc; have hc : c.curErr = true := hc; simp [m2] at hc
      · exact h.phase
      · exact h.pre
      · exact h.enter
  | complete => exact Ord.finalize (hsame _ rfl rfl rfl rfl rfl rfl rfl rfl rfl)
  | cancelled => exact Ord.finalize (hsame _ rfl rfl rfl rfl rfl rfl rfl rfl rfl)
  | fatal => exact Ord.finalize (hsame _ rfl rfl rfl rfl rfl rfl rfl rfl rfl)
  | error =>
    have hst := hr rfl
    have hnd := hnd (by simp)
    simp only []
    unfold Context.completeError
    split
    · exact Ord.finalize (hsame _ rfl rfl rfl rfl rfl rfl rfl rfl rfl)
    · rename_i hph
      have hph : c.phase ≠ .errorChain := by simpa using hph
      have hcur : c.curErr = false := by
        cases hc : c.curErr with
        | false => rfl
        | true => exact absurd (h.phase.2 hc) hph
      split
      · rename_i t ts he
        refine Sofar.proceed ?_ (by simpa [doneOrCancelled] using hnd) hst
        constructor
        · intro hc; simp at hc
        · intro _
          refine ⟨he, c.idx + 1, ?_⟩
          simp only [starts_append, starts_ee, List.append_nil, tasksBelow_zero, List.map_nil]
          exact (h.route hcur).2
        · simp
        · intro hh; exact absurd hh (by simp [hst])
        · have := h.enter
          rw [hcur] at this
          simp [this]
      · exact Ord.finalize (hsame _ rfl rfl rfl rfl rfl rfl rfl rfl rfl)

theorem Ord.afterCancel {c : Ctx} (h : Ord c) : Ord (afterCancel c) := by
  unfold Context.afterCancel
  refine Ord.complete ?_ _ (by simp)
  exact h.of_same rfl rfl rfl rfl rfl rfl rfl rfl rfl

theorem Ord.ret {c : Ctx} (h : Ord c) : Ord (ret c) := by
  unfold Context.ret
  split
  · split
    · exact h.of_same rfl rfl rfl rfl (by simp) rfl rfl rfl (by simp)
    · exact h.of_same rfl rfl rfl rfl rfl rfl rfl rfl rfl
  · refine Ord.afterCancel ?_
    exact h.of_same rfl rfl rfl rfl rfl rfl rfl rfl rfl
  · exact h.of_same rfl rfl rfl rfl rfl rfl rfl rfl rfl
  · exact h.of_same rfl rfl rfl rfl rfl rfl rfl rfl rfl
  · exact h

/-- Any action except an `ERROR` before the chain is started. -/
def ActOk (c : Ctx) (a : Act) : Prop := a = .complete .error → c.started = true

/-- Every task on the call stack has been started. -/
def FramesOk (c : Ctx) : Prop := ∀ e i, Frame.task e i ∈ c.stack → c.started = true

theorem Ord.throwing {c : Ctx} (h : Ord c) (hf : FramesOk c) : Ord (throwing c) := by
  unfold Context.throwing
  split
  · rename_i e i st hst
    split
    · exact h.of_same rfl rfl rfl rfl rfl rfl rfl rfl rfl
    · refine Ord.complete ?_ _ (fun _ => ?_)
      · exact h.of_same rfl rfl rfl rfl rfl rfl rfl rfl rfl
      · exact hf e i (by rw [hst]; simp)
  · exact h.ret

theorem Ord.start {c : Ctx} (h : Ord c) (hs : c.started = false) (ch : List Bool) : Ord (start ch c) := by
  have hpre := h.pre hs
  have hst : starts c.trace = [] := by
    rw [(h.route hpre.2).2, hpre.1]; simp [tasksBelow]
  have hen : c.trace.count .enterError = 0 := by have := h.enter; simpa [hpre.2] using this
  unfold Context.start
  split
  · constructor
    · exact h.route
    · exact h.err
    · simp [hpre.2]
    · intro hh; simp at hh
    · exact h.enter
  · rename_i hnd
    have hso : Sofar { c with phase := .normal, started := true, chain := ch, main := ch, idx := 0, state := .running,
                              curErr := false } 0 := by
      constructor
      · intro _; exact ⟨rfl, by simp [hst, tasksBelow_zero]⟩
      · intro hh; simp at hh
      · simp
      · intro hh; simp at hh
      · simpa using hen
    split
    · rename_i he
      have he : ch = [] := by simpa using he
      refine Ord.complete ?_ _ (by simp)
      subst he
      constructor
      · intro _; exact ⟨rfl, by simp [hst, tasksBelow]⟩
      · intro hh; simp at hh
      · simp
      · intro hh; simp at hh
      · simpa using hen
    · refine Sofar.proceed hso ?_ rfl
      have hnd : c.cancelled = false ∧ ¬ c.state = .finalised := by simpa [doneOrCancelled] using hnd
      simp [doneOrCancelled, hnd.1]

/-! ### bookkeeping: which fields the internal functions leave alone -/

theorem finalize_frames (c : Ctx) (e : Bool) (i : Nat) :
    Frame.task e i ∈ (finalize c).stack ↔ Frame.task e i ∈ c.stack := by
  unfold finalize; split
  · exact Iff.rfl
  · split <;> simp

theorem proceed_frames (c : Ctx) (hc : c.chain ≠ [] → c.started = true) (hf : FramesOk c) : FramesOk (proceed c) := by
  unfold proceed
  have hfin : ∀ d : Ctx, d.started = c.started → d.stack = c.stack → FramesOk (finalize d) := by
    intro d h1 h2 e i hm
    rw [finalize_frames, h2] at hm
    rw [(finalize_same d).2.2.2.2.2.2.1, h1]; exact hf e i hm
  split
  · split
    · exact hfin c rfl rfl
    · exact hf
  · split
    · rename_i hl
      intro e i _
      exact hc (by intro h0; rw [h0] at hl; simp at hl)
    · exact hfin _ rfl rfl

theorem proceed_started (c : Ctx) : (proceed c).started = c.started := by
  unfold proceed
  split
  · split
    · exact (finalize_same c).2.2.2.2.2.2.1
    · rfl
  · split
    · rfl
    · exact (finalize_same _).2.2.2.2.2.2.1

theorem complete_started (c : Ctx) (r : Result) : (complete r c).started = c.started := by
  unfold complete
  split
  · rfl
  split
  · split
    · exact (finalize_same c).2.2.2.2.2.2.1
    · rfl
  cases r with
  | «continue» => exact proceed_started _
  | complete => exact (finalize_same _).2.2.2.2.2.2.1
  | cancelled => exact (finalize_same _).2.2.2.2.2.2.1
  | fatal => exact (finalize_same _).2.2.2.2.2.2.1
  | error =>
    simp only []
    unfold completeError
    split
    · exact (finalize_same _).2.2.2.2.2.2.1
    · split
      · rw [proceed_started]
      · exact (finalize_same _).2.2.2.2.2.2.1

theorem complete_frames {c : Ctx} (h : Ord c) (hf : FramesOk c) (r : Result) (hr : r = .error → c.started = true) :
    FramesOk (complete r c) := by
  have hch : c.chain ≠ [] → c.started = true := by
    intro hne
    cases hs : c.started with
    | true => rfl
    | false =>
      have hp := h.pre hs
      exact absurd (by rw [(h.route hp.2).1]; exact hp.1) hne
  have hfin : ∀ d : Ctx, d.started = c.started → d.stack = c.stack → FramesOk (finalize d) := by
    intro d h1 h2 e i hm
    rw [finalize_frames, h2] at hm
    rw [(finalize_same d).2.2.2.2.2.2.1, h1]; exact hf e i hm
  unfold complete
  split
  · exact hf
  split
  · split
    · exact hfin _ rfl rfl
    · exact hf
  cases r with
  | «continue» => exact proceed_frames _ hch hf
  | complete => exact hfin _ rfl rfl
  | cancelled => exact hfin _ rfl rfl
  | fatal => exact hfin _ rfl rfl
  | error =>
    simp only []
    unfold completeError
    split
    · exact hfin _ rfl rfl
    · split
      · exact proceed_frames _ (fun _ => hr rfl) (fun e i hm => hr rfl)
      · exact hfin _ rfl rfl

/-- Both invariants. -/
def Good (c : Ctx) : Prop := Ord c ∧ FramesOk c

theorem Good.of_same {c d : Ctx} (h : Good c) (hi : d.idx = c.idx) (h1 : d.curErr = c.curErr) (h2 : d.chain = c.chain)
    (h3 : d.main = c.main) (h4 : starts d.trace = starts c.trace) (h5 : d.errChain = c.errChain)
    (h6 : d.phase = c.phase) (h7 : d.started = c.started) (h8 : d.trace.count .enterError = c.trace.count .enterError)
    (h9 : ∀ e i, Frame.task e i ∈ d.stack → Frame.task e i ∈ c.stack) : Good d :=
  ⟨h.1.of_same hi h1 h2 h3 h4 h5 h6 h7 h8, fun e i hm => by rw [h7]; exact h.2 e i (h9 e i hm)⟩

theorem Good.finalize {c : Ctx} (h : Good c) : Good (finalize c) :=
  ⟨h.1.finalize, fun e i hm => by
    rw [finalize_frames] at hm
    rw [(finalize_same c).2.2.2.2.2.2.1]; exact h.2 e i hm⟩

theorem Good.complete {c : Ctx} (h : Good c) (r : Result) (hr : r = .error → c.started = true) : Good (complete r c) :=
  ⟨h.1.complete r hr, complete_frames h.1 h.2 r hr⟩

theorem Good.afterCancel {c : Ctx} (h : Good c) : Good (afterCancel c) := by
  unfold Context.afterCancel
  refine Good.complete ?_ _ (by simp)
  exact h.of_same rfl rfl rfl rfl rfl rfl rfl rfl rfl (fun _ _ h => h)

theorem Good.ret {c : Ctx} (h : Good c) : Good (ret c) := by
  unfold Context.ret
  split
  · rename_i st hst
    split
    · exact h.of_same rfl rfl rfl rfl (by simp) rfl rfl rfl (by simp) (fun e i hm => by rw [hst]; simpa using hm)
    · exact h.of_same rfl rfl rfl rfl rfl rfl rfl rfl rfl (fun e i hm => by rw [hst]; simpa using hm)
  · rename_i st hst
    refine Good.afterCancel ?_
    exact h.of_same rfl rfl rfl rfl rfl rfl rfl rfl rfl (fun e i hm => by rw [hst]; simpa using hm)
  · rename_i st hst
    exact h.of_same rfl rfl rfl rfl rfl rfl rfl rfl rfl (fun e i hm => by rw [hst]; simpa using hm)
  · rename_i st _ _ _ hst
    refine h.of_same rfl rfl rfl rfl rfl rfl rfl rfl rfl (fun e i hm => by rw [hst]; exact List.mem_cons_of_mem _ hm)
  · exact h

theorem Good.throwing {c : Ctx} (h : Good c) : Good (throwing c) := by
  unfold Context.throwing
  split
  · rename_i e i st hst
    split
    · exact h.of_same rfl rfl rfl rfl rfl rfl rfl rfl rfl (fun e i hm => by rw [hst]; simp [hm])
    · refine Good.complete ?_ _ (fun _ => ?_)
      · exact h.of_same rfl rfl rfl rfl rfl rfl rfl rfl rfl (fun e i hm => by rw [hst]; simp [hm])
      · exact h.2 e i (by rw [hst]; simp)
  · exact h.ret

theorem Good.start {c : Ctx} (h : Good c) (hs : c.started = false) (ch : List Bool) : Good (start ch c) := by
  refine ⟨h.1.start hs ch, ?_⟩
  intro e i _
  unfold Context.start
  split
  · rfl
  · split
    · rw [complete_started]
    · rw [proceed_started]

theorem Good.step {c : Ctx} (h : Good c) (a : Act) (ha : ActOk c a) : Good (step c a) := by
  unfold Context.step
  split
  · exact h
  cases a with
  | complete r => exact h.complete r (fun hr => ha (by rw [hr]))
  | cancel =>
    show Good (Context.cancel c)
    unfold Context.cancel
    split
    · exact h
    · split
      · exact h.of_same rfl rfl rfl rfl rfl rfl rfl rfl rfl (fun e i hm => by simpa using hm)
      · refine Good.afterCancel ?_
        exact h.of_same rfl rfl rfl rfl rfl rfl rfl rfl rfl (fun _ _ h => h)
  | suppress => exact h.of_same rfl rfl rfl rfl rfl rfl rfl rfl rfl (fun _ _ h => h)
  | openScope => exact h.of_same rfl rfl rfl rfl rfl rfl rfl rfl rfl (fun _ _ h => h)
  | closeScope =>
    show Good (if c.depth = 0 then c else Context.release c)
    split
    · exact h
    · unfold Context.release
      split
      · refine Good.finalize ?_
        exact h.of_same rfl rfl rfl rfl rfl rfl rfl rfl rfl (fun _ _ h => h)
      · exact h.of_same rfl rfl rfl rfl rfl rfl rfl rfl rfl (fun _ _ h => h)
  | setStatus n => exact h.of_same rfl rfl rfl rfl rfl rfl rfl rfl rfl (fun _ _ h => h)
  | ret => exact h.ret
  | throw => exact h.throwing
  | start ch =>
    show Good (if (c.started || !c.stack.isEmpty) = true then c else Context.start ch c)
    split
    · exact h
    · rename_i hs
      exact h.start (by cases hc : c.started <;> simp_all) ch
  | destroy =>
    show Good (if c.stack.isEmpty = true then Context.destroy c else c)
    split
    · unfold Context.destroy
      split
      · refine Good.finalize ?_
        exact h.of_same rfl rfl rfl rfl rfl rfl rfl rfl rfl (fun e i hm => by simpa using hm)
      · exact h.of_same rfl rfl rfl rfl rfl rfl rfl rfl rfl (fun e i hm => by simpa using hm)
    · exact h

/-- Executions in which nobody calls `complete(ERROR)` before the router starts the chain (only the
PRE_ROUTING/PRE_HANDLER hooks could). -/
def Proper : Ctx → List Act → Prop
  | _, [] => True
  | c, a :: t => ActOk c a ∧ Proper (step c a) t

theorem Good.init (e : Option (List Bool)) : Good (init e) := by
  refine ⟨⟨fun _ => ⟨rfl, by simp [Context.init, starts, tasksBelow]⟩, fun h => by simp [Context.init] at h, by simp [Context.init], fun _ => ⟨rfl, rfl⟩, rfl⟩, ?_⟩
  intro e i hm; simp [Context.init] at hm

theorem Good.run {c : Ctx} (h : Good c) (as : List Act) (hp : Proper c as) : Good (run c as) := by
  induction as generalizing c with
  | nil => exact h
  | cons a t ih => exact ih (h.step a hp.1) hp.2

end Verif.Context
