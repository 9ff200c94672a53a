import Verif.Context.Model

/-! Invariants of the request lifecycle. -/

namespace Verif.Context

/-- Number of runs of the finalisation callback. -/
def callbacks (tr : List Ev) : Nat := (tr.filter fun e => match e with | .callback _ => true | _ => false).length

/-- Number of finalisations. -/
def finals (tr : List Ev) : Nat := (tr.filter fun e => match e with | .finalised _ => true | _ => false).length

/-- Tasks started, in order. -/
def starts (tr : List Ev) : List (Bool × Nat) :=
  tr.filterMap fun e => match e with | .start b i => some (b, i) | _ => none

@[simp] theorem callbacks_append (a b : List Ev) : callbacks (a ++ b) = callbacks a + callbacks b := by
  simp [callbacks]
@[simp] theorem finals_append (a b : List Ev) : finals (a ++ b) = finals a + finals b := by simp [finals]
@[simp] theorem starts_append (a b : List Ev) : starts (a ++ b) = starts a ++ starts b := by simp [starts]
@[simp] theorem callbacks_fin (n : Nat) : callbacks [.finalised n] = 0 := rfl
@[simp] theorem callbacks_cb (n : Nat) : callbacks [.callback n] = 1 := rfl
@[simp] theorem callbacks_st (b : Bool) (n : Nat) : callbacks [.start b n] = 0 := rfl
@[simp] theorem callbacks_ee : callbacks [.enterError] = 0 := rfl
@[simp] theorem finals_fin (n : Nat) : finals [.finalised n] = 1 := rfl
@[simp] theorem finals_cb (n : Nat) : finals [.callback n] = 0 := rfl
@[simp] theorem finals_st (b : Bool) (n : Nat) : finals [.start b n] = 0 := rfl
@[simp] theorem finals_ee : finals [.enterError] = 0 := rfl
@[simp] theorem starts_fin (n : Nat) : starts [.finalised n] = [] := rfl
@[simp] theorem starts_cb (n : Nat) : starts [.callback n] = [] := rfl
@[simp] theorem starts_st (b : Bool) (n : Nat) : starts [.start b n] = [(b, n)] := rfl
@[simp] theorem starts_ee : starts [.enterError] = [] := rfl

/-! ### C38 -/

/-- The destructor's frame is at the bottom of the stack. -/
def dtorOk : List Frame → Prop
  | [] => True
  | .dtor :: st => st = []
  | _ :: st => dtorOk st

theorem dtorOk_push {fr : Frame} (h : fr ≠ .dtor) (st : List Frame) : dtorOk (fr :: st) ↔ dtorOk st := by
  cases fr <;> simp [dtorOk] at h ⊢

theorem dtorOk_tail {fr : Frame} {st : List Frame} (h : dtorOk (fr :: st)) : dtorOk st := by
  cases fr <;> simp [dtorOk] at h ⊢ <;> simp [h, dtorOk]

/-- The callback runs at most once, and after finalisation it has run, is about to run (the hooks are
running), or was suppressed. -/
structure Inv (c : Ctx) : Prop where
  pre : c.state ≠ .finalised → callbacks c.trace = 0 ∧ c.stack.count .hooks = 0 ∧ finals c.trace = 0 ∧ c.suppressed = false
  post : c.state = .finalised → callbacks c.trace + c.stack.count .hooks ≤ 1 ∧ finals c.trace ≤ 1 ∧
    (c.suppressed = false → callbacks c.trace + c.stack.count .hooks = 1 ∧ finals c.trace = 1)
  cb : c.hasCallback = !c.suppressed
  dead : c.dead = true → c.stack = []
  bottom : dtorOk c.stack

theorem Inv.init (e : Option (List Bool)) : Inv (init e) :=
  ⟨fun _ => ⟨rfl, rfl, rfl, rfl⟩, fun h => by simp [Context.init] at h, rfl, fun h => by simp [Context.init] at h, trivial⟩

/-- Two contexts agree on everything `Inv` looks at. -/
theorem Inv.congr {c d : Ctx} (h : Inv c) (h1 : d.state = c.state) (h2 : d.trace = c.trace) (h3 : d.stack = c.stack)
    (h4 : d.hasCallback = c.hasCallback) (h5 : d.suppressed = c.suppressed) (h6 : d.dead = c.dead) : Inv d := by
  obtain ⟨a, b, e, f, g⟩ := h
  exact ⟨by rw [h1, h2, h3, h5]; exact a, by rw [h1, h2, h3, h5]; exact b, by rw [h4, h5]; exact e, by rw [h6, h3]; exact f, by rw [h3]; exact g⟩

theorem Inv.finalize {c : Ctx} (h : Inv c) (hd : c.dead = false) : Inv (finalize c) ∧ (finalize c).dead = false := by
  unfold Context.finalize
  obtain ⟨a, b, e, f, g⟩ := h
  split
  · exact ⟨⟨a, b, e, f, g⟩, hd⟩
  · split
    · exact ⟨⟨a, b, e, f, g⟩, hd⟩
    · rename_i h1 _
      have h1 : c.state ≠ .finalised := by simpa using h1
      obtain ⟨a1, a2, a3, a4⟩ := a h1
      refine ⟨⟨fun h => absurd rfl h, fun _ => ?_, e, ?_, (dtorOk_push (by simp) _).2 g⟩, hd⟩
      · simp [a1, a2, a3]
      · simp [hd]

theorem Inv.proceed {c : Ctx} (h : Inv c) (hd : c.dead = false) : Inv (proceed c) ∧ (proceed c).dead = false := by
  unfold Context.proceed
  split
  · split
    · exact h.finalize hd
    · exact ⟨h, hd⟩
  · split
    · obtain ⟨a, b, e, f, g⟩ := h
      refine ⟨⟨fun hs => ?_, fun hs => ?_, e, by simp [hd], (dtorOk_push (by simp) _).2 g⟩, hd⟩
      · simpa using a hs
      · simpa using b hs
    · exact Inv.finalize (h.congr rfl rfl rfl rfl rfl rfl) hd

theorem Inv.completeError {c : Ctx} (h : Inv c) (hd : c.dead = false) :
    Inv (completeError c) ∧ (completeError c).dead = false := by
  unfold Context.completeError
  split
  · exact Inv.finalize (h.congr rfl rfl rfl rfl rfl rfl) hd
  · split
    · refine Inv.proceed ?_ hd
      obtain ⟨a, b, e, f, g⟩ := h
      exact ⟨fun hs => by simpa using a hs, fun hs => by simpa using b hs, e, f, g⟩
    · exact Inv.finalize (h.congr rfl rfl rfl rfl rfl rfl) hd

theorem Inv.complete {c : Ctx} (h : Inv c) (hd : c.dead = false) (r : Result) :
    Inv (complete r c) ∧ (complete r c).dead = false := by
  unfold Context.complete
  split
  · exact ⟨h, hd⟩
  · split
    · split
      · exact h.finalize hd
      · exact ⟨h, hd⟩
    · cases r
      · exact Inv.proceed (h.congr rfl rfl rfl rfl rfl rfl) hd
      · exact Inv.finalize (h.congr rfl rfl rfl rfl rfl rfl) hd
      · exact Inv.finalize (h.congr rfl rfl rfl rfl rfl rfl) hd
      · exact Inv.completeError (h.congr rfl rfl rfl rfl rfl rfl) hd
      · exact Inv.finalize (h.congr rfl rfl rfl rfl rfl rfl) hd

theorem Inv.afterCancel {c : Ctx} (h : Inv c) (hd : c.dead = false) :
    Inv (afterCancel c) ∧ (afterCancel c).dead = false := by
  unfold Context.afterCancel
  refine Inv.complete ?_ ?_ _
  · exact h.congr rfl rfl rfl rfl rfl rfl
  · exact hd

theorem Inv.push {c : Ctx} (h : Inv c) (hd : c.dead = false) {fr : Frame} (hf : fr ≠ .hooks) (hg : fr ≠ .dtor) :
    Inv { c with stack := fr :: c.stack } := by
  obtain ⟨a, b, e, f, g⟩ := h
  have : (fr :: c.stack).count Frame.hooks = c.stack.count .hooks := by
    rw [List.count_cons]; simp [hf]
  exact ⟨fun hs => by rw [this]; exact a hs, fun hs => by rw [this]; exact b hs, e, by simp [hd], (dtorOk_push hg _).2 g⟩

theorem Inv.pop {c : Ctx} (h : Inv c) (hd : c.dead = false) {fr : Frame} {st : List Frame} (hf : fr ≠ .hooks)
    (hst : c.stack = fr :: st) : Inv { c with stack := st } := by
  obtain ⟨a, b, e, f, g⟩ := h
  have : c.stack.count Frame.hooks = st.count .hooks := by
    rw [hst, List.count_cons]; simp [hf]
  rw [this] at a b
  exact ⟨a, b, e, by simp [hd], dtorOk_tail (hst ▸ g)⟩

theorem Inv.cancel {c : Ctx} (h : Inv c) (hd : c.dead = false) : Inv (cancel c) ∧ (cancel c).dead = false := by
  unfold Context.cancel
  split
  · exact ⟨h, hd⟩
  · split
    · exact ⟨(Inv.push h hd (fr := .taskCancel) (by simp) (by simp)).congr rfl rfl rfl rfl rfl rfl, hd⟩
    · exact Inv.afterCancel (h.congr rfl rfl rfl rfl rfl rfl) hd

theorem Inv.suppress {c : Ctx} (h : Inv c) : Inv (suppress c) := by
  obtain ⟨a, b, e, f, g⟩ := h
  refine ⟨fun hs => absurd rfl hs, fun _ => ?_, rfl, f, g⟩
  simp only [Context.suppress]
  by_cases hs : c.state = .finalised
  · obtain ⟨b1, b2, b3⟩ := b hs
    exact ⟨b1, b2, by simp⟩
  · obtain ⟨a1, a2, a3, a4⟩ := a hs
    exact ⟨by omega, by omega, by simp⟩

theorem Inv.start {c : Ctx} (h : Inv c) (hd : c.dead = false) (ch : List Bool) : Inv (start ch c) := by
  unfold Context.start
  split
  · exact h.congr rfl rfl rfl rfl rfl rfl
  · rename_i hn
    have hs : c.state ≠ .finalised := by
      intro hs; simp [doneOrCancelled, hs] at hn
    have hi : Inv { c with phase := .normal, started := true, chain := ch, main := ch, idx := 0, state := .running, curErr := false } := by
      obtain ⟨a, b, e, f, g⟩ := h
      exact ⟨fun _ => a hs, fun h => by simp at h, e, f, g⟩
    split
    · refine (Inv.complete ?_ ?_ _).1
      · exact hi.congr rfl rfl rfl rfl rfl rfl
      · exact hd
    · exact (Inv.proceed hi hd).1

theorem Inv.ret {c : Ctx} (h : Inv c) (hd : c.dead = false) : Inv (ret c) := by
  unfold Context.ret
  split
  · rename_i st hst
    obtain ⟨a, b, e, f, g⟩ := h
    have hc : c.stack.count Frame.hooks = st.count .hooks + 1 := by rw [hst, List.count_cons]; simp
    have hfin : c.state = .finalised := by
      apply Classical.byContradiction; intro hs
      have := (a hs).2.1; omega
    obtain ⟨b1, b2, b3⟩ := b hfin
    have hcb : ∀ (n : Nat), (Frame.callback :: st).count Frame.hooks = st.count .hooks := by
      intro _; rw [List.count_cons]; simp
    split
    · refine ⟨fun hs => absurd hfin hs, fun _ => ?_, e, by simp [hd], (dtorOk_push (by simp) _).2 (dtorOk_tail (hst ▸ g))⟩
      simp only [hcb 0, callbacks_append, callbacks_cb, finals_append, finals_cb]
      refine ⟨by omega, by omega, fun hs => ?_⟩
      have := b3 hs
      omega
    · rename_i hn
      have hsup : c.suppressed = true := by rw [e] at hn; simpa using hn
      refine ⟨fun hs => absurd hfin hs, fun _ => ?_, e, by simp [hd], dtorOk_tail (hst ▸ g)⟩
      refine ⟨?_, b2, by simp [hsup]⟩
      show callbacks c.trace + st.count .hooks ≤ 1
      omega
  · rename_i st hst
    exact (Inv.afterCancel (Inv.pop h hd (by simp) hst) hd).1
  · rename_i st hst
    have hst' : st = [] := by have := h.bottom; rw [hst] at this; exact this
    subst hst'
    obtain ⟨a, b, e, f, g⟩ := Inv.pop h hd (by simp) hst
    exact ⟨a, b, e, fun _ => rfl, g⟩
  · rename_i fr st h1 h2 h3 hst
    refine Inv.pop h hd ?_ hst
    rintro rfl; exact h1 rfl
  · exact h

theorem Inv.throwing {c : Ctx} (h : Inv c) (hd : c.dead = false) : Inv (throwing c) := by
  unfold Context.throwing
  split
  · rename_i hst
    have hp := Inv.pop h hd (by simp) hst
    split
    · exact hp.congr rfl rfl rfl rfl rfl rfl
    · refine (Inv.complete ?_ ?_ _).1
      · exact hp.congr rfl rfl rfl rfl rfl rfl
      · exact hd
  · exact h.ret hd

theorem Inv.release {c : Ctx} (h : Inv c) (hd : c.dead = false) : Inv (release c) := by
  unfold Context.release
  split
  · refine (Inv.finalize ?_ ?_).1
    · exact h.congr rfl rfl rfl rfl rfl rfl
    · exact hd
  · exact h.congr rfl rfl rfl rfl rfl rfl

theorem Inv.destroy {c : Ctx} (h : Inv c) (hd : c.dead = false) (hs : c.stack = []) : Inv (destroy c) := by
  have hp : Inv { c with stack := .dtor :: c.stack } := by
    obtain ⟨a, b, e, f, g⟩ := h
    rw [hs] at a b ⊢
    exact ⟨a, b, e, by simp [hd], rfl⟩
  unfold Context.destroy
  split
  · exact (hp.finalize hd).1
  · exact hp

theorem Inv.step {c : Ctx} (h : Inv c) (a : Act) : Inv (step c a) := by
  unfold Context.step
  by_cases hd : c.dead = true
  · rw [if_pos hd]; exact h
  · rw [if_neg hd]
    have hd : c.dead = false := by simpa using hd
    cases a with
    | complete r => exact (h.complete hd r).1
    | cancel => exact (h.cancel hd).1
    | suppress => exact h.suppress
    | openScope => exact h.congr rfl rfl rfl rfl rfl rfl
    | closeScope =>
      show Inv (if c.depth = 0 then c else Context.release c)
      split
      · exact h
      · exact h.release hd
    | setStatus n => exact h.congr rfl rfl rfl rfl rfl rfl
    | ret => exact h.ret hd
    | throw => exact h.throwing hd
    | start ch =>
      show Inv (if (c.started || !c.stack.isEmpty) = true then c else Context.start ch c)
      split
      · exact h
      · exact h.start hd ch
    | destroy =>
      show Inv (if c.stack.isEmpty = true then Context.destroy c else c)
      split
      · rename_i hs; exact h.destroy hd (by simpa using hs)
      · exact h

theorem Inv.run {c : Ctx} (h : Inv c) (as : List Act) : Inv (run c as) := by
  induction as generalizing c with
  | nil => exact h
  | cons a t ih => exact ih (h.step a)

end Verif.Context
