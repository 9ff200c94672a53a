import Verif.Cli3.Spec

/-! Inversion of a step. -/

namespace Verif.Cli3

inductive StepCase (s : St) : Choice → St → Prop where
  | call (c : Call) (h : s.stack = [] ∨ ∃ r, s.stack = .user :: r) : StepCase s (.call c) (s.doCall c)
  | event (e : Event) (s' : St) (he : s.doEvent e = some s') (h : s.stack = [] ∨ ∃ f r, s.stack = f :: r ∧ f.outside = true) : StepCase s (.event e) s'
  | timer (t : Timer) (s' : St) (he : s.doTimer t = some s') (h : s.stack = []) : StepCase s (.timer t) s'
  | ret (r : List Frame) (h : s.stack = .user :: r) : StepCase s .ret { s with stack := r }
  | callback (c : Callback) (k : Nat) (r : List Frame) (h : s.stack = .read k :: r) : StepCase s (.callback c) (s.doCallback k c)
  | go (f : Frame) (r : List Frame) (out : Bool) (h : s.stack = f :: r) (hf : f ≠ .user) : StepCase s (.go out) (s.runFrame out r f)

theorem step_cases {s : St} {ch : Choice} {s' : St} (h : s.step ch = some s') : s.crashed = false ∧ StepCase s ch s' := by
  unfold St.step at h
  split at h
  · cases h
  next hc =>
  refine ⟨by simpa using hc, ?_⟩
  split at h
  · cases h; exact .call _ (.inl (by assumption))
  · exact .event _ _ h (.inl (by assumption))
  · exact .timer _ _ h (by assumption)
  · next r hs => cases h; exact .call _ (.inr ⟨_, by assumption⟩)
  · cases h; exact .ret _ (by assumption)
  · cases h
  · cases h; exact .callback _ _ _ (by assumption)
  · split at h
    · exact .event _ _ h (.inr ⟨_, _, by assumption, by assumption⟩)
    · cases h
  · cases h
    refine .go _ _ _ (by assumption) ?_
    intro e; subst e
    rename_i h1 _ _ hu _
    first | exact hu _ _ rfl rfl | (exfalso; simp_all)
  · cases h

/-- Induction over a run. -/
theorem run_induct {P : St → Prop} (hstep : ∀ s ch s', P s → s.step ch = some s' → P s') {s : St} {chs : List Choice} {s' : St}
    (h : s.run chs = some s') (hp : P s) : P s' := by
  induction chs generalizing s with
  | nil => simp [St.run] at h; subst h; exact hp
  | cons ch chs ih =>
    rw [St.run] at h
    split at h
    · next s1 e => exact ih h (hstep s ch s1 hp e)
    · cases h

end Verif.Cli3
