import Verif.Se2.Model

/-! What is said about the contexts of an HTTP/2 session. -/

namespace Verif.Se2

/-- The context was settled: its hook after the response was run, or it was cancelled. -/
def Settled (x : Nat) (l : List Ev) : Prop := Ev.hook x ∈ l ∨ Ev.cancel x ∈ l

/-- How often the hook after the response was run. -/
def hooks (x : Nat) (l : List Ev) : Nat := (l.filter (· == .hook x)).length

/-- The streams (0: the HTTP/1.1 request) whose context is being settled right now: its hook or its `cancel` is running. -/
def handling (t : St) : List Nat :=
  t.errs.map (·.1) ++ (match t.work with
    | some (.busy _ e _) => [e.1]
    | some (.replace _) => [0]
    | _ => [])

/-- No stream error is reported for a stream while its context is being settled. -/
def Calm (is : List In) : Prop := ∀ a s b, is = a ++ .streamError s :: b → s ∉ handling (run a)

end Verif.Se2
