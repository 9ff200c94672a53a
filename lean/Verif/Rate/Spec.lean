import Verif.Rate.Model

/-! # What a rate limiter should do -/

namespace Verif.Rate

/-- The steady clock never goes back: every reading of the history is at least the one before it (`t` is the
last reading before the history). -/
def Ordered : Int → List Event → Prop
  | _, [] => True
  | t, .request _ k :: es => t ≤ k.now ∧ k.now ≤ k.created ∧ k.created ≤ k.shown ∧ Ordered k.shown es
  | t, .evictNow k :: es => t ≤ k ∧ Ordered k es
  | t, _ :: es => Ordered t es

/-- The operator did not wipe what is known about `c`. -/
def NotReset (c : Bytes) (es : List Event) : Prop :=
  ∀ e ∈ es, match e with | .resetAll => False | .resetClient d => d ≠ c | _ => True

/-- The request was passed on. -/
def Verdict.passed : Verdict → Bool
  | .allowed _ => true
  | _ => false

/-- The request was refused for lack of quota. -/
def Verdict.refused : Verdict → Bool
  | .limited _ => true
  | _ => false

/-- How many requests of `c` were passed on, among those with property `p`. -/
def passed (log : List Entry) (c : Bytes) (p : Clock → Bool) : Nat :=
  (log.filter (fun e => e.client = c && e.verdict.passed && p e.time)).length

/-- The whole history since the construction of the middleware at time `t`. -/
def history (o : Options) (t : Int) (es : List Event) : List Entry := (run o (St.init t) es).2

/-- What happened to the requests of `c`, in order. -/
def verdicts (log : List Entry) (c : Bytes) : List Verdict := (log.filter (fun e => e.client = c)).map (·.verdict)

/-- The part of a history that concerns `c`. -/
def concerns (c : Bytes) : Event → Bool
  | .request d _ => d = c
  | .resetAll => true
  | .resetClient d => d = c
  | .evictNow _ => false

end Verif.Rate
