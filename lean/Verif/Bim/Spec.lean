import Verif.Bim.Model

/-! What the small middlewares promise. -/

namespace Verif.Bim.Spec

open Verif.Context (Ctx)

/-- After the registrations `rs`, handler `h` is in charge of status `c`: it was the last one registered for that very status, or, if none was, the first one registered for a range of statuses that contains it. Null handlers do not count, nor do ranges for what is no status. -/
def InCharge (rs : List Reg) (c : Int) (h : Nat) : Prop :=
  (∃ a b, rs = a ++ .status c (some h) :: b ∧ ∀ h', Reg.status c (some h') ∉ b) ∨
  ((∀ h', Reg.status c (some h') ∉ rs) ∧ ∃ a b lo hi, rs = a ++ .range lo hi (some h) :: b ∧ lo ≤ c ∧ c ≤ hi ∧ 100 ≤ c ∧ c < 600 ∧
    ∀ lo' hi' h', Reg.range lo' hi' (some h') ∈ a → ¬ (lo' ≤ c ∧ c ≤ hi'))

/-- The generic handler is the last one registered. -/
def Generic (rs : List Reg) (g : Nat) : Prop := ∃ a b, rs = a ++ .any (some g) :: b ∧ ∀ g', Reg.any (some g') ∉ b

/-- The request is over, or will be as soon as the deferral scope that is open is left. -/
def Ended (c : Ctx) : Prop := c.state = .finalised ∨ (c.pending = true ∧ 0 < c.depth)

/-- Lines of logger `i` about responses. -/
def responses (i : Nat) (out : List Line) : List Nat := out.filterMap fun l => match l with | .response j n => if j = i then some n else none | _ => none

def requests (i : Nat) (out : List Line) : Nat := out.countP fun l => match l with | .request j => j == i | _ => false

def times (i : Nat) (out : List Line) : List Int := out.filterMap fun l => match l with | .time j d => if j = i then some d else none | _ => none

end Verif.Bim.Spec
