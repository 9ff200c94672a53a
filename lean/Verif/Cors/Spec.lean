import Verif.Cors.Model
import Verif.Wire.Spec

/-! # What the configuration of cross-origin requests means -/

namespace Verif.Cors
open Verif.Utility Verif.Wire Verif.Parse Verif.Mid

/-- What the operator configured. -/
inductive Rule
  | origins (l : List Bytes)
  | patterns (l : List Bytes)
  | matcher (f : Option (Bytes → Option Bool))

/-- The origins a rule lets in: never an empty or oversized one; those listed, or all if `*` is listed; those
matched by one of the first 100 patterns that compile and are not oversized; those the function accepts. -/
def Permits (x : Regex) (rule : Rule) (origin : Bytes) : Prop :=
  origin ≠ [] ∧ origin.length ≤ 2048 ∧
  match rule with
  | .origins l => b!"*" ∈ l ∨ origin ∈ l
  | .patterns l => ∃ p ∈ l.take 100, p.length ≤ 1024 ∧ x.compiles p = true ∧ x.isMatch p origin = some true
  | .matcher f => ∃ g, f = some g ∧ g origin = some true

/-- Operations on the options: configuration, and questions asked by requests in between. -/
inductive Op
  | configure (r : Rule)
  | ask (origin : Bytes)

def configure (o : Options) : Rule → Options
  | .origins l => o.setOrigins l
  | .patterns l => o.setPatterns l
  | .matcher f => o.setMatcher f

/-- The options after some operations. -/
def after (x : Regex) (o : Options) : List Op → Options
  | [] => o
  | .configure r :: ops => after x (configure o r) ops
  | .ask q :: ops => after x (isOriginAllowed x o q).2 ops

/-- The rule in force: the last configured. -/
def inForce (r : Rule) : List Op → Rule
  | [] => r
  | .configure r' :: ops => inForce r' ops
  | .ask _ :: ops => inForce r ops

/-- No header of this name (any case). -/
def Absent (h : Headers) (name : Bytes) : Prop := find h name = none

end Verif.Cors
