import Verif.H3.Spec

/-! What an HTTP/3 message with given header lines looks like. Nothing here refers to the model. -/

namespace Verif.H3.Spec
open Verif.Utility.Spec Verif.Wire.Spec
open scoped Classical

/-- The `:authority` of a request (RFC 9114, 4.3.1). -/
def hostPort (host port : Bytes) : Bytes := if port = [] then host else host ++ b!":" ++ port

/-- The `:path` of a request (RFC 9114, 4.3.1). -/
def pathQuery (path query : Bytes) : Bytes := (if path = [] then b!"/" else path) ++ if query = [] then [] else b!"?" ++ query

/-- A line with its name in lower case. -/
def lowered (f : Bytes × Bytes) : Bytes × Bytes := (f.1.map lower, f.2)

/-- A line that goes into the section of fields: not `Host`, which is the authority, and not one that `Trailer` announces. -/
def InSection (lines : List (Bytes × Bytes)) (f : Bytes × Bytes) : Prop :=
  ¬ SameName f.1 b!"host" ∧ (Announced (values lines b!"trailer") f.1 → SameName f.1 b!"trailer")

/-- The lines of the section of fields. -/
noncomputable def sectionOf (lines : List (Bytes × Bytes)) : List (Bytes × Bytes) := (lines.filter fun f => decide (InSection lines f)).map lowered

/-- The lines of the trailer section. -/
noncomputable def trailersOf (lines : List (Bytes × Bytes)) : List (Bytes × Bytes) :=
  (lines.filter fun f => decide (Announced (values lines b!"trailer") f.1)).map lowered

/-- The length that is added: for a body, if there is none. -/
def lengthField (lines : List (Bytes × Bytes)) (body written : Bytes) : List (Bytes × Bytes) :=
  if body ≠ [] ∧ values lines b!"content-length" = [] then [(b!"content-length", written)] else []

/-- The lines can be sent after `first` pseudo header fields. -/
def Sendable (first : Nat) (lines : List (Bytes × Bytes)) (body : Bytes) : Prop :=
  (∀ f ∈ lines, f.1 ≠ [] ∧ ¬ Pseudo f.1 ∧ ¬ ConnectionField f.1) ∧
  (∀ f ∈ sectionOf lines, Regular f) ∧ first + (sectionOf lines).length + (lengthField lines body []).length ≤ 100 ∧
  (values lines b!"trailer" = [] ∨ (trailersOf lines ≠ [] ∧ TrailerSection (trailersOf lines)))

end Verif.H3.Spec
