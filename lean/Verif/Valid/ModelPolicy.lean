import Verif.Valid.Json

/-! Model of `validation/error.{h,cpp}`: the errors a `Result` records, and what of the offending value they show. -/

namespace Verif.Valid

/-- `Result::ErrorValuePolicy`, error.h 67. -/
inductive Policy where
  | full
  | preview
  | none
  deriving DecidableEq, Repr

/-- `Error`, error.h 27-47. -/
structure Report where
  path : Bytes
  rule : Bytes
  message : Bytes
  value : Option Json

/-- `Result`, error.h 57-72. -/
structure Result where
  errors : List Report := []
  policy : Policy := .full
  budget : Nat := 256

/-- `set_error_value_policy`, error.cpp 18-29. -/
def Result.setPolicy (r : Result) (p : Policy) (n : Nat) : Result :=
  let n := if n < 16 then 16 else n
  let n := if n > 65536 then 65536 else n
  { r with policy := p, budget := n }

/-- `type_name()` of the JSON library. -/
def kindName : Json → Bytes
  | .null => b!"null"
  | .bool _ => b!"boolean"
  | .int _ | .uint _ | .flt _ => b!"number"
  | .str _ => b!"string"
  | .arr _ => b!"array"
  | .obj _ => b!"object"

/-- `apply_policy`, error.cpp 51-73; `none` if `dump` throws (a string in the value is not UTF-8). The members of the
object are in the order of its map. -/
def Result.applyPolicy (dump : Json → Option Bytes) (r : Result) (value : Option Json) : Option (Option Json) :=
  match value with
  | none => some none
  | some v =>
    match r.policy with
    | .full => some (some v)
    | .none => some none
    | .preview =>
      match v with
      | .null | .bool _ | .int _ | .uint _ | .flt _ => some (some v)
      | .str s => if s.length ≤ r.budget then some (some v) else some (some (.str (s.take r.budget)))
      | .arr _ | .obj _ =>
        match dump v with
        | none => none
        | some d =>
          if d.length ≤ r.budget then some (some v)
          else some (some (.obj [(b!"_truncated", .bool true), (b!"original_kind", .str (kindName v)), (b!"preview", .str (d.take r.budget))]))

/-- `add_error` with the parts of an error, error.cpp 31-34. -/
def Result.add (dump : Json → Option Bytes) (r : Result) (path rule message : Bytes) (value : Option Json) : Option Result :=
  (r.applyPolicy dump value).map fun v => { r with errors := r.errors ++ [⟨path, rule, message, v⟩] }

/-- `add_error` with an error, error.h 124-127. -/
def Result.addRaw (r : Result) (e : Report) : Result := { r with errors := r.errors ++ [e] }

/-- `clear`, error.h 132-135. -/
def Result.clear (r : Result) : Result := { r with errors := [] }

/-- `merge`, error.cpp 36-41. -/
def Result.merge (r other : Result) : Result := if other.errors = [] then r else { r with errors := r.errors ++ other.errors }

/-- `make_child`, error.cpp 43-49. -/
def Result.child (r : Result) : Result := { policy := r.policy, budget := r.budget }

/-- `success`, error.h 97-100. -/
def Result.success (r : Result) : Bool := r.errors.isEmpty

/-- What is done with a `Result`: an error is added by its parts, a child is filled and merged, the errors are cleared. -/
inductive Use where
  | add (path rule message : Bytes) (value : Option Json)
  | sub (uses : List Use)
  | clear

mutual
def Result.use (dump : Json → Option Bytes) (r : Result) : Use → Option Result
  | .add p ru m v => r.add dump p ru m v
  | .clear => some r.clear
  | .sub us => (r.child.uses dump us).map r.merge
def Result.uses (dump : Json → Option Bytes) (r : Result) : List Use → Option Result
  | [] => some r
  | u :: us => match r.use dump u with
    | none => none
    | some r => r.uses dump us
end

end Verif.Valid
