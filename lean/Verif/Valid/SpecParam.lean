import Verif.Valid.ModelParam
import Verif.Auth.Spec

/-! When a parameter and a request are valid. -/

namespace Verif.Valid

/-- The text stands for the value, as a value of the type. -/
def TypeReads (num : Bytes → Num) (t : DataType) (s : Bytes) (x : Json) : Prop :=
  match t with
  | .string | .array => x = .str s
  | .integer => ∃ z, Auth.Numeral s z ∧ x = .int z
  | .number => ∃ q : Rat, num s = .value q ∧ ((∃ z : Int, q = z ∧ -2 ^ 63 ≤ z ∧ z < 2 ^ 63 ∧ x = .int z) ∨
      ((∀ z : Int, q = z → ¬ (-2 ^ 63 ≤ z ∧ z < 2 ^ 63)) ∧ x = .flt q))
  | .boolean => (toLower s ∈ [b!"true", b!"1"] ∧ x = .bool true) ∨ (toLower s ∈ [b!"false", b!"0"] ∧ x = .bool false)
  | _ => False

/-- The text stands for the value, for the parser of the user if there is one. -/
def Reads (num : Bytes → Num) (p : ParamRules) (s : Bytes) (x : Json) : Prop :=
  match p.parser with
  | some f => f s = some (true, x)
  | none => TypeReads num p.type s x

/-- The parameter, given or absent, is valid: the text, or the default, can be read and all rules accept the value;
or it is not required. -/
def ParamOk (num : Bytes → Num) (p : ParamRules) (path : Bytes) (value : Option Bytes) : Prop :=
  match value.or p.default with
  | some s => ∃ x, Reads num p s x ∧ ∀ r ∈ p.rules, (r x path).verdict = some true
  | none => p.required = false

/-- The rules report an error if they do not accept, and only then (one that throws may do as it likes). -/
def Honest (p : ParamRules) : Prop :=
  ∀ r ∈ p.rules, ∀ x path, ((r x path).verdict = some true → (r x path).errs = []) ∧ ((r x path).verdict = some false → (r x path).errs ≠ [])

def HonestDefs (ds : Defs) : Prop := ∀ d ∈ ds, Honest d.2

/-- Not one of the functions for a value throws. -/
def Runs (fs : List Fn) (v v' : Bytes) : Prop := fs.foldl (fun o f => o.bind f) (some v) = some v'

/-- Sanitizing the values of a map makes the second of the first: the values whose key has functions go
through them in order, the others stay. -/
def Sanitized (sans : List (Bytes × List Fn)) (m m' : List (Bytes × List Bytes)) : Prop :=
  m.length = m'.length ∧ ∀ (i : Nat) (h : i < m.length) (h' : i < m'.length), m[i].1 = m'[i].1 ∧
    match lookup sans m[i].1 with
    | none => m[i].2 = m'[i].2
    | some fs => m[i].2.length = m'[i].2.length ∧ ∀ (j : Nat) (g : j < m[i].2.length) (g' : j < m'[i].2.length), Runs fs m[i].2[j] m'[i].2[j]

/-- The parameters in the map meet the definitions: every value given is valid, and what is absent may be; in
strict mode every parameter with a value is defined. -/
def MapOk (num : Bytes → Num) (defs : Option (Bool × Defs)) (m : List (Bytes × List Bytes)) (source : Bytes) : Prop :=
  ∀ strict ds, defs = some (strict, ds) →
    (∀ d ∈ ds, ((lookup m d.1).getD [] = [] → ParamOk num d.2 (source ++ b!"." ++ d.1) none) ∧
      ∀ v ∈ (lookup m d.1).getD [], ParamOk num d.2 (source ++ b!"." ++ d.1) (some v)) ∧
    (strict = true → ∀ p ∈ m, p.2 ≠ [] → ∃ d ∈ ds, toLower d.1 = toLower p.1)

/-- The body is valid: it is JSON that the schema accepts; an empty body counts as `null`. -/
def BodyOk (L : Lib) (V : Json → Json → Prop) (schema : Option Json) (body : Bytes) : Prop :=
  ∀ s, schema = some s → (body = [] ∧ V .null s) ∨ (body ≠ [] ∧ ∃ v, L.parse body = some v ∧ V v s)

/-- The path parameters are there and valid. -/
def PathOk (num : Bytes → Num) (defs : Option Defs) (params : Option (List (Bytes × Bytes))) : Prop :=
  ∀ ds, defs = some ds → ∃ ps, params = some ps ∧
    ∀ d ∈ ds, ParamOk num d.2 (b!"path." ++ d.2.name) ((ps.find? (·.1 = d.2.name)).map (·.2))

/-- The body after its sanitizer. -/
def BodySanitized (L : Lib) (san : Option (Json → Option Json)) (body body' : Bytes) : Prop :=
  (san = none ∨ body = []) ∧ body' = body ∨
    ∃ f v v', san = some f ∧ body ≠ [] ∧ L.parse body = some v ∧ f v = some v' ∧ L.dump v' = some body'

end Verif.Valid
