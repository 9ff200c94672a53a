import Verif.Valid.Json

/-! What a JSON schema means, keyword by keyword, without any validator: `Accepts E V v s` says that the
value `v` meets every keyword of the schema `s`, where `V` is the meaning of the schemas inside `s`.

This is the JSON Schema of the documentation with these differences, which are those of the code: lengths
are in bytes; `minLength` and `maxLength` apply to arrays too; a double is never an `integer`; numbers are
compared as doubles; `exclusiveMinimum` and `exclusiveMaximum` are booleans; a `pattern` has to match the
whole string, and strings of more than 2048 bytes match none; a keyword of the wrong kind is ignored or
accepts nothing, as said below. -/

namespace Verif.Valid

/-- `v` has the type with this name. -/
inductive HasType : Bytes → Json → Prop
  | string s : HasType b!"string" (.str s)
  | int z : HasType b!"integer" (.int z)
  | uint n : HasType b!"integer" (.uint n)
  | numInt z : HasType b!"number" (.int z)
  | numUint n : HasType b!"number" (.uint n)
  | numFlt q : HasType b!"number" (.flt q)
  | boolean b : HasType b!"boolean" (.bool b)
  | object m : HasType b!"object" (.obj m)
  | array xs : HasType b!"array" (.arr xs)
  | null : HasType b!"null" .null

def typeNames : List Bytes :=
  [b!"string", b!"integer", b!"number", b!"boolean", b!"object", b!"array", b!"null"]

/-- `type`: a name, or an array of names. An unknown name, in an array too, accepts nothing. -/
def TypeOk (t v : Json) : Prop :=
  (∃ n, t = .str n ∧ HasType n v) ∨
  (∃ ts, t = .arr ts ∧ (∀ x ∈ ts, ∃ n ∈ typeNames, x = .str n) ∧ ∃ n, .str n ∈ ts ∧ HasType n v)

/-- A bound: an integer ≥ 0. Anything else is ignored. -/
def Bound (m : List (Bytes × Json)) (key : Bytes) (n : Nat) : Prop :=
  ∃ x, get m key = some x ∧ toLongLong x = some (n : Int)

/-- `v` meets the keywords about single values. -/
structure RulesOk (E : Env) (m : List (Bytes × Json)) (v : Json) : Prop where
  minLength : ∀ n, Bound m b!"minLength" n → (∀ s, v = .str s → n ≤ s.length) ∧ (∀ xs, v = .arr xs → n ≤ xs.length)
  maxLength : ∀ n, Bound m b!"maxLength" n → (∀ s, v = .str s → s.length ≤ n) ∧ (∀ xs, v = .arr xs → xs.length ≤ n)
  pattern : ∀ p s, get m b!"pattern" = some (.str p) → v = .str s → s.length ≤ 2048 ∧ E.isMatch p s = some true
  minimum : ∀ x q y, get m b!"minimum" = some x → toDouble x = some q → toDouble v = some y →
    q ≤ y ∧ (get m b!"exclusiveMinimum" = some (.bool true) → q < y)
  maximum : ∀ x q y, get m b!"maximum" = some x → toDouble x = some q → toDouble v = some y →
    y ≤ q ∧ (get m b!"exclusiveMaximum" = some (.bool true) → y < q)
  enum : ∀ vs, get m b!"enum" = some (.arr vs) → ∃ a ∈ vs, v.eq a = true
  minItems : ∀ n xs, Bound m b!"minItems" n → v = .arr xs → n ≤ xs.length
  maxItems : ∀ n xs, Bound m b!"maxItems" n → v = .arr xs → xs.length ≤ n
  /-- no two items are equal with the same hash -/
  uniqueItems : ∀ xs, get m b!"uniqueItems" = some (.bool true) → v = .arr xs →
    xs.Pairwise (fun x y => ¬ (E.hash x = E.hash y ∧ x.eq y = true))
  minProperties : ∀ n vm, Bound m b!"minProperties" n → v = .obj vm → n ≤ vm.length
  maxProperties : ∀ n vm, Bound m b!"maxProperties" n → v = .obj vm → vm.length ≤ n

/-- The members of the object `vm` meet the keywords about members. -/
structure ObjectOk (V : Json → Json → Prop) (m vm : List (Bytes × Json)) : Prop where
  /-- a `properties` that is not an object accepts nothing -/
  properties : ∀ p, get m b!"properties" = some p → ∃ ps, p = .obj ps ∧
    ∀ k sub x, (k, sub) ∈ ps → get vm k = some x → V x sub
  required : ∀ r, get m b!"required" = some r → ∃ ks, r = .arr ks ∧ ∀ y ∈ ks, ∃ k x, y = .str k ∧ get vm k = some x
  /-- members that are not in `properties`: forbidden by `false`, allowed by `true`, else a schema -/
  additional : ∀ ap k x, get m b!"additionalProperties" = some ap → (k, x) ∈ vm →
    (∀ ps sub, get m b!"properties" = some (.obj ps) → (k, sub) ∉ ps) →
    ap = .bool true ∨ ∃ am, ap = .obj am ∧ V x (.obj am)
  names : ∀ pm k x, get m b!"propertyNames" = some (.obj pm) → (k, x) ∈ vm → V (.str k) (.obj pm)

/-- The items of an array meet `items` and `additionalItems`. -/
structure ItemsOk (V : Json → Json → Prop) (m : List (Bytes × Json)) (xs : List Json) : Prop where
  kind : ∀ i, get m b!"items" = some i → (∃ im, i = .obj im) ∨ ∃ subs, i = .arr subs
  single : ∀ im x, get m b!"items" = some (.obj im) → x ∈ xs → V x (.obj im)
  tuple : ∀ subs (i : Nat) x sub, get m b!"items" = some (.arr subs) → xs[i]? = some x → subs[i]? = some sub → V x sub
  beyond : ∀ subs (i : Nat) x, get m b!"items" = some (.arr subs) → xs[i]? = some x → subs[i]? = none →
    get m b!"additionalItems" ≠ some (.bool false) ∧ ∀ am, get m b!"additionalItems" = some (.obj am) → V x (.obj am)

/-- An array of at least one schema. Anything else accepts nothing. -/
def Schemas (x : Json) (subs : List Json) : Prop := x = .arr subs ∧ subs ≠ [] ∧ ∀ s ∈ subs, s.isObj = true

/-- `v` meets the combinators. -/
structure CombinatorsOk (V : Json → Json → Prop) (m : List (Bytes × Json)) (v : Json) : Prop where
  allOf : ∀ x, get m b!"allOf" = some x → ∃ subs, Schemas x subs ∧ ∀ s ∈ subs, V v s
  anyOf : ∀ x, get m b!"anyOf" = some x → ∃ subs, Schemas x subs ∧ ∃ s ∈ subs, V v s
  /-- at exactly one place of the array -/
  oneOf : ∀ x, get m b!"oneOf" = some x → ∃ subs, Schemas x subs ∧
    ∃ l s r, subs = l ++ s :: r ∧ V v s ∧ ∀ t ∈ l ++ r, ¬ V v t
  not : ∀ x, get m b!"not" = some x → x.isObj = true ∧ ¬ V v x

/-- `v` meets every keyword of the schema `s`; what is not an object accepts nothing. -/
def Accepts (E : Env) (V : Json → Json → Prop) (v s : Json) : Prop :=
  ∃ m, s = .obj m ∧
    (∀ t, get m b!"type" = some t → TypeOk t v) ∧
    RulesOk E m v ∧
    (∀ vm, v = .obj vm → ObjectOk V m vm) ∧
    (∀ xs, v = .arr xs → ItemsOk V m xs) ∧
    CombinatorsOk V m v

/-- `V` is a meaning of schemas: a value is valid iff it meets every keyword. -/
def Semantics (E : Env) (V : Json → Json → Prop) : Prop := ∀ v s, V v s ↔ Accepts E V v s

/-- `x` is `s` or somewhere inside it. -/
inductive Within : Json → Json → Prop
  | self s : Within s s
  | item (x y : Json) (xs : List Json) : y ∈ xs → Within x y → Within x (.arr xs)
  | member (x y : Json) (k : Bytes) (m : List (Bytes × Json)) : (k, y) ∈ m → Within x y → Within x (.obj m)

/-- The regular expressions of the schema can be compiled and are not too long, and its exclusive bounds are
booleans. Other schemas make the validator throw. -/
def WellFormed (E : Env) (s : Json) : Prop :=
  ∀ m, Within (.obj m) s →
    (∀ p, get m b!"pattern" = some (.str p) → p.length ≤ 1024 ∧ E.compiles p = true) ∧
    (∀ x, get m b!"exclusiveMinimum" = some x → ∃ b, x = .bool b) ∧
    (∀ x, get m b!"exclusiveMaximum" = some x → ∃ b, x = .bool b)

end Verif.Valid
