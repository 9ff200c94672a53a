import Verif.Valid.Json

/-! Model of the JSON schema validator, `validation/schema_validator.cpp` and `validation/rule.cpp`.

A function of the validator takes the `Result` and returns a verdict: here it takes the list of errors and
returns the verdict and the new list, or `none` if a C++ exception leaves it. An error is its path and the
name of the rule; messages and offending values are left out (C152). The cache of rules is a cache of a
pure function and left out. -/

namespace Verif.Valid

structure Err where
  path : Bytes
  rule : Bytes
  deriving DecidableEq, Repr

/-- A validating function: the errors so far to the verdict and the errors, or an exception. -/
abbrev M := List Err → Option (Bool × List Err)

/-- `result.add_error(path, rule, ...); return false;` -/
def fail (path rule : Bytes) : M := fun es => some (false, es ++ [⟨path, rule⟩])

/-- `return true;` -/
def pass : M := fun es => some (true, es)

/-- Both, without short circuit. -/
def both (a b : M) : M := fun es =>
  match a es with
  | none => none
  | some (x, es) => match b es with
    | none => none
    | some (y, es) => some (x && y, es)

/-- The second only if the first returned true. -/
def andThen (a b : M) : M := fun es =>
  match a es with
  | none => none
  | some (false, es) => some (false, es)
  | some (true, es) => b es

/-- A loop over all the elements: `if (!f(x)) ok = false;` -/
def each (f : α → M) : List α → M
  | [] => pass
  | x :: xs => both (f x) (each f xs)

/-- `if (schema.contains(key)) f(schema[key])` -/
def ifHas (m : List (Bytes × Json)) (key : Bytes) (f : Json → M) : M :=
  match get m key with
  | some x => f x
  | none => pass

/-- `DataType`, rule.h 31. -/
inductive DataType where
  | string | integer | number | boolean | object | array | null | any
  deriving DecidableEq, Repr

/-- `TypeRule::validate`, rule.cpp 52-85. -/
def typeCheck : DataType → Json → Bool
  | .string, .str _ => true
  | .integer, .int _ => true
  | .integer, .uint _ => true
  | .number, .int _ => true
  | .number, .uint _ => true
  | .number, .flt _ => true
  | .boolean, .bool _ => true
  | .object, .obj _ => true
  | .array, .arr _ => true
  | .null, .null => true
  | .any, _ => true
  | _, _ => false

/-- The names of types in a schema, schema_validator.cpp 282-300 and 314-334. -/
def dataType (t : Bytes) : Option DataType :=
  if t = b!"string" then some .string
  else if t = b!"integer" then some .integer
  else if t = b!"number" then some .number
  else if t = b!"boolean" then some .boolean
  else if t = b!"object" then some .object
  else if t = b!"array" then some .array
  else if t = b!"null" then some .null
  else none

/-- The first loop of `type` with an array, 305-336: the types, or the error that ends it. -/
def typeList : List Json → Option (List DataType)
  | [] => some []
  | .str t :: ts => match dataType t with
    | none => none
    | some dt => match typeList ts with
      | none => none
      | some dts => some (dt :: dts)
  | _ :: _ => none

/-- `validate_type_keyword`, 278-347. -/
def validateType (v t : Json) (path : Bytes) : M :=
  match t with
  | .str t => match dataType t with
    | none => fail path b!"type"
    | some dt => if typeCheck dt v then pass else fail path b!"type"
  | .arr ts => match typeList ts with
    | none => fail path b!"schemaError.type"
    | some dts => if dts.any (fun dt => typeCheck dt v) then pass else fail path b!"type"
  | _ => fail path b!"type"

/-- The rules made of the keywords of one node. -/
inductive Rule where
  | minLength (n : Nat) | maxLength (n : Nat)
  | pattern (p : Bytes)
  | minimum (q : Rat) (exclusive : Bool) | maximum (q : Rat) (exclusive : Bool)
  | enum (vs : List Json)
  | minItems (n : Nat) | maxItems (n : Nat)
  | uniqueItems
  | minProperties (n : Nat) | maxProperties (n : Nat)

/-- `rule_name()`, rule.h. -/
def Rule.name : Rule → Bytes
  | .minLength _ => b!"minLength"
  | .maxLength _ => b!"maxLength"
  | .pattern _ => b!"pattern"
  | .minimum _ e => if e then b!"exclusiveMinimum" else b!"minimum"
  | .maximum _ e => if e then b!"exclusiveMaximum" else b!"maximum"
  | .enum _ => b!"enum"
  | .minItems _ => b!"minItems"
  | .maxItems _ => b!"maxItems"
  | .uniqueItems => b!"uniqueItems"
  | .minProperties _ => b!"minProperties"
  | .maxProperties _ => b!"maxProperties"

/-- The loop of `UniqueItemsRule::validate`, rule.cpp 271-286; `seen` is the set of the items so far. -/
def uniqueLoop (E : Env) (seen : List Json) : List Json → Bool
  | [] => true
  | x :: xs => if seen.any (fun y => E.hash y == E.hash x && y.eq x) then false else uniqueLoop E (x :: seen) xs

/-- `validate` of the rules, rule.cpp 98-334. -/
def Rule.check (E : Env) : Rule → Json → Bool
  | .minLength n, .str s => decide (n ≤ s.length)                    -- 100-105
  | .minLength n, .arr xs => decide (n ≤ xs.length)                  -- 106-113
  | .maxLength n, .str s => decide (s.length ≤ n)                    -- 120-133
  | .maxLength n, .arr xs => decide (xs.length ≤ n)
  | .pattern p, .str s => decide (s.length ≤ 2048) && E.isMatch p s == some true  -- 169-204
  | .minimum q ex, v => match toDouble v with                        -- 206-225
    | none => true
    | some x => if ex then !decide (x ≤ q) else !decide (x < q)
  | .maximum q ex, v => match toDouble v with                        -- 227-245
    | none => true
    | some x => if ex then !decide (q ≤ x) else !decide (q < x)
  | .enum vs, v => vs.any (fun a => v.eq a)                          -- 255-269
  | .uniqueItems, .arr xs => uniqueLoop E [] xs                      -- 271-286
  | .minItems n, .arr xs => decide (n ≤ xs.length)                   -- 288-298
  | .maxItems n, .arr xs => decide (xs.length ≤ n)                   -- 300-310
  | .minProperties n, .obj m => decide (n ≤ m.length)                -- 312-322
  | .maxProperties n, .obj m => decide (m.length ≤ n)                -- 324-334
  | _, _ => true

/-- A bound that is an integer ≥ 0; other values are ignored, 90-101. -/
def bound (m : List (Bytes × Json)) (key : Bytes) (mk : Nat → Rule) : List Rule :=
  match get m key with
  | some x => match toLongLong x with
    | some z => if z ≥ 0 then [mk z.toNat] else []
    | none => []
  | none => []

/-- `pattern`, 102-104; the constructor of `PatternRule` (rule.cpp 155-167) throws on a pattern too long or
invalid. -/
def patternRules (E : Env) (m : List (Bytes × Json)) : Option (List Rule) :=
  match get m b!"pattern" with
  | some (.str p) => if p.length > 1024 then none else if E.compiles p then some [.pattern p] else none
  | _ => some []

/-- `minimum` and `maximum`, 105-112; `value("exclusiveMinimum", false)` throws if the member is there and not
a boolean. -/
def limitRules (m : List (Bytes × Json)) (key exKey : Bytes) (mk : Rat → Bool → Rule) : Option (List Rule) :=
  match get m key with
  | none => some []
  | some x => match toDouble x with
    | none => some []
    | some q => match get m exKey with
      | none => some [mk q false]
      | some (.bool b) => some [mk q b]
      | some _ => none

/-- `enum`, 113-115. -/
def enumRules (m : List (Bytes × Json)) : List Rule :=
  match get m b!"enum" with
  | some (.arr vs) => [.enum vs]
  | _ => []

/-- `uniqueItems`, 128-130. -/
def uniqueRules (m : List (Bytes × Json)) : List Rule :=
  match get m b!"uniqueItems" with
  | some (.bool true) => [.uniqueItems]
  | _ => []

/-- `build_rules_for_schema_node`, 86-145. -/
def buildRules (E : Env) (m : List (Bytes × Json)) : Option (List Rule) :=
  match patternRules E m, limitRules m b!"minimum" b!"exclusiveMinimum" .minimum,
      limitRules m b!"maximum" b!"exclusiveMaximum" .maximum with
  | some ps, some mins, some maxs =>
    some (bound m b!"minLength" .minLength ++ bound m b!"maxLength" .maxLength ++ ps ++ mins ++ maxs ++ enumRules m ++
      bound m b!"minItems" .minItems ++ bound m b!"maxItems" .maxItems ++ uniqueRules m ++
      bound m b!"minProperties" .minProperties ++ bound m b!"maxProperties" .maxProperties)
  | _, _, _ => none

/-- `apply_primitive_rules`, 147-158. -/
def applyRules (E : Env) (v : Json) (m : List (Bytes × Json)) (path : Bytes) : M :=
  match buildRules E m with
  | none => fun _ => none
  | some rs => each (fun r => if r.check E v then pass else fail path r.name) rs

/-- `path.empty() ? key : path + "." + key` -/
def child (path key : Bytes) : Bytes := if path = [] then key else path ++ b!"." ++ key

/-- The decimal digits of `std::to_string`. -/
def digits (n : Nat) : Bytes := (Nat.toDigits 10 n).map (fun c => UInt8.ofNat c.toNat)

/-- `path + "[" + std::to_string(i) + "]"` -/
def index (path : Bytes) (i : Nat) : Bytes := path ++ b!"[" ++ digits i ++ b!"]"

/-- `validate_recursive`, given the recursion depth before the call, the value, the schema and the path. -/
abbrev Rec := Nat → Json → Json → Bytes → M

/-- `validate_properties_keyword`, 349-368; `d` is the depth of the node. -/
def validateProperties (rec : Rec) (d : Nat) (vm : List (Bytes × Json)) (props : Json) (path : Bytes) : M :=
  match props with
  | .obj ps => each (fun p => match get vm p.1 with
      | some x => rec d x p.2 (child path p.1)
      | none => pass) ps
  | _ => fail path b!"schemaError.properties"

/-- `validate_required_keyword`, 370-395. -/
def validateRequired (vm : List (Bytes × Json)) (req : Json) (path : Bytes) : M :=
  match req with
  | .arr rs => each (fun r => match r with
      | .str k => if (get vm k).isSome then pass else fail (child path k) b!"required"
      | _ => fail path b!"schemaError.required") rs
  | _ => fail path b!"schemaError.required"

/-- The loop of `validate_items_keyword` over the items with a single schema, 407-414, from index `i`. -/
def itemsLoop (rec : Rec) (d : Nat) (sub : Json) (path : Bytes) (i : Nat) : List Json → M
  | [] => pass
  | x :: xs => both (rec d x sub (index path i)) (itemsLoop rec d sub path (i + 1) xs)

/-- The loop over the items with an array of schemas, 415-440, from index `i`. -/
def tupleLoop (rec : Rec) (d : Nat) (subs : List Json) (additional : Option Json) (path : Bytes) (i : Nat) : List Json → M
  | [] => pass
  | x :: xs => match subs[i]? with
    | some sub => both (rec d x sub (index path i)) (tupleLoop rec d subs additional path (i + 1) xs)
    | none => match additional with
      | some (.bool false) => fail (index path i) b!"additionalItems"     -- with `break`
      | some (.obj m) => both (rec d x (.obj m) (index path i)) (tupleLoop rec d subs additional path (i + 1) xs)
      | _ => tupleLoop rec d subs additional path (i + 1) xs

/-- `validate_items_keyword`, 397-446. -/
def validateItems (rec : Rec) (d : Nat) (xs : List Json) (m : List (Bytes × Json)) (items : Json) (path : Bytes) : M :=
  match items with
  | .obj im => itemsLoop rec d (.obj im) path 0 xs
  | .arr subs => tupleLoop rec d subs (get m b!"additionalItems") path 0 xs
  | _ => fail (child path b!"_schema.items") b!"schemaError.items"

/-- The path of an error of a fresh validator below a property, 484-496. -/
def joinPath (prop err : Bytes) : Bytes :=
  if err = [] then prop
  else if prop ≠ [] ∧ prop.getLast? = some c!"." ∧ err.head? = some c!"." then prop ++ err.drop 1
  else if prop ≠ [] ∧ prop.getLast? ≠ some c!"." ∧ err.head? ≠ some c!"." then prop ++ b!"." ++ err
  else prop ++ err

/-- The names in `properties`, 459-464. -/
def definedProps (m : List (Bytes × Json)) : List Bytes :=
  match get m b!"properties" with
  | some (.obj ps) => ps.map (·.1)
  | _ => []

/-- The loop of `validate_additional_properties_keyword`, 466-506; the fresh validator starts at depth 0. -/
def additionalLoop (rec : Rec) (defined : List Bytes) (ap : Json) (path : Bytes) : List (Bytes × Json) → M
  | [] => pass
  | (k, x) :: vm =>
    if k ∈ defined then additionalLoop rec defined ap path vm
    else match ap with
      | .bool true => additionalLoop rec defined ap path vm
      | .bool false => both (fail (child path k) b!"additionalProperties") (additionalLoop rec defined ap path vm)
      | .obj m =>
        both (fun es => match rec 0 x (.obj m) [] [] with
          | none => none
          | some (true, _) => some (true, es)
          | some (false, sub) => some (false, es ++ sub.map (fun e => ⟨joinPath (child path k) e.path, e.rule⟩)))
          (additionalLoop rec defined ap path vm)
      | _ => fail path b!"schemaError.additionalProperties"               -- with `return`

/-- `PropertyNamesRule::validate`, rule.cpp 339-366, for one name. -/
def nameCheck (rec : Rec) (pn : Json) (path : Bytes) (p : Bytes × Json) : M := fun es =>
  match rec 0 (.str p.1) pn [] [] with
  | none => none
  | some (true, _) => some (true, es)
  | some (false, sub) =>
    some (false, es ++ sub.map (fun e =>
      ⟨child path (b!"<propertyName:" ++ p.1 ++ b!">") ++ (if e.path = [] then [] else b!"." ++ e.path), e.rule⟩))

/-- The checks of an object, 208-239. -/
def objectChecks (rec : Rec) (d : Nat) (vm m : List (Bytes × Json)) (path : Bytes) : M :=
  both (both (both
    (ifHas m b!"properties" fun ps => validateProperties rec d vm ps path)
    (ifHas m b!"required" fun r => validateRequired vm r path))
    (ifHas m b!"additionalProperties" fun ap => additionalLoop rec (definedProps m) ap path vm))
    (match get m b!"propertyNames" with | some (.obj pm) => each (nameCheck rec (.obj pm) path) vm | _ => pass)

/-- The structural checks, 206-248. -/
def structural (rec : Rec) (d : Nat) (v : Json) (m : List (Bytes × Json)) (path : Bytes) : M :=
  match v with
  | .obj vm => objectChecks rec d vm m path
  | .arr xs => ifHas m b!"items" fun items => validateItems rec d xs m items path
  | _ => pass

/-- `validate_allOf_keyword`, 509-536. -/
def validateAllOf (rec : Rec) (d : Nat) (v def_ : Json) (path : Bytes) : M :=
  match def_ with
  | .arr (s :: subs) =>
    fun es => match each (fun sub => if sub.isObj then rec d v sub path else fail path b!"schemaError.allOf.item") (s :: subs) es with
      | none => none
      | some (true, es) => some (true, es)
      | some (false, es) => fail path b!"allOf" es
  | _ => fail path b!"schemaError.allOf"

/-- The loop of `validate_anyOf_keyword`, 554-564: each schema gets an empty result. -/
def anyLoop (rec : Rec) (d : Nat) (v : Json) (path : Bytes) : List Json → M
  | [] => fail path b!"anyOf"
  | sub :: subs => fun es => match rec d v sub path [] with
    | none => none
    | some (true, _) => some (true, es)
    | some (false, _) => anyLoop rec d v path subs es

/-- `validate_anyOf_keyword`, 538-565. -/
def validateAnyOf (rec : Rec) (d : Nat) (v def_ : Json) (path : Bytes) : M :=
  match def_ with
  | .arr (s :: subs) =>
    if (s :: subs).all (·.isObj) then anyLoop rec d v path (s :: subs) else fail path b!"schemaError.anyOf.item"
  | _ => fail path b!"schemaError.anyOf"

/-- The loop of `validate_oneOf_keyword`, 573-583: the number of matches and the errors. -/
def oneLoop (rec : Rec) (d : Nat) (v : Json) (path : Bytes) : List Json → Nat → List Err → Option (Nat × List Err)
  | [], n, es => some (n, es)
  | sub :: subs, n, es =>
    if sub.isObj then
      match rec d v sub path [] with
      | none => none
      | some (true, _) => oneLoop rec d v path subs (n + 1) es
      | some (false, _) => oneLoop rec d v path subs n es
    else oneLoop rec d v path subs n (es ++ [⟨path, b!"schemaError.oneOf.item"⟩])

/-- `validate_oneOf_keyword`, 567-597. -/
def validateOneOf (rec : Rec) (d : Nat) (v def_ : Json) (path : Bytes) : M :=
  match def_ with
  | .arr (s :: subs) => fun es => match oneLoop rec d v path (s :: subs) 0 es with
    | none => none
    | some (n, es) => if n = 1 then some (true, es) else fail path b!"oneOf" es
  | _ => fail path b!"schemaError.oneOf"

/-- `validate_not_keyword`, 599-612. -/
def validateNot (rec : Rec) (d : Nat) (v def_ : Json) (path : Bytes) : M :=
  match def_ with
  | .obj m => fun es => match rec d v (.obj m) path [] with
    | none => none
    | some (true, _) => fail path b!"not" es
    | some (false, _) => some (true, es)
  | _ => fail path b!"schemaError.not"

/-- The combinators, 251-267. -/
def combinators (rec : Rec) (d : Nat) (v : Json) (m : List (Bytes × Json)) (path : Bytes) : M :=
  andThen (andThen (andThen
    (ifHas m b!"allOf" fun x => validateAllOf rec d v x path)
    (ifHas m b!"anyOf" fun x => validateAnyOf rec d v x path))
    (ifHas m b!"oneOf" fun x => validateOneOf rec d v x path))
    (ifHas m b!"not" fun x => validateNot rec d v x path)

/-- `MAX_SCHEMA_DEPTH`, schema_validator.h 160. -/
def maxDepth : Nat := 64

/-- The type, the rules of the node and the structure, 190-249: the last two only if the type is right. -/
def checks (E : Env) (rec : Rec) (d : Nat) (v : Json) (m : List (Bytes × Json)) (path : Bytes) : M :=
  andThen (ifHas m b!"type" fun t => validateType v t path)
    (both (applyRules E v m path) (structural rec d v m path))

/-- The body of `validate_recursive`, 160-276; `d` is the depth before the call. -/
def level (E : Env) (rec : Rec) (d : Nat) (v s : Json) (path : Bytes) : M :=
  if d + 1 > maxDepth then fail (if path = [] then b!"_schema" else path) b!"schemaTooDeep"        -- 176-180
  else match s with
    | .obj m => fun es => match both (checks E rec (d + 1) v m path) (combinators rec (d + 1) v m path) es with
      | none => none
      | some (ok, es') => some (if es'.length > es.length then false else ok, es')                -- 269-275
    | _ => fail (if path = [] then b!"_schema" else path ++ b!"._schema") b!"invalidSchemaType"      -- 184-188

/-- `validate_recursive`. The recursion follows the schema: `fuel` is a bound on how deep it is nested and
never runs out if it is larger. -/
def validateRec (E : Env) : Nat → Rec
  | 0 => fun _ _ _ _ _ => none
  | fuel + 1 => level E (validateRec E fuel)

/-- `SchemaValidator::validate`, 44-48, with an empty result. -/
def validate (E : Env) (v s : Json) : Option (Bool × List Err) := validateRec E (s.height + 1) 0 v s [] []

end Verif.Valid
