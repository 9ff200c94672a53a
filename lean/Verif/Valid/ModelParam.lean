import Verif.Valid.Model
import Verif.Valid.ModelSanitize
import Verif.Auth.Model

/-! Model of the parameter validator, `validation/parameter_validator.cpp`, of the request validator,
`validation/request_validator.cpp`, and of `middleware/validation.h`.

An error is its path and the name of its rule, as in `Model.lean`. The keys of the maps are compared without
regard to case (`qb::icase_unordered_map`). -/

namespace Verif.Valid

/-- What `IRule::validate` does: the errors it adds, and what it returns; `none` if it throws. -/
structure RuleOut where
  errs : List Err
  verdict : Option Bool
  deriving DecidableEq, Repr

/-- `ParameterRuleSet`, parameter_validator.h 35-42. `parser` gives `none` if it throws, and the flag it sets with
its value otherwise. -/
structure ParamRules where
  name : Bytes
  type : DataType
  required : Bool
  default : Option Bytes
  rules : List (Json → Bytes → RuleOut)
  parser : Option (Bytes → Option (Bool × Json))

/-- What `qb::to_number_prefix<double>` makes of a whole field: no number, one that is not finite, or a number. -/
inductive Num where
  | bad
  | nonfinite
  | value (q : Rat)
  deriving DecidableEq, Repr

/-- A finite number as JSON, 71-81: an integer if it is one and has 64 bits. -/
def numJson (q : Rat) : Json :=
  if q.den = 1 ∧ -9223372036854775808 ≤ q.num ∧ q.num < 9223372036854775808 then .int q.num else .flt q

/-- `parse_value`, parameter_validator.cpp 31-111; `none` with the error added. -/
def parseValue (num : Bytes → Num) (s : Bytes) (t : DataType) : Option Json :=
  match t with
  | .string => some (.str s)                                   -- 36-37
  | .integer => (Auth.fromChars s).map .int                    -- 38-47
  | .number => match num s with                                -- 48-85
    | .value q => some (numJson q)
    | _ => none
  | .boolean =>                                                -- 86-96
    if toLower s = b!"true" ∨ toLower s = b!"1" then some (.bool true)
    else if toLower s = b!"false" ∨ toLower s = b!"0" then some (.bool false)
    else none
  | .array => some (.str s)                                    -- 97-103
  | _ => none                                                  -- 104-111

/-- The loop over the rules, 175-191: the errors, and whether all returned true. -/
def runRules (x : Json) (path : Bytes) : List (Json → Bytes → RuleOut) → List Err × Bool
  | [] => ([], true)
  | r :: rs =>
    let out := r x path
    let rest := runRules x path rs
    match out.verdict with
    | some b => (out.errs ++ rest.1, b && rest.2)
    | none => (out.errs ++ ⟨path, b!"ruleExecutionException"⟩ :: rest.1, false)

/-- The part of `validate_single` that reads the value, 145-172: the errors, or the value. -/
def readParam (num : Bytes → Num) (p : ParamRules) (s path : Bytes) (es : List Err) : List Err ⊕ Json :=
  match p.parser with
  | some f => match f s with                                                            -- 148-165
    | none => .inl (es ++ [⟨path, b!"customParseException"⟩])
    | some (false, _) => .inl (if es = [] then es ++ [⟨path, b!"customParse"⟩] else es)
    | some (true, x) => .inr x
  | none => match parseValue num s p.type with                                          -- 166-172
    | none => .inl (es ++ [⟨path, b!"type"⟩])
    | some x => .inr x

/-- The value given, or the default, 118-139. -/
def given (value : Option Bytes) (p : ParamRules) : Option Bytes :=
  match value with
  | some v => some v
  | none => p.default

/-- `validate_single`, 114-194, on a `Result` with the errors `es`. -/
def validateSingle (num : Bytes → Num) (name : Bytes) (value : Option Bytes) (p : ParamRules) (source : Bytes) (es : List Err) :
    List Err × Json :=
  let path := source ++ b!"." ++ name
  match given value p with
  | none => if p.required then (es ++ [⟨path, b!"required"⟩], .null) else (es, .null)   -- 126-137
  | some s =>
    match readParam num p s path es with
    | .inl es => (es, .null)
    | .inr x =>
      let r := runRules x path p.rules
      (es ++ r.1, if r.2 then x else .null)

/-- A definition: the key of the map and the rules. -/
abbrev Defs := List (Bytes × ParamRules)

/-- The value of a key, without regard to case. -/
def lookup {α : Type} (m : List (Bytes × α)) (key : Bytes) : Option α :=
  match m with
  | [] => none
  | (k, x) :: m => if toLower k = toLower key then some x else lookup m key

/-- `add_param`, 26-29. -/
def addParam (p : ParamRules) : Defs → Defs
  | [] => [(p.name, p)]
  | (k, q) :: m => if toLower k = toLower p.name then (k, p) :: m else (k, q) :: addParam p m

/-- The loop over the definitions, 201-216. -/
def validateDefs (num : Bytes → Num) (params : List (Bytes × Bytes)) (source : Bytes) : Defs → Bool × List Err
  | [] => (true, [])
  | (k, p) :: m =>
    let es := (validateSingle num k (lookup params k) p source []).1
    let rest := validateDefs num params source m
    if es = [] then rest else (false, es ++ rest.2)

/-- The check of strict mode, 219-228. -/
def unexpected {α : Type} (defs : Defs) (source : Bytes) : List (Bytes × α) → Bool × List Err
  | [] => (true, [])
  | (k, _) :: m =>
    let rest := unexpected defs source m
    match lookup defs k with
    | some _ => rest
    | none => (false, ⟨source ++ b!"." ++ k, b!"unexpectedParameter"⟩ :: rest.2)

/-- `ParameterValidator::validate`, 196-231. -/
def validateParams (num : Bytes → Num) (strict : Bool) (defs : Defs) (params : List (Bytes × Bytes)) (source : Bytes) : Bool × List Err :=
  let a := validateDefs num params source defs
  let b := if strict then unexpected defs source params else (true, [])
  (a.1 && b.1, a.2 ++ b.2)

/-! ### Requests -/

/-- The parts of a request that are validated. -/
structure Req where
  queries : List (Bytes × List Bytes)
  headers : List (Bytes × List Bytes)
  body : Bytes
  deriving DecidableEq, Repr

/-- A function of the user; `none` if it throws. -/
abbrev Fn := Bytes → Option Bytes

/-- `RequestValidator`, request_validator.h 138-149. The body sanitizer is given as a function (C150), `none` if
it throws. The path validator is strict, but its mode is never looked at. -/
structure Checks where
  schema : Option Json
  query : Option (Bool × Defs)
  header : Option (Bool × Defs)
  path : Option Defs
  bodySan : Option (Json → Option Json)
  querySan : List (Bytes × List Fn)
  headerSan : List (Bytes × List Fn)

/-- What is used of other libraries: JSON (`dump` throws on text that is not UTF-8), numbers; and whether the
message of an error is one about the type of an empty body, request_validator.cpp 215-222. -/
structure Lib where
  env : Env
  parse : Bytes → Option Json
  dump : Json → Option Bytes
  num : Bytes → Num
  aboutNull : Err → Bool

/-- The loop over the functions, 108-125: the value, and whether none threw. -/
def runFns : List Fn → Bytes → Bytes × Bool
  | [], v => (v, true)
  | f :: fs, v => match f v with
    | some v => runFns fs v
    | none => (v, false)

/-- The loop over the values, 106-129. -/
def sanValues (fs : List Fn) : List Bytes → List Bytes × Bool
  | [] => ([], true)
  | v :: vs =>
    let r := runFns fs v
    if r.2 then let rest := sanValues fs vs; (r.1 :: rest.1, rest.2) else (r.1 :: vs, false)

/-- The loops over the parameters, 99-133, and over the headers, 135-169. -/
def sanMap (sans : List (Bytes × List Fn)) (source rule : Bytes) : List (Bytes × List Bytes) → List (Bytes × List Bytes) × Bool × List Err
  | [] => ([], true, [])
  | (k, vs) :: m =>
    let rest := sanMap sans source rule m
    match lookup sans k with
    | none => ((k, vs) :: rest.1, rest.2.1, rest.2.2)
    | some fs =>
      let r := sanValues fs vs
      if r.2 then ((k, r.1) :: rest.1, rest.2.1, rest.2.2)
      else ((k, r.1) :: rest.1, false, ⟨source ++ b!"." ++ k, rule⟩ :: rest.2.2)

/-- The body sanitizer, 171-199: the body, the verdict and the errors; `none` if an exception leaves it (only
`parse_error` is caught around `dump`). -/
def sanBody (L : Lib) (san : Option (Json → Option Json)) (body : Bytes) : Option (Bytes × Bool × List Err) :=
  match san with
  | none => some (body, true, [])
  | some f =>
    if body = [] then some (body, true, [])
    else match L.parse body with
    | none => some (body, false, [⟨b!"body", b!"invalidFormat.sanitize"⟩])
    | some v => match f v with
      | none => some (body, false, [⟨b!"body", b!"sanitizeException.body"⟩])
      | some v => match L.dump v with
        | none => none
        | some b => some (b, true, [])

/-- The body against the schema, 202-244. -/
def checkBody (L : Lib) (schema : Option Json) (body : Bytes) : Option (Bool × List Err) :=
  match schema with
  | none => some (true, [])
  | some s =>
    if body = [] then
      match validate L.env .null s with
      | none => none
      | some (true, es) => some (true, es)
      | some (false, es) =>
        if es = [] ∨ (es.any fun e => e.rule = b!"type" && L.aboutNull e) = false then some (false, [⟨b!"body", b!"contentRequired"⟩])
        else some (false, es)
    else match L.parse body with
      | none => some (false, [⟨b!"body", b!"invalidFormat.validate"⟩])
      | some v => validate L.env v s

/-- Each value of a parameter, or its absence, 256-276. -/
def checkValues (num : Bytes → Num) (k : Bytes) (p : ParamRules) (source : Bytes) : List (Option Bytes) → Bool × List Err
  | [] => (true, [])
  | v :: vs =>
    let es := (validateSingle num k v p source []).1
    let rest := checkValues num k p source vs
    if es = [] then rest else (false, es ++ rest.2)

/-- The values of a parameter: its values, or that it is absent. -/
def valuesOf (m : List (Bytes × List Bytes)) (k : Bytes) : List (Option Bytes) :=
  match lookup m k with
  | none => [none]
  | some [] => [none]
  | some vs => vs.map some

/-- The loop over the definitions, 254-277 and 296-316. -/
def checkDefs (num : Bytes → Num) (m : List (Bytes × List Bytes)) (source : Bytes) : Defs → Bool × List Err
  | [] => (true, [])
  | (k, p) :: ds =>
    let a := checkValues num k p source (valuesOf m k)
    let b := checkDefs num m source ds
    (a.1 && b.1, a.2 ++ b.2)

/-- The parameters or the headers, 247-291 and 294-328. -/
def checkMap (num : Bytes → Num) (defs : Option (Bool × Defs)) (m : List (Bytes × List Bytes)) (source : Bytes) : Bool × List Err :=
  match defs with
  | none => (true, [])
  | some (strict, ds) =>
    let a := checkDefs num m source ds
    let b := if strict then unexpected ds source (m.filter fun p => p.2 ≠ []) else (true, [])
    (a.1 && b.1, a.2 ++ b.2)

/-- The loop over the path parameters, 333-347; the parameters are looked up by the name in the rules, and a
`PathParameters` distinguishes case. -/
def checkPathDefs (num : Bytes → Num) (params : List (Bytes × Bytes)) : Defs → Bool × List Err
  | [] => (true, [])
  | (_, p) :: ds =>
    let value := (params.find? (·.1 = p.name)).map (·.2)
    let es := (validateSingle num p.name value p b!"path" []).1
    let rest := checkPathDefs num params ds
    if es = [] then rest else (false, es ++ rest.2)

/-- The path parameters, 331-357. -/
def checkPath (num : Bytes → Num) (defs : Option Defs) (params : Option (List (Bytes × Bytes))) : Bool × List Err :=
  match defs, params with
  | none, _ => (true, [])
  | some ds, some ps => checkPathDefs num ps ds
  | some ds, none => (false, ds.map fun d => ⟨b!"path." ++ d.2.name, b!"required"⟩)

/-- `RequestValidator::validate`, 89-359: the verdict, the errors and the request; `none` if it throws. -/
def validateRequest (L : Lib) (C : Checks) (req : Req) (params : Option (List (Bytes × Bytes))) : Option (Bool × List Err × Req) :=
  let q := sanMap C.querySan b!"query" b!"sanitizeException.query" req.queries
  let h := sanMap C.headerSan b!"header" b!"sanitizeException.header" req.headers
  match sanBody L C.bodySan req.body with
  | none => none
  | some (body, okB, esB) =>
    match checkBody L C.schema body with
    | none => none
    | some (okS, esS) =>
      let a := checkMap L.num C.query q.1 b!"query"
      let b := checkMap L.num C.header h.1 b!"header"
      let c := checkPath L.num C.path params
      some (q.2.1 && h.2.1 && okB && okS && a.1 && b.1 && c.1, q.2.2 ++ h.2.2 ++ esB ++ esS ++ a.2 ++ b.2 ++ c.2, ⟨q.1, h.1, body⟩)

/-- What the middleware does with the request. -/
inductive Verdict where
  /-- `complete(CONTINUE)` -/
  | go
  /-- status 400 with the errors in the body, and `complete(COMPLETE)` -/
  | reject (errs : List Err)
  /-- an exception leaves `process` -/
  | throws
  deriving DecidableEq, Repr

/-- `ValidationMiddleware::process`, middleware/validation.h 78-109; `writable` says whether the errors can be
written as JSON. -/
def process (L : Lib) (writable : List Err → Bool) (C : Checks) (req : Req) (params : List (Bytes × Bytes)) : Verdict :=
  match validateRequest L C req (some params) with
  | none => .throws
  | some (true, _, _) => .go
  | some (false, es, _) => if writable es then .reject es else .throws

end Verif.Valid
