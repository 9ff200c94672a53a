import Verif.Valid.SpecParam
import Verif.Valid.TheoremsSchema
import Verif.Auth.TheoremsToken

/-! C151: parameters; C153: requests. -/

namespace Verif.Valid

/-! ### C151 -/

theorem numJson_iff (q : Rat) (x : Json) : numJson q = x ↔
    ((∃ z : Int, q = z ∧ -2 ^ 63 ≤ z ∧ z < 2 ^ 63 ∧ x = .int z) ∨ ((∀ z : Int, q = z → ¬ (-2 ^ 63 ≤ z ∧ z < 2 ^ 63)) ∧ x = .flt q)) := by
  unfold numJson
  split
  · next h =>
    obtain ⟨h1, h2, h3⟩ := h
    have hq : q = (q.num : Rat) := by
      apply Rat.ext <;> simp [h1]
    constructor
    · rintro rfl
      exact .inl ⟨q.num, hq, by omega, by omega, rfl⟩
    · rintro (⟨z, hz, h4, h5, rfl⟩ | ⟨hn, rfl⟩)
      · rw [hz]; simp
      · exact absurd ⟨by omega, by omega⟩ (hn q.num hq)
  · next h =>
    have hno : ∀ z : Int, q = z → ¬ (-2 ^ 63 ≤ z ∧ z < 2 ^ 63) := by
      rintro z rfl ⟨h1, h2⟩
      exact h ⟨by simp, by simp; omega, by simp; omega⟩
    constructor
    · rintro rfl; exact .inr ⟨hno, rfl⟩
    · rintro (⟨z, hz, h4, h5, rfl⟩ | ⟨hn, rfl⟩)
      · exact absurd ⟨h4, h5⟩ (hno z hz)
      · rfl

/-- C151: a text is read as a value of a type exactly if it stands for one: an integer is a decimal numeral of 64
bits, without a plus sign or blanks; a number that is an integer of 64 bits becomes one; a boolean is `true`, `1`,
`false` or `0` in any case. -/
theorem C151_read (num : Bytes → Num) (t : DataType) (s : Bytes) (x : Json) : parseValue num s t = some x ↔ TypeReads num t s x := by
  cases t <;> simp only [parseValue, TypeReads]
  case string => simp [eq_comm]
  case array => simp [eq_comm]
  case integer =>
    rw [Option.map_eq_some_iff]
    constructor
    · rintro ⟨z, h, rfl⟩; exact ⟨z, (Auth.fromChars_iff s z).1 h, rfl⟩
    · rintro ⟨z, h, rfl⟩; exact ⟨z, (Auth.fromChars_iff s z).2 h, rfl⟩
  case number =>
    cases hn : num s with
    | bad => simp
    | nonfinite => simp
    | value q =>
      simp only [Option.some.injEq, numJson_iff, Num.value.injEq]
      constructor
      · intro h; exact ⟨q, rfl, h⟩
      · rintro ⟨q', rfl, h⟩; exact h
  case boolean =>
    simp only [List.mem_cons, List.not_mem_nil, or_false]
    split
    · next h =>
      constructor
      · intro e; cases e; exact .inl ⟨h, rfl⟩
      · rintro (⟨_, rfl⟩ | ⟨h', rfl⟩)
        · rfl
        · rcases h with h | h <;> rcases h' with h' | h' <;> (rw [h] at h'; exact absurd h' (by decide))
    · next h =>
      split
      · next h2 =>
        constructor
        · intro e; cases e; exact .inr ⟨h2, rfl⟩
        · rintro (⟨h', rfl⟩ | ⟨_, rfl⟩)
          · exact absurd h' h
          · rfl
      · next h2 =>
        constructor
        · intro e; cases e
        · rintro (⟨h', rfl⟩ | ⟨h', rfl⟩)
          · exact absurd h' h
          · exact absurd h' h2
  all_goals simp

theorem runRules_iff (x : Json) (path : Bytes) (rs : List (Json → Bytes → RuleOut))
    (hh : ∀ r ∈ rs, ((r x path).verdict = some true → (r x path).errs = []) ∧ ((r x path).verdict = some false → (r x path).errs ≠ [])) :
    ((runRules x path rs).1 = [] ↔ ∀ r ∈ rs, (r x path).verdict = some true) ∧
    ((runRules x path rs).2 = true ↔ ∀ r ∈ rs, (r x path).verdict = some true) := by
  induction rs with
  | nil => simp [runRules]
  | cons r rs ih =>
    obtain ⟨i1, i2⟩ := ih fun r hr => hh r (List.mem_cons_of_mem _ hr)
    obtain ⟨a, b⟩ := hh r List.mem_cons_self
    simp only [runRules]
    cases hv : (r x path).verdict with
    | none => simp [hv]
    | some v =>
      cases v with
      | true => simp [hv, a hv, i1, i2]
      | false => simp [hv, b hv]

theorem reads_iff (num : Bytes → Num) (p : ParamRules) (s path : Bytes) (x : Json) : readParam num p s path [] = .inr x ↔ Reads num p s x := by
  unfold readParam Reads
  cases p.parser with
  | none =>
    simp only
    rw [← C151_read]
    cases parseValue num s p.type with
    | none => simp
    | some y => simp
  | some f =>
    simp only
    cases f s with
    | none => simp
    | some r =>
      obtain ⟨b, y⟩ := r
      cases b <;> simp

theorem read_fails (num : Bytes → Num) (p : ParamRules) (s path : Bytes) (es : List Err) (h : readParam num p s path [] = .inl es) : es ≠ [] := by
  unfold readParam at h
  split at h
  · split at h <;> cases h <;> simp
  · split at h <;> cases h; simp

/-- C151: a parameter, given or absent, is reported exactly if it is not valid ... -/
theorem C151_single (num : Bytes → Num) (name : Bytes) (value : Option Bytes) (p : ParamRules) (source : Bytes) (hh : Honest p) :
    (validateSingle num name value p source []).1 = [] ↔ ParamOk num p (source ++ b!"." ++ name) value := by
  have hg : given value p = value.or p.default := by cases value <;> rfl
  unfold validateSingle ParamOk
  simp only [hg]
  cases value.or p.default with
  | none => cases p.required <;> simp
  | some s =>
    simp only
    cases hr : readParam num p s (source ++ b!"." ++ name) [] with
    | inl es =>
      have := read_fails _ _ _ _ _ hr
      constructor
      · intro h; exact absurd h this
      · rintro ⟨x, hx, -⟩
        rw [← reads_iff num p s (source ++ b!"." ++ name) x, hr] at hx; cases hx
    | inr x =>
      have hx := (reads_iff ..).1 hr
      simp only [List.nil_append]
      rw [(runRules_iff x _ p.rules fun r hr => hh r hr x _).1]
      constructor
      · intro h; exact ⟨x, hx, h⟩
      · rintro ⟨y, hy, h⟩
        rw [← reads_iff num p s (source ++ b!"." ++ name) y, hr] at hy
        cases hy; exact h

/-- ... and the value returned for a valid one is what its text stands for. -/
theorem C151_value (num : Bytes → Num) (name : Bytes) (value : Option Bytes) (p : ParamRules) (source s : Bytes) (hh : Honest p)
    (hs : value.or p.default = some s) (hok : (validateSingle num name value p source []).1 = []) :
    Reads num p s (validateSingle num name value p source []).2 := by
  have hg : given value p = value.or p.default := by cases value <;> rfl
  unfold validateSingle at hok ⊢
  simp only [hg, hs] at hok ⊢
  cases hr : readParam num p s (source ++ b!"." ++ name) [] with
  | inl es => rw [hr] at hok; exact absurd hok (read_fails _ _ _ _ _ hr)
  | inr x =>
    rw [hr] at hok
    simp only [List.nil_append] at hok ⊢
    have h1 := runRules_iff x (source ++ b!"." ++ name) p.rules fun r hr => hh r hr x _
    rw [h1.2.2 (h1.1.1 hok)]
    exact (reads_iff ..).1 hr

theorem lookup_some {α : Type} (m : List (Bytes × α)) (k : Bytes) : (∃ x, lookup m k = some x) ↔ ∃ p ∈ m, toLower p.1 = toLower k := by
  induction m with
  | nil => simp [lookup]
  | cons a m ih =>
    obtain ⟨l, y⟩ := a
    rw [lookup]
    by_cases e : toLower l = toLower k
    · rw [if_pos e]; simp [e]
    · rw [if_neg e, ih]; simp [e]

theorem unexpected_iff {α : Type} (defs : Defs) (source : Bytes) (m : List (Bytes × α)) :
    ((unexpected defs source m).1 = true ↔ ∀ p ∈ m, ∃ d ∈ defs, toLower d.1 = toLower p.1) ∧
    ((unexpected defs source m).2 = [] ↔ (unexpected defs source m).1 = true) := by
  induction m with
  | nil => simp [unexpected]
  | cons a m ih =>
    obtain ⟨k, x⟩ := a
    rw [unexpected]
    cases hl : lookup defs k with
    | none =>
      refine ⟨?_, by simp⟩
      constructor
      · intro h; cases h
      · intro h
        have := (lookup_some defs k).2 (h (k, x) List.mem_cons_self)
        rw [hl] at this; obtain ⟨_, h⟩ := this; cases h
    | some d =>
      refine ⟨?_, ih.2⟩
      rw [ih.1]
      have := (lookup_some defs k).1 ⟨d, hl⟩
      constructor
      · intro h p hp
        rcases List.mem_cons.1 hp with rfl | hp
        · exact this
        · exact h p hp
      · intro h p hp; exact h p (List.mem_cons_of_mem _ hp)

theorem defs_iff (num : Bytes → Num) (params : List (Bytes × Bytes)) (source : Bytes) (ds : Defs) (hh : HonestDefs ds) :
    ((validateDefs num params source ds).1 = true ↔ ∀ d ∈ ds, ParamOk num d.2 (source ++ b!"." ++ d.1) (lookup params d.1)) ∧
    ((validateDefs num params source ds).2 = [] ↔ (validateDefs num params source ds).1 = true) := by
  induction ds with
  | nil => simp [validateDefs]
  | cons d ds ih =>
    obtain ⟨k, p⟩ := d
    have ih := ih fun d hd => hh d (List.mem_cons_of_mem _ hd)
    have h1 := C151_single num k (lookup params k) p source (hh _ List.mem_cons_self)
    rw [validateDefs]
    by_cases he : (validateSingle num k (lookup params k) p source []).1 = []
    · rw [if_pos he]
      refine ⟨?_, ih.2⟩
      rw [ih.1]
      simp only [List.mem_cons, forall_eq_or_imp]
      exact ⟨fun h => ⟨h1.1 he, h⟩, fun h => h.2⟩
    · rw [if_neg he]
      refine ⟨?_, by simp [he]⟩
      simp only [List.mem_cons, forall_eq_or_imp]
      exact ⟨fun h => (by cases h), fun h => absurd (h1.2 h.1) he⟩

/-- C151: a set of parameters is accepted exactly if every defined one is valid and, in strict mode, there are no
others; and an error is reported exactly if it is not accepted. -/
theorem C151_all (num : Bytes → Num) (strict : Bool) (ds : Defs) (params : List (Bytes × Bytes)) (source : Bytes) (hh : HonestDefs ds) :
    ((validateParams num strict ds params source).1 = true ↔
      (∀ d ∈ ds, ParamOk num d.2 (source ++ b!"." ++ d.1) (lookup params d.1)) ∧
      (strict = true → ∀ p ∈ params, ∃ d ∈ ds, toLower d.1 = toLower p.1)) ∧
    ((validateParams num strict ds params source).1 = true ↔ (validateParams num strict ds params source).2 = []) := by
  obtain ⟨h1, h2⟩ := defs_iff num params source ds hh
  obtain ⟨h3, h4⟩ := unexpected_iff ds source params
  unfold validateParams
  simp only [Bool.and_eq_true, List.append_eq_nil_iff]
  cases strict with
  | false => simp [h1, h2]
  | true => simp [h1, h2, h3, h4]

/-- A rule of the library, as `ParameterValidator` runs it. -/
def builtin (E : Env) (r : Rule) : Json → Bytes → RuleOut := fun x path =>
  if r.check E x then ⟨[], some true⟩ else ⟨[⟨path, r.name⟩], some false⟩

/-- Parameters whose rules are all of the library meet the hypothesis. -/
theorem C151_builtin (E : Env) (p : ParamRules) (rs : List Rule) (h : p.rules = rs.map (builtin E)) : Honest p := by
  intro r hr x path
  rw [h] at hr
  obtain ⟨q, -, rfl⟩ := List.mem_map.1 hr
  unfold builtin
  split <;> simp

/-- Without it the claim is false: a rule that rejects without a report is overruled. -/
theorem C151_silent_rule : (validateSingle (fun _ => .bad) b!"id" (some b!"x") ⟨b!"id", .string, true, none, [fun _ _ => ⟨[], some false⟩], none⟩
    b!"query" []) = ([], .null) := by rfl

def demoParam : ParamRules := ⟨b!"id", .integer, true, none, [builtin demoEnv (.minimum 3 false)], none⟩

theorem C151_example : Honest demoParam ∧
    (validateSingle (fun _ => .bad) b!"id" (some b!"42") demoParam b!"query" []).2 = .int 42 ∧
    (validateSingle (fun _ => .bad) b!"id" (some b!"42") demoParam b!"query" []).1 = [] ∧
    (validateSingle (fun _ => .bad) b!"id" (some b!"+42") demoParam b!"query" []).1 = [⟨b!"query.id", b!"type"⟩] ∧
    (validateSingle (fun _ => .bad) b!"id" (some b!"2") demoParam b!"query" []).1 = [⟨b!"query.id", b!"minimum"⟩] ∧
    (validateSingle (fun _ => .bad) b!"id" none demoParam b!"query" []).1 = [⟨b!"query.id", b!"required"⟩] :=
  ⟨C151_builtin demoEnv _ [.minimum 3 false] rfl, by rfl, by rfl, by rfl, by rfl, by rfl⟩

/-! ### C153 -/

theorem runFns_iff (fs : List Fn) (v v' : Bytes) : runFns fs v = (v', true) ↔ Runs fs v v' := by
  unfold Runs
  induction fs generalizing v with
  | nil => simp [runFns]
  | cons f fs ih =>
    rw [runFns]
    simp only [List.foldl_cons, Option.bind_some]
    cases hf : f v with
    | none =>
      have : ∀ gs : List Fn, gs.foldl (fun o f => o.bind f) (none : Option Bytes) = none := by
        intro gs; induction gs with
        | nil => rfl
        | cons g gs ih => simpa using ih
      simp [this]
    | some w => exact ih w

theorem sanValues_iff (fs : List Fn) (vs vs' : List Bytes) : sanValues fs vs = (vs', true) ↔
    vs.length = vs'.length ∧ ∀ (j : Nat) (g : j < vs.length) (g' : j < vs'.length), Runs fs vs[j] vs'[j] := by
  induction vs generalizing vs' with
  | nil => cases vs' <;> simp [sanValues]
  | cons v vs ih =>
    rw [sanValues]
    simp only
    cases vs' with
    | nil =>
      split <;> simp
    | cons w ws =>
      have h1 := runFns_iff fs v w
      split
      · next hr =>
        rw [Prod.ext_iff] at h1
        simp only [hr, and_true] at h1
        have h2 := ih ws
        rw [Prod.ext_iff] at h2 ⊢
        simp only [List.cons.injEq, List.length_cons, Nat.add_right_cancel_iff] at h2 ⊢
        rw [h1]
        constructor
        · rintro ⟨⟨a, b⟩, c⟩
          obtain ⟨d, e⟩ := h2.1 ⟨b, c⟩
          refine ⟨d, fun j g g' => ?_⟩
          cases j with
          | zero => exact a
          | succ j => exact e j (by simpa using g) (by simpa using g')
        · rintro ⟨a, b⟩
          obtain ⟨c, d⟩ := h2.2 ⟨a, fun j g g' => b (j + 1) (by simpa using g) (by simpa using g')⟩
          exact ⟨⟨b 0 (by simp) (by simp), c⟩, d⟩
      · next hr =>
        constructor
        · intro h; cases h
        · rintro ⟨a, b⟩
          have := h1.2 (b 0 (by simp) (by simp))
          rw [this] at hr; exact absurd rfl hr

theorem sanMap_ok (sans : List (Bytes × List Fn)) (source rule : Bytes) (m : List (Bytes × List Bytes)) :
    ((sanMap sans source rule m).2.1 = true ↔ (sanMap sans source rule m).2.2 = []) ∧
    ((sanMap sans source rule m).2.1 = true → Sanitized sans m (sanMap sans source rule m).1) ∧
    ((sanMap sans source rule m).2.1 = false → ∀ m', ¬ Sanitized sans m m') := by
  induction m with
  | nil => simp [sanMap, Sanitized]
  | cons a m ih =>
    obtain ⟨k, vs⟩ := a
    obtain ⟨i1, i2, i3⟩ := ih
    have cons : ∀ vs' m', (match lookup sans k with
        | none => vs = vs'
        | some fs => vs.length = vs'.length ∧ ∀ (j : Nat) (g : j < vs.length) (g' : j < vs'.length), Runs fs vs[j] vs'[j]) →
        Sanitized sans m m' → Sanitized sans ((k, vs) :: m) ((k, vs') :: m') := by
      intro vs' m' hv hm
      refine ⟨by simp [hm.1], fun i h h' => ?_⟩
      cases i with
      | zero => exact ⟨rfl, hv⟩
      | succ i => exact hm.2 i (by simpa using h) (by simpa using h')
    have tail : ∀ m', Sanitized sans ((k, vs) :: m) m' → ∃ vs' m'', m' = (k, vs') :: m'' ∧ Sanitized sans m m'' ∧
        (match lookup sans k with
        | none => vs = vs'
        | some fs => vs.length = vs'.length ∧ ∀ (j : Nat) (g : j < vs.length) (g' : j < vs'.length), Runs fs vs[j] vs'[j]) := by
      intro m' h
      cases m' with
      | nil => exact absurd h.1 (by simp)
      | cons b m' =>
        obtain ⟨k', vs'⟩ := b
        have h0 := h.2 0 (by simp) (by simp)
        have hk : k = k' := h0.1
        subst hk
        refine ⟨vs', m', rfl, ⟨by simpa using h.1, fun i g g' => h.2 (i + 1) (by simpa using g) (by simpa using g')⟩, h0.2⟩
    rw [sanMap]
    simp only
    cases hl : lookup sans k with
    | none =>
      refine ⟨i1, fun h => cons _ _ (by rw [hl]) (i2 h), fun h m' hm => ?_⟩
      obtain ⟨_, m'', -, hm, -⟩ := tail m' hm
      exact i3 h m'' hm
    | some fs =>
      simp only
      split
      · next hr =>
        refine ⟨i1, fun h => cons _ _ ?_ (i2 h), fun h m' hm => ?_⟩
        · rw [hl]; exact (sanValues_iff fs vs _).1 (Prod.ext rfl hr)
        · obtain ⟨_, m'', -, hm, -⟩ := tail m' hm
          exact i3 h m'' hm
      · next hr =>
        refine ⟨by simp, fun h => (by cases h), fun _ m' hm => ?_⟩
        obtain ⟨vs', m'', -, -, hv⟩ := tail m' hm
        rw [hl] at hv
        have := (sanValues_iff fs vs vs').2 hv
        rw [this] at hr
        exact hr rfl

theorem checkValues_iff (num : Bytes → Num) (k : Bytes) (p : ParamRules) (source : Bytes) (vs : List (Option Bytes)) (hh : Honest p) :
    ((checkValues num k p source vs).1 = true ↔ ∀ v ∈ vs, ParamOk num p (source ++ b!"." ++ k) v) ∧
    ((checkValues num k p source vs).2 = [] ↔ (checkValues num k p source vs).1 = true) := by
  induction vs with
  | nil => simp [checkValues]
  | cons v vs ih =>
    have h1 := C151_single num k v p source hh
    rw [checkValues]
    by_cases he : (validateSingle num k v p source []).1 = []
    · rw [if_pos he]
      refine ⟨?_, ih.2⟩
      rw [ih.1]
      simp only [List.mem_cons, forall_eq_or_imp]
      exact ⟨fun h => ⟨h1.1 he, h⟩, fun h => h.2⟩
    · rw [if_neg he]
      refine ⟨?_, by simp [he]⟩
      simp only [List.mem_cons, forall_eq_or_imp]
      exact ⟨fun h => (by cases h), fun h => absurd (h1.2 h.1) he⟩

theorem valuesOf_iff (m : List (Bytes × List Bytes)) (k : Bytes) (P : Option Bytes → Prop) : (∀ v ∈ valuesOf m k, P v) ↔
    ((lookup m k).getD [] = [] → P none) ∧ ∀ v ∈ (lookup m k).getD [], P (some v) := by
  unfold valuesOf
  cases lookup m k with
  | none => simp
  | some vs =>
    cases vs with
    | nil => simp
    | cons v vs => simp

theorem checkDefs_iff (num : Bytes → Num) (m : List (Bytes × List Bytes)) (source : Bytes) (ds : Defs) (hh : HonestDefs ds) :
    ((checkDefs num m source ds).1 = true ↔ ∀ d ∈ ds, ((lookup m d.1).getD [] = [] → ParamOk num d.2 (source ++ b!"." ++ d.1) none) ∧
      ∀ v ∈ (lookup m d.1).getD [], ParamOk num d.2 (source ++ b!"." ++ d.1) (some v)) ∧
    ((checkDefs num m source ds).2 = [] ↔ (checkDefs num m source ds).1 = true) := by
  induction ds with
  | nil => simp [checkDefs]
  | cons d ds ih =>
    obtain ⟨k, p⟩ := d
    have ih := ih fun d hd => hh d (List.mem_cons_of_mem _ hd)
    have h1 := checkValues_iff num k p source (valuesOf m k) (hh _ List.mem_cons_self)
    rw [valuesOf_iff m k (fun v => ParamOk num p (source ++ b!"." ++ k) v)] at h1
    rw [checkDefs]
    simp only [Bool.and_eq_true, List.append_eq_nil_iff, List.mem_cons, forall_eq_or_imp]
    exact ⟨by rw [h1.1, ih.1], by rw [h1.2, ih.2]⟩

theorem checkMap_iff (num : Bytes → Num) (defs : Option (Bool × Defs)) (m : List (Bytes × List Bytes)) (source : Bytes)
    (hh : ∀ b ds, defs = some (b, ds) → HonestDefs ds) :
    ((checkMap num defs m source).1 = true ↔ MapOk num defs m source) ∧
    ((checkMap num defs m source).2 = [] ↔ (checkMap num defs m source).1 = true) := by
  unfold checkMap MapOk
  cases defs with
  | none => simp
  | some b =>
    obtain ⟨strict, ds⟩ := b
    have h1 := checkDefs_iff num m source ds (hh _ _ rfl)
    have h2 := unexpected_iff ds source (m.filter fun p => p.2 ≠ [])
    simp only [Bool.and_eq_true, List.append_eq_nil_iff]
    refine ⟨?_, ?_⟩
    · constructor
      · rintro ⟨a, b⟩ s d e
        cases e
        refine ⟨h1.1.1 a, ?_⟩
        rintro rfl p hp hne
        rw [if_pos rfl, h2.1] at b
        exact b p (List.mem_filter.2 ⟨hp, by simpa using hne⟩)
      · intro h
        obtain ⟨a, b⟩ := h strict ds rfl
        refine ⟨h1.1.2 a, ?_⟩
        cases strict with
        | false => rfl
        | true =>
          rw [if_pos rfl, h2.1]
          intro p hp
          have := List.mem_filter.1 hp
          exact b rfl p this.1 (by simpa using this.2)
    · rw [h1.2]
      cases strict with
      | false => simp
      | true => rw [if_pos rfl, h2.2]

theorem checkPath_iff (num : Bytes → Num) (defs : Option Defs) (params : Option (List (Bytes × Bytes)))
    (hh : ∀ ds, defs = some ds → HonestDefs ds ∧ ds ≠ []) :
    ((checkPath num defs params).1 = true ↔ PathOk num defs params) ∧
    ((checkPath num defs params).2 = [] ↔ (checkPath num defs params).1 = true) := by
  unfold checkPath PathOk
  cases defs with
  | none => simp
  | some ds =>
    obtain ⟨hd, hne⟩ := hh ds rfl
    clear hh
    cases params with
    | none => simp [hne]
    | some ps =>
      simp only [Option.some.injEq, forall_eq', exists_eq_left']
      clear hne
      induction ds with
      | nil => simp [checkPathDefs]
      | cons d ds ih =>
        obtain ⟨k, p⟩ := d
        have ih := ih fun d h => hd d (List.mem_cons_of_mem _ h)
        have h1 := C151_single num p.name ((ps.find? (·.1 = p.name)).map (·.2)) p b!"path" (hd _ List.mem_cons_self)
        rw [checkPathDefs]
        by_cases he : (validateSingle num p.name ((ps.find? (·.1 = p.name)).map (·.2)) p b!"path" []).1 = []
        · rw [if_pos he]
          refine ⟨?_, ih.2⟩
          rw [ih.1]
          have := h1.1 he
          simp only [List.cons_append, List.nil_append] at this
          simp [this]
        · rw [if_neg he]
          refine ⟨?_, by simp [he]⟩
          simp only [List.mem_cons, forall_eq_or_imp]
          constructor
          · intro h; cases h
          · rintro ⟨h, -⟩
            exact absurd (h1.2 (by simpa using h)) he

theorem checkBody_ok (L : Lib) (schema : Option Json) (body : Bytes) (ok : Bool) (es : List Err) (h : checkBody L schema body = some (ok, es)) :
    ok = true ↔ es = [] := by
  unfold checkBody at h
  split at h
  · cases h; simp
  split at h
  · split at h
    · cases h
    · next es' hv => cases h; exact C145_verdict _ _ _ _ _ hv
    · next es' hv =>
      have := C145_verdict _ _ _ _ _ hv
      split at h
      · cases h; simp
      · cases h; exact this
  · split at h
    · cases h; simp
    · exact C145_verdict _ _ _ _ _ h

theorem sanBody_ok (L : Lib) (san : Option (Json → Option Json)) (body body' : Bytes) (ok : Bool) (es : List Err)
    (h : sanBody L san body = some (body', ok, es)) :
    (ok = true ↔ es = []) ∧ (ok = true ↔ BodySanitized L san body body') := by
  unfold sanBody at h
  split at h
  · cases h; exact ⟨by simp, by simp [BodySanitized]⟩
  next f =>
  split at h
  · next hb => cases h; exact ⟨by simp, by simp [BodySanitized, hb]⟩
  next hb =>
  have hno : L.parse body = none ∨ (∃ v, L.parse body = some v ∧ f v = none) → ¬ BodySanitized L (some f) body body' := by
    rintro h (⟨h1 | h1, -⟩ | ⟨g, v, v', hg, -, hp, hf, hd⟩)
    · cases h1
    · exact hb h1
    · cases hg
      rcases h with h | ⟨w, h, h2⟩
      · rw [hp] at h; cases h
      · rw [hp] at h; cases h; rw [hf] at h2; cases h2
  split at h
  · next hp => cases h; exact ⟨by simp, by simp [hno (.inl hp)]⟩
  next v hp =>
  split at h
  · next hf => cases h; exact ⟨by simp, by simp [hno (.inr ⟨v, hp, hf⟩)]⟩
  next v' hf =>
  split at h
  · cases h
  next b hd =>
  cases h
  exact ⟨by simp, by simp only [true_iff]; exact .inr ⟨f, v, v', rfl, hb, hp, hf, hd⟩⟩

theorem checkBody_iff (L : Lib) (V : Json → Json → Prop) (hV : Semantics L.env V) (schema : Option Json) (body : Bytes)
    (hs : ∀ s, schema = some s → WellFormed L.env s ∧ s.height ≤ 64) :
    ∃ ok es, checkBody L schema body = some (ok, es) ∧ (ok = true ↔ BodyOk L V schema body) := by
  unfold checkBody BodyOk
  cases schema with
  | none => exact ⟨true, [], rfl, by simp⟩
  | some s =>
    obtain ⟨hw, hd⟩ := hs s rfl
    simp only [Option.some.injEq, forall_eq']
    split
    · next hb =>
      obtain ⟨ok, es, h1, h2, h3⟩ := C144_exact L.env V hV .null s hw hd
      rw [h1]
      cases ok with
      | true => exact ⟨true, es, rfl, by simp [hb, h2.1 rfl]⟩
      | false =>
        have : ¬ V .null s := fun h => by have := h2.2 h; cases this
        simp only
        split
        · exact ⟨false, _, rfl, by simp [hb, this]⟩
        · exact ⟨false, _, rfl, by simp [hb, this]⟩
    · next hb =>
      cases hp : L.parse body with
      | none => exact ⟨false, _, rfl, by simp [hb]⟩
      | some v =>
        obtain ⟨ok, es, h1, h2, h3⟩ := C144_exact L.env V hV v s hw hd
        exact ⟨ok, es, h1, by simp [hb, h2]⟩

/-- The checks of a validator made with the public functions: rules that report, and path rules only if there are
some (`for_path_param`, request_validator.cpp 58-66). -/
structure Usual (C : Checks) : Prop where
  query : ∀ b ds, C.query = some (b, ds) → HonestDefs ds
  header : ∀ b ds, C.header = some (b, ds) → HonestDefs ds
  path : ∀ ds, C.path = some ds → HonestDefs ds ∧ ds ≠ []

/-- C153: whenever validation returns, it says true exactly if there is no error. -/
theorem C153_verdict (L : Lib) (C : Checks) (hC : Usual C) (req req' : Req) (params : Option (List (Bytes × Bytes))) (ok : Bool) (es : List Err)
    (h : validateRequest L C req params = some (ok, es, req')) : ok = true ↔ es = [] := by
  unfold validateRequest at h
  simp only at h
  split at h
  · cases h
  next body okB esB hB =>
  split at h
  · cases h
  next okS esS hS =>
  cases h
  have a := (checkMap_iff L.num C.query (sanMap C.querySan b!"query" b!"sanitizeException.query" req.queries).1 b!"query" hC.query).2
  have b := (checkMap_iff L.num C.header (sanMap C.headerSan b!"header" b!"sanitizeException.header" req.headers).1 b!"header" hC.header).2
  have c := (checkPath_iff L.num C.path params hC.path).2
  have d := (sanMap_ok C.querySan b!"query" b!"sanitizeException.query" req.queries).1
  have e := (sanMap_ok C.headerSan b!"header" b!"sanitizeException.header" req.headers).1
  have f := (sanBody_ok _ _ _ _ _ _ hB).1
  have g := checkBody_ok _ _ _ _ _ hS
  simp only [Bool.and_eq_true, List.append_eq_nil_iff, a, b, c, ← d, ← e, ← f, ← g]

/-- C153: with a well-formed schema, a request is accepted exactly if its parts can be sanitized and what comes out
is valid: each value of each query parameter and header that is defined, the body, and the path parameters; and the
request is then the sanitized one. It throws exactly if the sanitized body cannot be written. -/
theorem C153_exact (L : Lib) (V : Json → Json → Prop) (hV : Semantics L.env V) (C : Checks) (hC : Usual C)
    (hs : ∀ s, C.schema = some s → WellFormed L.env s ∧ s.height ≤ 64) (req : Req) (params : Option (List (Bytes × Bytes))) :
    (∀ req', (∃ es, validateRequest L C req params = some (true, es, req')) ↔
      Sanitized C.querySan req.queries req'.queries ∧ Sanitized C.headerSan req.headers req'.headers ∧
      BodySanitized L C.bodySan req.body req'.body ∧ BodyOk L V C.schema req'.body ∧
      MapOk L.num C.query req'.queries b!"query" ∧ MapOk L.num C.header req'.headers b!"header" ∧ PathOk L.num C.path params) ∧
    (validateRequest L C req params = none ↔ sanBody L C.bodySan req.body = none) := by
  have uniq : ∀ (sans : List (Bytes × List Fn)) m m1 m2, Sanitized sans m m1 → Sanitized sans m m2 → m1 = m2 := by
    intro sans m m1 m2 h1 h2
    refine List.ext_getElem (by rw [← h1.1, h2.1]) fun i g1 g2 => ?_
    have g : i < m.length := by rw [h1.1]; exact g1
    obtain ⟨a1, b1⟩ := h1.2 i g g1
    obtain ⟨a2, b2⟩ := h2.2 i g g2
    refine Prod.ext (a1.symm.trans a2) ?_
    split at b1
    · next hl => rw [hl] at b2; exact b1.symm.trans b2
    · next fs hl =>
      rw [hl] at b2
      refine List.ext_getElem (by rw [← b1.1, b2.1]) fun j k1 k2 => ?_
      have k : j < m[i].2.length := by rw [b1.1]; exact k1
      have e1 := b1.2 j k k1
      have e2 := b2.2 j k k2
      unfold Runs at e1 e2
      rw [e1] at e2
      exact Option.some.inj e2
  have nodump : sanBody L C.bodySan req.body = none → ∀ b', ¬ BodySanitized L C.bodySan req.body b' := by
    intro h b'
    unfold sanBody at h
    split at h
    · cases h
    next f hf =>
    split at h
    · cases h
    next hb =>
    split at h
    · cases h
    next v hp =>
    split at h
    · cases h
    next v' hv =>
    split at h
    · next hd =>
      rintro (⟨h1 | h1, -⟩ | ⟨g, w, w', hg, -, hp', hf', hd'⟩)
      · rw [hf] at h1; cases h1
      · exact hb h1
      · rw [hf] at hg; cases hg
        rw [hp] at hp'; cases hp'
        rw [hv] at hf'; cases hf'
        rw [hd] at hd'; cases hd'
    · cases h
  unfold validateRequest
  simp only
  cases hB : sanBody L C.bodySan req.body with
  | none =>
    refine ⟨fun req' => ⟨fun ⟨es, h⟩ => (by cases h), fun h => absurd h.2.2.1 (nodump hB _)⟩, by simp⟩
  | some r =>
    obtain ⟨body, okB, esB⟩ := r
    obtain ⟨okS, esS, hS, hS'⟩ := checkBody_iff L V hV C.schema body hs
    have fB := (sanBody_ok _ _ _ _ _ _ hB).2
    obtain ⟨-, d1, d2⟩ := sanMap_ok C.querySan b!"query" b!"sanitizeException.query" req.queries
    obtain ⟨-, e1, e2⟩ := sanMap_ok C.headerSan b!"header" b!"sanitizeException.header" req.headers
    have a := (checkMap_iff L.num C.query (sanMap C.querySan b!"query" b!"sanitizeException.query" req.queries).1 b!"query" hC.query).1
    have b := (checkMap_iff L.num C.header (sanMap C.headerSan b!"header" b!"sanitizeException.header" req.headers).1 b!"header" hC.header).1
    have c := (checkPath_iff L.num C.path params hC.path).1
    simp only [hS]
    refine ⟨fun req' => ?_, by simp⟩
    constructor
    · rintro ⟨es, h⟩
      have h' := Option.some.inj h
      have hr := congrArg Prod.fst h'
      have hq := congrArg (fun x => x.2.2) h'
      simp only [Bool.and_eq_true] at hr hq
      subst hq
      obtain ⟨⟨⟨⟨⟨⟨h1, h2⟩, h3⟩, h4⟩, h5⟩, h6⟩, h7⟩ := hr
      exact ⟨d1 h1, e1 h2, fB.1 h3, hS'.1 h4, a.1 h5, b.1 h6, c.1 h7⟩
    · rintro ⟨h1, h2, h3, h4, h5, h6, h7⟩
      have k1 : (sanMap C.querySan b!"query" b!"sanitizeException.query" req.queries).2.1 = true := by
        cases hx : (sanMap C.querySan b!"query" b!"sanitizeException.query" req.queries).2.1 with
        | true => rfl
        | false => exact absurd h1 (d2 hx _)
      have k2 : (sanMap C.headerSan b!"header" b!"sanitizeException.header" req.headers).2.1 = true := by
        cases hx : (sanMap C.headerSan b!"header" b!"sanitizeException.header" req.headers).2.1 with
        | true => rfl
        | false => exact absurd h2 (e2 hx _)
      have q1 := uniq _ _ _ _ h1 (d1 k1)
      have q2 := uniq _ _ _ _ h2 (e1 k2)
      have q3 : req'.body = body ∧ okB = true := by
        have hk : ∀ b1 b2, BodySanitized L C.bodySan req.body b1 → BodySanitized L C.bodySan req.body b2 → b1 = b2 := by
          rintro b1 b2 (⟨x1, rfl⟩ | ⟨f, v, v', x1, x2, x3, x4, x5⟩) (⟨y1, rfl⟩ | ⟨g, w, w', y1, y2, y3, y4, y5⟩)
          · rfl
          · rcases x1 with x1 | x1
            · rw [x1] at y1; cases y1
            · exact absurd x1 y2
          · rcases y1 with y1 | y1
            · rw [x1] at y1; cases y1
            · exact absurd y1 x2
          · rw [x1] at y1; cases y1
            rw [x3] at y3; cases y3
            rw [x4] at y4; cases y4
            rw [x5] at y5; cases y5; rfl
        have : okB = true := by
          cases okB with
          | true => rfl
          | false =>
            exfalso
            unfold sanBody at hB
            rcases h3 with ⟨h3 | h3, -⟩ | ⟨f, v, v', x1, x2, x3, x4, x5⟩
            · rw [h3] at hB; cases hB
            · rw [h3] at hB
              split at hB
              · cases hB
              · simp at hB
            · simp only [x1, if_neg x2, x3, x4, x5] at hB; cases hB
        exact ⟨hk _ _ h3 (fB.1 this), this⟩
      have k4 := hS'.2 (by rw [← q3.1]; exact h4)
      have k5 := a.2 (by rw [← q1]; exact h5)
      have k6 := b.2 (by rw [← q2]; exact h6)
      have k7 := c.2 h7
      rw [k1, k2, q3.2, k4, k5, k6, k7]
      simp only [Bool.and_self]
      rw [← q1, ← q2, ← q3.1]
      exact ⟨_, rfl⟩

/-- C153: the middleware lets a request pass exactly if it is valid, and rejects it with at least one error. -/
theorem C153_middleware (L : Lib) (writable : List Err → Bool) (C : Checks) (hC : Usual C) (req : Req) (params : List (Bytes × Bytes)) :
    (process L writable C req params = .go ↔ ∃ es req', validateRequest L C req (some params) = some (true, es, req')) ∧
    ∀ es, process L writable C req params = .reject es → es ≠ [] ∧ ∃ req', validateRequest L C req (some params) = some (false, es, req') := by
  unfold process
  cases h : validateRequest L C req (some params) with
  | none => simp
  | some r =>
    obtain ⟨ok, es, req'⟩ := r
    have := C153_verdict L C hC req req' _ ok es h
    cases ok with
    | true => simp
    | false =>
      simp only
      refine ⟨by split <;> simp, fun es' he => ?_⟩
      split at he
      · cases he
        exact ⟨fun e => (by have := this.2 e; cases this), req', rfl⟩
      · cases he

/-- Query parameters sanitized and validated; two values, one of them wrong. -/
def demoChecks : Checks := ⟨none, some (true, [(b!"id", demoParam)]), none, none, none, [(b!"ID", [fun s => some (trim s)])], []⟩

def demoLib : Lib := ⟨demoEnv, fun _ => none, fun _ => none, fun _ => .bad, fun _ => false⟩

theorem C153_example : Usual demoChecks ∧
    validateRequest demoLib demoChecks ⟨[(b!"id", [b!" 4 ", b!"5"])], [], []⟩ none =
      some (true, [], ⟨[(b!"id", [b!"4", b!"5"])], [], []⟩) ∧
    validateRequest demoLib demoChecks ⟨[(b!"id", [b!" 4 ", b!"x"]), (b!"y", [[]])], [], []⟩ none =
      some (false, [⟨b!"query.id", b!"type"⟩, ⟨b!"query.y", b!"unexpectedParameter"⟩], ⟨[(b!"id", [b!"4", b!"x"]), (b!"y", [[]])], [], []⟩) := by
  refine ⟨⟨?_, ?_, ?_⟩, by rfl, by rfl⟩
  · intro b ds h
    cases h
    intro d hd
    rw [List.mem_singleton] at hd
    subst hd
    exact C151_example.1
  · intro b ds h; cases h
  · intro ds h; cases h

end Verif.Valid
