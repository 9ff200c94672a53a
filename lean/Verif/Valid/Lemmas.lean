import Verif.Valid.Model
import Verif.Valid.Spec

/-! Lemmas for the schema validator. -/

namespace Verif.Valid

/-- `f` does not throw, adds an error unless `P`, and returns true if `P`. -/
def Run (P : Prop) (f : M) : Prop := ∀ es, ∃ b x, f es = some (b, es ++ x) ∧ (P → b = true) ∧ (x = [] ↔ P)

/-- And returns true only if `P`. -/
def RunS (P : Prop) (f : M) : Prop := ∀ es, ∃ b x, f es = some (b, es ++ x) ∧ (b = true ↔ P) ∧ (x = [] ↔ P)

theorem RunS.run {P : Prop} {f : M} (h : RunS P f) : Run P f := by
  intro es; obtain ⟨b, x, h1, h2, h3⟩ := h es; exact ⟨b, x, h1, h2.2, h3⟩

theorem Run.congr {P Q : Prop} {f : M} (h : Run P f) (e : P ↔ Q) : Run Q f := by rwa [propext e] at h

theorem RunS.congr {P Q : Prop} {f : M} (h : RunS P f) (e : P ↔ Q) : RunS Q f := by rwa [propext e] at h

theorem run_fail {P : Prop} (p r : Bytes) (h : ¬ P) : RunS P (fail p r) := by
  intro es; exact ⟨false, [⟨p, r⟩], rfl, by simp [h], by simp [h]⟩

theorem run_pass {P : Prop} (h : P) : RunS P pass := by
  intro es; exact ⟨true, [], by simp [pass], by simp [h], by simp [h]⟩

theorem run_both {P Q : Prop} {f g : M} (hf : Run P f) (hg : Run Q g) : Run (P ∧ Q) (both f g) := by
  intro es
  obtain ⟨b, x, h1, h2, h3⟩ := hf es
  obtain ⟨c, y, k1, k2, k3⟩ := hg (es ++ x)
  refine ⟨b && c, x ++ y, ?_, ?_, ?_⟩
  · simp only [both, h1, k1, List.append_assoc]
  · rintro ⟨p, q⟩; simp [h2 p, k2 q]
  · simp [h3, k3]

theorem run_andThen {P Q : Prop} {f g : M} (hf : Run P f) (hg : Run Q g) : Run (P ∧ Q) (andThen f g) := by
  intro es
  obtain ⟨b, x, h1, h2, h3⟩ := hf es
  cases b with
  | false =>
    have hp : ¬ P := fun p => by simpa using h2 p
    refine ⟨false, x, ?_, ?_, ?_⟩
    · simp only [andThen, h1]
    · rintro ⟨p, _⟩; exact absurd p hp
    · rw [h3]; exact ⟨fun p => absurd p hp, fun h => h.1⟩
  | true =>
    obtain ⟨c, y, k1, k2, k3⟩ := hg (es ++ x)
    refine ⟨c, x ++ y, ?_, ?_, ?_⟩
    · simp only [andThen, h1, k1, List.append_assoc]
    · rintro ⟨_, q⟩; exact k2 q
    · simp [h3, k3]

theorem run_each {α : Type} {P : α → Prop} {f : α → M} {xs : List α} (h : ∀ x ∈ xs, Run (P x) (f x)) :
    Run (∀ x ∈ xs, P x) (each f xs) := by
  induction xs with
  | nil => exact (run_pass (by simp)).run
  | cons a as ih =>
    have := run_both (h a (List.mem_cons_self)) (ih (fun x hx => h x (List.mem_cons_of_mem _ hx)))
    exact this.congr (by simp)

theorem run_ite {c : Prop} [Decidable c] (p r : Bytes) : RunS c (if c then pass else fail p r) := by
  by_cases h : c
  · rw [if_pos h]; exact run_pass h
  · rw [if_neg h]; exact run_fail _ _ h

/-! ### Types -/

theorem dataType_some {t : Bytes} {dt : DataType} (h : dataType t = some dt) (v : Json) : typeCheck dt v = true ↔ HasType t v := by
  unfold dataType at h
  repeat' split at h
  all_goals first
    | (cases h; subst_vars; constructor
       · intro hc; cases v <;> first | constructor | simp [typeCheck] at hc
       · intro hc; cases hc <;> rfl)
    | cases h

theorem hasType_name {t : Bytes} {v : Json} (h : HasType t v) : t ∈ typeNames := by
  cases h <;> simp [typeNames]

theorem dataType_none {t : Bytes} : dataType t = none ↔ t ∉ typeNames := by
  unfold dataType typeNames
  repeat' split
  all_goals simp_all

theorem typeList_none {ts : List Json} : typeList ts = none ↔ ¬ ∀ x ∈ ts, ∃ n ∈ typeNames, x = .str n := by
  induction ts with
  | nil => simp [typeList]
  | cons a as ih =>
    cases a with
    | str t =>
      simp only [typeList]
      cases hd : dataType t with
      | none =>
        have := dataType_none.1 hd
        simp only [true_iff]
        intro h
        obtain ⟨n, hn, e⟩ := h _ List.mem_cons_self
        cases e; exact this hn
      | some dt =>
        have hn : t ∈ typeNames := Classical.byContradiction fun h => by simp [dataType_none.2 h] at hd
        cases hl : typeList as with
        | none =>
          simp only [true_iff]
          intro h
          exact (ih.1 hl) fun x hx => h x (List.mem_cons_of_mem _ hx)
        | some dts =>
          simp only [reduceCtorEq, false_iff, Classical.not_not]
          intro x hx
          rcases List.mem_cons.1 hx with rfl | hx
          · exact ⟨t, hn, rfl⟩
          · exact Classical.byContradiction fun h => by
              have : typeList as = none := ih.2 fun hh => h (hh x hx)
              simp [hl] at this
    | _ =>
      simp only [typeList, true_iff]
      intro h
      obtain ⟨n, _, e⟩ := h _ List.mem_cons_self
      cases e

theorem typeList_some {ts : List Json} {dts : List DataType} (h : typeList ts = some dts) (v : Json) :
    dts.any (fun dt => typeCheck dt v) = true ↔ ∃ n, .str n ∈ ts ∧ HasType n v := by
  induction ts generalizing dts with
  | nil => simp [typeList] at h; subst h; simp
  | cons a as ih =>
    cases a with
    | str t =>
      simp only [typeList] at h
      cases hd : dataType t with
      | none => rw [hd] at h; cases h
      | some dt =>
        rw [hd] at h
        cases hl : typeList as with
        | none => rw [hl] at h; cases h
        | some ds =>
          rw [hl] at h; cases h
          rw [List.any_cons, Bool.or_eq_true, dataType_some hd, ih hl]
          constructor
          · rintro (h | ⟨n, h1, h2⟩)
            · exact ⟨t, List.mem_cons_self, h⟩
            · exact ⟨n, List.mem_cons_of_mem _ h1, h2⟩
          · rintro ⟨n, h1, h2⟩
            rcases List.mem_cons.1 h1 with e | h1
            · cases e; exact .inl h2
            · exact .inr ⟨n, h1, h2⟩
    | _ => simp [typeList] at h

theorem run_type (v t : Json) (path : Bytes) : Run (TypeOk t v) (validateType v t path) := by
  cases t with
  | str t =>
    simp only [validateType]
    cases hd : dataType t with
    | none =>
      refine (run_fail _ _ ?_).run
      rintro (⟨n, e, h⟩ | ⟨ts, e, _⟩)
      · cases e; exact dataType_none.1 hd (hasType_name h)
      · cases e
    | some dt =>
      refine (run_ite _ _).run.congr ?_
      rw [dataType_some hd]
      constructor
      · exact fun h => .inl ⟨t, rfl, h⟩
      · rintro (⟨n, e, h⟩ | ⟨ts, e, _⟩)
        · cases e; exact h
        · cases e
  | arr ts =>
    simp only [validateType]
    cases hl : typeList ts with
    | none =>
      refine (run_fail _ _ ?_).run
      rintro (⟨n, e, h⟩ | ⟨ts, e, h, _⟩)
      · cases e
      · cases e; exact typeList_none.1 hl h
    | some dts =>
      refine (run_ite _ _).run.congr ?_
      rw [typeList_some hl]
      have hall : ∀ x ∈ ts, ∃ n ∈ typeNames, x = Json.str n :=
        Classical.byContradiction fun h => by simp [typeList_none.2 h] at hl
      constructor
      · exact fun h => .inr ⟨ts, rfl, hall, h⟩
      · rintro (⟨n, e, h⟩ | ⟨ts, e, _, h⟩)
        · cases e
        · cases e; exact h
  | _ =>
    refine (run_fail _ _ ?_).run
    rintro (⟨n, e, h⟩ | ⟨ts, e, _⟩) <;> cases e

/-! ### Rules -/

theorem forall_append {α : Type} {p : α → Prop} {xs ys : List α} :
    (∀ x ∈ xs ++ ys, p x) ↔ (∀ x ∈ xs, p x) ∧ ∀ x ∈ ys, p x := by
  simp only [List.mem_append]
  exact ⟨fun h => ⟨fun x hx => h x (.inl hx), fun x hx => h x (.inr hx)⟩, fun h x hx => hx.elim (h.1 x) (h.2 x)⟩

theorem bound_iff (E : Env) (m : List (Bytes × Json)) (key : Bytes) (mk : Nat → Rule) (v : Json) :
    (∀ r ∈ bound m key mk, r.check E v = true) ↔ ∀ n, Bound m key n → (mk n).check E v = true := by
  unfold bound Bound
  cases hg : get m key with
  | none => simp
  | some x =>
    simp only [Option.some.injEq, exists_eq_left']
    cases hl : toLongLong x with
    | none => simp
    | some z =>
      simp only [Option.some.injEq]
      by_cases hz : z ≥ 0
      · rw [if_pos hz]
        simp only [List.mem_singleton, forall_eq]
        constructor
        · intro h n hn; subst hn; simpa using h
        · intro h; exact h _ (by omega)
      · rw [if_neg hz]
        simp only [List.not_mem_nil, false_implies, implies_true, true_iff]
        intro n hn; omega

def flag (m : List (Bytes × Json)) (key : Bytes) : Bool :=
  match get m key with
  | some (.bool true) => true
  | _ => false

theorem flag_iff (m : List (Bytes × Json)) (key : Bytes) : flag m key = true ↔ get m key = some (.bool true) := by
  unfold flag
  split
  · simp [*]
  · rename_i h; simp only [Bool.false_eq_true, false_iff]; exact h

theorem limit_iff (E : Env) (m : List (Bytes × Json)) (key exKey : Bytes) (mk : Rat → Bool → Rule) (v : Json)
    (hw : ∀ x, get m exKey = some x → ∃ b, x = .bool b) :
    ∃ rs, limitRules m key exKey mk = some rs ∧
      ((∀ r ∈ rs, r.check E v = true) ↔ ∀ x q, get m key = some x → toDouble x = some q → (mk q (flag m exKey)).check E v = true) := by
  unfold limitRules flag
  cases hg : get m key with
  | none => exact ⟨[], rfl, by simp⟩
  | some x =>
    simp only
    cases hd : toDouble x with
    | none => exact ⟨[], rfl, fun _ y q e hq => by cases e; simp [hd] at hq, fun _ r hr => by simp at hr⟩
    | some q =>
      have key : ∀ b, (∀ r ∈ [mk q b], r.check E v = true) ↔ ∀ x_1 q', some x = some x_1 → toDouble x_1 = some q' → (mk q' b).check E v = true := by
        intro b
        constructor
        · intro h y q' e hq
          cases e; rw [hd] at hq; cases hq
          exact h _ (by simp)
        · intro h r hr
          rw [List.mem_singleton] at hr; subst hr
          exact h x q rfl hd
      simp only
      cases hx : get m exKey with
      | none => exact ⟨_, rfl, key _⟩
      | some y =>
        obtain ⟨b, rfl⟩ := hw y hx
        cases b <;> exact ⟨_, rfl, key _⟩

theorem pattern_iff (E : Env) (m : List (Bytes × Json)) (v : Json)
    (hw : ∀ p, get m b!"pattern" = some (.str p) → p.length ≤ 1024 ∧ E.compiles p = true) :
    ∃ rs, patternRules E m = some rs ∧
      ((∀ r ∈ rs, r.check E v = true) ↔ ∀ p, get m b!"pattern" = some (.str p) → (Rule.pattern p).check E v = true) := by
  unfold patternRules
  split
  · rename_i p hp
    obtain ⟨h1, h2⟩ := hw p hp
    rw [if_neg (by omega), if_pos h2]
    exact ⟨_, rfl, by simp [hp]⟩
  · rename_i h
    exact ⟨[], rfl, by simpa using fun p hp => absurd hp (h p)⟩

theorem unique_iff (E : Env) (seen xs : List Json) : uniqueLoop E seen xs = true ↔
    (∀ y ∈ seen, ∀ x ∈ xs, ¬ (E.hash y = E.hash x ∧ y.eq x = true)) ∧
      xs.Pairwise (fun x y => ¬ (E.hash x = E.hash y ∧ x.eq y = true)) := by
  induction xs generalizing seen with
  | nil => simp [uniqueLoop]
  | cons a as ih =>
    simp only [uniqueLoop]
    by_cases h : seen.any (fun y => E.hash y == E.hash a && y.eq a) = true
    · rw [if_pos h]
      simp only [Bool.false_eq_true, false_iff]
      rintro ⟨h1, -⟩
      obtain ⟨y, hy, he⟩ := List.any_eq_true.1 h
      rw [Bool.and_eq_true, beq_iff_eq] at he
      exact h1 y hy a List.mem_cons_self he
    · rw [if_neg h, ih]
      have hn : ∀ y ∈ seen, ¬ (E.hash y = E.hash a ∧ y.eq a = true) := by
        intro y hy he
        exact h (List.any_eq_true.2 ⟨y, hy, by simp [he.1, he.2]⟩)
      rw [List.pairwise_cons]
      constructor
      · rintro ⟨h1, h2⟩
        refine ⟨fun y hy x hx => ?_, fun x hx => h1 a List.mem_cons_self x hx, h2⟩
        rcases List.mem_cons.1 hx with rfl | hx
        · exact hn y hy
        · exact h1 y (List.mem_cons_of_mem _ hy) x hx
      · rintro ⟨h1, h2, h3⟩
        refine ⟨fun y hy x hx => ?_, h3⟩
        rcases List.mem_cons.1 hy with rfl | hy
        · exact h2 x hx
        · exact h1 y hy x (List.mem_cons_of_mem _ hx)

theorem rat_not_lt {a b : Rat} : (!decide (a < b)) = true ↔ b ≤ a := by
  rw [Bool.not_eq_true', decide_eq_false_iff_not, Rat.not_lt]

theorem rat_not_le {a b : Rat} : (!decide (a ≤ b)) = true ↔ b < a := by
  rw [Bool.not_eq_true', decide_eq_false_iff_not, Rat.not_le]

theorem min_check (E : Env) (q : Rat) (b : Bool) (v : Json) : (Rule.minimum q b).check E v = true ↔
    ∀ y, toDouble v = some y → q ≤ y ∧ (b = true → q < y) := by
  have hs : (Rule.minimum q b).check E v = (match toDouble v with
    | none => true
    | some x => if b then !decide (x ≤ q) else !decide (x < q)) := by cases v <;> rfl
  rw [hs]
  cases hd : toDouble v with
  | none => simp
  | some x =>
    simp only [Option.some.injEq, forall_eq']
    cases b with
    | false => simp only [Bool.false_eq_true, if_false, false_implies, and_true]; exact rat_not_lt
    | true => simp only [if_true, true_implies]; rw [rat_not_le]; exact ⟨fun h => ⟨Rat.le_of_lt h, h⟩, fun h => h.2⟩

theorem max_check (E : Env) (q : Rat) (b : Bool) (v : Json) : (Rule.maximum q b).check E v = true ↔
    ∀ y, toDouble v = some y → y ≤ q ∧ (b = true → y < q) := by
  have hs : (Rule.maximum q b).check E v = (match toDouble v with
    | none => true
    | some x => if b then !decide (q ≤ x) else !decide (q < x)) := by cases v <;> rfl
  rw [hs]
  cases hd : toDouble v with
  | none => simp
  | some x =>
    simp only [Option.some.injEq, forall_eq']
    cases b with
    | false => simp only [Bool.false_eq_true, if_false, false_implies, and_true]; exact rat_not_lt
    | true => simp only [if_true, true_implies]; rw [rat_not_le]; exact ⟨fun h => ⟨Rat.le_of_lt h, h⟩, fun h => h.2⟩

theorem enum_iff (E : Env) (m : List (Bytes × Json)) (v : Json) :
    (∀ r ∈ enumRules m, r.check E v = true) ↔ ∀ vs, get m b!"enum" = some (.arr vs) → ∃ a ∈ vs, v.eq a = true := by
  unfold enumRules
  split
  · rename_i vs h
    have hs : (Rule.enum vs).check E v = vs.any (fun a => v.eq a) := by cases v <;> rfl
    simp only [List.mem_singleton, forall_eq, hs, List.any_eq_true, h, Option.some.injEq, Json.arr.injEq, forall_eq']
  · rename_i h; simpa using fun vs hv => absurd hv (h vs)

theorem uniq_iff (E : Env) (m : List (Bytes × Json)) (v : Json) :
    (∀ r ∈ uniqueRules m, r.check E v = true) ↔ ∀ xs, get m b!"uniqueItems" = some (.bool true) → v = .arr xs →
    xs.Pairwise (fun x y => ¬ (E.hash x = E.hash y ∧ x.eq y = true)) := by
  unfold uniqueRules
  split
  · rename_i h
    simp only [List.mem_singleton, forall_eq, h, true_implies]
    cases v with
    | arr xs =>
      have := unique_iff E [] xs
      simp only [List.not_mem_nil, false_implies, implies_true, true_and] at this
      simp only [Json.arr.injEq, forall_eq']
      exact this
    | _ => simp [Rule.check]
  · rename_i h
    simp only [List.not_mem_nil, false_implies, implies_true, true_iff]
    intro xs hx; exact absurd hx h

theorem minLength_check (E : Env) (n : Nat) (v : Json) : (Rule.minLength n).check E v = true ↔
    (∀ s, v = .str s → n ≤ s.length) ∧ (∀ xs, v = .arr xs → n ≤ xs.length) := by cases v <;> simp [Rule.check]
theorem maxLength_check (E : Env) (n : Nat) (v : Json) : (Rule.maxLength n).check E v = true ↔
    (∀ s, v = .str s → s.length ≤ n) ∧ (∀ xs, v = .arr xs → xs.length ≤ n) := by cases v <;> simp [Rule.check]
theorem pattern_check (E : Env) (p : Bytes) (v : Json) : (Rule.pattern p).check E v = true ↔
    (∀ s, v = .str s → s.length ≤ 2048 ∧ E.isMatch p s = some true) := by cases v <;> simp [Rule.check]
theorem minItems_check (E : Env) (n : Nat) (v : Json) : (Rule.minItems n).check E v = true ↔
    (∀ xs, v = .arr xs → n ≤ xs.length) := by cases v <;> simp [Rule.check]
theorem maxItems_check (E : Env) (n : Nat) (v : Json) : (Rule.maxItems n).check E v = true ↔
    (∀ xs, v = .arr xs → xs.length ≤ n) := by cases v <;> simp [Rule.check]
theorem minProperties_check (E : Env) (n : Nat) (v : Json) : (Rule.minProperties n).check E v = true ↔
    (∀ xs, v = .obj xs → n ≤ xs.length) := by cases v <;> simp [Rule.check]
theorem maxProperties_check (E : Env) (n : Nat) (v : Json) : (Rule.maxProperties n).check E v = true ↔
    (∀ xs, v = .obj xs → xs.length ≤ n) := by cases v <;> simp [Rule.check]

theorem rules_iff (E : Env) (m : List (Bytes × Json)) (v : Json)
    (hp : ∀ p, get m b!"pattern" = some (.str p) → p.length ≤ 1024 ∧ E.compiles p = true)
    (hmin : ∀ x, get m b!"exclusiveMinimum" = some x → ∃ b, x = .bool b)
    (hmax : ∀ x, get m b!"exclusiveMaximum" = some x → ∃ b, x = .bool b) :
    ∃ rs, buildRules E m = some rs ∧ ((∀ r ∈ rs, r.check E v = true) ↔ RulesOk E m v) := by
  obtain ⟨ps, ep, ip⟩ := pattern_iff E m v hp
  obtain ⟨mins, emin, imin⟩ := limit_iff E m b!"minimum" b!"exclusiveMinimum" .minimum v hmin
  obtain ⟨maxs, emax, imax⟩ := limit_iff E m b!"maximum" b!"exclusiveMaximum" .maximum v hmax
  refine ⟨_, by unfold buildRules; rw [ep, emin, emax], ?_⟩
  simp only [forall_append, bound_iff, ip, imin, imax, enum_iff, uniq_iff, min_check, max_check, flag_iff, minLength_check,
    maxLength_check, pattern_check, minItems_check, maxItems_check, minProperties_check, maxProperties_check]
  constructor
  · rintro ⟨⟨⟨⟨⟨⟨⟨⟨⟨⟨a1, a2⟩, a3⟩, a4⟩, a5⟩, a6⟩, a7⟩, a8⟩, a9⟩, a10⟩, a11⟩
    exact ⟨a1, a2, fun p s hg => a3 p hg s, fun x q y h1 h2 h3 => a4 x q h1 h2 y h3, fun x q y h1 h2 h3 => a5 x q h1 h2 y h3, a6,
      fun n xs hn => a7 n hn xs, fun n xs hn => a8 n hn xs, a9, fun n xs hn => a10 n hn xs, fun n xs hn => a11 n hn xs⟩
  · intro h
    exact ⟨⟨⟨⟨⟨⟨⟨⟨⟨⟨h.minLength, h.maxLength⟩, fun p hg s => h.pattern p s hg⟩, fun x q h1 h2 y h3 => h.minimum x q y h1 h2 h3⟩,
      fun x q h1 h2 y h3 => h.maximum x q y h1 h2 h3⟩, h.enum⟩, fun n hn xs => h.minItems n xs hn⟩, fun n hn xs => h.maxItems n xs hn⟩,
      h.uniqueItems⟩, fun n hn xs => h.minProperties n xs hn⟩, fun n hn xs => h.maxProperties n xs hn⟩

theorem run_rules (E : Env) (m : List (Bytes × Json)) (v : Json) (path : Bytes)
    (hp : ∀ p, get m b!"pattern" = some (.str p) → p.length ≤ 1024 ∧ E.compiles p = true)
    (hmin : ∀ x, get m b!"exclusiveMinimum" = some x → ∃ b, x = .bool b)
    (hmax : ∀ x, get m b!"exclusiveMaximum" = some x → ∃ b, x = .bool b) :
    Run (RulesOk E m v) (applyRules E v m path) := by
  obtain ⟨rs, e, i⟩ := rules_iff E m v hp hmin hmax
  unfold applyRules
  rw [e]
  exact (run_each fun r _ => (run_ite _ _).run).congr i

end Verif.Valid
