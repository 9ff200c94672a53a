import Verif.Valid.LemmasLevel

/-! C144, C145: the JSON schema validator. -/

namespace Verif.Valid

theorem accepts_mono (E : Env) {V V' : Json → Json → Prop} {v S : Json} (h : ∀ v s, Inner S s → (V v s ↔ V' v s))
    (ha : Accepts E V v S) : Accepts E V' v S := by
  obtain ⟨m, rfl, h1, h2, h3, h4, h5⟩ := ha
  refine ⟨m, rfl, h1, h2, ?_, ?_, ?_⟩
  · intro vm hv
    have o := h3 vm hv
    refine ⟨?_, o.required, ?_, ?_⟩
    · intro p hp
      obtain ⟨ps, rfl, hk⟩ := o.properties p hp
      exact ⟨ps, rfl, fun k sub x hm hx => (h _ _ ((inner_get hp).trans (inner_member hm))).1 (hk k sub x hm hx)⟩
    · intro ap k x hg hm hd
      rcases o.additional ap k x hg hm hd with e | ⟨am, rfl, hV⟩
      · exact .inl e
      · exact .inr ⟨am, rfl, (h _ _ (inner_get hg)).1 hV⟩
    · exact fun pm k x hg hm => (h _ _ (inner_get hg)).1 (o.names pm k x hg hm)
  · intro xs hv
    have o := h4 xs hv
    refine ⟨o.kind, ?_, ?_, ?_⟩
    · exact fun im x hg hx => (h _ _ (inner_get hg)).1 (o.single im x hg hx)
    · exact fun subs i x sub hg hx hs => (h _ _ ((inner_get hg).trans (inner_item (List.mem_of_getElem? hs)))).1 (o.tuple subs i x sub hg hx hs)
    · intro subs i x hg hx hs
      obtain ⟨a, b⟩ := o.beyond subs i x hg hx hs
      exact ⟨a, fun am ham => (h _ _ (inner_get ham)).1 (b am ham)⟩
  · refine ⟨?_, ?_, ?_, ?_⟩
    · intro x hg
      obtain ⟨subs, hs, hV⟩ := h5.allOf x hg
      have hx := hs.1; subst hx
      exact ⟨subs, hs, fun s hm => (h _ _ ((inner_get hg).trans (inner_item hm))).1 (hV s hm)⟩
    · intro x hg
      obtain ⟨subs, hs, s, hm, hV⟩ := h5.anyOf x hg
      have hx := hs.1; subst hx
      exact ⟨subs, hs, s, hm, (h _ _ ((inner_get hg).trans (inner_item hm))).1 hV⟩
    · intro x hg
      obtain ⟨subs, hs, l, s, r, e, hV, hn⟩ := h5.oneOf x hg
      have hx := hs.1; subst hx
      have hin : ∀ t ∈ l ++ s :: r, Inner (.obj m) t := fun t ht => (inner_get hg).trans (inner_item (e ▸ ht))
      refine ⟨subs, hs, l, s, r, e, (h _ _ (hin s (by simp))).1 hV, fun t ht hV' => hn t ht ((h _ _ (hin t ?_)).2 hV')⟩
      simp only [List.mem_append, List.mem_cons] at ht ⊢
      rcases ht with ht | ht
      · exact .inl ht
      · exact .inr (.inr ht)
    · intro x hg
      obtain ⟨ho, hn⟩ := h5.not x hg
      exact ⟨ho, fun hV => hn ((h _ _ (inner_get hg)).2 hV)⟩

/-- The meaning of schemas nested less than `n` deep. -/
def meaning (E : Env) : Nat → Json → Json → Prop
  | 0 => fun _ _ => False
  | n + 1 => fun v s => Accepts E (meaning E n) v s

theorem meaning_stable (E : Env) : ∀ n k v s, s.height < n → s.height < k → (meaning E n v s ↔ meaning E k v s) := by
  intro n
  induction n with
  | zero => intro k v s h; omega
  | succ n ih =>
    intro k v s h1 h2
    cases k with
    | zero => omega
    | succ k =>
      constructor
      · exact accepts_mono E fun v' s' hi => ih k v' s' (by have := hi.2; omega) (by have := hi.2; omega)
      · exact accepts_mono E fun v' s' hi => (ih k v' s' (by have := hi.2; omega) (by have := hi.2; omega)).symm

/-- C144: schemas have a meaning: there is a notion of validity for which a value is valid exactly if it
meets every keyword ... -/
theorem C144_meaning_exists (E : Env) : ∃ V, Semantics E V := by
  refine ⟨fun v s => meaning E (s.height + 1) v s, fun v s => ?_⟩
  have h : ∀ v' s', Inner s s' → (meaning E (s.height) v' s' ↔ meaning E (s'.height + 1) v' s') :=
    fun v' s' hi => meaning_stable E _ _ v' s' hi.2 (by omega)
  exact ⟨accepts_mono E h, accepts_mono E fun v' s' hi => (h v' s' hi).symm⟩

/-- ... and only one. -/
theorem C144_meaning_unique (E : Env) (V V' : Json → Json → Prop) (h : Semantics E V) (h' : Semantics E V') (v s : Json) :
    V v s ↔ V' v s := by
  suffices ∀ n v s, s.height < n → (V v s ↔ V' v s) from this _ v s (Nat.lt_succ_self _)
  intro n
  induction n with
  | zero => intro v s hs; omega
  | succ n ih =>
    intro v s hs
    have hi : ∀ v' s', Inner s s' → (V v' s' ↔ V' v' s') := fun v' s' hi => ih v' s' (by have := hi.2; omega)
    rw [h v s, h' v s]
    exact ⟨accepts_mono E hi, accepts_mono E fun v' s' hi' => (hi v' s' hi').symm⟩

theorem rec_right (E : Env) (V : Json → Json → Prop) (hV : Semantics E V) : ∀ fuel d v s path, s.height < fuel → d + s.height ≤ 64 →
    WellFormed E s → RunS (V v s) (validateRec E fuel d v s path) := by
  intro fuel
  induction fuel with
  | zero => intro d v s path h; omega
  | succ fuel ih =>
    intro d v s path h hd hw
    have hno : (∀ m, s ≠ .obj m) → ¬ V v s := by
      intro hs hv
      obtain ⟨m, e, _⟩ := (hV v s).1 hv
      exact hs m e
    have hbad : (∀ m, s ≠ .obj m) → RunS (V v s) (level E (validateRec E fuel) d v s path) := by
      intro hs
      unfold level
      split
      · exact run_fail _ _ (hno hs)
      · split
        · rename_i m; exact absurd rfl (hs m)
        · exact run_fail _ _ (hno hs)
    show RunS (V v s) (level E (validateRec E fuel) d v s path)
    cases s with
    | obj m =>
      have hh : 1 ≤ (Json.obj m).height := by simp only [Json.height]; omega
      have hsub : ∀ s', Inner (.obj m) s' → WellFormed E s' := fun s' hi m' hm => hw m' (hm.trans hi.1)
      refine RunS.congr (run_level E (V := V) ?_ ?_ v path (by omega) hw) (hV v _).symm
      · exact fun v' s' p' hi => ih (d + 1) v' s' p' (by have := hi.2; omega) (by have := hi.2; omega) (hsub s' hi)
      · exact fun v' s' p' hi => ih 0 v' s' p' (by have := hi.2; omega) (by have := hi.2; omega) (hsub s' hi)
    | _ => exact hbad (by simp)

/-- C144: for every schema that is well formed and nested at most 64 deep, the validator says of every value
whether it is valid, and does not throw. -/
theorem C144_exact (E : Env) (V : Json → Json → Prop) (hV : Semantics E V) (v s : Json) (hw : WellFormed E s) (hs : s.height ≤ 64) :
    ∃ ok errors, validate E v s = some (ok, errors) ∧ (ok = true ↔ V v s) ∧ (errors = [] ↔ V v s) := by
  obtain ⟨b, x, h1, h2, h3⟩ := rec_right E V hV (s.height + 1) 0 v s [] (by omega) (by omega) hw []
  exact ⟨b, x, by simpa [validate] using h1, h2, h3⟩

/-! ### The verdict and the errors, for every schema -/

/-- `f` only adds errors, and returns true if it adds none. -/
def Adds (f : M) : Prop := ∀ es b es', f es = some (b, es') → ∃ x, es' = es ++ x ∧ (x = [] → b = true)

theorem adds_fail (p r : Bytes) : Adds (fail p r) := by
  intro es b es' h; cases h; exact ⟨_, rfl, by simp⟩

theorem adds_pass : Adds pass := by
  intro es b es' h; cases h; exact ⟨[], by simp, fun _ => rfl⟩

theorem adds_none : Adds (fun _ => none) := by intro es b es' h; cases h

theorem adds_both {f g : M} (hf : Adds f) (hg : Adds g) : Adds (both f g) := by
  intro es b es' h
  simp only [both] at h
  cases h1 : f es with
  | none => rw [h1] at h; cases h
  | some r =>
    obtain ⟨b1, es1⟩ := r
    rw [h1] at h; simp only at h
    cases h2 : g es1 with
    | none => rw [h2] at h; cases h
    | some r =>
      obtain ⟨b2, es2⟩ := r
      rw [h2] at h; cases h
      obtain ⟨x, rfl, hx⟩ := hf _ _ _ h1
      obtain ⟨y, rfl, hy⟩ := hg _ _ _ h2
      refine ⟨x ++ y, by simp, fun h => ?_⟩
      rw [List.append_eq_nil_iff] at h
      simp [hx h.1, hy h.2]

theorem adds_andThen {f g : M} (hf : Adds f) (hg : Adds g) : Adds (andThen f g) := by
  intro es b es' h
  simp only [andThen] at h
  cases h1 : f es with
  | none => rw [h1] at h; cases h
  | some r =>
    obtain ⟨b1, es1⟩ := r
    obtain ⟨x, rfl, hx⟩ := hf _ _ _ h1
    rw [h1] at h
    cases b1 with
    | false => cases h; exact ⟨x, rfl, hx⟩
    | true =>
      obtain ⟨y, rfl, hy⟩ := hg _ _ _ h
      refine ⟨x ++ y, by simp, fun h => ?_⟩
      rw [List.append_eq_nil_iff] at h
      exact hy h.2

theorem adds_each {α : Type} {f : α → M} {xs : List α} (h : ∀ x ∈ xs, Adds (f x)) : Adds (each f xs) := by
  induction xs with
  | nil => exact adds_pass
  | cons a as ih => exact adds_both (h a List.mem_cons_self) (ih fun x hx => h x (List.mem_cons_of_mem _ hx))

theorem adds_ifHas {m : List (Bytes × Json)} {key : Bytes} {f : Json → M} (h : ∀ a, Adds (f a)) : Adds (ifHas m key f) := by
  unfold ifHas
  split
  · exact h _
  · exact adds_pass

/-- The verdict is true exactly if no error is added. -/
def AddsS (f : M) : Prop := ∀ es b es', f es = some (b, es') → ∃ x, es' = es ++ x ∧ (b = true ↔ x = [])

theorem AddsS.adds {f : M} (h : AddsS f) : Adds f := by
  intro es b es' hf
  obtain ⟨x, h1, h2⟩ := h es b es' hf
  exact ⟨x, h1, h2.2⟩

theorem addsS_fail (p r : Bytes) : AddsS (fail p r) := by
  intro es b es' h; cases h; exact ⟨_, rfl, by simp⟩

theorem adds_fresh {g : M} (h : AddsS g) (f : Err → Err) :
    Adds (fun es => match g [] with
      | none => none
      | some (true, _) => some (true, es)
      | some (false, sub) => some (false, es ++ sub.map f)) := by
  intro es b es' hf
  simp only at hf
  cases h1 : g [] with
  | none => rw [h1] at hf; cases hf
  | some r =>
    obtain ⟨b1, sub⟩ := r
    rw [h1] at hf
    obtain ⟨x, e, hx⟩ := h _ _ _ h1
    rw [List.nil_append] at e; subst e
    cases b1 with
    | true => cases hf; exact ⟨[], by simp, fun _ => rfl⟩
    | false =>
      cases hf
      refine ⟨sub.map f, rfl, fun h => ?_⟩
      rw [List.map_eq_nil_iff] at h
      exact hx.2 h

theorem adds_type (v t : Json) (path : Bytes) : Adds (validateType v t path) := by
  unfold validateType
  repeat' split
  all_goals first | exact adds_fail _ _ | exact adds_pass

theorem adds_rules (E : Env) (v : Json) (m : List (Bytes × Json)) (path : Bytes) : Adds (applyRules E v m path) := by
  unfold applyRules
  split
  · exact adds_none
  · refine adds_each fun r _ => ?_
    split
    · exact adds_pass
    · exact adds_fail _ _

theorem adds_structural {rec : Rec} (h : ∀ d v s p, AddsS (rec d v s p)) (d : Nat) (v : Json) (m : List (Bytes × Json)) (path : Bytes) :
    Adds (structural rec d v m path) := by
  have hadd : ∀ defined ap vm, Adds (additionalLoop rec defined ap path vm) := by
    intro defined ap vm
    induction vm with
    | nil => exact adds_pass
    | cons p vm ih =>
      obtain ⟨k, x⟩ := p
      simp only [additionalLoop]
      split
      · exact ih
      · split
        · exact ih
        · exact adds_both (adds_fail _ _) ih
        · exact adds_both (adds_fresh (h 0 x _ []) _) ih
        · exact adds_fail _ _
  have hitems : ∀ sub i xs, Adds (itemsLoop rec d sub path i xs) := by
    intro sub i xs
    induction xs generalizing i with
    | nil => exact adds_pass
    | cons x xs ih => exact adds_both (h _ _ _ _).adds (ih _)
  have htuple : ∀ subs add i xs, Adds (tupleLoop rec d subs add path i xs) := by
    intro subs add i xs
    induction xs generalizing i with
    | nil => exact adds_pass
    | cons x xs ih =>
      simp only [tupleLoop]
      split
      · exact adds_both (h _ _ _ _).adds (ih _)
      · split
        · exact adds_fail _ _
        · exact adds_both (h _ _ _ _).adds (ih _)
        · exact ih _
  unfold structural
  split
  · unfold objectChecks
    refine adds_both (adds_both (adds_both ?_ ?_) ?_) ?_
    · refine adds_ifHas fun a => ?_
      unfold validateProperties
      split
      · refine adds_each fun p _ => ?_
        split
        · exact (h _ _ _ _).adds
        · exact adds_pass
      · exact adds_fail _ _
    · refine adds_ifHas fun a => ?_
      unfold validateRequired
      split
      · refine adds_each fun p _ => ?_
        split
        · split
          · exact adds_pass
          · exact adds_fail _ _
        · exact adds_fail _ _
      · exact adds_fail _ _
    · exact adds_ifHas fun a => hadd _ _ _
    · split
      · exact adds_each fun p _ => adds_fresh (h 0 (.str p.1) _ []) _
      · exact adds_pass
  · refine adds_ifHas fun a => ?_
    unfold validateItems
    split
    · exact hitems _ _ _
    · exact htuple _ _ _ _
    · exact adds_fail _ _
  · exact adds_pass

theorem adds_combinators {rec : Rec} (h : ∀ d v s p, AddsS (rec d v s p)) (d : Nat) (v : Json) (m : List (Bytes × Json)) (path : Bytes) :
    Adds (combinators rec d v m path) := by
  have hany : ∀ subs, Adds (anyLoop rec d v path subs) := by
    intro subs
    induction subs with
    | nil => exact adds_fail _ _
    | cons s subs ih =>
      intro es b es' hf
      simp only [anyLoop] at hf
      split at hf
      · cases hf
      · cases hf; exact ⟨[], by simp, fun _ => rfl⟩
      · exact ih es b es' hf
  have hone : ∀ subs n es k es', oneLoop rec d v path subs n es = some (k, es') → ∃ x, es' = es ++ x := by
    intro subs
    induction subs with
    | nil => intro n es k es' hf; cases hf; exact ⟨[], by simp⟩
    | cons s subs ih =>
      intro n es k es' hf
      simp only [oneLoop] at hf
      split at hf
      · split at hf
        · cases hf
        · exact ih _ _ _ _ hf
        · exact ih _ _ _ _ hf
      · obtain ⟨x, e⟩ := ih _ _ _ _ hf
        exact ⟨_, by rw [e, List.append_assoc]⟩
  refine adds_andThen (adds_andThen (adds_andThen ?_ ?_) ?_) ?_
  · refine adds_ifHas fun a => ?_
    unfold validateAllOf
    split
    · rename_i s subs
      have he : Adds (each (fun sub => if sub.isObj then rec d v sub path else fail path b!"schemaError.allOf.item") (s :: subs)) := by
        refine adds_each fun t _ => ?_
        split
        · exact (h _ _ _ _).adds
        · exact adds_fail _ _
      intro es b es' hf
      simp only at hf
      split at hf
      · cases hf
      · rename_i heq; cases hf; exact he _ _ _ heq
      · rename_i heq
        obtain ⟨x, e, -⟩ := he _ _ _ heq
        cases hf
        exact ⟨x ++ [⟨path, b!"allOf"⟩], by simp [e], by simp⟩
    · exact adds_fail _ _
  · refine adds_ifHas fun a => ?_
    unfold validateAnyOf
    split
    · split
      · exact hany _
      · exact adds_fail _ _
    · exact adds_fail _ _
  · refine adds_ifHas fun a => ?_
    unfold validateOneOf
    split
    · intro es b es' hf
      simp only at hf
      split at hf
      · cases hf
      · rename_i heq
        obtain ⟨x, e⟩ := hone _ _ _ _ _ heq
        split at hf
        · cases hf; exact ⟨x, e, fun _ => rfl⟩
        · cases hf; exact ⟨x ++ [⟨path, b!"oneOf"⟩], by simp [e], by simp⟩
    · exact adds_fail _ _
  · refine adds_ifHas fun a => ?_
    unfold validateNot
    split
    · intro es b es' hf
      simp only at hf
      split at hf
      · cases hf
      · exact adds_fail _ _ _ _ _ hf
      · cases hf; exact ⟨[], by simp, fun _ => rfl⟩
    · exact adds_fail _ _

theorem addsS_rec (E : Env) (fuel : Nat) : ∀ d v s p, AddsS (validateRec E fuel d v s p) := by
  induction fuel with
  | zero => intro d v s p es b es' h; cases h
  | succ fuel ih =>
    intro d v s p
    show AddsS (level E (validateRec E fuel) d v s p)
    unfold level
    split
    · exact addsS_fail _ _
    · split
      · rename_i m
        intro es b es' hf
        simp only at hf
        split at hf
        · cases hf
        · rename_i ok es1 heq
          have hb : Adds (both (checks E (validateRec E fuel) (d + 1) v m p) (combinators (validateRec E fuel) (d + 1) v m p)) :=
            adds_both (adds_andThen (adds_ifHas fun t => adds_type v t p) (adds_both (adds_rules E v m p) (adds_structural ih _ v m p)))
              (adds_combinators ih _ v m p)
          obtain ⟨x, rfl, hx⟩ := hb _ _ _ heq
          cases hf
          refine ⟨x, rfl, ?_⟩
          cases x with
          | nil => simp [hx rfl]
          | cons a as => simp
      · exact addsS_fail _ _

/-- C145: for every schema, well formed or not and however deep, and every value: if the validator returns,
it returns true exactly if it has reported no error. -/
theorem C145_verdict (E : Env) (v s : Json) (ok : Bool) (errors : List Err) (h : validate E v s = some (ok, errors)) :
    ok = true ↔ errors = [] := by
  obtain ⟨x, e, hx⟩ := addsS_rec E _ _ _ _ _ _ _ _ h
  rw [List.nil_append] at e; subst e; exact hx

/-! ### Examples -/

/-- No regular expressions; a hash that tells kinds of values apart. -/
def demoEnv : Env := ⟨fun p => p.length < 10, fun p s => some (p == s), fun v => match v with
  | .null => 0 | .bool _ => 1 | .int _ => 2 | .uint _ => 3 | .flt _ => 4 | .str _ => 5 | .arr _ => 6 | .obj _ => 7⟩

/-- `{"type":"object","required":["a"],"properties":{"a":{"type":"integer","minimum":3}},"additionalProperties":false}` -/
def demoSchema : Json := .obj [(b!"type", .str b!"object"), (b!"required", .arr [.str b!"a"]),
  (b!"properties", .obj [(b!"a", .obj [(b!"type", .str b!"integer"), (b!"minimum", .uint 3)])]),
  (b!"additionalProperties", .bool false)]

theorem demo_wf : WellFormed demoEnv demoSchema := by
  have h : ∀ x y, Within x y → y = demoSchema ∨ (∃ k, (k, y) ∈ [(b!"type", Json.str b!"object"), (b!"required", .arr [.str b!"a"]),
      (b!"properties", .obj [(b!"a", .obj [(b!"type", .str b!"integer"), (b!"minimum", .uint 3)])]),
      (b!"additionalProperties", .bool false)]) ∨ y = .str b!"a" ∨ y = .obj [(b!"type", .str b!"integer"), (b!"minimum", .uint 3)] ∨
      y = .str b!"integer" ∨ y = .uint 3 →
      ∀ m, x = .obj m → get m b!"pattern" = none ∧ get m b!"exclusiveMinimum" = none ∧ get m b!"exclusiveMaximum" = none := by
    intro x y hw
    induction hw with
    | self =>
      rintro hs m rfl
      simp only [demoSchema, List.mem_cons, Prod.mk.injEq, List.not_mem_nil, or_false] at hs
      rcases hs with e | ⟨k, hk⟩ | e | e | e | e
      · cases e; decide
      · rcases hk with ⟨_, e⟩ | ⟨_, e⟩ | ⟨_, e⟩ | ⟨_, e⟩ <;> cases e
        decide
      · cases e
      · cases e; decide
      · cases e
      · cases e
    | item y xs hy _ ih =>
      intro hs
      refine ih ?_
      simp only [demoSchema, List.mem_cons, Prod.mk.injEq, List.not_mem_nil, or_false] at hs
      rcases hs with e | ⟨k, hk⟩ | e | e | e | e
      · cases e
      · rcases hk with ⟨_, e⟩ | ⟨_, e⟩ | ⟨_, e⟩ | ⟨_, e⟩ <;> cases e
        rw [List.mem_singleton] at hy
        exact .inr (.inr (.inl hy))
      all_goals cases e
    | member y k m hy _ ih =>
      intro hs
      refine ih ?_
      simp only [demoSchema, List.mem_cons, Prod.mk.injEq, List.not_mem_nil, or_false] at hs
      rcases hs with e | ⟨k', hk⟩ | e | e | e | e
      · cases e; exact .inr (.inl ⟨k, hy⟩)
      · rcases hk with ⟨_, e⟩ | ⟨_, e⟩ | ⟨_, e⟩ | ⟨_, e⟩ <;> cases e
        rw [List.mem_singleton] at hy; cases hy
        exact .inr (.inr (.inr (.inl rfl)))
      · cases e
      · cases e
        simp only [List.mem_cons, Prod.mk.injEq, List.not_mem_nil, or_false] at hy
        rcases hy with ⟨_, e⟩ | ⟨_, e⟩
        · exact .inr (.inr (.inr (.inr (.inl e))))
        · exact .inr (.inr (.inr (.inr (.inr e))))
      · cases e
      · cases e
  intro m hm
  obtain ⟨h1, h2, h3⟩ := h _ _ hm (.inl rfl) m rfl
  simp [h1, h2, h3]

/-- C144, C145: a schema that meets the hypotheses, a value it accepts and one it rejects, with three errors. -/
theorem C144_example : WellFormed demoEnv demoSchema ∧ demoSchema.height ≤ 64 ∧
    validate demoEnv (.obj [(b!"a", .uint 4)]) demoSchema = some (true, []) ∧
    validate demoEnv (.obj [(b!"a", .uint 2), (b!"b", .null)]) demoSchema =
      some (false, [⟨b!"a", b!"minimum"⟩, ⟨b!"b", b!"additionalProperties"⟩]) ∧
    validate demoEnv (.obj []) demoSchema = some (false, [⟨b!"a", b!"required"⟩]) :=
  ⟨demo_wf, by decide, by rfl, by rfl, by rfl⟩

/-- A chain of `n` schemas, each the `not` of the next. -/
def nots : Nat → Json
  | 0 => .obj []
  | n + 1 => .obj [(b!"not", nots n)]

theorem not_iff (E : Env) (V : Json → Json → Prop) (hV : Semantics E V) (v s : Json) (hs : s.isObj = true) :
    V v (.obj [(b!"not", s)]) ↔ ¬ V v s := by
  have hg : ∀ k, k ≠ b!"not" → get [(b!"not", s)] k = none := fun k hk => by simp [get, Ne.symm hk]
  rw [hV]
  constructor
  · rintro ⟨m, e, -, -, -, -, h⟩
    cases e
    exact (h.not s (by simp [get])).2
  · intro h
    refine ⟨_, rfl, ?_, ?_, ?_, ?_, ?_⟩
    · intro t ht; rw [hg _ (by decide)] at ht; cases ht
    · constructor <;> intros <;> first
        | (rename_i hb; obtain ⟨_, hb, _⟩ := hb; rw [hg _ (by decide)] at hb; cases hb)
        | (rename_i hb _; obtain ⟨_, hb, _⟩ := hb; rw [hg _ (by decide)] at hb; cases hb)
        | (rename_i hb; rw [hg _ (by decide)] at hb; cases hb)
        | (rename_i hb _; rw [hg _ (by decide)] at hb; cases hb)
        | (rename_i hb _ _; rw [hg _ (by decide)] at hb; cases hb)
    · intro vm _
      constructor <;> intros <;> first
        | (rename_i hb; rw [hg _ (by decide)] at hb; cases hb)
        | (rename_i hb _; rw [hg _ (by decide)] at hb; cases hb)
        | (rename_i hb _ _; rw [hg _ (by decide)] at hb; cases hb)
    · intro xs _
      constructor <;> intros <;> first
        | (rename_i hb; rw [hg _ (by decide)] at hb; cases hb)
        | (rename_i hb _; rw [hg _ (by decide)] at hb; cases hb)
        | (rename_i hb _ _; rw [hg _ (by decide)] at hb; cases hb)
    · constructor
      · intro x hx; rw [hg _ (by decide)] at hx; cases hx
      · intro x hx; rw [hg _ (by decide)] at hx; cases hx
      · intro x hx; rw [hg _ (by decide)] at hx; cases hx
      · intro x hx; simp [get] at hx; subst hx; exact ⟨hs, h⟩

theorem nots_obj (n : Nat) : (nots n).isObj = true := by cases n <;> rfl

set_option maxRecDepth 8000 in
/-- C144: why the schema has to be at most 64 deep: where it is deeper the validator takes the schema to
reject, and a `not` around it to accept. `n` times `not` accepts iff `n` is even; the validator says so up to
63, rejects what 64 of them accept, and accepts what an `allOf` of 63 of them rejects. -/
theorem C144_too_deep (V : Json → Json → Prop) (hV : Semantics demoEnv V) :
    (∀ n, V .null (nots n) ↔ n % 2 = 0) ∧
    validate demoEnv .null (nots 62) = some (true, []) ∧ validate demoEnv .null (nots 63) = some (false, [⟨[], b!"not"⟩]) ∧
    validate demoEnv .null (nots 64) = some (false, [⟨[], b!"not"⟩]) ∧
    validate demoEnv .null (.obj [(b!"allOf", .arr [nots 63])]) = some (true, []) := by
  refine ⟨fun n => ?_, by rfl, by rfl, by rfl, by rfl⟩
  induction n with
  | zero =>
    obtain ⟨b, es, h1, h2, -⟩ := C144_exact demoEnv V hV .null (.obj []) (by
      intro m hm
      cases hm with
      | self => simp [get]
      | member y k m hy => cases hy) (by decide)
    have : validate demoEnv .null (.obj []) = some (true, []) := by rfl
    rw [this] at h1; cases h1
    simpa [nots] using h2
  | succ n ih =>
    rw [show nots (n + 1) = .obj [(b!"not", nots n)] from rfl, not_iff demoEnv V hV _ _ (nots_obj n), ih]
    omega

/-- C144: why it has to be well formed: an exclusive bound that is a number, as in the newer drafts of JSON
Schema, makes the validator throw. -/
theorem C144_exclusive_number_throws :
    validate demoEnv (.uint 5) (.obj [(b!"exclusiveMinimum", .uint 3), (b!"minimum", .uint 0)]) = none := by rfl

/-- C144: numbers are compared as doubles: 2^53 + 1 is within a maximum of 2^53. -/
theorem C144_large_integers :
    validate demoEnv (.uint (2 ^ 53 + 1)) (.obj [(b!"maximum", .uint (2 ^ 53))]) = some (true, []) ∧
    validate demoEnv (.uint (2 ^ 53 + 2)) (.obj [(b!"maximum", .uint (2 ^ 53))]) = some (false, [⟨[], b!"maximum"⟩]) := by
  constructor <;> rfl

/-- C144: 2^64 - 1 is one of the values of an enumeration whose only value is -1. -/
theorem C144_enum_wraps : validate demoEnv (.uint (2 ^ 64 - 1)) (.obj [(b!"enum", .arr [.int (-1)])]) = some (true, []) := by rfl

end Verif.Valid
