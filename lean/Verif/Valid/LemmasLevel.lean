import Verif.Valid.Lemmas

/-! One level of the validator does what `Accepts` says, if the levels below it do. -/

namespace Verif.Valid

theorem Within.trans {a b c : Json} (h : Within a b) (k : Within b c) : Within a c := by
  induction k with
  | self => exact h
  | item y xs hy _ ih => exact .item _ y xs hy ih
  | member y k m hy _ ih => exact .member _ y k m hy ih

/-- `x` is strictly inside `s`. -/
def Inner (s x : Json) : Prop := Within x s ∧ x.height < s.height

theorem inner_member {m : List (Bytes × Json)} {k : Bytes} {x : Json} (h : (k, x) ∈ m) : Inner (.obj m) x := by
  refine ⟨.member _ x k m h (.self x), ?_⟩
  have := height_of_member h
  simp only [Json.height]; omega

theorem inner_item {xs : List Json} {x : Json} (h : x ∈ xs) : Inner (.arr xs) x := by
  refine ⟨.item _ x xs h (.self x), ?_⟩
  have := height_of_mem h
  simp only [Json.height]; omega

theorem inner_get {m : List (Bytes × Json)} {k : Bytes} {x : Json} (h : get m k = some x) : Inner (.obj m) x := inner_member (mem_of_get h)

theorem Inner.trans {a b c : Json} (h : Inner a b) (k : Inner b c) : Inner a c := ⟨k.1.trans h.1, Nat.lt_trans k.2 h.2⟩

/-- The recursive function is right at depth `d` for the schemas inside `S`. -/
def Ok (V : Json → Json → Prop) (rec : Rec) (d : Nat) (S : Json) : Prop :=
  ∀ v s path, Inner S s → RunS (V v s) (rec d v s path)

variable {V : Json → Json → Prop} {rec : Rec} {d : Nat}

theorem run_required (vm : List (Bytes × Json)) (r : Json) (path : Bytes) :
    Run (∃ ks, r = .arr ks ∧ ∀ y ∈ ks, ∃ k x, y = .str k ∧ get vm k = some x) (validateRequired vm r path) := by
  cases r with
  | arr ks =>
    have hk : ∀ y ∈ ks, Run (∃ k x, y = Json.str k ∧ get vm k = some x) (match y with
        | .str k => if (get vm k).isSome then pass else fail (child path k) b!"required"
        | _ => fail path b!"schemaError.required") := by
      intro y _
      cases y with
      | str k =>
        refine (run_ite _ _).run.congr ?_
        rw [Option.isSome_iff_exists]
        constructor
        · rintro ⟨x, hx⟩; exact ⟨k, x, rfl, hx⟩
        · rintro ⟨k', x, e, hx⟩; cases e; exact ⟨x, hx⟩
      | _ => refine (run_fail _ _ ?_).run; rintro ⟨k, x, e, _⟩; cases e
    refine (run_each hk).congr ?_
    constructor
    · exact fun h => ⟨ks, rfl, h⟩
    · rintro ⟨ks', e, h⟩; cases e; exact h
  | _ => refine (run_fail _ _ ?_).run; rintro ⟨ks, e, _⟩; cases e

theorem run_properties {S p : Json} (ok : Ok V rec d S) (vm : List (Bytes × Json)) (path : Bytes) (hi : Inner S p) :
    Run (∃ ps, p = .obj ps ∧ ∀ k sub x, (k, sub) ∈ ps → get vm k = some x → V x sub) (validateProperties rec d vm p path) := by
  cases p with
  | obj ps =>
    have hk : ∀ q ∈ ps, Run (∀ x, get vm q.1 = some x → V x q.2) (match get vm q.1 with
        | some x => rec d x q.2 (child path q.1)
        | none => pass) := by
      intro q hq
      cases hg : get vm q.1 with
      | none => exact (run_pass (by simp)).run
      | some x =>
        refine (ok x q.2 _ (hi.trans (inner_member (k := q.1) hq))).run.congr ?_
        simp
    refine (run_each hk).congr ?_
    constructor
    · exact fun h => ⟨ps, rfl, fun k sub x hm hx => h (k, sub) hm x hx⟩
    · rintro ⟨ps', e, h⟩; cases e; exact fun q hq x hx => h q.1 q.2 x hq hx
  | _ => refine (run_fail _ _ ?_).run; rintro ⟨ks, e, _⟩; cases e

/-- What `additionalProperties` asks of the member `p`. -/
def AddOk (V : Json → Json → Prop) (defined : List Bytes) (ap : Json) (p : Bytes × Json) : Prop :=
  p.1 ∉ defined → ap = .bool true ∨ ∃ am, ap = .obj am ∧ V p.2 (.obj am)

/-- A fresh validator whose errors are added under other paths. -/
theorem run_fresh {P : Prop} {g : M} (h : RunS P g) (f : Err → Err) :
    Run P (fun es => match g [] with
      | none => none
      | some (true, _) => some (true, es)
      | some (false, sub) => some (false, es ++ sub.map f)) := by
  intro es
  obtain ⟨b, x, h1, h2, h3⟩ := h []
  cases b with
  | true => exact ⟨true, [], by simp [h1], fun _ => rfl, by simp [h2.1 rfl]⟩
  | false =>
    have hp : ¬ P := fun p => by simpa using h2.2 p
    refine ⟨false, x.map f, by simp [h1], fun p => absurd p hp, ?_⟩
    simp [h3]

theorem run_additional {S ap : Json} (ok : Ok V rec 0 S) (defined : List Bytes) (path : Bytes) (hi : Inner S ap)
    (vm : List (Bytes × Json)) : Run (∀ p ∈ vm, AddOk V defined ap p) (additionalLoop rec defined ap path vm) := by
  induction vm with
  | nil => exact (run_pass (by simp)).run
  | cons q vm ih =>
    obtain ⟨k, x⟩ := q
    have hc : (∀ p ∈ (k, x) :: vm, AddOk V defined ap p) ↔ AddOk V defined ap (k, x) ∧ ∀ p ∈ vm, AddOk V defined ap p := by simp
    simp only [additionalLoop]
    by_cases hk : k ∈ defined
    · rw [if_pos hk]
      refine ih.congr ?_
      rw [hc]
      exact ⟨fun h => ⟨fun h' => absurd hk h', h⟩, fun h => h.2⟩
    · rw [if_neg hk]
      cases ap with
      | bool b =>
        cases b with
        | true =>
          refine ih.congr ?_
          rw [hc]
          exact ⟨fun h => ⟨fun _ => .inl rfl, h⟩, fun h => h.2⟩
        | false =>
          refine (run_both (P := AddOk V defined (.bool false) (k, x)) (run_fail _ _ ?_).run ih).congr hc.symm
          intro h
          rcases h hk with e | ⟨am, e, _⟩ <;> cases e
      | obj m =>
        refine (run_both (P := AddOk V defined (.obj m) (k, x)) ?_ ih).congr hc.symm
        refine (run_fresh (ok x (.obj m) [] hi) _).congr ?_
        constructor
        · exact fun h _ => .inr ⟨m, rfl, h⟩
        · intro h
          rcases h hk with e | ⟨am, e, h⟩
          · cases e
          · cases e; exact h
      | _ =>
        refine (run_fail _ _ ?_).run
        intro h
        rcases h _ List.mem_cons_self hk with e | ⟨am, e, _⟩ <;> cases e

theorem mem_defined (m : List (Bytes × Json)) (k : Bytes) :
    k ∉ definedProps m ↔ ∀ ps sub, get m b!"properties" = some (.obj ps) → (k, sub) ∉ ps := by
  unfold definedProps
  split
  · rename_i ps h
    simp only [h, Option.some.injEq, Json.obj.injEq, forall_eq', List.mem_map, Prod.exists, exists_and_right, exists_eq_right, not_exists]
    exact ⟨fun h ps sub e => by subst e; exact h sub, fun h sub => h _ sub rfl⟩
  · rename_i h
    simp only [List.not_mem_nil, not_false_eq_true, true_iff]
    intro ps sub hg; exact absurd hg (h ps)

theorem run_ifHas {m : List (Bytes × Json)} {key : Bytes} {P : Json → Prop} {f : Json → M}
    (h : ∀ a, get m key = some a → Run (P a) (f a)) : Run (∀ a, get m key = some a → P a) (ifHas m key f) := by
  unfold ifHas
  cases hg : get m key with
  | none => exact (run_pass (by simp)).run
  | some a => exact (h a hg).congr (by simp)

theorem run_names {m vm : List (Bytes × Json)} {S : Json} (ok : Ok V rec 0 S) (path : Bytes) (hS : S = .obj m) :
    Run (∀ pm k x, get m b!"propertyNames" = some (.obj pm) → (k, x) ∈ vm → V (.str k) (.obj pm))
      (match get m b!"propertyNames" with | some (.obj pm) => each (nameCheck rec (.obj pm) path) vm | _ => pass) := by
  split
  · rename_i pm h
    have hk : ∀ p ∈ vm, Run (V (.str p.1) (.obj pm)) (nameCheck rec (.obj pm) path p) :=
      fun p _ => run_fresh (ok (.str p.1) (.obj pm) [] (hS ▸ inner_get h)) _
    refine (run_each hk).congr ?_
    simp only [h, Option.some.injEq, Json.obj.injEq]
    constructor
    · rintro h pm' k x rfl hm; exact h (k, x) hm
    · exact fun h p hp => h pm p.1 p.2 rfl hp
  · rename_i h
    exact (run_pass fun pm _ _ hg => absurd hg (h pm)).run

theorem run_object {m : List (Bytes × Json)} (ok : Ok V rec d (.obj m)) (ok0 : Ok V rec 0 (.obj m)) (vm : List (Bytes × Json))
    (path : Bytes) : Run (ObjectOk V m vm) (objectChecks rec d vm m path) := by
  have h1 := run_ifHas (m := m) (key := b!"properties") fun a ha => run_properties ok vm path (inner_get ha)
  have h2 := run_ifHas (m := m) (key := b!"required") fun a _ => run_required vm a path
  have h3 := run_ifHas (m := m) (key := b!"additionalProperties") fun a ha =>
    run_additional (ap := a) ok0 (definedProps m) path (inner_get ha) vm
  have h4 := run_names (vm := vm) ok0 path rfl
  refine (run_both (run_both (run_both h1 h2) h3) h4).congr ?_
  constructor
  · rintro ⟨⟨⟨a, b⟩, c⟩, e⟩
    refine ⟨a, b, ?_, e⟩
    intro ap k x hg hm hd
    exact c ap hg (k, x) hm ((mem_defined m k).2 hd)
  · intro h
    exact ⟨⟨⟨h.properties, h.required⟩, fun ap hg p hp hd => h.additional ap p.1 p.2 hg hp ((mem_defined m p.1).1 hd)⟩, h.names⟩

theorem run_itemsLoop {S sub : Json} (ok : Ok V rec d S) (hi : Inner S sub) (path : Bytes) (i : Nat) (xs : List Json) :
    Run (∀ x ∈ xs, V x sub) (itemsLoop rec d sub path i xs) := by
  induction xs generalizing i with
  | nil => exact (run_pass (by simp)).run
  | cons x xs ih => exact (run_both (ok x sub _ hi).run (ih (i + 1))).congr (by simp)

/-- What an array of schemas and `additionalItems` ask of the item `x` at `i`. -/
def TupleOk (V : Json → Json → Prop) (subs : List Json) (additional : Option Json) (i : Nat) (x : Json) : Prop :=
  (∀ sub, subs[i]? = some sub → V x sub) ∧
  (subs[i]? = none → additional ≠ some (.bool false) ∧ ∀ am, additional = some (.obj am) → V x (.obj am))

theorem run_tupleLoop {S : Json} (ok : Ok V rec d S) (subs : List Json) (additional : Option Json) (hs : ∀ s ∈ subs, Inner S s)
    (ha : ∀ a, additional = some a → Inner S a) (path : Bytes) (i : Nat) (xs : List Json) :
    Run (∀ (j : Nat) x, xs[j]? = some x → TupleOk V subs additional (i + j) x) (tupleLoop rec d subs additional path i xs) := by
  induction xs generalizing i with
  | nil => exact (run_pass (by simp)).run
  | cons x xs ih =>
    have hc : (∀ (j : Nat) y, (x :: xs)[j]? = some y → TupleOk V subs additional (i + j) y) ↔
        TupleOk V subs additional i x ∧ ∀ (j : Nat) y, xs[j]? = some y → TupleOk V subs additional (i + 1 + j) y := by
      constructor
      · intro h
        refine ⟨h 0 x rfl, fun j y hy => ?_⟩
        have := h (j + 1) y (by simpa using hy)
        rwa [show i + (j + 1) = i + 1 + j by omega] at this
      · rintro ⟨h1, h2⟩ j y hy
        cases j with
        | zero => simp at hy; subst hy; exact h1
        | succ j => rw [show i + (j + 1) = i + 1 + j by omega]; exact h2 j y (by simpa using hy)
    simp only [tupleLoop]
    cases hg : subs[i]? with
    | some sub =>
      refine (run_both (P := TupleOk V subs additional i x) ?_ (ih (i + 1))).congr hc.symm
      refine (ok x sub _ (hs sub (List.mem_of_getElem? hg))).run.congr ?_
      simp [TupleOk, hg]
    | none =>
      have hskip : additional ≠ some (.bool false) → (∀ am, additional ≠ some (.obj am)) →
          Run (∀ (j : Nat) y, (x :: xs)[j]? = some y → TupleOk V subs additional (i + j) y) (tupleLoop rec d subs additional path (i + 1) xs) := by
        intro h1 h2
        refine (ih (i + 1)).congr ?_
        rw [hc]
        exact ⟨fun h => ⟨⟨by simp [hg], fun _ => ⟨h1, fun am e => absurd e (h2 am)⟩⟩, h⟩, fun h => h.2⟩
      cases additional with
      | none => exact hskip (by simp) (by simp)
      | some a =>
        cases a with
        | bool b =>
          cases b with
          | true => exact hskip (by simp) (by simp)
          | false =>
            refine (run_fail _ _ ?_).run
            intro h
            exact ((hc.1 h).1.2 hg).1 rfl
        | obj am =>
          refine (run_both (P := TupleOk V subs (some (.obj am)) i x) ?_ (ih (i + 1))).congr hc.symm
          refine (ok x (.obj am) _ (ha _ rfl)).run.congr ?_
          simp [TupleOk, hg]
        | _ => exact hskip (by simp) (by simp)

theorem run_items {m : List (Bytes × Json)} (ok : Ok V rec d (.obj m)) (xs : List Json) (path : Bytes) :
    Run (ItemsOk V m xs) (ifHas m b!"items" fun items => validateItems rec d xs m items path) := by
  unfold ifHas
  cases hg : get m b!"items" with
  | none => exact (run_pass ⟨by simp [hg], by simp [hg], by simp [hg], by simp [hg]⟩).run
  | some items =>
    cases items with
    | obj im =>
      refine (run_itemsLoop ok (inner_get hg) path 0 xs).congr ?_
      constructor
      · intro h
        refine ⟨fun i hi => ?_, fun im' x he => ?_, fun subs i x sub he => ?_, fun subs i x he => ?_⟩
        · rw [hg] at hi; cases hi; exact .inl ⟨im, rfl⟩
        · rw [hg] at he; cases he; exact h x
        · rw [hg] at he; cases he
        · rw [hg] at he; cases he
      · exact fun h x hx => h.single im x hg hx
    | arr subs =>
      refine (run_tupleLoop ok subs (get m b!"additionalItems") (fun s h => (inner_get hg).trans (inner_item h))
        (fun a h => inner_get h) path 0 xs).congr ?_
      constructor
      · intro h
        refine ⟨fun i hi => ?_, fun im' x he => ?_, fun subs' i x sub he hx hs => ?_, fun subs' i x he hx hs => ?_⟩
        · rw [hg] at hi; cases hi; exact .inr ⟨subs, rfl⟩
        · rw [hg] at he; cases he
        · rw [hg] at he; cases he
          exact (h i x hx).1 sub (by simpa using hs)
        · rw [hg] at he; cases he
          exact (h i x hx).2 (by simpa using hs)
      · intro h j x hx
        rw [Nat.zero_add]
        exact ⟨fun sub hs => h.tuple subs j x sub hg hx hs, fun hn => h.beyond subs j x hg hx hn⟩
    | _ =>
      refine (run_fail _ _ ?_).run
      intro h
      rcases h.kind _ hg with ⟨_, e⟩ | ⟨_, e⟩ <;> cases e

theorem run_structural {m : List (Bytes × Json)} (ok : Ok V rec d (.obj m)) (ok0 : Ok V rec 0 (.obj m)) (v : Json) (path : Bytes) :
    Run ((∀ vm, v = .obj vm → ObjectOk V m vm) ∧ (∀ xs, v = .arr xs → ItemsOk V m xs)) (structural rec d v m path) := by
  cases v with
  | obj vm => exact (run_object ok ok0 vm path).congr (by simp)
  | arr xs => exact (run_items ok xs path).congr (by simp)
  | _ => exact (run_pass (by simp)).run

theorem schemas_iff {subs : List Json} (h : subs ≠ []) {P : List Json → Prop} :
    (∃ subs', Schemas (.arr subs) subs' ∧ P subs') ↔ (∀ s ∈ subs, s.isObj = true) ∧ P subs := by
  constructor
  · rintro ⟨s, ⟨e, _, h⟩, hp⟩; cases e; exact ⟨h, hp⟩
  · exact fun hh => ⟨subs, ⟨rfl, h, hh.1⟩, hh.2⟩

theorem schemas_not {x : Json} {P : List Json → Prop} (h : ∀ s subs, x ≠ .arr (s :: subs)) : ¬ ∃ subs, Schemas x subs ∧ P subs := by
  rintro ⟨subs, ⟨rfl, hn, _⟩, _⟩
  cases subs with
  | nil => exact hn rfl
  | cons s subs => exact h s subs rfl

theorem run_allOf {S x : Json} (ok : Ok V rec d S) (hi : Inner S x) (v : Json) (path : Bytes) :
    Run (∃ subs, Schemas x subs ∧ ∀ s ∈ subs, V v s) (validateAllOf rec d v x path) := by
  unfold validateAllOf
  split
  · rename_i s subs
    have hk : ∀ t ∈ s :: subs, Run (t.isObj = true ∧ V v t) (if t.isObj then rec d v t path else fail path b!"schemaError.allOf.item") := by
      intro t ht
      by_cases ho : t.isObj = true
      · rw [if_pos ho]; exact (ok v t path (hi.trans (inner_item ht))).run.congr (by simp [ho])
      · rw [if_neg ho]; exact (run_fail _ _ (by simp [ho])).run
    have := run_each hk
    intro es
    obtain ⟨b, y, h1, h2, h3⟩ := this es
    have hiff : (∃ subs', Schemas (.arr (s :: subs)) subs' ∧ ∀ t ∈ subs', V v t) ↔ ∀ t ∈ s :: subs, t.isObj = true ∧ V v t := by
      rw [schemas_iff (by simp)]
      exact ⟨fun h t ht => ⟨h.1 t ht, h.2 t ht⟩, fun h => ⟨fun t ht => (h t ht).1, fun t ht => (h t ht).2⟩⟩
    rw [← hiff] at h2 h3
    cases b with
    | true => exact ⟨true, y, by simp only [h1], h2, h3⟩
    | false =>
      have hp : ¬ ∃ subs', Schemas (.arr (s :: subs)) subs' ∧ ∀ t ∈ subs', V v t := fun p => by simpa using h2 p
      exact ⟨false, y ++ [⟨path, b!"allOf"⟩], by simp only [h1, fail, List.append_assoc], h2, by simp [hp]⟩
  · rename_i h
    exact (run_fail _ _ (schemas_not (fun s subs e => h s subs e))).run

theorem run_anyLoop {S : Json} (ok : Ok V rec d S) (v : Json) (path : Bytes) (subs : List Json) (hs : ∀ s ∈ subs, Inner S s) :
    Run (∃ s ∈ subs, V v s) (anyLoop rec d v path subs) := by
  induction subs with
  | nil => exact (run_fail _ _ (by simp)).run
  | cons s subs ih =>
    intro es
    obtain ⟨b, x, h1, h2, h3⟩ := ok v s path (hs s List.mem_cons_self) []
    simp only [anyLoop, h1]
    cases b with
    | true =>
      exact ⟨true, [], by simp, fun _ => rfl, by simp [h2.1 rfl]⟩
    | false =>
      have hn : ¬ V v s := fun p => by simpa using h2.2 p
      have := (ih (fun t ht => hs t (List.mem_cons_of_mem _ ht))).congr (Q := ∃ t ∈ s :: subs, V v t) (by simp [hn])
      exact this es

theorem run_anyOf {S x : Json} (ok : Ok V rec d S) (hi : Inner S x) (v : Json) (path : Bytes) :
    Run (∃ subs, Schemas x subs ∧ ∃ s ∈ subs, V v s) (validateAnyOf rec d v x path) := by
  unfold validateAnyOf
  split
  · rename_i s subs
    by_cases ho : (s :: subs).all (·.isObj) = true
    · rw [if_pos ho]
      refine (run_anyLoop ok v path (s :: subs) (fun t ht => hi.trans (inner_item ht))).congr ?_
      rw [schemas_iff (by simp)]
      rw [List.all_eq_true] at ho
      exact ⟨fun h => ⟨ho, h⟩, fun h => h.2⟩
    · rw [if_neg ho]
      refine (run_fail _ _ ?_).run
      rw [schemas_iff (by simp)]
      exact fun h => ho (List.all_eq_true.2 h.1)
  · rename_i h
    exact (run_fail _ _ (schemas_not (fun s subs e => h s subs e))).run

open Classical in
/-- The number of schemas of the list that accept. -/
noncomputable def count (V : Json → Json → Prop) (v : Json) (subs : List Json) : Nat :=
  subs.countP (fun s => decide (s.isObj = true ∧ V v s))

theorem oneLoop_run {S : Json} (ok : Ok V rec d S) (v : Json) (path : Bytes) (subs : List Json) (hs : ∀ s ∈ subs, Inner S s) (n : Nat)
    (es : List Err) : ∃ x, oneLoop rec d v path subs n es = some (n + count V v subs, es ++ x) ∧ (x = [] ↔ ∀ s ∈ subs, s.isObj = true) := by
  induction subs generalizing n es with
  | nil => exact ⟨[], by simp [oneLoop, count], by simp⟩
  | cons s subs ih =>
    have ih := ih (fun t ht => hs t (List.mem_cons_of_mem _ ht))
    simp only [oneLoop]
    by_cases ho : s.isObj = true
    · rw [if_pos ho]
      obtain ⟨b, x, h1, h2, h3⟩ := ok v s path (hs s List.mem_cons_self) []
      simp only [h1]
      cases b with
      | true =>
        obtain ⟨y, k1, k2⟩ := ih (n + 1) es
        refine ⟨y, ?_, by simp [k2, ho]⟩
        simp only [k1]
        have : count V v (s :: subs) = count V v subs + 1 := by unfold count; rw [List.countP_cons_of_pos]; simp [ho, h2.1 rfl]
        rw [this]; congr 2; omega
      | false =>
        have hn : ¬ V v s := fun p => by simpa using h2.2 p
        obtain ⟨y, k1, k2⟩ := ih n es
        refine ⟨y, ?_, by simp [k2, ho]⟩
        simp only [k1]
        have : count V v (s :: subs) = count V v subs := by unfold count; rw [List.countP_cons_of_neg]; simp [hn]
        rw [this]
    · rw [if_neg ho]
      obtain ⟨y, k1, k2⟩ := ih n (es ++ [⟨path, b!"schemaError.oneOf.item"⟩])
      refine ⟨[⟨path, b!"schemaError.oneOf.item"⟩] ++ y, ?_, by simp [ho]⟩
      simp only [k1, List.append_assoc]
      have : count V v (s :: subs) = count V v subs := by unfold count; rw [List.countP_cons_of_neg]; simp [ho]
      rw [this]

theorem countP_one {α : Type} (p : α → Bool) (xs : List α) :
    xs.countP p = 1 ↔ ∃ l s r, xs = l ++ s :: r ∧ p s = true ∧ ∀ t ∈ l ++ r, ¬ p t = true := by
  induction xs with
  | nil => simp
  | cons a as ih =>
    by_cases ha : p a = true
    · rw [List.countP_cons_of_pos ha]
      constructor
      · intro h
        have h0 : as.countP p = 0 := by omega
        exact ⟨[], a, as, rfl, ha, by simpa using List.countP_eq_zero.1 h0⟩
      · rintro ⟨l, s, r, e, hs, ht⟩
        cases l with
        | nil => cases e; rw [List.countP_eq_zero.2 (by simpa using ht)]
        | cons b l => cases e; exact absurd ha (ht a (by simp))
    · rw [List.countP_cons_of_neg ha, ih]
      constructor
      · rintro ⟨l, s, r, e, hs, ht⟩
        subst e
        refine ⟨a :: l, s, r, rfl, hs, ?_⟩
        intro t h
        rcases List.mem_cons.1 (by simpa using h : t ∈ a :: (l ++ r)) with rfl | h
        · exact ha
        · exact ht t h
      · rintro ⟨l, s, r, e, hs, ht⟩
        cases l with
        | nil => cases e; exact absurd hs ha
        | cons b l => cases e; exact ⟨l, s, r, rfl, hs, fun t h => ht t (List.mem_cons_of_mem _ h)⟩

open Classical in
theorem run_oneOf {S x : Json} (ok : Ok V rec d S) (hi : Inner S x) (v : Json) (path : Bytes) :
    Run (∃ subs, Schemas x subs ∧ ∃ l s r, subs = l ++ s :: r ∧ V v s ∧ ∀ t ∈ l ++ r, ¬ V v t) (validateOneOf rec d v x path) := by
  unfold validateOneOf
  split
  · rename_i s subs
    intro es
    obtain ⟨y, h1, h2⟩ := oneLoop_run ok v path (s :: subs) (fun t ht => hi.trans (inner_item ht)) 0 es
    have hiff : (∃ subs', Schemas (.arr (s :: subs)) subs' ∧ ∃ l t r, subs' = l ++ t :: r ∧ V v t ∧ ∀ u ∈ l ++ r, ¬ V v u) ↔
        (y = [] ∧ count V v (s :: subs) = 1) := by
      rw [schemas_iff (by simp), h2]
      refine and_congr_right fun ho => ?_
      unfold count
      rw [countP_one]
      constructor
      · rintro ⟨l, t, r, e, hv, hn⟩
        exact ⟨l, t, r, e, by simp [hv, ho t (by rw [e]; simp)], fun u hu => by simp [hn u hu]⟩
      · rintro ⟨l, t, r, e, hv, hn⟩
        refine ⟨l, t, r, e, (of_decide_eq_true hv).2, fun u hu hvu => hn u hu (decide_eq_true ⟨ho u ?_, hvu⟩)⟩
        rw [e]
        simp only [List.mem_append, List.mem_cons] at hu ⊢
        rcases hu with h | h
        · exact .inl h
        · exact .inr (.inr h)
    rw [hiff]
    simp only [h1, Nat.zero_add]
    by_cases hc : count V v (s :: subs) = 1
    · rw [if_pos hc]; exact ⟨true, y, rfl, fun _ => rfl, by simp [hc]⟩
    · rw [if_neg hc]; exact ⟨false, y ++ [⟨path, b!"oneOf"⟩], by simp [fail], fun h => absurd h.2 hc, by simp [hc]⟩
  · rename_i h
    exact (run_fail _ _ (schemas_not (fun s subs e => h s subs e))).run

theorem run_not {S x : Json} (ok : Ok V rec d S) (hi : Inner S x) (v : Json) (path : Bytes) :
    Run (x.isObj = true ∧ ¬ V v x) (validateNot rec d v x path) := by
  cases x with
  | obj m =>
    intro es
    obtain ⟨b, y, h1, h2, h3⟩ := ok v (.obj m) path hi []
    simp only [validateNot, h1]
    cases b with
    | true => exact ⟨false, [⟨path, b!"not"⟩], rfl, fun h => absurd (h2.1 rfl) h.2, by simp [h2.1 rfl]⟩
    | false =>
      have hn : ¬ V v (.obj m) := fun p => by simpa using h2.2 p
      exact ⟨true, [], by simp, fun _ => rfl, by simp [hn, Json.isObj]⟩
  | _ => exact (run_fail _ _ (by simp [Json.isObj])).run

theorem run_combinators {m : List (Bytes × Json)} (ok : Ok V rec d (.obj m)) (v : Json) (path : Bytes) :
    Run (CombinatorsOk V m v) (combinators rec d v m path) := by
  have h1 := run_ifHas (m := m) (key := b!"allOf") fun a ha => run_allOf ok (inner_get ha) v path
  have h2 := run_ifHas (m := m) (key := b!"anyOf") fun a ha => run_anyOf ok (inner_get ha) v path
  have h3 := run_ifHas (m := m) (key := b!"oneOf") fun a ha => run_oneOf ok (inner_get ha) v path
  have h4 := run_ifHas (m := m) (key := b!"not") fun a ha => run_not ok (inner_get ha) v path
  refine (run_andThen (run_andThen (run_andThen h1 h2) h3) h4).congr ?_
  exact ⟨fun ⟨⟨⟨a, b⟩, c⟩, e⟩ => ⟨a, b, c, e⟩, fun h => ⟨⟨⟨h.allOf, h.anyOf⟩, h.oneOf⟩, h.not⟩⟩

/-- One level, for a schema that is an object. -/
theorem run_level (E : Env) {m : List (Bytes × Json)} (ok : Ok V rec (d + 1) (.obj m)) (ok0 : Ok V rec 0 (.obj m)) (v : Json)
    (path : Bytes) (hd : d + 1 ≤ 64) (hw : WellFormed E (.obj m)) : RunS (Accepts E V v (.obj m)) (level E rec d v (.obj m) path) := by
  obtain ⟨w1, w2, w3⟩ := hw m (.self _)
  have ht := run_ifHas (m := m) (key := b!"type") fun a _ => run_type v a path
  have hc := run_andThen ht (run_both (run_rules E m v path w1 w2 w3) (run_structural ok ok0 v path))
  have h := (run_both hc (run_combinators ok v path)).congr (Q := Accepts E V v (.obj m)) (by
    constructor
    · rintro ⟨⟨a, b, c, e⟩, f⟩; exact ⟨m, rfl, a, b, c, e, f⟩
    · rintro ⟨m', e, a, b, c, e', f⟩; cases e; exact ⟨⟨a, b, c, e'⟩, f⟩)
  intro es
  obtain ⟨b, x, h1, h2, h3⟩ := h es
  have hb : both (checks E rec (d + 1) v m path) (combinators rec (d + 1) v m path) es = some (b, es ++ x) := h1
  refine ⟨if (es ++ x).length > es.length then false else b, x, ?_, ?_, h3⟩
  · simp only [level]
    rw [if_neg (by unfold maxDepth; omega)]
    simp only [hb]
  · cases x with
    | nil =>
      have hp := h3.1 rfl
      simp [h2 hp, hp]
    | cons a as =>
      have hp : ¬ Accepts E V v (.obj m) := fun p => by simpa using h3.2 p
      simp [hp]

end Verif.Valid
