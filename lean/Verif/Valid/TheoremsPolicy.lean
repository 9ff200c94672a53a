import Verif.Valid.ModelPolicy
import Verif.Ws.Model

/-! C152: what the errors show of the values that were wrong. -/

namespace Verif.Valid

/-- The text is the beginning of the other one, all of it if it fits and as much as fits otherwise. -/
def Beginning (budget : Nat) (t s : Bytes) : Prop := t <+: s ∧ t.length ≤ budget ∧ (t = s ∨ t.length = budget)

/-- What may be shown of a value. -/
def Shows (dump : Json → Option Bytes) (p : Policy) (budget : Nat) (v : Json) (shown : Option Json) : Prop :=
  match p with
  | .none => shown = none
  | .full => shown = some v
  | .preview =>
    match v with
    | .str s => ∃ t, Beginning budget t s ∧ shown = some (.str t)
    | .arr _ | .obj _ => ∃ d t, dump v = some d ∧ Beginning budget t d ∧
        shown = some (if t = d then v else .obj [(b!"_truncated", .bool true), (b!"original_kind", .str (kindName v)), (b!"preview", .str t)])
    | _ => shown = some v

/-- C152: the number of bytes to show is at least 16 and at most 65536, and as asked for between. -/
theorem C152_budget (r : Result) (p : Policy) (n : Nat) : 16 ≤ (r.setPolicy p n).budget ∧ (r.setPolicy p n).budget ≤ 65536 ∧
    (16 ≤ n → n ≤ 65536 → (r.setPolicy p n).budget = n) ∧ (r.setPolicy p n).policy = p ∧ (r.setPolicy p n).errors = r.errors := by
  unfold Result.setPolicy
  simp only
  refine ⟨?_, ?_, ?_, trivial, trivial⟩
  · split <;> split <;> omega
  · split <;> split <;> omega
  · intro h1 h2; split <;> split <;> omega

theorem beginning_take (n : Nat) (s : Bytes) (h : ¬ s.length ≤ n) : Beginning n (s.take n) s :=
  ⟨List.take_prefix _ _, by rw [List.length_take]; omega, .inr (by rw [List.length_take]; omega)⟩

/-- C152: adding an error puts one error at the end, with what the policy allows of the value. -/
theorem C152_add (dump : Json → Option Bytes) (r r' : Result) (path rule message : Bytes) (v : Json)
    (h : r.add dump path rule message (some v) = some r') :
    ∃ shown, Shows dump r.policy r.budget v shown ∧ r' = { r with errors := r.errors ++ [⟨path, rule, message, shown⟩] } := by
  unfold Result.add at h
  rw [Option.map_eq_some_iff] at h
  obtain ⟨shown, h, rfl⟩ := h
  refine ⟨shown, ?_, rfl⟩
  unfold Result.applyPolicy at h
  unfold Shows
  simp only at h ⊢
  cases hp : r.policy with
  | full => rw [hp] at h; cases h; rfl
  | none => rw [hp] at h; cases h; rfl
  | preview =>
    rw [hp] at h
    have comp : ∀ w : Json, (match dump w with
        | none => none
        | some d =>
          if d.length ≤ r.budget then some (some w)
          else some (some (Json.obj [(b!"_truncated", .bool true), (b!"original_kind", .str (kindName w)), (b!"preview", .str (d.take r.budget))]))) = some shown →
        ∃ d t, dump w = some d ∧ Beginning r.budget t d ∧
          shown = some (if t = d then w else .obj [(b!"_truncated", .bool true), (b!"original_kind", .str (kindName w)), (b!"preview", .str t)]) := by
      intro w hw
      cases hd : dump w with
      | none => rw [hd] at hw; cases hw
      | some d =>
        rw [hd] at hw
        simp only at hw
        split at hw
        · next hl => cases hw; exact ⟨d, d, rfl, ⟨List.prefix_refl _, hl, .inl rfl⟩, by rw [if_pos rfl]⟩
        · next hl =>
          cases hw
          refine ⟨d, d.take r.budget, rfl, beginning_take _ _ hl, ?_⟩
          rw [if_neg]
          intro e
          have := congrArg List.length e
          rw [List.length_take] at this
          omega
    cases v with
    | str s =>
      simp only at h ⊢
      split at h
      · next hl => cases h; exact ⟨s, ⟨List.prefix_refl _, hl, .inl rfl⟩, rfl⟩
      · next hl => cases h; exact ⟨_, beginning_take _ _ hl, rfl⟩
    | arr xs => exact comp _ h
    | obj m => exact comp _ h
    | null => cases h; rfl
    | bool => cases h; rfl
    | int => cases h; rfl
    | uint => cases h; rfl
    | flt => cases h; rfl

/-- A value with nothing to hide: no text, list or object in it beyond the budget. -/
def Small (dump : Json → Option Bytes) (p : Policy) (budget : Nat) : Option Json → Prop
  | none => True
  | some v => p = .full ∨ p = .preview ∧ match v with
    | .str s => s.length ≤ budget
    | .arr _ => ∃ d, dump v = some d ∧ d.length ≤ budget
    | .obj m => (∃ d, dump v = some d ∧ d.length ≤ budget) ∨
        ∃ k t, m = [(b!"_truncated", .bool true), (b!"original_kind", .str k), (b!"preview", .str t)] ∧ t.length ≤ budget
    | _ => True

theorem small_of_shows (dump : Json → Option Bytes) (p : Policy) (budget : Nat) (v : Json) (shown : Option Json) (h : Shows dump p budget v shown) :
    Small dump p budget shown := by
  unfold Shows at h
  cases p with
  | none => subst h; trivial
  | full => subst h; exact .inl rfl
  | preview =>
    simp only at h
    have comp : ∀ w : Json, ((∃ xs, w = .arr xs) ∨ ∃ m, w = .obj m) → (∃ d t, dump w = some d ∧ Beginning budget t d ∧
          shown = some (if t = d then w else .obj [(b!"_truncated", .bool true), (b!"original_kind", .str (kindName w)), (b!"preview", .str t)])) →
        Small dump .preview budget shown := by
      rintro w hw ⟨d, t, hd, hb, rfl⟩
      by_cases e : t = d
      · rw [if_pos e]
        subst e
        refine .inr ⟨rfl, ?_⟩
        rcases hw with ⟨xs, rfl⟩ | ⟨m, rfl⟩
        · exact ⟨t, hd, hb.2.1⟩
        · exact .inl ⟨t, hd, hb.2.1⟩
      · rw [if_neg e]
        exact .inr ⟨rfl, .inr ⟨_, t, rfl, hb.2.1⟩⟩
    cases v with
    | str s => obtain ⟨t, ht, rfl⟩ := h; exact .inr ⟨rfl, ht.2.1⟩
    | arr xs => exact comp _ (.inl ⟨_, rfl⟩) h
    | obj m => exact comp _ (.inr ⟨_, rfl⟩) h
    | null => subst h; exact .inr ⟨rfl, trivial⟩
    | bool => subst h; exact .inr ⟨rfl, trivial⟩
    | int => subst h; exact .inr ⟨rfl, trivial⟩
    | uint => subst h; exact .inr ⟨rfl, trivial⟩
    | flt => subst h; exact .inr ⟨rfl, trivial⟩

def AllSmall (dump : Json → Option Bytes) (r : Result) : Prop := ∀ e ∈ r.errors, Small dump r.policy r.budget e.value

mutual
theorem use_small (dump : Json → Option Bytes) (r r' : Result) (hr : AllSmall dump r) (u : Use) (h : r.use dump u = some r') :
    AllSmall dump r' ∧ r'.policy = r.policy ∧ r'.budget = r.budget := by
  cases u with
  | clear => rw [Result.use] at h; cases h; exact ⟨fun e he => (by cases he), rfl, rfl⟩
  | add p ru m v =>
    rw [Result.use] at h
    cases v with
    | none =>
      unfold Result.add Result.applyPolicy at h
      cases h
      refine ⟨?_, rfl, rfl⟩
      intro e he
      rcases List.mem_append.1 he with he | he
      · exact hr e he
      · rw [List.mem_singleton] at he; subst he; trivial
    | some v =>
      obtain ⟨shown, hs, rfl⟩ := C152_add dump r r' p ru m v h
      refine ⟨?_, rfl, rfl⟩
      intro e he
      rcases List.mem_append.1 he with he | he
      · exact hr e he
      · rw [List.mem_singleton] at he; subst he; exact small_of_shows dump _ _ _ _ hs
  | sub us =>
    rw [Result.use, Option.map_eq_some_iff] at h
    obtain ⟨c, hc, rfl⟩ := h
    obtain ⟨h1, h2, h3⟩ := uses_small dump r.child c (fun e he => by cases he) us hc
    unfold Result.merge
    split
    · exact ⟨hr, rfl, rfl⟩
    · refine ⟨?_, rfl, rfl⟩
      intro e he
      rcases List.mem_append.1 he with he | he
      · exact hr e he
      · have := h1 e he
        rw [h2, h3] at this
        exact this
theorem uses_small (dump : Json → Option Bytes) (r r' : Result) (hr : AllSmall dump r) (us : List Use) (h : r.uses dump us = some r') :
    AllSmall dump r' ∧ r'.policy = r.policy ∧ r'.budget = r.budget := by
  cases us with
  | nil => rw [Result.uses] at h; cases h; exact ⟨hr, rfl, rfl⟩
  | cons u us =>
    rw [Result.uses] at h
    cases h1 : r.use dump u with
    | none => rw [h1] at h; cases h
    | some r1 =>
      rw [h1] at h
      obtain ⟨a1, a2, a3⟩ := use_small dump r r1 hr u h1
      obtain ⟨b1, b2, b3⟩ := uses_small dump r1 r' a1 us h
      exact ⟨b1, b2.trans a2, b3.trans a3⟩
end

/-- C152: after any use of a `Result`, with children merged to any depth, no error shows more of a value than the
policy set at the beginning allows: nothing under `None`; under `Preview` no text, list or object longer
than the budget. -/
theorem C152_history (dump : Json → Option Bytes) (p : Policy) (n : Nat) (us : List Use) (r : Result)
    (h : (({} : Result).setPolicy p n).uses dump us = some r) :
    ∀ e ∈ r.errors, (p = .none → e.value = none) ∧ Small dump p (({} : Result).setPolicy p n).budget e.value := by
  obtain ⟨h1, h2, h3⟩ := uses_small dump _ _ (fun e he => by cases he) us h
  intro e he
  have hs := h1 e he
  rw [h2, h3] at hs
  have hp : (({} : Result).setPolicy p n).policy = p := rfl
  rw [hp] at hs
  refine ⟨fun hn => ?_, hs⟩
  cases hv : e.value with
  | none => rfl
  | some v =>
    rw [hv] at hs
    subst hn
    rcases hs with hs | ⟨hs, -⟩ <;> cases hs

/-- The paths, rules and messages a use leaves, in order; `sub` at its place. -/
def trace : List Use → List (Bytes × Bytes × Bytes)
  | us => go [] us
where
  go (acc : List (Bytes × Bytes × Bytes)) : List Use → List (Bytes × Bytes × Bytes)
    | [] => acc
    | .add p r m _ :: us => go (acc ++ [(p, r, m)]) us
    | .clear :: us => go [] us
    | .sub ss :: us => go (acc ++ go [] ss) us

theorem trace_uses (dump : Json → Option Bytes) (us : List Use) (acc : List (Bytes × Bytes × Bytes)) (r r' : Result)
    (hr : r.errors.map (fun e => (e.path, e.rule, e.message)) = acc) (h : r.uses dump us = some r') :
    r'.errors.map (fun e => (e.path, e.rule, e.message)) = trace.go acc us := by
  match us with
  | [] => rw [Result.uses] at h; cases h; rw [trace.go]; exact hr
  | .add p ru m v :: us =>
    rw [Result.uses, Result.use] at h
    split at h
    · cases h
    next r1 h1 =>
    rw [trace.go]
    refine trace_uses dump us _ r1 r' ?_ h
    unfold Result.add at h1
    rw [Option.map_eq_some_iff] at h1
    obtain ⟨x, -, rfl⟩ := h1
    simp [hr]
  | .clear :: us =>
    rw [Result.uses, Result.use] at h
    rw [trace.go]
    exact trace_uses dump us _ _ r' rfl h
  | .sub ss :: us =>
    rw [Result.uses, Result.use] at h
    split at h
    · cases h
    next r1 h1 =>
    rw [Option.map_eq_some_iff] at h1
    obtain ⟨c, hc, rfl⟩ := h1
    have := trace_uses dump ss [] r.child c rfl hc
    rw [trace.go]
    refine trace_uses dump us _ _ r' ?_ h
    unfold Result.merge
    split
    · next he => rw [← this, he, hr]; simp
    · simp only [List.map_append, hr, this]

/-- C152: no error is lost, made up or moved: the errors are those added since the last `clear`, in order, those of
a child where it was merged; and the result is a success exactly if there are none. -/
theorem C152_order (dump : Json → Option Bytes) (p : Policy) (n : Nat) (us : List Use) (r : Result)
    (h : (({} : Result).setPolicy p n).uses dump us = some r) :
    r.errors.map (fun e => (e.path, e.rule, e.message)) = trace us ∧ (r.success = true ↔ trace us = []) := by
  have := trace_uses dump us [] _ r rfl h
  refine ⟨this, ?_⟩
  unfold Result.success
  rw [List.isEmpty_iff, trace, ← this, List.map_eq_nil_iff]

/-- Adding an error throws only under `Preview`, for a list or an object that cannot be written. -/
theorem C152_throws (dump : Json → Option Bytes) (r : Result) (path rule message : Bytes) (v : Option Json) :
    r.add dump path rule message v = none ↔ r.policy = .preview ∧ ∃ x, v = some x ∧ dump x = none ∧ ((∃ xs, x = .arr xs) ∨ ∃ m, x = .obj m) := by
  unfold Result.add Result.applyPolicy
  rw [Option.map_eq_none_iff]
  cases v with
  | none => simp
  | some v =>
    cases hp : r.policy with
    | full => simp
    | none => simp
    | preview =>
      cases v with
      | str s => simp only; split <;> simp
      | arr xs => simp only; cases hd : dump (.arr xs) with
        | none => simp [hd]
        | some d => simp only; split <;> simp [hd]
      | obj xs => simp only; cases hd : dump (.obj xs) with
        | none => simp [hd]
        | some d => simp only; split <;> simp [hd]
      | null => simp
      | bool => simp
      | int => simp
      | uint => simp
      | flt => simp

/-- The beginning of a text that is UTF-8 need not be: seventeen bytes, the last two a character, are cut to sixteen. -/
theorem C152_cuts_characters : ∃ s : Bytes, Ws.isUtf8 s = true ∧
    ∃ r t, (({} : Result).setPolicy .preview 16).add (fun _ => none) b!"name" b!"pattern" [] (some (.str s)) = some r ∧
      r.errors = [⟨b!"name", b!"pattern", [], some (.str t)⟩] ∧ Ws.isUtf8 t = false :=
  ⟨b!"aaaaaaaaaaaaaaa" ++ [0xC3, 0xA9], by decide, _, b!"aaaaaaaaaaaaaaa" ++ [0xC3], rfl, rfl, by decide⟩

theorem C152_example : ∃ r, (({} : Result).setPolicy .preview 3).uses (fun _ => some (List.replicate 20 91))
      [.add b!"a" b!"x" [] none, .clear, .add b!"b" b!"type" [] (some (.str (List.replicate 20 65))),
        .sub [.add b!"c" b!"type" [] (some (.arr []))]] = some r ∧
    r.errors = [⟨b!"b", b!"type", [], some (.str (List.replicate 16 65))⟩,
      ⟨b!"c", b!"type", [], some (.obj [(b!"_truncated", .bool true), (b!"original_kind", .str b!"array"), (b!"preview", .str (List.replicate 16 91))])⟩] :=
  ⟨_, rfl, rfl⟩

end Verif.Valid
