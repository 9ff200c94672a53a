import Verif.Valid.ModelSanitize
import Verif.Valid.SpecSanitize

/-! C150: a sanitizer changes the strings its path names, and nothing else. -/

namespace Verif.Valid

/-- What is seen at a place whose value goes through `f` if it is a string. -/
def touched (f : Bytes → Bytes) : Json → Json
  | .str s => .str (f s)
  | v => surface v

theorem get_set (key k : Bytes) (g : Json → Json) (m : List (Bytes × Json)) :
    get (setMember key g m) k = if key = k then (get m k).map g else get m k := by
  induction m with
  | nil => simp [setMember, get]
  | cons p m ih =>
    obtain ⟨a, x⟩ := p
    rw [setMember]
    by_cases ha : a = key
    · rw [if_pos ha, get, get]
      by_cases hk : a = k
      · simp [hk, ← ha]
      · rw [if_neg hk, if_neg hk, if_neg (by rw [← ha]; exact hk)]
    · rw [if_neg ha, get, get, ih]
      by_cases hk : a = k
      · rw [if_pos hk, if_pos hk, if_neg (by rw [← hk]; exact fun h => ha h.symm)]
      · rw [if_neg hk, if_neg hk]

theorem keys_set (key : Bytes) (g : Json → Json) (m : List (Bytes × Json)) :
    (setMember key g m).map (fun p => (p.1, Json.null)) = m.map fun p => (p.1, Json.null) := by
  induction m with
  | nil => rfl
  | cons p m ih =>
    obtain ⟨a, x⟩ := p
    rw [setMember]
    split <;> simp [ih]

theorem item_set (g : Json → Json) (i j : Nat) (xs : List Json) :
    (setItem g i xs)[j]? = if i = j then xs[j]?.map g else xs[j]? := by
  induction xs generalizing i j with
  | nil => simp [setItem]
  | cons x xs ih =>
    cases i with
    | zero => cases j <;> simp [setItem]
    | succ i => cases j with
      | zero => simp [setItem]
      | succ j => simp [setItem, ih]

theorem length_set (g : Json → Json) (i : Nat) (xs : List Json) : (setItem g i xs).length = xs.length := by
  induction xs generalizing i with
  | nil => simp [setItem]
  | cons x xs ih => cases i <;> simp [setItem, ih]

theorem nulls (xs ys : List Json) (h : xs.length = ys.length) : (xs.map fun _ => Json.null) = ys.map fun _ => Json.null := by
  rw [List.map_const', List.map_const', h]

theorem surface_traverse (num : Bytes → Option Nat) (f : Bytes → Bytes) (seg : Bytes) (segs : List Bytes) (v : Json) :
    surface (traverse num f (seg :: segs) v) = surface v := by
  cases v with
  | arr xs =>
    rw [traverse]
    split
    · simp only [surface]; rw [nulls _ xs (by simp)]
    · split
      · simp only [surface]; rw [nulls _ _ (length_set ..)]
      · rfl
  | obj m => rw [traverse]; simp only [surface]; rw [keys_set]
  | _ => rw [traverse] <;> simp

open Classical in
/-- C150: a place that the path names shows `f` of the string that was there; every other place, and every
place without a string, shows what it did, and there are no new places. -/
theorem C150_exact (num : Bytes → Option Nat) (f : Bytes → Bytes) (path : List Bytes) (v : Json) (place : List Step) :
    (look (traverse num f path v) place).map surface =
      if NamesAll num path place then (look v place).map (touched f) else (look v place).map surface := by
  induction path generalizing v place with
  | nil =>
    cases place with
    | nil =>
      rw [if_pos (show NamesAll num [] [] from trivial)]
      simp only [traverse, look, Option.map_some]
      cases v <;> rfl
    | cons st place =>
      rw [if_neg (show ¬ NamesAll num [] (st :: place) from id)]
      simp only [traverse]
      cases v <;> simp [applyNode, look]
  | cons seg segs ih =>
    cases place with
    | nil =>
      rw [if_neg (show ¬ NamesAll num (seg :: segs) [] from id)]
      simp only [look, Option.map_some]
      rw [surface_traverse]
    | cons st place =>
      have hnm : NamesAll num (seg :: segs) (st :: place) ↔ Names num seg st ∧ NamesAll num segs place := Iff.rfl
      have yes : Names num seg st → ∀ o : Option Json,
          (match o.map (traverse num f segs) with | some x => look x place | none => none).map surface =
          if NamesAll num (seg :: segs) (st :: place) then (match o with | some x => look x place | none => none).map (touched f)
          else (match o with | some x => look x place | none => none).map surface := by
        intro h o
        cases o with
        | none => simp
        | some x =>
          simp only [Option.map_some]
          rw [ih x place]
          by_cases hN : NamesAll num segs place
          · rw [if_pos hN, if_pos (hnm.2 ⟨h, hN⟩)]
          · rw [if_neg hN, if_neg (fun h' => hN (hnm.1 h').2)]
      have no : ¬ Names num seg st → ∀ o : Option Json, o.map surface =
          if NamesAll num (seg :: segs) (st :: place) then o.map (touched f) else o.map surface := by
        intro h o
        rw [if_neg fun h' => h (hnm.1 h').1]
      have bad : look v (st :: place) = none → look (traverse num f (seg :: segs) v) (st :: place) = none →
          (look (traverse num f (seg :: segs) v) (st :: place)).map surface =
          if NamesAll num (seg :: segs) (st :: place) then (look v (st :: place)).map (touched f) else (look v (st :: place)).map surface := by
        intro h1 h2
        rw [h1, h2]; simp
      cases v with
      | obj m =>
        cases st with
        | «at» i => exact bad (by simp [look]) (by simp [look, traverse])
        | key k =>
          simp only [traverse, look, get_set]
          by_cases hk : seg = k
          · rw [if_pos hk]; exact yes hk _
          · rw [if_neg hk]; exact no hk _
      | arr xs =>
        cases st with
        | key k =>
          refine bad (by simp [look]) ?_
          rw [traverse]
          split
          · simp [look]
          · split <;> simp [look]
        | «at» i =>
          rw [traverse]
          by_cases hst : seg = b!"*"
          · rw [if_pos hst]
            simp only [look, List.getElem?_map]
            exact yes (.inl hst) _
          · rw [if_neg hst]
            cases hn : num seg with
            | none =>
              simp only [look]
              exact no (fun h => by rcases h with h | h; exact hst h; rw [hn] at h; cases h.2) _
            | some j =>
              simp only [look, item_set]
              by_cases hj : j = i
              · rw [if_pos hj]; exact yes (.inr ⟨hst, by rw [hn, hj]⟩) _
              · rw [if_neg hj]
                exact no (fun h => by rcases h with h | h; exact hst h; rw [hn] at h; exact hj (by cases h.2; rfl)) _
      | _ => exact bad (by simp [look]) (by simp [look, traverse])

/-- C150: with any number of rules, a place that none of the paths names shows what it did. -/
theorem C150_others (num : Bytes → Option Nat) (rules : List (Bytes × List (Bytes → Bytes))) (v : Json) (place : List Step)
    (h : ∀ r ∈ rules, ¬ NamesAll num (splitPath r.1) place) :
    (look (sanitize num rules v) place).map surface = (look v place).map surface := by
  induction rules generalizing v with
  | nil => rfl
  | cons r rules ih =>
    obtain ⟨path, fs⟩ := r
    rw [sanitize, ih _ fun r hr => h r (List.mem_cons_of_mem _ hr)]
    split
    · rfl
    · rw [C150_exact, if_neg (h _ List.mem_cons_self)]

/-- C150: the functions of a rule are run in the order they were added. -/
theorem C150_rule (num : Bytes → Option Nat) (path : Bytes) (fs : List (Bytes → Bytes)) (v : Json) (place : List Step) (s : Bytes)
    (hn : NamesAll num (splitPath path) place) (hp : place ≠ []) (hs : look v place = some (.str s)) :
    look (sanitize num [(path, fs)] v) place = some (.str (fs.foldl (fun s f => f s) s)) := by
  rw [sanitize, sanitize]
  have hsp : splitPath path ≠ [] := by
    intro e
    rw [e] at hn
    cases place with
    | nil => exact hp rfl
    | cons _ _ => exact hn
  by_cases hf : fs = []
  · subst hf; simpa using hs
  · rw [if_neg (by simp [hf, hsp])]
    have := C150_exact num (fun s => fs.foldl (fun s f => f s) s) (splitPath path) v place
    rw [if_pos hn, hs] at this
    cases hl : look (traverse num (fun s => fs.foldl (fun s f => f s) s) (splitPath path) v) place with
    | none => rw [hl] at this; cases this
    | some x =>
      rw [hl] at this
      simp only [Option.map_some, touched, Option.some.injEq] at this
      cases x <;> simp_all [surface]

theorem split_name (cur name rest : Bytes) (h : ∀ c ∈ name, c ≠ c!"." ∧ c ≠ c!"[" ∧ c ≠ c!"]") :
    splitLoop cur false (name ++ rest) = splitLoop (cur ++ name) false rest := by
  induction name generalizing cur with
  | nil => simp
  | cons c cs ih =>
    have hc := h c List.mem_cons_self
    rw [List.cons_append, splitLoop]
    simp only
    rw [if_neg (by simp [hc.1]), if_neg hc.2.1, if_neg (by simp), ih _ fun d hd => h d (List.mem_cons_of_mem _ hd)]
    simp

/-- C150: a path of names with dots between them stands for those names. -/
theorem C150_path (names : List Bytes) (h : ∀ n ∈ names, n ≠ [] ∧ ∀ c ∈ n, c ≠ c!"." ∧ c ≠ c!"[" ∧ c ≠ c!"]") :
    splitPath (List.intercalate [46] names) = names := by
  unfold splitPath
  induction names with
  | nil => rfl
  | cons n names ih =>
    have hn := h n List.mem_cons_self
    cases names with
    | nil =>
      have := split_name [] n [] hn.2
      simp only [List.append_nil, List.nil_append] at this
      simp [List.intercalate, this, splitLoop, hn.1]
    | cons n' names =>
      have e : List.intercalate [46] (n :: n' :: names) = n ++ (46 :: List.intercalate [46] (n' :: names)) := by
        simp [List.intercalate]
      rw [e, split_name _ _ _ hn.2, splitLoop]
      simp only [true_and, if_true]
      rw [ih fun x hx => h x (List.mem_cons_of_mem _ hx)]
      simp [hn.1]

/-- A path with an index and one with `*`. -/
theorem C150_example (num : Bytes → Option Nat) (h : num b!"1" = some 1) :
    splitPath b!"users[*].name" = [b!"users", b!"*", b!"name"] ∧
    sanitize num [(b!"a[1].n", [List.reverse, fun s => s ++ b!"!"])]
      (.obj [(b!"a", .arr [.obj [(b!"n", .str b!"xy")], .obj [(b!"n", .str b!"zw"), (b!"m", .str b!"zw")]])]) =
      .obj [(b!"a", .arr [.obj [(b!"n", .str b!"xy")], .obj [(b!"n", .str b!"wz!"), (b!"m", .str b!"zw")]])] := by
  refine ⟨by rfl, ?_⟩
  have e : splitPath b!"a[1].n" = [b!"a", b!"1", b!"n"] := by rfl
  simp only [sanitize, e]
  simp [traverse, setMember, setItem, h, applyNode]

end Verif.Valid
