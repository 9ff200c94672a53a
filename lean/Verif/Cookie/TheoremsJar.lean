import Verif.Cookie.TheoremsCookies

/-! C70: the cookie jar, and the messages that carry it. -/

namespace Verif.Cookie
open Utility Utility.Spec Spec

/-- The calls that change a jar: `add(cookie)`, `add(name, value)`, `remove(name)`. -/
inductive Op
  | add (c : Cookie)
  | addPair (name value : Bytes)
  | remove (name : Bytes)

/-- The calls applied to a jar. -/
def Op.run (j : Jar) : Op → Jar
  | .add c => j.add c
  | .addPair n v => j.addPair n v
  | .remove n => (j.remove n).1

/-- The cookie a call stores, and the name it is about. -/
def Op.stores : Op → Option Cookie
  | .add c => some c
  | .addPair n v => some { name := n, value := v }
  | .remove _ => none
def Op.name : Op → Bytes
  | .add c => c.name
  | .addPair n _ => n
  | .remove n => n

theorem addPair_eq (j : Jar) (n v : Bytes) : j.addPair n v = j.add { name := n, value := v } := rfl

theorem lookup_map {α} (d : List (Bytes × α)) (n : Bytes) (c : α) (k : Bytes) :
    lookup (d.map fun e => if iequals e.1 n then (e.1, c) else e) k =
      if iequals n k then (lookup d k).map (fun _ => c) else lookup d k := by
  unfold lookup
  rw [List.find?_map]
  have : ((fun e : Bytes × α => iequals e.1 k) ∘ fun e : Bytes × α => if iequals e.1 n then (e.1, c) else e) =
      fun e => iequals e.1 k := by
    funext e
    simp only [Function.comp]
    split <;> rfl
  rw [this]
  cases hf : d.find? (fun e => iequals e.1 k) with
  | none => simp
  | some e =>
    have he : iequals e.1 k = true := by simpa using List.find?_some hf
    cases hn : iequals n k with
    | true =>
      have : iequals e.1 n = true := by
        rw [iequals_congr he, iequals_comm]; exact hn
      simp [this]
    | false =>
      have : iequals e.1 n = false := by
        rw [Bool.eq_false_iff]; intro h
        rw [iequals_congr h] at he; rw [hn] at he; simp at he
      simp [this]

theorem get_add (j : Jar) (c : Cookie) (k : Bytes) :
    (j.add c).get k = if iequals c.name k then some c else j.get k := by
  unfold Jar.add Jar.get
  by_cases h : (lookup j c.name).isSome = true
  · rw [if_pos h, lookup_map]
    cases hn : iequals c.name k with
    | false => rfl
    | true =>
      obtain ⟨w, hw⟩ := Option.isSome_iff_exists.1 h
      obtain ⟨m, hm, hs⟩ := lookup_some hw
      have : lookup j k ≠ none := fun hc => lookup_none.1 hc _ hm (SameName.trans hs (ieq.1 hn))
      cases hl : lookup j k with
      | none => exact absurd hl this
      | some x => simp
  · rw [if_neg h, lookup_append]
    cases hn : iequals c.name k with
    | false => simp
    | true =>
      have h0 : lookup j c.name = none := by simpa using h
      have : lookup j k = none := by
        rw [lookup_none] at h0 ⊢
        intro e he hs
        exact h0 e he (SameName.trans hs (SameName.symm (ieq.1 hn)))
      simp [this]

theorem get_remove (j : Jar) (n k : Bytes) :
    (j.remove n).1.get k = if iequals n k then none else j.get k := by
  unfold Jar.remove Jar.get
  simp only []
  cases hn : iequals n k with
  | true =>
    rw [if_pos rfl, lookup_none]
    intro e he hs
    rw [List.mem_filter] at he
    have : iequals e.1 n = true := ieq.2 (SameName.trans hs (SameName.symm (ieq.1 hn)))
    simp [this] at he
  | false =>
    rw [if_neg (by simp)]
    unfold lookup
    rw [List.find?_filter]
    congr 1
    have : (fun e : Bytes × Cookie => !iequals e.1 n && iequals e.1 k) = fun e => iequals e.1 k := by
      funext e
      cases he : iequals e.1 k with
      | false => simp
      | true =>
        have : iequals e.1 n = false := by
          rw [Bool.eq_false_iff]; intro h
          rw [iequals_congr h] at he; rw [hn] at he; simp at he
        simp [this]
    simpa using congrArg (fun f => List.find? f j) this

theorem get_run (j : Jar) (o : Op) (k : Bytes) : (o.run j).get k = if iequals o.name k then o.stores else j.get k := by
  cases o with
  | add c => exact get_add j c k
  | addPair n v => exact get_add j { name := n, value := v } k
  | remove n => exact get_remove j n k

/-- C70: after any history of calls, the jar holds for a name exactly what the last call about that name
(up to case) left: the cookie it added, or nothing if it removed it or no call was about it. -/
theorem C70_last_call (ops : List Op) (k : Bytes) (c : Cookie) :
    Jar.get (ops.foldl Op.run []) k = some c ↔
      ∃ l o r, ops = l ++ o :: r ∧ SameName o.name k ∧ o.stores = some c ∧ ∀ o' ∈ r, ¬ SameName o'.name k := by
  have snoc : ∀ (l : List Op), (∃ r o, l = r ++ [o]) ∨ l = [] := by
    intro l
    rcases List.eq_nil_or_concat l with h | ⟨r, o, h⟩
    · exact Or.inr h
    · exact Or.inl ⟨r, o, by simpa using h⟩
  generalize hn : ops.length = n
  induction n generalizing ops with
  | zero =>
    have : ops = [] := List.length_eq_zero_iff.1 hn
    subst this
    simp [Jar.get, lookup]
  | succ n ih =>
    rcases snoc ops with ⟨r, o, rfl⟩ | rfl
    · rw [List.foldl_append, List.foldl_cons, List.foldl_nil, get_run]
      by_cases h : iequals o.name k = true
      · rw [if_pos h]
        constructor
        · intro hs
          exact ⟨r, o, [], rfl, ieq.1 h, hs, by simp⟩
        · rintro ⟨l, o', r', e, h1, h2, h3⟩
          rcases snoc r' with ⟨r'', o'', rfl⟩ | rfl
          · have e2 : r ++ [o] = (l ++ o' :: r'') ++ [o''] := by simpa using e
            have : o = o'' := by simpa using (List.append_inj' e2 rfl).2
            subst this
            exact absurd (ieq.1 h) (h3 o (by simp))
          · have : o = o' := by simpa using (List.append_inj' e rfl).2
            subst this; exact h2
      · rw [if_neg h]
        refine Iff.trans (ih r (by simpa using hn)) ?_
        constructor
        · rintro ⟨l, o', r', rfl, h1, h2, h3⟩
          refine ⟨l, o', r' ++ [o], by simp, h1, h2, ?_⟩
          intro x hx
          rcases List.mem_append.1 hx with hx | hx
          · exact h3 x hx
          · simp only [List.mem_singleton] at hx; subst hx
            exact fun hs => h (ieq.2 hs)
        · rintro ⟨l, o', r', e, h1, h2, h3⟩
          rcases snoc r' with ⟨r'', o'', rfl⟩ | rfl
          · have e2 : r ++ [o] = (l ++ o' :: r'') ++ [o''] := by simpa using e
            exact ⟨l, o', r'', (List.append_inj' e2 rfl).1, h1, h2, fun x hx => h3 x (by simp [hx])⟩
          · have : o = o' := by simpa using (List.append_inj' e rfl).2
            subst this; exact absurd (ieq.2 h1) h
    · simp at hn

/-- C70: `remove` tells whether the jar held the name. -/
theorem C70_remove_result (j : Jar) (n : Bytes) : (j.remove n).2 = true ↔ ∃ c, j.get n = some c := by
  unfold Jar.remove Jar.get
  exact Option.isSome_iff_exists

/-- C70: the jar never holds two entries for a name. -/
theorem C70_one_entry (ops : List Op) :
    (ops.foldl Op.run ([] : Jar)).Pairwise fun a b => ¬ SameName a.1 b.1 := by
  have add : ∀ (j : Jar) c, j.Pairwise (fun a b => ¬ SameName a.1 b.1) →
      (j.add c).Pairwise fun a b => ¬ SameName a.1 b.1 := by
    intro j c h
    unfold Jar.add
    split
    · rw [List.pairwise_map]
      refine h.imp ?_
      intro a b hab
      split <;> split <;> exact hab
    · rename_i h0
      rw [List.pairwise_append]
      refine ⟨h, by simp, ?_⟩
      intro a ha b hb
      simp only [List.mem_singleton] at hb; subst hb
      have : lookup j c.name = none := by simpa using h0
      exact lookup_none.1 this a ha
  have : ∀ (j : Jar), j.Pairwise (fun a b => ¬ SameName a.1 b.1) →
      (ops.foldl Op.run j).Pairwise fun a b => ¬ SameName a.1 b.1 := by
    induction ops with
    | nil => exact fun j h => h
    | cons o ops ih =>
      intro j h
      rw [List.foldl_cons]
      apply ih
      cases o with
      | add c => exact add j c h
      | addPair n v => exact add j { name := n, value := v } h
      | remove n => exact h.filter _
  exact this [] List.Pairwise.nil

theorem request_fold (d : List (Bytes × Bytes)) (j : Jar) (hd : d.Pairwise fun a b => ¬ SameName a.1 b.1)
    (hj : ∀ e ∈ d, j.get e.1 = none) (k : Bytes) :
    Jar.get (d.foldl (fun j e => Jar.addPair j e.1 e.2) j) k =
      (j.get k).or ((d.find? fun e => iequals e.1 k).map fun e => { name := e.1, value := e.2 }) := by
  induction d generalizing j with
  | nil => simp
  | cons a d ih =>
    rw [List.pairwise_cons] at hd
    rw [List.foldl_cons, ih _ hd.2, addPair_eq, get_add]
    · simp only []
      cases ha : iequals a.1 k with
      | false => simp [ha]
      | true =>
        have : j.get k = none := by
          have := hj a (by simp)
          unfold Jar.get at this ⊢
          rw [lookup_none] at this ⊢
          intro e he hs
          exact this e he (SameName.trans hs (SameName.symm (ieq.1 ha)))
        simp [ha, this]
    · intro e he
      rw [addPair_eq, get_add]
      simp only []
      rw [if_neg, hj e (by simp [he])]
      intro h
      exact hd.1 e he (ieq.1 h)

/-- C70: parsing a well-formed `Cookie` header of a request makes every cookie in it readable by name: the
request's jar holds, for each name, the value of its first occurrence, and nothing else. -/
theorem C70_request (ps : List (Bytes × Bytes × Bytes)) (h : ∀ p ∈ ps, CookieName p.1 ∧ CookieText p.2.1 p.2.2)
    (hl : (render ps).length ≤ 16 * 1024) :
    ∃ j, requestCookies (render ps) = some j ∧ ∀ k, FirstOf (namesValues ps) k ((Jar.get j k).map (·.value)) := by
  obtain ⟨d, hd, hk⟩ := C69_wellformed ps h hl
  unfold requestCookies
  by_cases h0 : render ps = []
  · rw [if_pos (by simpa using h0)]
    refine ⟨[], rfl, ?_⟩
    rw [h0] at hd
    simp [parseCookies] at hd
    subst hd
    exact hk
  · rw [if_neg (by simpa using h0), hd]
    refine ⟨_, rfl, fun k => ?_⟩
    rw [request_fold d [] (C69_entries _ _ _ hd).2.2.1 (by simp [Jar.get, lookup])]
    have := hk k
    unfold lookup at this
    have e : ∀ o : Option (Bytes × Bytes), (o.map (fun e => ({ name := e.1, value := e.2 } : Cookie))).map (·.value) = o.map (·.2) := by
      intro o; cases o <;> rfl
    have g : Jar.get [] k = none := rfl
    rw [g, Option.none_or, e]
    exact this

/-- C70: the `Set-Cookie` headers of a response are read so that, for each name, the last readable header
about it counts. -/
theorem C70_response (toInt : Bytes → Option Int) (hs : List Bytes) (k : Bytes) (c : Cookie) :
    Jar.get (responseCookies toInt hs) k = some c ↔
      ∃ l h r, hs = l ++ h :: r ∧ parseSetCookie toInt h = some c ∧ SameName c.name k ∧
        ∀ h' ∈ r, ∀ c', parseSetCookie toInt h' = some c' → ¬ SameName c'.name k := by
  have key : ∀ (j : Jar), Jar.get (hs.foldl (addParsed toInt) j) k = some c ↔
      (∃ l h r, hs = l ++ h :: r ∧ parseSetCookie toInt h = some c ∧ SameName c.name k ∧
        ∀ h' ∈ r, ∀ c', parseSetCookie toInt h' = some c' → ¬ SameName c'.name k) ∨
      (j.get k = some c ∧ ∀ h' ∈ hs, ∀ c', parseSetCookie toInt h' = some c' → ¬ SameName c'.name k) := by
    induction hs with
    | nil => intro j; simp
    | cons a hs ih =>
      intro j
      rw [List.foldl_cons, ih]
      constructor
      · rintro (⟨l, h, r, rfl, h1⟩ | ⟨h1, h2⟩)
        · exact Or.inl ⟨a :: l, h, r, rfl, h1⟩
        · cases ha : parseSetCookie toInt a with
          | none =>
            unfold addParsed at h1
            rw [ha] at h1
            refine Or.inr ⟨h1, ?_⟩
            intro h' hm c' hc'
            rcases List.mem_cons.1 hm with rfl | hm
            · rw [ha] at hc'; simp at hc'
            · exact h2 h' hm c' hc'
          | some c0 =>
            unfold addParsed at h1
            rw [ha] at h1
            simp only at h1
            rw [get_add] at h1
            by_cases hn : iequals c0.name k = true
            · rw [if_pos hn] at h1
              simp only [Option.some.injEq] at h1; subst h1
              exact Or.inl ⟨[], a, hs, rfl, ha, ieq.1 hn, h2⟩
            · rw [if_neg hn] at h1
              refine Or.inr ⟨h1, ?_⟩
              intro h' hm c' hc'
              rcases List.mem_cons.1 hm with rfl | hm
              · rw [ha] at hc'; simp only [Option.some.injEq] at hc'; subst hc'
                exact fun hs => hn (ieq.2 hs)
              · exact h2 h' hm c' hc'
      · rintro (⟨l, h, r, e, h1, h2, h3⟩ | ⟨h1, h2⟩)
        · cases l with
          | nil =>
            simp only [List.nil_append, List.cons.injEq] at e
            obtain ⟨rfl, rfl⟩ := e
            refine Or.inr ⟨?_, h3⟩
            unfold addParsed
            rw [h1]; simp only []
            rw [get_add, if_pos (ieq.2 h2)]
          | cons b l =>
            simp only [List.cons_append, List.cons.injEq] at e
            obtain ⟨rfl, rfl⟩ := e
            exact Or.inl ⟨l, h, r, rfl, h1, h2, h3⟩
        · unfold addParsed
          refine Or.inr ⟨?_, fun h' hm => h2 h' (by simp [hm])⟩
          cases ha : parseSetCookie toInt a with
          | none => exact h1
          | some c0 =>
            simp only []
            rw [get_add, if_neg, h1]
            exact fun hn => h2 a (by simp) c0 ha (ieq.1 hn)
  have := key []
  unfold responseCookies
  rw [this]
  simp [Jar.get, lookup]

open Classical in
/-- C70: writing a changed cookie back to a response replaces every `Set-Cookie` header of that cookie by
one, its current serialization, and leaves the headers of other cookies as they were, in order. A name
the jar does not hold changes nothing. -/
theorem C70_update_header (j : Jar) (hs hs' : List Bytes) (name : Bytes)
    (h : updateCookieHeader j hs name = some hs') :
    (j.get name = none ∧ hs' = hs) ∨
    ∃ c t, j.get name = some c ∧ toHeader c = some t ∧
      hs' = hs.filter (fun v => decide (¬ SetFor v c.name)) ++ [t] := by
  unfold updateCookieHeader at h
  cases hg : j.get name with
  | none => rw [hg] at h; simp at h; exact Or.inl ⟨rfl, h.symm⟩
  | some c =>
    rw [hg] at h
    simp only at h
    cases ht : toHeader c with
    | none => rw [ht] at h; simp at h
    | some t =>
      rw [ht] at h
      simp only [Option.some.injEq] at h
      refine Or.inr ⟨c, t, rfl, ht, ?_⟩
      rw [← h]
      congr 1
      apply List.filter_congr
      intro v _
      cases hf : findChar c!"=" v with
      | none =>
        simp only []
        symm
        rw [decide_eq_true_eq]
        rintro ⟨a, b, rfl, _, _⟩
        have := findChar_none_iff.1 hf
        simp at this
      | some ab =>
        obtain ⟨a, b⟩ := ab
        simp only []
        obtain ⟨rfl, ha⟩ := findChar_some_iff.1 hf
        have : SetFor (a ++ c!"=" :: b) c.name ↔ iequals a c.name = true := by
          constructor
          · rintro ⟨a', b', e, ha', hs⟩
            have e2 : findChar c!"=" (a ++ c!"=" :: b) = some (a', b') := by
              rw [e, show a' ++ [c!"="] ++ b' = a' ++ c!"=" :: b' by simp, findChar_app ha']
            rw [hf] at e2
            simp only [Option.some.injEq, Prod.mk.injEq] at e2
            rw [e2.1]; exact ieq.2 hs
          · intro hi
            exact ⟨a, b, by simp, ha, ieq.1 hi⟩
        cases hi : iequals a c.name with
        | true => simp [this, hi]
        | false => simp [this, hi]

/-- C70: after the update, the response's headers give back the jar's cookie. -/
theorem C70_update_readable (toInt : Bytes → Option Int) (j : Jar) (hs hs' : List Bytes) (name : Bytes)
    (h : updateCookieHeader j hs name = some hs') (c c' : Cookie) (t : Bytes) (hg : j.get name = some c)
    (ht : toHeader c = some t) (hp : parseSetCookie toInt t = some c') (hn : SameName c'.name name) :
    Jar.get (responseCookies toInt hs') name = some c' := by
  rcases C70_update_header j hs hs' name h with ⟨h1, _⟩ | ⟨c0, t0, h1, h2, h3⟩
  · rw [hg] at h1; simp at h1
  · rw [hg] at h1
    simp only [Option.some.injEq] at h1; subst h1
    rw [ht] at h2
    simp only [Option.some.injEq] at h2; subst h2
    rw [C70_response]
    exact ⟨_, t, [], h3, hp, hn, by simp⟩

example : Jar.get ([Op.addPair b!"a" b!"1", .addPair b!"B" b!"2", .addPair b!"A" b!"3", .remove b!"b"].foldl Op.run []) b!"a" =
    some { name := b!"A", value := b!"3" } := by decide +kernel
example : updateCookieHeader [(b!"a", { name := b!"a", value := b!"2", path := [] })]
    [b!"x=1", b!"A=1; Path=/", b!"a=9", b!"b=1"] b!"A" = some [b!"x=1", b!"b=1", b!"a=2"] := by decide +kernel

end Verif.Cookie
