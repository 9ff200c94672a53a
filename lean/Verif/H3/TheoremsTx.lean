import Verif.H3.ModelTx

/-! C158-C159: the body handed to `nghttp3`, and what `drain` forwards. -/

namespace Verif.H3

/-! ### The body -/

/-- What holds of a stream after any history. -/
def TxOk (x : Tx × TxLog) : Prop :=
  (x.1.submitted = false → x.2 = {}) ∧
  (x.1.submitted = true → x.2.taken = [x.1.body] ∧ x.1.offset ≤ x.1.body.length ∧ x.2.out.flatten = x.1.body.take x.1.offset ∧
    (x.2.ended = true → x.1.offset = x.1.body.length))

theorem txStep_ok (x : Tx × TxLog) (op : TxOp) (h : TxOk x) : TxOk (txStep x op) := by
  obtain ⟨t, l⟩ := x
  obtain ⟨h1, h2⟩ := h
  simp only at h1 h2
  cases op with
  | submit o body =>
    unfold txStep Tx.submit
    simp only
    by_cases hs : t.submitted = true
    · simp only [hs, if_true, Bool.not_true, Bool.false_and, Bool.false_eq_true, if_false]
      exact ⟨fun h => (by rw [hs] at h; cases h), h2⟩
    · simp only [Bool.not_eq_true] at hs
      have hl := h1 hs
      simp only [hs, Bool.false_eq_true, if_false, Bool.not_false, Bool.true_and]
      by_cases ho : o.lengths = true
      · simp only [ho, Bool.not_true, Bool.false_eq_true, if_false]
        by_cases hf : o.fields = true
        · simp only [hf, Bool.not_true, Bool.false_eq_true, if_false]
          by_cases ht : o.taken = true
          · simp only [ht, Bool.not_true, Bool.false_eq_true, if_false, if_true]
            refine ⟨fun h => (by cases h), fun _ => ?_⟩
            simp [hl]
          · simp only [ht, Bool.not_false, if_true, Bool.false_eq_true, if_false]
            exact ⟨fun _ => hl, fun h => (by cases h)⟩
        · simp only [hf, Bool.not_false, if_true, Bool.false_eq_true, if_false]
          exact ⟨fun _ => hl, fun h => (by cases h)⟩
      · simp only [ho, Bool.not_false, if_true, hs, Bool.false_eq_true, if_false]
        exact ⟨fun _ => hl, fun h => (by rw [hs] at h; cases h)⟩
  | read room =>
    unfold txStep
    simp only
    by_cases hs : t.submitted = true
    · simp only [hs, Bool.not_true, Bool.false_eq_true, if_false]
      obtain ⟨a, b, c, d⟩ := h2 hs
      unfold Tx.read
      by_cases ho : t.offset ≥ t.body.length
      · rw [if_pos ho]
        refine ⟨fun h => (by simp only at h; rw [hs] at h; cases h), fun _ => ⟨a, b, ?_, fun _ => by simp only; omega⟩⟩
        simp only [List.flatten_append, List.flatten_cons, List.flatten_nil, List.append_nil]
        exact c
      · rw [if_neg ho]
        by_cases hr : (room == 0) = true
        · rw [if_pos hr]
          exact ⟨fun h => (by simp only at h; rw [hs] at h; cases h), fun _ => ⟨a, b, c, d⟩⟩
        · rw [if_neg hr]
          refine ⟨fun h => (by simp only at h; rw [hs] at h; cases h), fun _ => ⟨a, Nat.le_refl _, ?_, fun _ => rfl⟩⟩
          simp only [List.flatten_append, List.flatten_cons, List.flatten_nil, List.append_nil, c, List.take_append_drop, List.take_length]
    · simp only [Bool.not_eq_true] at hs
      simp only [hs, Bool.not_false, if_true]
      exact ⟨h1, h2⟩

theorem txFold_ok (ops : List TxOp) (x : Tx × TxLog) (h : TxOk x) : TxOk (ops.foldl txStep x) := by
  induction ops generalizing x with
  | nil => exact h
  | cons op ops ih => exact ih _ (txStep_ok x op h)

/-- C158. Whatever is submitted on a stream, in whatever order with the requests for data: at most one message is taken; what is handed out
is a prefix of its body, all of it once the end was told; and nothing is handed out before. -/
theorem C158_one_body (ops : List TxOp) :
    ((txRun ops).2.taken = [] ∧ (txRun ops).2.out = [] ∧ (txRun ops).2.ended = false) ∨
    ∃ body, (txRun ops).2.taken = [body] ∧ (∃ rest, body = (txRun ops).2.out.flatten ++ rest) ∧
      ((txRun ops).2.ended = true → (txRun ops).2.out.flatten = body) := by
  have h0 : TxOk (txRun ops) := txFold_ok ops ({}, {}) ⟨fun _ => rfl, fun h => (by cases h)⟩
  obtain ⟨h1, h2⟩ := h0
  cases hs : (txRun ops).1.submitted with
  | false =>
    left
    rw [h1 hs]; exact ⟨rfl, rfl, rfl⟩
  | true =>
    right
    obtain ⟨a, b, c, d⟩ := h2 hs
    refine ⟨_, a, ⟨_, (by rw [c]; exact (List.take_append_drop _ _).symm)⟩, fun he => ?_⟩
    rw [c, d he, List.take_length]

/-- C158. The buffer `nghttp3` points into is never changed: after a message was taken the body stays what it is, whatever happens. -/
theorem C158_buffer_stays (before after : List TxOp) (h : (txRun before).1.submitted = true) :
    (txRun (before ++ after)).1.body = (txRun before).1.body ∧ (txRun (before ++ after)).1.submitted = true := by
  have key : ∀ (ops : List TxOp) (x : Tx × TxLog), x.1.submitted = true → (ops.foldl txStep x).1.body = x.1.body ∧ (ops.foldl txStep x).1.submitted = true := by
    intro ops
    induction ops with
    | nil => exact fun x hx => ⟨rfl, hx⟩
    | cons op ops ih =>
      intro x hx
      have hstep : (txStep x op).1.body = x.1.body ∧ (txStep x op).1.submitted = true := by
        cases op with
        | submit o b => simp [txStep, Tx.submit, hx]
        | read room =>
          simp only [txStep, hx, Bool.not_true, Bool.false_eq_true, if_false, Tx.read]
          by_cases ho : x.1.offset ≥ x.1.body.length
          · rw [if_pos ho]; exact ⟨rfl, hx⟩
          · rw [if_neg ho]
            by_cases hr : (room == 0) = true
            · rw [if_pos hr]; exact ⟨rfl, hx⟩
            · rw [if_neg hr]; exact ⟨rfl, rfl⟩
      obtain ⟨a, b⟩ := ih _ hstep.2
      exact ⟨a.trans hstep.1, b⟩
  unfold txRun
  rw [List.foldl_append]
  exact key after _ h

/-- A refused submission, one that is taken, and a second one that is refused; then the data is asked for twice. -/
example : txRun [.submit ⟨true, false, true, true⟩ b!"x", .submit ⟨true, true, true, true⟩ b!"hello", .submit ⟨true, true, true, true⟩ b!"y", .read 8, .read 8] =
    (⟨b!"hello", 5, true⟩, ⟨[b!"hello"], [b!"hello", []], true⟩) := by decide

/-! ### `drain` -/

/-- The bytes forwarded on a stream. -/
def sentOn (acts : List Act) (sid : Nat) : Bytes := (acts.filterMap fun a => match a with
  | .send s d => if s = sid then some d else none
  | _ => none).flatten

/-- The bytes `nghttp3` was told are out. -/
def offsetOn (acts : List Act) (sid : Nat) : Nat := (acts.filterMap fun a => match a with
  | .offset s n => if s = sid then some n else none
  | _ => none).sum

theorem sentOn_append (a b : List Act) (s : Nat) : sentOn (a ++ b) s = sentOn a s ++ sentOn b s := by simp [sentOn]
theorem offsetOn_append (a b : List Act) (s : Nat) : offsetOn (a ++ b) s = offsetOn a s + offsetOn b s := by simp [offsetOn]

theorem pieces_prefix (ns : List Nat) (d : Bytes) : d = (pieces ns d).flatten ++ d.drop (pieces ns d).flatten.length := by
  induction ns generalizing d with
  | nil => simp [pieces]
  | cons n ns ih =>
    rw [pieces, List.flatten_cons, List.length_append, List.append_assoc, ← List.drop_drop]
    have hd : d.drop (d.take n).length = d.drop n := by
      rw [List.length_take]
      by_cases h : n ≤ d.length
      · rw [Nat.min_eq_left h]
      · rw [Nat.min_eq_right (by omega), List.drop_of_length_le (by omega), List.drop_of_length_le (by omega)]
    rw [hd, ← ih (d.drop n), List.take_append_drop]

theorem sendLoop_spec (sid : Nat) (ps : List Bytes) (n : Nat) (c : Out) (ha : c.alive = true) :
    ∃ q r, ps.flatten = q ++ r ∧ (sendLoop sid ps n c).1.bad = c.bad ∧ (sendLoop sid ps n c).1.left = c.left ∧ (sendLoop sid ps n c).1.ends = c.ends ∧
      (sendLoop sid ps n c).1.told = c.told ∧ ((sendLoop sid ps n c).1.alive = true → r = [] ∧ (sendLoop sid ps n c).2 = n + ps.flatten.length) ∧
      ∃ new, (sendLoop sid ps n c).1.acts = c.acts ++ new ∧ (∀ a ∈ new, ∃ d, a = .send sid d) ∧ sentOn new sid = q := by
  induction ps generalizing n c with
  | nil => exact ⟨[], [], rfl, rfl, rfl, rfl, rfl, fun _ => ⟨rfl, rfl⟩, [], by simp [sendLoop], by simp, rfl⟩
  | cons d ps ih =>
    rw [sendLoop]
    by_cases hd : d.isEmpty = true
    · rw [if_pos hd]
      have : d = [] := List.isEmpty_iff.1 hd
      subst this
      simpa using ih n c ha
    · rw [if_neg hd]
      by_cases hk : (c.call (.send sid d)).alive = true
      · simp only [hk, Bool.not_true, Bool.false_eq_true, if_false]
        obtain ⟨q, r, h1, h2, h3, h4, h5, h6, new, h7, h8, h9⟩ := ih (n + d.length) (c.call (.send sid d)) hk
        refine ⟨d ++ q, r, by rw [List.flatten_cons, h1, List.append_assoc], by rw [h2]; simp [Out.call, ha], h3, h4, h5, fun h => ?_, .send sid d :: new, ?_, ?_, ?_⟩
        · obtain ⟨a, b⟩ := h6 h
          exact ⟨a, by rw [b, List.flatten_cons, List.length_append]; omega⟩
        · rw [h7]; simp [Out.call]
        · intro a hm
          rcases List.mem_cons.1 hm with rfl | hm
          · exact ⟨d, rfl⟩
          · exact h8 a hm
        · rw [← h9]; simp [sentOn]
      · simp only [hk, Bool.not_false, if_true]
        refine ⟨d, ps.flatten, rfl, by simp [Out.call, ha], rfl, rfl, rfl, fun h => (by cases h), [.send sid d], rfl, ?_, by simp [sentOn]⟩
        intro a hm; exact ⟨d, by simpa using hm⟩

/-- What holds of a connection at any time; `ds` are the streams to be told of. -/
structure OutOk (total : Nat → Bytes) (closed : Nat → Bool) (ds : List Nat) (c : Out) : Prop where
  bytes : ∀ s, ∃ t, total s = sentOn c.acts s ++ t ∧ (c.alive = true → t = c.left s)
  offs : c.alive = true → ∀ s, offsetOn c.acts s = (sentOn c.acts s).length
  fins : ∀ s, c.acts.count (.fin s) ≤ 1 ∧ (.fin s ∈ c.acts → sentOn c.acts s = total s ∧ closed s = true) ∧
    (c.ends s = true → closed s = true ∧ (c.alive = true → .fin s ∉ c.acts))
  once : ∀ s, c.acts.count (.drained s) + ds.count s ≤ if c.told s then 1 else 0
  after : ∀ s, s ∈ ds ∨ .drained s ∈ c.acts → .fin s ∈ c.acts
  good : c.bad = false

theorem notify_ok {total : Nat → Bytes} {closed : Nat → Bool} (ds : List Nat) (c : Out) (h : OutOk total closed ds c) :
    OutOk total closed [] (notifyLoop ds c) := by
  induction ds generalizing c with
  | nil => exact h
  | cons s ds ih =>
    rw [notifyLoop]
    by_cases ha : c.alive = true
    · simp only [ha, Bool.not_true, Bool.false_eq_true, if_false]
      apply ih
      obtain ⟨h1, h2, h3, h4, h5, h6⟩ := h
      have hacts : (c.call (.drained s)).acts = c.acts ++ [.drained s] := rfl
      have hal : (c.call (.drained s)).alive = true → c.alive = true := fun _ => ha
      have hs : ∀ s', sentOn (c.acts ++ [.drained s]) s' = sentOn c.acts s' := by intro s'; rw [sentOn_append]; simp [sentOn]
      have ho : ∀ s', offsetOn (c.acts ++ [.drained s]) s' = offsetOn c.acts s' := by intro s'; rw [offsetOn_append]; simp [offsetOn]
      have hm : ∀ s', Act.fin s' ∈ c.acts ++ [.drained s] ↔ .fin s' ∈ c.acts := by intro s'; simp
      refine ⟨?_, ?_, ?_, ?_, ?_, ?_⟩
      · intro s'; rw [hacts, hs]; obtain ⟨t, e1, e2⟩ := h1 s'; exact ⟨t, e1, fun _ => e2 ha⟩
      · intro _ s'; rw [hacts, hs, ho]; exact h2 ha s'
      · intro s'; rw [hacts, hs, hm]
        obtain ⟨a, b, d⟩ := h3 s'
        exact ⟨by simpa [List.count_append] using a, b, fun he => ⟨(d he).1, fun _ => (d he).2 ha⟩⟩
      · intro s'; rw [hacts]
        have := h4 s'
        simp only [List.count_append, List.count_cons, List.count_nil] at this ⊢
        show _ ≤ if c.told s' then 1 else 0
        have e : (Act.drained s == Act.drained s') = (s == s') := by
          by_cases h : s = s'
          · subst h; rw [beq_self_eq_true, beq_self_eq_true]
          · rw [beq_eq_false_iff_ne.2 h, beq_eq_false_iff_ne.2 (fun hh => h (Act.drained.inj hh))]
        rw [e]; omega
      · intro s'; rw [hacts, hm]
        rintro (h | h)
        · exact h5 s' (.inl (List.mem_cons_of_mem _ h))
        · rcases List.mem_append.1 h with h | h
          · exact h5 s' (.inr h)
          · simp only [List.mem_singleton, Act.drained.injEq] at h; subst h
            exact h5 s' (.inl List.mem_cons_self)
      · simp [Out.call, ha, h6]
    · rw [if_pos (by simp [ha])]
      obtain ⟨h1, h2, h3, h4, h5, h6⟩ := h
      exact ⟨h1, h2, h3, fun s' => by have := h4 s'; simp only [List.count_nil]; omega, fun s' hs' => h5 s' (.inr (by simpa using hs')), h6⟩

theorem touch_eq {c : Out} (h : c.alive = true) : c.touch = c := by
  cases c; simp only at h; subst h; simp [Out.touch]

theorem drainLoop_ok {total : Nat → Bytes} {closed : Nat → Bool} (budget : Nat) (ws : List Write) (ds : List Nat) (c : Out) (h : OutOk total closed ds c)
    (ha : c.alive = true) : OutOk total closed [] (drainLoop budget ws ds c) := by
  induction budget generalizing ws ds c with
  | zero => rw [drainLoop]; exact notify_ok ds c h
  | succ budget ih =>
    cases ws with
    | nil => rw [drainLoop, touch_eq ha]; exact notify_ok ds c h
    | cons w ws =>
      cases w with
      | idle => rw [drainLoop, touch_eq ha]; exact notify_ok ds c h
      | error code =>
        rw [drainLoop, touch_eq ha]
        obtain ⟨h1, h2, h3, h4, h5, h6⟩ := h
        have hacts : (c.call (.close code)).acts = c.acts ++ [.close code] := rfl
        have hs : ∀ s', sentOn (c.acts ++ [.close code]) s' = sentOn c.acts s' := by intro s'; rw [sentOn_append]; simp [sentOn]
        have ho : ∀ s', offsetOn (c.acts ++ [.close code]) s' = offsetOn c.acts s' := by intro s'; rw [offsetOn_append]; simp [offsetOn]
        have hm : ∀ s', Act.fin s' ∈ c.acts ++ [.close code] ↔ .fin s' ∈ c.acts := by intro s'; simp
        refine ⟨?_, ?_, ?_, ?_, ?_, ?_⟩
        · intro s'; rw [hacts, hs]; obtain ⟨t, e1, e2⟩ := h1 s'; exact ⟨t, e1, fun _ => e2 ha⟩
        · intro _ s'; rw [hacts, hs, ho]; exact h2 ha s'
        · intro s'; rw [hacts, hs, hm]
          obtain ⟨a, b, d⟩ := h3 s'
          exact ⟨by simpa [List.count_append] using a, b, fun he => ⟨(d he).1, fun _ => (d he).2 ha⟩⟩
        · intro s'; rw [hacts]
          have := h4 s'
          simp only [List.count_append, List.count_cons, List.count_nil] at this ⊢
          show _ ≤ if c.told s' then 1 else 0
          have e : (Act.close code == Act.drained s') = false := by simp
          rw [e]; simp; omega
        · intro s'; rw [hacts, hm]
          rintro (h | h)
          · cases h
          · rcases List.mem_append.1 h with h | h
            · exact h5 s' (.inr h)
            · simp at h
        · simp [Out.call, ha, h6]
      | out sid sizes wantFin =>
        rw [drainLoop, touch_eq ha]
        simp only
        obtain ⟨q, r, g1, g2, g3, g4, g5, g6, new, g7, g8, g9⟩ := sendLoop_spec sid (pieces sizes (c.left sid)) 0 c ha
        generalize hfin : (wantFin && c.ends sid && (pieces sizes (c.left sid)).flatten == c.left sid) = fin
        generalize hsl : sendLoop sid (pieces sizes (c.left sid)) 0 c = sl at *
        obtain ⟨c1, acc⟩ := sl
        simp only at g2 g3 g4 g5 g6 g7 ⊢
        obtain ⟨h1, h2, h3, h4, h5, h6⟩ := h
        have hpre := pieces_prefix sizes (c.left sid)
        -- the measures of the new actions
        have n1 : ∀ s, s ≠ sid → sentOn new s = [] := by
          intro s hs
          unfold sentOn
          rw [List.filterMap_eq_nil_iff.2]
          · rfl
          · intro a hm; obtain ⟨d, rfl⟩ := g8 a hm; simp [Ne.symm hs]
        have n2 : ∀ s, offsetOn new s = 0 := by
          intro s
          unfold offsetOn
          rw [List.filterMap_eq_nil_iff.2]
          · rfl
          · intro a hm; obtain ⟨d, rfl⟩ := g8 a hm; rfl
        have n3 : ∀ a, (∀ d, a ≠ .send sid d) → a ∉ new := fun a hne hm => by obtain ⟨d, e⟩ := g8 a hm; exact hne d e
        have n4 : ∀ s, new.count (.fin s) = 0 := fun s => List.count_eq_zero.2 (n3 _ (by simp))
        have n5 : ∀ s, new.count (.drained s) = 0 := fun s => List.count_eq_zero.2 (n3 _ (by simp))
        have n6 : ∀ s, .fin s ∈ c1.acts ↔ .fin s ∈ c.acts := by
          intro s; rw [g7, List.mem_append]; exact ⟨fun h => h.elim id fun h => absurd h (n3 _ (by simp)), .inl⟩
        have n7 : ∀ s, .drained s ∈ c1.acts ↔ .drained s ∈ c.acts := by
          intro s; rw [g7, List.mem_append]; exact ⟨fun h => h.elim id fun h => absurd h (n3 _ (by simp)), .inl⟩
        -- what holds after the pieces
        have bytes1 : ∀ s, ∃ t, total s = sentOn c1.acts s ++ t ∧ (c1.alive = true → t = if s = sid then (c.left s).drop acc else c.left s) := by
          intro s
          obtain ⟨t, e1, e2⟩ := h1 s
          have e2 := e2 ha
          subst e2
          by_cases hs : s = sid
          · subst hs
            rw [g7, sentOn_append, g9]
            refine ⟨r ++ (c.left s).drop (pieces sizes (c.left s)).flatten.length, ?_, fun hal => ?_⟩
            · rw [e1, List.append_assoc, ← List.append_assoc q, ← g1, ← hpre]
            · obtain ⟨rfl, e3⟩ := g6 hal
              rw [if_pos rfl, e3, Nat.zero_add]; rfl
          · rw [g7, sentOn_append, n1 s hs, List.append_nil, if_neg hs]
            exact ⟨_, e1, fun _ => rfl⟩
        have fins1 : ∀ s, c1.acts.count (.fin s) ≤ 1 ∧ (.fin s ∈ c1.acts → sentOn c1.acts s = total s ∧ closed s = true) ∧
            (c.ends s = true → closed s = true ∧ .fin s ∉ c1.acts) := by
          intro s
          obtain ⟨a, b, d⟩ := h3 s
          refine ⟨by rw [g7, List.count_append, n4]; exact a, fun hm => ?_, fun he => ⟨(d he).1, fun hm => (d he).2 ha ((n6 s).1 hm)⟩⟩
          obtain ⟨b1, b2⟩ := b ((n6 s).1 hm)
          refine ⟨?_, b2⟩
          obtain ⟨t, e1, -⟩ := bytes1 s
          rw [g7, sentOn_append] at e1 ⊢
          rw [b1] at e1 ⊢
          have hl : (total s).length = (total s ++ sentOn new s ++ t).length := by rw [← e1]
          simp only [List.length_append] at hl
          have : sentOn new s = [] := List.length_eq_zero_iff.1 (by omega)
          rw [this, List.append_nil]
        have once1 : ∀ s, c1.acts.count (.drained s) + ds.count s ≤ if c.told s then 1 else 0 := by
          intro s; rw [g7, List.count_append, n5]; exact h4 s
        have after1 : ∀ s, s ∈ ds ∨ .drained s ∈ c1.acts → .fin s ∈ c1.acts := by
          intro s hs; rw [n7] at hs; rw [n6]; exact h5 s hs
        by_cases hal : c1.alive = true
        · simp only [hal, Bool.not_true, Bool.false_eq_true, if_false]
          obtain ⟨hr, hacc⟩ := g6 hal
          rw [Nat.zero_add] at hacc
          have offs1 : ∀ s, offsetOn c1.acts s + (if s = sid then acc else 0) = (sentOn c1.acts s).length := by
            intro s
            rw [g7, offsetOn_append, sentOn_append, n2, List.length_append, ← h2 ha s]
            by_cases hs : s = sid
            · subst hs; rw [g9, if_pos rfl, hacc, g1, hr, List.append_nil]; omega
            · rw [n1 s hs, if_neg hs]; simp
          -- the end
          cases fin with
          | false =>
            simp only [Bool.false_eq_true, if_false, hal, Bool.not_true, Bool.false_and, Bool.not_false, Bool.and_true]
            have hnext : OutOk total closed ds (c1.advance sid acc false) := by
              have hacts : (c1.advance sid acc false).acts = c1.acts ++ [.offset sid acc] := rfl
              have hs : ∀ s', sentOn (c1.acts ++ [.offset sid acc]) s' = sentOn c1.acts s' := by intro s'; rw [sentOn_append]; simp [sentOn]
              have hm : ∀ s', Act.fin s' ∈ c1.acts ++ [.offset sid acc] ↔ .fin s' ∈ c1.acts := by intro s'; simp
              refine ⟨?_, ?_, ?_, ?_, ?_, ?_⟩
              · intro s; rw [hacts, hs]
                obtain ⟨t, e1, e2⟩ := bytes1 s
                refine ⟨t, e1, fun _ => ?_⟩
                rw [e2 hal]
                simp only [Out.advance, g3]
              · intro _ s; rw [hacts, hs, offsetOn_append, ← offs1 s]
                by_cases hss : s = sid
                · subst hss; simp [offsetOn]
                · simp [offsetOn, hss, Ne.symm hss]
              · intro s; rw [hacts, hs, hm]
                obtain ⟨a, b, d⟩ := fins1 s
                refine ⟨by simpa [List.count_append] using a, b, fun he => ?_⟩
                have : c.ends s = true := by
                  simp only [Out.advance, g4] at he
                  split at he
                  · simpa using he
                  · exact he
                exact ⟨(d this).1, fun _ => (d this).2⟩
              · intro s; rw [hacts]
                have := once1 s
                show _ ≤ if c1.told s then 1 else 0
                rw [g5]
                simpa [List.count_append] using this
              · intro s; rw [hacts, hm]
                intro hx
                apply after1 s
                simpa using hx
              · simp [Out.advance, hal, g2, h6]
            by_cases hp : (pieces sizes (c.left sid)).isEmpty = true
            · rw [if_pos hp]; exact notify_ok ds _ hnext
            · rw [if_neg hp]; exact ih ws ds _ hnext hal
          | true =>
            simp only [Bool.and_eq_true, beq_iff_eq] at hfin
            obtain ⟨⟨-, hends⟩, hall⟩ := hfin
            simp only [if_true, Bool.true_and, Bool.not_true, Bool.and_false, Bool.false_eq_true, if_false]
            have hsent : sentOn c1.acts sid = total sid := by
              obtain ⟨t, e1, e2⟩ := bytes1 sid
              have e2 := e2 hal
              rw [if_pos rfl, hacc, hall, List.drop_length] at e2
              rw [e1, e2, List.append_nil]
            have hcl := (fins1 sid).2.2 hends
            -- after the call with the end
            have hc2acts : (c1.call (.fin sid)).acts = c1.acts ++ [.fin sid] := rfl
            have hs2 : ∀ s', sentOn (c1.acts ++ [.fin sid]) s' = sentOn c1.acts s' := by intro s'; rw [sentOn_append]; simp [sentOn]
            have ho2 : ∀ s', offsetOn (c1.acts ++ [.fin sid]) s' = offsetOn c1.acts s' := by intro s'; rw [offsetOn_append]; simp [offsetOn]
            have hcnt : ∀ s, (c1.acts ++ [Act.fin sid]).count (Act.fin s) ≤ 1 := by
              intro s
              rw [List.count_append]
              by_cases hss : s = sid
              · subst hss; rw [List.count_eq_zero.2 hcl.2]; simp
              · have := (fins1 s).1
                have e : [Act.fin sid].count (.fin s) = 0 := List.count_eq_zero.2 (by simp [hss])
                omega
            have hfinmem : ∀ s, .fin s ∈ c1.acts ++ [.fin sid] → sentOn c1.acts s = total s ∧ closed s = true := by
              intro s hm
              rcases List.mem_append.1 hm with hm | hm
              · exact (fins1 s).2.1 hm
              · simp only [List.mem_singleton, Act.fin.injEq] at hm; subst hm; exact ⟨hsent, hcl.1⟩
            by_cases hal2 : (c1.call (.fin sid)).alive = true
            · simp only [hal2, Bool.not_true, Bool.false_eq_true, if_false]
              have hacts : ((c1.call (.fin sid)).advance sid acc true).acts = c1.acts ++ [.fin sid] ++ [.offset sid acc] := rfl
              have hs : ∀ s', sentOn (c1.acts ++ [.fin sid] ++ [.offset sid acc]) s' = sentOn c1.acts s' := by
                intro s'; rw [sentOn_append, hs2]; simp [sentOn]
              have hm : ∀ s', Act.fin s' ∈ c1.acts ++ [.fin sid] ++ [.offset sid acc] ↔ .fin s' ∈ c1.acts ++ [.fin sid] := by intro s'; simp
              have base : ∀ ds' (c2 : Out), c2.acts = c1.acts ++ [.fin sid] ++ [.offset sid acc] → c2.left = ((c1.call (.fin sid)).advance sid acc true).left →
                  c2.ends = ((c1.call (.fin sid)).advance sid acc true).ends → c2.bad = false →
                  (∀ s, c1.acts.count (.drained s) + ds'.count s ≤ if c2.told s then 1 else 0) → (∀ s, s ∈ ds' → s ∈ ds ∨ s = sid) →
                  OutOk total closed ds' c2 := by
                intro ds' c2 e1 e2 e3 e4 e5 e6
                refine ⟨?_, ?_, ?_, ?_, ?_, e4⟩
                · intro s; rw [e1, hs]
                  obtain ⟨t, k1, k2⟩ := bytes1 s
                  refine ⟨t, k1, fun _ => ?_⟩
                  rw [k2 hal, e2]
                  simp only [Out.advance, Out.call, g3]
                · intro _ s; rw [e1, hs, offsetOn_append, ho2, ← offs1 s]
                  by_cases hss : s = sid
                  · subst hss; simp [offsetOn]
                  · simp [offsetOn, hss, Ne.symm hss]
                · intro s; rw [e1, hs, hm]
                  refine ⟨by rw [List.count_append]; have := hcnt s; have e : [Act.offset sid acc].count (Act.fin s) = 0 := List.count_eq_zero.2 (by simp); omega, hfinmem s, fun he => ?_⟩
                  rw [e3] at he
                  simp only [Out.advance, Out.call, g4] at he
                  by_cases hss : s = sid
                  · rw [if_pos hss] at he; simp at he
                  · rw [if_neg hss] at he
                    obtain ⟨k1, k2⟩ := (fins1 s).2.2 he
                    refine ⟨k1, fun _ hx => ?_⟩
                    rcases List.mem_append.1 hx with hx | hx
                    · exact k2 hx
                    · simp [hss] at hx
                · intro s; rw [e1]
                  have := e5 s
                  simpa [List.count_append] using this
                · intro s; rw [e1, hm]
                  rintro (hx | hx)
                  · rcases e6 s hx with hx | rfl
                    · exact List.mem_append_left _ (after1 s (.inl hx))
                    · simp
                  · have : .drained s ∈ c1.acts := by simpa using hx
                    exact List.mem_append_left _ (after1 s (.inr this))
              have hbad : ((c1.call (.fin sid)).advance sid acc true).bad = false := by
                simp only [Out.advance, hal2, Bool.not_true, Bool.or_false]
                simp [Out.call, hal, g2, h6]
              have htold : ((c1.call (.fin sid)).advance sid acc true).told = c.told := by
                simp only [Out.advance, Out.call, g5]
              have halive : ((c1.call (.fin sid)).advance sid acc true).alive = true := hal2
              by_cases ht : ((c1.call (.fin sid)).advance sid acc true).told sid = true
              · simp only [ht, Bool.not_true, Bool.false_eq_true, if_false]
                refine ih ws ds _ (base ds _ hacts rfl rfl hbad ?_ fun s hx => .inl hx) halive
                intro s; rw [htold]; exact once1 s
              · simp only [Bool.not_eq_true] at ht
                simp only [ht, Bool.not_false, if_true]
                rw [touch_eq halive]
                refine ih ws (ds ++ [sid]) _ (base (ds ++ [sid]) _ hacts rfl rfl hbad ?_ ?_) halive
                · intro s
                  have := once1 s
                  rw [List.count_append]
                  by_cases hss : s = sid
                  · subst hss
                    rw [htold] at ht
                    rw [ht] at this
                    simp at this ⊢
                    have h0 : List.count s ds = 0 := this.2
                    have h0' : List.count (Act.drained s) c1.acts = 0 := this.1
                    omega
                  · simp only [hss, if_false, htold]
                    have e : [sid].count s = 0 := List.count_eq_zero.2 (by simp [hss])
                    omega
                · intro s hx
                  rcases List.mem_append.1 hx with hx | hx
                  · exact .inl hx
                  · right; simpa using hx
            · simp only [hal2, Bool.not_false, if_true]
              refine ⟨?_, fun h => absurd h hal2, ?_, ?_, ?_, ?_⟩
              · intro s; rw [hc2acts, hs2]
                obtain ⟨t, k1, -⟩ := bytes1 s
                exact ⟨t, k1, fun h => absurd h hal2⟩
              · intro s; rw [hc2acts, hs2]
                refine ⟨hcnt s, hfinmem s, fun he => ⟨((fins1 s).2.2 ?_).1, fun h => absurd h hal2⟩⟩
                simpa [Out.call, g4] using he
              · intro s; rw [hc2acts]
                have := once1 s
                show _ ≤ if c1.told s then 1 else 0
                rw [g5]
                simp only [List.count_append, List.count_nil]
                have e : [Act.fin sid].count (.drained s) = 0 := List.count_eq_zero.2 (by simp)
                omega
              · intro s; rw [hc2acts]
                rintro (hx | hx)
                · cases hx
                · have : .drained s ∈ c1.acts := by simpa using hx
                  exact List.mem_append_left _ (after1 s (.inr this))
              · simp [Out.call, hal, g2, h6]
        · simp only [hal, Bool.not_false, if_true]
          refine ⟨?_, fun h => absurd h hal, ?_, ?_, ?_, by rw [g2]; exact h6⟩
          · intro s
            obtain ⟨t, k1, -⟩ := bytes1 s
            exact ⟨t, k1, fun h => absurd h hal⟩
          · intro s
            refine ⟨(fins1 s).1, (fins1 s).2.1, fun he => ⟨((fins1 s).2.2 ?_).1, fun h => absurd h hal⟩⟩
            rw [g4] at he; exact he
          · intro s
            have := once1 s
            rw [g5]
            simp only [List.count_nil]
            omega
          · rintro s (hx | hx)
            · cases hx
            · exact after1 s (.inr hx)

theorem outRun_ok (kills : List Bool) (ops : List OutOp) :
    OutOk (outRun kills ops).total (outRun kills ops).closed [] (outRun kills ops).c := by
  have key : ∀ (ops : List OutOp) (x : OutRun), OutOk x.total x.closed [] x.c → OutOk (ops.foldl outStep x).total (ops.foldl outStep x).closed [] (ops.foldl outStep x).c := by
    intro ops
    induction ops with
    | nil => exact fun x hx => hx
    | cons op ops ih =>
      intro x hx
      refine ih _ ?_
      cases op with
      | drain ws =>
        unfold outStep
        simp only
        by_cases ha : x.c.alive = true
        · rw [if_pos ha]; exact drainLoop_ok 256 ws [] x.c hx ha
        · rw [if_neg ha]; exact hx
      | more sid d last =>
        unfold outStep
        simp only
        by_cases hc : (!x.c.alive || x.closed sid) = true
        · rw [if_pos hc]; exact hx
        · rw [if_neg hc]
          simp only [Bool.or_eq_true, Bool.not_eq_true', not_or, Bool.not_eq_false, Bool.not_eq_true] at hc
          obtain ⟨h1, h2, h3, h4, h5, h6⟩ := hx
          refine ⟨?_, h2, ?_, h4, h5, h6⟩
          · intro s
            obtain ⟨t, e1, e2⟩ := h1 s
            have e2 := e2 hc.1
            subst e2
            by_cases hs : s = sid
            · simp only [hs, if_true]; subst hs
              exact ⟨x.c.left s ++ d, by rw [e1, List.append_assoc], fun _ => rfl⟩
            · simp only [hs, if_false]
              exact ⟨_, e1, fun _ => rfl⟩
          · intro s
            obtain ⟨a, b, e⟩ := h3 s
            by_cases hs : s = sid
            · subst hs
              have hnf : .fin s ∉ x.c.acts := fun hm => by have := (b hm).2; rw [hc.2] at this; cases this
              simp only [if_true]
              exact ⟨a, fun hm => absurd hm hnf, fun he => ⟨he, fun _ => hnf⟩⟩
            · simp only [hs, if_false]
              exact ⟨a, b, e⟩
  refine key ops _ ⟨?_, ?_, ?_, ?_, ?_, rfl⟩
  · intro s; exact ⟨[], rfl, fun _ => rfl⟩
  · intro _ s; rfl
  · intro s; exact ⟨by simp, by simp, by simp⟩
  · intro s; simp
  · intro s; simp

/-- C159. Whatever `nghttp3` offers and whenever a call to the owner destroys the connection: the bytes forwarded on every stream are
the beginning of what there was to send, in order and once; while the connection is there what is missing is still with
`nghttp3`, which was told of just the bytes that were forwarded. -/
theorem C159_bytes_once (kills : List Bool) (ops : List OutOp) (sid : Nat) :
    let x := outRun kills ops
    (∃ t, x.total sid = sentOn x.c.acts sid ++ t) ∧
      (x.c.alive = true → x.total sid = sentOn x.c.acts sid ++ x.c.left sid ∧ offsetOn x.c.acts sid = (sentOn x.c.acts sid).length) := by
  have h := outRun_ok kills ops
  obtain ⟨t, e1, e2⟩ := h.bytes sid
  exact ⟨⟨t, e1⟩, fun ha => ⟨by rw [← e2 ha]; exact e1, h.offs ha sid⟩⟩

/-- C159. The end of a stream is forwarded at most once, and only after all its bytes; the owner is told that a stream is out at most
once, and only after its end. -/
theorem C159_end_once (kills : List Bool) (ops : List OutOp) (sid : Nat) :
    let x := outRun kills ops
    x.c.acts.count (.fin sid) ≤ 1 ∧ (.fin sid ∈ x.c.acts → sentOn x.c.acts sid = x.total sid) ∧
      x.c.acts.count (.drained sid) ≤ 1 ∧ (.drained sid ∈ x.c.acts → .fin sid ∈ x.c.acts) := by
  have h := outRun_ok kills ops
  refine ⟨(h.fins sid).1, fun hm => ((h.fins sid).2.1 hm).1, ?_, fun hm => h.after sid (.inr hm)⟩
  have := h.once sid
  simp only [List.count_nil] at this
  split at this <;> omega

/-- C159. A connection that was destroyed by a call to the owner is not touched afterwards. -/
theorem C159_no_use_after_death (kills : List Bool) (ops : List OutOp) : (outRun kills ops).c.bad = false := (outRun_ok kills ops).good

/-- Two streams, one of which ends; the fourth call to the owner destroys the connection. -/
example : (outRun [false, false, false, true] [.more 0 b!"hello" true, .more 4 b!"ab" false, .drain [.out 0 [2, 0, 3] true, .out 4 [1] false, .idle, .out 4 [1] false]]).c.acts =
    [.send 0 b!"he", .send 0 b!"llo", .fin 0, .offset 0 5, .send 4 b!"a"] := by decide

/-! ### Every stream is told of -/

/-- What holds while there was no error; `ds` are the streams to be told of. -/
def Told (ds : List Nat) (c : Out) : Prop :=
  c.alive = true → ∀ s, (c.told s = true → s ∈ ds ∨ .drained s ∈ c.acts) ∧ (.fin s ∈ c.acts → c.told s = true)

theorem notify_told (ds : List Nat) (c : Out) (h : Told ds c) : Told [] (notifyLoop ds c) := by
  induction ds generalizing c with
  | nil => exact h
  | cons s ds ih =>
    rw [notifyLoop]
    by_cases ha : c.alive = true
    · simp only [ha, Bool.not_true, Bool.false_eq_true, if_false]
      apply ih
      intro _ s'
      obtain ⟨h1, h2⟩ := h ha s'
      refine ⟨fun ht => ?_, fun hm => h2 (by simpa [Out.call] using hm)⟩
      rcases h1 ht with hd | hd
      · rcases List.mem_cons.1 hd with rfl | hd
        · right; simp [Out.call]
        · exact .inl hd
      · right; simp [Out.call, hd]
    · rw [if_pos (by simp [ha])]; exact fun hx => absurd hx ha

/-- No error is reported. -/
def NoError (ws : List Write) : Prop := ∀ code, Write.error code ∉ ws

theorem drainLoop_told (budget : Nat) (ws : List Write) (ds : List Nat) (c : Out) (hw : NoError ws) (h : Told ds c)
    (ha : c.alive = true) : Told [] (drainLoop budget ws ds c) := by
  induction budget generalizing ws ds c with
  | zero => rw [drainLoop]; exact notify_told ds c h
  | succ budget ih =>
    cases ws with
    | nil => rw [drainLoop, touch_eq ha]; exact notify_told ds c h
    | cons w ws =>
      cases w with
      | idle => rw [drainLoop, touch_eq ha]; exact notify_told ds c h
      | error code => exact absurd List.mem_cons_self (hw code)
      | out sid sizes wantFin =>
        have hw' : NoError ws := fun code hm => hw code (List.mem_cons_of_mem _ hm)
        rw [drainLoop, touch_eq ha]
        simp only
        obtain ⟨q, r, -, -, -, -, g5, -, new, g7, g8, -⟩ := sendLoop_spec sid (pieces sizes (c.left sid)) 0 c ha
        generalize (wantFin && c.ends sid && (pieces sizes (c.left sid)).flatten == c.left sid) = fin
        generalize sendLoop sid (pieces sizes (c.left sid)) 0 c = sl at *
        obtain ⟨c1, acc⟩ := sl
        simp only at g5 g7 ⊢
        have t1 : ∀ s, (c1.told s = true → s ∈ ds ∨ .drained s ∈ c1.acts) ∧ (.fin s ∈ c1.acts → c1.told s = true) := by
          intro s
          obtain ⟨h1, h2⟩ := h ha s
          rw [g5, g7]
          refine ⟨fun ht => (h1 ht).imp id (List.mem_append_left _), fun hm => h2 ?_⟩
          rcases List.mem_append.1 hm with hm | hm
          · exact hm
          · obtain ⟨d, e⟩ := g8 _ hm; cases e
        by_cases hal : c1.alive = true
        · simp only [hal, Bool.not_true, Bool.false_eq_true, if_false]
          cases fin with
          | false =>
            simp only [Bool.false_eq_true, if_false, hal, Bool.not_true, Bool.false_and, Bool.not_false, Bool.and_true]
            have hn : Told ds (c1.advance sid acc false) := by
              intro _ s
              obtain ⟨h1, h2⟩ := t1 s
              exact ⟨fun ht => (h1 ht).imp id (fun hm => by simp [Out.advance, hm]), fun hm => h2 (by simpa [Out.advance] using hm)⟩
            by_cases hp : (pieces sizes (c.left sid)).isEmpty = true
            · rw [if_pos hp]; exact notify_told ds _ hn
            · rw [if_neg hp]; exact ih ws ds _ hw' hn hal
          | true =>
            simp only [if_true, Bool.true_and, Bool.not_true, Bool.and_false, Bool.false_eq_true, if_false]
            by_cases hal2 : (c1.call (.fin sid)).alive = true
            · simp only [hal2, Bool.not_true, Bool.false_eq_true, if_false]
              have halive : ((c1.call (.fin sid)).advance sid acc true).alive = true := hal2
              have htold : ((c1.call (.fin sid)).advance sid acc true).told = c1.told := rfl
              have hacts : ((c1.call (.fin sid)).advance sid acc true).acts = c1.acts ++ [.fin sid] ++ [.offset sid acc] := rfl
              by_cases ht : ((c1.call (.fin sid)).advance sid acc true).told sid = true
              · simp only [ht, Bool.not_true, Bool.false_eq_true, if_false]
                refine ih ws ds _ hw' (fun _ s => ?_) halive
                rw [htold] at ht
                rw [htold, hacts]
                refine ⟨fun hs => ((t1 s).1 hs).imp id (fun hm => by simp [hm]), fun hm => ?_⟩
                by_cases hss : s = sid
                · rw [hss]; exact ht
                · exact (t1 s).2 (by simpa [hss] using hm)
              · simp only [Bool.not_eq_true] at ht
                simp only [ht, Bool.not_false, if_true]
                rw [touch_eq halive]
                refine ih ws (ds ++ [sid]) _ hw' (fun _ s => ?_) halive
                simp only
                by_cases hss : s = sid
                · simp [hss]
                · rw [if_neg hss, htold, hacts]
                  refine ⟨fun hs => ((t1 s).1 hs).imp (fun hm => by simp [hm]) (fun hm => by simp [hm]), fun hm => ?_⟩
                  exact (t1 s).2 (by simpa [hss] using hm)
            · simp only [hal2, Bool.not_false, if_true]
              exact fun hx => absurd hx hal2
        · simp only [hal, Bool.not_false, if_true]
          exact fun hx => absurd hx hal

/-- C159. As long as `nghttp3` reports no error and the connection is there, the owner has been told of every stream whose end was
forwarded. (The property asks for it without the first condition: see `C159_error_forgets_partial`.) -/
theorem C159_all_told_partial (kills : List Bool) (ops : List OutOp) (he : ∀ ws, .drain ws ∈ ops → NoError ws)
    (ha : (outRun kills ops).c.alive = true) (sid : Nat) (hf : .fin sid ∈ (outRun kills ops).c.acts) :
    .drained sid ∈ (outRun kills ops).c.acts := by
  have key : ∀ (ops : List OutOp) (x : OutRun), (∀ ws, .drain ws ∈ ops → NoError ws) → Told [] x.c → Told [] (ops.foldl outStep x).c := by
    intro ops
    induction ops with
    | nil => exact fun x _ hx => hx
    | cons op ops ih =>
      intro x he hx
      refine ih _ (fun ws hm => he ws (List.mem_cons_of_mem _ hm)) ?_
      cases op with
      | drain ws =>
        unfold outStep
        simp only
        by_cases ha : x.c.alive = true
        · rw [if_pos ha]; exact drainLoop_told 256 ws [] x.c (he ws List.mem_cons_self) hx ha
        · rw [if_neg ha]; exact hx
      | more sid d last =>
        unfold outStep
        simp only
        by_cases hc : (!x.c.alive || x.closed sid) = true
        · rw [if_pos hc]; exact hx
        · rw [if_neg hc]; exact hx
  have h : Told [] (outRun kills ops).c := key ops _ he (fun _ s => ⟨fun h => (by simp at h), fun h => (by simp at h)⟩)
  obtain ⟨h1, h2⟩ := h ha sid
  rcases h1 (h2 hf) with hd | hd
  · cases hd
  · exact hd

/-- Both streams end, and both are told of. -/
example : let ops : List OutOp := [.more 0 b!"hello" true, .more 4 b!"ab" true, .drain [.out 0 [2] true, .out 4 [1] false, .out 0 [3] true, .out 4 [1] true]]
    (∀ ws, .drain ws ∈ ops → NoError ws) ∧ (outRun [] ops).c.alive = true ∧ (outRun [] ops).c.acts.filter (fun a => a matches .drained _) = [.drained 0, .drained 4] := by
  refine ⟨?_, by decide, by decide⟩
  intro ws hm code hw
  simp only [List.mem_cons, OutOp.drain.injEq, List.not_mem_nil, or_false, reduceCtorEq, false_or] at hm
  subst hm
  simp at hw

/-- C159. Found in the code, against the property: when `nghttp3` fails after a stream was finished in the same round, the owner is not
told that the stream is out, then or later. -/
theorem C159_error_forgets_partial : (outRun [] [.more 0 b!"hi" true, .drain [.out 0 [2] true, .error 7], .drain [.idle]]).c.acts =
    [.send 0 b!"hi", .fin 0, .offset 0 2, .close 7] := by decide

end Verif.H3
