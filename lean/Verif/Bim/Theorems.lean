import Verif.Bim.Spec

/-! C196: which error handler is called. C197: the error middleware always ends the request. C198: transformation and conditions have one outcome. C199: every response is logged and timed once. -/

namespace Verif.Bim

open Verif.Context (Ctx Act step run starts FirstTask)
open Spec

/-! ## C196 -/

theorem fill_eq (t : Int → Option Nat) (h n : Nat) (lo c : Int) :
    fill t h n lo c = if lo ≤ c ∧ c < lo + n ∧ 100 ≤ c ∧ c < 600 ∧ t c = none then some h else t c := by
  induction n generalizing t lo with
  | zero => rw [fill, if_neg]; omega
  | succ n ih =>
    rw [fill, ih]
    have hput : ∀ d, tryPut t lo h d = if d = lo ∧ t d = none then some h else t d := by
      intro d
      unfold tryPut put
      by_cases hd : d = lo
      · subst hd; cases ht : t d <;> simp [ht]
      · split <;> simp [hd]
    by_cases hl : 100 ≤ lo ∧ lo < 600
    · have e : (if (decide (lo ≥ 100) && decide (lo < 600)) = true then tryPut t lo h else t) = tryPut t lo h := if_pos (by simp; exact hl)
      rw [e, hput]
      by_cases hc : c = lo
      · subst hc
        rw [if_neg (by omega)]
        cases ht : t c <;> simp [hl]
        all_goals omega
      · simp only [hc, false_and, if_false]
        by_cases hx : lo + 1 ≤ c ∧ c < lo + 1 + n ∧ 100 ≤ c ∧ c < 600 ∧ t c = none
        · rw [if_pos hx, if_pos ⟨by omega, by omega, hx.2.2⟩]
        · rw [if_neg hx, if_neg]
          intro ⟨h1, h2, h3⟩
          exact hx ⟨by omega, by omega, h3⟩
    · have e : (if (decide (lo ≥ 100) && decide (lo < 600)) = true then tryPut t lo h else t) = t := if_neg (by simp; omega)
      rw [e]
      by_cases hx : lo + 1 ≤ c ∧ c < lo + 1 + n ∧ 100 ≤ c ∧ c < 600 ∧ t c = none
      · rw [if_pos hx, if_pos ⟨by omega, by omega, hx.2.2⟩]
      · rw [if_neg hx, if_neg]
        intro ⟨h1, h2, h3, h4, h5⟩
        by_cases hc : c = lo
        · subst hc; exact hl ⟨h3, h4⟩
        · exact hx ⟨by omega, by omega, h3, h4, h5⟩

theorem registerAll_snoc (rs : List Reg) (r : Reg) : registerAll (rs ++ [r]) = register (registerAll rs) r := by
  unfold registerAll; rw [List.foldl_append]; rfl

theorem snoc_split {α : Type _} {rs a b : List α} {r x : α} (h : rs ++ [r] = a ++ x :: b) : (b = [] ∧ a = rs ∧ x = r) ∨ ∃ b', b = b' ++ [r] ∧ rs = a ++ x :: b' := by
  rcases List.eq_nil_or_concat b with rfl | ⟨b', y, rfl⟩
  · obtain ⟨h1, h2⟩ := List.append_inj' h rfl
    simp at h2
    exact .inl ⟨rfl, h1.symm, h2.symm⟩
  · right
    have : rs ++ [r] = (a ++ x :: b') ++ [y] := by rw [h]; simp
    obtain ⟨h1, h2⟩ := List.append_inj' this rfl
    simp at h2
    subst h2
    exact ⟨b', by simp, h1⟩

/-- Somebody is in charge of `c`. -/
theorem inCharge_snoc (rs : List Reg) (r : Reg) (c : Int) (h : Nat) : InCharge (rs ++ [r]) c h ↔
    (r = .status c (some h)) ∨
    ((∀ h', r ≠ .status c (some h')) ∧ (InCharge rs c h ∨
      ((∀ h', ¬ InCharge rs c h') ∧ ∃ lo hi, r = .range lo hi (some h) ∧ lo ≤ c ∧ c ≤ hi ∧ 100 ≤ c ∧ c < 600))) := by
  constructor
  · rintro (⟨a, b, h1, h2⟩ | ⟨h1, a, b, lo, hi, h2, h3, h4, h5, h6, h7⟩)
    · rcases snoc_split h1 with ⟨rfl, rfl, h3⟩ | ⟨b', rfl, h3⟩
      · exact .inl h3.symm
      · refine .inr ⟨fun h' e => h2 h' (by rw [e]; simp), .inl (.inl ⟨a, b', h3, fun h' hm => h2 h' (by simp [hm])⟩)⟩
    · refine .inr ⟨fun h' e => h1 h' (by rw [e]; simp), ?_⟩
      rcases snoc_split h2 with ⟨rfl, rfl, h8⟩ | ⟨b', rfl, h8⟩
      · refine .inr ⟨?_, lo, hi, h8.symm, h3, h4, h5, h6⟩
        rintro h' (⟨a', b', e, -⟩ | ⟨-, a', b', lo', hi', e, e1, e2, -⟩)
        · exact h1 h' (by rw [e]; simp)
        · exact h7 lo' hi' h' (by rw [e]; simp) ⟨e1, e2⟩
      · exact .inl (.inr ⟨fun h' hm => h1 h' (by simp [hm]), a, b', lo, hi, h8, h3, h4, h5, h6, h7⟩)
  · rintro (rfl | ⟨h1, h2⟩)
    · exact .inl ⟨rs, [], rfl, by simp⟩
    · rcases h2 with (⟨a, b, e, e1⟩ | ⟨e0, a, b, lo, hi, e, e1⟩) | ⟨h2, lo, hi, rfl, h3, h4, h5, h6⟩
      · refine .inl ⟨a, b ++ [r], by rw [e]; simp, fun h' hm => ?_⟩
        rcases List.mem_append.1 hm with hm | hm
        · exact e1 h' hm
        · simp at hm; exact h1 h' hm.symm
      · refine .inr ⟨fun h' hm => ?_, a, b ++ [r], lo, hi, by rw [e]; simp, e1⟩
        rcases List.mem_append.1 hm with hm | hm
        · exact e0 h' hm
        · simp at hm; exact h1 h' hm.symm
      · have nostatus : ∀ h', Reg.status c (some h') ∉ rs := by
          intro h' hm
          -- the last registration for `c`
          have last : ∀ (l : List Reg), (∃ h', Reg.status c (some h') ∈ l) → ∃ h' a b, l = a ++ .status c (some h') :: b ∧ ∀ h'', Reg.status c (some h'') ∉ b := by
            intro l
            induction l with
            | nil => rintro ⟨_, h⟩; cases h
            | cons x l ih =>
              rintro ⟨h', hm⟩
              by_cases hl : ∃ h', Reg.status c (some h') ∈ l
              · obtain ⟨h'', a, b, e, e1⟩ := ih hl
                exact ⟨h'', x :: a, b, by rw [e]; rfl, e1⟩
              · rcases List.mem_cons.1 hm with e | hm
                · exact ⟨h', [], l, by rw [e]; rfl, fun h'' hh => hl ⟨h'', hh⟩⟩
                · exact absurd ⟨h', hm⟩ hl
          obtain ⟨h'', a, b, e, e1⟩ := last rs ⟨h', hm⟩
          exact h2 h'' (.inl ⟨a, b, e, e1⟩)
        refine .inr ⟨fun h' hm => ?_, rs, [], lo, hi, rfl, h3, h4, h5, h6, ?_⟩
        · rcases List.mem_append.1 hm with hm | hm
          · exact nostatus h' hm
          · simp at hm
        · intro lo' hi' h' hm hc
          -- the first range that contains `c`
          have first : ∀ (l : List Reg), (∃ lo hi h', Reg.range lo hi (some h') ∈ l ∧ lo ≤ c ∧ c ≤ hi) →
              ∃ h' a b lo hi, l = a ++ .range lo hi (some h') :: b ∧ lo ≤ c ∧ c ≤ hi ∧ ∀ lo' hi' h'', Reg.range lo' hi' (some h'') ∈ a → ¬ (lo' ≤ c ∧ c ≤ hi') := by
            intro l
            induction l with
            | nil => rintro ⟨_, _, _, h, -⟩; cases h
            | cons x l ih =>
              rintro ⟨lo1, hi1, h1', hm, hb⟩
              by_cases hx : ∃ lo hi h', x = Reg.range lo hi (some h') ∧ lo ≤ c ∧ c ≤ hi
              · obtain ⟨lo2, hi2, h2', rfl, hb2⟩ := hx
                exact ⟨h2', [], l, lo2, hi2, rfl, hb2.1, hb2.2, by simp⟩
              · rcases List.mem_cons.1 hm with e | hm
                · exact absurd ⟨lo1, hi1, h1', e.symm, hb⟩ hx
                · obtain ⟨h3', a, b, lo3, hi3, e, e1, e2, e3⟩ := ih ⟨lo1, hi1, h1', hm, hb⟩
                  refine ⟨h3', x :: a, b, lo3, hi3, by rw [e]; rfl, e1, e2, fun lo' hi' h'' hm' hc' => ?_⟩
                  rcases List.mem_cons.1 hm' with e4 | hm'
                  · exact hx ⟨lo', hi', h'', e4.symm, hc'⟩
                  · exact e3 lo' hi' h'' hm' hc'
          obtain ⟨h'', a, b, lo2, hi2, e, e1, e2, e3⟩ := first rs ⟨lo', hi', h', hm, hc⟩
          exact h2 h'' (.inr ⟨nostatus, a, b, lo2, hi2, e, e1, e2, h5, h6, e3⟩)

/-- C196: which handler is registered for a status is what the registrations say, in whatever order and number they were made. -/
theorem C196_in_charge (rs : List Reg) (c : Int) (h : Nat) : (registerAll rs).at? c = some h ↔ InCharge rs c h := by
  have key : ∀ rs : List Reg, ∀ h, (registerAll rs).at? c = some h ↔ InCharge rs c h := by
    intro rs
    generalize hn : rs.length = n
    induction n generalizing rs with
    | zero =>
      intro h
      obtain rfl := List.length_eq_zero_iff.1 hn
      simp [registerAll, InCharge]
    | succ n ih =>
      rcases List.eq_nil_or_concat rs with rfl | ⟨l, r, rfl⟩
      · cases hn
      · intro h
        have ih := ih l (by simpa using hn)
        have none_iff : (registerAll l).at? c = none ↔ ∀ h', ¬ InCharge l c h' := by
          constructor
          · intro e h' hh; have := (ih h').2 hh; rw [e] at this; cases this
          · intro hh
            cases e : (registerAll l).at? c with
            | none => rfl
            | some x => exact absurd ((ih x).1 e) (hh x)
        rw [List.concat_eq_append, registerAll_snoc, inCharge_snoc]
        cases r with
        | status d o =>
          cases o with
          | none =>
            simp only [register, ih h]
            simp
          | some g =>
            simp only [register, put]
            by_cases hd : c = d
            · subst hd; simp
            · have : d ≠ c := fun e => hd e.symm
              rw [if_neg hd, ih h]; simp [this]
        | range lo hi o =>
          cases o with
          | none => simp only [register, ih h]; simp
          | some g =>
            simp only [register, fill_eq]
            by_cases hx : lo ≤ c ∧ c < lo + ((hi - lo + 1).toNat : Int) ∧ 100 ≤ c ∧ c < 600 ∧ (registerAll l).at? c = none
            · rw [if_pos hx]
              have hnone := none_iff.1 hx.2.2.2.2
              constructor
              · intro e; cases e
                exact .inr ⟨by simp, .inr ⟨hnone, lo, hi, rfl, by omega, by omega, by omega, by omega⟩⟩
              · rintro (e | ⟨-, e | ⟨-, lo', hi', e, -⟩⟩)
                · cases e
                · exact absurd e (hnone h)
                · cases e; rfl
            · rw [if_neg hx, ih h]
              constructor
              · intro e; exact .inr ⟨by simp, .inl e⟩
              · rintro (e | ⟨-, e | ⟨hn', lo', hi', e, e1, e2, e3, e4⟩⟩)
                · cases e
                · exact e
                · cases e
                  exact absurd ⟨e1, by omega, e3, e4, none_iff.2 hn'⟩ hx
        | any o =>
          have : (register (registerAll l) (.any o)).at? = (registerAll l).at? := by cases o <;> rfl
          rw [this, ih h]; simp
  exact key rs h

/-- C196: the generic handler is the last one registered. -/
theorem C196_generic (rs : List Reg) (g : Nat) : (registerAll rs).generic = some g ↔ Generic rs g := by
  have key : ∀ rs : List Reg, (registerAll rs).generic = some g ↔ Generic rs g := by
    intro rs
    generalize hn : rs.length = n
    induction n generalizing rs with
    | zero =>
      obtain rfl := List.length_eq_zero_iff.1 hn
      simp [registerAll, Generic]
    | succ n ih =>
      rcases List.eq_nil_or_concat rs with rfl | ⟨l, r, rfl⟩
      · cases hn
      · have ih := ih l (by simpa using hn)
        rw [List.concat_eq_append, registerAll_snoc]
        have hsn : Generic (l ++ [r]) g ↔ r = .any (some g) ∨ ((∀ g', r ≠ .any (some g')) ∧ Generic l g) := by
          constructor
          · rintro ⟨a, b, e, e1⟩
            rcases snoc_split e with ⟨rfl, rfl, h3⟩ | ⟨b', rfl, h3⟩
            · exact .inl h3.symm
            · exact .inr ⟨fun g' e2 => e1 g' (by rw [e2]; simp), a, b', h3, fun g' hm => e1 g' (by simp [hm])⟩
          · rintro (rfl | ⟨h1, a, b, e, e1⟩)
            · exact ⟨l, [], rfl, by simp⟩
            · refine ⟨a, b ++ [r], by rw [e]; simp, fun g' hm => ?_⟩
              rcases List.mem_append.1 hm with hm | hm
              · exact e1 g' hm
              · simp at hm; exact h1 g' hm.symm
        rw [hsn, ← ih]
        cases r with
        | status d o => cases o <;> simp [register]
        | range lo hi o => cases o <;> simp [register]
        | any o => cases o <;> simp [register]
  exact key rs

/-- C196: the handler in charge of the status of the response is called, and nobody else if it does not throw; if it throws, or if nobody is in charge, the generic one is called. -/
theorem C196_called (rs : List Reg) (code : Nat → Code) (msg : Ctx → Option Bytes) (c : Ctx) :
    (∀ h, InCharge rs c.status h → (code h).throws = false → (errProcess (registerAll rs) code msg c).2 = [.status h]) ∧
    (∀ h g, InCharge rs c.status h → (code h).throws = true → Generic rs g →
      (errProcess (registerAll rs) code msg c).2 = [.status h, .generic g (msg (run c (code h).acts))]) ∧
    (∀ h, InCharge rs c.status h → (code h).throws = true → (∀ g, ¬ Generic rs g) → (errProcess (registerAll rs) code msg c).2 = [.status h]) ∧
    (∀ g, (∀ h, ¬ InCharge rs c.status h) → Generic rs g → (errProcess (registerAll rs) code msg c).2 = [.generic g (msg c)]) ∧
    ((∀ h, ¬ InCharge rs c.status h) → (∀ g, ¬ Generic rs g) → (errProcess (registerAll rs) code msg c).2 = []) := by
  have hnone : (∀ h, ¬ InCharge rs c.status h) → (registerAll rs).at? c.status = none := by
    intro hh
    cases e : (registerAll rs).at? c.status with
    | none => rfl
    | some x => exact absurd ((C196_in_charge rs _ x).1 e) (hh x)
  have gnone : (∀ g, ¬ Generic rs g) → (registerAll rs).generic = none := by
    intro hh
    cases e : (registerAll rs).generic with
    | none => rfl
    | some x => exact absurd ((C196_generic rs x).1 e) (hh x)
  refine ⟨fun h h1 h2 => ?_, fun h g h1 h2 h3 => ?_, fun h h1 h2 h3 => ?_, fun g h1 h2 => ?_, fun h1 h2 => ?_⟩
  · simp [errProcess, (C196_in_charge rs _ h).2 h1, h2]
  · simp [errProcess, (C196_in_charge rs _ h).2 h1, h2, lastResort, (C196_generic rs g).2 h3]
  · simp [errProcess, (C196_in_charge rs _ h).2 h1, h2, lastResort, gnone h3]
  · simp [errProcess, hnone h1, lastResort, (C196_generic rs g).2 h2]
  · simp [errProcess, hnone h1, lastResort, gnone h2]

/-! ## C197 -/

theorem complete_ends {c : Ctx} (hd : c.dead = false) : Ended (step c (.complete .complete)) := by
  have fin : ∀ d : Ctx, Ended (Context.finalize d) := by
    intro d
    unfold Context.finalize
    split
    · rename_i h; exact .inl (by simpa using h)
    · split
      · rename_i h; exact .inr ⟨rfl, h⟩
      · exact .inl rfl
  unfold step
  rw [if_neg (by simp [hd])]
  simp only [Context.complete]
  split
  · rename_i h; simp at h; exact .inl h
  · split
    · split
      · exact fin _
      · rename_i h; simp at h; exact .inl h
    · exact fin _

theorem dead_step {c : Ctx} {a : Act} (h : (step c a).dead = false) : c.dead = false := by
  cases hd : c.dead with
  | false => rfl
  | true => unfold step at h; rw [if_pos hd, hd] at h; cases h

/-- C197: whatever the handlers do and whether they throw or not, unless they destroy the context, after the error middleware the request is over (or will be as soon as the deferral scope is left). -/
theorem C197_ended (t : Table) (code : Nat → Code) (msg : Ctx → Option Bytes) (c : Ctx) (hd : (errProcess t code msg c).1.dead = false) :
    Ended (errProcess t code msg c).1 := by
  have last : ∀ d, (lastResort t code msg d).1.dead = false → Ended (lastResort t code msg d).1 := by
    intro d h
    unfold lastResort at h ⊢
    cases e : t.generic with
    | some g => simp only [e] at h ⊢; exact complete_ends (dead_step h)
    | none => simp only [e] at h ⊢; exact complete_ends (dead_step h)
  unfold errProcess at hd ⊢
  cases e : t.at? c.status with
  | some h =>
    simp only [e] at hd ⊢
    cases ht : (code h).throws with
    | true => simp only [ht, if_true] at hd ⊢; exact last _ hd
    | false =>
      simp only [ht, Bool.false_eq_true, if_false] at hd ⊢
      exact complete_ends (dead_step hd)
  | none => simp only [e] at hd ⊢; exact last _ hd

/-- The statuses that a handler sets. -/
def sets (ns : List Nat) : List Act := ns.map .setStatus

theorem run_sets {c : Ctx} (hd : c.dead = false) (ns : List Nat) : run c (sets ns) = { c with status := ns.getLast?.getD c.status } := by
  induction ns generalizing c with
  | nil => rfl
  | cons n ns ih =>
    show run (step c (.setStatus n)) (sets ns) = _
    have e : step c (.setStatus n) = { c with status := n } := by simp [step, hd]
    rw [e, ih (c := { c with status := n }) hd]
    cases ns with
    | nil => rfl
    | cons m ns => simp [List.getLast?_cons_cons, List.getLast?_cons]

/-- C197: handlers that only set the status: the response is sent with the status that the last of them left. -/
theorem C197_status (t : Table) (code : Nat → Code) (msg : Ctx → Option Bytes) {c : Ctx} (hdead : c.dead = false) (hc : c.cancelled = false)
    (hs : c.state ≠ .finalised) (hd : c.depth = 0) (ns : Nat → List Nat) (hcode : ∀ h, (code h).acts = sets (ns h)) :
    ∃ n, (errProcess t code msg c).1.trace = c.trace ++ [.finalised n] ∧
      n = ((errProcess t code msg c).2.flatMap fun k => match k with | .status h => ns h | .generic h _ => ns h).getLast?.getD c.status := by
  have fin : ∀ m, (step { c with status := m } (.complete .complete)).trace = c.trace ++ [.finalised m] := by
    intro m
    exact (Context.C39_complete_finalises { c with status := m } hdead hc hs hd).1
  have fin0 : (step c (.complete .complete)).trace = c.trace ++ [.finalised c.status] := fin c.status
  have two : ∀ a b : List Nat, (a ++ b).getLast?.getD c.status = b.getLast?.getD (a.getLast?.getD c.status) := by
    intro a b
    rw [List.getLast?_append]
    cases b.getLast? <;> simp
  unfold errProcess
  cases hat : t.at? c.status with
  | some h =>
    simp only [hcode, run_sets hdead]
    cases ht : (code h).throws with
    | false => exact ⟨_, fin _, by simp⟩
    | true =>
      simp only [if_true]
      unfold lastResort
      cases hg : t.generic with
      | some g =>
        simp only [hcode]
        have e := run_sets (c := { c with status := (ns h).getLast?.getD c.status }) hdead (ns g)
        simp only at e
        rw [e]
        exact ⟨_, fin _, by simp [two]⟩
      | none => exact ⟨_, fin _, by simp⟩
  | none =>
    simp only
    unfold lastResort
    cases hg : t.generic with
    | some g => simp only [hcode, run_sets hdead]; exact ⟨_, fin _, by simp⟩
    | none => exact ⟨_, fin0, by simp⟩

/-! ## C198 -/

/-- C198: a transformation that succeeds lets the request go on to the next task; one that throws stops the route: the error chain runs (with status 500), or the request is answered with 500. -/
theorem C198_transform {c : Ctx} (hdead : c.dead = false) (hc : c.cancelled = false) (hs : c.state ≠ .finalised) :
    (∀ j, FirstTask c.chain (c.idx + 1) j → (transform false c).trace = c.trace ++ [.start c.curErr j]) ∧
    (c.phase ≠ .errorChain → ∀ ts, c.errChain = some (true :: ts) → (transform true c).trace = c.trace ++ [.enterError, .start true 0] ∧ (transform true c).status = 500) ∧
    (c.phase = .errorChain ∨ c.errChain = none ∨ c.errChain = some [] →
      (transform true c).status = 500 ∧ starts (transform true c).trace = starts c.trace ∧ (c.depth = 0 → (transform true c).trace = c.trace ++ [.finalised 500])) := by
  have e : step c (.setStatus 500) = { c with status := 500 } := by simp [step, hdead]
  refine ⟨fun j hj => (Context.C39_continue_starts_next c hdead hc hs j hj).1, fun hp ts he => ?_, fun h => ?_⟩
  · have := Context.C40_error_runs_chain { c with status := 500 } hdead hc hs hp ts he
    unfold transform
    rw [if_pos rfl, e]
    exact ⟨this.1, this.2.2⟩
  · have := Context.C40_error_in_error_chain { c with status := 500 } hdead hc hs h
    unfold transform
    rw [if_pos rfl, e]
    exact ⟨this.1, this.2.1, this.2.2.1⟩

/-- C198: a condition runs the child it selects, and only that one; without a child for it the request goes on. -/
theorem C198_cond_selects (a : Code) (b : Option Code) (c : Ctx) :
    (a.throws = false → cond .yes a b c = (run c a.acts, some true)) ∧
    (∀ b', b = some b' → b'.throws = false → cond .no a b c = (run c b'.acts, some false)) ∧
    (b = none → cond .no a b c = (step c (.complete .continue), none)) := by
  refine ⟨fun h => ?_, fun b' e h => ?_, fun e => ?_⟩
  · simp [cond, child, h]
  · subst e; simp [cond, child, h]
  · subst e; rfl

/-- C198: a predicate that throws, or a child that throws before it did anything, is a failed transformation. -/
theorem C198_cond_throws (a : Code) (b : Option Code) (c : Ctx) :
    (cond .throws a b c).1 = transform true c ∧
    (a.acts = [] → a.throws = true → (cond .yes a b c).1 = transform true c) ∧
    (∀ b', b = some b' → b'.acts = [] → b'.throws = true → (cond .no a b c).1 = transform true c) := by
  refine ⟨rfl, fun h1 h2 => ?_, fun b' e h1 h2 => ?_⟩
  · simp [cond, child, h1, h2, run, condCatch, transform]
  · subst e; simp [cond, child, h1, h2, run, condCatch, transform]

/-- C198: but a child that throws after it let the request go on takes the request away from the task that is at work: the error chain is started under it. -/
theorem C198_false_throw_after_continue : (cond .yes ⟨[.complete .continue], true⟩ none (run (Context.init (some [true])) [.start [true, true]])).1.trace =
    [.start false 0, .start false 1, .enterError, .start true 0] := by decide

/-! ## C199 -/

/-- The times a response is sent, with its status. -/
def sends (s : Nat) : List Ev → List Nat
  | [] => []
  | .setStatus n :: es => sends n es
  | .hooks true _ :: es => s :: sends s es
  | _ :: es => sends s es

theorem foldl_out (es : List Ev) (o : Obs) (i : Nat) :
    requests i (es.foldl ev o).out = requests i o.out + es.countP (fun e => match e with | .log j => j == i | _ => false) := by
  have fires : ∀ (o : Obs) now (hs : List Hook), requests i (hs.flatMap (fire o now)) = 0 := by
    intro o now hs
    induction hs with
    | nil => rfl
    | cons h hs ih =>
      rw [List.flatMap_cons]
      unfold requests at ih ⊢
      rw [List.countP_append, ih]
      cases h with
      | log j => simp [fire]
      | timer j k => simp only [fire]; split <;> simp
  induction es generalizing o with
  | nil => simp
  | cons e es ih =>
    rw [List.foldl_cons, ih, List.countP_cons]
    cases e with
    | log j => simp [ev, requests]; by_cases h : j = i <;> simp [h] <;> omega
    | timer j n t => simp [ev]
    | setStatus n => simp [ev]
    | hooks s t =>
      cases s
      · simp [ev]
      · simp only [ev, if_true]
        have := fires o t o.hooks
        unfold requests at this ⊢
        rw [List.countP_append, this]; simp

/-- C199: every request that reaches a logger is logged once, when it reaches it. -/
theorem C199_requests_logged (es : List Ev) (i : Nat) : requests i (observe es).out = es.countP (fun e => match e with | .log j => j == i | _ => false) := by
  unfold observe
  rw [foldl_out]; simp [requests]

theorem fire_responses (i : Nat) (o : Obs) (now : Int) (hs : List Hook) : responses i (hs.flatMap (fire o now)) = List.replicate (hs.countP (· == .log i)) o.status := by
  induction hs with
  | nil => rfl
  | cons h hs ih =>
    rw [List.flatMap_cons, List.countP_cons]
    unfold responses at ih ⊢
    rw [List.filterMap_append, ih]
    cases h with
    | log j =>
      by_cases hj : j = i
      · subst hj; simp [fire, List.replicate_succ]
      · simp [fire, hj]
    | timer j k => simp only [fire]; split <;> simp

/-- C199: for a request that reached a logger `k` times before its response is sent, each sending is logged `k` times with the status that is sent: once if it was registered once. Handlers, other hook points and other middlewares, wherever they come, do not change that. -/
theorem C199_responses_logged (before after : List Ev) (i : Nat) (hb : ∀ e ∈ before, ∀ t, e ≠ .hooks true t) (ha : ∀ e ∈ after, e ≠ .log i) :
    responses i (observe (before ++ after)).out =
      (sends (observe before).status after).flatMap (fun s => List.replicate (before.countP (fun e => match e with | .log j => j == i | _ => false)) s) := by
  have h1 : ∀ (es : List Ev) (o : Obs), (∀ e ∈ es, ∀ t, e ≠ .hooks true t) →
      responses i (es.foldl ev o).out = responses i o.out ∧
      (es.foldl ev o).hooks.countP (· == .log i) = o.hooks.countP (· == .log i) + es.countP (fun e => match e with | .log j => j == i | _ => false) := by
    intro es
    induction es with
    | nil => intro o _; simp
    | cons e es ih =>
      intro o h
      have he := h e (by simp)
      obtain ⟨i1, i2⟩ := ih (ev o e) (fun x hx => h x (List.mem_cons_of_mem _ hx))
      rw [List.foldl_cons, i1, i2, List.countP_cons]
      cases e with
      | log j =>
        constructor
        · simp [ev, responses]
        · simp only [ev, List.countP_append, List.countP_cons, List.countP_nil]
          by_cases hj : j = i <;> simp [hj] <;> omega
      | timer j n t => simp [ev]
      | setStatus n => simp [ev]
      | hooks s t =>
        cases s
        · simp [ev]
        · exact absurd rfl (he t)
  have h2 : ∀ (es : List Ev) (o : Obs) (k : Nat), o.hooks.countP (· == .log i) = k → (∀ e ∈ es, e ≠ .log i) →
      responses i (es.foldl ev o).out = responses i o.out ++ (sends o.status es).flatMap (fun s => List.replicate k s) := by
    intro es
    induction es with
    | nil => intro o k _ _; simp [sends]
    | cons e es ih =>
      intro o k hk h
      have he := h e (by simp)
      have ih' := fun o' hk' => ih o' k hk' (fun x hx => h x (List.mem_cons_of_mem _ hx))
      rw [List.foldl_cons]
      cases e with
      | log j =>
        have hj : j ≠ i := fun e => he (by rw [e])
        rw [ih' _ (by simp [ev, hj, hk])]
        simp [ev, responses, sends]
      | timer j n t =>
        rw [ih' _ (by simp [ev, hk])]
        simp [ev, sends]
      | setStatus n =>
        rw [ih' _ (by simp [ev, hk])]
        simp [ev, sends]
      | hooks s t =>
        cases s
        · rw [ih' _ (by simp [ev, hk])]
          simp [ev, sends]
        · rw [ih' _ (by simp [ev, hk])]
          simp only [ev, if_true, sends, List.flatMap_cons]
          have := fire_responses i o t o.hooks
          unfold responses at this ⊢
          rw [List.filterMap_append, this, hk, List.append_assoc]
  unfold observe
  rw [List.foldl_append]
  obtain ⟨a1, a2⟩ := h1 before {} hb
  rw [h2 after _ _ rfl ha, a1, a2]
  simp [responses]

/-- C199: a timer reports, once per sending, the time since the request reached it, provided that no timer of the same name was reached after it. -/
theorem C199_timed (before mid : List Ev) (i : Nat) (name : Bytes) (t0 t1 : Int)
    (hb : ∀ e ∈ before, (∀ n t, e ≠ .timer i n t) ∧ ∀ t, e ≠ .hooks true t)
    (hm : ∀ e ∈ mid, (∀ n t, e = .timer i n t → False) ∧ (∀ j t, e ≠ .timer j name t) ∧ ∀ t, e ≠ .hooks true t) :
    times i (observe (before ++ .timer i name t0 :: mid ++ [.hooks true t1])).out = [t1 - t0] := by
  have nokey : ∀ (n : Bytes), b!"__TimingMiddleware_StartTime_" ++ n = b!"__TimingMiddleware_StartTime_" ++ name → n = name := fun n h => List.append_cancel_left h
  -- what the state is before the sending
  have h1 : ∀ (es : List Ev) (o : Obs), (∀ e ∈ es, (∀ n t, e ≠ .timer i n t) ∧ ∀ t, e ≠ .hooks true t) →
      times i (es.foldl ev o).out = times i o.out ∧
      (es.foldl ev o).hooks.filter (fun h => match h with | .timer j _ => j == i | _ => false) = o.hooks.filter (fun h => match h with | .timer j _ => j == i | _ => false) := by
    intro es
    induction es with
    | nil => intro o _; exact ⟨rfl, rfl⟩
    | cons e es ih =>
      intro o h
      obtain ⟨he1, he2⟩ := h e (by simp)
      obtain ⟨i1, i2⟩ := ih (ev o e) (fun x hx => h x (List.mem_cons_of_mem _ hx))
      rw [List.foldl_cons, i1, i2]
      cases e with
      | log j => simp [ev, times]
      | timer j n t =>
        have hj : j ≠ i := fun e => he1 n t (by rw [e])
        simp [ev, hj]
      | setStatus n => simp [ev]
      | hooks s t =>
        cases s
        · simp [ev]
        · exact absurd rfl (he2 t)
  have h2 : ∀ (es : List Ev) (o : Obs), (∀ e ∈ es, (∀ j t, e ≠ .timer j name t) ∧ ∀ t, e ≠ .hooks true t) →
      (es.foldl ev o).start (b!"__TimingMiddleware_StartTime_" ++ name) = o.start (b!"__TimingMiddleware_StartTime_" ++ name) := by
    intro es
    induction es with
    | nil => intro o _; rfl
    | cons e es ih =>
      intro o h
      obtain ⟨he1, he2⟩ := h e (by simp)
      rw [List.foldl_cons, ih (ev o e) (fun x hx => h x (List.mem_cons_of_mem _ hx))]
      cases e with
      | log j => rfl
      | timer j n t =>
        simp only [ev]
        rw [if_neg]
        intro e
        exact he1 j t (by rw [nokey n e.symm])
      | setStatus n => rfl
      | hooks s t =>
        cases s
        · rfl
        · exact absurd rfl (he2 t)
  have h3 : ∀ (hs : List Hook) (o : Obs) (now : Int), times i (hs.flatMap (fire o now)) =
      (hs.filter (fun h => match h with | .timer j _ => j == i | _ => false)).filterMap (fun h => match h with | .timer _ k => (o.start k).map (now - ·) | _ => none) := by
    intro hs o now
    induction hs with
    | nil => rfl
    | cons h hs ih =>
      rw [List.flatMap_cons]
      unfold times at ih ⊢
      rw [List.filterMap_append, ih]
      cases h with
      | log j => simp [fire]
      | timer j k =>
        by_cases hj : j = i
        · subst hj; simp only [fire]; cases hk : o.start k <;> simp [hk]
        · simp only [fire]; cases hk : o.start k <;> simp [hj]
  unfold observe
  rw [List.foldl_append, List.foldl_append, List.foldl_cons]
  obtain ⟨a1, a2⟩ := h1 before {} hb
  have hm' : ∀ e ∈ mid, (∀ n t, e ≠ Ev.timer i n t) ∧ ∀ t, e ≠ .hooks true t := fun e he => ⟨fun n t x => (hm e he).1 n t x, (hm e he).2.2⟩
  obtain ⟨b1, b2⟩ := h1 mid (ev (before.foldl ev {}) (.timer i name t0)) hm'
  have b3 := h2 mid (ev (before.foldl ev {}) (.timer i name t0)) (fun e he => (hm e he).2)
  simp only [List.foldl_cons, List.foldl_nil]
  generalize hz : mid.foldl ev (ev (before.foldl ev {}) (.timer i name t0)) = z at *
  show times i (ev z (.hooks true t1)).out = _
  simp only [ev, if_true]
  have : times i (z.out ++ z.hooks.flatMap (fire z t1)) = times i z.out ++ times i (z.hooks.flatMap (fire z t1)) := by
    unfold times; rw [List.filterMap_append]
  rw [this, b1, h3, b2]
  have e1 : times i (ev (before.foldl ev {}) (.timer i name t0)).out = [] := a1
  rw [e1]
  simp only [ev, List.filter_append, a2]
  have b3' : z.start (b!"__TimingMiddleware_StartTime_" ++ name) = some t0 := by rw [b3]; simp [ev]
  simp only [List.filter_nil, List.nil_append, List.filter_cons, List.filter_nil, beq_self_eq_true, if_true, List.filterMap_cons, List.filterMap_nil, b3', Option.map_some]

/-- C199: otherwise it does not: two timers of one name report the time since the second one was reached. -/
theorem C199_false_same_name : times 1 (observe [.timer 1 b!"T" 0, .timer 2 b!"T" 5, .hooks true 7]).out = [2] := by decide

/-! ## Concrete cases -/

example : InCharge [.range 400 499 (some 1), .status 404 (some 2), .range 404 404 (some 3)] 404 2 := .inl ⟨[.range 400 499 (some 1)], [.range 404 404 (some 3)], rfl, by simp⟩

example : InCharge [.range 400 499 (some 1), .range 404 404 (some 3), .status 404 none] 404 1 :=
  .inr ⟨by simp, [], _, 400, 499, rfl, by decide, by decide, by decide, by decide, by simp⟩

/-- A request in its error chain: the handler for 404 throws, the generic one sets 503. -/
example :
    let c := run (Context.init (some [true])) [.start [true], .setStatus 404, .complete .error]
    let rs : List Reg := [.status 404 (some 1), .any (some 2)]
    let code : Nat → Code := fun h => if h = 1 then ⟨[.setStatus 410], true⟩ else ⟨[.setStatus 503], false⟩
    c.dead = false ∧ c.cancelled = false ∧ c.state ≠ .finalised ∧ c.depth = 0 ∧ (errProcess (registerAll rs) code (fun _ => none) c).2 = [.status 1, .generic 2 none] ∧
    (errProcess (registerAll rs) code (fun _ => none) c).1.trace = c.trace ++ [.finalised 503] := by decide

/-- A task that says ERROR and sets no status: the error middleware sees 200, and without a handler for that the response is sent with 200. -/
example : (errProcess (registerAll [.range 400 599 (some 1)]) (fun _ => ⟨[.setStatus 500], false⟩) (fun _ => none)
    (run (Context.init (some [true])) [.start [true], .complete .error])).1.trace = [.start false 0, .enterError, .start true 0, .finalised 200] := by decide +kernel

example : (observe [.log 1, .timer 2 b!"T" 3, .setStatus 404, .hooks false 4, .hooks true 8]).out = [.request 1, .response 1 404, .time 2 5] := by decide

end Verif.Bim
