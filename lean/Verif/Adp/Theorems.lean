import Verif.Adp.Lemmas

/-! C188: a request whose handlers keep their contract is answered, exactly once. C189: what the adapters do with exceptions, returns and repeated calls. -/

namespace Verif.Adp

open Verif.Context (Ctx Act Result Frame State Ev)

/-- C188: if every handler that was invoked said how it ended (once), and nothing runs any more, the request is finalised and its response was given to the session exactly once. -/
theorem C188_answered {kind : Bool → Nat → Kind} {e : Option (List Bool)} {is : List In} (hf : FairRun kind { ctx := Context.init e } is) (hst : (run kind e is).ctx.started = true)
    (hsp : ∀ v ∈ (run kind e is).invs, v.spent) (hidle : (run kind e is).ctx.stack = []) :
    (run kind e is).ctx.state = .finalised ∧ Context.callbacks (run kind e is).ctx.trace = 1 := by
  have h := ok_run hf
  have hfin : (run kind e is).ctx.state = .finalised := by
    have hset : Settled (run kind e is).ctx := by
      cases h.m with
      | fresh _ h2 => rw [hst] at h2; cases h2
      | settled hs => exact hs
      | live pre k e' _ _ hk => exact absurd (hsp k (by rw [e']; simp)) hk
    rcases hset with h1 | h1
    · exact h1
    · exfalso
      have := h.d.pend h1
      rw [h.d.depth, hidle] at this
      simp at this
  refine ⟨hfin, ?_⟩
  obtain ⟨as, h1, h2⟩ := reach_run kind e is
  rw [h1] at hfin hidle ⊢
  exact Context.C38_finalised_responded e as h2 hfin hidle

/-- C188: until then exactly one invocation is to say how it ends, the last one; so a request that is not answered hangs on exactly one handler. -/
theorem C188_one_waited_for {kind : Bool → Nat → Kind} {e : Option (List Bool)} {is : List In} (hf : FairRun kind { ctx := Context.init e } is) (hst : (run kind e is).ctx.started = true)
    (hno : (run kind e is).ctx.state ≠ .finalised) (hidle : (run kind e is).ctx.stack = []) :
    ∃ pre k, (run kind e is).invs = pre ++ [k] ∧ ¬ k.spent ∧ ∀ v ∈ pre, v.spent := by
  have h := ok_run hf
  cases h.m with
  | fresh _ h2 => rw [hst] at h2; cases h2
  | settled hs =>
    exfalso
    rcases hs with h1 | h1
    · exact hno h1
    · have := h.d.pend h1
      rw [h.d.depth, hidle] at this
      simp at this
  | live pre k e' _ _ hk _ hp _ => exact ⟨pre, k, e', hk, hp⟩

/-- C188: every deferral scope that a middleware opened is closed when it returns. -/
theorem C188_scopes {kind : Bool → Nat → Kind} {e : Option (List Bool)} {is : List In} (hf : FairRun kind { ctx := Context.init e } is) (hidle : (run kind e is).ctx.stack = []) :
    (run kind e is).ctx.depth = 0 ∧ (run kind e is).ctx.pending = false := by
  have h := (ok_run hf).d
  have hd : (run kind e is).ctx.depth = 0 := by rw [h.depth, hidle]; rfl
  refine ⟨hd, ?_⟩
  cases hp : (run kind e is).ctx.pending
  · rfl
  · have := h.pend hp; omega

/-- At most one answer, whatever the handlers do. -/
theorem C188_at_most_once (kind : Bool → Nat → Kind) (e : Option (List Bool)) (is : List In) : Context.callbacks (run kind e is).ctx.trace ≤ 1 := by
  obtain ⟨as, h1, -⟩ := reach_run kind e is
  rw [h1]
  exact (Context.C38_at_most_once e as).1

def kinds : Bool → Nat → Kind := fun e i => if e then .route else match i with
  | 0 => .mw
  | 1 => .coroMw
  | _ => .coroRoute

/-- A middleware that calls `next`, a coroutine middleware that returns later, a coroutine handler that completes, then returns. -/
def story : List In := [.start [true, true, true], .next 0, .begin 1, .ret, .ret, .done 1, .begin 2, .ret, .ret, .signal 2 .complete, .done 2, .ret, .ret]

example : FairRun kinds { ctx := Context.init none } story := by
  refine ⟨trivial, ?_, trivial, trivial, trivial, trivial, trivial, trivial, trivial, ?_, trivial, trivial, trivial, trivial⟩
  · intro v hv h; cases hv; cases h
  · intro v hv; cases hv; rfl

example : (run kinds none story).ctx.started = true ∧ (run kinds none story).invs.length = 3 ∧ (∀ v ∈ (run kinds none story).invs, v.signalled = true ∨ v.kind.coro = true ∧ v.ended = true) ∧
    (run kinds none story).ctx.stack = [] ∧ (run kinds none story).ctx.state = .finalised ∧ Context.callbacks (run kinds none story).ctx.trace = 1 := by decide

/-- Before the coroutine middleware returns, it is waited for. -/
example : (run kinds none (story.take 5)).ctx.state = .running ∧ (run kinds none (story.take 5)).ctx.stack = [] ∧ (run kinds none (story.take 5)).ctx.started = true := by decide

/-! Any behaviour, also against the contract. -/

theorem finalize_mono (c : Ctx) : (over c = true → over (Context.finalize c) = true) := by
  unfold over
  intro h
  unfold Context.finalize
  split
  · exact h
  split
  · exact h
  · simp

theorem proceed_over {c : Ctx} (h : over c = true) : over (Context.proceed c) = true := by
  unfold Context.proceed
  have hd : Context.doneOrCancelled c = true := by
    unfold over at h; unfold Context.doneOrCancelled
    rw [Bool.or_comm]; exact h
  rw [if_pos hd]
  split
  · exact finalize_mono c h
  · exact h

theorem complete_over {c : Ctx} (r : Result) (h : over c = true) : over (Context.complete r c) = true := by
  unfold Context.complete
  split
  · exact h
  split
  · split
    · exact finalize_mono c h
    · exact h
  cases r with
  | «continue» => exact proceed_over h
  | complete => exact finalize_mono _ h
  | cancelled => exact finalize_mono _ (by unfold over; simp)
  | fatal => exact finalize_mono _ h
  | error =>
    simp only [Context.completeError]
    split
    · exact finalize_mono _ h
    split
    · exact proceed_over h
    · exact finalize_mono _ h

/-- The count grows, and over stays over. -/
structure Up (c d : Ctx) : Prop where
  count : c.count ≤ d.count
  over : over c = true → over d = true
  dead : d.dead = c.dead ∨ d.dead = true

theorem Up.refl (c : Ctx) : Up c c := ⟨Nat.le_refl _, id, .inl rfl⟩

theorem Up.trans {c d f : Ctx} (h : Up c d) (g : Up d f) : Up c f := by
  refine ⟨Nat.le_trans h.count g.count, fun x => g.over (h.over x), ?_⟩
  rcases g.dead with h1 | h1
  · rcases h.dead with h2 | h2
    · exact .inl (h1.trans h2)
    · exact .inr (h1.trans h2)
  · exact .inr h1

theorem complete_mono_count (c : Ctx) (r : Result) : c.count ≤ (Context.complete r c).count := by
  unfold Context.complete
  split
  · exact Nat.le_refl _
  split
  · split
    · rw [finalize_count]; exact Nat.le_refl _
    · exact Nat.le_refl _
  cases r with
  | «continue» => dsimp only; rw [proceed_count]; exact Nat.le_succ _
  | complete => dsimp only; rw [finalize_count]; exact Nat.le_succ _
  | cancelled => dsimp only; rw [finalize_count]; exact Nat.le_succ _
  | fatal => dsimp only; rw [finalize_count]; exact Nat.le_succ _
  | error =>
    simp only [Context.completeError]
    split
    · rw [finalize_count]; exact Nat.le_succ _
    split
    · rw [proceed_count]; exact Nat.le_succ _
    · rw [finalize_count]; exact Nat.le_succ _

theorem Up.complete (c : Ctx) (r : Result) : Up c (Context.complete r c) := ⟨complete_mono_count c r, complete_over r, .inl (Same.complete c r).dead⟩

theorem Up.finalize (c : Ctx) : Up c (Context.finalize c) := ⟨by rw [finalize_count]; exact Nat.le_refl _, finalize_mono c, .inl (Same.finalize c).dead⟩

theorem Up.of {b c d : Ctx} (h : Up c d) (h1 : b.count ≤ c.count) (h2 : Adp.over b = true → Adp.over c = true) (h3 : c.dead = b.dead) : Up b d :=
  ⟨Nat.le_trans h1 h.count, fun x => h.over (h2 x), by rw [← h3]; exact h.dead⟩

theorem over_start {c : Ctx} (h : over c = true) (ch : List Bool) : over (Context.start ch c) = true := by
  unfold Context.start
  have hd : Context.doneOrCancelled c = true := by
    unfold over at h; unfold Context.doneOrCancelled
    rw [Bool.or_comm]; exact h
  rw [if_pos hd]; exact h

theorem start_count (c : Ctx) (ch : List Bool) : c.count ≤ (Context.start ch c).count := by
  unfold Context.start
  split
  · exact Nat.le_refl _
  split
  · refine Nat.le_trans (Nat.le_of_eq ?_) (complete_mono_count _ _)
    rfl
  · rw [proceed_count]; exact Nat.le_refl _

theorem Up.step (c : Ctx) (a : Act) (hs : a ≠ .suppress) : Up c (Context.step c a) := by
  unfold Context.step
  split
  · exact .refl c
  cases a with
  | suppress => exact absurd rfl hs
  | complete r => exact Up.complete c r
  | cancel =>
    dsimp only
    unfold Context.cancel
    split
    · exact .refl c
    split
    · exact ⟨Nat.le_refl _, fun _ => by unfold Adp.over; simp, .inl rfl⟩
    · exact (Up.complete _ _).of (Nat.le_refl _) (fun _ => by unfold Adp.over; simp) rfl
  | openScope => exact ⟨Nat.le_refl _, id, .inl rfl⟩
  | closeScope =>
    dsimp only
    split
    · exact .refl c
    unfold Context.release
    split
    · exact (Up.finalize _).of (Nat.le_refl _) id rfl
    · exact ⟨Nat.le_refl _, id, .inl rfl⟩
  | setStatus n => exact ⟨Nat.le_refl _, id, .inl rfl⟩
  | ret =>
    dsimp only
    unfold Context.ret
    split
    · split <;> exact ⟨Nat.le_refl _, id, .inl rfl⟩
    · exact (Up.complete _ _).of (Nat.le_refl _) id rfl
    · exact ⟨Nat.le_refl _, id, .inr rfl⟩
    · exact ⟨Nat.le_refl _, id, .inl rfl⟩
    · exact .refl c
  | throw =>
    dsimp only
    unfold Context.throwing
    split
    · split
      · exact ⟨Nat.le_refl _, id, .inl rfl⟩
      · exact (Up.complete _ _).of (Nat.le_refl _) id rfl
    · unfold Context.ret
      split
      · split <;> exact ⟨Nat.le_refl _, id, .inl rfl⟩
      · exact (Up.complete _ _).of (Nat.le_refl _) id rfl
      · exact ⟨Nat.le_refl _, id, .inr rfl⟩
      · exact ⟨Nat.le_refl _, id, .inl rfl⟩
      · exact .refl c
  | start ch =>
    dsimp only
    split
    · exact .refl c
    · refine ⟨start_count c ch, fun h => over_start h ch, .inl (Same.start c ch).dead⟩
  | destroy =>
    dsimp only
    split
    · unfold Context.destroy
      split
      · exact (Up.finalize _).of (Nat.le_refl _) id rfl
      · exact ⟨Nat.le_refl _, id, .inl rfl⟩
    · exact .refl c

theorem Up.run {c : Ctx} : ∀ as : List Act, Act.suppress ∉ as → Up c (Context.run c as)
  | [], _ => .refl c
  | a :: as, h => (Up.step c a (fun e => h (by rw [e]; exact List.mem_cons_self ..))).trans (Up.run as (fun hm => h (List.mem_cons_of_mem _ hm)))

/-- What is known of every invocation, whatever the handlers do: a coroutine that said something moved the request on. -/
structure Told (t : St) : Prop where
  before : ∀ v ∈ t.invs, v.kind.coro = true → ∀ b, v.before = some b → b ≤ t.ctx.count
  told : ∀ v ∈ t.invs, v.kind.coro = true → v.signalled = true → v.ended = false → ∃ b, v.before = some b ∧ (b < t.ctx.count ∨ over t.ctx = true)
  dead : t.ctx.dead = false
  noDtor : .dtor ∉ t.ctx.stack

theorem Told.up {t : St} (h : Told t) {d : Ctx} (u : Up t.ctx d) (h1 : d.dead = false) (h2 : .dtor ∉ d.stack) : Told { t with ctx := d } := by
  refine ⟨fun v hv hk b hb => Nat.le_trans (h.before v hv hk b hb) u.count, fun v hv hk hs he => ?_, h1, h2⟩
  obtain ⟨b, h3, h4⟩ := h.told v hv hk hs he
  refine ⟨b, h3, h4.imp (fun h => Nat.lt_of_lt_of_le h u.count) u.over⟩

theorem stack_dtor {c d : Ctx} (s : Same c d) (h : .dtor ∉ c.stack) : .dtor ∉ d.stack := by
  rcases s.stack with e | ⟨_, _, e⟩ | e <;> rw [e]
  · exact h
  · intro hm; rcases List.mem_cons.1 hm with hm | hm
    · cases hm
    · exact h hm
  · intro hm; rcases List.mem_cons.1 hm with hm | hm
    · cases hm
    · exact h hm

theorem Told.enter {kind : Bool → Nat → Kind} {t : St} {as : List Act} (h : Told t) (hs : Act.suppress ∉ as) (s : Same t.ctx (Context.run t.ctx as)) : Told (enter kind t as) := by
  have h1 : Told { t with ctx := Context.run t.ctx as } := h.up (.run as hs) (by rw [s.dead]; exact h.dead) (stack_dtor s h.noDtor)
  rcases enter_eq kind t as s with ⟨e, -⟩ | ⟨er, i, -, e⟩
  · rw [e]; exact h1
  · rw [e]
    have o : Up (Context.run t.ctx as) (if (kind er i).scoped = true then Context.step (Context.run t.ctx as) .openScope else Context.run t.ctx as) := by
      split
      · exact Up.step _ _ (by simp)
      · exact .refl _
    have h2 : Told { t with ctx := if (kind er i).scoped = true then Context.step (Context.run t.ctx as) .openScope else Context.run t.ctx as } := by
      refine h1.up o ?_ ?_
      · split
        · unfold Context.step; split <;> exact h1.dead
        · exact h1.dead
      · split
        · unfold Context.step; split <;> exact h1.noDtor
        · exact h1.noDtor
    refine ⟨fun v hv hk b hb => ?_, fun v hv hk hs he => ?_, h2.dead, h2.noDtor⟩
    · rcases List.mem_append.1 hv with hv | hv
      · exact h2.before v hv hk b hb
      · rw [List.mem_singleton.1 hv] at hb; cases hb
    · rcases List.mem_append.1 hv with hv | hv
      · exact h2.told v hv hk hs he
      · rw [List.mem_singleton.1 hv] at hs; cases hs

theorem mem_modify {l : List Inv} {j : Nat} {f : Inv → Inv} {m : Inv} (h : m ∈ l.modify j f) : m ∈ l ∨ ∃ v, l[j]? = some v ∧ m = f v := by
  induction l generalizing j with
  | nil => simp at h
  | cons x l ih =>
    cases j with
    | zero =>
      rcases List.mem_cons.1 (by simpa using h) with h | h
      · exact .inr ⟨x, rfl, h⟩
      · exact .inl (List.mem_cons_of_mem _ h)
    | succ j =>
      have h : m ∈ x :: l.modify j f := by simpa using h
      rcases List.mem_cons.1 h with h | h
      · rw [h]; exact .inl (List.mem_cons_self ..)
      · exact (ih h).imp (List.mem_cons_of_mem _) (fun ⟨v, h1, h2⟩ => ⟨v, by simpa using h1, h2⟩)

theorem Told.upd {t : St} (h : Told t) {j : Nat} {f : Inv → Inv} (hb : ∀ v, t.invs[j]? = some v → (f v).kind.coro = true → ∀ b, (f v).before = some b → b ≤ t.ctx.count)
    (ht : ∀ v, t.invs[j]? = some v → (f v).kind.coro = true → (f v).signalled = true → (f v).ended = false → ∃ b, (f v).before = some b ∧ (b < t.ctx.count ∨ over t.ctx = true)) : Told (upd t j f) := by
  refine ⟨fun v hv hk b e => ?_, fun v hv hk hs he => ?_, h.dead, h.noDtor⟩
  · rcases mem_modify hv with hv | ⟨w, h1, h2⟩
    · exact h.before v hv hk b e
    · rw [h2] at hk e; exact hb w h1 hk b e
  · rcases mem_modify hv with hv | ⟨w, h1, h2⟩
    · exact h.told v hv hk hs he
    · rw [h2] at hk hs he ⊢; exact ht w h1 hk hs he

theorem Told.mem {t : St} (h : Told t) {j : Nat} {v : Inv} (hv : t.invs[j]? = some v) : v ∈ t.invs := List.mem_of_getElem? hv

theorem told_start_same {t : St} (h : Told t) (ch : List Bool) : Same t.ctx (Context.run t.ctx [.start ch]) := by
  show Same t.ctx (Context.step t.ctx (.start ch))
  unfold Context.step
  rw [if_neg (by simp [h.dead])]
  dsimp only
  split
  · exact .refl _
  · exact Same.start _ _

/-- After a completion the count is higher, or it was over. -/
theorem completed {c : Ctx} (r : Result) : c.count < (Context.complete r c).count ∨ over (Context.complete r c) = true := by
  by_cases h : over c = true
  · exact .inr (complete_over r h)
  · left; rw [complete_count (by simpa using h)]; exact Nat.lt_succ_self _

theorem told_ret {t : St} (h : Told t) (as : List Act) (hs : Act.suppress ∉ as) (hd : ∀ a ∈ as, a = .ret ∨ a = .closeScope ∨ a = .cancel ∨ ∃ n, a = .setStatus n) : Told { t with ctx := Context.run t.ctx as } := by
  have key : ∀ (as : List Act) (c : Ctx), (∀ a ∈ as, a = .ret ∨ a = .closeScope ∨ a = .cancel ∨ ∃ n, a = .setStatus n) → c.dead = false → .dtor ∉ c.stack → (Context.run c as).dead = false ∧ .dtor ∉ (Context.run c as).stack := by
    intro as
    induction as with
    | nil => exact fun c _ h1 h2 => ⟨h1, h2⟩
    | cons a as ih =>
      intro c ha h1 h2
      have : (Context.step c a).dead = false ∧ .dtor ∉ (Context.step c a).stack := by
        rcases ha a (List.mem_cons_self ..) with e | e | e | ⟨n, e⟩ <;> rw [e]
        · rw [step_ret h1]
          unfold Context.ret
          split
          · rename_i st e
            have hn : .dtor ∉ st := fun hm => h2 (by rw [e]; exact List.mem_cons_of_mem _ hm)
            split
            · refine ⟨h1, ?_⟩
              intro hm; rcases List.mem_cons.1 hm with hm | hm
              · cases hm
              · exact hn hm
            · exact ⟨h1, hn⟩
          · rename_i st e
            have hn : .dtor ∉ st := fun hm => h2 (by rw [e]; exact List.mem_cons_of_mem _ hm)
            have a := (afterCancel_settled (c := { c with stack := st })).2.2
            exact ⟨by rw [a.dead]; exact h1, stack_dtor a hn⟩
          · rename_i st e
            exact absurd (by rw [e]; exact List.mem_cons_self ..) h2
          · rename_i fr st _ _ _ e
            exact ⟨h1, fun hm => h2 (by rw [e]; exact List.mem_cons_of_mem _ hm)⟩
          · exact ⟨h1, h2⟩
        · unfold Context.step
          rw [if_neg (by simp [h1])]
          dsimp only
          split
          · exact ⟨h1, h2⟩
          unfold Context.release
          split
          · have s := Same.finalize { c with depth := c.depth - 1 }
            exact ⟨by rw [s.dead]; exact h1, stack_dtor s h2⟩
          · exact ⟨h1, h2⟩
        · unfold Context.step
          rw [if_neg (by simp [h1])]
          dsimp only
          unfold Context.cancel
          split
          · exact ⟨h1, h2⟩
          split
          · refine ⟨h1, ?_⟩
            intro hm; rcases List.mem_cons.1 hm with hm | hm
            · cases hm
            · exact h2 hm
          · have a := (afterCancel_settled (c := { c with cancelled := true })).2.2
            exact ⟨by rw [a.dead]; exact h1, stack_dtor a h2⟩
        · unfold Context.step
          rw [if_neg (by simp [h1])]
          exact ⟨h1, h2⟩
      exact ih _ (fun a h => ha a (List.mem_cons_of_mem _ h)) this.1 this.2
  have := key as t.ctx hd h.dead h.noDtor
  exact h.up (.run as hs) this.1 this.2

theorem told_step {kind : Bool → Nat → Kind} {t : St} (h : Told t) (i : In) : Told (step kind t i) := by
  have csame : ∀ r, Same t.ctx (Context.run t.ctx [.complete r]) := fun r => by rw [step_complete h.dead]; exact Same.complete _ _
  have fsame : Same t.ctx (Context.run t.ctx [.setStatus 500, .complete .error]) := by rw [step_fail h.dead]; exact Same.fail _
  cases i with
  | start ch => exact h.enter (by simp) (told_start_same h ch)
  | begin j =>
    unfold Adp.step; dsimp only
    split
    swap
    · exact h
    rename_i v hv
    split
    swap
    · exact h
    rename_i hg
    simp only [Bool.and_eq_true, Option.isNone_iff_eq_none] at hg
    refine h.upd ?_ ?_
    · intro w _ _ b hb; cases hb; exact Nat.le_refl _
    · intro w hw hk hs he
      rw [hv] at hw; cases hw
      obtain ⟨b, h1, -⟩ := h.told v (h.mem hv) hk hs he
      rw [hg.2] at h1; cases h1
  | signal j r =>
    unfold Adp.step; dsimp only
    split
    swap
    · exact h
    rename_i v hv
    split
    swap
    · exact h
    rename_i ha
    -- the completion first, then the mark
    have h1 : Told (enter kind (upd t j (fun v => { v with signalled := true })) [.complete r]) := by
      have u : Up t.ctx (Context.run t.ctx [.complete r]) := .run _ (by simp)
      have hd : (Context.run t.ctx [.complete r]).dead = false := by rw [(csame r).dead]; exact h.dead
      have hn := stack_dtor (csame r) h.noDtor
      have h2 : Told (upd { t with ctx := Context.run t.ctx [.complete r] } j (fun v => { v with signalled := true })) := by
        have h3 := h.up u hd hn
        refine h3.upd ?_ ?_
        · intro w hw hk b hb; exact h3.before w (h3.mem hw) hk b hb
        · intro w hw hk _ he
          have hw : t.invs[j]? = some w := hw
          rw [hv] at hw; cases hw
          unfold Inv.active at ha
          have hk : v.kind.coro = true := hk
          rw [hk] at ha
          cases hb : v.before with
          | none => rw [hb] at ha; simp at ha
          | some b =>
            refine ⟨b, rfl, ?_⟩
            have hle := h.before v (h.mem hv) hk b hb
            show b < (Context.run t.ctx [.complete r]).count ∨ over (Context.run t.ctx [.complete r]) = true
            rw [step_complete h.dead]
            exact (completed r).imp (fun h => by omega) id
      rcases enter_eq kind (upd t j (fun v => { v with signalled := true })) [.complete r] (csame r) with ⟨e, -⟩ | ⟨er, i, -, e⟩
      · rw [e]; exact h2
      · rw [e]
        have o : ∀ c : Ctx, c.dead = false → .dtor ∉ c.stack → Up c (if (kind er i).scoped = true then Context.step c .openScope else c) ∧ (if (kind er i).scoped = true then Context.step c .openScope else c).dead = false ∧
            .dtor ∉ (if (kind er i).scoped = true then Context.step c .openScope else c).stack := by
          intro c h1 h2
          split
          · refine ⟨Up.step _ _ (by simp), ?_, ?_⟩
            · unfold Context.step; rw [if_neg (by simp [h1])]; exact h1
            · unfold Context.step; rw [if_neg (by simp [h1])]; exact h2
          · exact ⟨.refl _, h1, h2⟩
        obtain ⟨o1, o2, o3⟩ := o _ hd hn
        have h4 := h2.up o1 o2 o3
        refine ⟨fun v hv hk b hb => ?_, fun v hv hk hs he => ?_, h4.dead, h4.noDtor⟩
        · rcases List.mem_append.1 hv with hv | hv
          · exact h4.before v hv hk b hb
          · rw [List.mem_singleton.1 hv] at hb; cases hb
        · rcases List.mem_append.1 hv with hv | hv
          · exact h4.told v hv hk hs he
          · rw [List.mem_singleton.1 hv] at hs; cases hs
    exact h1
  | next j =>
    unfold Adp.step; dsimp only
    split
    swap
    · exact h
    rename_i v hv
    split
    · exact h
    rename_i hk
    split
    · exact h
    have hk : v.kind = .mw := by simpa using hk
    have h1 : Told (upd t j (fun v => { v with nextCalled := true, signalled := true })) := by
      refine h.upd ?_ ?_ <;> intro w hw hc <;> rw [hv] at hw <;> cases hw <;> have hc : v.kind.coro = true := hc <;> rw [hk] at hc <;> cases hc
    split
    · exact h1
    · exact h1.enter (by simp) (csame _)
  | done j =>
    unfold Adp.step; dsimp only
    split
    swap
    · exact h
    rename_i v hv
    have h1 : Told (upd t j (fun v => { v with ended := true })) := by
      refine h.upd (fun w hw hk b hb => h.before w (h.mem hw) hk b hb) ?_
      intro w hw hk hs he; cases he
    split
    · exact h
    split
    · exact h1
    split
    · exact h
    split
    · exact h1.enter (by simp) (csame _)
    · exact h1
  | fail j =>
    unfold Adp.step; dsimp only
    split
    swap
    · exact h
    rename_i v hv
    have h1 : Told (upd t j (fun v => { v with ended := true, signalled := true })) := by
      refine h.upd (fun w hw hk b hb => h.before w (h.mem hw) hk b hb) ?_
      intro w hw hk hs he; cases he
    split
    · exact h
    split
    · exact h
    split
    · exact h1
    · exact h1.enter (by simp) fsame
  | ret =>
    unfold Adp.step; dsimp only
    split
    · split
      · exact told_ret h _ (by simp) (by simp)
      · exact told_ret h _ (by simp) (by simp)
    · exact told_ret h _ (by simp) (by simp)
  | cancel =>
    unfold Adp.step; dsimp only
    split
    · exact told_ret h _ (by simp) (by simp)
    · exact told_ret h _ (by simp) (by simp)
  | setStatus n => exact told_ret h _ (by simp) (by simp)

theorem told_foldl {kind : Bool → Nat → Kind} : ∀ (is : List In) {t : St}, Told t → Told (is.foldl (step kind) t)
  | [], _, h => h
  | i :: is, _, h => told_foldl is (told_step h i)

theorem told_run (kind : Bool → Nat → Kind) (e : Option (List Bool)) (is : List In) : Told (run kind e is) :=
  told_foldl is ⟨fun v hv => (by cases hv), fun v hv => (by cases hv), rfl, (by intro h; cases h)⟩

/-- C189: a coroutine that completed the request itself is not completed again when it returns, whatever happened in between. -/
theorem C189_signalled (kind : Bool → Nat → Kind) (e : Option (List Bool)) (is : List In) {j : Nat} {v : Inv} (hv : (run kind e is).invs[j]? = some v) (hk : v.kind.coro = true) (hs : v.signalled = true) :
    (step kind (run kind e is) (.done j)).ctx = (run kind e is).ctx := by
  have h := told_run kind e is
  generalize run kind e is = t at hv h ⊢
  unfold step
  dsimp only
  rw [hv]
  dsimp only
  split
  · rfl
  rename_i hne
  rw [if_neg (by simp [hk])]
  split
  · rfl
  rename_i b hb
  obtain ⟨b', h1, h2⟩ := h.told v (h.mem hv) hk hs (by simpa using hne)
  rw [hb] at h1; cases h1
  rw [if_neg]
  · rfl
  · show ¬ ((t.ctx.count == b && !over t.ctx) = true)
    rcases h2 with h2 | h2
    · simp; omega
    · rw [h2]; simp

/-- C189: a coroutine that returns while nothing was said since it began is completed: with `CONTINUE` a middleware, with `COMPLETE` a route. -/
theorem C189_returns (kind : Bool → Nat → Kind) (e : Option (List Bool)) (is : List In) {j : Nat} {v : Inv} (hv : (run kind e is).invs[j]? = some v) (hk : v.kind.coro = true) (hne : v.ended = false)
    (hb : v.before = some (run kind e is).ctx.count) (ho : over (run kind e is).ctx = false) :
    ∃ t', (step kind (run kind e is) (.done j)) = enter kind t' [.complete (if v.kind = .coroRoute then .complete else .continue)] ∧ t'.ctx = (run kind e is).ctx := by
  refine ⟨upd (run kind e is) j (fun v => { v with ended := true }), ?_, rfl⟩
  conv => lhs; unfold step
  dsimp only
  rw [hv]
  dsimp only
  rw [if_neg (by simp [hne]), if_neg (by simp [hk]), hb]
  dsimp only
  rw [if_pos (by show ((run kind e is).ctx.count == (run kind e is).ctx.count && !over (run kind e is).ctx) = true; rw [ho]; simp)]
  congr 4
  by_cases h : v.kind = .coroRoute <;> simp [h]

/-- C189: the first call of `next` by a middleware, while the request is not over, lets the chain continue; the middleware has then said how it ends. -/
theorem C189_next (kind : Bool → Nat → Kind) (e : Option (List Bool)) (is : List In) {j : Nat} {v : Inv} (hv : (run kind e is).invs[j]? = some v) (hk : v.kind = .mw) (hn : v.nextCalled = false)
    (ho : over (run kind e is).ctx = false) :
    ∃ t', step kind (run kind e is) (.next j) = enter kind t' [.complete .continue] ∧ t'.ctx = (run kind e is).ctx ∧ t'.invs[j]? = some { v with nextCalled := true, signalled := true } := by
  refine ⟨upd (run kind e is) j (fun v => { v with nextCalled := true, signalled := true }), ?_, rfl, ?_⟩
  · conv => lhs; unfold step
    dsimp only
    rw [hv]
    dsimp only
    rw [if_neg (by simp [hk]), if_neg (by simp [hn]), if_neg (by show ¬ (over (run kind e is).ctx = true); rw [ho]; simp)]
  · show ((run kind e is).invs.modify j _)[j]? = _
    rw [List.getElem?_modify, hv]; simp

/-- C189: a handler that completes with `r` completes the request with `r`. -/
theorem C189_completes (kind : Bool → Nat → Kind) (e : Option (List Bool)) (is : List In) {j : Nat} {v : Inv} {r : Result} (hv : (run kind e is).invs[j]? = some v) (ha : v.active = true) :
    ∃ t', step kind (run kind e is) (.signal j r) = enter kind t' [.complete r] ∧ t'.ctx = (run kind e is).ctx ∧ t'.invs[j]? = some { v with signalled := true } := by
  refine ⟨upd (run kind e is) j (fun v => { v with signalled := true }), ?_, rfl, ?_⟩
  · conv => lhs; unfold step
    dsimp only
    rw [hv]
    dsimp only
    rw [if_pos ha]
  · show ((run kind e is).invs.modify j _)[j]? = _
    rw [List.getElem?_modify, hv]; simp

/-- C189: an exception of a handler, while the request is not over, makes the answer 500 if there is no error chain (or it is the error chain that threw), and otherwise starts the first task of the error chain. -/
theorem C189_throws (kind : Bool → Nat → Kind) (e : Option (List Bool)) (is : List In) {j : Nat} {v : Inv} (hv : (run kind e is).invs[j]? = some v) (hne : v.ended = false)
    (hbeg : v.kind.coro = true → v.before ≠ none) (ho : over (run kind e is).ctx = false) :
    ((run kind e is).ctx.phase = .errorChain ∨ (run kind e is).ctx.errChain = none ∨ (run kind e is).ctx.errChain = some [] →
      (step kind (run kind e is) (.fail j)).ctx.status = 500 ∧ Settled (step kind (run kind e is) (.fail j)).ctx) ∧
    (∀ ts, (run kind e is).ctx.phase ≠ .errorChain → (run kind e is).ctx.errChain = some (true :: ts) →
      ∃ tr, (step kind (run kind e is) (.fail j)).ctx.trace = (run kind e is).ctx.trace ++ tr ∧ tr = [.enterError, .start true 0] ∧ (step kind (run kind e is) (.fail j)).invs.length = (run kind e is).invs.length + 1) := by
  have h := told_run kind e is
  generalize run kind e is = t at hv h ho ⊢
  have es : step kind t (.fail j) = enter kind (upd t j (fun v => { v with ended := true, signalled := true })) [.setStatus 500, .complete .error] := by
    conv => lhs; unfold step
    dsimp only
    rw [hv]
    dsimp only
    rw [if_neg (by simp [hne]), if_neg, if_neg]
    · show ¬ (over t.ctx = true); rw [ho]; simp
    · intro hc
      simp only [Bool.and_eq_true, Option.isNone_iff_eq_none] at hc
      exact hbeg hc.1 hc.2
  have hr := step_fail h.dead
  have ov : t.ctx.state ≠ .finalised ∧ t.ctx.cancelled = false := by
    unfold over at ho
    simpa using ho
  have ec : Context.complete .error { t.ctx with status := 500 } = Context.completeError { t.ctx with status := 500, inFlight := false, lastResult := .error, count := t.ctx.count + 1 } := by
    unfold Context.complete
    rw [if_neg (by simp [ov.1]), if_neg (by simp [ov.2])]
  rw [es]
  have same : Same t.ctx (Context.run t.ctx [.setStatus 500, .complete .error]) := by rw [hr]; exact Same.fail _
  constructor
  · intro hc
    have ef : Context.run t.ctx [.setStatus 500, .complete .error] = Context.finalize { t.ctx with status := 500, inFlight := false, lastResult := .error, count := t.ctx.count + 1 } := by
      rw [hr, ec]
      unfold Context.completeError
      by_cases hp : t.ctx.phase = .errorChain
      · rw [if_pos (by simp [hp])]
      · rw [if_neg (by simpa using hp)]
        rcases hc with hc | hc | hc
        · exact absurd hc hp
        · dsimp only; rw [hc]
        · dsimp only; rw [hc]
    have st : (Context.run t.ctx [.setStatus 500, .complete .error]).stack = t.ctx.stack ∨ (Context.run t.ctx [.setStatus 500, .complete .error]).stack = .hooks :: t.ctx.stack := by
      rw [ef]; unfold Context.finalize
      split
      · exact .inl rfl
      split
      · exact .inl rfl
      · exact .inr rfl
    have ee : (enter kind (upd t j (fun v => { v with ended := true, signalled := true })) [.setStatus 500, .complete .error]).ctx = Context.run t.ctx [.setStatus 500, .complete .error] := by
      rcases enter_eq kind (upd t j (fun v => { v with ended := true, signalled := true })) _ same with ⟨e, -⟩ | ⟨er, i, e, -⟩
      · rw [e]; rfl
      · exfalso
        have e : (Context.run t.ctx [.setStatus 500, .complete .error]).stack = .task er i :: t.ctx.stack := e
        rcases st with st | st <;> rw [st] at e
        · have := congrArg List.length e; simp at this
        · cases e
    rw [ee, ef]
    refine ⟨?_, settled_finalize _⟩
    unfold Context.finalize
    split
    · rfl
    split <;> rfl
  · intro ts hp hc
    have ef : Context.run t.ctx [.setStatus 500, .complete .error] = Context.proceed { t.ctx with status := 500, inFlight := false, lastResult := .error, count := t.ctx.count + 1, phase := .errorChain, chain := true :: ts, idx := 0, curErr := true, trace := t.ctx.trace ++ [.enterError] } := by
      rw [hr, ec]
      unfold Context.completeError
      rw [if_neg (by simpa using hp)]
      dsimp only
      rw [hc]
    have sk : Context.skipNull (true :: ts) 0 = 0 := by simp [Context.skipNull]
    have ep : Context.run t.ctx [.setStatus 500, .complete .error] = { t.ctx with status := 500, lastResult := .error, count := t.ctx.count + 1, phase := .errorChain, chain := true :: ts, idx := 0, curErr := true, inFlight := true, stack := .task true 0 :: t.ctx.stack, trace := t.ctx.trace ++ [.enterError] ++ [.start true 0] } := by
      rw [ef]
      unfold Context.proceed
      rw [if_neg (by show ¬ (Context.doneOrCancelled _ = true); unfold Context.doneOrCancelled; simp [ov.1, ov.2])]
      dsimp only
      rw [sk, if_pos (by simp)]
    rcases enter_eq kind (upd t j (fun v => { v with ended := true, signalled := true })) _ same with ⟨e, e'⟩ | ⟨er, i, -, e⟩
    · exfalso
      have e' : (Context.run t.ctx [.setStatus 500, .complete .error]).stack = t.ctx.stack ∨ (Context.run t.ctx [.setStatus 500, .complete .error]).stack = .hooks :: t.ctx.stack := e'
      rw [ep] at e'
      dsimp only at e'
      rcases e' with e' | e'
      · have := congrArg List.length e'; simp at this
      · cases e'
    · refine ⟨_, ?_, rfl, ?_⟩
      · rw [e]
        dsimp only
        have et : (if (kind er i).scoped = true then Context.step (Context.run t.ctx [.setStatus 500, .complete .error]) .openScope else Context.run t.ctx [.setStatus 500, .complete .error]).trace = (Context.run t.ctx [.setStatus 500, .complete .error]).trace := by
          split
          · unfold Context.step; split <;> rfl
          · rfl
        refine et.trans ?_
        rw [ep]
        simp
      · rw [e]; simp [upd]

/-! Invocations keep what they did. -/

/-- The same invocations, and perhaps more, with the marks they had. -/
def Keeps (l l' : List Inv) : Prop := ∀ (j : Nat) (v : Inv), l[j]? = some v → ∃ v' : Inv, l'[j]? = some v' ∧ v'.kind = v.kind ∧ (v.nextCalled = true → v'.nextCalled = true)

theorem Keeps.refl (l : List Inv) : Keeps l l := fun _ v h => ⟨v, h, rfl, id⟩

theorem Keeps.trans {l l' l'' : List Inv} (h : Keeps l l') (g : Keeps l' l'') : Keeps l l'' := fun j v hv => by
  obtain ⟨v', h1, h2, h3⟩ := h j v hv
  obtain ⟨v'', h4, h5, h6⟩ := g j v' h1
  exact ⟨v'', h4, h5.trans h2, fun x => h6 (h3 x)⟩

theorem Keeps.append (l m : List Inv) : Keeps l (l ++ m) := fun j v h => by
  refine ⟨v, ?_, rfl, id⟩
  have hj : j < l.length := by
    rcases Nat.lt_or_ge j l.length with h1 | h1
    · exact h1
    · rw [List.getElem?_eq_none h1] at h; cases h
  rw [List.getElem?_append_left hj]; exact h

theorem Keeps.modify (l : List Inv) (j : Nat) (f : Inv → Inv) (h1 : ∀ v, (f v).kind = v.kind) (h2 : ∀ v, v.nextCalled = true → (f v).nextCalled = true) : Keeps l (l.modify j f) := by
  intro i v hv
  rw [List.getElem?_modify, hv]
  by_cases h : j = i
  · exact ⟨f v, by simp [h], h1 v, h2 v⟩
  · exact ⟨v, by simp [h], rfl, id⟩

theorem keeps_enter (kind : Bool → Nat → Kind) (t : St) (as : List Act) : Keeps t.invs (enter kind t as).invs := by
  unfold enter
  dsimp only
  split
  · split
    · exact Keeps.append _ _
    · exact .refl _
  · exact .refl _

theorem keeps_upd_enter (kind : Bool → Nat → Kind) (t : St) (j : Nat) (f : Inv → Inv) (as : List Act) (h1 : ∀ v, (f v).kind = v.kind) (h2 : ∀ v, v.nextCalled = true → (f v).nextCalled = true) : Keeps t.invs (enter kind (upd t j f) as).invs :=
  (Keeps.modify t.invs j f h1 h2).trans (keeps_enter kind (upd t j f) as)

theorem keeps_step (kind : Bool → Nat → Kind) (t : St) (i : In) : Keeps t.invs (step kind t i).invs := by
  cases i with
  | start ch => exact keeps_enter _ _ _
  | begin j =>
    unfold step; dsimp only
    split
    · split
      · exact Keeps.modify _ _ _ (fun _ => rfl) (fun _ h => h)
      · exact .refl _
    · exact .refl _
  | signal j r =>
    unfold step; dsimp only
    split
    · split
      · exact keeps_upd_enter _ _ _ _ _ (fun _ => rfl) (fun _ h => h)
      · exact .refl _
    · exact .refl _
  | next j =>
    unfold step; dsimp only
    split
    · split
      · exact .refl _
      split
      · exact .refl _
      split
      · exact Keeps.modify _ _ _ (fun _ => rfl) (fun _ _ => rfl)
      · exact keeps_upd_enter _ _ _ _ _ (fun _ => rfl) (fun _ _ => rfl)
    · exact .refl _
  | done j =>
    unfold step; dsimp only
    split
    · split
      · exact .refl _
      split
      · exact Keeps.modify _ _ _ (fun _ => rfl) (fun _ h => h)
      split
      · exact .refl _
      split
      · exact keeps_upd_enter _ _ _ _ _ (fun _ => rfl) (fun _ h => h)
      · exact Keeps.modify _ _ _ (fun _ => rfl) (fun _ h => h)
    · exact .refl _
  | fail j =>
    unfold step; dsimp only
    split
    · split
      · exact .refl _
      split
      · exact .refl _
      split
      · exact Keeps.modify _ _ _ (fun _ => rfl) (fun _ h => h)
      · exact keeps_upd_enter _ _ _ _ _ (fun _ => rfl) (fun _ h => h)
    · exact .refl _
  | ret =>
    unfold step; dsimp only
    split <;> exact .refl _
  | cancel => exact .refl _
  | setStatus n => exact .refl _

theorem keeps_foldl (kind : Bool → Nat → Kind) : ∀ (is : List In) (t : St), Keeps t.invs (is.foldl (step kind) t).invs
  | [], _ => .refl _
  | i :: is, t => (keeps_step kind t i).trans (keeps_foldl kind is _)

/-- C189: the second call of `next` by the same invocation does nothing at all, however late it comes and whatever happened in between. -/
theorem C189_next_once (kind : Bool → Nat → Kind) (e : Option (List Bool)) (is js : List In) (j : Nat) (h : j < (run kind e is).invs.length) :
    run kind e (is ++ [.next j] ++ js ++ [.next j]) = run kind e (is ++ [.next j] ++ js) := by
  obtain ⟨v0, hv⟩ : ∃ v0, (run kind e is).invs[j]? = some v0 := ⟨_, List.getElem?_eq_getElem h⟩
  clear h
  have e1 : run kind e (is ++ [.next j] ++ js) = js.foldl (step kind) (step kind (run kind e is) (.next j)) := by
    unfold run; rw [List.foldl_append, List.foldl_append]; rfl
  have e2 : run kind e (is ++ [.next j] ++ js ++ [.next j]) = step kind (run kind e (is ++ [.next j] ++ js)) (.next j) := by
    unfold run; rw [List.foldl_append]; rfl
  rw [e2, e1]
  generalize run kind e is = t at hv ⊢
  -- after the first call, the mark is set or it is no middleware
  have h1 : ∃ v, (step kind t (.next j)).invs[j]? = some v ∧ (v.kind ≠ .mw ∨ v.nextCalled = true) := by
    unfold step; dsimp only
    rw [hv]
    dsimp only
    split
    · rename_i hk; exact ⟨_, hv, .inl (by simpa using hk)⟩
    split
    · rename_i hn; exact ⟨_, hv, .inr hn⟩
    have hm : (upd t j (fun v => { v with nextCalled := true, signalled := true })).invs[j]? = some { v0 with nextCalled := true, signalled := true } := by
      show (t.invs.modify j _)[j]? = _
      rw [List.getElem?_modify, hv]; simp
    split
    · exact ⟨_, hm, .inr rfl⟩
    · obtain ⟨v', h1, -, h3⟩ := keeps_enter kind (upd t j (fun v => { v with nextCalled := true, signalled := true })) [.complete .continue] j _ hm
      exact ⟨v', h1, .inr (h3 rfl)⟩
  obtain ⟨v, h2, h3⟩ := h1
  obtain ⟨v', h4, h5, h6⟩ := keeps_foldl kind js _ j v h2
  generalize js.foldl (step kind) (step kind t (.next j)) = u at h4 ⊢
  unfold step; dsimp only
  rw [h4]
  dsimp only
  rcases h3 with h3 | h3
  · rw [if_pos (by rw [h5]; simpa using h3)]
  · split
    · rfl
    · rw [if_pos (h6 h3)]

/-- Cases that meet the hypotheses: a coroutine that completed and is not done; one that began and said nothing; a handler that throws without, and with, an error chain; a second `next`. -/
example : ((run kinds none (story.take 10)).invs[2]?.map fun v => (v.kind.coro, v.signalled, v.ended)) = some (true, true, false) := by decide

example : ((run kinds none (story.take 5)).invs[1]?.map fun v => (v.kind.coro, v.before, v.ended)) = some (true, some (run kinds none (story.take 5)).ctx.count, false) ∧
    over (run kinds none (story.take 5)).ctx = false := by decide

example : over (run kinds none [.start [true]]).ctx = false ∧ ((run kinds none [.start [true]]).invs[0]?.map fun v => (v.kind, v.ended)) = some (.mw, false) ∧
    (run kinds none [.start [true], .fail 0, .ret, .ret, .ret]).ctx.status = 500 ∧ (run kinds none [.start [true], .fail 0, .ret, .ret, .ret]).ctx.state = .finalised ∧
    (run kinds (some [true]) [.start [true], .fail 0]).ctx.trace = [.start false 0, .enterError, .start true 0] := by decide

example : ((run kinds none [.start [true, true]]).invs[0]?.map fun v => (v.kind, v.nextCalled, v.active)) = some (.mw, false, true) ∧ over (run kinds none [.start [true, true]]).ctx = false := by decide

example : (0 < (run kinds none [.start [true, true]]).invs.length) ∧ (run kinds none [.start [true, true], .next 0]).invs.length = 2 ∧ (run kinds none [.start [true, true], .next 0, .next 0]).invs.length = 2 := by decide

/-- Why the contract is needed: a middleware that calls `next`, and throws while the next handler is still at work (it waits for something), has the request answered with 500; what the handler says later is lost. -/
theorem C189_throw_after_next_refuted :
    let t := run (fun _ i => if i = 0 then .mw else .route) none [.start [true, true], .next 0, .ret, .fail 0, .ret, .ret, .ret]
    t.ctx.state = .finalised ∧ t.ctx.status = 500 ∧ Context.callbacks t.ctx.trace = 1 ∧ t.ctx.stack = [] ∧ (t.invs[1]?.map Inv.signalled) = some false := by decide

end Verif.Adp
