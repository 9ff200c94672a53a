import Verif.Wsc.Spec

namespace Verif.Wsc

/-- How often an awaiter has ended. -/
def ends (id : Nat) (l : List Ev) : Nat := (l.filter (Ev.answers id)).length

theorem ends_cons (id : Nat) (e : Ev) (l : List Ev) : ends id (e :: l) = ends id l + if e.answers id then 1 else 0 := by
  unfold ends; rw [List.filter_cons]; split <;> simp

/-! ### Pieces of the functions -/

def takeConn (s : St) (r : Result) : St := fireOpt { s with conn := none } s.conn r
def takeRecv (s : St) (r : Result) : St := fireOpt { s with recv := none } s.recv r
def takeClos (s : St) (r : Result) : St := fireOpt { s with clos := none } s.clos r

theorem fire_fields (s : St) (id : Nat) (r : Result) : (fire s id r).pending = s.pending ∧ (fire s id r).cap = s.cap ∧ (fire s id r).conn = s.conn ∧ (fire s id r).recv = s.recv ∧ (fire s id r).clos = s.clos ∧
    (fire s id r).disc = s.disc ∧ (fire s id r).sent = s.sent ∧ (fire s id r).next = s.next ∧ (fire s id r).dead = s.dead := by
  unfold fire; split <;> simp

theorem fireOpt_fields (s : St) (w : Option Nat) (r : Result) : (fireOpt s w r).pending = s.pending ∧ (fireOpt s w r).cap = s.cap ∧ (fireOpt s w r).conn = s.conn ∧ (fireOpt s w r).recv = s.recv ∧ (fireOpt s w r).clos = s.clos ∧
    (fireOpt s w r).disc = s.disc ∧ (fireOpt s w r).sent = s.sent ∧ (fireOpt s w r).next = s.next ∧ (fireOpt s w r).dead = s.dead := by
  cases w with
  | none => simp [fireOpt]
  | some id => exact fire_fields s id r

theorem fire_log (s : St) (id : Nat) (r : Result) : (fire s id r).log = s.log ∨ (fire s id r).log = .resumed id r :: s.log := by
  unfold fire; split <;> simp

theorem fireOpt_log (s : St) (w : Option Nat) (r : Result) : (fireOpt s w r).log = s.log ∨ ∃ id, w = some id ∧ (fireOpt s w r).log = .resumed id r :: s.log := by
  cases w with
  | none => exact .inl rfl
  | some id => rcases fire_log s id r with h | h
               · exact .inl h
               · exact .inr ⟨id, rfl, h⟩

/-! ### The awaiters -/

structure W (s : St) : Prop where
  conn : ∀ id, s.conn = some id → .call id .connect ∈ s.log
  recv : ∀ id, s.recv = some id → .call id .receive ∈ s.log
  clos : ∀ id, s.clos = some id → ∃ a b, .call id (.close a b) ∈ s.log
  once : ∀ id, ends id s.log ≤ 1
  none_ : ∀ id, id ∉ s.done → id ∉ s.dead → ends id s.log = 0
  done : ∀ id ∈ s.done, 1 ≤ ends id s.log
  dead : ∀ id ∈ s.dead, id < s.next ∧ (.destroyed id ∈ s.log ∨ 1 ≤ ends id s.log)
  fresh : ∀ id c, .call id c ∈ s.log → id < s.next
  freshD : ∀ id ∈ s.done, id < s.next
  freshE : ∀ id, s.next ≤ id → ends id s.log = 0
  open_ : ∀ id c, .call id c ∈ s.log → 1 ≤ ends id s.log ∨ id ∈ s.dead ∨ match c with
    | .connect => s.conn = some id
    | .receive => s.recv = some id
    | .close _ _ => s.clos = some id
  suits : ∀ id r, .resumed id r ∈ s.log → ∃ c, .call id c ∈ s.log ∧ Suits c r

theorem W.init : W {} := by
  constructor <;> intros <;> simp_all [ends]

/-- Events of no account to the awaiters. -/
theorem W.add {s : St} (w : W s) (e : Ev) (h1 : ∀ id, e.answers id = false) (h2 : ∀ id c, e ≠ .call id c) (h3 : ∀ id r, e ≠ .resumed id r) : W (s.add e) := by
  have en : ∀ id, ends id (e :: s.log) = ends id s.log := fun id => by rw [ends_cons, h1]; simp
  have mc : ∀ id c, Ev.call id c ∈ e :: s.log → Ev.call id c ∈ s.log := by
    intro id c h
    rcases List.mem_cons.1 h with h | h
    · exact absurd h.symm (h2 id c)
    · exact h
  constructor
  · exact fun id h => List.mem_cons_of_mem _ (w.conn id h)
  · exact fun id h => List.mem_cons_of_mem _ (w.recv id h)
  · exact fun id h => by obtain ⟨a, b, h⟩ := w.clos id h; exact ⟨a, b, List.mem_cons_of_mem _ h⟩
  · intro id; show ends id (e :: s.log) ≤ 1; rw [en]; exact w.once id
  · intro id a b; show ends id (e :: s.log) = 0; rw [en]; exact w.none_ id a b
  · intro id a; show 1 ≤ ends id (e :: s.log); rw [en]; exact w.done id a
  · intro id a
    refine ⟨(w.dead id a).1, ?_⟩
    show _ ∨ 1 ≤ ends id (e :: s.log)
    rw [en]
    rcases (w.dead id a).2 with h | h
    · exact .inl (List.mem_cons_of_mem _ h)
    · exact .inr h
  · exact fun id c h => w.fresh id c (mc id c h)
  · exact w.freshD
  · intro id a; show ends id (e :: s.log) = 0; rw [en]; exact w.freshE id a
  · intro id c h
    show 1 ≤ ends id (e :: s.log) ∨ _
    rw [en]; exact w.open_ id c (mc id c h)
  · intro id r h
    rcases List.mem_cons.1 h with h | h
    · exact absurd h.symm (h3 id r)
    · obtain ⟨c, h1, h2⟩ := w.suits id r h
      exact ⟨c, List.mem_cons_of_mem _ h1, h2⟩

/-- Fields that do not matter. -/
theorem W.same {s t : St} (w : W s) (h1 : t.conn = s.conn) (h2 : t.recv = s.recv) (h3 : t.clos = s.clos) (h4 : t.next = s.next) (h5 : t.dead = s.dead) (h6 : t.done = s.done) (h7 : t.log = s.log) : W t := by
  constructor
  · rw [h1, h7]; exact w.conn
  · rw [h2, h7]; exact w.recv
  · rw [h3, h7]; exact w.clos
  · rw [h7]; exact w.once
  · rw [h7, h6, h5]; exact w.none_
  · rw [h7, h6]; exact w.done
  · rw [h7, h5, h4]; exact w.dead
  · rw [h7, h4]; exact w.fresh
  · rw [h6, h4]; exact w.freshD
  · rw [h7, h4]; exact w.freshE
  · rw [h7, h5, h1, h2, h3]; exact w.open_
  · rw [h7]; exact w.suits

/-- An awaiter ends. `u` is the state in which it is not parked any more. -/
theorem W.fire {s u : St} (w : W s) (id : Nat) (r : Result) (hl : u.log = s.log) (hn : u.next = s.next) (hd : u.dead = s.dead) (ho : u.done = s.done) (hc : ∃ c, .call id c ∈ s.log ∧ Suits c r)
    (c1 : ∀ j, u.conn = some j → s.conn = some j) (c2 : ∀ j, s.conn = some j → j ≠ id → u.conn = some j)
    (r1 : ∀ j, u.recv = some j → s.recv = some j) (r2 : ∀ j, s.recv = some j → j ≠ id → u.recv = some j)
    (k1 : ∀ j, u.clos = some j → s.clos = some j) (k2 : ∀ j, s.clos = some j → j ≠ id → u.clos = some j) : W (fire u id r) := by
  obtain ⟨c, hc, hcr⟩ := hc
  unfold Wsc.fire
  rw [hd, ho]
  split
  · rename_i h
    have he : 1 ≤ ends id s.log ∨ id ∈ s.dead := by
      simp only [Bool.or_eq_true, List.contains_iff_mem] at h
      rcases h with h | h
      · exact .inr h
      · exact .inl (w.done id h)
    constructor
    · rw [hl]; exact fun j hj => w.conn j (c1 j hj)
    · rw [hl]; exact fun j hj => w.recv j (r1 j hj)
    · rw [hl]; exact fun j hj => w.clos j (k1 j hj)
    · rw [hl]; exact w.once
    · rw [hl, ho, hd]; exact w.none_
    · rw [hl, ho]; exact w.done
    · rw [hl, hd, hn]; exact w.dead
    · rw [hl, hn]; exact w.fresh
    · rw [ho, hn]; exact w.freshD
    · rw [hl, hn]; exact w.freshE
    · rw [hl, hd]
      intro j c' hj
      by_cases e : j = id
      · subst e
        rcases he with h | h
        · exact .inl h
        · exact .inr (.inl h)
      · rcases w.open_ j c' hj with h | h | h
        · exact .inl h
        · exact .inr (.inl h)
        · refine .inr (.inr ?_)
          cases c' with
          | connect => exact c2 j h e
          | receive => exact r2 j h e
          | close a b => exact k2 j h e
    · rw [hl]; exact w.suits
  · rename_i h
    simp only [Bool.or_eq_true, List.contains_iff_mem, not_or] at h
    have e0 := w.none_ id h.2 h.1
    have en : ∀ j, ends j (.resumed id r :: s.log) = ends j s.log + if id = j then 1 else 0 := fun j => by rw [ends_cons]; simp [Ev.answers]
    have mc : ∀ j c, Ev.call j c ∈ Ev.resumed id r :: s.log → Ev.call j c ∈ s.log := by
      intro j c h; rcases List.mem_cons.1 h with h | h
      · cases h
      · exact h
    constructor <;> dsimp only <;> (try rw [hl]) <;> try rw [hn]
    · exact fun j hj => List.mem_cons_of_mem _ (w.conn j (c1 j hj))
    · exact fun j hj => List.mem_cons_of_mem _ (w.recv j (r1 j hj))
    · exact fun j hj => by obtain ⟨a, b, h⟩ := w.clos j (k1 j hj); exact ⟨a, b, List.mem_cons_of_mem _ h⟩
    · intro j; rw [en]; split
      · rename_i e; subst e; omega
      · have := w.once j; omega
    · intro j h1 h2
      rw [en]
      simp only [List.mem_cons, not_or] at h1
      rw [if_neg (fun e => h1.1 e.symm)]
      have := w.none_ j h1.2 h2
      omega
    · intro j hj
      rw [en]
      rcases List.mem_cons.1 hj with e | hj
      · subst e; simp
      · have := w.done j hj; omega
    · intro j hj
      refine ⟨(w.dead j hj).1, ?_⟩
      rcases (w.dead j hj).2 with h | h
      · exact .inl (List.mem_cons_of_mem _ h)
      · right; rw [en]; omega
    · exact fun j c h => w.fresh j c (mc j c h)
    · intro j hj
      rcases List.mem_cons.1 hj with e | hj
      · subst e; exact w.fresh _ c hc
      · exact w.freshD j hj
    · intro j hj
      rw [en, if_neg, w.freshE j hj]
      intro e; subst e
      exact absurd (w.fresh _ c hc) (by omega)
    · intro j c' hj
      rw [en]
      by_cases e : id = j
      · left; rw [if_pos e]; omega
      · rcases w.open_ j c' (mc j c' hj) with h | h | h
        · left; omega
        · right; left; exact h
        · refine .inr (.inr ?_)
          cases c' with
          | connect => exact c2 j h (Ne.symm e)
          | receive => exact r2 j h (Ne.symm e)
          | close a b => exact k2 j h (Ne.symm e)
    · intro j r' hj
      rcases List.mem_cons.1 hj with e | hj
      · cases e; exact ⟨c, List.mem_cons_of_mem _ hc, hcr⟩
      · obtain ⟨c, h1, h2⟩ := w.suits j r' hj
        exact ⟨c, List.mem_cons_of_mem _ h1, h2⟩

theorem W.takeConn {s : St} (w : W s) (b : Bool) : W (takeConn s (.connect b)) := by
  unfold Wsc.takeConn
  cases h : s.conn with
  | none => exact w.same h.symm rfl rfl rfl rfl rfl rfl
  | some id =>
    exact w.fire id _ rfl rfl rfl rfl ⟨_, w.conn id h, trivial⟩ (fun j hj => (by cases hj)) (fun j hj e => absurd (by rw [h] at hj; cases hj; rfl) e)
      (fun _ h => h) (fun _ h _ => h) (fun _ h => h) (fun _ h _ => h)

theorem W.takeRecv {s : St} (w : W s) (f : Frame) : W (takeRecv s (.frame f)) := by
  unfold Wsc.takeRecv
  cases h : s.recv with
  | none => exact w.same rfl h.symm rfl rfl rfl rfl rfl
  | some id =>
    exact w.fire id _ rfl rfl rfl rfl ⟨_, w.recv id h, trivial⟩ (fun _ h => h) (fun _ h _ => h) (fun j hj => (by cases hj)) (fun j hj e => absurd (by rw [h] at hj; cases hj; rfl) e)
      (fun _ h => h) (fun _ h _ => h)

theorem W.takeClos {s : St} (w : W s) (b : Bool) : W (takeClos s (.close b)) := by
  unfold Wsc.takeClos
  cases h : s.clos with
  | none => exact w.same rfl rfl h.symm rfl rfl rfl rfl
  | some id =>
    obtain ⟨x, y, hc⟩ := w.clos id h
    exact w.fire id _ rfl rfl rfl rfl ⟨_, hc, trivial⟩ (fun _ h => h) (fun _ h _ => h) (fun _ h => h) (fun _ h _ => h) (fun j hj => (by cases hj)) (fun j hj e => absurd (by rw [h] at hj; cases hj; rfl) e)

theorem W.deliver {s : St} (w : W s) (f : Frame) : W (deliver s f) := by
  unfold Wsc.deliver
  cases h : s.recv with
  | some id =>
    have := w.takeRecv f
    unfold Wsc.takeRecv at this
    rw [h] at this
    exact this
  | none =>
    dsimp only
    split
    · exact w
    · exact w.same rfl h.symm rfl rfl rfl rfl rfl

/-- A call begins. -/
theorem W.begin {s : St} (w : W s) (c : Call) :
    ∀ t : St, (∀ e, e ∈ t.log ↔ e = .call s.next c ∨ e ∈ s.log) → (∀ id, ends id t.log = ends id s.log) → t.next = s.next + 1 → t.dead = s.dead → t.done = s.done →
      (∀ j, t.conn = some j → s.conn = some j ∨ (j = s.next ∧ c = .connect)) → (∀ j, s.conn = some j → t.conn = some j) → (c = .connect → t.conn = some s.next) →
      (∀ j, t.recv = some j → s.recv = some j ∨ (j = s.next ∧ c = .receive)) → (∀ j, s.recv = some j → t.recv = some j) → (c = .receive → t.recv = some s.next) →
      (∀ j, t.clos = some j → s.clos = some j ∨ (j = s.next ∧ ∃ a b, c = .close a b)) → (∀ j, s.clos = some j → t.clos = some j) → (∀ a b, c = .close a b → t.clos = some s.next) → W t := by
  intro t hl en hn hd ho c1 c2 c3 r1 r2 r3 k1 k2 k3
  have old : ∀ e, e ∈ s.log → e ∈ t.log := fun e h => (hl e).2 (.inr h)
  have new : .call s.next c ∈ t.log := (hl _).2 (.inl rfl)
  constructor <;> (try rw [hn]) <;> (try rw [hd]) <;> (try rw [ho])
  · intro j hj
    rcases c1 j hj with h | ⟨h, h'⟩
    · exact old _ (w.conn j h)
    · subst h h'; exact new
  · intro j hj
    rcases r1 j hj with h | ⟨h, h'⟩
    · exact old _ (w.recv j h)
    · subst h h'; exact new
  · intro j hj
    rcases k1 j hj with h | ⟨h, a, b, h'⟩
    · obtain ⟨a, b, h⟩ := w.clos j h; exact ⟨a, b, old _ h⟩
    · subst h h'; exact ⟨a, b, new⟩
  · intro j; rw [en]; exact w.once j
  · intro j; rw [en]; exact w.none_ j
  · intro j; rw [en]; exact w.done j
  · intro j hj
    have := w.dead j hj
    refine ⟨by omega, ?_⟩
    rw [en]
    rcases this.2 with h | h
    · exact .inl (old _ h)
    · exact .inr h
  · intro j c' hj
    rcases (hl _).1 hj with h | h
    · cases h; omega
    · have := w.fresh j c' h; omega
  · intro j hj; have := w.freshD j hj; omega
  · intro j hj; rw [en]; exact w.freshE j (by omega)
  · intro j c' hj
    rw [en]
    rcases (hl _).1 hj with h | h
    · injection h with h1 h2
      subst h1; subst h2
      refine .inr (.inr ?_)
      cases c' with
      | connect => exact c3 rfl
      | receive => exact r3 rfl
      | close a b => exact k3 a b rfl
    · rcases w.open_ j c' h with h | h | h
      · exact .inl h
      · exact .inr (.inl h)
      · refine .inr (.inr ?_)
        cases c' with
        | connect => exact c2 j h
        | receive => exact r2 j h
        | close a b => exact k2 j h
  · intro j r hj
    rcases (hl _).1 hj with h | h
    · cases h
    · obtain ⟨c', h1, h2⟩ := w.suits j r h
      exact ⟨c', old _ h1, h2⟩

theorem begin_mem (s : St) (c : Call) : (∀ e, e ∈ (s.begin c).log ↔ e = .call s.next c ∨ e ∈ s.log) ∧ ∀ id, ends id (s.begin c).log = ends id s.log :=
  ⟨fun e => by simp [St.begin, St.add], fun id => by show ends id (.call s.next c :: s.log) = _; rw [ends_cons]; simp [Ev.answers]⟩

/-- The same awaiters, and one more call in the log. -/
structure Twin (n : Nat) (s t : St) : Prop where
  mem : ∀ e, e ∈ t.log ↔ e = .call n .connect ∨ e ∈ s.log
  ends : ∀ id, ends id t.log = ends id s.log
  conn : t.conn = s.conn
  recv : t.recv = s.recv
  clos : t.clos = s.clos
  next : t.next = s.next + 1
  dead : t.dead = s.dead
  done : t.done = s.done

theorem Twin.fire {n : Nat} {s t : St} (h : Twin n s t) (id : Nat) (r : Result) : Twin n (fire s id r) (fire t id r) := by
  unfold Wsc.fire
  rw [h.dead, h.done]
  split
  · exact h
  · constructor
    · intro e; simp only [List.mem_cons, h.mem e]
      constructor
      · rintro (a | a | a)
        · exact .inr (.inl a)
        · exact .inl a
        · exact .inr (.inr a)
      · rintro (a | a | a)
        · exact .inr (.inl a)
        · exact .inl a
        · exact .inr (.inr a)
    · intro j; show Wsc.ends j (_ :: _) = Wsc.ends j (_ :: _); rw [ends_cons, ends_cons, h.ends]
    · exact h.conn
    · exact h.recv
    · exact h.clos
    · exact h.next
    · rfl
    · rfl

theorem Twin.fireOpt {n : Nat} {s t : St} (h : Twin n s t) (w : Option Nat) (r : Result) : Twin n (fireOpt s w r) (fireOpt t w r) := by
  cases w with
  | none => exact h
  | some id => exact h.fire id r

theorem Twin.takes {n : Nat} {s t : St} (h : Twin n s t) (r : Result) : Twin n (takeConn s r) (takeConn t r) ∧ Twin n (takeRecv s r) (takeRecv t r) ∧ Twin n (takeClos s r) (takeClos t r) := by
  unfold takeConn takeRecv takeClos
  rw [h.conn, h.recv, h.clos]
  refine ⟨Twin.fireOpt ?_ _ _, Twin.fireOpt ?_ _ _, Twin.fireOpt ?_ _ _⟩
  · exact ⟨h.mem, h.ends, rfl, rfl, rfl, h.next, h.dead, h.done⟩
  · exact ⟨h.mem, h.ends, rfl, rfl, rfl, h.next, h.dead, h.done⟩
  · exact ⟨h.mem, h.ends, rfl, rfl, rfl, h.next, h.dead, h.done⟩

theorem connect_eq (s : St) (id : Nat) : connect s id = { takeConn { takeClos (takeRecv s (.frame {})) (.close false) with pending := [], disc := false, sent := false } (.connect false) with conn := some id } := rfl

theorem W.connect {s : St} (w : W s) : W (connect (s.begin .connect) s.next) := by
  rw [connect_eq]
  have t0 : Twin s.next s (s.begin .connect) := ⟨(begin_mem s .connect).1, (begin_mem s .connect).2, rfl, rfl, rfl, rfl, rfl, rfl⟩
  have t1 := ((t0.takes (.frame {})).2.1.takes (.close false)).2.2
  have v1 := (w.takeRecv {}).takeClos false
  have t2 : Twin s.next { Wsc.takeClos (Wsc.takeRecv s (.frame {})) (.close false) with pending := [], disc := false, sent := false }
      { Wsc.takeClos (Wsc.takeRecv (s.begin .connect) (.frame {})) (.close false) with pending := [], disc := false, sent := false } :=
    ⟨t1.mem, t1.ends, t1.conn, t1.recv, t1.clos, t1.next, t1.dead, t1.done⟩
  have v2 : W { Wsc.takeClos (Wsc.takeRecv s (.frame {})) (.close false) with pending := [], disc := false, sent := false } := v1.same rfl rfl rfl rfl rfl rfl rfl
  have t3 := (t2.takes (.connect false)).1
  have v3 := v2.takeConn false
  have hn : (Wsc.takeConn { Wsc.takeClos (Wsc.takeRecv s (.frame {})) (.close false) with pending := [], disc := false, sent := false } (.connect false)).next = s.next := by
    simp [Wsc.takeConn, Wsc.takeClos, Wsc.takeRecv, fireOpt_fields]
  have hc : (Wsc.takeConn { Wsc.takeClos (Wsc.takeRecv s (.frame {})) (.close false) with pending := [], disc := false, sent := false } (.connect false)).conn = none := by
    simp [Wsc.takeConn, fireOpt_fields]
  generalize Wsc.takeConn { Wsc.takeClos (Wsc.takeRecv s (.frame {})) (.close false) with pending := [], disc := false, sent := false } (.connect false) = a at *
  generalize Wsc.takeConn { Wsc.takeClos (Wsc.takeRecv (s.begin .connect) (.frame {})) (.close false) with pending := [], disc := false, sent := false } (.connect false) = b at *
  have fin := v3.begin .connect { b with conn := some s.next }
  rw [hn] at fin
  exact fin t3.mem t3.ends (by rw [← hn]; exact t3.next) t3.dead t3.done (fun j h => by cases h; exact .inr ⟨rfl, rfl⟩) (fun j h => by rw [hc] at h; cases h) (fun _ => rfl)
    (fun j h => .inl (by rw [← t3.recv]; exact h)) (fun j h => by rw [← t3.recv] at h; exact h) (fun h => by cases h)
    (fun j h => .inl (by rw [← t3.clos]; exact h)) (fun j h => by rw [← t3.clos] at h; exact h) (fun _ _ h => by cases h)

/-- A call that is answered at once. -/
theorem W.beginFire {s u : St} (w : W s) (c : Call) (r : Result) (hs : Suits c r) (hl : u.log = (s.begin c).log) (hn : u.next = s.next + 1) (hd : u.dead = s.dead) (ho : u.done = s.done) (h1 : u.conn = s.conn) (h2 : u.recv = s.recv)
    (h3 : u.clos = s.clos) : W (Wsc.fire u s.next r) := by
  have hnd : s.next ∉ s.done := fun h => absurd (w.freshD _ h) (by omega)
  have hnx : s.next ∉ s.dead := fun h => absurd (w.dead _ h).1 (by omega)
  have e0 := w.none_ _ hnd hnx
  have hl : u.log = .call s.next c :: s.log := hl
  have en : ∀ j, ends j (.resumed s.next r :: .call s.next c :: s.log) = ends j s.log + if s.next = j then 1 else 0 := fun j => by rw [ends_cons, ends_cons]; simp [Ev.answers]
  unfold Wsc.fire
  rw [hd, ho, if_neg (by simp [hnd, hnx]), hl]
  constructor <;> dsimp only <;> (try rw [hn]) <;> (try rw [h1]) <;> (try rw [h2]) <;> (try rw [h3]) <;> try rw [hd]
  · exact fun j hj => List.mem_cons_of_mem _ (List.mem_cons_of_mem _ (w.conn j hj))
  · exact fun j hj => List.mem_cons_of_mem _ (List.mem_cons_of_mem _ (w.recv j hj))
  · exact fun j hj => by obtain ⟨a, b, h⟩ := w.clos j hj; exact ⟨a, b, List.mem_cons_of_mem _ (List.mem_cons_of_mem _ h)⟩
  · intro j; rw [en]; split
    · rename_i e; subst e; omega
    · have := w.once j; omega
  · intro j a b
    simp only [List.mem_cons, not_or] at a
    rw [en, if_neg (fun e => a.1 e.symm)]
    have := w.none_ j a.2 b; omega
  · intro j hj
    rw [en]
    rcases List.mem_cons.1 hj with e | hj
    · subst e; simp
    · have := w.done j hj; omega
  · intro j hj
    have := w.dead j hj
    refine ⟨by omega, ?_⟩
    rw [en]
    rcases this.2 with h | h
    · exact .inl (List.mem_cons_of_mem _ (List.mem_cons_of_mem _ h))
    · right; omega
  · intro j c' hj
    simp only [List.mem_cons, reduceCtorEq, false_or] at hj
    rcases hj with h | h
    · cases h; omega
    · have := w.fresh j c' h; omega
  · intro j hj
    rcases List.mem_cons.1 hj with e | hj
    · omega
    · have := w.freshD j hj; omega
  · intro j hj; rw [en, if_neg (by omega)]; exact w.freshE j (by omega)
  · intro j c' hj
    rw [en]
    simp only [List.mem_cons, reduceCtorEq, false_or] at hj
    rcases hj with h | h
    · cases h; left; simp
    · rcases w.open_ j c' h with h | h | h
      · left; omega
      · exact .inr (.inl h)
      · exact .inr (.inr h)
  · intro j r' hj
    rcases List.mem_cons.1 hj with h | h
    · cases h; exact ⟨c, by simp, hs⟩
    · rcases List.mem_cons.1 h with h | h
      · cases h
      · obtain ⟨c', h1, h2⟩ := w.suits j r' h
        exact ⟨c', List.mem_cons_of_mem _ (List.mem_cons_of_mem _ h1), h2⟩

/-- A call throws; a close awaiter may stay parked. -/
theorem W.beginThrow {s u : St} (w : W s) (c : Call) (hl : u.log = (s.begin c).log) (hn : u.next = s.next + 1) (hd : u.dead = s.dead) (ho : u.done = s.done) (h1 : u.conn = s.conn) (h2 : u.recv = s.recv)
    (h3 : ∀ j, s.clos = some j → u.clos = some j) (h4 : ∀ j, u.clos = some j → s.clos = some j ∨ (j = s.next ∧ ∃ a b, c = .close a b)) : W (throw_ u s.next) := by
  have hnd : s.next ∉ s.done := fun h => absurd (w.freshD _ h) (by omega)
  have hnx : s.next ∉ s.dead := fun h => absurd (w.dead _ h).1 (by omega)
  have e0 := w.none_ _ hnd hnx
  have hl : u.log = .call s.next c :: s.log := hl
  have en : ∀ j, ends j (.threw s.next :: .call s.next c :: s.log) = ends j s.log + if s.next = j then 1 else 0 := fun j => by rw [ends_cons, ends_cons]; simp [Ev.answers]
  unfold throw_
  rw [hd, hl]
  constructor <;> dsimp only <;> (try rw [hn]) <;> (try rw [h1]) <;> (try rw [h2]) <;> try rw [ho]
  · exact fun j hj => List.mem_cons_of_mem _ (List.mem_cons_of_mem _ (w.conn j hj))
  · exact fun j hj => List.mem_cons_of_mem _ (List.mem_cons_of_mem _ (w.recv j hj))
  · intro j hj
    rcases h4 j hj with h | ⟨h, a, b, h'⟩
    · obtain ⟨a, b, h⟩ := w.clos j h; exact ⟨a, b, List.mem_cons_of_mem _ (List.mem_cons_of_mem _ h)⟩
    · subst h h'; exact ⟨a, b, by simp⟩
  · intro j; rw [en]; split
    · rename_i e; subst e; omega
    · have := w.once j; omega
  · intro j a b
    simp only [List.mem_cons, not_or] at b
    rw [en, if_neg (fun e => b.1 e.symm)]
    have := w.none_ j a b.2; omega
  · intro j hj
    rw [en]
    have := w.done j hj; omega
  · intro j hj
    rw [en]
    rcases List.mem_cons.1 hj with e | hj
    · subst e; exact ⟨by omega, by simp⟩
    · have := w.dead j hj
      refine ⟨by omega, ?_⟩
      rcases this.2 with h | h
      · exact .inl (List.mem_cons_of_mem _ (List.mem_cons_of_mem _ h))
      · right; omega
  · intro j c' hj
    simp only [List.mem_cons, reduceCtorEq, false_or] at hj
    rcases hj with h | h
    · cases h; omega
    · have := w.fresh j c' h; omega
  · intro j hj; have := w.freshD j hj; omega
  · intro j hj; rw [en, if_neg (by omega)]; exact w.freshE j (by omega)
  · intro j c' hj
    rw [en]
    simp only [List.mem_cons, reduceCtorEq, false_or] at hj
    rcases hj with h | h
    · cases h; left; simp
    · rcases w.open_ j c' h with h | h | h
      · left; omega
      · exact .inr (.inl (List.mem_cons_of_mem _ h))
      · refine .inr (.inr ?_)
        cases c' with
        | connect => exact h
        | receive => exact h
        | close a b => exact h3 j h
  · intro j r' hj
    simp only [List.mem_cons, reduceCtorEq, false_or] at hj
    obtain ⟨c', h1, h2⟩ := w.suits j r' hj
    exact ⟨c', List.mem_cons_of_mem _ (List.mem_cons_of_mem _ h1), h2⟩

/-! ### Every step keeps W -/

theorem W.onError {sd : Side} {s : St} (w : W s) : W (onError sd s) := by
  cases sd with
  | session => exact w
  | client => exact (((w.same (t := { s with disc := true }) rfl rfl rfl rfl rfl rfl rfl).takeConn false).takeRecv {}).takeClos false

theorem W.onClosed {s : St} (w : W s) (p : Bytes) : W (onClosed s p) := by
  have : W (if s.sent then s else { s.add (.wroteClose p) with sent := true }) := by
    split
    · exact w
    · exact (w.add (.wroteClose p) (fun _ => rfl) (fun _ _ h => by cases h) (fun _ _ h => by cases h)).same rfl rfl rfl rfl rfl rfl rfl
  exact (this.deliver _).takeClos true

theorem W.onDisconnected {sd : Side} {s : St} (w : W s) : W (onDisconnected sd s) := by
  have w := w.same (t := { s with disc := true, sent := false }) rfl rfl rfl rfl rfl rfl rfl
  cases sd with
  | session => exact (w.deliver _).takeClos true
  | client => exact ((w.takeConn false).takeRecv {}).takeClos true

theorem W.onNet {sd : Side} {s : St} (w : W s) (n : Net) : W (onNet sd s n) := by
  cases n with
  | connected => cases sd with
    | client => exact w.takeConn true
    | session => exact w
  | error => exact w.onError
  | message t p => exact w.deliver _
  | ping p => exact w.deliver _
  | pong p => exact w.deliver _
  | closed p => exact w.onClosed p
  | disconnected => exact w.onDisconnected
  | violation p =>
    have w := w.add (.wroteClose p) (fun _ => rfl) (fun _ _ h => by cases h) (fun _ _ h => by cases h)
    cases sd with
    | client => exact (w.same (t := { s.add (.wroteClose p) with sent := true }) rfl rfl rfl rfl rfl rfl rfl).onError (sd := .client)
    | session => exact w

theorem W.step {sd : Side} {s : St} (w : W s) (i : Input) : W (step sd s i) := by
  cases i with
  | net n => exact (w.add (.net n) (fun _ => rfl) (fun _ _ h => by cases h) (fun _ _ h => by cases h)).onNet n
  | cap n => exact (w.add (.cap n) (fun _ => rfl) (fun _ _ h => by cases h) (fun _ _ h => by cases h)).same rfl rfl rfl rfl rfl rfl rfl
  | destroy id =>
    show W (if id < s.next then _ else _)
    split
    · have v := w.add (.destroyed id) (fun _ => rfl) (fun _ _ h => by cases h) (fun _ _ h => by cases h)
      constructor
      · exact v.conn
      · exact v.recv
      · exact v.clos
      · exact v.once
      · exact fun j a b => v.none_ j a (fun h => b (List.mem_cons_of_mem _ h))
      · exact v.done
      · intro j hj
        rcases List.mem_cons.1 hj with e | hj
        · subst e; exact ⟨by assumption, .inl List.mem_cons_self⟩
        · exact v.dead j hj
      · exact v.fresh
      · exact v.freshD
      · exact v.freshE
      · intro j c hj
        rcases v.open_ j c hj with h | h | h
        · exact .inl h
        · exact .inr (.inl (List.mem_cons_of_mem _ h))
        · exact .inr (.inr h)
      · exact v.suits
    · exact w
  | call c =>
    cases c with
    | connect =>
      cases sd with
      | session => exact w
      | client =>
        exact w.connect
    | receive =>
      show W (receive (s.begin .receive) s.next)
      unfold receive
      cases hp : (s.begin .receive).pending with
      | cons f fs => exact w.beginFire .receive (.frame f) trivial rfl rfl rfl rfl rfl rfl rfl
      | nil =>
        dsimp only
        split
        · exact w.beginFire .receive (.frame {}) trivial rfl rfl rfl rfl rfl rfl rfl
        · cases hr : (s.begin .receive).recv with
          | some j => exact w.beginThrow .receive rfl rfl rfl rfl rfl rfl (fun _ h => h) (fun _ h => .inl h)
          | none =>
            have hr : s.recv = none := hr
            exact w.begin .receive _ (begin_mem s .receive).1 (begin_mem s .receive).2 rfl rfl rfl (fun _ h => .inl h) (fun _ h => h) (fun h => by cases h)
              (fun j h => by cases h; exact .inr ⟨rfl, rfl⟩) (fun j h => by rw [hr] at h; cases h) (fun _ => rfl) (fun _ h => .inl h) (fun _ h => h) (fun _ _ h => by cases h)
    | close a b =>
      show W (closeAsync sd (s.begin (.close a b)) s.next a b)
      unfold closeAsync
      cases hc : (s.begin (.close a b)).clos with
      | some j => exact w.beginThrow (.close a b) rfl rfl rfl rfl rfl rfl (fun _ h => h) (fun _ h => .inl h)
      | none =>
        have hc : s.clos = none := hc
        dsimp only
        split
        · exact w.beginFire (.close a b) (.close true) trivial rfl rfl rfl rfl rfl rfl rfl
        · cases Ws.messageClose a b with
          | none => exact w.beginThrow (.close a b) rfl rfl rfl rfl rfl rfl (fun j h => by rw [hc] at h; cases h) (fun j h => by cases h; exact .inr ⟨rfl, a, b, rfl⟩)
          | some m =>
            have v := w.begin (.close a b) { s.begin (.close a b) with clos := some s.next } (begin_mem s _).1 (begin_mem s _).2 rfl rfl rfl (fun _ h => .inl h) (fun _ h => h) (fun h => by cases h)
              (fun _ h => .inl h) (fun _ h => h) (fun h => by cases h) (fun j h => by cases h; exact .inr ⟨rfl, a, b, rfl⟩) (fun j h => by rw [hc] at h; cases h) (fun _ _ _ => rfl)
            exact (v.add (.wroteClose m.data) (fun _ => rfl) (fun _ _ h => by cases h) (fun _ _ h => by cases h)).same rfl rfl rfl rfl rfl rfl rfl

end Verif.Wsc
