import Verif.Wsc.Lemmas2

namespace Verif.Wsc

/-! ### The waiting receiver has not been answered -/

structure G (s : St) : Prop where
  uniq : ∀ id c c', .call id c ∈ s.log → .call id c' ∈ s.log → c = c'
  recv : ∀ id, s.recv = some id → ends id s.log = 0

theorem G.init : G {} := ⟨fun _ _ _ h => (by cases h), fun _ h => (by cases h)⟩

theorem G.add {s : St} (g : G s) (e : Ev) (h1 : ∀ id, e.answers id = false) (h2 : ∀ id c, e ≠ .call id c) : G (s.add e) := by
  constructor
  · intro id c c' a b
    have m : ∀ c, .call id c ∈ (s.add e).log → .call id c ∈ s.log := by
      intro c h; rcases List.mem_cons.1 h with h | h
      · exact absurd h.symm (h2 id c)
      · exact h
    exact g.uniq id c c' (m c a) (m c' b)
  · intro id h
    show ends id (e :: s.log) = 0
    rw [ends_cons, h1, g.recv id h]; rfl

theorem G.answer {s t : St} (g : G s) (hl : t.log = s.log ∨ ∃ id r, (s.recv = some id → t.recv = none) ∧ t.log = .resumed id r :: s.log) (hr : t.recv = s.recv ∨ t.recv = none) : G t := by
  constructor
  · intro id c c' a b
    have m : ∀ c, .call id c ∈ t.log → .call id c ∈ s.log := by
      intro c h
      rcases hl with hl | ⟨_, _, _, hl⟩ <;> rw [hl] at h
      · exact h
      · rcases List.mem_cons.1 h with h | h
        · cases h
        · exact h
    exact g.uniq id c c' (m c a) (m c' b)
  · intro id h
    have hs : s.recv = some id := by
      rcases hr with e | e
      · rw [← e]; exact h
      · rw [e] at h; cases h
    rcases hl with hl | ⟨j, r, hj, hl⟩ <;> rw [hl]
    · exact g.recv id hs
    · rw [ends_cons, g.recv id hs]
      have : j ≠ id := by intro e; subst e; rw [hj hs] at h; cases h
      simp [Ev.answers, this]

theorem G.takeConn {s : St} (w : W s) (g : G s) (r : Result) : G (takeConn s r) := by
  refine g.answer ?_ (.inl (take_fields s r).1.2.2.2.1)
  rcases takeConn_log s r with h | ⟨id, hc, h⟩
  · exact .inl h
  · exact .inr ⟨id, r, fun e => (by cases g.uniq id _ _ (w.conn id hc) (w.recv id e)), h⟩

theorem G.takeRecv {s : St} (g : G s) (r : Result) : G (takeRecv s r) := by
  refine g.answer ?_ (.inr (take_fields s r).2.1.2.2.2.1)
  rcases takeRecv_log s r with h | ⟨id, hc, h⟩
  · exact .inl h
  · exact .inr ⟨id, r, fun e => (take_fields s r).2.1.2.2.2.1, h⟩

theorem G.takeClos {s : St} (w : W s) (g : G s) (r : Result) : G (takeClos s r) := by
  refine g.answer ?_ (.inl (take_fields s r).2.2.2.2.2.1)
  rcases takeClos_log s r with h | ⟨id, hc, h⟩
  · exact .inl h
  · obtain ⟨a, b, hk⟩ := w.clos id hc
    exact .inr ⟨id, r, fun e => (by cases g.uniq id _ _ hk (w.recv id e)), h⟩

theorem G.deliver {s : St} (g : G s) (f : Frame) : G (deliver s f) := by
  rcases deliver_cases s f with ⟨_, h⟩ | ⟨_, _, h⟩ | ⟨hr, _, h⟩ <;> rw [h]
  · exact g.takeRecv _
  · exact g
  · exact ⟨g.uniq, g.recv⟩

theorem G.onNet {sd : Side} {s : St} (w : W s) (g : G s) (n : Net) : G (onNet sd s n) := by
  have fin : ∀ (t : St) (b : Bool), W t → G t → G (Wsc.takeClos (Wsc.takeRecv (Wsc.takeConn t (.connect false)) (.frame {})) (.close b)) := fun t b w g =>
    ((g.takeConn w _).takeRecv _).takeClos ((w.takeConn false).takeRecv {}) _
  cases n with
  | connected => cases sd with
    | client => exact g.takeConn w _
    | session => exact g
  | error => cases sd with
    | client => exact fin { s with disc := true } false (w.same rfl rfl rfl rfl rfl rfl rfl) ⟨g.uniq, g.recv⟩
    | session => exact g
  | message t p => exact g.deliver _
  | ping p => exact g.deliver _
  | pong p => exact g.deliver _
  | closed p =>
    have w1 : W (if s.sent then s else { s.add (.wroteClose p) with sent := true }) := by
      split
      · exact w
      · exact (w.add (.wroteClose p) (fun _ => rfl) (fun _ _ h => by cases h) (fun _ _ h => by cases h)).same rfl rfl rfl rfl rfl rfl rfl
    have g1 : G (if s.sent then s else { s.add (.wroteClose p) with sent := true }) := by
      split
      · exact g
      · have := g.add (.wroteClose p) (fun _ => rfl) (fun _ _ h => by cases h)
        exact ⟨this.uniq, this.recv⟩
    exact (g1.deliver _).takeClos (w1.deliver _) _
  | disconnected => cases sd with
    | client => exact fin { s with disc := true, sent := false } true (w.same rfl rfl rfl rfl rfl rfl rfl) ⟨g.uniq, g.recv⟩
    | session =>
      have w1 : W { s with disc := true, sent := false } := w.same rfl rfl rfl rfl rfl rfl rfl
      have g1 : G { s with disc := true, sent := false } := ⟨g.uniq, g.recv⟩
      exact (g1.deliver _).takeClos (w1.deliver _) _
  | violation p =>
    have w1 := w.add (.wroteClose p) (fun _ => rfl) (fun _ _ h => by cases h) (fun _ _ h => by cases h)
    have g1 := g.add (.wroteClose p) (fun _ => rfl) (fun _ _ h => by cases h)
    cases sd with
    | client => exact fin { s.add (.wroteClose p) with sent := true, disc := true } false (w1.same rfl rfl rfl rfl rfl rfl rfl) ⟨g1.uniq, g1.recv⟩
    | session => exact g1

theorem G.begin {s t : St} (w : W s) (g : G s) (c : Call) (hl : t.log = (s.begin c).log) (hr : t.recv = s.recv ∨ t.recv = some s.next) : G t := by
  have hl : t.log = .call s.next c :: s.log := hl
  have en : ∀ id, ends id t.log = ends id s.log := fun id => by rw [hl, ends_cons]; simp [Ev.answers]
  constructor
  · intro id c1 c2 a b
    rw [hl] at a b
    rcases List.mem_cons.1 a with a | a <;> rcases List.mem_cons.1 b with b | b
    · cases a; cases b; rfl
    · cases a; exact absurd (w.fresh _ _ b) (by omega)
    · cases b; exact absurd (w.fresh _ _ a) (by omega)
    · exact g.uniq id c1 c2 a b
  · intro id h
    rw [en]
    rcases hr with e | e
    · exact g.recv id (by rw [← e]; exact h)
    · rw [e] at h; cases h; exact w.freshE _ (Nat.le_refl _)

theorem G.fireNew {s t : St} (w : W s) (g : G s) (c : Call) (r : Result) (hl : t.log = (s.begin c).log) (hr : t.recv = s.recv) : G (fire t s.next r) := by
  have g1 : G t := g.begin w c hl (.inl hr)
  refine g1.answer ?_ (.inl (fire_fields t s.next r).2.2.2.1)
  rcases fire_log t s.next r with h | h
  · exact .inl h
  · refine .inr ⟨s.next, r, fun e => ?_, h⟩
    rw [hr] at e
    exact absurd (w.fresh _ _ (w.recv _ e)) (by omega)

theorem G.throwNew {s t : St} (w : W s) (g : G s) (c : Call) (hl : t.log = (s.begin c).log) (hr : t.recv = s.recv) : G (throw_ t s.next) := by
  have g1 : G t := g.begin w c hl (.inl hr)
  constructor
  · intro id c1 c2 a b
    refine g1.uniq id c1 c2 ?_ ?_
    · rcases List.mem_cons.1 a with a | a
      · cases a
      · exact a
    · rcases List.mem_cons.1 b with b | b
      · cases b
      · exact b
  · intro id h
    show ends id (.threw s.next :: t.log) = 0
    have h : t.recv = some id := h
    rw [ends_cons, g1.recv id h]
    rw [hr] at h
    have : s.next ≠ id := fun e => absurd (w.fresh _ _ (w.recv _ h)) (by omega)
    simp [Ev.answers, this]

theorem connect_recv (s : St) (id : Nat) : (connect s id).recv = none := by
  rw [connect_eq]; dsimp only
  rw [(take_fields _ _).1.2.2.2.1]; dsimp only
  rw [(take_fields _ _).2.2.2.2.2.1, (take_fields _ _).2.1.2.2.2.1]

/-- The calls in the log after a `connect`. -/
theorem connect_log (s : St) (id : Nat) : ∃ rs : List Ev, (connect s id).log = rs ++ s.log ∧ ∀ e ∈ rs, ∃ j r, e = .resumed j r ∧ (r = .connect false ∨ r = .frame {} ∨ r = .close false) := by
  rw [connect_eq]; dsimp only
  have a := takeRecv_log s (.frame {})
  have b := takeClos_log (takeRecv s (.frame {})) (.close false)
  have c := takeConn_log { takeClos (takeRecv s (.frame {})) (.close false) with pending := [], disc := false, sent := false } (.connect false)
  have a' : ∃ rs : List Ev, (takeRecv s (.frame {})).log = rs ++ s.log ∧ ∀ e ∈ rs, ∃ j r, e = .resumed j r ∧ (r = .connect false ∨ r = .frame {} ∨ r = .close false) := by
    rcases a with h | ⟨j, _, h⟩
    · exact ⟨[], h, fun _ h => (by cases h)⟩
    · exact ⟨[_], h, fun e h => (by rw [List.mem_singleton] at h; exact ⟨_, _, h, .inr (.inl rfl)⟩)⟩
  have b' : ∃ rs : List Ev, (takeClos (takeRecv s (.frame {})) (.close false)).log = rs ++ s.log ∧ ∀ e ∈ rs, ∃ j r, e = .resumed j r ∧ (r = .connect false ∨ r = .frame {} ∨ r = .close false) := by
    obtain ⟨rs, h1, h2⟩ := a'
    rcases b with h | ⟨j, _, h⟩
    · exact ⟨rs, by rw [h, h1], h2⟩
    · refine ⟨_ :: rs, by rw [h, h1]; rfl, fun e he => ?_⟩
      rcases List.mem_cons.1 he with he | he
      · exact ⟨_, _, he, .inr (.inr rfl)⟩
      · exact h2 e he
  obtain ⟨rs, h1, h2⟩ := b'
  rcases c with h | ⟨j, _, h⟩
  · exact ⟨rs, by rw [h, h1], h2⟩
  · refine ⟨_ :: rs, by rw [h]; dsimp only; rw [h1]; rfl, fun e he => ?_⟩
    rcases List.mem_cons.1 he with he | he
    · exact ⟨_, _, he, .inl rfl⟩
    · exact h2 e he

theorem G.step {sd : Side} {s : St} (w : W s) (g : G s) (i : Input) : G (step sd s i) := by
  cases i with
  | net n => exact (g.add (.net n) (fun _ => rfl) (fun _ _ h => by cases h)).onNet (w.add (.net n) (fun _ => rfl) (fun _ _ h => by cases h) (fun _ _ h => by cases h)) n
  | cap n =>
    have := g.add (.cap n) (fun _ => rfl) (fun _ _ h => by cases h)
    exact ⟨this.uniq, this.recv⟩
  | destroy id =>
    show G (if id < s.next then _ else _)
    split
    · have := g.add (.destroyed id) (fun _ => rfl) (fun _ _ h => by cases h)
      exact ⟨this.uniq, this.recv⟩
    · exact g
  | call c =>
    cases c with
    | connect =>
      cases sd with
      | session => exact g
      | client =>
        show G (connect (s.begin .connect) s.next)
        have gb : G (s.begin .connect) := g.begin w .connect rfl (.inl rfl)
        constructor
        · obtain ⟨rs, h1, h2⟩ := connect_log (s.begin .connect) s.next
          rw [h1]
          have m : ∀ id c, .call id c ∈ rs ++ (s.begin .connect).log → .call id c ∈ (s.begin .connect).log := by
            intro id c h
            rcases List.mem_append.1 h with h | h
            · obtain ⟨j, r, e, _⟩ := h2 _ h; cases e
            · exact h
          exact fun id c c' a b => gb.uniq id c c' (m _ _ a) (m _ _ b)
        · rw [connect_recv]; intro id h; cases h
    | receive =>
      show G (receive (s.begin .receive) s.next)
      unfold receive
      cases hp : (s.begin .receive).pending with
      | cons f fs => exact g.fireNew w .receive _ rfl rfl
      | nil =>
        dsimp only
        split
        · exact g.fireNew w .receive _ rfl rfl
        · cases hr : (s.begin .receive).recv with
          | some j => exact g.throwNew w .receive rfl (by first | rfl | exact hr.symm)
          | none => exact g.begin w .receive rfl (.inr rfl)
    | close a b =>
      show G (closeAsync sd (s.begin (.close a b)) s.next a b)
      unfold closeAsync
      cases hc : (s.begin (.close a b)).clos with
      | some j => exact g.throwNew w (.close a b) rfl rfl
      | none =>
        dsimp only
        split
        · exact g.fireNew w (.close a b) _ rfl rfl
        · cases Ws.messageClose a b with
          | none => exact g.throwNew w (.close a b) rfl rfl
          | some m =>
            have h1 : G { s.begin (.close a b) with clos := some s.next, sent := (s.begin (.close a b)).sent || sd == .session } := g.begin w (.close a b) rfl (.inl rfl)
            have h2 := h1.add (.wroteClose m.data) (fun _ => rfl) (fun _ _ h => by cases h)
            exact ⟨h2.uniq, h2.recv⟩

end Verif.Wsc
