import Verif.Wsc.Lemmas

namespace Verif.Wsc

theorem take_fields (s : St) (r : Result) :
    ((takeConn s r).pending = s.pending ∧ (takeConn s r).cap = s.cap ∧ (takeConn s r).conn = none ∧ (takeConn s r).recv = s.recv ∧ (takeConn s r).clos = s.clos ∧ (takeConn s r).disc = s.disc ∧ (takeConn s r).sent = s.sent) ∧
    ((takeRecv s r).pending = s.pending ∧ (takeRecv s r).cap = s.cap ∧ (takeRecv s r).conn = s.conn ∧ (takeRecv s r).recv = none ∧ (takeRecv s r).clos = s.clos ∧ (takeRecv s r).disc = s.disc ∧ (takeRecv s r).sent = s.sent) ∧
    ((takeClos s r).pending = s.pending ∧ (takeClos s r).cap = s.cap ∧ (takeClos s r).conn = s.conn ∧ (takeClos s r).recv = s.recv ∧ (takeClos s r).clos = none ∧ (takeClos s r).disc = s.disc ∧ (takeClos s r).sent = s.sent) := by
  simp [takeConn, takeRecv, takeClos, fireOpt_fields]

theorem takeConn_log (s : St) (r : Result) : (takeConn s r).log = s.log ∨ ∃ id, s.conn = some id ∧ (takeConn s r).log = .resumed id r :: s.log := fireOpt_log _ _ r
theorem takeRecv_log (s : St) (r : Result) : (takeRecv s r).log = s.log ∨ ∃ id, s.recv = some id ∧ (takeRecv s r).log = .resumed id r :: s.log := fireOpt_log _ _ r
theorem takeClos_log (s : St) (r : Result) : (takeClos s r).log = s.log ∨ ∃ id, s.clos = some id ∧ (takeClos s r).log = .resumed id r :: s.log := fireOpt_log _ _ r

/-- `deliver` seen from outside. -/
theorem deliver_cases (s : St) (f : Frame) : (s.recv ≠ none ∧ deliver s f = takeRecv s (.frame f)) ∨ (s.recv = none ∧ s.cap = 0 ∧ deliver s f = s) ∨
    (s.recv = none ∧ 0 < s.cap ∧ deliver s f = { s with pending := (if s.pending.length ≥ s.cap then s.pending.drop 1 else s.pending) ++ [f] }) := by
  unfold deliver takeRecv
  cases h : s.recv with
  | some id => left; exact ⟨by simp, rfl⟩
  | none =>
    right
    dsimp only
    by_cases hc : s.cap = 0
    · left; exact ⟨rfl, hc, by simp [hc]⟩
    · right; exact ⟨rfl, by omega, by rw [if_neg (by simpa using hc)]⟩

/-! ### The members -/

structure F (sd : Side) (s : St) : Prop where
  disc : s.disc = true → s.conn = none ∧ s.recv = none ∧ s.clos = none
  recv : s.recv ≠ none → s.pending = []
  cap : s.cap = capOf s.log
  side : sd = .session → s.conn = none
  lost : s.disc = lost sd s.log
  note : ∀ f ∈ s.pending, f.kind = .disconnected → s.disc = true
  len : s.pending.length ≤ capMax s.log
  le : s.cap ≤ capMax s.log

theorem F.init (sd : Side) : F sd {} := by
  constructor <;> simp [Wsc.lost, capOf, capMax]

/-- Events that change nothing of what `F` speaks of. -/
def Ev.mute (sd : Side) (e : Ev) : Prop := ∀ l, capOf (e :: l) = capOf l ∧ lost sd (e :: l) = lost sd l ∧ capMax (e :: l) = capMax l

theorem mute_resumed (sd : Side) (id : Nat) (r : Result) : (Ev.resumed id r).mute sd := fun _ => ⟨rfl, rfl, rfl⟩
theorem mute_wrote (sd : Side) (p : Bytes) : (Ev.wroteClose p).mute sd := fun _ => ⟨rfl, rfl, rfl⟩
theorem mute_threw (sd : Side) (id : Nat) : (Ev.threw id).mute sd := fun _ => ⟨rfl, rfl, rfl⟩
theorem mute_destroyed (sd : Side) (id : Nat) : (Ev.destroyed id).mute sd := fun _ => ⟨rfl, rfl, rfl⟩
theorem mute_call (sd : Side) (id : Nat) (c : Call) (h : c ≠ .connect) : (Ev.call id c).mute sd := by
  intro l
  cases c with
  | connect => exact absurd rfl h
  | receive => exact ⟨rfl, rfl, rfl⟩
  | close a b => exact ⟨rfl, rfl, rfl⟩
theorem mute_net (sd : Side) (n : Net) (h : n.final sd = false) : (Ev.net n).mute sd := fun l => ⟨rfl, by simp [lost, h], rfl⟩

theorem F.same {sd : Side} {s t : St} (f : F sd s) (hl : t.log = s.log ∨ ∃ e : Ev, e.mute sd ∧ t.log = e :: s.log) (h1 : t.pending = s.pending) (h2 : t.cap = s.cap) (h3 : t.disc = s.disc)
    (h4 : t.conn = s.conn ∨ t.conn = none) (h5 : t.recv = s.recv ∨ t.recv = none) (h6 : t.clos = s.clos ∨ t.clos = none) : F sd t := by
  have h : capOf t.log = capOf s.log ∧ Wsc.lost sd t.log = Wsc.lost sd s.log ∧ capMax t.log = capMax s.log := by
    rcases hl with h | ⟨e, he, h⟩
    · rw [h]; exact ⟨rfl, rfl, rfl⟩
    · rw [h]; exact he s.log
  constructor
  · rw [h3]
    intro hd
    obtain ⟨a, b, c⟩ := f.disc hd
    refine ⟨?_, ?_, ?_⟩
    · rcases h4 with h | h
      · rw [h, a]
      · exact h
    · rcases h5 with h | h
      · rw [h, b]
      · exact h
    · rcases h6 with h | h
      · rw [h, c]
      · exact h
  · intro hr
    rw [h1]; apply f.recv
    rcases h5 with h | h
    · rwa [← h]
    · exact absurd h hr
  · rw [h2, h.1]; exact f.cap
  · intro e
    rcases h4 with h | h
    · rw [h]; exact f.side e
    · exact h
  · rw [h3, h.2.1]; exact f.lost
  · rw [h1, h3]; exact f.note
  · rw [h1, h.2.2]; exact f.len
  · rw [h2, h.2.2]; exact f.le

theorem F.takeConn {sd : Side} {s : St} (f : F sd s) (r : Result) : F sd (takeConn s r) := by
  obtain ⟨⟨a1, a2, a3, a4, a5, a6, a7⟩, -, -⟩ := take_fields s r
  refine f.same ?_ a1 a2 a6 (.inr a3) (.inl a4) (.inl a5)
  rcases takeConn_log s r with h | ⟨id, _, h⟩
  · exact .inl h
  · exact .inr ⟨_, mute_resumed sd id r, h⟩

theorem F.takeRecv {sd : Side} {s : St} (f : F sd s) (r : Result) : F sd (takeRecv s r) := by
  obtain ⟨-, ⟨a1, a2, a3, a4, a5, a6, a7⟩, -⟩ := take_fields s r
  refine f.same ?_ a1 a2 a6 (.inl a3) (.inr a4) (.inl a5)
  rcases takeRecv_log s r with h | ⟨id, _, h⟩
  · exact .inl h
  · exact .inr ⟨_, mute_resumed sd id r, h⟩

theorem F.takeClos {sd : Side} {s : St} (f : F sd s) (r : Result) : F sd (takeClos s r) := by
  obtain ⟨-, -, ⟨a1, a2, a3, a4, a5, a6, a7⟩⟩ := take_fields s r
  refine f.same ?_ a1 a2 a6 (.inl a3) (.inl a4) (.inr a5)
  rcases takeClos_log s r with h | ⟨id, _, h⟩
  · exact .inl h
  · exact .inr ⟨_, mute_resumed sd id r, h⟩

theorem F.deliver {sd : Side} {s : St} (f : F sd s) (x : Frame) (hx : x.kind = .disconnected → s.disc = true) : F sd (deliver s x) := by
  rcases deliver_cases s x with ⟨_, h⟩ | ⟨_, _, h⟩ | ⟨hr, hc, h⟩ <;> rw [h]
  · exact f.takeRecv _
  · exact f
  · refine ⟨f.disc, fun e => absurd hr e, f.cap, f.side, f.lost, ?_, ?_, f.le⟩
    · intro y hy
      rcases List.mem_append.1 hy with hy | hy
      · refine f.note y ?_
        split at hy
        · exact List.mem_of_mem_drop hy
        · exact hy
      · simp only [List.mem_singleton] at hy
        subst hy; exact hx
    · show (_ ++ [x]).length ≤ capMax s.log
      have h1 := f.len
      have h2 := f.le
      split
      · simp; omega
      · simp; omega

/-- A report, before it is handled. -/
theorem F.net {sd : Side} {s : St} (f : F sd s) (n : Net) (h : n.final sd = false) : F sd (s.add (.net n)) :=
  f.same (.inr ⟨_, mute_net sd n h, rfl⟩) rfl rfl rfl (.inl rfl) (.inl rfl) (.inl rfl)

theorem lost_cons_final {sd : Side} {n : Net} (h : n.final sd = true) (l : List Ev) : lost sd (.net n :: l) = true := by simp [lost, h]

/-- All are released, the connection is gone. -/
theorem F.gone {sd : Side} {s t : St} (f : F sd s) (hp : ∀ x ∈ t.pending, x.kind = .disconnected → x ∈ s.pending ∨ True) (hlen : t.pending.length ≤ capMax t.log) (hc : t.cap = s.cap) (hd : t.disc = true) (h1 : t.conn = none)
    (h2 : t.recv = none) (h3 : t.clos = none) (hl : Wsc.lost sd t.log = true) (hk : capOf t.log = capOf s.log) (hm : capMax t.log = capMax s.log) : F sd t :=
  ⟨fun _ => ⟨h1, h2, h3⟩, fun h => absurd h2 h, by rw [hc, hk]; exact f.cap, fun _ => h1, by rw [hd, hl], fun _ _ _ => hd, hlen, by rw [hc, hm]; exact f.le⟩

/-- Three releases in a row. -/
theorem takes_log (sd : Side) (s : St) (r1 r2 r3 : Result) : let t := takeClos (takeRecv (takeConn s r1) r2) r3
    t.pending = s.pending ∧ t.cap = s.cap ∧ t.conn = none ∧ t.recv = none ∧ t.clos = none ∧ t.disc = s.disc ∧ t.sent = s.sent ∧ capOf t.log = capOf s.log ∧ lost sd t.log = lost sd s.log ∧ capMax t.log = capMax s.log := by
  have g : ∀ (u v : St), (v.log = u.log ∨ ∃ id r, v.log = .resumed id r :: u.log) → capOf v.log = capOf u.log ∧ lost sd v.log = lost sd u.log ∧ capMax v.log = capMax u.log := by
    intro u v h
    rcases h with h | ⟨id, r, h⟩ <;> rw [h] <;> exact ⟨rfl, rfl, rfl⟩
  have l1 := g s (takeConn s r1) (by rcases takeConn_log s r1 with h | ⟨id, _, h⟩; exact .inl h; exact .inr ⟨id, _, h⟩)
  have l2 := g (takeConn s r1) (takeRecv (takeConn s r1) r2) (by rcases takeRecv_log (takeConn s r1) r2 with h | ⟨id, _, h⟩; exact .inl h; exact .inr ⟨id, _, h⟩)
  have l3 := g (takeRecv (takeConn s r1) r2) (takeClos (takeRecv (takeConn s r1) r2) r3) (by rcases takeClos_log (takeRecv (takeConn s r1) r2) r3 with h | ⟨id, _, h⟩; exact .inl h; exact .inr ⟨id, _, h⟩)
  intro t
  simp only [t, (take_fields _ _).2.2, (take_fields _ _).2.1, (take_fields _ _).1, l1, l2, l3, and_self]

theorem F.onNet {sd : Side} {s : St} (f : F sd s) (n : Net) : F sd (onNet sd (s.add (.net n)) n) := by
  have client : ∀ (t : St) (b : Bool) (m : Net), m.final .client = true → t.pending = s.pending → t.cap = s.cap → t.disc = true → capOf t.log = capOf s.log → Wsc.lost .client t.log = true → capMax t.log = capMax s.log → sd = .client →
      F sd (Wsc.takeClos (Wsc.takeRecv (Wsc.takeConn t (.connect false)) (.frame {})) (.close b)) := by
    intro t b m _ h1 h2 h3 h4 h5 h6 e
    subst e
    obtain ⟨a1, a2, a3, a4, a5, a6, a7, a8, a9, a10⟩ := takes_log .client t (.connect false) (.frame {}) (.close b)
    exact f.gone (fun _ _ _ => .inr trivial) (by rw [a1, a10, h1, h6]; exact f.len) (by rw [a2, h2]) (by rw [a6, h3]) a3 a4 a5 (by rw [a9, h5]) (by rw [a8, h4]) (by rw [a10, h6])
  cases n with
  | connected => cases sd with
    | client => exact (f.net .connected rfl).takeConn _
    | session => exact f.net .connected rfl
  | error => cases sd with
    | client => exact client { s.add (.net .error) with disc := true } false .error rfl rfl rfl rfl rfl rfl rfl rfl
    | session => exact f.net .error rfl
  | message t p => exact (f.net (.message t p) rfl).deliver _ (fun h => by cases h)
  | ping p => exact (f.net (.ping p) rfl).deliver _ (fun h => by cases h)
  | pong p => exact (f.net (.pong p) rfl).deliver _ (fun h => by cases h)
  | closed p =>
    have hk : (closeFrame p).kind = .disconnected → (if (s.add (.net (.closed p))).sent then s.add (.net (.closed p)) else { (s.add (.net (.closed p))).add (.wroteClose p) with sent := true }).disc = true := by
      intro h; unfold closeFrame at h; split at h <;> cases h
    refine (F.deliver ?_ (closeFrame p) hk).takeClos (.close true)
    split
    · exact f.net (.closed p) rfl
    · exact (f.net (.closed p) rfl).same (.inr ⟨_, mute_wrote sd p, rfl⟩) rfl rfl rfl (.inl rfl) (.inl rfl) (.inl rfl)
  | disconnected => cases sd with
    | client => exact client { s.add (.net .disconnected) with disc := true, sent := false } true .disconnected rfl rfl rfl rfl rfl rfl rfl rfl
    | session =>
      have h0 : (Wsc.deliver { s.add (.net .disconnected) with disc := true, sent := false } {}).recv = none ∧ (Wsc.deliver { s.add (.net .disconnected) with disc := true, sent := false } {}).pending.length ≤ capMax s.log ∧
          (Wsc.deliver { s.add (.net .disconnected) with disc := true, sent := false } {}).cap = s.cap ∧ (Wsc.deliver { s.add (.net .disconnected) with disc := true, sent := false } {}).conn = s.conn ∧
          (Wsc.deliver { s.add (.net .disconnected) with disc := true, sent := false } {}).disc = true ∧
          ((Wsc.deliver { s.add (.net .disconnected) with disc := true, sent := false } {}).log = .net .disconnected :: s.log ∨ ∃ id r, (Wsc.deliver { s.add (.net .disconnected) with disc := true, sent := false } {}).log = .resumed id r :: .net .disconnected :: s.log) := by
        have hlen := f.len
        have hle := f.le
        rcases deliver_cases { s.add (.net .disconnected) with disc := true, sent := false } {} with ⟨_, h⟩ | ⟨hr, _, h⟩ | ⟨hr, hc, h⟩ <;> rw [h]
        · refine ⟨?_, ?_, ?_, ?_, ?_, ?_⟩
          · rw [(take_fields _ _).2.1.2.2.2.1]
          · rw [(take_fields _ _).2.1.1]; exact hlen
          · rw [(take_fields _ _).2.1.2.1]; rfl
          · rw [(take_fields _ _).2.1.2.2.1]; rfl
          · rw [(take_fields _ _).2.1.2.2.2.2.2.1]
          · rcases takeRecv_log { s.add (.net .disconnected) with disc := true, sent := false } (.frame {}) with h | ⟨id, _, h⟩
            · exact .inl h
            · exact .inr ⟨id, _, h⟩
        · exact ⟨hr, hlen, rfl, rfl, rfl, .inl rfl⟩
        · refine ⟨hr, ?_, rfl, rfl, rfl, .inl rfl⟩
          have hc : 0 < s.cap := hc
          show ((if s.pending.length ≥ s.cap then s.pending.drop 1 else s.pending) ++ [({} : Frame)]).length ≤ _
          split
          · simp; omega
          · simp; omega
      obtain ⟨b1, b2, b3, b4, b5, b6⟩ := h0
      show F .session (Wsc.takeClos (Wsc.deliver { s.add (.net .disconnected) with disc := true, sent := false } {}) (.close true))
      generalize Wsc.deliver { s.add (.net .disconnected) with disc := true, sent := false } {} = u at *
      obtain ⟨-, -, ⟨a1, a2, a3, a4, a5, a6, a7⟩⟩ := take_fields u (.close true)
      have hl : capOf (Wsc.takeClos u (.close true)).log = capOf s.log ∧ Wsc.lost .session (Wsc.takeClos u (.close true)).log = true ∧ capMax (Wsc.takeClos u (.close true)).log = capMax s.log := by
        rcases takeClos_log u (.close true) with h | ⟨_, _, h⟩ <;> rw [h] <;> rcases b6 with h | ⟨_, _, h⟩ <;> rw [h] <;> exact ⟨rfl, rfl, rfl⟩
      exact f.gone (fun _ _ _ => .inr trivial) (by rw [a1, hl.2.2]; exact b2) (by rw [a2, b3]) (by rw [a6, b5]) (by rw [a3, b4]; exact f.side rfl) (by rw [a4, b1]) a5 hl.2.1 hl.1 hl.2.2
  | violation p => cases sd with
    | client => exact client { ((s.add (.net (.violation p))).add (.wroteClose p)) with sent := true, disc := true } false .error rfl rfl rfl rfl rfl rfl rfl rfl
    | session => exact (f.net (.violation p) rfl).same (.inr ⟨_, mute_wrote _ p, rfl⟩) rfl rfl rfl (.inl rfl) (.inl rfl) (.inl rfl)

theorem F.fire {sd : Side} {s : St} (f : F sd s) (id : Nat) (r : Result) : F sd (fire s id r) := by
  obtain ⟨a1, a2, a3, a4, a5, a6, a7, a8, a9⟩ := fire_fields s id r
  refine f.same ?_ a1 a2 a6 (.inl a3) (.inl a4) (.inl a5)
  rcases fire_log s id r with h | h
  · exact .inl h
  · exact .inr ⟨_, mute_resumed sd id r, h⟩

theorem F.begin {sd : Side} {s : St} (f : F sd s) (c : Call) (h : c ≠ .connect) : F sd (s.begin c) :=
  f.same (.inr ⟨_, mute_call sd _ c h, rfl⟩) rfl rfl rfl (.inl rfl) (.inl rfl) (.inl rfl)

theorem F.step {sd : Side} {s : St} (f : F sd s) (i : Input) : F sd (step sd s i) := by
  cases i with
  | net n => exact f.onNet n
  | cap n =>
    refine ⟨f.disc, f.recv, rfl, f.side, f.lost, f.note, ?_, ?_⟩
    · show s.pending.length ≤ max n (capMax s.log); have := f.len; omega
    · show n ≤ max n (capMax s.log); omega
  | destroy id =>
    show F sd (if id < s.next then _ else _)
    split
    · exact f.same (.inr ⟨_, mute_destroyed sd id, rfl⟩) rfl rfl rfl (.inl rfl) (.inl rfl) (.inl rfl)
    · exact f
  | call c =>
    cases c with
    | connect =>
      cases sd with
      | session => exact f
      | client =>
        show F .client (connect (s.begin .connect) s.next)
        rw [connect_eq]
        have g : ∀ (u v : St), (v.log = u.log ∨ ∃ id r, v.log = .resumed id r :: u.log) → capOf v.log = capOf u.log ∧ Wsc.lost .client v.log = Wsc.lost .client u.log ∧ capMax v.log = capMax u.log := by
          intro u v h
          rcases h with h | ⟨id, r, h⟩ <;> rw [h] <;> exact ⟨rfl, rfl, rfl⟩
        have l1 := g (s.begin .connect) _ (by rcases takeRecv_log (s.begin .connect) (.frame {}) with h | ⟨id, _, h⟩; exact .inl h; exact .inr ⟨id, _, h⟩)
        have l2 := g (Wsc.takeRecv (s.begin .connect) (.frame {})) _ (by rcases takeClos_log (Wsc.takeRecv (s.begin .connect) (.frame {})) (.close false) with h | ⟨id, _, h⟩; exact .inl h; exact .inr ⟨id, _, h⟩)
        have l3 := g { Wsc.takeClos (Wsc.takeRecv (s.begin .connect) (.frame {})) (.close false) with pending := [], disc := false, sent := false } _
          (by rcases takeConn_log { Wsc.takeClos (Wsc.takeRecv (s.begin .connect) (.frame {})) (.close false) with pending := [], disc := false, sent := false } (.connect false) with h | ⟨id, _, h⟩; exact .inl h; exact .inr ⟨id, _, h⟩)
        have c0 : capOf (s.begin .connect).log = capOf s.log ∧ Wsc.lost .client (s.begin .connect).log = false ∧ capMax (s.begin .connect).log = capMax s.log := ⟨rfl, rfl, rfl⟩
        dsimp only at l3
        have hp := (take_fields { Wsc.takeClos (Wsc.takeRecv (s.begin .connect) (.frame {})) (.close false) with pending := [], disc := false, sent := false } (.connect false)).1
        have hcap : (Wsc.takeClos (Wsc.takeRecv (s.begin .connect) (.frame {})) (.close false)).cap = s.cap := by rw [(take_fields _ _).2.2.2.1, (take_fields _ _).2.1.2.1]; rfl
        obtain ⟨a1, a2, a3, a4, a5, a6, a7⟩ := hp
        refine ⟨?_, ?_, ?_, ?_, ?_, ?_, ?_, ?_⟩
        · dsimp only; rw [a6]; intro h; cases h
        · intro _; dsimp only; rw [a1]
        · dsimp only; rw [a2, l3.1, l2.1, l1.1, c0.1]; dsimp only; rw [hcap]; exact f.cap
        · intro h; cases h
        · dsimp only; rw [a6, l3.2.1, l2.2.1, l1.2.1, c0.2.1]
        · dsimp only; rw [a1]; intro x hx; cases hx
        · dsimp only; rw [a1]; simp
        · dsimp only; rw [a2, l3.2.2, l2.2.2, l1.2.2, c0.2.2]; dsimp only; rw [hcap]; exact f.le
    | receive =>
      show F sd (receive (s.begin .receive) s.next)
      have b := f.begin .receive (by simp)
      unfold receive
      cases hp : (s.begin .receive).pending with
      | cons x xs =>
        refine F.fire (s := { s.begin .receive with pending := xs }) ⟨b.disc, ?_, b.cap, b.side, b.lost, ?_, ?_, b.le⟩ _ _
        · intro h; have := b.recv h; rw [hp] at this; cases this
        · intro y hy; exact b.note y (by rw [hp]; exact List.mem_cons_of_mem _ hy)
        · have := b.len; rw [hp] at this; exact Nat.le_trans (Nat.le_succ _) this
      | nil =>
        dsimp only
        split
        · exact b.fire _ _
        · rename_i hd
          cases hr : (s.begin .receive).recv with
          | some j => exact b.same (.inr ⟨_, mute_threw sd _, rfl⟩) rfl rfl rfl (.inl rfl) (.inl rfl) (.inl rfl)
          | none => exact ⟨fun h => absurd h hd, fun _ => rfl, b.cap, b.side, b.lost, fun _ h => (by cases h), Nat.zero_le _, b.le⟩
    | close x y =>
      show F sd (closeAsync sd (s.begin (.close x y)) s.next x y)
      have b := f.begin (.close x y) (by simp)
      unfold closeAsync
      cases hc : (s.begin (.close x y)).clos with
      | some j => exact b.same (.inr ⟨_, mute_threw sd _, rfl⟩) rfl rfl rfl (.inl rfl) (.inl rfl) (.inl rfl)
      | none =>
        dsimp only
        split
        · exact b.fire _ _
        · rename_i hd
          have b' : F sd { s.begin (.close x y) with clos := some s.next, sent := (s.begin (.close x y)).sent || sd == .session } := ⟨fun h => absurd h hd, b.recv, b.cap, b.side, b.lost, b.note, b.len, b.le⟩
          cases Ws.messageClose x y with
          | none => exact b'.same (.inr ⟨_, mute_threw sd _, rfl⟩) rfl rfl rfl (.inl rfl) (.inl rfl) (.inl rfl)
          | some m => exact b'.same (.inr ⟨_, mute_wrote sd _, rfl⟩) rfl rfl rfl (.inl rfl) (.inl rfl) (.inl rfl)

end Verif.Wsc
