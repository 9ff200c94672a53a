import Verif.Cli3.Lemmas

/-! C162, first part: the connection object is not destroyed while it is reading. -/

namespace Verif.Cli3

def Frame.isRead : Frame → Bool
  | .read _ => true
  | _ => false

/-- Nothing is reading below the end of a `disconnect`. -/
def DiscOk : List Frame → Prop
  | [] => True
  | f :: r => (f = .discEnd → r.countP Frame.isRead = 0) ∧ DiscOk r

/-- What holds as long as nobody disconnects while the connection is reading. -/
structure Live (s : St) : Prop where
  depth : s.depth = s.stack.countP Frame.isRead
  h3 : s.h3 = s.connected
  connecting : s.connecting = true → s.connected = false
  reading : s.depth > 0 → s.connected = true
  start : .start ∈ s.stack → s.connecting = true
  top : .start ∉ s.stack.tail
  disc : DiscOk s.stack
  freed : s.freed = false

/-- A step that leaves the connection as it is. -/
theorem Live.keep {s t : St} (h : Live s) (hc : t.connected = s.connected) (hg : t.connecting = s.connecting) (hh : t.h3 = s.h3) (hd : t.depth = s.depth)
    (hf : t.freed = s.freed) (hr : t.stack.countP Frame.isRead = s.stack.countP Frame.isRead) (hst : .start ∉ t.stack) (hdisc : DiscOk t.stack) : Live t :=
  ⟨by rw [hd, h.depth, hr], by rw [hh, hc, h.h3], by rw [hg, hc]; exact h.connecting, by rw [hd, hc]; exact h.reading, fun e => absurd e hst,
    fun e => hst (List.mem_of_mem_tail e), hdisc, by rw [hf, h.freed]⟩

theorem Live.connect {s : St} (h : Live s) (cb : Option Nat) {rest : List Frame} (hr : rest.countP Frame.isRead = s.stack.countP Frame.isRead)
    (hst : .start ∉ rest) (hd : DiscOk rest) : Live (s.connect cb rest) := by
  unfold St.connect
  split
  · split
    · exact h.keep rfl rfl rfl rfl rfl (by simp [St.enter, Frame.isRead, hr]) (by simp [St.enter, hst]) ⟨fun e => (by cases e), hd⟩
    · exact h.keep rfl rfl rfl rfl rfl hr hst hd
  next hc =>
  split
  · exact h.keep rfl rfl rfl rfl rfl hr hst hd
  · refine ⟨?_, h.h3, fun _ => by simpa using hc, h.reading, fun _ => rfl, hst, ⟨fun e => (by cases e), hd⟩, h.freed⟩
    simp [Frame.isRead, hr, h.depth]

/-- The connection is given up while nothing reads. -/
theorem Live.fail {s : St} (hf : s.freed = false) (h0 : s.depth = 0) {rest : List Frame} (hr : rest.countP Frame.isRead = 0) (hst : .start ∉ rest) (hd : DiscOk rest) :
    Live (s.connectionFailed rest) := by
  refine ⟨?_, rfl, fun e => rfl, fun e => ?_, fun e => ?_, ?_, ⟨fun e => (by cases e), fun e => (by cases e), hd⟩, ?_⟩
  · show s.depth = _; simp [St.connectionFailed, Frame.isRead, hr, h0]
  · have : s.depth > 0 := e; omega
  · simp [St.connectionFailed, hst] at e
  · simp [St.connectionFailed, hst]
  · show (s.freed || (s.h3 && decide (s.depth > 0))) = false; rw [hf, h0]; simp

theorem Live.failRequest {s : St} (h : Live s) (sid st : Nat) {rest : List Frame} (hr : rest.countP Frame.isRead = s.stack.countP Frame.isRead)
    (hst : .start ∉ rest) (hd : DiscOk rest) : Live (s.failRequest sid st rest) := by
  unfold St.failRequest
  split
  · exact h.keep rfl rfl rfl rfl rfl hr hst hd
  · exact h.keep rfl rfl rfl rfl rfl (by simp [St.enter, Frame.isRead, hr]) (by simp [St.enter, hst]) ⟨fun e => (by cases e), hd⟩

theorem Live.giveUp {s : St} (h : Live s) (n st : Nat) (b : Bool) (hst : .start ∉ s.stack) : Live (s.giveUp n st b) := by
  unfold St.giveUp
  split
  · cases b
    · exact h.keep rfl rfl rfl rfl rfl (by simp [St.enter, Frame.isRead]) (by simp [St.enter, hst]) ⟨fun e => (by cases e), h.disc⟩
    · exact h.keep rfl rfl rfl rfl rfl (by simp [St.enter, Frame.isRead]) (by simp [St.enter, hst]) ⟨fun e => (by cases e), fun e => (by cases e), h.disc⟩
  · split
    · exact h
    · exact h.failRequest _ _ (by simp [Frame.isRead]) (by simp [hst]) ⟨fun e => (by cases e), fun e => (by cases e), h.disc⟩

theorem Live.enter {s t : St} (h : Live s) (e : Ev) (hc : t.connected = s.connected) (hg : t.connecting = s.connecting) (hh : t.h3 = s.h3) (hd : t.depth = s.depth)
    (hf : t.freed = s.freed) (hst : .start ∉ s.stack) : Live (t.enter e s.stack) :=
  h.keep hc hg hh hd hf (by simp [St.enter, Frame.isRead]) (by simp [St.enter, hst]) ⟨fun e => (by cases e), h.disc⟩

theorem Live.push {s : St} (h : Live s) (v : Bool) (hst : .start ∉ s.stack) : Live (s.push v) := by
  unfold St.push
  simp only
  split
  · exact h.enter _ rfl rfl rfl rfl rfl hst
  split
  · exact h.enter _ rfl rfl rfl rfl rfl hst
  split
  · exact h.enter _ rfl rfl rfl rfl rfl hst
  split
  · exact h.keep rfl rfl rfl rfl rfl (by simp [Frame.isRead]) (by simp [hst]) ⟨fun e => (by cases e), h.disc⟩
  have h1 : Live { s with total := s.total + 1, pending := s.pending ++ [⟨s.total + 1, 0, 0⟩] } := h.keep rfl rfl rfl rfl rfl rfl hst h.disc
  split
  · exact h1.connect none rfl hst h.disc
  · exact h1

/-- `start` is on top or nowhere. -/
theorem Live.noStart {s : St} (h : Live s) (hs : s.stack = [] ∨ ∃ f r, s.stack = f :: r ∧ f ≠ .start) : .start ∉ s.stack := by
  rcases hs with hs | ⟨f, r, hs, hf⟩
  · simp [hs]
  · have := h.top; rw [hs] at this ⊢; simp only [List.tail_cons] at this
    simp only [List.mem_cons, not_or]; exact ⟨fun e => hf e.symm, this⟩

theorem step_live {s : St} {ch : Choice} {s' : St} (h : s.step ch = some s') (hl : Live s) (hd : ch = .call .disconnect → s.depth = 0) : Live s' := by
  cases (step_cases h).2 with
  | call c hs =>
    have hst : .start ∉ s.stack := hl.noStart (by rcases hs with hs | ⟨r, hs⟩; exact .inl hs; exact .inr ⟨_, _, hs, fun e => by cases e⟩)
    cases c with
    | push v => exact hl.push v hst
    | connect b =>
      unfold St.doCall
      simp only
      split
      · have h1 : Live { s with nextCb := s.nextCb + 1 } := hl.keep rfl rfl rfl rfl rfl rfl hst hl.disc
        exact h1.connect _ rfl hst hl.disc
      · exact hl.connect _ rfl hst hl.disc
    | cancel n => exact hl.giveUp n 499 false hst
    | disconnect =>
      have h0 := hd rfl
      refine hl.keep rfl rfl rfl rfl rfl (by simp [St.doCall, Frame.isRead]) (by simp [St.doCall, hst]) ⟨fun e => (by cases e), fun e => ?_, hl.disc⟩
      rw [← hl.depth]; exact h0
  | event e _ he hs =>
    have hst : .start ∉ s.stack := hl.noStart (by
      rcases hs with hs | ⟨f, r, hs, ho⟩
      · exact .inl hs
      · exact .inr ⟨_, _, hs, fun e => by subst e; cases ho⟩)
    cases e with
    | connected ok =>
      simp only [St.doEvent] at he
      split at he
      · cases he
      next hc =>
      have hc : s.connecting = true := by simpa using hc
      have hnc := hl.connecting hc
      have h0 : s.depth = 0 := by
        rcases Nat.eq_zero_or_pos s.depth with h0 | h0
        · exact h0
        · have := hl.reading h0; rw [hnc] at this; cases this
      split at he
      · cases he
        refine ⟨?_, rfl, fun e => (by cases e), fun _ => rfl, fun e => ?_, hst, ⟨fun e => (by cases e), hl.disc⟩, ?_⟩
        · show s.depth = _; simp [hl.depth, Frame.isRead]
        · simp [hst] at e
        · show (s.freed || (s.h3 && decide (s.depth > 0))) = false; rw [hl.freed, h0]; simp
      · cases he; exact .fail hl.freed h0 (by rw [← hl.depth]; exact h0) hst hl.disc
    | closed =>
      simp only [St.doEvent] at he
      split at he <;> cases he
      · exact hl.keep rfl rfl rfl rfl rfl rfl hst hl.disc
      · next h0 =>
        have h0 : s.depth = 0 := by omega
        exact .fail hl.freed h0 (by simp [Frame.isRead, ← hl.depth, h0]) (by simp [hst]) ⟨fun e => (by cases e), hl.disc⟩
    | data =>
      simp only [St.doEvent] at he
      split at he <;> cases he
      · exact hl
      · next hh =>
        have hh : s.h3 = true := by simpa using hh
        refine ⟨?_, hl.h3, hl.connecting, fun _ => ?_, fun e => ?_, hst, ⟨fun e => (by cases e), hl.disc⟩, hl.freed⟩
        · show s.depth + 1 = _; rw [List.countP_cons_of_pos (by rfl), hl.depth]
        · show s.connected = true; rw [← hl.h3, hh]
        · simp [hst] at e
    | streamClosed sid =>
      simp only [St.doEvent, Option.some.injEq] at he; subst he
      exact hl.failRequest _ _ rfl hst hl.disc
  | timer t _ he hs =>
    have hst : .start ∉ s.stack := by simp [hs]
    have h0 : s.depth = 0 := by rw [hl.depth, hs]; rfl
    cases t with
    | connect j =>
      simp only [St.doTimer] at he
      split at he
      · cases he
      split at he
      · cases he; exact hl
      · cases he
        refine Live.fail ?_ ?_ ?_ ?_ ?_
        · exact hl.freed
        · exact h0
        · simp [hs, Frame.isRead]
        · simp [hs]
        · exact ⟨fun e => (by cases e), hl.disc⟩
    | request n =>
      simp only [St.doTimer, Option.some.injEq] at he; subst he
      exact hl.giveUp n 408 true hst
  | ret r hs =>
    have hst : .start ∉ r := by have := hl.top; rwa [hs] at this
    have hdr := hl.disc; rw [hs] at hdr
    exact hl.keep rfl rfl rfl rfl rfl (by simp [hs, Frame.isRead]) hst hdr.2
  | callback c j r hs =>
    have hst : .start ∉ s.stack := hl.noStart (.inr ⟨_, _, hs, fun e => by cases e⟩)
    cases c with
    | response sid =>
      simp only [St.doCallback]
      split
      · exact hl
      · exact hl.keep rfl rfl rfl rfl rfl (by simp [St.enter, Frame.isRead]) (by simp [St.enter, hst]) ⟨fun e => (by cases e), fun e => (by cases e), hl.disc⟩
    | shutdown => exact hl.keep rfl rfl rfl rfl rfl (by simp [St.doCallback, Frame.isRead]) (by simp [St.doCallback, hst]) ⟨fun e => (by cases e), hl.disc⟩
  | go f r out hs hf =>
    have hst : .start ∉ r := by have := hl.top; rwa [hs] at this
    have hdr := hl.disc; rw [hs] at hdr
    have hcr : f.isRead = false → r.countP Frame.isRead = s.stack.countP Frame.isRead := by intro e; rw [hs]; simp [e]
    have pop : f.isRead = false → Live { s with stack := r } := fun e => hl.keep rfl rfl rfl rfl rfl (hcr e) hst hdr.2
    have h1 : ∀ g : Frame, f.isRead = false → g.isRead = false → g ≠ .start → g ≠ .discEnd → ∀ t : St, t.connected = s.connected → t.connecting = s.connecting →
        t.h3 = s.h3 → t.depth = s.depth → t.freed = s.freed → t.stack = g :: r → Live t := by
      intro g e1 e2 e3 e4 t a b c d e fs
      refine hl.keep a b c d e ?_ ?_ ?_
      · rw [fs]; simp [e2, hcr e1]
      · rw [fs]; simp [hst]; exact fun e => e3 e.symm
      · rw [fs]; exact ⟨fun e => absurd e e4, hdr.2⟩
    have h2 : ∀ g1 g2 : Frame, f.isRead = false → g1.isRead = false → g1 ≠ .start → g1 ≠ .discEnd → g2.isRead = false → g2 ≠ .start → g2 ≠ .discEnd →
        ∀ t : St, t.connected = s.connected → t.connecting = s.connecting → t.h3 = s.h3 → t.depth = s.depth → t.freed = s.freed → t.stack = g1 :: g2 :: r → Live t := by
      intro g g' e1 e2 e3 e4 e2' e3' e4' t a b c d e fs
      refine hl.keep a b c d e ?_ ?_ ?_
      · rw [fs]; simp [e2, e2', hcr e1]
      · rw [fs]; simp [hst]; exact ⟨fun e => e3 e.symm, fun e => e3' e.symm⟩
      · rw [fs]; exact ⟨fun e => absurd e e4, fun e => absurd e e4', hdr.2⟩
    cases f with
    | user => exact absurd rfl hf
    | io => exact pop rfl
    | start =>
      have hc : s.connecting = true := hl.start (by rw [hs]; simp)
      have hnc := hl.connecting hc
      have h0 : s.depth = 0 := by
        rcases Nat.eq_zero_or_pos s.depth with h0 | h0
        · exact h0
        · have := hl.reading h0; rw [hnc] at this; cases this
      simp only [St.runFrame]
      split
      · exact pop rfl
      · exact .fail hl.freed h0 (by rw [hcr rfl, ← hl.depth, h0]) hst hdr.2
    | bind => exact h2 (.connLoop s.cbs true) .process rfl rfl (fun e => by cases e) (fun e => by cases e) rfl (by decide) (by decide) _ rfl rfl rfl rfl rfl rfl
    | process =>
      simp only [St.runFrame]
      split
      · exact pop rfl
      · exact h1 .procLoop rfl rfl (by decide) (by decide) _ rfl rfl rfl rfl rfl rfl
    | procLoop =>
      simp only [St.runFrame]
      split
      · exact pop rfl
      split
      · exact pop rfl
      split
      · exact pop rfl
      split
      · exact hl.keep rfl rfl rfl rfl rfl rfl (by rw [hs]; simp [hst]) hl.disc
      · exact h1 (.submit _) rfl rfl (fun e => by cases e) (fun e => by cases e) _ rfl rfl rfl rfl rfl rfl
    | submit c =>
      simp only [St.runFrame]
      split
      · split <;> exact h1 .procLoop rfl rfl (by decide) (by decide) _ rfl rfl rfl rfl rfl rfl
      · exact h2 (.reset c) .procLoop rfl rfl (fun e => by cases e) (fun e => by cases e) rfl (by decide) (by decide) _ rfl rfl rfl rfl rfl rfl
    | reset c => exact h1 .user rfl rfl (by decide) (by decide) _ rfl rfl rfl rfl rfl rfl
    | failList cs =>
      simp only [St.runFrame]
      split
      · exact pop rfl
      · exact h2 .user (.failList _) rfl rfl (by decide) (by decide) rfl (fun e => by cases e) (fun e => by cases e) _ rfl rfl rfl rfl rfl rfl
    | failAll => exact h1 (.failList _) rfl rfl (fun e => by cases e) (fun e => by cases e) _ rfl rfl rfl rfl rfl rfl
    | discEnd =>
      have h0 : s.depth = 0 := by rw [hl.depth, hs]; simp [Frame.isRead, hdr.1 rfl]
      refine ⟨?_, rfl, fun e => rfl, fun e => ?_, fun e => ?_, hst, ⟨fun e => (by cases e), hdr.2⟩, ?_⟩
      · show s.depth = _; simp [St.runFrame, Frame.isRead, hdr.1 rfl, h0]
      · have : s.depth > 0 := e; omega
      · simp [St.runFrame, hst] at e
      · show (s.freed || (s.h3 && decide (s.depth > 0))) = false; rw [hl.freed, h0]; simp
    | connLoop cbs ok =>
      simp only [St.runFrame]
      split
      · exact pop rfl
      · exact h2 .user (.connLoop _ _) rfl rfl (by decide) (by decide) rfl (fun e => by cases e) (fun e => by cases e) _ rfl rfl rfl rfl rfl rfl
    | reconnect =>
      simp only [St.runFrame]
      split
      · exact hl.connect none (hcr rfl) hst hdr.2
      · exact pop rfl
    | read j =>
      have hdp : s.depth - 1 = r.countP Frame.isRead := by rw [hl.depth, hs, List.countP_cons_of_pos (by rfl)]; rfl
      simp only [St.runFrame]
      split
      · next h0 =>
        simp only [Bool.and_eq_true, decide_eq_true_eq] at h0
        refine Live.fail ?_ ?_ ?_ ?_ ?_
        · exact hl.freed
        · exact h0.1
        · rw [List.countP_cons_of_neg (by simp [Frame.isRead]), ← hdp, h0.1]
        · simp [hst]
        · exact ⟨fun e => (by cases e), hdr.2⟩
      · refine ⟨hdp, hl.h3, hl.connecting, fun e => hl.reading (by have : s.depth - 1 > 0 := e; omega), fun e => absurd e hst, fun e => hst (List.mem_of_mem_tail e), hdr.2, hl.freed⟩
    | shutLoop =>
      simp only [St.runFrame]
      split
      · exact pop rfl
      · exact h2 .user .shutLoop rfl rfl (by decide) (by decide) rfl (by decide) (by decide) _ rfl rfl rfl rfl rfl rfl

theorem init_live (auto : Bool) (ms mp : Nat) : Live (St.init auto ms mp) :=
  ⟨rfl, rfl, fun e => (by cases e), fun e => (by cases e), fun e => (by simp [St.init] at e), (by simp [St.init]), trivial, rfl⟩

theorem run_live {s : St} {chs : List Choice} {s' : St} (h : s.run chs = some s') (hl : Live s) (hd : NoDisconnectInRead s chs) : Live s' := by
  induction chs generalizing s with
  | nil => simp [St.run] at h; subst h; exact hl
  | cons ch chs ih =>
    rw [St.run] at h
    split at h
    · next s1 e => exact ih h (step_live e hl hd.1) (hd.2 s1 e)
    · cases h

/-- C162 (partial). As long as the user never calls `disconnect` in a callback for a response or a GOAWAY, whatever else happens, from within callbacks
or not: the connection object is never destroyed while it is reading, not even when the endpoint reports the loss of the connection from
within that read; and while it is reading, the connection is there. -/
theorem C162_not_freed_while_reading_partial (auto : Bool) (ms mp : Nat) (chs : List Choice) (s : St) (h : (St.init auto ms mp).run chs = some s)
    (hd : NoDisconnectInRead (St.init auto ms mp) chs) : s.freed = false ∧ (s.stack.any Frame.isRead = true → s.h3 = true ∧ s.connected = true) := by
  have hl := run_live h (init_live auto ms mp) hd
  refine ⟨hl.freed, fun e => ?_⟩
  have : s.depth > 0 := by
    rw [hl.depth]
    obtain ⟨f, hf, hr⟩ := List.any_eq_true.1 e
    exact List.countP_pos_iff.2 ⟨f, hf, hr⟩
  exact ⟨by rw [hl.h3]; exact hl.reading this, hl.reading this⟩

/-- What is missing: `disconnect` in the callback of a response destroys the connection that is reading. -/
theorem C162_disconnect_in_callback_partial : ∃ chs s, (St.init true 1 10).run chs = some s ∧ s.freed = true :=
  ⟨[.call (.push true), .go true, .event (.connected true), .go true, .go true, .go true, .go true, .go true, .go true,
    .event .data, .callback (.response 0), .call .disconnect, .go true, .go true, .go true], _, rfl, by decide⟩

end Verif.Cli3
