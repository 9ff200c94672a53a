import Verif.Cli3.TheoremsPolite
import Verif.Cli3.TheoremsConnect

/-! More on C162 and C163: a close that is reported in the middle of a read, `connect` on a connected client, late timers. -/

namespace Verif.Cli3

/-- A deferred close belongs to a read that is going on. -/
def Deferred (s : St) : Prop := s.deferred = true → s.depth > 0

theorem connect_deferred (s : St) (cb : Option Nat) (rest : List Frame) : (s.connect cb rest).deferred = s.deferred ∧ (s.connect cb rest).depth = s.depth := by
  unfold St.connect
  (repeat' split) <;> exact ⟨rfl, rfl⟩

theorem push_deferred (s : St) (valid : Bool) : (s.push valid).deferred = s.deferred ∧ (s.push valid).depth = s.depth := by
  unfold St.push
  dsimp only
  (repeat' split) <;> first | exact ⟨rfl, rfl⟩ | exact connect_deferred _ _ _

theorem failRequest_deferred (s : St) (sid status : Nat) (rest : List Frame) : (s.failRequest sid status rest).deferred = s.deferred ∧ (s.failRequest sid status rest).depth = s.depth := by
  unfold St.failRequest
  split <;> exact ⟨rfl, rfl⟩

theorem giveUp_deferred (s : St) (n status : Nat) (again : Bool) : (s.giveUp n status again).deferred = s.deferred ∧ (s.giveUp n status again).depth = s.depth := by
  unfold St.giveUp
  (repeat' split) <;> first | exact ⟨rfl, rfl⟩ | exact failRequest_deferred _ _ _ _

theorem Deferred.keep {s t : St} (h : Deferred s) (e : t.deferred = s.deferred ∧ t.depth = s.depth) : Deferred t := by
  intro ht
  rw [e.1] at ht
  rw [e.2]
  exact h ht

theorem runFrame_deferred (s : St) (out : Bool) (rest : List Frame) (f : Frame) (h : Deferred s) : Deferred (s.runFrame out rest f) := by
  cases f
  case read k =>
    unfold St.runFrame
    dsimp only
    split
    · intro ht; cases ht
    · rename_i hn
      intro ht
      have ht : s.deferred = true := ht
      simp only [ht, Bool.and_true, decide_eq_true_eq] at hn
      show s.depth - 1 > 0
      omega
  all_goals
    refine h.keep ?_
    simp only [St.runFrame]
    (repeat' split) <;> first | exact ⟨rfl, rfl⟩ | exact ⟨trivial, trivial⟩ | exact connect_deferred _ _ _

theorem step_deferred (s : St) (ch : Choice) (s' : St) (h : Deferred s) (hs : s.step ch = some s') : Deferred s' := by
  have ev : ∀ e t, s.doEvent e = some t → Deferred t := by
    intro e t ht
    cases e with
    | connected ok =>
      unfold St.doEvent at ht
      dsimp only at ht
      (repeat' split at ht) <;> cases ht <;> exact h.keep ⟨rfl, rfl⟩
    | closed =>
      unfold St.doEvent at ht
      dsimp only at ht
      split at ht <;> cases ht
      · rename_i hd; exact fun _ => hd
      · exact h.keep ⟨rfl, rfl⟩
    | data =>
      unfold St.doEvent at ht
      dsimp only at ht
      split at ht <;> cases ht
      · exact h
      · exact fun _ => Nat.succ_pos _
    | streamClosed sid =>
      unfold St.doEvent at ht
      dsimp only at ht
      cases ht
      exact h.keep (failRequest_deferred _ _ _ _)
  have ca : ∀ c, Deferred (s.doCall c) := by
    intro c
    cases c with
    | push v => exact h.keep (push_deferred s v)
    | connect w =>
      unfold St.doCall
      dsimp only
      split
      · exact h.keep (connect_deferred _ _ _)
      · exact h.keep (connect_deferred _ _ _)
    | cancel n => exact h.keep (giveUp_deferred _ _ _ _)
    | disconnect => exact h.keep ⟨rfl, rfl⟩
  have tm : ∀ t u, s.doTimer t = some u → Deferred u := by
    intro t u hu
    cases t with
    | connect k =>
      unfold St.doTimer at hu
      dsimp only at hu
      (repeat' split at hu) <;> cases hu <;> exact h.keep ⟨rfl, rfl⟩
    | request n =>
      unfold St.doTimer at hu
      cases hu
      exact h.keep (giveUp_deferred _ _ _ _)
  have cb : ∀ k c, Deferred (s.doCallback k c) := by
    intro k c
    cases c with
    | response sid =>
      unfold St.doCallback
      dsimp only
      split <;> exact h.keep ⟨rfl, rfl⟩
    | shutdown => exact h.keep ⟨rfl, rfl⟩
  unfold St.step at hs
  split at hs
  · cases hs
  · split at hs
    · cases hs; exact ca _
    · exact ev _ _ hs
    · exact tm _ _ hs
    · cases hs; exact ca _
    · cases hs; exact h.keep ⟨rfl, rfl⟩
    · cases hs
    · cases hs; exact cb _ _
    · split at hs
      · exact ev _ _ hs
      · cases hs
    · cases hs; exact runFrame_deferred _ _ _ _ h
    · cases hs

/-- C162. A close that the endpoint reports in the middle of a read is remembered (1); when the outermost read ends, the connection is given up and every request is about to be failed (2);
in every state of every history a remembered close belongs to a read that is going on: none is left behind for a later connection (3). -/
theorem C162_close_while_reading :
    (∀ s : St, s.depth > 0 → s.doEvent .closed = some { s with deferred := true }) ∧
    (∀ (s : St) (k : Nat) (out : Bool) (rest : List Frame), s.depth = 1 → s.deferred = true →
      let t := s.runFrame out rest (.read k)
      t.connected = false ∧ t.connecting = false ∧ t.h3 = false ∧ t.cbs = [] ∧ t.deferred = false ∧ t.active = s.active ∧ t.pending = s.pending ∧
        t.stack = .connLoop s.cbs false :: .failAll :: .reconnect :: rest) ∧
    (∀ (auto : Bool) (ms mp : Nat) (chs : List Choice) (s : St), (St.init auto ms mp).run chs = some s → s.deferred = true → s.depth > 0) := by
  refine ⟨fun s h => ?_, fun s k out rest h1 h2 => ?_, fun auto ms mp chs s h => ?_⟩
  · unfold St.doEvent; rw [if_pos h]
  · unfold St.runFrame
    simp [h1, h2, St.connectionFailed, St.down, St.dropH3]
  · exact run_induct (P := Deferred) step_deferred h (fun h => by cases h)

/-- C163. `connect` on a connected client calls its callback at once with success, and starts nothing. -/
theorem C163_connected_at_once (s : St) (hc : s.connected = true) :
    (s.doCall (.connect true)).trace = .connected s.nextCb true :: s.trace ∧ (s.doCall (.connect true)).attempts = s.attempts ∧
      (s.doCall (.connect true)).connecting = s.connecting ∧ (s.doCall (.connect true)).waiting = s.waiting ∧ s.doCall (.connect false) = s := by
  obtain ⟨c, _⟩ := s
  subst hc
  refine ⟨?_, ?_, ?_, ?_, ?_⟩ <;> simp [St.doCall, St.connect, St.enter, St.waiting, Frame.waiting]

/-- C163. Once an attempt is over, its timer does nothing; and when a connection is made the attempt is over. -/
theorem C163_timer_idle (s : St) (k : Nat) (hk : 0 < k ∧ k ≤ s.attempts) (hc : s.connecting = false) : s.doTimer (.connect k) = some s ∧
    (∀ t u : St, t.doEvent (.connected true) = some u → u.connected = true ∧ u.connecting = false) := by
  refine ⟨?_, fun t u h => ?_⟩
  · unfold St.doTimer
    have : (k = 0 || decide (k > s.attempts)) = false := by simp; omega
    simp [this, hc]
  · unfold St.doEvent at h
    dsimp only at h
    split at h
    · cases h
    · simp only [if_true] at h; cases h; exact ⟨rfl, rfl⟩

/-- A close in the middle of a read: the request is failed after the read, and the client asks for a new connection for nothing more. -/
example : ∃ s, (St.init true 1 10).run [.call (.push true), .go true, .event (.connected true), .go true, .go true, .go true, .go true, .go true, .go true,
    .event .data, .event .closed, .go true, .go true, .go true, .go true, .ret, .go true, .go true] = some s ∧ s.stack = [] ∧ s.deferred = false ∧ completions s.trace = [1] ∧ s.connected = false := by
  refine ⟨_, rfl, ?_⟩; decide

end Verif.Cli3
