import Verif.Cli.TheoremsProgress

namespace Verif.Cli

/-! ### Does `disconnect` return? -/

theorem run_append (s : St) (a b : List Choice) (s1 : St) (h : s.run a = some s1) : s.run (a ++ b) = s1.run b := by
  induction a generalizing s with
  | nil => simp [St.run] at h; rw [h]; rfl
  | cons ch a ih =>
    rw [St.run] at h
    rw [List.cons_append, St.run]
    split at h
    · next s2 e => exact ih s2 h
    · cases h

/-- Callbacks that return at once: the machine is only told to go on. -/
def quiet (chs : List Choice) : Prop := ∀ ch ∈ chs, ch = .ret ∨ ch = .go true

theorem failAll_quiet (ps : List Ctx) (s : St) (code : Nat) (rest : List Frame) (hp : s.pending = ps) (hs : s.stack = .failAll code :: rest) :
    ∃ chs s', quiet chs ∧ s.run chs = some s' ∧ s'.stack = rest ∧ s'.pending = [] ∧ s'.active = s.active ∧ s'.depth = s.depth ∧
      s'.trace = (ps.map fun c => Ev.done c.call (.error code)).reverse ++ s.trace := by
  induction ps generalizing s with
  | nil =>
    refine ⟨[.go true], { s with stack := rest }, ?_, ?_, rfl, hp, rfl, rfl, rfl⟩
    · intro ch h; simp at h; exact .inr h
    · simp [St.run, St.step, hs, St.runFrame, hp]
  | cons c ps ih =>
    obtain ⟨chs, s', q, r, h1, h2, h3, h4, h5⟩ := ih { s with pending := ps, failed := s.failed + 1, stack := .failAll code :: rest, trace := .done c.call (.error code) :: s.trace } rfl rfl
    refine ⟨.go true :: .ret :: chs, s', ?_, ?_, h1, h2, h3, h4, ?_⟩
    · intro ch h
      simp at h
      rcases h with h | h | h
      · exact .inr h
      · exact .inl h
      · exact q ch h
    · simp [St.run, St.step, hs, St.runFrame, hp, St.enter]
      exact r
    · rw [h5]; simp

/-- **C132** When the callbacks it invokes return without calling the client, `disconnect` returns:
the request on the wire and then the queued ones, in order, are completed with 503, and control goes
back to the caller. -/
theorem C132_disconnect_returns_partial (s : St) (hu : s.stack = [] ∨ s.stack.head? = some .user) :
    ∃ chs s', quiet chs ∧ s.run (.call .disconnect :: chs) = some s' ∧ s'.stack = s.stack ∧ s'.held = [] ∧
      s'.trace = ((s.active.toList ++ s.pending).map fun c => Ev.done c.call (.error 503)).reverse ++ s.trace := by
  have hstep : s.step (.call .disconnect) = some s.disconnect := by
    unfold St.step
    rcases hu with h | h
    · rw [h]; rfl
    · cases hst : s.stack with
      | nil => rfl
      | cons f l => rw [hst] at h; simp at h; subst h; rfl
  obtain ⟨chs1, s1, q1, r1, e1, e2, e3, e4, e5⟩ : ∃ chs s1, quiet chs ∧ s.disconnect.run chs = some s1 ∧
      s1.stack = .failAll 503 :: .discEnd :: s.stack ∧ s1.pending = s.pending ∧ s1.active = none ∧ s1.depth = s.depth ∧
      s1.trace = (s.active.toList.map fun c => Ev.done c.call (.error 503)).reverse ++ s.trace := by
    cases ha : s.active with
    | none =>
      refine ⟨[.go true], { s.disconnect with stack := .failAll 503 :: .discEnd :: s.stack }, ?_, ?_, rfl, rfl, ha, rfl, rfl⟩
      · intro ch h; simp at h; exact .inr h
      · simp [St.run, St.step, St.disconnect, St.runFrame, St.failActive, ha]
    | some c =>
      refine ⟨[.go true, .ret], { s.disconnect with active := none, failed := s.failed + 1, stack := .failAll 503 :: .discEnd :: s.stack, trace := .done c.call (.error 503) :: s.trace }, ?_, ?_, rfl, rfl, rfl, rfl, rfl⟩
      · intro ch h
        simp at h
        rcases h with h | h
        · exact .inr h
        · exact .inl h
      · simp [St.run, St.step, St.disconnect, St.runFrame, St.failActive, ha, St.enter]
  obtain ⟨chs2, s2, q2, r2, f1, f2, f3, f4, f5⟩ := failAll_quiet s.pending s1 503 (.discEnd :: s.stack) e2 e1
  refine ⟨chs1 ++ (chs2 ++ [.go true]), s2.runFrame true s.stack .discEnd, ?_, ?_, ?_, ?_, ?_⟩
  · intro ch h
    simp at h
    rcases h with h | h | h
    · exact q1 ch h
    · exact q2 ch h
    · exact .inr h
  · rw [St.run, hstep]
    simp only []
    rw [run_append _ _ _ _ r1, run_append _ _ _ _ r2]
    simp [St.run, St.step, f1]
  · simp only [St.runFrame]; split <;> rfl
  · have : (s2.runFrame true s.stack .discEnd).held = s2.held := by
      simp only [St.runFrame]; split <;> rfl
    rw [this]
    simp [St.held, f2, f3, e3]
  · have : (s2.runFrame true s.stack .discEnd).trace = s2.trace := by
      simp only [St.runFrame]; split <;> rfl
    rw [this, f5, e5]
    simp

/-- One round of a callback that retries: its request fails, it pushes the next one and returns. -/
def retry : List Choice := [.go true, .call (.push true), .go true, .ret]

/-- A client in the loop of `disconnect`, waiting for a connection attempt its callbacks started. -/
structure Loop (s : St) (rest : List Frame) : Prop where
  stack : s.stack = .failAll 503 :: .discEnd :: rest
  one : ∃ c, s.pending = [c]
  off : s.isConnected = false
  connecting : s.isConnecting = true
  auto : s.autoReconnect = true
  active : s.active = none
  room : 0 < s.maxPending

theorem retry_round (s : St) (rest : List Frame) (h : Loop s rest) :
    ∃ s', s.run retry = some s' ∧ Loop s' rest ∧ s'.failed = s.failed + 1 := by
  obtain ⟨h1, ⟨c, h2⟩, h3, h4, h5, h6, h7⟩ := h
  refine ⟨{ s with pending := [⟨s.total + 1, s.nextId⟩], total := s.total + 1, nextId := s.nextId + 1, failed := s.failed + 1,
                   trace := .done c.call (.error 503) :: s.trace }, ?_, ⟨h1, ⟨_, rfl⟩, h3, h4, h5, h6, h7⟩, rfl⟩
  have hlt : ¬ s.maxPending = 0 := by omega
  simp [retry, St.run, St.step, h1, h2, St.runFrame, St.enter, St.doCall, St.push, h6, hlt, h3, h4, h5]

/-- **C132, the finding.** A callback that pushes its request again when it fails keeps `disconnect`
(and with it the destructor) from ever returning: after any number of rounds the loop still has a
request to fail. -/
theorem C132_retry_never_ends (s : St) (rest : List Frame) (h : Loop s rest) (n : Nat) :
    ∃ s', s.run (List.replicate n retry).flatten = some s' ∧ Loop s' rest ∧ s'.failed = s.failed + n := by
  induction n generalizing s with
  | zero => exact ⟨s, rfl, h, rfl⟩
  | succ n ih =>
    obtain ⟨s1, r1, l1, e1⟩ := retry_round s rest h
    obtain ⟨s2, r2, l2, e2⟩ := ih s1 l1
    refine ⟨s2, ?_, l2, by omega⟩
    rw [List.replicate_succ, List.flatten_cons, run_append _ _ _ _ r1]
    exact r2

/-- The loop is reached: one request waiting for the connection, `disconnect`, the callback retries. -/
theorem C132_example : ∃ s, (St.init true 10).run [.call (.push true), .go true, .call .disconnect, .go true, .go true,
    .call (.push true), .go true, .ret] = some s ∧ Loop s [] := by
  refine ⟨_, rfl, ⟨rfl, ⟨_, rfl⟩, rfl, rfl, rfl, rfl, by decide⟩⟩

/-- **C130, a finding.** `disconnect` while connecting tells the waiting connect callbacks nothing: the
attempt is gone (no connection object), the callback is still waiting, nothing is on the stack. -/
theorem C130_disconnect_tells_nothing :
    ((St.init true 10).run [.call (.connect true), .call .disconnect, .go true, .go true, .go true]).map
      (fun s => (s.trace, s.cbs, s.conn, s.stack)) = some ([], [1], none, []) := rfl

/-- **C128, a finding.** A request pushed by the callback of a `Connection: close` response goes out on
the connection that is about to be closed, and fails with it. -/
theorem C128_sent_on_closing :
    ((St.init true 10).run [.call (.push true), .go true, .event .connectOk, .go true, .go true, .go true,
      .event (.response 7 false), .call (.push true), .go true, .ret, .go true, .event .disconnected, .go true, .ret, .go true]).map
      (fun s => s.trace) = some [.done 2 (.error 502), .sent 2 2, .done 1 (.response 7), .sent 1 1] := by decide

end Verif.Cli
