import Verif.Cli.Lemmas
import Verif.Cli.Spec

namespace Verif.Cli

/-! ### Looking at the trace through the books -/

theorem completions_filter (t : List Ev) : completions (t.filter isReq) = completions t := by
  induction t with
  | nil => rfl
  | cons e t ih => cases e <;> simp_all [completions, isReq, List.filter]

theorem sends_filter (t : List Ev) : sends (t.filter isReq) = sends t := by
  induction t with
  | nil => rfl
  | cons e t ih => cases e <;> simp_all [sends, isReq, List.filter]

theorem answered_filter (t : List Ev) : answered (t.filter isReq) = answered t := by
  induction t with
  | nil => rfl
  | cons e t ih => cases e <;> simp_all [answered, isReq, List.filter, List.countP_cons]

theorem refused_filter (t : List Ev) : refused (t.filter isReq) = refused t := by
  induction t with
  | nil => rfl
  | cons e t ih => cases e <;> simp_all [refused, isReq, List.filter, List.countP_cons]

@[simp] theorem completions_done (c : Nat) (r : Result) (t : List Ev) :
    completions (.done c r :: t) = c :: completions t := rfl
@[simp] theorem completions_sent (c k : Nat) (t : List Ev) : completions (.sent c k :: t) = completions t := rfl
@[simp] theorem sends_done (c : Nat) (r : Result) (t : List Ev) : sends (.done c r :: t) = sends t := rfl
@[simp] theorem sends_sent (c k : Nat) (t : List Ev) : sends (.sent c k :: t) = c :: sends t := rfl

/-! ### Exactly once -/

/-- Every call so far is completed once or held once, and nothing else is. -/
def Once (b : Book) : Prop :=
  ∀ n, (completions b.log).count n + (b.pending.map (·.call)).count n + (b.active.toList.map (·.call)).count n =
    if 1 ≤ n ∧ n ≤ b.total then 1 else 0

theorem once_move (b b' : Book) (h : Move b b') (hb : Once b) : Once b' := by
  intro n
  have hn := hb n
  cases h with
  | skip => exact hn
  | reject =>
    simp only [completions_done, List.count_cons]
    by_cases e : b.total + 1 = n
    · subst e
      have : ¬ (1 ≤ b.total + 1 ∧ b.total + 1 ≤ b.total) := by omega
      rw [if_neg this] at hn
      simp
      omega
    · have e' : (b.total + 1 == n) = false := by simp [e]
      rw [e']
      simp only [Bool.false_eq_true, if_false, Nat.add_zero]
      by_cases h1 : 1 ≤ n ∧ n ≤ b.total
      · rw [if_pos h1] at hn
        rw [if_pos (by omega)]
        exact hn
      · rw [if_neg h1] at hn
        rw [if_neg (by omega)]
        exact hn
  | queue _ =>
    simp only [List.map_append, List.map_cons, List.map_nil, List.count_append, List.count_cons, List.count_nil]
    by_cases e : b.total + 1 = n
    · subst e
      have : ¬ (1 ≤ b.total + 1 ∧ b.total + 1 ≤ b.total) := by omega
      rw [if_neg this] at hn
      simp
      omega
    · have e' : (b.total + 1 == n) = false := by simp [e]
      rw [e']
      simp only [Bool.false_eq_true, if_false, Nat.add_zero]
      by_cases h1 : 1 ≤ n ∧ n ≤ b.total
      · rw [if_pos h1] at hn
        rw [if_pos (by omega)]
        exact hn
      · rw [if_neg h1] at hn
        rw [if_neg (by omega)]
        exact hn
  | failPending hp =>
    rw [hp] at hn
    simp only [List.map_append, List.map_cons, List.count_append, List.count_cons, completions_done] at hn ⊢
    omega
  | send ha hp =>
    rw [hp, ha] at hn
    simp only [List.map_cons, List.count_cons, completions_sent, Option.toList, List.map_nil, List.count_nil] at hn ⊢
    omega
  | sendFail ha hp =>
    rw [hp, ha] at hn
    simp only [List.map_cons, List.count_cons, completions_done, completions_sent, Option.toList, List.map_nil, List.count_nil, ha] at hn ⊢
    omega
  | failActive ha =>
    rw [ha] at hn
    simp only [List.map_cons, List.count_cons, completions_done, Option.toList, List.map_nil, List.count_nil] at hn ⊢
    omega
  | respond ha =>
    rw [ha] at hn
    simp only [List.map_cons, List.count_cons, completions_done, Option.toList, List.map_nil, List.count_nil] at hn ⊢
    omega

theorem once_init (auto : Bool) (m : Nat) : Once (St.init auto m).book := by
  intro n
  have : ¬ (1 ≤ n ∧ n ≤ 0) := by omega
  simp [St.init, St.book, completions]
  omega

/-! #### `total` counts the calls -/

theorem connect_total (s : St) (cb : Option Nat) (rest : List Frame) : (s.connect cb rest).total = s.total :=
  congrArg Book.total (connect_book s cb rest)

theorem failActive_total (s : St) (code : Nat) (rest : List Frame) : (s.failActive code rest).total = s.total := by
  unfold St.failActive; split <;> rfl

theorem push_total (s : St) (v : Bool) : (s.push v).total = s.total + 1 := by
  unfold St.push
  simp only []
  split
  · rfl
  · by_cases h : s.pending.length + (if s.active.isSome then 1 else 0) ≥ s.maxPending
    · rw [if_pos h]; rfl
    · rw [if_neg h]

theorem runFrame_total (s : St) (ok : Bool) (rest : List Frame) (f : Frame) : (s.runFrame ok rest f).total = s.total := by
  cases f <;> simp only [St.runFrame]
  case process =>
    split
    · rfl
    · split
      · rfl
      · split
        · split
          · rfl
          · split
            · exact connect_total _ _ _
            · rfl
        · split
          · rfl
          · rw [failActive_total]
  case processTail => split <;> rfl
  case failActive => exact failActive_total _ _ _
  case failAll => split <;> rfl
  case discEnd => split <;> rfl
  case afterResponse => (split <;> (try split)) <;> rfl
  case connLoop => split <;> rfl
  case afterConnect => split <;> rfl
  case timeoutEnd => rfl
  case afterDisconnected => (split <;> (try split) <;> (try split)) <;> rfl

theorem doEvent_total (s : St) (e : Event) (s' : St) (h : s.doEvent e = some s') : s'.total = s.total := by
  cases e <;> simp only [St.doEvent] at h
  case connectOk => split at h <;> (try split at h) <;> cases h <;> rfl
  case connectFailed => split at h <;> (try split at h) <;> cases h <;> rfl
  case response => split at h <;> (try split at h) <;> cases h <;> rfl
  case timeout => split at h <;> (try split at h) <;> cases h <;> rfl
  case disconnected => split at h <;> cases h <;> rfl
  case socketClosed => cases h; rfl
  case pendingTimeout => split at h <;> cases h <;> rfl
  case deferredTick => split at h <;> cases h <;> rfl
  case reconnect =>
    split at h
    · cases h
    · split at h
      · cases h; rfl
      · cases h; rw [connect_total]

theorem step_total (s : St) (ch : Choice) (s' : St) (h : s.step ch = some s') : s'.total = s.total + pushes [ch] := by
  have call : ∀ c, (s.doCall c).total = s.total + pushes [.call c] := by
    intro c
    cases c with
    | push v => exact push_total s v
    | connect w =>
      simp only [St.doCall]
      split <;> rw [connect_total] <;> rfl
    | disconnect => rfl
  unfold St.step at h
  split at h
  · cases h; exact call _
  · exact doEvent_total _ _ _ h
  · cases h; exact call _
  · cases h; rfl
  · cases h
  · cases h; exact runFrame_total _ _ _ _
  · cases h

theorem run_total (s : St) (chs : List Choice) (s' : St) (h : s.run chs = some s') : s'.total = s.total + pushes chs := by
  induction chs generalizing s with
  | nil => simp [St.run] at h; rw [← h]; rfl
  | cons ch chs ih =>
    rw [St.run] at h
    split at h
    · next s1 e =>
      have h1 := step_total _ _ _ e
      have h2 := ih s1 h
      have h3 : pushes (ch :: chs) = pushes [ch] + pushes chs := by
        have := List.countP_append (p := fun | Choice.call (.push _) => true | _ => false) (l₁ := [ch]) (l₂ := chs)
        exact this
      omega
    · cases h

/-- **C126** A request given to `push_request` is completed exactly once or still held exactly once,
at every moment of every history of calls (from outside or from within callbacks) and network events;
no callback is ever invoked a second time, and none that was not registered. -/
theorem C126_exactly_once (auto : Bool) (m : Nat) (chs : List Choice) (s : St)
    (h : (St.init auto m).run chs = some s) (n : Nat) :
    (completions s.trace).count n + s.held.count n = if 1 ≤ n ∧ n ≤ pushes chs then 1 else 0 := by
  have h1 := run_book Once once_move _ chs s h (once_init auto m) n
  have h2 := run_total _ chs s h
  have h3 : s.total = pushes chs := by rw [h2]; simp [St.init]
  have h4 : s.book.total = pushes chs := h3
  have h5 : completions s.book.log = completions s.trace := completions_filter _
  simp only [h4, h5] at h1
  rw [← h1]
  simp only [St.held, List.count_append, St.book]
  omega

/-- **C126** A request on the wire is completed with 502 at once when the connection is lost, and with 504 when
the timer expires: the first thing the client does after either event is to invoke its callback. -/
theorem C126_loss_completes (s s' : St) (c : Ctx) (e : Event) (ok : Bool) (hs : s.stack = []) (ha : s.active = some c)
    (he : e = .disconnected ∨ (e = .timeout ∧ (s.isConnecting = false ∨ s.isConnected = true)))
    (h : s.run [.event e, .go ok] = some s') :
    s'.trace = .done c.call (.error (if e = .timeout then 504 else 502)) :: s.trace ∧ s'.active = none ∧ s'.stack.head? = some .user := by
  rcases he with rfl | ⟨rfl, hc⟩
  · simp only [St.run, St.step, hs, St.doEvent] at h
    cases hcn : s.conn with
    | none => simp [hcn] at h
    | some cn =>
      simp only [hcn, St.runFrame, St.failActive, ha, Option.some.injEq] at h
      subst h
      exact ⟨rfl, rfl, rfl⟩
  · have hcf : (s.isConnecting && !s.isConnected) = false := by rcases hc with hc | hc <;> simp [hc]
    simp only [St.run, St.step, hs, St.doEvent] at h
    cases hcn : s.conn with
    | none => simp [hcn] at h
    | some cn =>
      simp only [hcn, hcf, Bool.false_eq_true, if_false, St.runFrame, St.failActive, ha, Option.some.injEq] at h
      subst h
      exact ⟨rfl, rfl, rfl⟩

/-- Both happen. -/
theorem C126_loss_example :
    ((St.init true 10).run [.call (.push true), .go true, .event .connectOk, .go true, .go true, .go true, .event .timeout, .go true]).map (·.trace) =
      some [.done 1 (.error 504), .sent 1 1] ∧
    ((St.init true 10).run [.call (.push true), .go true, .event .connectOk, .go true, .go true, .go true, .event .disconnected, .go true]).map (·.trace) =
      some [.done 1 (.error 502), .sent 1 1] := by decide

/-- The history of the example: two requests, the first answered, the second pushed from its callback. -/
def demo : List Choice :=
  [.call (.push true), .go true, .event .connectOk, .go true, .go true, .go true,
   .event (.response 7 true), .call (.push true), .go true, .ret, .go true, .go true]

theorem C126_example :
    ((St.init true 10).run demo).map (fun s => (completions s.trace, s.held, sends s.trace)) =
      some ([1], [2], [2, 1]) := by decide

/-! ### Order on the wire -/

structure Order (b : Book) : Prop where
  sorted : (sends b.log).Pairwise (· > ·)
  queue : (b.pending.map (·.call)).Pairwise (· < ·)
  before : ∀ x ∈ sends b.log, ∀ y ∈ b.pending, x < y.call
  bound : (∀ x ∈ sends b.log, x ≤ b.total) ∧ ∀ y ∈ b.pending, y.call ≤ b.total
  act : ∀ c, b.active = some c → (sends b.log).head? = some c.call
  ended : ∀ x ∈ sends b.log, x ∈ completions b.log ∨ ∃ c, b.active = some c ∧ c.call = x
  one : OneAtATime b.log
  last : ToLast b.log

theorem one_cons_done {t : List Ev} (h : OneAtATime t) (c : Nat) (r : Result) : OneAtATime (.done c r :: t) := by
  intro post pre c' k e
  cases post with
  | nil => simp at e
  | cons x post => simp at e; exact h post pre c' k e.2

theorem one_cons_sent {t : List Ev} (h : OneAtATime t) (c k : Nat) (hs : ∀ x ∈ sends t, x ∈ completions t) :
    OneAtATime (.sent c k :: t) := by
  intro post pre c' k' e
  cases post with
  | nil => simp at e; rw [← e.2]; exact hs
  | cons x post => simp at e; exact h post pre c' k' e.2

theorem last_cons_error {t : List Ev} (h : ToLast t) (c code : Nat) : ToLast (.done c (.error code) :: t) := by
  intro post pre c' r e
  cases post with
  | nil => simp at e
  | cons x post => simp at e; exact h post pre c' r e.2

theorem last_cons_sent {t : List Ev} (h : ToLast t) (c k : Nat) : ToLast (.sent c k :: t) := by
  intro post pre c' r e
  cases post with
  | nil => simp at e
  | cons x post => simp at e; exact h post pre c' r e.2

theorem last_cons_response {t : List Ev} (h : ToLast t) (c r : Nat) (hc : (sends t).head? = some c) :
    ToLast (.done c (.response r) :: t) := by
  intro post pre c' r' e
  cases post with
  | nil => simp at e; rw [← e.2, ← e.1.1]; exact hc
  | cons x post => simp at e; exact h post pre c' r' e.2

theorem order_move (b b' : Book) (h : Move b b') (hb : Order b) : Order b' := by
  obtain ⟨h1, h2, h3, h4, h5, h6, h7, h8⟩ := hb
  cases h with
  | skip => exact ⟨h1, h2, h3, h4, h5, h6, h7, h8⟩
  | reject =>
    refine ⟨h1, h2, h3, ⟨fun x hx => Nat.le_succ_of_le (h4.1 x hx), fun y hy => Nat.le_succ_of_le (h4.2 y hy)⟩, h5, ?_,
      one_cons_done h7 _ _, last_cons_error h8 _ _⟩
    intro x hx
    rcases h6 x hx with h | h
    · exact .inl (List.mem_cons_of_mem _ h)
    · exact .inr h
  | queue _ =>
    refine ⟨h1, ?_, ?_, ⟨fun x hx => Nat.le_succ_of_le (h4.1 x hx), ?_⟩, h5, h6, h7, h8⟩
    · simp only [List.map_append, List.map_cons, List.map_nil]
      rw [List.pairwise_append]
      refine ⟨h2, List.pairwise_singleton _ _, ?_⟩
      intro a ha c hc
      simp at ha hc
      obtain ⟨y, hy, rfl⟩ := ha
      have := h4.2 y hy
      omega
    · intro x hx y hy
      simp at hy
      rcases hy with hy | rfl
      · exact h3 x hx y hy
      · have := h4.1 x hx
        simp only []
        omega
    · intro y hy
      simp at hy
      rcases hy with hy | rfl
      · exact Nat.le_succ_of_le (h4.2 y hy)
      · simp
  | failPending hp =>
    rw [hp] at h2 h3 h4
    refine ⟨h1, ?_, ?_, ⟨h4.1, ?_⟩, h5, ?_, one_cons_done h7 _ _, last_cons_error h8 _ _⟩
    · refine List.Pairwise.sublist ?_ h2
      apply List.Sublist.map
      exact List.Sublist.append_left (List.sublist_cons_self _ _) _
    · intro x hx y hy
      refine h3 x hx y ?_
      simp at hy ⊢
      rcases hy with hy | hy
      · exact .inl hy
      · exact .inr (.inr hy)
    · intro y hy
      refine h4.2 y ?_
      simp at hy ⊢
      rcases hy with hy | hy
      · exact .inl hy
      · exact .inr (.inr hy)
    · intro x hx
      rcases h6 x hx with h | h
      · exact .inl (List.mem_cons_of_mem _ h)
      · exact .inr h
  | send ha hp =>
    rename_i c ps
    rw [hp] at h2 h3 h4
    simp only [List.map_cons, List.pairwise_cons] at h2
    refine ⟨?_, h2.2, ?_, ⟨?_, fun y hy => h4.2 y (List.mem_cons_of_mem _ hy)⟩, ?_, ?_, ?_, last_cons_sent h8 _ _⟩
    · simp only [sends_sent, List.pairwise_cons]
      exact ⟨fun x hx => h3 x hx c (List.mem_cons_self ..), h1⟩
    · intro x hx y hy
      simp only [sends_sent, List.mem_cons] at hx
      rcases hx with rfl | hx
      · exact h2.1 _ (List.mem_map_of_mem hy)
      · exact h3 x hx y (List.mem_cons_of_mem _ hy)
    · intro x hx
      simp only [sends_sent, List.mem_cons] at hx
      rcases hx with rfl | hx
      · exact h4.2 c (List.mem_cons_self ..)
      · exact h4.1 x hx
    · intro c' hc'
      simp only [Option.some.injEq] at hc'
      subst hc'
      rfl
    · intro x hx
      simp only [sends_sent, List.mem_cons] at hx
      rcases hx with rfl | hx
      · exact .inr ⟨c, rfl, rfl⟩
      · rcases h6 x hx with h | ⟨c', h, _⟩
        · exact .inl h
        · rw [ha] at h; cases h
    · refine one_cons_sent h7 _ _ ?_
      intro x hx
      rcases h6 x hx with h | ⟨c', h, _⟩
      · exact h
      · rw [ha] at h; cases h
  | sendFail ha hp =>
    rename_i c ps code
    rw [hp] at h2 h3 h4
    simp only [List.map_cons, List.pairwise_cons] at h2
    refine ⟨?_, h2.2, ?_, ⟨?_, fun y hy => h4.2 y (List.mem_cons_of_mem _ hy)⟩, ?_, ?_, ?_,
      last_cons_error (last_cons_sent h8 _ _) _ _⟩
    · simp only [sends_done, sends_sent, List.pairwise_cons]
      exact ⟨fun x hx => h3 x hx c (List.mem_cons_self ..), h1⟩
    · intro x hx y hy
      simp only [sends_done, sends_sent, List.mem_cons] at hx
      rcases hx with rfl | hx
      · exact h2.1 _ (List.mem_map_of_mem hy)
      · exact h3 x hx y (List.mem_cons_of_mem _ hy)
    · intro x hx
      simp only [sends_done, sends_sent, List.mem_cons] at hx
      rcases hx with rfl | hx
      · exact h4.2 c (List.mem_cons_self ..)
      · exact h4.1 x hx
    · intro c' hc'
      simp only [ha] at hc'
      cases hc'
    · intro x hx
      simp only [sends_done, sends_sent, List.mem_cons] at hx
      rcases hx with rfl | hx
      · exact .inl (List.mem_cons_self ..)
      · rcases h6 x hx with h | ⟨c', h, _⟩
        · exact .inl (List.mem_cons_of_mem _ h)
        · rw [ha] at h; cases h
    · refine one_cons_done (one_cons_sent h7 _ _ ?_) _ _
      intro x hx
      rcases h6 x hx with h | ⟨c', h, _⟩
      · exact h
      · rw [ha] at h; cases h
  | failActive ha =>
    refine ⟨h1, h2, h3, h4, ?_, ?_, one_cons_done h7 _ _, last_cons_error h8 _ _⟩
    · intro c hc; cases hc
    · intro x hx
      rcases h6 x hx with h | ⟨c', h, e⟩
      · exact .inl (List.mem_cons_of_mem _ h)
      · rw [ha] at h; cases h
        exact .inl (by simp [e])
  | respond ha =>
    refine ⟨h1, h2, h3, h4, ?_, ?_, one_cons_done h7 _ _, last_cons_response h8 _ _ (h5 _ ha)⟩
    · intro c hc; cases hc
    · intro x hx
      rcases h6 x hx with h | ⟨c', h, e⟩
      · exact .inl (List.mem_cons_of_mem _ h)
      · rw [ha] at h; cases h
        exact .inl (by simp [e])

theorem order_init (auto : Bool) (m : Nat) : Order (St.init auto m).book := by
  refine ⟨?_, ?_, ?_, ⟨?_, ?_⟩, ?_, ?_, ?_, ?_⟩ <;> simp [St.init, St.book, sends, OneAtATime, ToLast]

theorem order_run (auto : Bool) (m : Nat) (chs : List Choice) (s : St) (h : (St.init auto m).run chs = some s) :
    Order s.book := run_book Order order_move _ chs s h (order_init auto m)

/-- **C128** Requests go on the wire in the order of the calls, each at most once (the trace is newest
first, so the calls are strictly decreasing in it). -/
theorem C128_fifo (auto : Bool) (m : Nat) (chs : List Choice) (s : St) (h : (St.init auto m).run chs = some s) :
    (sends s.trace).Pairwise (· > ·) := by
  have := (order_run auto m chs s h).sorted
  simp only [St.book, sends_filter] at this
  exact this

/-- **C128** One request is outstanding at a time: a request is handed to the connection only after
every request handed over before has been completed. -/
theorem C128_one_at_a_time (auto : Bool) (m : Nat) (chs : List Choice) (s : St)
    (h : (St.init auto m).run chs = some s) : OneAtATime s.trace := by
  intro post pre c r e c' hc'
  have := (order_run auto m chs s h).one
  simp only [St.book] at this
  have h1 := this (post.filter isReq) (pre.filter isReq) c r (by rw [e]; simp [List.filter_append, List.filter_cons, isReq]) c'
  rw [sends_filter, completions_filter] at h1
  exact h1 hc'

/-- **C128** A response of the network completes the request that was handed to the connection last. -/
theorem C128_response_to_last (auto : Bool) (m : Nat) (chs : List Choice) (s : St)
    (h : (St.init auto m).run chs = some s) : ToLast s.trace := by
  intro post pre c r e
  have := (order_run auto m chs s h).last
  simp only [St.book] at this
  have h1 := this (post.filter isReq) (pre.filter isReq) c r (by rw [e]; simp [List.filter_append, List.filter_cons, isReq])
  rw [sends_filter] at h1
  exact h1

/-! ### Counters and the limit -/

structure Counts (b : Book) : Prop where
  ok : b.successful = answered b.log
  bad : b.failed = refused b.log
  sum : b.successful + b.failed + b.pending.length + b.active.toList.length = b.total
  limit : b.pending.length + b.active.toList.length ≤ b.maxPending

theorem counts_move (b b' : Book) (h : Move b b') (hb : Counts b) : Counts b' := by
  obtain ⟨h1, h2, h3, h4⟩ := hb
  cases h with
  | skip => exact ⟨h1, h2, h3, h4⟩
  | reject => refine ⟨?_, ?_, ?_, ?_⟩ <;> simp_all [answered, refused] <;> omega
  | queue hq =>
    have : (if b.active.isSome then 1 else 0) = b.active.toList.length := by cases b.active <;> rfl
    rw [this] at hq
    refine ⟨h1, h2, ?_, ?_⟩ <;> simp <;> omega
  | failPending hp => refine ⟨?_, ?_, ?_, ?_⟩ <;> simp_all [answered, refused] <;> omega
  | send ha hp => refine ⟨?_, ?_, ?_, ?_⟩ <;> simp_all [answered, refused] <;> omega
  | sendFail ha hp => refine ⟨?_, ?_, ?_, ?_⟩ <;> simp_all [answered, refused] <;> omega
  | failActive ha => refine ⟨?_, ?_, ?_, ?_⟩ <;> simp_all [answered, refused] <;> omega
  | respond ha => refine ⟨?_, ?_, ?_, ?_⟩ <;> simp_all [answered, refused] <;> omega

theorem counts_init (auto : Bool) (m : Nat) : Counts (St.init auto m).book := by
  refine ⟨?_, ?_, ?_, ?_⟩ <;> simp [St.init, St.book, answered, refused]

/-- **C129** The statistics of the client are exact: the successes are the callbacks that got a
response, the failures those that got an error, and together with the requests held they are all the
calls of `push_request`. -/
theorem C129_stats (auto : Bool) (m : Nat) (chs : List Choice) (s : St) (h : (St.init auto m).run chs = some s) :
    s.total = pushes chs ∧ s.successful = answered s.trace ∧ s.failed = refused s.trace ∧
      s.successful + s.failed + s.held.length = pushes chs := by
  have hc := run_book Counts counts_move _ chs s h (counts_init auto m)
  have h2 := run_total _ chs s h
  have h3 : s.total = pushes chs := by rw [h2]; simp [St.init]
  obtain ⟨c1, c2, c3, _⟩ := hc
  simp only [St.book] at c1 c2 c3
  rw [answered_filter] at c1
  rw [refused_filter] at c2
  refine ⟨h3, c1, c2, ?_⟩
  rw [← h3]
  simp only [St.held, List.length_append, List.length_map]
  omega

theorem run_max (s : St) (chs : List Choice) (s' : St) (h : s.run chs = some s') : s'.maxPending = s.maxPending := by
  have := run_book (fun b => b.maxPending = s.maxPending) (fun b b' hm hb => by cases hm <;> exact hb) s chs s' h rfl
  exact this

/-- **C129** The client never holds more requests than the limit it was given, the one on the wire
included. -/
theorem C129_limit (auto : Bool) (m : Nat) (chs : List Choice) (s : St) (h : (St.init auto m).run chs = some s) :
    s.held.length ≤ m := by
  have hc := run_book Counts counts_move _ chs s h (counts_init auto m)
  have h4 := hc.limit
  simp only [St.book] at h4
  have h5 := run_max _ chs s h
  simp only [St.init] at h5
  rw [h5] at h4
  simp only [St.held, List.length_append, List.length_map]
  omega

/-- **C129** What a call of `push_request` does at once: an invalid request is refused with 400, a
request over the limit with 503, and neither touches the requests already held; any other request
joins the end of the queue. -/
theorem C129_admission (s : St) (valid : Bool) :
    let s' := s.push valid
    (valid = false → s'.trace = .done (s.total + 1) (.error 400) :: s.trace ∧ s'.pending = s.pending ∧ s'.active = s.active) ∧
    (valid = true → s.maxPending ≤ s.held.length →
      s'.trace = .done (s.total + 1) (.error 503) :: s.trace ∧ s'.pending = s.pending ∧ s'.active = s.active) ∧
    (valid = true → s.held.length < s.maxPending →
      s'.trace = s.trace ∧ s'.pending.map (·.call) = s.pending.map (·.call) ++ [s.total + 1] ∧ s'.active = s.active) := by
  have hl : s.held.length = s.pending.length + (if s.active.isSome then 1 else 0) := by
    simp [St.held]; cases s.active <;> rfl
  refine ⟨?_, ?_, ?_⟩
  · intro hv; subst hv; exact ⟨rfl, rfl, rfl⟩
  · intro hv hm; subst hv
    rw [hl] at hm
    simp only [St.push]
    rw [if_neg (by simp), if_pos hm]
    exact ⟨rfl, rfl, rfl⟩
  · intro hv hm; subst hv
    rw [hl] at hm
    simp only [St.push]
    rw [if_neg (by simp), if_neg (by omega)]
    exact ⟨rfl, by simp, rfl⟩

theorem C129_example :
    ((St.init true 1).run [.call (.push true), .go true, .call (.push true), .ret]).map
      (fun s => (s.held, s.total, s.failed, s.trace)) = some ([1], 2, 1, [.done 2 (.error 503)]) := by decide

end Verif.Cli
