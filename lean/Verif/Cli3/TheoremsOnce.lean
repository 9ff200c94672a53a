import Verif.Cli3.Spec

/-! C160: no request is answered twice; C164: the statistics of the persistent HTTP/3 client. Both hold in every history. -/

namespace Verif.Cli3

/-! ### Removing one request -/

theorem take_stream {l : List Ctx} {sid : Nat} {c : Ctx} (h : l.find? (·.stream = sid) = some c) (hn : (l.map (·.stream)).Nodup) :
    l.Perm (c :: l.filter (·.stream ≠ sid)) := by
  induction l with
  | nil => cases h
  | cons a l ih =>
    simp only [List.map_cons, List.nodup_cons] at hn
    rw [List.find?_cons] at h
    by_cases ha : a.stream = sid
    · simp only [ha, decide_true, Option.some.injEq] at h
      subst h
      rw [List.filter_cons]
      simp only [ha, ne_eq, not_true_eq_false, decide_false, Bool.false_eq_true, if_false]
      rw [List.filter_eq_self.2]
      intro x hx
      simp only [decide_eq_true_eq]
      intro e
      exact hn.1 (by rw [ha, ← e]; exact List.mem_map_of_mem hx)
    · simp only [ha, decide_false] at h
      rw [List.filter_cons]
      simp only [ha, ne_eq, not_false_eq_true, decide_true, if_true]
      exact ((ih h hn.2).cons a).trans (List.Perm.swap c a _)

theorem take_call {l : List Ctx} {n : Nat} {c : Ctx} (h : l.find? (·.call = n) = some c) (hn : (l.map (·.call)).count n ≤ 1) :
    l.Perm (c :: l.filter (·.call ≠ n)) := by
  induction l with
  | nil => cases h
  | cons a l ih =>
    rw [List.find?_cons] at h
    simp only [List.map_cons, List.count_cons] at hn
    by_cases ha : a.call = n
    · simp only [ha, decide_true, Option.some.injEq] at h
      subst h
      rw [List.filter_cons]
      simp only [ha, ne_eq, not_true_eq_false, decide_false, Bool.false_eq_true, if_false]
      rw [List.filter_eq_self.2]
      intro x hx
      simp only [decide_eq_true_eq]
      intro e
      have : n ∈ l.map (·.call) := by rw [← e]; exact List.mem_map_of_mem hx
      have := List.count_pos_iff.2 this
      simp only [ha, beq_self_eq_true, if_true] at hn
      omega
    · simp only [ha, decide_false] at h
      rw [List.filter_cons]
      simp only [ha, ne_eq, not_false_eq_true, decide_true, if_true]
      exact ((ih h (by omega)).cons a).trans (List.Perm.swap c a _)

/-! ### The bookkeeping -/

/-- What is counted: the completions, the requests held and those destroyed, of the number `n`. -/
def St.weight (s : St) (n : Nat) : Nat := (completions s.trace).count n + s.held.count n + s.lost.count n

/-- The numbers of a state. -/
structure Sums (s : St) : Prop where
  total : s.total = s.successful + s.failed + s.held.length + s.lost.length
  ok : s.successful = answered s.trace
  err : s.failed = refused s.trace

/-- One step of the bookkeeping, from `s` to `s'`: `new` is the number of the request that is new, if there is one. -/
structure Keeps (s s' : St) (new : Option Nat) : Prop where
  weight : ∀ n, s'.weight n = s.weight n + if new = some n then 1 else 0
  total : s'.total = s.total + new.toList.length
  streams : (s.active.map (·.stream)).Nodup → (s'.active.map (·.stream)).Nodup
  sums : Sums s → Sums s'

theorem Keeps.skip {s s' : St} (hp : (s'.pending ++ s'.active ++ s'.stack.flatMap Frame.ctxs).Perm (s.pending ++ s.active ++ s.stack.flatMap Frame.ctxs))
    (ha : List.Sublist s'.active s.active) (htr : completions s'.trace = completions s.trace) (han : answered s'.trace = answered s.trace)
    (hrf : refused s'.trace = refused s.trace)
    (ht : s'.total = s.total) (hs : s'.successful = s.successful) (hf : s'.failed = s.failed) (hl : s'.lost = s.lost) : Keeps s s' none := by
  have hh : s'.held.Perm s.held := hp.map _
  refine ⟨fun n => ?_, by rw [ht]; rfl, fun h => (ha.map _).nodup h, fun h => ⟨?_, ?_, ?_⟩⟩
  · unfold St.weight; rw [htr, hh.count_eq, hl]; simp
  · rw [ht, hs, hf, hl, hh.length_eq]; exact h.total
  · rw [hs, han]; exact h.ok
  · rw [hf, hrf]; exact h.err

/-- A request that is held is completed. -/
theorem Keeps.done {s s' : St} {c : Ctx} {o : Outcome} (hp : (s.pending ++ s.active ++ s.stack.flatMap Frame.ctxs).Perm (c :: (s'.pending ++ s'.active ++ s'.stack.flatMap Frame.ctxs)))
    (ha : List.Sublist s'.active s.active) (htr : s'.trace = .done c.call o :: s.trace) (ht : s'.total = s.total)
    (hc : (∃ a b, o = .response a b) ∧ s'.successful = s.successful + 1 ∧ s'.failed = s.failed ∨ (∃ e, o = .error e) ∧ s'.successful = s.successful ∧ s'.failed = s.failed + 1)
    (hl : s'.lost = s.lost) : Keeps s s' none := by
  have hh : s.held.Perm (c.call :: s'.held) := hp.map _
  refine ⟨fun n => ?_, by rw [ht]; rfl, fun h => (ha.map _).nodup h, fun h => ⟨?_, ?_, ?_⟩⟩
  · unfold St.weight; rw [htr, hh.count_eq, hl]; simp only [completions, List.filterMap_cons, List.count_cons]; simp; omega
  · have h1 := h.total; rw [hh.length_eq, List.length_cons] at h1
    rw [ht, hl]
    rcases hc with ⟨-, a, b⟩ | ⟨-, a, b⟩ <;> rw [a, b] <;> omega
  · rw [htr]
    rcases hc with ⟨⟨x, y, rfl⟩, a, b⟩ | ⟨⟨x, rfl⟩, a, b⟩ <;> rw [a, h.ok] <;> simp [answered]
  · rw [htr]
    rcases hc with ⟨⟨x, y, rfl⟩, a, b⟩ | ⟨⟨x, rfl⟩, a, b⟩ <;> rw [b, h.err] <;> simp [refused]

theorem connect_keeps (s : St) (cb : Option Nat) (rest : List Frame) (hr : rest.flatMap Frame.ctxs = s.stack.flatMap Frame.ctxs) :
    Keeps s (s.connect cb rest) none := by
  unfold St.connect
  split
  · split
    · exact .skip (by simp [St.enter, Frame.ctxs, hr]) (List.Sublist.refl _) rfl rfl rfl rfl rfl rfl rfl
    · exact .skip (by simp [hr]) (List.Sublist.refl _) rfl rfl rfl rfl rfl rfl rfl
  · split
    · exact .skip (by simp [hr]) (List.Sublist.refl _) rfl rfl rfl rfl rfl rfl rfl
    · exact .skip (by simp [Frame.ctxs, hr]) (List.Sublist.refl _) rfl rfl rfl rfl rfl rfl rfl

theorem Keeps.trans_skip {s t s' : St} {o : Option Nat} (h : Keeps s t o) (h' : Keeps t s' none) : Keeps s s' o := by
  refine ⟨fun n => ?_, ?_, fun hn => h'.streams (h.streams hn), fun hs => h'.sums (h.sums hs)⟩
  · rw [h'.weight, h.weight]; simp
  · rw [h'.total, h.total]; rfl

theorem push_keeps (s : St) (v : Bool) : Keeps s (s.push v) (some (s.total + 1)) := by
  have refuse : ∀ e, Keeps s ({ s with total := s.total + 1, failed := s.failed + 1 }.enter (.done (s.total + 1) (.error e)) s.stack) (some (s.total + 1)) := by
    intro e
    refine ⟨fun n => ?_, rfl, fun h => h, fun h => ⟨?_, ?_, ?_⟩⟩
    · simp only [St.weight, St.enter, St.held, completions, List.filterMap_cons, List.count_cons, List.flatMap_cons, Frame.ctxs, List.nil_append, Option.some.injEq, beq_iff_eq]
      omega
    · have := h.total; simp only [St.enter, St.held, List.flatMap_cons, Frame.ctxs, List.nil_append] at this ⊢; omega
    · simp only [St.enter, answered, List.countP_cons]; simpa [answered] using h.ok
    · simp only [St.enter, refused, List.countP_cons]; simpa [refused] using h.err
  have accept : Keeps s { s with total := s.total + 1, pending := s.pending ++ [⟨s.total + 1, 0, 0⟩] } (some (s.total + 1)) := by
    refine ⟨fun n => ?_, rfl, fun h => h, fun h => ⟨?_, h.ok, h.err⟩⟩
    · simp only [St.weight, St.held, List.map_append, List.count_append, List.map_cons, List.map_nil, List.count_cons, List.count_nil, Option.some.injEq, beq_iff_eq]
      omega
    · have := h.total; simp only [St.held, List.map_append, List.length_append, List.map_cons, List.length_cons, List.map_nil, List.length_nil] at this ⊢; omega
  unfold St.push
  simp only
  split
  · exact refuse 400
  split
  · exact refuse 503
  split
  · exact refuse 503
  split
  · exact accept.trans_skip (.skip (by simp [Frame.ctxs]) (List.Sublist.refl _) rfl rfl rfl rfl rfl rfl rfl)
  split
  · exact accept.trans_skip (connect_keeps _ _ _ rfl)
  · exact accept

theorem failRequest_keeps (s : St) (sid st : Nat) (rest : List Frame) (hn : (s.active.map (·.stream)).Nodup) (hr : rest.flatMap Frame.ctxs = s.stack.flatMap Frame.ctxs) :
    Keeps s (s.failRequest sid st rest) none := by
  unfold St.failRequest
  split
  · exact .skip (by simp [hr]) (List.Sublist.refl _) rfl rfl rfl rfl rfl rfl rfl
  · next c hc =>
    refine .done (c := c) (o := .error st) ?_ (List.filter_sublist) rfl rfl (.inr ⟨⟨_, rfl⟩, rfl, rfl⟩) rfl
    have := take_stream hc hn
    simp only [St.enter, List.flatMap_cons, Frame.ctxs, List.nil_append, hr]
    exact ((List.Perm.append_left s.pending this).trans List.perm_middle).append_right _

theorem giveUp_keeps (s : St) (n st : Nat) (b : Bool) (hn : (s.active.map (·.stream)).Nodup) (hw : s.weight n ≤ 1) : Keeps s (s.giveUp n st b) none := by
  unfold St.giveUp
  split
  · next c hc =>
    refine .done (c := c) (o := .error st) ?_ (List.Sublist.refl _) rfl rfl (.inr ⟨⟨_, rfl⟩, rfl, rfl⟩) rfl
    have h1 : (s.pending.map (·.call)).count n ≤ 1 := by
      simp only [St.weight, St.held, List.map_append, List.count_append] at hw; omega
    have := take_call hc h1
    have e : (if b = true then Frame.process :: s.stack else s.stack).flatMap Frame.ctxs = s.stack.flatMap Frame.ctxs := by split <;> simp [Frame.ctxs]
    simp only [St.enter, List.flatMap_cons, Frame.ctxs, List.nil_append, e]
    rw [List.append_assoc, List.append_assoc, ← List.cons_append]
    exact this.append_right _
  · split
    · exact .skip (.refl _) (List.Sublist.refl _) rfl rfl rfl rfl rfl rfl rfl
    · exact failRequest_keeps s _ st _ hn (by simp [Frame.ctxs])

theorem failed_keeps (s : St) (rest : List Frame) (hr : rest.flatMap Frame.ctxs = s.stack.flatMap Frame.ctxs) : Keeps s (s.connectionFailed rest) none :=
  .skip (by simp [St.connectionFailed, St.down, St.dropH3, Frame.ctxs, hr]) (List.Sublist.refl _) rfl rfl rfl rfl rfl rfl rfl

/-- The number of the request that a choice makes. -/
def newCall (s : St) : Choice → Option Nat
  | .call (.push _) => some (s.total + 1)
  | _ => none

theorem doCall_keeps (s : St) (c : Call) (hn : (s.active.map (·.stream)).Nodup) (hw : ∀ n, s.weight n ≤ 1) : Keeps s (s.doCall c) (newCall s (.call c)) := by
  cases c with
  | push v => exact push_keeps s v
  | connect b =>
    unfold St.doCall
    simp only
    split
    · have h0 : Keeps s { s with nextCb := s.nextCb + 1 } none := .skip (.refl _) (List.Sublist.refl _) rfl rfl rfl rfl rfl rfl rfl
      exact h0.trans_skip (connect_keeps _ _ _ rfl)
    · exact connect_keeps s _ _ rfl
  | cancel n => exact giveUp_keeps s n 499 false hn (hw n)
  | disconnect => exact .skip (by simp [St.doCall, Frame.ctxs]) (List.Sublist.refl _) rfl rfl rfl rfl rfl rfl rfl

theorem doEvent_keeps (s : St) (e : Event) (s' : St) (hn : (s.active.map (·.stream)).Nodup) (h : s.doEvent e = some s') : Keeps s s' none := by
  cases e with
  | connected ok =>
    simp only [St.doEvent] at h
    split at h
    · cases h
    split at h
    · cases h; exact .skip (by simp [Frame.ctxs]) (List.Sublist.refl _) rfl rfl rfl rfl rfl rfl rfl
    · cases h; exact failed_keeps s _ rfl
  | closed =>
    simp only [St.doEvent] at h
    split at h <;> cases h
    · exact .skip (.refl _) (List.Sublist.refl _) rfl rfl rfl rfl rfl rfl rfl
    · exact failed_keeps s _ (by simp [Frame.ctxs])
  | data =>
    simp only [St.doEvent] at h
    split at h <;> cases h
    · exact .skip (.refl _) (List.Sublist.refl _) rfl rfl rfl rfl rfl rfl rfl
    · exact .skip (by simp [Frame.ctxs]) (List.Sublist.refl _) rfl rfl rfl rfl rfl rfl rfl
  | streamClosed sid =>
    simp only [St.doEvent, Option.some.injEq] at h; subst h
    exact failRequest_keeps s sid 503 _ hn rfl

theorem doCallback_keeps (s : St) (k : Nat) (c : Callback) (hn : (s.active.map (·.stream)).Nodup) : Keeps s (s.doCallback k c) none := by
  cases c with
  | response sid =>
    simp only [St.doCallback]
    split
    · exact .skip (.refl _) (List.Sublist.refl _) rfl rfl rfl rfl rfl rfl rfl
    · next c hc =>
      refine .done (c := c) (o := .response k sid) ?_ (List.filter_sublist) rfl rfl (.inl ⟨⟨_, _, rfl⟩, rfl, rfl⟩) rfl
      have := take_stream hc hn
      simp only [St.enter, List.flatMap_cons, Frame.ctxs, List.nil_append]
      exact ((List.Perm.append_left s.pending this).trans List.perm_middle).append_right _
  | shutdown => exact .skip (by simp [St.doCallback, Frame.ctxs]) (List.Sublist.refl _) rfl rfl rfl rfl rfl rfl rfl

theorem runFrame_keeps (s : St) (out : Bool) (f : Frame) (rest : List Frame) (hs : s.stack = f :: rest) (hn : (s.active.map (·.stream)).Nodup) :
    Keeps s (s.runFrame out rest f) none := by
  cases f with
  | user => exact .skip (.refl _) (List.Sublist.refl _) rfl rfl rfl rfl rfl rfl rfl
  | io => exact .skip (by simp [St.runFrame, hs, Frame.ctxs]) (List.Sublist.refl _) rfl rfl rfl rfl rfl rfl rfl
  | start =>
    simp only [St.runFrame]
    split
    · exact .skip (by simp [hs, Frame.ctxs]) (List.Sublist.refl _) rfl rfl rfl rfl rfl rfl rfl
    · exact failed_keeps s _ (by simp [hs, Frame.ctxs])
  | bind => exact .skip (by simp [St.runFrame, hs, Frame.ctxs]) (List.Sublist.refl _) rfl rfl rfl rfl rfl rfl rfl
  | process =>
    simp only [St.runFrame]
    split <;> exact .skip (by simp [hs, Frame.ctxs]) (List.Sublist.refl _) rfl rfl rfl rfl rfl rfl rfl
  | procLoop =>
    simp only [St.runFrame]
    split
    · exact .skip (by simp [hs, Frame.ctxs]) (List.Sublist.refl _) rfl rfl rfl rfl rfl rfl rfl
    next c ps hp =>
    split
    · exact .skip (by simp [hs, Frame.ctxs]) (List.Sublist.refl _) rfl rfl rfl rfl rfl rfl rfl
    split
    · exact .skip (by simp [hs, Frame.ctxs]) (List.Sublist.refl _) rfl rfl rfl rfl rfl rfl rfl
    split
    · exact .skip (.refl _) (List.Sublist.refl _) rfl rfl rfl rfl rfl rfl rfl
    · -- the context gets the numbers of the stream, its call stays
      have hh : ∀ n, (St.held { s with pending := ps, nextStream := s.nextStream + 4, stack := .submit { c with conn := s.conn, stream := s.nextStream } :: rest }).count n = s.held.count n := by
        intro n
        simp only [St.held, hs, hp, List.map_append, List.count_append, List.flatMap_cons, Frame.ctxs, List.map_cons, List.count_cons, List.map_nil, List.count_nil]
        omega
      have hl : (St.held { s with pending := ps, nextStream := s.nextStream + 4, stack := .submit { c with conn := s.conn, stream := s.nextStream } :: rest }).length = s.held.length := by
        simp only [St.held, hs, hp, List.map_append, List.length_append, List.flatMap_cons, Frame.ctxs, List.map_cons, List.length_cons, List.map_nil, List.length_nil]
        omega
      refine ⟨fun n => ?_, rfl, fun h => h, fun h => ⟨?_, h.ok, h.err⟩⟩
      · unfold St.weight; rw [hh]; simp
      · rw [hl]; exact h.total
  | submit c =>
    simp only [St.runFrame]
    split
    · split
      · refine ⟨fun n => ?_, rfl, fun h => h, fun h => ⟨?_, ?_, ?_⟩⟩
        · simp only [St.weight, St.held, hs, completions, List.filterMap_cons, List.map_append, List.count_append, List.flatMap_cons, Frame.ctxs, List.map_cons,
            List.map_nil, List.count_cons, List.count_nil, List.nil_append]
          simp; omega
        · have := h.total
          simp only [St.held, hs, List.map_append, List.length_append, List.flatMap_cons, Frame.ctxs, List.map_cons, List.length_cons, List.map_nil, List.length_nil, List.nil_append] at this ⊢
          omega
        · simpa [answered] using h.ok
        · simpa [refused] using h.err
      · next hx =>
        refine ⟨fun n => ?_, rfl, fun h => ?_, fun h => ⟨?_, ?_, ?_⟩⟩
        · simp only [St.weight, St.held, hs, completions, List.filterMap_cons, List.map_append, List.count_append, List.flatMap_cons, Frame.ctxs, List.map_cons,
            List.map_nil, List.count_cons, List.count_nil, List.nil_append]
          simp; omega
        · simp only [List.map_append, List.map_cons, List.map_nil]
          rw [List.nodup_append]
          refine ⟨h, by simp, fun a ha b hb => ?_⟩
          simp only [List.mem_singleton] at hb
          subst hb
          obtain ⟨d, hd, rfl⟩ := List.mem_map.1 ha
          intro e
          simp only [List.any_eq_true, beq_iff_eq, not_exists, not_and] at hx
          exact hx d hd e
        · have := h.total
          simp only [St.held, hs, List.map_append, List.length_append, List.flatMap_cons, Frame.ctxs, List.map_cons, List.length_cons, List.map_nil, List.length_nil, List.nil_append] at this ⊢
          omega
        · simpa [answered] using h.ok
        · simpa [refused] using h.err
    · exact .skip (by simp [hs, Frame.ctxs]) (List.Sublist.refl _) rfl rfl rfl rfl rfl rfl rfl
  | reset c =>
    refine .done (c := c) (o := .error 503) ?_ (List.Sublist.refl _) rfl rfl (.inr ⟨⟨_, rfl⟩, rfl, rfl⟩) rfl
    simp only [St.runFrame, St.enter, hs, List.flatMap_cons, Frame.ctxs, List.nil_append]
    exact List.perm_middle
  | failList cs =>
    simp only [St.runFrame]
    split
    · exact .skip (by simp [hs, Frame.ctxs]) (List.Sublist.refl _) rfl rfl rfl rfl rfl rfl rfl
    · next c cs =>
      refine .done (c := c) (o := .error 503) ?_ (List.Sublist.refl _) rfl rfl (.inr ⟨⟨_, rfl⟩, rfl, rfl⟩) rfl
      simp only [St.enter, hs, List.flatMap_cons, Frame.ctxs, List.nil_append]
      exact List.perm_middle
  | failAll =>
    refine .skip ?_ (List.nil_sublist _) rfl rfl rfl rfl rfl rfl rfl
    simp only [St.runFrame, hs, List.flatMap_cons, Frame.ctxs, List.nil_append]
    exact List.Perm.append_right _ List.perm_append_comm
  | discEnd => exact .skip (by simp [St.runFrame, St.down, St.dropH3, hs, Frame.ctxs]) (List.Sublist.refl _) rfl rfl rfl rfl rfl rfl rfl
  | connLoop cbs ok =>
    simp only [St.runFrame]
    split
    · exact .skip (by simp [hs, Frame.ctxs]) (List.Sublist.refl _) rfl rfl rfl rfl rfl rfl rfl
    · exact .skip (by simp [St.enter, hs, Frame.ctxs]) (List.Sublist.refl _) rfl rfl rfl rfl rfl rfl rfl
  | reconnect =>
    simp only [St.runFrame]
    split
    · exact connect_keeps s _ _ (by simp [hs, Frame.ctxs])
    · exact .skip (by simp [hs, Frame.ctxs]) (List.Sublist.refl _) rfl rfl rfl rfl rfl rfl rfl
  | read k =>
    simp only [St.runFrame]
    split
    · exact .skip (by simp [St.connectionFailed, St.down, St.dropH3, hs, Frame.ctxs]) (List.Sublist.refl _) rfl rfl rfl rfl rfl rfl rfl
    · exact .skip (by simp [hs, Frame.ctxs]) (List.Sublist.refl _) rfl rfl rfl rfl rfl rfl rfl
  | shutLoop =>
    simp only [St.runFrame]
    split
    · exact .skip (by simp [hs, Frame.ctxs]) (List.Sublist.refl _) rfl rfl rfl rfl rfl rfl rfl
    · next c ps hp =>
      refine .done (c := c) (o := .error 503) ?_ (List.Sublist.refl _) rfl rfl (.inr ⟨⟨_, rfl⟩, rfl, rfl⟩) rfl
      simp only [St.enter, hs, hp, List.flatMap_cons, Frame.ctxs, List.nil_append, List.cons_append]
      exact List.Perm.refl _

theorem step_keeps (s : St) (ch : Choice) (s' : St) (h : s.step ch = some s') (hn : (s.active.map (·.stream)).Nodup) (hw : ∀ n, s.weight n ≤ 1) :
    Keeps s s' (newCall s ch) := by
  unfold St.step at h
  split at h
  · cases h
  split at h
  · cases h; exact doCall_keeps s _ hn hw
  · exact doEvent_keeps s _ s' hn h
  · next t _ =>
    cases t with
    | connect k =>
      simp only [St.doTimer] at h
      split at h
      · cases h
      split at h
      · cases h; exact .skip (.refl _) (List.Sublist.refl _) rfl rfl rfl rfl rfl rfl rfl
      · cases h
        have h0 : Keeps s { s with trace := .late k s.attempts :: s.trace } none :=
          .skip (.refl _) (List.Sublist.refl _) rfl rfl rfl rfl rfl rfl rfl
        exact h0.trans_skip (failed_keeps _ _ (by simp [Frame.ctxs]))
    | request n =>
      simp only [St.doTimer, Option.some.injEq] at h; subst h
      exact giveUp_keeps s n 408 true hn (hw n)
  · cases h; exact doCall_keeps s _ hn hw
  · next rest hs => cases h; exact .skip (by simp [hs, Frame.ctxs]) (List.Sublist.refl _) rfl rfl rfl rfl rfl rfl rfl
  · cases h
  · cases h; exact doCallback_keeps s _ _ hn
  · split at h
    · exact doEvent_keeps s _ s' hn h
    · cases h
  · cases h; exact runFrame_keeps s _ _ _ (by assumption) hn
  · cases h

/-- What holds of every reachable state. -/
structure Good (s : St) : Prop where
  streams : (s.active.map (·.stream)).Nodup
  weight : ∀ n, s.weight n = if 1 ≤ n ∧ n ≤ s.total then 1 else 0
  sums : Sums s

theorem Good.le {s : St} (h : Good s) (n : Nat) : s.weight n ≤ 1 := by rw [h.weight]; split <;> omega

theorem step_good (s : St) (ch : Choice) (s' : St) (h : s.step ch = some s') (hg : Good s) : Good s' := by
  have hk := step_keeps s ch s' h hg.streams hg.le
  refine ⟨hk.streams hg.streams, fun n => ?_, hk.sums hg.sums⟩
  have h1 := hk.weight n
  have h2 := hg.weight n
  have h3 := hk.total
  revert h1 h2 h3
  cases ch with
  | call c =>
    cases c with
    | push v =>
      simp only [newCall, Option.some.injEq, Option.toList_some, List.length_cons, List.length_nil]
      intro h1 h2 h3
      rw [h1, h2, h3]
      split <;> split <;> split <;> omega
    | _ => simp only [newCall]; intro h1 h2 h3; rw [h1, h2, h3]; simp; congr
  | _ => simp only [newCall]; intro h1 h2 h3; rw [h1, h2, h3]; simp; congr

theorem run_good (s : St) (chs : List Choice) (s' : St) (h : s.run chs = some s') (hg : Good s) : Good s' ∧ s'.total = s.total + pushes chs := by
  induction chs generalizing s with
  | nil => simp [St.run] at h; subst h; exact ⟨hg, by simp [pushes]⟩
  | cons ch chs ih =>
    rw [St.run] at h
    split at h
    · next s1 e =>
      have hk := step_keeps s ch s1 e hg.streams hg.le
      obtain ⟨h1, h2⟩ := ih s1 h (step_good s ch s1 e hg)
      refine ⟨h1, ?_⟩
      rw [h2, hk.total]
      unfold pushes
      rw [List.countP_cons]
      cases ch with
      | call c => cases c <;> simp [newCall] <;> omega
      | _ => simp [newCall]
    · cases h

theorem init_good (auto : Bool) (ms mp : Nat) : Good (St.init auto ms mp) := by
  refine ⟨by simp [St.init], fun n => ?_, ⟨rfl, rfl, rfl⟩⟩
  simp [St.init, St.weight, St.held, completions]
  omega

/-- C160. Whatever the user calls, from outside or from within callbacks, and whatever the endpoint does: a request given to
`push_request` is at every moment completed once, or held once, or destroyed without its callback (see `C160_lost_partial`);
none is completed twice, and none that was not given. -/
theorem C160_at_most_once (auto : Bool) (ms mp : Nat) (chs : List Choice) (s : St) (h : (St.init auto ms mp).run chs = some s) (n : Nat) :
    (completions s.trace).count n + s.held.count n + s.lost.count n = if 1 ≤ n ∧ n ≤ pushes chs then 1 else 0 := by
  obtain ⟨hg, ht⟩ := run_good _ chs s h (init_good auto ms mp)
  have := hg.weight n
  rw [ht] at this
  simpa [St.init, St.weight] using this

/-- C164. The statistics are right at every moment of every history: the number of requests is that of the calls; the successful
and failed ones are those whose callback got a response and an error; and the three numbers differ by the requests that are held
(and those that were destroyed). -/
theorem C164_statistics (auto : Bool) (ms mp : Nat) (chs : List Choice) (s : St) (h : (St.init auto ms mp).run chs = some s) :
    s.total = pushes chs ∧ s.successful = answered s.trace ∧ s.failed = refused s.trace ∧
      s.total = s.successful + s.failed + s.held.length + s.lost.length := by
  obtain ⟨hg, ht⟩ := run_good _ chs s h (init_good auto ms mp)
  exact ⟨by rw [ht]; simp [St.init], hg.sums.ok, hg.sums.err, hg.sums.total⟩

/-- Two requests: one is answered while the other is in the queue, which is then sent and times out. -/
example : ∃ s, (St.init true 1 10).run [.call (.push true), .go true, .call (.push true), .event (.connected true), .go true, .go true, .go true, .go true, .go true, .go true,
      .event .data, .callback (.response 0), .ret, .go true, .go true, .go true, .go true, .go true, .timer (.request 2), .ret, .go true, .go true, .go true] = some s ∧
    completions s.trace = [2, 1] ∧ sends s.trace = [2, 1] ∧ s.stack = [] ∧ (s.total, s.successful, s.failed) = (2, 1, 1) := by
  refine ⟨_, rfl, ?_⟩; decide

end Verif.Cli3
