import Verif.Cli.TheoremsDisconnect

namespace Verif.Cli

/-! ### Connect callbacks -/

/-- The connect callbacks known to the client, wherever they are, the invoked ones included. -/
def St.known (s : St) : List Nat := connects s.trace ++ (s.cbs ++ s.stack.flatMap Frame.waiting)

/-- Every registered connect callback is in exactly one place. -/
def Ledger (s : St) : Prop := ∀ k, s.known.count k = if 1 ≤ k ∧ k < s.nextCb then 1 else 0

/-- A step that leaves the books of connect callbacks alone. -/
def Same (s s' : St) : Prop := s'.nextCb = s.nextCb ∧ ∀ k, s'.known.count k = s.known.count k

theorem same_ledger {s s' : St} (h : Same s s') (hl : Ledger s) : Ledger s' := by
  intro k
  have := hl k
  rw [h.2 k, h.1, this]

@[simp] theorem connects_done (c : Nat) (r : Result) (t : List Ev) : connects (.done c r :: t) = connects t := rfl
@[simp] theorem connects_sent (c k : Nat) (t : List Ev) : connects (.sent c k :: t) = connects t := rfl
@[simp] theorem connects_connected (k : Nat) (ok : Bool) (t : List Ev) : connects (.connected k ok :: t) = k :: connects t := rfl

theorem known_connect (s : St) (cb : Option Nat) (rest : List Frame) (k : Nat) :
    (s.connect cb rest).nextCb = s.nextCb ∧
    (s.connect cb rest).known.count k = (connects s.trace ++ (s.cbs ++ rest.flatMap Frame.waiting)).count k + cb.toList.count k := by
  unfold St.connect
  split
  · split <;> refine ⟨rfl, ?_⟩ <;> simp [St.known, St.enter, Frame.waiting, List.count_cons] <;> omega
  · split <;> refine ⟨rfl, ?_⟩ <;> simp [St.known] <;> omega

theorem same_failActive (s : St) (code : Nat) (rest : List Frame) (k : Nat) :
    (s.failActive code rest).nextCb = s.nextCb ∧
    (s.failActive code rest).known.count k = (connects s.trace ++ (s.cbs ++ rest.flatMap Frame.waiting)).count k := by
  unfold St.failActive
  split <;> refine ⟨rfl, ?_⟩ <;> simp [St.known, St.enter, Frame.waiting]

theorem same_push (s : St) (v : Bool) : Same s (s.push v) := by
  unfold St.push
  simp only []
  split
  · exact ⟨rfl, fun k => by simp [St.known, St.enter, Frame.waiting]⟩
  · by_cases h : s.pending.length + (if s.active.isSome then 1 else 0) ≥ s.maxPending
    · rw [if_pos h]; exact ⟨rfl, fun k => by simp [St.known, St.enter, Frame.waiting]⟩
    · rw [if_neg h]; exact ⟨rfl, fun k => by simp [St.known, Frame.waiting]⟩

theorem same_frame (s : St) (ok : Bool) (rest : List Frame) (f : Frame) (hs : s.stack = f :: rest) (hf : f ≠ .user) :
    Same s (s.runFrame ok rest f) := by
  have hk : ∀ k, s.known.count k = (connects s.trace ++ (s.cbs ++ (f.waiting ++ rest.flatMap Frame.waiting))).count k := by
    intro k; simp [St.known, hs]
  cases f with
  | user => exact absurd rfl hf
  | process =>
    simp only [St.runFrame]
    split
    · exact ⟨rfl, fun k => by rw [hk]; simp [St.known, Frame.waiting]⟩
    · split
      · exact ⟨rfl, fun k => by rw [hk]; simp [St.known, Frame.waiting]⟩
      · split
        · split
          · exact ⟨rfl, fun k => by rw [hk]; simp [St.known, St.enter, Frame.waiting]⟩
          · split
            · exact ⟨(known_connect s none rest 0).1, fun k => by rw [(known_connect s none rest k).2, hk]; simp [Frame.waiting]⟩
            · exact ⟨rfl, fun k => by rw [hk]; simp [St.known, Frame.waiting]⟩
        · split
          · exact ⟨rfl, fun k => by rw [hk]; simp [St.known, Frame.waiting]⟩
          · exact ⟨(same_failActive _ _ _ 0).1, fun k => by rw [(same_failActive _ _ _ k).2, hk]; simp [Frame.waiting]⟩
  | processTail =>
    simp only [St.runFrame]
    split <;> exact ⟨rfl, fun k => by rw [hk]; simp [St.known, Frame.waiting]⟩
  | failActive code =>
    exact ⟨(same_failActive _ _ _ 0).1, fun k => by rw [hk]; simp only [St.runFrame]; rw [(same_failActive _ _ _ k).2]; simp [Frame.waiting]⟩
  | failAll code =>
    simp only [St.runFrame]
    split <;> exact ⟨rfl, fun k => by rw [hk]; simp [St.known, St.enter, Frame.waiting]⟩
  | discEnd =>
    simp only [St.runFrame]
    split <;> exact ⟨rfl, fun k => by rw [hk]; simp [St.known, St.closeConn, Frame.waiting]⟩
  | afterResponse ka =>
    simp only [St.runFrame]
    (split <;> (try split)) <;> exact ⟨rfl, fun k => by rw [hk]; simp [St.known, St.closeConn, Frame.waiting]⟩
  | connLoop cbs okk =>
    simp only [St.runFrame]
    split
    · exact ⟨rfl, fun k => by rw [hk]; simp [St.known, Frame.waiting]⟩
    · exact ⟨rfl, fun k => by rw [hk]; simp [St.known, St.enter, Frame.waiting, List.count_cons]; omega⟩
  | afterConnect =>
    simp only [St.runFrame]
    split <;> exact ⟨rfl, fun k => by rw [hk]; simp [St.known, Frame.waiting]⟩
  | timeoutEnd => exact ⟨rfl, fun k => by rw [hk]; simp [St.known, St.runFrame, St.closeConn, Frame.waiting]⟩
  | afterDisconnected =>
    simp only [St.runFrame]
    (split <;> (try split) <;> (try split)) <;> exact ⟨rfl, fun k => by rw [hk]; simp [St.known, Frame.waiting]⟩

theorem same_event (s : St) (e : Event) (s' : St) (hs : s.stack = []) (h : s.doEvent e = some s') : Same s s' := by
  have hk : ∀ k, s.known.count k = (connects s.trace ++ s.cbs).count k := by
    intro k; simp [St.known, hs]
  cases e <;> simp only [St.doEvent] at h
  case connectOk =>
    split at h <;> (try split at h) <;> cases h
    exact ⟨rfl, fun k => by rw [hk]; simp [St.known, Frame.waiting, hs]⟩
  case connectFailed =>
    split at h <;> (try split at h) <;> cases h
    exact ⟨rfl, fun k => by rw [hk]; simp [St.known, St.connectionFailed, Frame.waiting, hs]⟩
  case response =>
    split at h <;> (try split at h) <;> cases h
    · exact ⟨rfl, fun k => rfl⟩
    · exact ⟨rfl, fun k => by rw [hk]; simp [St.known, St.enter, Frame.waiting, hs]⟩
  case timeout =>
    split at h <;> (try split at h) <;> cases h
    · exact ⟨rfl, fun k => by rw [hk]; simp [St.known, St.connectionFailed, Frame.waiting, hs]⟩
    · exact ⟨rfl, fun k => by rw [hk]; simp [St.known, Frame.waiting, hs]⟩
  case disconnected =>
    split at h <;> cases h
    exact ⟨rfl, fun k => by rw [hk]; simp [St.known, Frame.waiting, hs]⟩
  case socketClosed => cases h; exact ⟨rfl, fun k => rfl⟩
  case pendingTimeout =>
    split at h <;> cases h
    · exact ⟨rfl, fun k => rfl⟩
    · exact ⟨rfl, fun k => by rw [hk]; simp [St.known, St.enter, Frame.waiting, hs]⟩
  case deferredTick => split at h <;> cases h <;> exact ⟨rfl, fun k => rfl⟩
  case reconnect =>
    split at h
    · cases h
    · split at h
      · cases h; exact ⟨rfl, fun k => rfl⟩
      · cases h
        exact ⟨(known_connect _ _ _ 0).1, fun k => by rw [(known_connect _ _ _ k).2, hk]; simp [hs]⟩

/-- The number of connect callbacks registered and where they are, step by step. -/
theorem ledger_step (s : St) (ch : Choice) (s' : St) (h : s.step ch = some s') (hl : Ledger s) (hn : 1 ≤ s.nextCb) :
    Ledger s' ∧ s'.nextCb = s.nextCb + connectCalls [ch] := by
  have call : ∀ c, Ledger (s.doCall c) ∧ (s.doCall c).nextCb = s.nextCb + connectCalls [.call c] := by
    intro c
    cases c with
    | push v => exact ⟨same_ledger (same_push s v) hl, (same_push s v).1⟩
    | connect w =>
      cases w with
      | true =>
        simp only [St.doCall, if_true]
        refine ⟨?_, (known_connect _ _ _ 0).1⟩
        intro k
        rw [(known_connect _ _ _ k).2, (known_connect _ _ _ 0).1]
        have := hl k
        simp only [St.known] at this
        simp only [this, Option.toList, List.count_cons, List.count_nil]
        by_cases e : s.nextCb = k
        · subst e
          simp [hn]
        · have e' : (s.nextCb == k) = false := by simp [e]
          simp only [e', Bool.false_eq_true, if_false]
          by_cases h1 : 1 ≤ k ∧ k < s.nextCb
          · rw [if_pos h1, if_pos (by omega)]
          · rw [if_neg h1, if_neg (by omega)]
      | false =>
        simp only [St.doCall, Bool.false_eq_true, if_false]
        have : Same s (s.connect none s.stack) :=
          ⟨(known_connect _ _ _ 0).1, fun k => by rw [(known_connect _ _ _ k).2]; simp [St.known]⟩
        exact ⟨same_ledger this hl, this.1⟩
    | disconnect =>
      have : Same s s.disconnect := ⟨rfl, fun k => by simp [St.known, St.disconnect, Frame.waiting]⟩
      exact ⟨same_ledger this hl, this.1⟩
  unfold St.step at h
  split at h
  · cases h; exact call _
  · next e => have := same_event s _ _ e h; exact ⟨same_ledger this hl, this.1⟩
  · cases h; exact call _
  · next rest e =>
    cases h
    have : Same s { s with depth := s.depth - 1, stack := rest } := ⟨rfl, fun k => by simp [St.known, e, Frame.waiting]⟩
    exact ⟨same_ledger this hl, this.1⟩
  · cases h
  · next f rest ok hu e =>
    cases h
    have := same_frame s ok rest f e (by rintro rfl; exact hu rfl)
    exact ⟨same_ledger this hl, this.1⟩
  · cases h

theorem ledger_run (s : St) (chs : List Choice) (s' : St) (h : s.run chs = some s') (hl : Ledger s) (hn : 1 ≤ s.nextCb) :
    Ledger s' ∧ s'.nextCb = s.nextCb + connectCalls chs := by
  induction chs generalizing s with
  | nil => simp [St.run] at h; rw [← h]; exact ⟨hl, rfl⟩
  | cons ch chs ih =>
    rw [St.run] at h
    split at h
    · next s1 e =>
      obtain ⟨h1, h2⟩ := ledger_step _ _ _ e hl hn
      obtain ⟨h3, h4⟩ := ih s1 h h1 (by omega)
      have h5 : connectCalls (ch :: chs) = connectCalls [ch] + connectCalls chs := by
        have := List.countP_append (p := fun | Choice.call (.connect true) => true | _ => false) (l₁ := [ch]) (l₂ := chs)
        exact this
      exact ⟨h3, by omega⟩
    · cases h

/-- **C130** A connect callback is invoked at most once, and one that was not invoked yet is kept by
the client (waiting for the outcome of the attempt, or for its turn in the round of callbacks under
way). -/
theorem C130_connect_callbacks (auto : Bool) (m : Nat) (chs : List Choice) (s : St)
    (h : (St.init auto m).run chs = some s) (k : Nat) :
    (connects s.trace).count k + (s.cbs ++ s.stack.flatMap Frame.waiting).count k =
      if 1 ≤ k ∧ k ≤ connectCalls chs then 1 else 0 := by
  have h0 : Ledger (St.init auto m) := by
    intro k
    simp [St.init, St.known, connects]
    omega
  obtain ⟨h1, h2⟩ := ledger_run _ chs s h h0 (by simp [St.init])
  have h3 := h1 k
  simp only [St.known] at h3
  rw [List.count_append] at h3
  have h4 : s.nextCb = 1 + connectCalls chs := h2
  rw [h3]
  by_cases e : 1 ≤ k ∧ k ≤ connectCalls chs
  · rw [if_pos e, if_pos (by omega)]
  · rw [if_neg e, if_neg (by omega)]

/-- **C130** When an attempt ends, well or badly, all the callbacks waiting for it are taken for
invocation, with the outcome of the attempt; none is left behind. -/
theorem C130_outcome (s s' : St) (h : s.doEvent .connectOk = some s' ∨ s.doEvent .connectFailed = some s') :
    s'.cbs = [] ∧ ∃ rest, s'.stack = .connLoop s.cbs (s'.isConnected) :: rest := by
  rcases h with h | h <;> simp only [St.doEvent] at h <;> split at h <;> (try split at h) <;> cases h
  · exact ⟨rfl, _, rfl⟩
  · exact ⟨rfl, _, rfl⟩

/-- Two connect calls during one attempt, both told of the success. -/
theorem C130_example :
    ((St.init true 10).run [.call (.connect true), .call (.connect true), .event .connectOk, .go true, .ret, .go true, .ret]).map
      (fun s => (s.trace, s.cbs)) = some ([.connected 2 true, .connected 1 true], []) := by decide

end Verif.Cli
