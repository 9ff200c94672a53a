import Verif.Cli2.TheoremsRequests

/-! C140: the connect callbacks of the persistent HTTP/2 client. -/

namespace Verif.Cli2

/-- The connect callbacks known to the client, wherever they are, the invoked ones included. -/
def St.known (s : St) : List Nat := connects s.trace ++ (s.cbs ++ s.stack.flatMap Frame.waiting)

/-- Every registered connect callback is in exactly one place. -/
def Ledger (s : St) : Prop := ∀ k, s.known.count k = if 1 ≤ k ∧ k < s.nextCb then 1 else 0

/-- A step that leaves the books of connect callbacks alone. -/
def Same (s s' : St) : Prop := s'.nextCb = s.nextCb ∧ ∀ k, s'.known.count k = s.known.count k

theorem same_ledger {s s' : St} (h : Same s s') (hl : Ledger s) : Ledger s' := by
  intro k
  have := hl k
  rw [h.2 k, h.1, this]

@[simp] theorem connects_done (c : Nat) (r : Outcome) (t : List Ev) : connects (.done c r :: t) = connects t := rfl
@[simp] theorem connects_sent (c k st : Nat) (t : List Ev) : connects (.sent c k st :: t) = connects t := rfl
@[simp] theorem connects_up (t : List Ev) : connects (.up :: t) = connects t := rfl
@[simp] theorem connects_goaway (k : Nat) (t : List Ev) : connects (.goaway k :: t) = connects t := rfl
@[simp] theorem connects_connected (k : Nat) (ok : Bool) (t : List Ev) : connects (.connected k ok :: t) = k :: connects t := rfl

theorem known_connect (s : St) (cb : Option Nat) (rest : List Frame) (k : Nat) :
    (s.connect cb rest).nextCb = s.nextCb ∧
    (s.connect cb rest).known.count k = (connects s.trace ++ (s.cbs ++ rest.flatMap Frame.waiting)).count k + cb.toList.count k := by
  unfold St.connect
  split
  · split <;> refine ⟨rfl, ?_⟩ <;> simp [St.known, St.enter, Frame.waiting, List.count_cons] <;> omega
  · split <;> refine ⟨rfl, ?_⟩ <;> simp [St.known] <;> omega

theorem same_failRequest (s : St) (a b : Nat) (rest : List Frame) (k : Nat) :
    (s.failRequest a b rest).nextCb = s.nextCb ∧
    (s.failRequest a b rest).known.count k = (connects s.trace ++ (s.cbs ++ rest.flatMap Frame.waiting)).count k := by
  unfold St.failRequest
  split <;> refine ⟨rfl, ?_⟩ <;> simp [St.known, St.enter, Frame.waiting]

theorem same_push (s : St) (v : Bool) : Same s (s.push v) := by
  unfold St.push
  simp only []
  split
  · exact ⟨rfl, fun k => by simp [St.known, St.enter, Frame.waiting]⟩
  · split
    · exact ⟨rfl, fun k => by simp [St.known, St.enter, Frame.waiting]⟩
    · split
      · exact ⟨rfl, fun k => by simp [St.known, Frame.waiting]⟩
      · split
        · exact ⟨(known_connect _ _ _ 0).1, fun k => by rw [(known_connect _ _ _ k).2]; simp [St.known]⟩
        · exact ⟨rfl, fun k => by simp [St.known]⟩

theorem same_frame (s : St) (out : Send) (rest : List Frame) (f : Frame) (hs : s.stack = f :: rest) (hf : f ≠ .user) :
    Same s (s.runFrame out rest f) := by
  have hk : ∀ k, s.known.count k = (connects s.trace ++ (s.cbs ++ (f.waiting ++ rest.flatMap Frame.waiting))).count k := by
    intro k; simp [St.known, hs]
  cases f with
  | user => exact absurd rfl hf
  | connLoop cbs okk =>
    simp only [St.runFrame]
    split
    · exact ⟨rfl, fun k => by rw [hk]; simp [St.known, Frame.waiting]⟩
    · exact ⟨rfl, fun k => by rw [hk]; simp [St.known, St.enter, Frame.waiting, List.count_cons]; omega⟩
  | reconnect =>
    simp only [St.runFrame]
    split
    · exact ⟨(known_connect s none rest 0).1, fun k => by rw [(known_connect s none rest k).2, hk]; simp [Frame.waiting]⟩
    · exact ⟨rfl, fun k => by rw [hk]; simp [St.known, Frame.waiting]⟩
  | timeoutStreams ss =>
    simp only [St.runFrame]
    split
    · exact ⟨rfl, fun k => by rw [hk]; simp [St.known, Frame.waiting]⟩
    · exact ⟨(same_failRequest _ _ _ _ 0).1, fun k => by rw [(same_failRequest _ _ _ _ k).2, hk]; simp [Frame.waiting]⟩
  | sendLoop =>
    simp only [St.runFrame]
    (split <;> (try split) <;> (try split) <;> (try split)) <;>
      exact ⟨rfl, fun k => by rw [hk]; simp [St.known, hs, Frame.waiting]⟩
  | timeoutEnd late =>
    simp only [St.runFrame]
    split <;> exact ⟨rfl, fun k => by rw [hk]; simp [St.known, St.connectionFailed, St.down, Frame.waiting]⟩
  | afterComplete =>
    simp only [St.runFrame]
    split <;> exact ⟨rfl, fun k => by rw [hk]; simp [St.known, Frame.waiting]⟩
  | _ =>
    simp only [St.runFrame]
    (try split) <;> (try split) <;> (try split) <;>
      exact ⟨rfl, fun k => by rw [hk]; simp [St.known, St.enter, St.failAll, St.down, Frame.waiting]⟩

theorem same_event (s : St) (e : Event) (s' : St) (hs : s.stack = []) (h : s.doEvent e = some s') : Same s s' := by
  have hk : ∀ k, s.known.count k = (connects s.trace ++ s.cbs).count k := by
    intro k; simp [St.known, hs]
  cases e <;> simp only [St.doEvent] at h
  case streamError st =>
    cases h
    exact ⟨(same_failRequest _ _ _ _ 0).1, fun k => by rw [(same_failRequest _ _ _ _ k).2]; simp [St.known]⟩
  all_goals
    (try split at h) <;> (try split at h) <;> cases h <;>
      first
      | exact ⟨rfl, fun k => rfl⟩
      | exact ⟨rfl, fun k => by rw [hk]; simp [St.known, St.enter, St.connectionFailed, St.down, Frame.waiting, hs]⟩

/-- The number of connect callbacks registered and where they are, step by step. -/
theorem ledger_step (s : St) (ch : Choice) (s' : St) (h : s.step ch = some s') (hl : Ledger s) (hn : 1 ≤ s.nextCb) :
    Ledger s' ∧ s'.nextCb = s.nextCb + connectCalls [ch] := by
  have call : ∀ c, Ledger (s.doCall c) ∧ (s.doCall c).nextCb = s.nextCb + connectCalls [.call c] := by
    intro c
    cases c with
    | push v => exact ⟨same_ledger (same_push s v) hl, (same_push s v).1⟩
    | connect w =>
      cases w with
      | true =>
        simp only [St.doCall, if_true]
        refine ⟨?_, (known_connect _ _ _ 0).1⟩
        intro k
        rw [(known_connect _ _ _ k).2, (known_connect _ _ _ 0).1]
        have := hl k
        simp only [St.known] at this
        simp only [this, Option.toList, List.count_cons, List.count_nil]
        by_cases e : s.nextCb = k
        · subst e
          simp [hn]
        · have e' : (s.nextCb == k) = false := by simp [e]
          simp only [e', Bool.false_eq_true, if_false]
          by_cases h1 : 1 ≤ k ∧ k < s.nextCb
          · rw [if_pos h1, if_pos (by omega)]
          · rw [if_neg h1, if_neg (by omega)]
      | false =>
        simp only [St.doCall, Bool.false_eq_true, if_false]
        have : Same s (s.connect none s.stack) :=
          ⟨(known_connect _ _ _ 0).1, fun k => by rw [(known_connect _ _ _ k).2]; simp [St.known]⟩
        exact ⟨same_ledger this hl, this.1⟩
    | disconnect =>
      have : Same s (s.doCall .disconnect) := ⟨rfl, fun k => by simp [St.known, St.doCall, Frame.waiting]⟩
      exact ⟨same_ledger this hl, this.1⟩
  unfold St.step at h
  split at h
  · cases h
  split at h
  · cases h; exact call _
  · next e => have := same_event s _ _ e h; exact ⟨same_ledger this hl, this.1⟩
  · cases h; exact call _
  · next rest e =>
    cases h
    have : Same s { s with stack := rest } := ⟨rfl, fun k => by simp [St.known, e, Frame.waiting]⟩
    exact ⟨same_ledger this hl, this.1⟩
  · cases h
  · next f rest ok hu e =>
    cases h
    have := same_frame s ok rest f e (by rintro rfl; exact hu rfl)
    exact ⟨same_ledger this hl, this.1⟩
  · cases h

theorem ledger_run (s : St) (chs : List Choice) (s' : St) (h : s.run chs = some s') (hl : Ledger s) (hn : 1 ≤ s.nextCb) :
    Ledger s' ∧ s'.nextCb = s.nextCb + connectCalls chs := by
  induction chs generalizing s with
  | nil => simp [St.run] at h; rw [← h]; exact ⟨hl, rfl⟩
  | cons ch chs ih =>
    rw [St.run] at h
    split at h
    · next s1 e =>
      obtain ⟨h1, h2⟩ := ledger_step _ _ _ e hl hn
      obtain ⟨h3, h4⟩ := ih s1 h h1 (by omega)
      have h5 : connectCalls (ch :: chs) = connectCalls [ch] + connectCalls chs := by
        have := List.countP_append (p := fun | Choice.call (.connect true) => true | _ => false) (l₁ := [ch]) (l₂ := chs)
        exact this
      exact ⟨h3, by omega⟩
    · cases h

/-- **C140** A connect callback is invoked at most once, and one that was not invoked yet is kept by
the client (waiting for the outcome of the attempt, or for its turn in the round of callbacks under
way). -/
theorem C140_connect_callbacks (auto : Bool) (ms mp : Nat) (chs : List Choice) (s : St)
    (h : (St.init auto ms mp).run chs = some s) (k : Nat) :
    (connects s.trace).count k + (s.cbs ++ s.stack.flatMap Frame.waiting).count k =
      if 1 ≤ k ∧ k ≤ connectCalls chs then 1 else 0 := by
  have h0 : Ledger (St.init auto ms mp) := by
    intro k
    simp [St.init, St.known, connects]
    omega
  obtain ⟨h1, h2⟩ := ledger_run _ chs s h h0 (by simp [St.init])
  have h3 := h1 k
  simp only [St.known] at h3
  rw [List.count_append] at h3
  have h4 : s.nextCb = 1 + connectCalls chs := h2
  rw [h3]
  by_cases e : 1 ≤ k ∧ k ≤ connectCalls chs
  · rw [if_pos e, if_pos (by omega)]
  · rw [if_neg e, if_neg (by omega)]

/-- **C140** When an attempt ends, well or badly, all the callbacks waiting are taken for invocation, with
the outcome of the attempt; none is left behind. -/
theorem C140_outcome (s s' : St) (ok : Bool) (h : s.doEvent (.handshake ok) = some s' ∨ (ok = false ∧ s.doEvent (.connector ok) = some s')) :
    s'.cbs = [] ∧ s'.isConnected = ok ∧ ∃ rest, s'.stack = .connLoop s.cbs ok :: rest := by
  rcases h with h | ⟨rfl, h⟩
  · cases ok <;> simp only [St.doEvent] at h <;> split at h <;> cases h <;> exact ⟨rfl, rfl, _, rfl⟩
  · simp only [St.doEvent] at h
    split at h <;> cases h
    exact ⟨rfl, rfl, _, rfl⟩

/-- A loss of the connection during an attempt tells the callbacks waiting for the attempt. -/
theorem C140_lost (s s' : St) (hc : s.isConnecting = true) (h : s.doEvent .disconnected = some s') :
    s'.cbs = [] ∧ (s.cbs ≠ [] → ∃ rest, s'.stack = .connLoop s.cbs false :: rest) := by
  simp only [St.doEvent, hc, Bool.true_and] at h
  split at h <;> cases h
  · exact ⟨rfl, fun _ => ⟨_, rfl⟩⟩
  · next he =>
    have : s.cbs = [] := by simpa using he
    exact ⟨this, fun hne => absurd this hne⟩

/-- Two connect calls during one attempt, both told of the success. -/
theorem C140_example :
    ((St.init true 10 10).run [.call (.connect true), .call (.connect true), .event (.connector true), .event (.handshake true),
      .go .refused, .ret, .go .refused, .ret]).map (fun s => (s.trace, s.cbs)) =
      some ([.connected 2 true, .connected 1 true, .up], []) := by decide

/-- `disconnect()` during an attempt says nothing to the connect callbacks, and does not stop the attempt
either: the connection is established later all the same, and the callback is told of success then. -/
theorem C140_disconnect_does_not_cancel :
    (((St.init true 10 10).run [.call (.connect true), .call .disconnect, .go .refused, .go .refused, .go .refused]).map
      (fun s => (s.stack, s.trace, s.cbs, s.isConnecting)) = some ([], [], [1], false)) ∧
    ((St.init true 10 10).run [.call (.connect true), .call .disconnect, .go .refused, .go .refused, .go .refused, .event (.connector true),
      .event (.handshake true), .go .refused, .ret]).map (fun s => (s.trace, s.isConnected)) =
      some ([.connected 1 true, .up], true) := by decide

end Verif.Cli2
