import Verif.Cli3.Lemmas

/-! C163: the callbacks given to `connect`. -/

namespace Verif.Cli3

/-- Invocations and waits of the callback `k`. -/
def St.cweight (s : St) (k : Nat) : Nat := (connects s.trace).count k + s.waiting.count k

theorem cw_eq {s s' : St} (hw : ∀ k, s'.waiting.count k = s.waiting.count k) (ht : connects s'.trace = connects s.trace) (k : Nat) : s'.cweight k = s.cweight k := by
  unfold St.cweight; rw [hw, ht]

theorem connect_cw (s : St) (cb : Option Nat) (rest : List Frame) (hr : rest.flatMap Frame.waiting = s.stack.flatMap Frame.waiting) (k : Nat) :
    (s.connect cb rest).cweight k = s.cweight k + if cb = some k then 1 else 0 := by
  unfold St.connect St.cweight St.waiting
  split
  · split
    · simp [St.enter, connects, Frame.waiting, hr, List.count_cons]; split <;> omega
    · simp [hr]
  · split
    · cases cb <;> simp [hr, List.count_cons]; split <;> omega
    · cases cb <;> simp [hr, Frame.waiting, List.count_cons]; split <;> omega

theorem connect_next (s : St) (cb : Option Nat) (rest : List Frame) : (s.connect cb rest).nextCb = s.nextCb := by
  unfold St.connect; repeat' split
  all_goals rfl

theorem failed_cw (s : St) (rest : List Frame) (hr : rest.flatMap Frame.waiting = s.stack.flatMap Frame.waiting) (k : Nat) :
    (s.connectionFailed rest).cweight k = s.cweight k :=
  cw_eq (fun k => by simp [St.waiting, St.connectionFailed, St.down, St.dropH3, Frame.waiting, hr]) (by rfl) k

theorem failRequest_cw (s : St) (sid st : Nat) (rest : List Frame) (hr : rest.flatMap Frame.waiting = s.stack.flatMap Frame.waiting) (k : Nat) :
    (s.failRequest sid st rest).cweight k = s.cweight k ∧ (s.failRequest sid st rest).nextCb = s.nextCb := by
  unfold St.failRequest
  split
  · exact ⟨cw_eq (fun k => by simp [St.waiting, hr]) (by rfl) k, rfl⟩
  · exact ⟨cw_eq (fun k => by simp [St.waiting, St.enter, Frame.waiting, hr]) (by simp [St.enter, connects]) k, rfl⟩

theorem giveUp_cw (s : St) (n st : Nat) (b : Bool) (k : Nat) : (s.giveUp n st b).cweight k = s.cweight k ∧ (s.giveUp n st b).nextCb = s.nextCb := by
  unfold St.giveUp
  split
  · refine ⟨cw_eq (fun k => ?_) (by simp [St.enter, connects]) k, rfl⟩
    cases b <;> simp [St.waiting, St.enter, Frame.waiting]
  · split
    · exact ⟨rfl, rfl⟩
    · exact failRequest_cw s _ st _ (by simp [Frame.waiting]) k

theorem push_cw (s : St) (v : Bool) (k : Nat) : (s.push v).cweight k = s.cweight k ∧ (s.push v).nextCb = s.nextCb := by
  unfold St.push
  simp only
  split
  · exact ⟨cw_eq (fun k => by simp [St.waiting, St.enter, Frame.waiting]) (by simp [St.enter, connects]) k, rfl⟩
  split
  · exact ⟨cw_eq (fun k => by simp [St.waiting, St.enter, Frame.waiting]) (by simp [St.enter, connects]) k, rfl⟩
  split
  · exact ⟨cw_eq (fun k => by simp [St.waiting, St.enter, Frame.waiting]) (by simp [St.enter, connects]) k, rfl⟩
  split
  · exact ⟨cw_eq (fun k => by simp [St.waiting, Frame.waiting]) (by rfl) k, rfl⟩
  split
  · refine ⟨?_, by rw [connect_next]⟩
    rw [connect_cw _ _ _ rfl]
    simp [St.cweight, St.waiting]
  · exact ⟨rfl, rfl⟩

/-- The connect callback that a choice brings. -/
def newCb (s : St) : Choice → Option Nat
  | .call (.connect true) => some s.nextCb
  | _ => none

theorem step_cw {s : St} {ch : Choice} {s' : St} (h : s.step ch = some s') (k : Nat) :
    s'.cweight k = s.cweight k + (if newCb s ch = some k then 1 else 0) ∧ s'.nextCb = s.nextCb + (newCb s ch).toList.length := by
  cases (step_cases h).2 with
  | call c hs =>
    cases c with
    | push v => simpa [St.doCall, newCb] using push_cw s v k
    | connect b =>
      cases b
      · refine ⟨?_, ?_⟩
        · simp only [St.doCall, newCb, Bool.false_eq_true, if_false]; rw [connect_cw s none _ rfl]; simp
        · simp [St.doCall, newCb, connect_next]
      · refine ⟨?_, ?_⟩
        · simp only [St.doCall, newCb, if_true]; rw [connect_cw _ _ _ rfl]; simp [St.cweight, St.waiting]
        · simp [St.doCall, newCb, connect_next]
    | cancel n => simpa [St.doCall, newCb] using giveUp_cw s n 499 false k
    | disconnect => exact ⟨cw_eq (fun k => by simp [St.doCall, St.waiting, Frame.waiting]) (by rfl) k, rfl⟩
  | event e _ he hs =>
    cases e with
    | connected ok =>
      simp only [St.doEvent] at he
      split at he
      · cases he
      split at he
      · cases he; exact ⟨cw_eq (fun k => by simp [St.waiting, Frame.waiting]) (by rfl) k, rfl⟩
      · cases he; exact ⟨failed_cw s _ rfl k, rfl⟩
    | closed =>
      simp only [St.doEvent] at he
      split at he <;> cases he
      · exact ⟨rfl, rfl⟩
      · exact ⟨failed_cw s _ (by simp [Frame.waiting]) k, rfl⟩
    | data =>
      simp only [St.doEvent] at he
      split at he <;> cases he
      · exact ⟨rfl, rfl⟩
      · exact ⟨cw_eq (fun k => by simp [St.waiting, Frame.waiting]) (by rfl) k, rfl⟩
    | streamClosed sid =>
      simp only [St.doEvent, Option.some.injEq] at he; subst he
      simpa [newCb] using failRequest_cw s sid 503 _ rfl k
  | timer t _ he hs =>
    cases t with
    | connect j =>
      simp only [St.doTimer] at he
      split at he
      · cases he
      split at he
      · cases he; exact ⟨rfl, rfl⟩
      · cases he
        refine ⟨?_, rfl⟩
        rw [failed_cw _ _ (by simp [Frame.waiting])]
        exact cw_eq (fun k => rfl) (by simp [connects]) k
    | request n =>
      simp only [St.doTimer, Option.some.injEq] at he; subst he
      simpa [newCb] using giveUp_cw s n 408 true k
  | ret r hs => exact ⟨cw_eq (fun k => by simp [St.waiting, hs, Frame.waiting]) (by rfl) k, rfl⟩
  | callback c j r hs =>
    cases c with
    | response sid =>
      simp only [St.doCallback]
      split
      · exact ⟨rfl, rfl⟩
      · exact ⟨cw_eq (fun k => by simp [St.waiting, St.enter, Frame.waiting]) (by simp [St.enter, connects]) k, rfl⟩
    | shutdown => exact ⟨cw_eq (fun k => by simp [St.doCallback, St.waiting, Frame.waiting]) (by rfl) k, rfl⟩
  | go f r out hs hf =>
    have skip : ∀ t : St, (∀ k, t.waiting.count k = s.waiting.count k) → connects t.trace = connects s.trace → t.nextCb = s.nextCb →
        t.cweight k = s.cweight k + (if newCb s (.go out) = some k then 1 else 0) ∧ t.nextCb = s.nextCb + (newCb s (.go out)).toList.length := by
      intro t h1 h2 h3
      exact ⟨by rw [cw_eq h1 h2]; simp [newCb], by rw [h3]; simp [newCb]⟩
    cases f with
    | user => exact absurd rfl hf
    | io => exact skip _ (by simp [St.runFrame, St.waiting, hs, Frame.waiting]) (by rfl) (by rfl)
    | start =>
      simp only [St.runFrame]
      split
      · exact skip _ (by simp [St.waiting, hs, Frame.waiting]) (by rfl) (by rfl)
      · exact ⟨failed_cw s _ (by simp [hs, Frame.waiting]) k, rfl⟩
    | bind => exact skip _ (by simp [St.runFrame, St.waiting, hs, Frame.waiting]) (by rfl) (by rfl)
    | process => simp only [St.runFrame]; split <;> exact skip _ (by simp [St.waiting, hs, Frame.waiting]) (by rfl) (by rfl)
    | procLoop =>
      refine skip (s.runFrame out r .procLoop) ?_ ?_ ?_ <;> simp only [St.runFrame] <;> (repeat' split) <;> simp [St.waiting, hs, Frame.waiting, connects]
    | submit c =>
      refine skip (s.runFrame out r (.submit c)) ?_ ?_ ?_ <;> simp only [St.runFrame] <;> (repeat' split) <;> simp [St.waiting, hs, Frame.waiting, connects]
    | reset c => exact skip _ (by simp [St.runFrame, St.enter, St.waiting, hs, Frame.waiting]) (by simp [St.runFrame, St.enter, connects]) (by rfl)
    | failList cs =>
      simp only [St.runFrame]
      split
      · exact skip _ (by simp [St.waiting, hs, Frame.waiting]) (by rfl) (by rfl)
      · exact skip _ (by simp [St.enter, St.waiting, hs, Frame.waiting]) (by simp [St.enter, connects]) (by rfl)
    | failAll => exact skip _ (by simp [St.runFrame, St.waiting, hs, Frame.waiting]) (by rfl) (by rfl)
    | discEnd => exact skip _ (by simp [St.runFrame, St.down, St.dropH3, St.waiting, hs, Frame.waiting]) (by rfl) (by rfl)
    | connLoop cbs ok =>
      simp only [St.runFrame]
      split
      · exact skip _ (by simp [St.waiting, hs, Frame.waiting]) (by rfl) (by rfl)
      · refine ⟨?_, rfl⟩
        simp [St.cweight, St.enter, St.waiting, hs, Frame.waiting, connects, newCb, List.count_cons]
        omega
    | reconnect =>
      simp only [St.runFrame]
      split
      · refine ⟨?_, by rw [connect_next]; rfl⟩
        rw [connect_cw s none _ (by simp [hs, Frame.waiting])]; simp [newCb]
      · exact skip _ (by simp [St.waiting, hs, Frame.waiting]) (by rfl) (by rfl)
    | read j =>
      simp only [St.runFrame]
      split
      · exact skip _ (by simp [St.connectionFailed, St.down, St.dropH3, St.waiting, hs, Frame.waiting]) (by rfl) (by rfl)
      · exact skip _ (by simp [St.waiting, hs, Frame.waiting]) (by rfl) (by rfl)
    | shutLoop =>
      simp only [St.runFrame]
      split
      · exact skip _ (by simp [St.waiting, hs, Frame.waiting]) (by rfl) (by rfl)
      · exact skip _ (by simp [St.enter, St.waiting, hs, Frame.waiting]) (by simp [St.enter, connects]) (by rfl)

theorem run_cw (s : St) (chs : List Choice) (s' : St) (h : s.run chs = some s')
    (hc : 1 ≤ s.nextCb ∧ ∀ k, s.cweight k = if 1 ≤ k ∧ k < s.nextCb then 1 else 0) :
    (∀ k, s'.cweight k = if 1 ≤ k ∧ k < s'.nextCb then 1 else 0) ∧ s'.nextCb = s.nextCb + connectCalls chs := by
  induction chs generalizing s with
  | nil => simp [St.run] at h; subst h; exact ⟨hc.2, by simp [connectCalls]⟩
  | cons ch chs ih =>
    rw [St.run] at h
    split at h
    · next s1 e =>
      have hn : s1.nextCb = s.nextCb + (newCb s ch).toList.length := (step_cw e 0).2
      have hk : newCb s ch = none ∨ newCb s ch = some s.nextCb := by unfold newCb; split <;> simp
      obtain ⟨h1, h2⟩ := ih s1 h ⟨by omega, fun k => by
        have h0 := hc.1
        have e1 := (step_cw e k).1
        have e2 := hc.2 k
        have e3 : s1.nextCb = s.nextCb + (newCb s ch).toList.length := hn
        rcases hk with hk | hk <;> rw [hk] at e1 e3 <;> simp only [Option.toList_none, Option.toList_some, List.length_nil, List.length_cons, Option.some.injEq, reduceCtorEq, if_false] at e1 e3
        · rw [e1, e2]; simp only [e3, Nat.add_zero]
        · generalize s1.nextCb = m at e3 ⊢
          subst e3
          rw [e1, e2]
          by_cases q1 : 1 ≤ k ∧ k < s.nextCb
          · rw [if_pos q1, if_neg (by omega), if_pos (by omega)]
          · by_cases q2 : s.nextCb = k
            · rw [if_neg q1, if_pos q2, if_pos (by omega)]
            · rw [if_neg q1, if_neg q2, if_neg (by omega)]⟩
      refine ⟨h1, ?_⟩
      rw [h2, hn]
      unfold connectCalls
      rw [List.countP_cons]
      cases ch with
      | call c =>
        cases c with
        | connect b => cases b <;> simp [newCb]; omega
        | _ => simp [newCb]
      | _ => simp [newCb]
    · cases h

/-- C163. In every history, each callback given to `connect` (they are numbered from 1) is at every moment either invoked exactly once or waiting
exactly once; no other callback is invoked. -/
theorem C163_connect_once (auto : Bool) (ms mp : Nat) (chs : List Choice) (s : St) (h : (St.init auto ms mp).run chs = some s) (k : Nat) :
    (connects s.trace).count k + s.waiting.count k = if 1 ≤ k ∧ k ≤ connectCalls chs then 1 else 0 := by
  obtain ⟨h1, h2⟩ := run_cw _ chs s h ⟨by simp [St.init], fun k => by simp [St.init, St.cweight, St.waiting, connects]; omega⟩
  have h3 := h1 k
  have h4 : s.nextCb = 1 + connectCalls chs := h2
  show s.cweight k = _
  by_cases q : 1 ≤ k ∧ k ≤ connectCalls chs
  · rw [h3, if_pos (by omega), if_pos q]
  · rw [h3, if_neg (by omega), if_neg q]

/-! ### How long a callback waits -/

/-- While a connect callback waits, an attempt is under way, or its end is being worked on. -/
structure Awaited (s : St) : Prop where
  disc : .discEnd ∉ s.stack
  cbs : s.cbs ≠ [] → s.connecting = true ∨ .bind ∈ s.stack

theorem Awaited.keep {s t : St} (h : Awaited s) (hc : t.cbs = s.cbs) (hg : t.connecting = s.connecting) (hd : .discEnd ∉ t.stack) (hb : .bind ∈ s.stack → .bind ∈ t.stack) : Awaited t :=
  ⟨hd, fun e => by rw [hc] at e; rw [hg]; exact (h.cbs e).imp id hb⟩

theorem Awaited.fail {s : St} {rest : List Frame} (hd : .discEnd ∉ rest) : Awaited (s.connectionFailed rest) :=
  ⟨by simp [St.connectionFailed, hd], fun e => absurd rfl e⟩

theorem Awaited.connect {s : St} (h : Awaited s) (cb : Option Nat) {rest : List Frame} (hd : .discEnd ∉ rest) (hb : .bind ∈ s.stack → .bind ∈ rest) : Awaited (s.connect cb rest) := by
  unfold St.connect
  split
  · split
    · exact h.keep rfl rfl (by simp [St.enter, hd]) (fun e => by simp [St.enter, hb e])
    · exact h.keep rfl rfl hd hb
  split
  · next hc => exact ⟨hd, fun _ => .inl hc⟩
  · exact ⟨by simp [hd], fun _ => .inl rfl⟩

theorem Awaited.failRequest {s : St} (h : Awaited s) (sid st : Nat) {rest : List Frame} (hd : .discEnd ∉ rest) (hb : .bind ∈ s.stack → .bind ∈ rest) :
    Awaited (s.failRequest sid st rest) := by
  unfold St.failRequest
  split
  · exact h.keep rfl rfl hd hb
  · exact h.keep rfl rfl (by simp [St.enter, hd]) (fun e => by simp [St.enter, hb e])

theorem Awaited.giveUp {s : St} (h : Awaited s) (n st : Nat) (b : Bool) : Awaited (s.giveUp n st b) := by
  unfold St.giveUp
  split
  · cases b <;> exact h.keep rfl rfl (by simp [St.enter, h.disc]) (fun e => by simp [St.enter, e])
  · split
    · exact h
    · exact h.failRequest _ _ (by simp [h.disc]) (fun e => by simp [e])

theorem step_awaited {s : St} {ch : Choice} {s' : St} (h : s.step ch = some s') (ha : Awaited s) (hn : ch ≠ .call .disconnect) : Awaited s' := by
  have hd := ha.disc
  cases (step_cases h).2 with
  | call c hs =>
    cases c with
    | push v =>
      simp only [St.doCall, St.push]
      split
      · exact ha.keep rfl rfl (by simp [St.enter, hd]) (fun e => by simp [St.enter, e])
      split
      · exact ha.keep rfl rfl (by simp [St.enter, hd]) (fun e => by simp [St.enter, e])
      split
      · exact ha.keep rfl rfl (by simp [St.enter, hd]) (fun e => by simp [St.enter, e])
      have h1 : Awaited { s with total := s.total + 1, pending := s.pending ++ [⟨s.total + 1, 0, 0⟩] } := ha.keep rfl rfl hd id
      split
      · exact ha.keep rfl rfl (by simp [hd]) (fun e => by simp [e])
      split
      · exact h1.connect none hd id
      · exact h1
    | connect b =>
      cases b
      · exact ha.connect none hd id
      · have h1 : Awaited { s with nextCb := s.nextCb + 1 } := ha.keep rfl rfl hd id
        exact h1.connect _ hd id
    | cancel n => exact ha.giveUp n 499 false
    | disconnect => exact absurd rfl hn
  | event e _ he hs =>
    cases e with
    | connected ok =>
      simp only [St.doEvent] at he
      split at he
      · cases he
      split at he
      · cases he; exact ⟨by simp [hd], fun _ => .inr (by simp)⟩
      · cases he; exact .fail hd
    | closed =>
      simp only [St.doEvent] at he
      split at he <;> cases he
      · exact ha.keep rfl rfl hd id
      · exact .fail (by simp [hd])
    | data =>
      simp only [St.doEvent] at he
      split at he <;> cases he
      · exact ha
      · exact ha.keep rfl rfl (by simp [hd]) (fun e => by simp [e])
    | streamClosed sid =>
      simp only [St.doEvent, Option.some.injEq] at he; subst he
      exact ha.failRequest _ _ hd id
  | timer t _ he hs =>
    cases t with
    | connect j =>
      simp only [St.doTimer] at he
      split at he
      · cases he
      split at he
      · cases he; exact ha
      · cases he; exact .fail (by simp [hd])
    | request n =>
      simp only [St.doTimer, Option.some.injEq] at he; subst he
      exact ha.giveUp n 408 true
  | ret r hs =>
    rw [hs] at hd
    exact ha.keep rfl rfl (fun e => hd (List.mem_cons_of_mem _ e)) (fun e => by rw [hs] at e; simpa using e)
  | callback c j r hs =>
    cases c with
    | response sid =>
      simp only [St.doCallback]
      split
      · exact ha
      · exact ha.keep rfl rfl (by simp [St.enter, hd]) (fun e => by simp [St.enter, e])
    | shutdown => exact ha.keep rfl rfl (by simp [St.doCallback, hd]) (fun e => by simp [St.doCallback, e])
  | go f r out hs hf =>
    have hr : .discEnd ∉ r := by rw [hs] at hd; exact fun e => hd (List.mem_cons_of_mem _ e)
    have hb : f ≠ .bind → .bind ∈ s.stack → .bind ∈ r := by
      intro h1 h2; rw [hs] at h2; simpa [h1.symm] using h2
    cases f with
    | user => exact absurd rfl hf
    | bind => exact ⟨by simp [St.runFrame, hr], fun e => absurd rfl e⟩
    | discEnd => rw [hs] at hd; simp at hd
    | start =>
      simp only [St.runFrame]
      split
      · exact ha.keep rfl rfl hr (hb (by simp))
      · exact .fail hr
    | read j =>
      simp only [St.runFrame]
      split
      · exact .fail (by simp [hr])
      · exact ha.keep rfl rfl hr (hb (by simp))
    | reconnect =>
      simp only [St.runFrame]
      split
      · exact ha.connect none hr (hb (by simp))
      · exact ha.keep rfl rfl hr (hb (by simp))
    | procLoop =>
      simp only [St.runFrame]
      split
      · exact ha.keep rfl rfl hr (hb (by simp))
      split
      · exact ha.keep rfl rfl hr (hb (by simp))
      split
      · exact ha.keep rfl rfl hr (hb (by simp))
      split
      · exact ha.keep rfl rfl hd id
      · exact ha.keep rfl rfl (by simp [hr]) (fun e => by simp [hb (by simp) e])
    | io => exact ha.keep rfl rfl hr (hb (by simp))
    | process => simp only [St.runFrame]; split <;> exact ha.keep rfl rfl (by simp [hr]) (fun e => by simp [hb (by simp) e])
    | submit c =>
      simp only [St.runFrame]
      split
      · split <;> exact ha.keep rfl rfl (by simp [hr]) (fun e => by simp [hb (by simp) e])
      · exact ha.keep rfl rfl (by simp [hr]) (fun e => by simp [hb (by simp) e])
    | reset c => exact ha.keep rfl rfl (by simp [St.runFrame, St.enter, hr]) (fun e => by simp [St.runFrame, St.enter, hb (by simp) e])
    | failAll => exact ha.keep rfl rfl (by simp [St.runFrame, hr]) (fun e => by simp [St.runFrame, hb (by simp) e])
    | failList cs => simp only [St.runFrame]; split <;> exact ha.keep rfl rfl (by simp [St.enter, hr]) (fun e => by simp [St.enter, hb (by simp) e])
    | connLoop cs ok => simp only [St.runFrame]; split <;> exact ha.keep rfl rfl (by simp [St.enter, hr]) (fun e => by simp [St.enter, hb (by simp) e])
    | shutLoop => simp only [St.runFrame]; split <;> exact ha.keep rfl rfl (by simp [St.enter, hr]) (fun e => by simp [St.enter, hb (by simp) e])

theorem run_awaited {s : St} {chs : List Choice} {s' : St} (h : s.run chs = some s') (ha : Awaited s) (hn : NoDisconnect chs) : Awaited s' := by
  induction chs generalizing s with
  | nil => simp [St.run] at h; subst h; exact ha
  | cons ch chs ih =>
    rw [St.run] at h
    split at h
    · next s1 e => exact ih h (step_awaited e ha fun e2 => hn (by rw [e2]; simp)) (fun e2 => hn (List.mem_cons_of_mem _ e2))
    · cases h

/-- C163 (partial). If `disconnect` is never called: whenever the client is idle and a connect callback waits, an attempt to connect is under way. -/
theorem C163_waits_for_attempt_partial (auto : Bool) (ms mp : Nat) (chs : List Choice) (s : St) (h : (St.init auto ms mp).run chs = some s) (hn : NoDisconnect chs)
    (hs : s.stack = []) (hw : s.waiting ≠ []) : s.connecting = true := by
  have ha := run_awaited h ⟨by simp [St.init], fun e => absurd rfl e⟩ hn
  have : s.cbs ≠ [] := by simpa [St.waiting, hs] using hw
  rcases ha.cbs this with e | e
  · exact e
  · rw [hs] at e; cases e

/-- What is missing: `disconnect` during an attempt leaves the callback behind; nothing is under way that would call it. -/
theorem C163_forgotten_partial : ∃ chs s, (St.init true 1 10).run chs = some s ∧ s.stack = [] ∧ s.waiting = [1] ∧ s.connecting = false ∧ s.connected = false :=
  ⟨[.call (.connect true), .go true, .call .disconnect, .go true, .go true, .go true, .go true], _, rfl, by decide⟩

/-- What is missing: the timer of a first attempt, which failed, ends a second attempt, whose time has not come. -/
theorem C163_stale_timer_partial : ∃ chs s, (St.init true 1 10).run chs = some s ∧ s.trace = [.connected 2 false, .late 1 2, .connected 1 false] :=
  ⟨[.call (.connect true), .go false, .go true, .ret, .go true, .go true, .go true, .call (.connect true), .go true, .timer (.connect 1), .go true], _, rfl, by decide⟩

/-- What is missing: the connection is lost while its streams are made; the callback of the first attempt, told so, makes a second one; its callback is told
that there is a connection, and there is none. -/
theorem C163_told_wrong_partial : ∃ chs s, (St.init true 1 10).run chs = some s ∧ s.trace = [.connected 2 true, .connected 1 false] ∧ s.connected = false ∧ s.conn = 1 :=
  ⟨[.call (.connect true), .go true, .event (.connected true), .event .closed, .go true, .call (.connect true), .go true, .ret, .go true, .go true, .go true, .go true, .go true, .go true], _, rfl, by decide⟩

/-- Two attempts share a connection; a third callback is called at once. -/
example : ∃ s, (St.init true 1 10).run [.call (.connect true), .go true, .call (.connect true), .event (.connected true), .go true, .go true, .ret, .go true, .ret, .go true,
      .go true, .go true, .call (.connect true), .ret] = some s ∧ s.trace = [.connected 3 true, .connected 2 true, .connected 1 true] ∧ s.waiting = [] ∧ s.stack = [] := by
  refine ⟨_, rfl, ?_⟩; decide

end Verif.Cli3
