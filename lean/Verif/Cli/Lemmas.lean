import Verif.Cli.Model

namespace Verif.Cli

/-! ### The bookkeeping of requests, separated from connections and control -/

/-- What the request invariants are about. -/
structure Book where
  total : Nat
  successful : Nat
  failed : Nat
  nextId : Nat
  maxPending : Nat
  pending : List Ctx
  active : Option Ctx
  log : List Ev

def isReq : Ev → Bool
  | .connected _ _ => false
  | _ => true

def St.book (s : St) : Book :=
  ⟨s.total, s.successful, s.failed, s.nextId, s.maxPending, s.pending, s.active, s.trace.filter isReq⟩

/-- Everything a step can do to the books. -/
inductive Move : Book → Book → Prop
  | skip {b} : Move b b
  | reject {b code} : Move b { b with total := b.total + 1, failed := b.failed + 1, log := .done (b.total + 1) (.error code) :: b.log }
  | queue {b} : b.pending.length + (if b.active.isSome then 1 else 0) < b.maxPending →
      Move b { b with total := b.total + 1, nextId := b.nextId + 1, pending := b.pending ++ [⟨b.total + 1, b.nextId⟩] }
  | failPending {b l1 c l2 code} : b.pending = l1 ++ c :: l2 →
      Move b { b with pending := l1 ++ l2, failed := b.failed + 1, log := .done c.call (.error code) :: b.log }
  | send {b c ps} : b.active = none → b.pending = c :: ps →
      Move b { b with pending := ps, active := some c, log := .sent c.call c.rid :: b.log }
  | sendFail {b c ps code} : b.active = none → b.pending = c :: ps →
      Move b { b with pending := ps, failed := b.failed + 1, log := .done c.call (.error code) :: .sent c.call c.rid :: b.log }
  | failActive {b c code} : b.active = some c →
      Move b { b with active := none, failed := b.failed + 1, log := .done c.call (.error code) :: b.log }
  | respond {b c r} : b.active = some c →
      Move b { b with active := none, successful := b.successful + 1, log := .done c.call (.response r) :: b.log }

theorem takeRid_split {rid : Nat} {l : List Ctx} {c : Ctx} {ps : List Ctx} (h : takeRid rid l = some (c, ps)) :
    ∃ l1 l2, l = l1 ++ c :: l2 ∧ ps = l1 ++ l2 := by
  induction l generalizing c ps with
  | nil => simp [takeRid] at h
  | cons a l ih =>
    rw [takeRid] at h
    by_cases e : a.rid = rid
    · rw [if_pos e] at h
      simp at h
      exact ⟨[], l, by simp [h.1], by simp [h.2]⟩
    · rw [if_neg e] at h
      cases e2 : takeRid rid l with
      | none => rw [e2] at h; simp at h
      | some x =>
        rw [e2] at h
        simp at h
        obtain ⟨l1, l2, h1, h2⟩ := ih (c := x.1) (ps := x.2) e2
        obtain ⟨rfl, rfl⟩ := h
        exact ⟨a :: l1, l2, by simp [h1], by simp [h2]⟩

theorem connect_book (s : St) (cb : Option Nat) (rest : List Frame) : (s.connect cb rest).book = s.book := by
  unfold St.connect
  split
  · split <;> simp [St.enter, St.book, isReq, List.filter]
  · split <;> simp [St.book]

theorem closeConn_book (s : St) : s.closeConn.book = s.book := rfl

theorem failActive_move (s : St) (code : Nat) (rest : List Frame) : Move s.book (s.failActive code rest).book := by
  unfold St.failActive
  split
  · exact .skip
  · next c h =>
    have : (St.enter { s with active := none, failed := s.failed + 1 } (.done c.call (.error code)) rest).book =
        { s.book with active := none, failed := s.book.failed + 1, log := .done c.call (.error code) :: s.book.log } := by
      simp [St.enter, St.book, isReq, List.filter]
    rw [this]
    exact .failActive h

theorem failFront_move (s : St) (c : Ctx) (ps : List Ctx) (h : s.pending = c :: ps) (code : Nat) (rest : List Frame) :
    Move s.book (St.enter { s with pending := ps, failed := s.failed + 1 } (.done c.call (.error code)) rest).book := by
  have : (St.enter { s with pending := ps, failed := s.failed + 1 } (.done c.call (.error code)) rest).book =
      { s.book with pending := [] ++ ps, failed := s.book.failed + 1, log := .done c.call (.error code) :: s.book.log } := by
    simp [St.enter, St.book, isReq, List.filter]
  rw [this]
  exact .failPending (l1 := []) (l2 := ps) h

theorem push_move (s : St) (v : Bool) : Move s.book (s.push v).book := by
  unfold St.push
  simp only []
  split
  · have : (St.enter { s with total := s.total + 1, failed := s.failed + 1 } (.done (s.total + 1) (.error 400)) s.stack).book =
      { s.book with total := s.book.total + 1, failed := s.book.failed + 1,
                    log := .done (s.book.total + 1) (.error 400) :: s.book.log } := by simp [St.enter, St.book, isReq, List.filter]
    rw [this]; exact .reject
  · by_cases h : s.pending.length + (if s.active.isSome then 1 else 0) ≥ s.maxPending
    · rw [if_pos h]
      have : (St.enter { s with total := s.total + 1, failed := s.failed + 1 } (.done (s.total + 1) (.error 503)) s.stack).book =
        { s.book with total := s.book.total + 1, failed := s.book.failed + 1,
                      log := .done (s.book.total + 1) (.error 503) :: s.book.log } := by simp [St.enter, St.book, isReq, List.filter]
      rw [this]; exact .reject
    · rw [if_neg h]; exact .queue (b := s.book) (Nat.lt_of_not_le h)

theorem runFrame_move (s : St) (ok : Bool) (rest : List Frame) (f : Frame) : Move s.book (s.runFrame ok rest f).book := by
  cases f with
  | user => exact .skip
  | process =>
    simp only [St.runFrame]
    split
    · exact .skip
    · next ha =>
      have ha' : s.active = none := by simpa using ha
      split
      · exact .skip
      · next c ps hp =>
        split
        · split
          · exact failFront_move s c ps hp _ _
          · split
            · rw [connect_book]; exact .skip
            · exact .skip
        · cases ok with
          | true =>
            have : ({ s with active := some c, pending := ps, trace := .sent c.call c.rid :: s.trace, stack := rest } : St).book =
                { s.book with pending := ps, active := some c, log := .sent c.call c.rid :: s.book.log } := by
              simp [St.book, isReq, List.filter]
            simp only [if_true]
            rw [this]
            exact .send ha' hp
          | false =>
            simp only [Bool.false_eq_true, if_false, St.failActive]
            have : (St.enter { s with active := none, pending := ps, failed := s.failed + 1, trace := .sent c.call c.rid :: s.trace }
                (.done c.call (.error 400)) (.processTail :: rest)).book =
                { s.book with pending := ps, failed := s.book.failed + 1,
                              log := .done c.call (.error 400) :: .sent c.call c.rid :: s.book.log } := by
              simp [St.book, St.enter, isReq, ha', List.filter]
            rw [this]
            exact .sendFail ha' hp
  | processTail => simp only [St.runFrame]; split <;> exact .skip
  | failActive code => exact failActive_move s code rest
  | failAll code =>
    simp only [St.runFrame]
    split
    · exact .skip
    · next c ps hp => exact failFront_move s c ps hp _ _
  | discEnd => simp only [St.runFrame]; split <;> exact .skip
  | afterResponse ka =>
    simp only [St.runFrame]
    split
    · exact .skip
    · split <;> exact .skip
  | connLoop cbs okk =>
    simp only [St.runFrame]
    split
    · exact .skip
    · next k ks =>
      have : (s.enter (.connected k okk) (.connLoop ks okk :: rest)).book = s.book := by simp [St.enter, St.book, isReq, List.filter]
      rw [this]; exact .skip
  | afterConnect => simp only [St.runFrame]; split <;> exact .skip
  | timeoutEnd => exact .skip
  | afterDisconnected =>
    simp only [St.runFrame]
    split
    · exact .skip
    · split
      · exact .skip
      · split <;> exact .skip

theorem doCall_move (s : St) (c : Call) : Move s.book (s.doCall c).book := by
  cases c with
  | push v => exact push_move s v
  | connect w =>
    simp only [St.doCall]
    split
    · rw [connect_book]; exact .skip
    · rw [connect_book]; exact .skip
  | disconnect => exact .skip

theorem doEvent_move (s : St) (e : Event) (s' : St) (h : s.doEvent e = some s') : Move s.book s'.book := by
  cases e with
  | connectOk =>
    simp only [St.doEvent] at h
    split at h
    · split at h
      · cases h; exact .skip
      · cases h
    · cases h
  | connectFailed =>
    simp only [St.doEvent] at h
    split at h
    · split at h
      · cases h; exact .skip
      · cases h
    · cases h
  | response r ka =>
    simp only [St.doEvent] at h
    split at h
    · split at h
      · cases h; exact .skip
      · next c ha =>
        cases h
        have : (St.enter { s with active := none, successful := s.successful + 1 } (.done c.call (.response r))
            (.afterResponse ka :: s.stack)).book =
            { s.book with active := none, successful := s.book.successful + 1, log := .done c.call (.response r) :: s.book.log } := by
          simp [St.book, St.enter, isReq, List.filter]
        rw [this]
        exact .respond ha
    · cases h
  | timeout =>
    simp only [St.doEvent] at h
    split at h
    · split at h <;> (cases h; exact .skip)
    · cases h
  | disconnected =>
    simp only [St.doEvent] at h
    split at h
    · cases h; exact .skip
    · cases h
  | socketClosed => simp only [St.doEvent] at h; cases h; exact .skip
  | pendingTimeout rid =>
    simp only [St.doEvent] at h
    split at h
    · cases h; exact .skip
    · next c ps ht =>
      cases h
      obtain ⟨l1, l2, h1, h2⟩ := takeRid_split ht
      have : (St.enter { s with pending := ps, failed := s.failed + 1 } (.done c.call (.error 408)) (.process :: s.stack)).book =
          { s.book with pending := l1 ++ l2, failed := s.book.failed + 1, log := .done c.call (.error 408) :: s.book.log } := by
        simp [St.book, St.enter, isReq, h2, List.filter]
      rw [this]
      exact .failPending h1
  | deferredTick => simp only [St.doEvent] at h; split at h <;> (cases h; exact .skip)
  | reconnect =>
    simp only [St.doEvent] at h
    split at h
    · cases h
    · split at h
      · cases h; exact .skip
      · cases h; rw [connect_book]; exact .skip

/-- Every step of the machine is one of the moves. -/
theorem step_move (s : St) (ch : Choice) (s' : St) (h : s.step ch = some s') : Move s.book s'.book := by
  unfold St.step at h
  split at h
  · cases h; exact doCall_move s _
  · exact doEvent_move s _ _ h
  · cases h; exact doCall_move s _
  · cases h; exact .skip
  · cases h
  · cases h; exact runFrame_move s _ _ _
  · cases h

/-- An invariant of the books holds in every reachable state. -/
theorem run_book (P : Book → Prop) (hmove : ∀ b b', Move b b' → P b → P b') (s : St) (chs : List Choice) (s' : St)
    (h : s.run chs = some s') (hs : P s.book) : P s'.book := by
  induction chs generalizing s with
  | nil => simp [St.run] at h; rw [← h]; exact hs
  | cons ch chs ih =>
    rw [St.run] at h
    split at h
    · next s1 e => exact ih s1 h (hmove _ _ (step_move _ _ _ e) hs)
    · cases h

end Verif.Cli
