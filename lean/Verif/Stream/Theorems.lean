import Verif.Stream.Model
import Verif.Stream.Spec
import Verif.Utility.Theorems
import Mathlib.Tactic.IntervalCases

/-! Property theorems about `2/protocol/stream.{h,cpp}` and the validators of `2/protocol/base.cpp`:
C28–C31 and C45–C49. -/

namespace Verif.Stream
open Spec Utility Utility.Spec

/-! ## C28 flow-control windows -/

theorem ofNat_natAbs_sub (new old : UInt32) :
    (UInt32.ofNat ((new.toNat : Int) - old.toNat).natAbs).toNat = ((new.toNat : Int) - old.toNat).natAbs := by
  have h1 := new.toNat_lt
  have h2 := old.toNat_lt
  rw [UInt32.toNat_ofNat_of_lt']
  simp only [UInt32.size]
  omega

/-- C28 (partial: excludes the windows named by the two hypotheses, see `C28_false_*`). If the old
window plus the *absolute* change stays within 2^31-1 and is not exactly -1, the send window is
shifted by exactly `new - old`, and the call reports success iff the shifted window is not
negative. -/
theorem C28_peer_window_partial (s : Stream) (new old : UInt32)
    (hmax : s.peerWindow + ((new.toNat : Int) - old.toNat).natAbs ≤ 2147483647)
    (hsent : s.peerWindow + ((new.toNat : Int) - old.toNat).natAbs ≠ -1) :
    s.updatePeerWindow new old =
      ({ s with peerWindow := s.peerWindow + ((new.toNat : Int) - old.toNat) },
       decide (0 ≤ s.peerWindow + ((new.toNat : Int) - old.toNat))) := by
  have e := ofNat_natAbs_sub new old
  have hu : updateWindowSafe s.peerWindow
      (UInt32.ofNat ((new.toNat : Int) - old.toNat).natAbs) maxWindow =
      s.peerWindow + ((new.toNat : Int) - old.toNat).natAbs := by
    unfold updateWindowSafe
    rw [e, if_neg (by unfold maxWindow; omega)]
  unfold Stream.updatePeerWindow
  rw [hu, if_neg (by simpa using hsent)]
  by_cases hd : (new.toNat : Int) - old.toNat ≥ 0
  · rw [if_pos hd]
    have : (((new.toNat : Int) - old.toNat).natAbs : Int) = (new.toNat : Int) - old.toNat := by omega
    rw [this]
  · rw [if_neg hd]

/-- C28: growing the window above 2^31-1 is refused and changes nothing. -/
theorem C28_overflow_refused (s : Stream) (new old : UInt32) (hd : old ≤ new)
    (h : 2147483647 < s.peerWindow + ((new.toNat : Int) - old.toNat)) :
    s.updatePeerWindow new old = (s, false) := by
  have e := ofNat_natAbs_sub new old
  have hd' : old.toNat ≤ new.toNat := UInt32.le_iff_toNat_le.mp hd
  unfold Stream.updatePeerWindow updateWindowSafe
  rw [e, if_pos (by unfold maxWindow; rw [if_pos (by omega)]; rfl)]

/-- C28: whatever the arguments, a window within the limit never leaves it upwards, so the `int64_t`
of the code never overflows: it stays within one `uint32_t` of where it was and below 2^31. -/
theorem C28_window_no_overflow (s : Stream) (new old : UInt32) (h : s.peerWindow ≤ 2147483647) :
    (s.updatePeerWindow new old).1.peerWindow ≤ 2147483647 ∧
    s.peerWindow - 4294967295 ≤ (s.updatePeerWindow new old).1.peerWindow := by
  have e := ofNat_natAbs_sub new old
  have h1 := new.toNat_lt
  have h2 := old.toNat_lt
  unfold Stream.updatePeerWindow updateWindowSafe maxWindow
  rw [e]
  by_cases hb : s.peerWindow + ((((new.toNat : Int) - old.toNat).natAbs : Nat) : Int) > 2147483647
  · rw [if_pos hb]; simp; exact h
  · rw [if_neg hb]
    split
    · exact ⟨h, by simp⟩
    · split
      · exact ⟨by simp only []; omega, by simp only []; omega⟩
      · exact ⟨by simp only []; omega, by simp only []; omega⟩

/-- C28 is FALSE as stated (1): lowering the initial window from 65535 to 0 on a stream whose send
window is 2^31-1 is refused although the shifted window is legal. -/
theorem C28_false_shrink_refused :
    ({ Stream.new 2147483647 65535 with state := .open_ }).updatePeerWindow 0 65535 =
      ({ Stream.new 2147483647 65535 with state := .open_ }, false) := by decide

/-- C28 is FALSE as stated (2): a window of -100000 (legal after a previous shrink) raised by 99999
becomes exactly -1, which the code confuses with its overflow sentinel: the window is not updated. -/
theorem C28_false_sentinel :
    ({ Stream.new (-100000) 65535 with state := .open_ }).updatePeerWindow 99999 0 =
      ({ Stream.new (-100000) 65535 with state := .open_ }, false) := by decide

/-- C28 is FALSE as stated (3): a legal shrink to a negative window is applied but reported as
failure. -/
theorem C28_false_negative :
    (({ Stream.new 0 65535 with state := .open_ }).updatePeerWindow 0 65535).1.peerWindow = -65535 ∧
    (({ Stream.new 0 65535 with state := .open_ }).updatePeerWindow 0 65535).2 = false := by decide

example : ({ Stream.new 65535 65535 with state := .open_ }).updatePeerWindow 100000 65535 =
    ({ Stream.new 100000 65535 with state := .open_ }, true) := by decide
example : (65535 : Int) + (((100000 : UInt32).toNat : Int) - (65535 : UInt32).toNat).natAbs ≤ 2147483647 ∧
    (65535 : Int) + (((100000 : UInt32).toNat : Int) - (65535 : UInt32).toNat).natAbs ≠ -1 := by decide
example : (2147483647 : Int) < 2147483647 + (((1 : UInt32).toNat : Int) - (0 : UInt32).toNat) ∧
    (0 : UInt32) ≤ 1 := by decide

/-! ## C29 stream lifecycle -/

/-- The model's reaction to an event. -/
def Stream.step (s : Stream) : Event → Stream
  | .sent fin => s.transition fin true
  | .received fin => s.transition fin false
  | .rstSent c => s.markReset c true
  | .rstReceived c => s.markReset c false

/-- The model after a history. -/
def Stream.run (s : Stream) (es : List Event) : Stream := es.foldl Stream.step s

/-- RFC 7540 §5.1, the edges between open, half-closed and closed. -/
inductive LegalEdge : State → State → Prop
  | openLocal : LegalEdge .open_ .halfClosedLocal
  | openRemote : LegalEdge .open_ .halfClosedRemote
  | openReset : LegalEdge .open_ .closed
  | localClosed : LegalEdge .halfClosedLocal .closed
  | remoteClosed : LegalEdge .halfClosedRemote .closed

/-- A fresh, open stream. -/
def Stream.Fresh (s : Stream) : Prop :=
  s.state = .open_ ∧ s.endRecv = false ∧ s.endSent = false ∧ s.rstRecv = false ∧ s.rstSent = false

/-- What the flags and the state look like, as Booleans, after a history. -/
def stateOf (we peer rst : Bool) : State :=
  if rst then .closed
  else if we && peer then .closed
  else if we then .halfClosedLocal
  else if peer then .halfClosedRemote
  else .open_

/-- Boolean summary of one event: (we ended, peer ended, reset). -/
def bits : Event → Bool × Bool × Bool × Bool
  | .sent fin => (fin, false, false, false)
  | .received fin => (false, fin, false, false)
  | .rstSent _ => (false, false, true, false)
  | .rstReceived _ => (false, false, false, true)

structure Good (s : Stream) : Prop where
  st : s.state = stateOf s.endSent s.endRecv (s.rstSent || s.rstRecv)

theorem Good.step {s : Stream} (h : Good s) (e : Event) : Good (s.step e) := by
  obtain ⟨h⟩ := h
  constructor
  revert h
  cases e <;> rename_i x <;> simp only [Stream.step, Stream.transition, Stream.markReset] <;> intro h
  · cases x
    · simpa using h
    · simp only [Bool.not_true, Bool.false_eq_true, if_false, if_true, h]
      cases s.endSent <;> cases s.endRecv <;> cases s.rstSent <;> cases s.rstRecv <;> rfl
  · cases x
    · simpa using h
    · simp only [Bool.not_true, Bool.false_eq_true, if_false, h]
      cases s.endSent <;> cases s.endRecv <;> cases s.rstSent <;> cases s.rstRecv <;> rfl
  · simp [stateOf]
  · simp [stateOf]

theorem step_flags (s : Stream) (e : Event) :
    ((s.step e).endSent = (s.endSent || (bits e).1)) ∧
    ((s.step e).endRecv = (s.endRecv || (bits e).2.1)) ∧
    ((s.step e).rstSent = (s.rstSent || (bits e).2.2.1)) ∧
    ((s.step e).rstRecv = (s.rstRecv || (bits e).2.2.2)) := by
  cases e <;> rename_i x <;> simp only [Stream.step, Stream.transition, Stream.markReset, bits]
  · cases x <;> simp
  · cases x <;> simp
  · simp
  · simp

theorem run_flags (es : List Event) (s : Stream) :
    ((s.run es).endSent = (s.endSent || es.any fun e => (bits e).1)) ∧
    ((s.run es).endRecv = (s.endRecv || es.any fun e => (bits e).2.1)) ∧
    ((s.run es).rstSent = (s.rstSent || es.any fun e => (bits e).2.2.1)) ∧
    ((s.run es).rstRecv = (s.rstRecv || es.any fun e => (bits e).2.2.2)) := by
  induction es generalizing s with
  | nil => simp [Stream.run]
  | cons e es ih =>
    obtain ⟨a, b, c, d⟩ := ih (s.step e)
    obtain ⟨a', b', c', d'⟩ := step_flags s e
    have hr : s.run (e :: es) = (s.step e).run es := rfl
    rw [hr]
    refine ⟨?_, ?_, ?_, ?_⟩
    · rw [a, a', List.any_cons, Bool.or_assoc]
    · rw [b, b', List.any_cons, Bool.or_assoc]
    · rw [c, c', List.any_cons, Bool.or_assoc]
    · rw [d, d', List.any_cons, Bool.or_assoc]

theorem run_good {s : Stream} (h : Good s) (es : List Event) : Good (s.run es) := by
  induction es generalizing s with
  | nil => exact h
  | cons e es ih => exact ih (h.step e)

theorem fresh_good {s : Stream} (h : s.Fresh) : Good s := by
  obtain ⟨a, b, c, d, e⟩ := h
  constructor; rw [a, b, c, d, e]; rfl

theorem any_we (es : List Event) : (es.any fun e => (bits e).1) = true ↔ WeEnded es := by
  unfold WeEnded
  rw [List.any_eq_true]
  constructor
  · rintro ⟨e, he, hb⟩
    cases e <;> simp [bits] at hb
    subst hb; exact he
  · intro h; exact ⟨_, h, rfl⟩

theorem any_peer (es : List Event) : (es.any fun e => (bits e).2.1) = true ↔ PeerEnded es := by
  unfold PeerEnded
  rw [List.any_eq_true]
  constructor
  · rintro ⟨e, he, hb⟩
    cases e <;> simp [bits] at hb
    subst hb; exact he
  · intro h; exact ⟨_, h, rfl⟩

theorem any_rst (es : List Event) :
    ((es.any fun e => (bits e).2.2.1) || (es.any fun e => (bits e).2.2.2)) = true ↔ WasReset es := by
  unfold WasReset
  rw [Bool.or_eq_true, List.any_eq_true, List.any_eq_true]
  constructor
  · rintro (⟨e, he, hb⟩ | ⟨e, he, hb⟩)
    · cases e <;> simp [bits] at hb
      exact ⟨_, Or.inl he⟩
    · cases e <;> simp [bits] at hb
      exact ⟨_, Or.inr he⟩
  · rintro ⟨c, h | h⟩
    · exact Or.inl ⟨_, h, rfl⟩
    · exact Or.inr ⟨_, h, rfl⟩

/-- C29: for every history of frames and resets on an open stream, the state is exactly the RFC 7540
state: CLOSED iff both sides ended or a reset happened, half-closed (local/remote) iff exactly our /
the peer's side ended, OPEN iff neither. -/
theorem C29_state_exact (s : Stream) (hf : s.Fresh) (es : List Event) :
    ((s.run es).state = .closed ↔ WasReset es ∨ (WeEnded es ∧ PeerEnded es)) ∧
    ((s.run es).state = .halfClosedLocal ↔ ¬ WasReset es ∧ WeEnded es ∧ ¬ PeerEnded es) ∧
    ((s.run es).state = .halfClosedRemote ↔ ¬ WasReset es ∧ ¬ WeEnded es ∧ PeerEnded es) ∧
    ((s.run es).state = .open_ ↔ ¬ WasReset es ∧ ¬ WeEnded es ∧ ¬ PeerEnded es) := by
  obtain ⟨hst⟩ := run_good (fresh_good hf) es
  obtain ⟨a, b, c, d⟩ := run_flags es s
  obtain ⟨_, h2, h3, h4, h5⟩ := hf
  rw [h3, Bool.false_or] at a
  rw [h2, Bool.false_or] at b
  rw [h5, Bool.false_or] at c
  rw [h4, Bool.false_or] at d
  rw [hst, a, b, c, d, ← any_we, ← any_peer, ← any_rst]
  cases (es.any fun e => (bits e).1) <;> cases (es.any fun e => (bits e).2.1) <;>
    cases ((es.any fun e => (bits e).2.2.1) || (es.any fun e => (bits e).2.2.2)) <;>
    simp [stateOf]

/-- C29: every step either keeps the state or follows a legal RFC 7540 edge. -/
theorem C29_steps_legal (s : Stream) (hf : s.Fresh) (es : List Event) (e : Event) :
    (s.run (es ++ [e])).state = (s.run es).state ∨
      LegalEdge (s.run es).state (s.run (es ++ [e])).state := by
  have hg := run_good (fresh_good hf) es
  have hr : s.run (es ++ [e]) = (s.run es).step e := by simp [Stream.run]
  rw [hr]
  generalize s.run es = t at hg ⊢
  have h1 : t.state = .open_ ∨ t.state = .halfClosedLocal ∨ t.state = .halfClosedRemote ∨ t.state = .closed := by
    rw [hg.st]
    cases t.endSent <;> cases t.endRecv <;> cases t.rstSent <;> cases t.rstRecv <;> simp [stateOf]
  cases e <;> rename_i x <;> simp only [Stream.step, Stream.transition, Stream.markReset]
  · cases x
    · left; rfl
    · simp only [Bool.not_true, Bool.false_eq_true, if_false, if_true]
      rcases h1 with h | h | h | h <;> rw [h]
      · right; exact .openLocal
      · left; rfl
      · right; exact .remoteClosed
      · left; rfl
  · cases x
    · left; rfl
    · simp only [Bool.not_true, Bool.false_eq_true, if_false]
      rcases h1 with h | h | h | h <;> rw [h]
      · right; exact .openRemote
      · right; exact .localClosed
      · left; rfl
      · left; rfl
  · simp only [if_true]
    rcases h1 with h | h | h | h <;> rw [h]
    · right; exact .openReset
    · right; exact .localClosed
    · right; exact .remoteClosed
    · left; rfl
  · simp only [Bool.false_eq_true, if_false]
    rcases h1 with h | h | h | h <;> rw [h]
    · right; exact .openReset
    · right; exact .localClosed
    · right; exact .remoteClosed
    · left; rfl

/-- C29: CLOSED is final, from any state of any stream. -/
theorem C29_closed_final (s : Stream) (h : s.state = .closed) (es : List Event) :
    (s.run es).state = .closed := by
  induction es generalizing s with
  | nil => exact h
  | cons e es ih =>
    apply ih
    cases e <;> rename_i x <;> simp only [Stream.step, Stream.transition, Stream.markReset]
    · cases x <;> simp [h, sendEnd]
    · cases x <;> simp [h, recvEnd]
    · simp
    · simp

/-- C29: after any history of an open stream, `is_closed` is true exactly in state CLOSED, data may be
sent iff we have not ended and nothing was reset, and received iff the peer has not ended and nothing
was reset. -/
theorem C29_predicates (s : Stream) (hf : s.Fresh) (es : List Event) :
    ((s.run es).isClosed = true ↔ (s.run es).state = .closed) ∧
    ((s.run es).canSend = true ↔ ¬ WeEnded es ∧ ¬ WasReset es) ∧
    ((s.run es).canReceive = true ↔ ¬ PeerEnded es ∧ ¬ WasReset es) := by
  obtain ⟨hst⟩ := run_good (fresh_good hf) es
  obtain ⟨a, b, c, d⟩ := run_flags es s
  obtain ⟨_, h2, h3, h4, h5⟩ := hf
  rw [h3, Bool.false_or] at a
  rw [h2, Bool.false_or] at b
  rw [h5, Bool.false_or] at c
  rw [h4, Bool.false_or] at d
  unfold Stream.isClosed Stream.canSend Stream.canReceive
  rw [hst, a, b, c, d, ← any_we, ← any_peer, ← any_rst]
  cases (es.any fun e => (bits e).1) <;> cases (es.any fun e => (bits e).2.1) <;>
    cases (es.any fun e => (bits e).2.2.1) <;> cases (es.any fun e => (bits e).2.2.2) <;>
    simp [stateOf]

example : ({ Stream.new 65535 65535 with state := .open_ }).Fresh := ⟨rfl, rfl, rfl, rfl, rfl⟩
example : (({ Stream.new 65535 65535 with state := .open_ }).run
    [.received false, .received true, .sent false, .sent true]).state = .closed := by decide

/-! ## C45 receive window -/

/-- What a connection does for one DATA frame of `n` octets: account for it and, when told to, send a
WINDOW_UPDATE for everything processed so far. -/
def Stream.receiveAndUpdate (s : Stream) (n : UInt32) : Stream :=
  if (s.processReceived n).2 then (s.processReceived n).1.resetTracking (s.processReceived n).1.processed
  else (s.processReceived n).1

theorem windowThreshold_val (init : Int) (h1 : 2 ≤ init) (h2 : init ≤ 2147483647) :
    (windowThreshold init).toNat = (init / 2).toNat := by
  have h3 : (UInt32.ofNat (init / 2).toNat).toNat = (init / 2).toNat := by
    rw [UInt32.toNat_ofNat_of_lt']; simp only [UInt32.size]; omega
  unfold windowThreshold
  rw [if_neg (by simp; omega), if_neg]
  · exact h3
  · intro h
    have h' := eq_of_beq h
    have : (UInt32.ofNat (init / 2).toNat).toNat = 0 := by rw [h']; rfl
    omega

/-- C45: for every initial window 2..2^31-1 and every sequence of DATA frames of at most 2^24-1
octets, accounting each and answering with a WINDOW_UPDATE when told to keeps
`window + unacknowledged = initial`, and after each step more than half the initial window is open
again: the peer is never starved and never over-credited. -/
theorem C45_receive_window (init peer : Int) (h1 : 2 ≤ init) (h2 : init ≤ 2147483647)
    (frames : List UInt32) (hf : ∀ n ∈ frames, n.toNat < 2 ^ 24) :
    (frames.foldl Stream.receiveAndUpdate (Stream.new peer init)).localWindow +
        (frames.foldl Stream.receiveAndUpdate (Stream.new peer init)).processed.toNat = init ∧
    init / 2 < (frames.foldl Stream.receiveAndUpdate (Stream.new peer init)).localWindow := by
  suffices H : ∀ (fr : List UInt32) (s : Stream), (∀ n ∈ fr, n.toNat < 2 ^ 24) →
      s.threshold.toNat = (init / 2).toNat →
      s.localWindow + s.processed.toNat = init → s.processed.toNat < (init / 2).toNat →
      (fr.foldl Stream.receiveAndUpdate s).localWindow +
        (fr.foldl Stream.receiveAndUpdate s).processed.toNat = init ∧
      (fr.foldl Stream.receiveAndUpdate s).processed.toNat < (init / 2).toNat by
    obtain ⟨a, b⟩ := H frames (Stream.new peer init) hf (windowThreshold_val init h1 h2)
      (by simp [Stream.new]) (by simp only [Stream.new, UInt32.toNat_zero]; omega)
    exact ⟨a, by omega⟩
  intro fr
  induction fr with
  | nil => intro s _ _ a b; exact ⟨a, b⟩
  | cons n fr ih =>
    intro s hn ht hs hp
    rw [List.foldl_cons]
    have hn0 := hn n (by simp)
    have hadd : (s.processed + n).toNat = s.processed.toNat + n.toNat := by
      rw [UInt32.toNat_add]; apply Nat.mod_eq_of_lt; omega
    apply ih _ (fun m hm => hn m (by simp [hm]))
    · unfold Stream.receiveAndUpdate; split <;> exact ht
    · unfold Stream.receiveAndUpdate
      split
      · simp only [Stream.processReceived, Stream.resetTracking, hadd, UInt32.toNat_zero]; omega
      · simp only [Stream.processReceived, hadd]; omega
    · unfold Stream.receiveAndUpdate
      split
      · simp only [Stream.resetTracking, UInt32.toNat_zero]; omega
      · rename_i hns
        simp only [Stream.processReceived, shouldSendWindowUpdate] at hns ⊢
        have h0 : s.threshold > 0 := by
          rw [gt_iff_lt, UInt32.lt_iff_toNat_lt, UInt32.toNat_zero]; omega
        have : ¬ (s.processed + n ≥ s.threshold) := by
          intro hge; apply hns; simp [hge, h0]
        rw [ge_iff_le, UInt32.le_iff_toNat_le] at this
        omega

example : (2 : Int) ≤ 65535 ∧ (65535 : Int) ≤ 2147483647 ∧
    ∀ n ∈ [(16384 : UInt32), 16384, 100], n.toNat < 2 ^ 24 := by decide
example : ([16384, 16384, 100].foldl Stream.receiveAndUpdate (Stream.new 65535 65535)).localWindow = 65435 := by
  decide

/-- C45: whatever the state of the stream, the code never asks for a WINDOW_UPDATE of zero octets
(RFC 9113 §6.9 makes a zero increment a protocol error), and it asks only once the threshold is
reached. -/
theorem C45_no_zero_update (s : Stream) (n : UInt32) (h : (s.processReceived n).2 = true) :
    (s.processReceived n).1.processed ≠ 0 ∧
    s.threshold ≤ (s.processReceived n).1.processed := by
  simp only [Stream.processReceived, shouldSendWindowUpdate, Bool.and_eq_true, decide_eq_true_eq,
    ge_iff_le, gt_iff_lt] at h ⊢
  refine ⟨fun h0 => ?_, h.1⟩
  have a := UInt32.le_iff_toNat_le.mp h.1
  have b := UInt32.lt_iff_toNat_lt.mp h.2
  rw [h0] at a
  simp only [UInt32.toNat_zero] at a b
  omega

/-- C45: a window too small for halving (initial size below 2, including 0 and negative) is
acknowledged after every single non-empty frame. -/
theorem C45_small_window (init peer : Int) (n : UInt32) (h : init < 2) (hn : n ≠ 0) :
    ((Stream.new peer init).processReceived n).2 = true := by
  have ht : windowThreshold init = 1 := by
    unfold windowThreshold
    by_cases h0 : init ≤ 0
    · rw [if_pos (by simp [h0])]
    · have : init = 1 := by omega
      subst this; decide
  have hn' : n.toNat ≠ 0 := fun e => hn (UInt32.toNat.inj e)
  simp only [Stream.processReceived, shouldSendWindowUpdate, Stream.new, ht, Bool.and_eq_true,
    decide_eq_true_eq, ge_iff_le, gt_iff_lt, UInt32.zero_add]
  refine ⟨?_, by decide⟩
  rw [UInt32.le_iff_toNat_le]
  show 1 ≤ n.toNat
  omega

example : ((Stream.new 65535 4).processReceived 2).2 = true := by decide
example : (1 : Int) < 2 ∧ (7 : UInt32) ≠ 0 := by decide

/-! ## C30 Content-Length -/

theorem trimWs_isTrim (s : Bytes) : IsTrim s (trimWs s) := C05_trim_exact s

theorem isWs_iff (c : UInt8) : isWs c = true ↔ Ows c := by simp [isWs, Ows]

theorem trim_eq {t u : Bytes} (h : IsTrim t u) : trimWs t = u := by
  obtain ⟨pre, post, e, hpre, hpost, hh, hl⟩ := h
  subst e
  have d1 : ∀ (p r : Bytes), (∀ c ∈ p, Ows c) → (p ++ r).dropWhile isWs = r.dropWhile isWs := by
    intro p r hp
    induction p with
    | nil => rfl
    | cons c p ih =>
      rw [List.cons_append, List.dropWhile_cons_of_pos ((isWs_iff c).2 (hp c (by simp)))]
      exact ih fun x hx => hp x (by simp [hx])
  have d2 : ∀ r : Bytes, (∀ c, r.head? = some c → ¬ Ows c) → r.dropWhile isWs = r := by
    intro r hr
    cases r with
    | nil => rfl
    | cons c r =>
      rw [List.dropWhile_cons_of_neg]
      rw [isWs_iff]; exact hr c rfl
  unfold trimWs
  rw [List.append_assoc, d1 pre _ hpre]
  by_cases hu : u = []
  · subst hu
    have : (post.dropWhile isWs) = [] := by
      have := d1 post [] hpost
      simpa using this
    simp [this]
  · rw [d2 (u ++ post), List.reverse_append, d1, d2, List.reverse_reverse]
    · intro c hc; apply hl c; simpa using hc
    · intro c hc; exact hpost c (by simpa using hc)
    · intro c hc; apply hh c
      cases u with
      | nil => exact absurd rfl hu
      | cons a u => simpa using hc

theorem digit_iff (c : UInt8) : (c < 48 || c > 57) = false ↔ Digit c := by
  unfold Digit
  simp only [Bool.or_eq_false_iff, decide_eq_false_iff_not, UInt8.not_lt, gt_iff_lt,
    UInt8.le_iff_toNat_le]
  simp

theorem foldl_decimal_ge (ds : Bytes) (n : Nat) :
    n ≤ ds.foldl (fun n c => 10 * n + (c.toNat - 48)) n := by
  induction ds generalizing n with
  | nil => simp
  | cons c ds ih => rw [List.foldl_cons]; exact le_trans (by omega) (ih _)

theorem clLoop_spec (ds : Bytes) (p : UInt64) (n : UInt64) :
    clLoop p ds = some n ↔ (∀ c ∈ ds, Digit c) ∧
      ds.foldl (fun n c => 10 * n + (c.toNat - 48)) p.toNat = n.toNat := by
  induction ds generalizing p with
  | nil =>
    simp only [clLoop, Option.some.injEq, List.not_mem_nil, false_imp_iff, implies_true, true_and,
      List.foldl_nil]
    exact ⟨fun h => by rw [h], fun h => UInt64.toNat.inj h⟩
  | cons c ds ih =>
    rw [clLoop]
    by_cases hd : (c < 48 || c > 57) = true
    · rw [if_pos hd]
      simp only [reduceCtorEq, false_iff, not_and]
      intro h
      have := (digit_iff c).2 (h c (by simp))
      rw [this] at hd; exact absurd hd (by simp)
    · rw [if_neg hd]
      have hdig : Digit c := (digit_iff c).1 (by simpa using hd)
      have hc : (c - 48).toNat = c.toNat - 48 := by
        have h48 : (48 : UInt8) ≤ c := by rw [UInt8.le_iff_toNat_le]; exact hdig.1
        rw [UInt8.toNat_sub_of_le _ _ h48]; rfl
      have hc9 : c.toNat - 48 ≤ 9 := by have := hdig.2; omega
      have hq : ((0xFFFFFFFFFFFFFFFF - (c - 48).toUInt64) / 10 : UInt64).toNat =
          (18446744073709551615 - (c.toNat - 48)) / 10 := by
        rw [UInt64.toNat_div, UInt64.toNat_sub_of_le]
        · rw [UInt8.toNat_toUInt64, hc]; rfl
        · rw [UInt64.le_iff_toNat_le, UInt8.toNat_toUInt64, hc]
          show c.toNat - 48 ≤ 18446744073709551615
          omega
      by_cases ho : p > (0xFFFFFFFFFFFFFFFF - (c - 48).toUInt64) / 10
      · rw [if_pos ho]
        rw [gt_iff_lt, UInt64.lt_iff_toNat_lt, hq] at ho
        simp only [reduceCtorEq, false_iff, not_and, List.foldl_cons]
        intro _ heq
        have := foldl_decimal_ge ds (10 * p.toNat + (c.toNat - 48))
        have := n.toNat_lt
        omega
      · rw [if_neg ho]
        rw [gt_iff_lt, UInt64.lt_iff_toNat_lt, hq] at ho
        have hv : (p * 10 + (c - 48).toUInt64).toNat = 10 * p.toNat + (c.toNat - 48) := by
          rw [UInt64.toNat_add, UInt64.toNat_mul, UInt8.toNat_toUInt64, hc]
          have : (10 : UInt64).toNat = 10 := rfl
          rw [this]
          omega
        rw [ih, hv]
        simp only [List.mem_cons, forall_eq_or_imp, List.foldl_cons]
        exact ⟨fun h => ⟨⟨hdig, h.1⟩, h.2⟩, fun h => ⟨h.1.2, h.2⟩⟩

theorem digit_not_ows {c : UInt8} (h : Digit c) : ¬ Ows c := by
  rintro (rfl | rfl)
  · exact absurd h (by unfold Digit; decide)
  · exact absurd h (by unfold Digit; decide)

/-- C30: `parse_content_length` returns `n` exactly for field values made of optional white space
around a non-empty digit string of decimal value `n` (necessarily below 2^64). -/
theorem C30_content_length_exact (value : Bytes) (n : UInt64) :
    parseContentLength value = some n ↔ DenotesLength value n.toNat := by
  unfold parseContentLength
  have ht := trimWs_isTrim value
  constructor
  · intro h
    by_cases he : (trimWs value).isEmpty = true
    · rw [if_pos he] at h; exact absurd h (by simp)
    · rw [if_neg he, clLoop_spec] at h
      obtain ⟨pre, post, e, hpre, hpost, _, _⟩ := ht
      exact ⟨pre, trimWs value, post, e, hpre, hpost, by simpa using he, h.1, h.2⟩
  · rintro ⟨pre, ds, post, e, hpre, hpost, hne, hdig, hval⟩
    have : trimWs value = ds := by
      apply trim_eq
      refine ⟨pre, post, e, hpre, hpost, ?_, ?_⟩
      · intro c hc; exact digit_not_ows (hdig c (List.mem_of_mem_head? hc))
      · intro c hc; exact digit_not_ows (hdig c (List.mem_of_mem_getLast? hc))
    rw [this, if_neg (by simpa using hne), clLoop_spec]
    exact ⟨hdig, hval⟩

/-- C30: rejection happens exactly when the value denotes no length below 2^64: in particular values
of 2^64 and above are rejected, never wrapped. -/
theorem C30_content_length_reject (value : Bytes) :
    parseContentLength value = none ↔ ∀ n, n < 2 ^ 64 → ¬ DenotesLength value n := by
  constructor
  · intro h n hn hd
    have := (C30_content_length_exact value (UInt64.ofNat n)).2 (by
      rw [UInt64.toNat_ofNat_of_lt' (by simpa using hn)]; exact hd)
    rw [h] at this; exact absurd this (by simp)
  · intro h
    cases hp : parseContentLength value with
    | none => rfl
    | some n => exact absurd ((C30_content_length_exact value n).1 hp) (h _ n.toNat_lt)

example : parseContentLength b!" \t18446744073709551615 " = some 18446744073709551615 := by decide
example : parseContentLength b!"18446744073709551616" = none := by decide
example : DenotesLength b!" 42" 42 :=
  ⟨b!" ", b!"42", [], rfl, by simp [Ows], by simp, by simp, by unfold Digit; decide, by decide⟩

/-! ## C31 / C46 pseudo headers -/

theorem isPseudo_iff (name : Bytes) : isPseudo name = true ↔ Pseudo name := by
  unfold isPseudo Pseudo
  cases name with
  | nil => simp
  | cons c t => simp

theorem filter_nil_of_not {hs : List (Bytes × Bytes)} {n : Bytes}
    (h : ∀ x ∈ hs, x.1 ≠ n) : hs.filter (fun h => h.1 == n) = [] := by
  rw [List.filter_eq_nil_iff]
  intro x hx; simpa using h x hx

/-- `p` once if not seen yet, never if seen. -/
def Need (seen : Bool) (n : Bytes) (hs : List (Bytes × Bytes)) : Prop :=
  if seen then hs.filter (fun h => h.1 == n) = [] else ExactlyOnce n (· ≠ []) hs

theorem need_skip {seen : Bool} {n : Bytes} {h : Bytes × Bytes} {t : List (Bytes × Bytes)} (hne : h.1 ≠ n) :
    Need seen n (h :: t) ↔ Need seen n t := by
  have e : (h :: t).filter (fun h => h.1 == n) = t.filter (fun h => h.1 == n) := by
    rw [List.filter_cons_of_neg]; simpa using hne
  cases seen
  · simp only [Need, ExactlyOnce, e]
  · simp [Need, e]

theorem need_hit {seen : Bool} {n : Bytes} {h : Bytes × Bytes} {t : List (Bytes × Bytes)} (hn : h.1 = n) :
    Need seen n (h :: t) ↔ seen = false ∧ h.2 ≠ [] ∧ Need true n t := by
  have e : (h :: t).filter (fun h => h.1 == n) = h :: t.filter (fun h => h.1 == n) := by
    rw [List.filter_cons_of_pos]; simpa using hn
  obtain ⟨a, v⟩ := h
  subst hn
  cases seen
  · simp only [Need, ExactlyOnce, e]
    simp only [Bool.false_eq_true, if_false, if_true, true_and]
    constructor
    · rintro ⟨w, hw, heq⟩
      have := List.cons.inj heq
      exact ⟨by rw [show v = w from congrArg Prod.snd this.1]; exact hw, this.2⟩
    · rintro ⟨hv, hf⟩; exact ⟨v, hv, by rw [hf]⟩
  · simp [Need, e]

/-- Every pseudo header of `hs` is one of the four request pseudo headers. -/
def OnlyRequestPseudo (hs : List (Bytes × Bytes)) : Prop :=
  ∀ h ∈ hs, Pseudo h.1 → h.1 = b!":method" ∨ h.1 = b!":path" ∨ h.1 = b!":scheme" ∨ h.1 = b!":authority"

theorem pseudo_of_names {n : Bytes} (h : n = b!":method" ∨ n = b!":path" ∨ n = b!":scheme" ∨ n = b!":authority") :
    Pseudo n := by
  rcases h with rfl | rfl | rfl | rfl <;> exact ⟨_, rfl⟩

theorem reqLoop_spec (hs : List (Bytes × Bytes)) (s : Seen) :
    reqPseudoLoop s hs = true ↔ OnlyRequestPseudo hs ∧ Need s.method b!":method" hs ∧
      Need s.path b!":path" hs ∧ Need s.scheme b!":scheme" hs ∧ Need s.authority b!":authority" hs := by
  induction hs generalizing s with
  | nil =>
    have hn : ∀ (b : Bool) (n : Bytes), Need b n [] ↔ b = true := by
      intro b n; cases b <;> simp [Need, ExactlyOnce]
    simp only [reqPseudoLoop, hn, OnlyRequestPseudo]
    simp [and_assoc]
  | cons h t ih =>
    have hsplit : OnlyRequestPseudo (h :: t) ↔ (Pseudo h.1 → h.1 = b!":method" ∨ h.1 = b!":path" ∨
        h.1 = b!":scheme" ∨ h.1 = b!":authority") ∧ OnlyRequestPseudo t := by
      simp [OnlyRequestPseudo]
    rw [reqPseudoLoop, hsplit]
    by_cases hp : isPseudo h.1 = true
    · rw [if_neg (by simp [hp])]
      by_cases h1 : h.1 = b!":method"
      · rw [if_pos (by simp [h1]), need_hit h1, need_skip (n := b!":path") (by rw [h1]; decide),
          need_skip (n := b!":scheme") (by rw [h1]; decide), need_skip (n := b!":authority") (by rw [h1]; decide)]
        cases hm : s.method
        · by_cases hv : h.2 = []
          · simp [hv]
          · rw [if_neg (by simp), if_neg (by simpa using hv), ih]
            simp only [h1, true_or, implies_true, true_and, ne_eq, hv, not_false_eq_true]
        · simp
      rw [if_neg (by simpa using h1)]
      by_cases h2 : h.1 = b!":path"
      · rw [if_pos (by simp [h2]), need_hit h2, need_skip (n := b!":method") (by rw [h2]; decide),
          need_skip (n := b!":scheme") (by rw [h2]; decide), need_skip (n := b!":authority") (by rw [h2]; decide)]
        cases hm : s.path
        · by_cases hv : h.2 = []
          · simp [hv]
          · rw [if_neg (by simp), if_neg (by simpa using hv), ih]
            simp only [h2, true_or, or_true, implies_true, true_and, ne_eq, hv, not_false_eq_true]
        · simp
      rw [if_neg (by simpa using h2)]
      by_cases h3 : h.1 = b!":scheme"
      · rw [if_pos (by simp [h3]), need_hit h3, need_skip (n := b!":method") (by rw [h3]; decide),
          need_skip (n := b!":path") (by rw [h3]; decide), need_skip (n := b!":authority") (by rw [h3]; decide)]
        cases hm : s.scheme
        · by_cases hv : h.2 = []
          · simp [hv]
          · rw [if_neg (by simp), if_neg (by simpa using hv), ih]
            simp only [h3, true_or, or_true, implies_true, true_and, ne_eq, hv, not_false_eq_true]
        · simp
      rw [if_neg (by simpa using h3)]
      by_cases h4 : h.1 = b!":authority"
      · rw [if_pos (by simp [h4]), need_hit h4, need_skip (n := b!":method") (by rw [h4]; decide),
          need_skip (n := b!":path") (by rw [h4]; decide), need_skip (n := b!":scheme") (by rw [h4]; decide)]
        cases hm : s.authority
        · by_cases hv : h.2 = []
          · simp [hv]
          · rw [if_neg (by simp), if_neg (by simpa using hv), ih]
            simp only [h4, or_true, implies_true, true_and, ne_eq, hv, not_false_eq_true]
        · simp
      rw [if_neg (by simpa using h4)]
      simp only [Bool.false_eq_true, false_iff, not_and]
      rintro ⟨hh, _⟩
      rcases hh ((isPseudo_iff _).1 hp) with h | h | h | h <;> contradiction
    · have hnp : ¬ Pseudo h.1 := fun hh => hp ((isPseudo_iff _).2 hh)
      rw [if_pos (by simpa using hp), ih,
        need_skip (n := b!":method") (fun e => hnp (e ▸ ⟨_, rfl⟩)),
        need_skip (n := b!":path") (fun e => hnp (e ▸ ⟨_, rfl⟩)),
        need_skip (n := b!":scheme") (fun e => hnp (e ▸ ⟨_, rfl⟩)),
        need_skip (n := b!":authority") (fun e => hnp (e ▸ ⟨_, rfl⟩))]
      simp [hnp]

/-- C31: request pseudo-header validation accepts exactly the header lists in which `:method`,
`:path`, `:scheme` and `:authority` each occur exactly once, with a non-empty value, and no other
name begins with `:`. -/
theorem C31_request_pseudo_exact (hs : List (Bytes × Bytes)) :
    validateRequestPseudo hs = true ↔
      (∀ h ∈ hs, Pseudo h.1 → h.1 ∈ [b!":method", b!":path", b!":scheme", b!":authority"]) ∧
      ∀ n ∈ [b!":method", b!":path", b!":scheme", b!":authority"], ExactlyOnce n (· ≠ []) hs := by
  unfold validateRequestPseudo
  rw [reqLoop_spec]
  simp only [Need, Bool.false_eq_true, if_false, OnlyRequestPseudo, List.mem_cons, List.not_mem_nil,
    or_false, forall_eq_or_imp, forall_eq]

/-- C31: the order check accepts exactly when no pseudo header follows a regular one. -/
theorem C31_order_exact (hs : List (Bytes × Bytes)) :
    validateOrder hs = true ↔
      ∃ pseudo regular, hs = pseudo ++ regular ∧ (∀ h ∈ pseudo, Pseudo h.1) ∧
        (∀ h ∈ regular, ¬ Pseudo h.1) := by
  unfold validateOrder
  have hT : ∀ l : List (Bytes × Bytes), orderLoop true l = true ↔ ∀ h ∈ l, ¬ Pseudo h.1 := by
    intro l
    induction l with
    | nil => simp [orderLoop]
    | cons h t ih =>
      rw [orderLoop]
      by_cases hp : isPseudo h.1 = true
      · rw [if_pos hp]
        have := (isPseudo_iff _).1 hp
        simp [this]
      · rw [if_neg hp, ih]
        have : ¬ Pseudo h.1 := fun hh => hp ((isPseudo_iff _).2 hh)
        simp [this]
  induction hs with
  | nil => simp [orderLoop]
  | cons h t ih =>
    rw [orderLoop]
    by_cases hp : isPseudo h.1 = true
    · have hp' := (isPseudo_iff _).1 hp
      rw [if_pos hp, if_neg (by simp)]
      refine Iff.trans ih ?_
      constructor
      · rintro ⟨p, r, e, h1, h2⟩
        exact ⟨h :: p, r, by rw [e]; rfl, by simpa [hp'] using h1, h2⟩
      · rintro ⟨p, r, e, h1, h2⟩
        cases p with
        | nil =>
          simp only [List.nil_append] at e
          exact absurd hp' (h2 h (by rw [← e]; simp))
        | cons x p =>
          simp only [List.cons_append, List.cons.injEq] at e
          exact ⟨p, r, e.2, fun y hy => h1 y (by simp [hy]), h2⟩
    · rw [if_neg hp, hT]
      have hnp : ¬ Pseudo h.1 := fun hh => hp ((isPseudo_iff _).2 hh)
      constructor
      · intro ht; exact ⟨[], h :: t, rfl, by simp, by simpa [hnp] using ht⟩
      · rintro ⟨p, r, e, h1, h2⟩
        cases p with
        | nil =>
          simp only [List.nil_append] at e
          intro x hx; exact h2 x (by rw [← e]; simp [hx])
        | cons x p =>
          simp only [List.cons_append, List.cons.injEq] at e
          exact absurd (h1 x (by simp)) (e.1 ▸ hnp)

example : validateRequestPseudo [(b!":method", b!"GET"), (b!":path", b!"/"), (b!":scheme", b!"https"),
    (b!":authority", b!"a.example"), (b!"accept", b!"*/*")] = true := by decide
example : validateRequestPseudo [(b!":method", b!"GET"), (b!":path", b!"/"), (b!":scheme", b!"https"),
    (b!":authority", b!"a.example"), (b!":path", b!"/x")] = false := by decide
example : validateOrder [(b!":method", b!"GET"), (b!"a", b!"b")] = true ∧
    validateOrder [(b!"a", b!"b"), (b!":method", b!"GET")] = false := by decide

/-! ## C46 -/

/-- A three-digit status. -/
def ThreeDigits (v : Bytes) : Prop := v.length = 3 ∧ ∀ c ∈ v, Digit c

theorem respLoop_spec (hs : List (Bytes × Bytes)) (has : Bool) :
    respPseudoLoop has hs = true ↔ (∀ h ∈ hs, Pseudo h.1 → h.1 = b!":status") ∧
      (if has then hs.filter (fun h => h.1 == b!":status") = []
       else ExactlyOnce b!":status" ThreeDigits hs) := by
  induction hs generalizing has with
  | nil => cases has <;> simp [respPseudoLoop, ExactlyOnce]
  | cons h t ih =>
    rw [respPseudoLoop]
    by_cases hp : isPseudo h.1 = true
    · rw [if_neg (by simp [hp])]
      by_cases h1 : h.1 = b!":status"
      · have e : (h :: t).filter (fun h => h.1 == b!":status") = h :: t.filter (fun h => h.1 == b!":status") := by
          rw [List.filter_cons_of_pos]; simpa using h1
        rw [if_pos (by simpa using h1)]
        cases has
        · rw [if_neg (by simp)]
          have hv : ThreeDigits h.2 ↔ (h.2.isEmpty || h.2.length != 3) = false ∧
              (h.2.any fun c => c < 48 || c > 57) = false := by
            unfold ThreeDigits
            rw [List.any_eq_false]
            constructor
            · rintro ⟨hl, hd⟩
              refine ⟨?_, fun c hc => by simpa using (digit_iff c).2 (hd c hc)⟩
              cases hh : h.2 with
              | nil => rw [hh] at hl; simp at hl
              | cons a b => rw [← hh]; simp [hl]; intro hx; rw [hx] at hl; simp at hl
            · rintro ⟨hl, hd⟩
              refine ⟨?_, fun c hc => (digit_iff c).1 (by simpa using hd c hc)⟩
              simp at hl; exact hl.2
          have hex : ExactlyOnce b!":status" ThreeDigits (h :: t) ↔
              ThreeDigits h.2 ∧ t.filter (fun h => h.1 == b!":status") = [] := by
            unfold ExactlyOnce
            rw [e]
            obtain ⟨a, v⟩ := h
            simp only at h1; subst h1
            constructor
            · rintro ⟨w, hw, heq⟩
              have := List.cons.inj heq
              exact ⟨by rw [show v = w from congrArg Prod.snd this.1]; exact hw, this.2⟩
            · rintro ⟨hv, hf⟩; exact ⟨v, hv, by rw [hf]⟩
          rw [if_neg (c := false = true) (by simp), hex, hv]
          by_cases ha : (h.2.isEmpty || h.2.length != 3) = true
          · rw [if_pos ha]; simp only [ha]; simp
          · rw [if_neg ha]
            by_cases hb : (h.2.any fun c => c < 48 || c > 57) = true
            · rw [if_pos hb]; simp only [hb]; simp
            · rw [if_neg hb, ih]
              simp only [Bool.not_eq_true] at ha hb
              simp [h1, ha, hb]
        · rw [if_pos rfl, if_pos rfl, e]; simp
      · rw [if_neg (by simpa using h1)]
        simp only [Bool.false_eq_true, false_iff, not_and]
        intro hh
        exact absurd (hh h (by simp) ((isPseudo_iff _).1 hp)) h1
    · have hnp : ¬ Pseudo h.1 := fun hh => hp ((isPseudo_iff _).2 hh)
      have hne : h.1 ≠ b!":status" := fun e => hnp (e ▸ ⟨_, rfl⟩)
      have e : (h :: t).filter (fun h => h.1 == b!":status") = t.filter (fun h => h.1 == b!":status") := by
        rw [List.filter_cons_of_neg]; simpa using hne
      rw [if_pos (by simpa using hp), ih]
      unfold ExactlyOnce
      rw [e]
      simp [hnp]

/-- C46: response pseudo-header validation accepts exactly the header lists whose only pseudo header
is a single `:status` of three digits. -/
theorem C46_response_pseudo_exact (hs : List (Bytes × Bytes)) :
    validateResponsePseudo hs = true ↔
      (∀ h ∈ hs, Pseudo h.1 → h.1 = b!":status") ∧ ExactlyOnce b!":status" ThreeDigits hs := by
  unfold validateResponsePseudo; rw [respLoop_spec]; simp

example : validateResponsePseudo [(b!":status", b!"200"), (b!"a", b!"")] = true ∧
    validateResponsePseudo [(b!":status", b!"2000")] = false ∧
    validateResponsePseudo [(b!":status", b!"200"), (b!":path", b!"/")] = false := by decide

/-! ## C47 header fields -/

theorem nameByteOk_iff : ∀ c : UInt8, nameByteOk c = decide (c ∈ nameAlphabet) :=
  forall_byte (by decide +kernel)

theorem valueByteOk_iff : ∀ c : UInt8, valueByteOk c = true ↔ FieldValueByte c := by
  unfold FieldValueByte
  exact forall_byte (by decide +kernel)

/-- C47: a header field is accepted iff its name is a non-empty string of lower-case token
characters and its value contains only field-value octets (no NUL, CR, LF, other controls or DEL). -/
theorem C47_header_field_exact (name value : Bytes) :
    isValidHeaderField name value = true ↔
      name ≠ [] ∧ (∀ c ∈ name, c ∈ nameAlphabet) ∧ (∀ c ∈ value, FieldValueByte c) := by
  unfold isValidHeaderField isValidHeaderValue
  by_cases h : name = []
  · simp [h]
  · rw [if_neg (by simpa using h)]
    by_cases h2 : name.all nameByteOk = true
    · rw [if_pos h2]
      rw [List.all_eq_true] at h2 ⊢
      simp only [valueByteOk_iff]
      refine ⟨fun hv => ⟨h, fun c hc => ?_, hv⟩, fun hv => hv.2.2⟩
      have := h2 c hc; rw [nameByteOk_iff] at this; simpa using this
    · rw [if_neg h2]
      simp only [Bool.false_eq_true, false_iff, not_and]
      intro _ hn
      exact absurd (List.all_eq_true.2 fun c hc => by rw [nameByteOk_iff]; simpa using hn c hc) h2

/-- C47: in particular neither an accepted name nor an accepted value can smuggle a line break, and
an accepted name is never a pseudo header. -/
theorem C47_no_injection (name value : Bytes) (h : isValidHeaderField name value = true) :
    (13 ∉ name ∧ 10 ∉ name ∧ 0 ∉ name ∧ ¬ Pseudo name) ∧ (13 ∉ value ∧ 10 ∉ value ∧ 0 ∉ value) := by
  obtain ⟨_, hn, hv⟩ := (C47_header_field_exact name value).1 h
  refine ⟨⟨fun hc => ?_, fun hc => ?_, fun hc => ?_, ?_⟩, fun hc => ?_, fun hc => ?_, fun hc => ?_⟩
  · exact absurd (hn _ hc) (by decide)
  · exact absurd (hn _ hc) (by decide)
  · exact absurd (hn _ hc) (by decide)
  · rintro ⟨t, rfl⟩; exact absurd (hn 58 (by simp)) (by decide)
  · exact absurd (hv _ hc) (by unfold FieldValueByte; decide)
  · exact absurd (hv _ hc) (by unfold FieldValueByte; decide)
  · exact absurd (hv _ hc) (by unfold FieldValueByte; decide)

/-- C47: connection-specific headers are refused: exactly these names are forbidden in requests,
responses (`te` too) and trailers (`trailer`, `content-length` too). -/
theorem C47_forbidden_exact (name : Bytes) :
    (isForbiddenHeader name = true ↔ name ∈ [b!"connection", b!"upgrade", b!"http2-settings",
        b!"transfer-encoding", b!"proxy-connection", b!"keep-alive", b!"host"]) ∧
    (isForbiddenResponseHeader name = true ↔ isForbiddenHeader name = true ∨ name = b!"te") ∧
    (isForbiddenTrailerHeader name = true ↔
      isForbiddenResponseHeader name = true ∨ name = b!"trailer" ∨ name = b!"content-length") := by
  refine ⟨?_, ?_, ?_⟩
  · unfold isForbiddenHeader
    by_cases h : name = b!"te"
    · subst h; decide
    · rw [if_neg (by simpa using h), List.contains_iff_mem]
      simp only [List.mem_cons, List.not_mem_nil, or_false, h, false_or]
  · simp [isForbiddenResponseHeader]
  · simp [isForbiddenTrailerHeader, or_assoc]

example : isValidHeaderField b!"x-a" b!"v 1\t" = true ∧ isValidHeaderField b!"X" b!"" = false := by decide

/-! ## C48 TE -/

theorem teLoop_split (s : Bytes) (saw : Bool) :
    teLoop s saw = ((splitAndTrim s c!",").all (fun t => iequals t b!"trailers") &&
      (saw || !(splitAndTrim s c!",").isEmpty)) := by
  induction hl : s.length using Nat.strong_induction_on generalizing s saw with
  | _ n ih =>
    rw [teLoop.eq_def]
    by_cases he : s.isEmpty = true
    · rw [if_pos he]
      have : s = [] := by simpa using he
      subst this
      rw [splitAndTrim.eq_def]
      simp [findChar, trimWs]
    · rw [if_neg he, splitAndTrim.eq_def]
      cases hf : findChar c!"," s with
      | none =>
        simp only []
        unfold teTokenBad
        by_cases ht : (trimWs s).isEmpty = true
        · simp [ht]
        · simp only [ht, Bool.not_false, Bool.true_and, Bool.or_true, if_false]
          cases hi : iequals (trimWs s) b!"trailers" <;> simp [hi]
      | some pr =>
        obtain ⟨tok, rest⟩ := pr
        simp only []
        have hlen := findChar_length hf
        rw [ih rest.length (by omega) rest _ rfl]
        unfold teTokenBad
        by_cases ht : (trimWs tok).isEmpty = true
        · simp [ht]
        · simp only [ht, Bool.not_false, Bool.true_and, Bool.or_true, if_false]
          cases hi : iequals (trimWs tok) b!"trailers" <;> simp [hi]

/-- C48: a request `TE` value is accepted iff its comma-separated list, after trimming and dropping
empty elements, is non-empty and every element equals `trailers` up to ASCII case. -/
theorem C48_te_exact (value : Bytes) (fields els : List Bytes) (hf : IsFields c!"," value fields)
    (hl : els.length = fields.length)
    (htr : ∀ (i : Nat) f t, fields[i]? = some f → els[i]? = some t → IsTrim f t) :
    isValidTe value = true ↔
      (∃ e ∈ els, e ≠ []) ∧ ∀ e ∈ els, e ≠ [] → e.map lower = b!"trailers" := by
  obtain ⟨fs, tr, h1, h2, h3, h4, h5⟩ := C05_split_trim_exact value c!","
  have hfe := h2 fields hf
  have he : els = tr := by
    apply List.ext_getElem (by rw [h3, hl, hfe])
    intro i hi1 hi2
    have hi : i < fields.length := by omega
    have a := htr i fields[i] els[i] (List.getElem?_eq_getElem hi) (List.getElem?_eq_getElem hi1)
    have b := h4 i fields[i] tr[i] (by rw [← hfe]; exact List.getElem?_eq_getElem hi) (List.getElem?_eq_getElem hi2)
    rw [← trim_eq a, trim_eq b]
  subst he
  unfold isValidTe
  rw [teLoop_split, h5]
  have hlow : (b!"trailers").map lower = b!"trailers" := by decide
  simp only [Bool.and_eq_true, List.all_eq_true, List.mem_filter, Bool.false_or, Bool.not_eq_true',
    C04_iequals_exact, hlow, decide_eq_true_eq, and_imp, ne_eq]
  constructor
  · rintro ⟨a, b⟩
    refine ⟨?_, a⟩
    by_contra hc
    have : (els.filter fun x => decide (¬ x = [])) = [] := by
      rw [List.filter_eq_nil_iff]; intro x hx hh
      exact hc ⟨x, hx, by simpa using hh⟩
    rw [this] at b; simp at b
  · rintro ⟨⟨e, he, hne⟩, b⟩
    refine ⟨b, ?_⟩
    cases hh : (els.filter fun x => decide (¬ x = [])) with
    | nil =>
      rw [List.filter_eq_nil_iff] at hh
      exact absurd (by simpa using hne) (hh e he)
    | cons a b => rfl

example : isValidTe b!"Trailers, trailers" = true ∧ isValidTe b!"trailers, gzip" = false ∧
    isValidTe b!" , " = false := by decide +kernel

/-! ## C49 settings, frame sizes, stream identifiers -/

/-- C49: a settings parameter is refused exactly when RFC 9113 §6.5.2 forbids its value: ENABLE_PUSH
or ENABLE_CONNECT_PROTOCOL above 1 and MAX_FRAME_SIZE outside 2^14..2^24-1 with PROTOCOL_ERROR (1),
INITIAL_WINDOW_SIZE above 2^31-1 with FLOW_CONTROL_ERROR (3); unknown identifiers are ignored. -/
theorem C49_setting_exact (id : UInt16) (v : UInt32) :
    (validateSetting id v = some 1 ↔
      ((id = 2 ∨ id = 8) ∧ 1 < v.toNat) ∨ (id = 5 ∧ (v.toNat < 2 ^ 14 ∨ 2 ^ 24 - 1 < v.toNat))) ∧
    (validateSetting id v = some 3 ↔ id = 4 ∧ 2 ^ 31 - 1 < v.toNat) ∧
    (validateSetting id v = none ∨ validateSetting id v = some 1 ∨ validateSetting id v = some 3) := by
  have a : (v > 1) = (1 < v.toNat) := by rw [gt_iff_lt, UInt32.lt_iff_toNat_lt]; rfl
  have b : (v > maxWindowLimit) = (2 ^ 31 - 1 < v.toNat) := by
    rw [gt_iff_lt, UInt32.lt_iff_toNat_lt]; rfl
  have c : (v < minMaxFrameSize) = (v.toNat < 2 ^ 14) := by rw [UInt32.lt_iff_toNat_lt]; rfl
  have d : (v > maxFrameSizeLimit) = (2 ^ 24 - 1 < v.toNat) := by
    rw [gt_iff_lt, UInt32.lt_iff_toNat_lt]; rfl
  unfold validateSetting
  by_cases h1 : id = 1
  · subst h1; simp
  by_cases h2 : id = 2
  · subst h2; by_cases hv : 1 < v.toNat <;> simp [a, hv]
  by_cases h3 : id = 3
  · subst h3; simp
  by_cases h4 : id = 4
  · subst h4; by_cases hv : 2 ^ 31 - 1 < v.toNat <;> simp [b] <;> omega
  by_cases h5 : id = 5
  · subst h5
    simp only [Bool.or_eq_true, decide_eq_true_eq, c, d]
    by_cases hv : v.toNat < 2 ^ 14 ∨ 2 ^ 24 - 1 < v.toNat
    · rw [if_neg (by decide), if_neg (by decide), if_neg (by decide), if_neg (by decide), if_pos (by decide),
        if_pos hv]; simp; omega
    · rw [if_neg (by decide), if_neg (by decide), if_neg (by decide), if_neg (by decide), if_pos (by decide),
        if_neg hv]; simp; omega
  by_cases h6 : id = 6
  · subst h6; simp
  by_cases h8 : id = 8
  · subst h8; by_cases hv : 1 < v.toNat <;> simp [a, hv]
  simp [h1, h2, h3, h4, h5, h6, h8]

/-- C49: the effective maximum frame size is always in the legal range, and is the stored setting
whenever that is legal. -/
theorem C49_frame_size (entry : Option UInt32) :
    16384 ≤ (safeMaxFrameSize entry).toNat ∧ (safeMaxFrameSize entry).toNat ≤ 16777215 ∧
    ∀ v, entry = some v → 16384 ≤ v.toNat → v.toNat ≤ 16777215 → safeMaxFrameSize entry = v := by
  cases entry with
  | none => exact ⟨by decide, by decide, by simp⟩
  | some v =>
    have hc : (v ≥ minMaxFrameSize && v ≤ maxFrameSizeLimit) = true ↔ 16384 ≤ v.toNat ∧ v.toNat ≤ 16777215 := by
      rw [Bool.and_eq_true, decide_eq_true_eq, decide_eq_true_eq, ge_iff_le, UInt32.le_iff_toNat_le,
        UInt32.le_iff_toNat_le]; rfl
    unfold safeMaxFrameSize
    by_cases h : (v ≥ minMaxFrameSize && v ≤ maxFrameSizeLimit) = true
    · simp only [h, if_true]
      have := hc.1 h
      exact ⟨this.1, this.2, fun w hw _ _ => by simpa using hw⟩
    · simp only [h, Bool.false_eq_true, if_false]
      refine ⟨by decide, by decide, fun w hw h1 h2 => ?_⟩
      simp only [Option.some.injEq] at hw
      subst hw
      exact absurd (hc.2 ⟨h1, h2⟩) h

/-- C49: connection-level frames (SETTINGS 4, PING 6, GOAWAY 7) are accepted only on stream 0, DATA,
HEADERS, PRIORITY, RST_STREAM, PUSH_PROMISE and CONTINUATION (0,1,2,3,5,9) only on a non-zero stream;
a server moreover takes HEADERS only on odd streams. -/
theorem C49_stream_id_exact (t : UInt8) (sid : UInt32) :
    (t ∈ [4, 6, 7] → ∀ srv, validateStreamId t sid srv = true ↔ sid = 0) ∧
    (t ∈ [0, 2, 3, 9] → ∀ srv, validateStreamId t sid srv = true ↔ sid ≠ 0) ∧
    (validateStreamId 1 sid true = true ↔ sid.toNat % 2 = 1) ∧
    (validateStreamId 1 sid false = true ↔ sid ≠ 0) ∧
    (validateStreamId 5 sid true = true ↔ sid.toNat % 2 = 1) ∧
    (validateStreamId 5 sid false = true ↔ sid ≠ 0 ∧ sid.toNat % 2 = 0) := by
  have hmod : ∀ r : UInt32, (sid % 2 == r) = decide (sid.toNat % 2 = r.toNat) := by
    intro r
    rw [Bool.eq_iff_iff, beq_iff_eq, decide_eq_true_eq, ← UInt32.toNat_inj, UInt32.toNat_mod]; rfl
  have h1 := hmod 1
  have h0 := hmod 0
  have hz : sid = 0 ↔ sid.toNat = 0 := by rw [← UInt32.toNat_inj]; rfl
  refine ⟨?_, ?_, ?_, ?_, ?_, ?_⟩
  · intro ht srv
    simp only [List.mem_cons, List.not_mem_nil, or_false] at ht
    rcases ht with rfl | rfl | rfl <;> simp [validateStreamId]
  · intro ht srv
    simp only [List.mem_cons, List.not_mem_nil, or_false] at ht
    rcases ht with rfl | rfl | rfl | rfl <;> simp [validateStreamId]
  all_goals
    simp only [validateStreamId, h1, h0]
    simp
    try simp [hz]
    try omega

example : validateSetting 5 16383 = some 1 ∧ validateSetting 4 0x80000000 = some 3 ∧
    validateSetting 99 7 = none ∧ safeMaxFrameSize (some 7) = 16384 ∧
    validateStreamId 1 3 true = true ∧ validateStreamId 1 4 true = false := by decide

/-- C49: an error is escalated to the connection exactly when it is reported on stream 0 or its code
is a connection error. -/
theorem C49_escalation_exact (code sid : UInt32) :
    shouldEscalate code sid = true ↔ sid = 0 ∨ ConnectionError code := by
  unfold shouldEscalate
  by_cases hs : sid = 0
  · simp [hs]
  · rw [if_neg (by simpa using hs)]
    simp only [hs, false_or]
    constructor
    · intro h
      split at h
      · rename_i h1
        simp only [Bool.or_eq_true, beq_iff_eq] at h1
        rcases h1 with ((((h1 | h1) | h1) | h1) | h1) | h1 <;> subst h1 <;> constructor
      · split at h
        · rename_i h1
          simp only [Bool.or_eq_true, beq_iff_eq] at h1
          rcases h1 with ((h1 | h1) | h1) | h1 <;> subst h1 <;> constructor
        · simp at h
    · intro h; cases h <;> decide

example : shouldEscalate 3 7 = true ∧ shouldEscalate 8 7 = false ∧ shouldEscalate 8 0 = true := by
  decide

end Verif.Stream
