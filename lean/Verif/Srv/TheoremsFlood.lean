import Verif.Srv.Still

/-! # C95: flood guards of the server connection

Replies to PING and SETTINGS, CONTINUATION frames and RST_STREAM frames are bounded, whatever else arrives. -/

namespace Verif.Srv
open Verif.Stream

variable {x : Ext}

/-! ## Specification -/

/-- DATA or HEADERS. -/
def Input.isWork : Input → Bool
  | .data _ _ _ _ _ => true
  | .headers _ _ _ _ _ => true
  | _ => false

def Input.isHeaders : Input → Bool
  | .headers _ _ _ _ _ => true
  | _ => false

/-- CONTINUATION frames, and the octets of header block in them. -/
def conts : List Input → Nat
  | [] => 0
  | .continuation _ _ _ _ :: is => 1 + conts is
  | _ :: is => conts is

def contOctets : List Input → Nat
  | [] => 0
  | .continuation _ f _ _ :: is => f.length + contOctets is
  | _ :: is => contOctets is

/-- RST_STREAM frames for client streams. -/
def resets : List Input → Nat
  | [] => 0
  | .rst sid _ :: is => (if sid % 2 = 1 then 1 else 0) + resets is
  | _ :: is => resets is

/-- All RST_STREAM frames. -/
def rsts : List Input → Nat
  | [] => 0
  | .rst _ _ :: is => 1 + rsts is
  | _ :: is => rsts is

/-- The largest stream number the client used in HEADERS. -/
def highest : List Input → Nat
  | [] => 0
  | .headers sid _ _ _ _ :: is => max sid (highest is)
  | _ :: is => highest is

/-! ## Elementary facts -/

theorem conts_append (a b : List Input) : conts (a ++ b) = conts a + conts b := by
  induction a with
  | nil => simp [conts]
  | cons i a ih => cases i <;> simp [conts, ih]; omega

theorem contOctets_append (a b : List Input) : contOctets (a ++ b) = contOctets a + contOctets b := by
  induction a with
  | nil => simp [contOctets]
  | cons i a ih => cases i <;> simp [contOctets, ih]; omega

theorem resets_append (a b : List Input) : resets (a ++ b) = resets a + resets b := by
  induction a with
  | nil => simp [resets]
  | cons i a ih => cases i <;> simp [resets, ih]; omega

theorem rsts_append (a b : List Input) : rsts (a ++ b) = rsts a + rsts b := by
  induction a with
  | nil => simp [rsts]
  | cons i a ih => cases i <;> simp [rsts, ih]; omega

theorem highest_append (a b : List Input) : highest (a ++ b) = max (highest a) (highest b) := by
  induction a with
  | nil => simp [highest]
  | cons i a ih => cases i <;> simp [highest, ih, Nat.max_assoc]

/-! ## Replies -/

theorem onSettings_rep (c : Conn x) (sid : Nat) (ack : Bool) (es : List (UInt16 × UInt32)) :
    Kept c (onSettings c sid ack es) ∨
    (∃ d, Kept c d ∧ (Kept { d with ctl := d.ctl + 1 } (onSettings c sid ack es) ∨
      (d.ctl + 1 ≤ 1000 ∧ onSettings c sid ack es = { d with ctl := d.ctl + 1 }.emit .settingsAck))) := by
  unfold onSettings
  split
  · exact .inl (.refl _)
  split
  · exact .inl (kept_goaway _ _)
  split
  · split
    · exact .inl (.refl _)
    · exact .inl (kept_goaway _ _)
  simp only []
  have k := kept_settingsLoop es c
  split
  · exact .inl k
  right
  refine ⟨_, k, ?_⟩
  split
  · exact .inl (kept_goaway _ _)
  · rename_i h
    right
    refine ⟨?_, rfl⟩
    unfold MAX_QUEUED_CONTROL_REPLIES at h
    omega

theorem onPing_rep (c : Conn x) (sid : Nat) (ack : Bool) (p : Bytes) :
    Kept c (onPing c sid ack p) ∨
    (Kept { c with ctl := c.ctl + 1 } (onPing c sid ack p) ∨
      (c.ctl + 1 ≤ 1000 ∧ onPing c sid ack p = { c with ctl := c.ctl + 1 }.emit (.pong p))) := by
  unfold onPing
  split
  · exact .inl (.refl _)
  split
  · exact .inl (kept_goaway _ _)
  split
  · exact .inl (.refl _)
  simp only []
  right
  split
  · exact .inl (kept_goaway _ _)
  · rename_i h
    right
    refine ⟨?_, rfl⟩
    unfold MAX_QUEUED_CONTROL_REPLIES at h
    omega

theorem onRst_rep (c : Conn x) (sid code : Nat) :
    (onRst c sid code).ctl = c.ctl ∧ replies (onRst c sid code).out = replies c.out ∧
    (onRst c sid code).contCount = c.contCount ∧ (onRst c sid code).frag = c.frag ∧ (onRst c sid code).curSid = c.curSid := by
  have k : ∃ b, (b = c ∨ b = { c with rstCount := c.rstCount + 1 }) ∧ Kept b (onRst c sid code) := by
    unfold onRst
    split
    · exact ⟨c, .inl rfl, .refl _⟩
    split
    · exact ⟨c, .inl rfl, kept_goaway _ _⟩
    simp only []
    have hb : (if sid ≤ c.lastClient then { c with rstCount := c.rstCount + 1 } else c) = c ∨
        (if sid ≤ c.lastClient then { c with rstCount := c.rstCount + 1 } else c) = { c with rstCount := c.rstCount + 1 } := by
      split
      · exact .inr rfl
      · exact .inl rfl
    refine ⟨_, hb, ?_⟩
    generalize (if sid ≤ c.lastClient then { c with rstCount := c.rstCount + 1 } else c) = b
    split
    · exact kept_goaway _ _
    split
    · rename_i s _
      have e1 := Kept.upd b sid (fun s => { s with rstRecv := true, err := code, state := .closed })
      have e2 := fun (q : Bool) => Kept.ite (p := q = true)
        (Kept.emit (b.upd sid (fun s => { s with rstRecv := true, err := code, state := .closed })) (.streamError sid code) rfl) (Kept.refl _)
      exact (e1.trans (e2 ((!s.dispatched || !s.endSent) && code != NO_ERROR))).trans (kept_tryClose _ _)
    · split
      · exact kept_goaway _ _
      · exact .refl _
  obtain ⟨b, hb, k⟩ := k
  rcases hb with hb | hb <;> subst hb <;> exact ⟨k.ctl, k.rep, k.cont, k.frag, k.cur⟩

theorem onGoaway_rep (c : Conn x) (last code : Nat) :
    (onGoaway c last code).ctl = c.ctl ∧ replies (onGoaway c last code).out = replies c.out ∧ (onGoaway c last code).rstCount = c.rstCount ∧
    (onGoaway c last code).contCount = c.contCount ∧ (onGoaway c last code).frag = c.frag ∧ (onGoaway c last code).curSid = c.curSid := by
  have r0 : ∀ l : List SStream, replies (l.map (goawayError code)) = 0 := fun l => by
    induction l with
    | nil => rfl
    | cons s l ih => exact ih
  unfold onGoaway
  split
  · exact ⟨rfl, rfl, rfl, rfl, rfl, rfl⟩
  simp only []
  have g : ∀ (b : Conn x), (goawayEnd b last code).ctl = b.ctl ∧ (goawayEnd b last code).out = b.out ∧ (goawayEnd b last code).rstCount = b.rstCount ∧
      (goawayEnd b last code).contCount = b.contCount ∧ (goawayEnd b last code).frag = b.frag ∧ (goawayEnd b last code).curSid = b.curSid := by
    intro b
    unfold goawayEnd
    split
    · exact ⟨rfl, rfl, rfl, rfl, rfl, rfl⟩
    split
    · exact ⟨rfl, rfl, rfl, rfl, rfl, rfl⟩
    · exact ⟨rfl, rfl, rfl, rfl, rfl, rfl⟩
  have g' := g
  refine ⟨(g _).1, ?_, (g _).2.2.1, (g _).2.2.2.1, (g _).2.2.2.2.1, (g _).2.2.2.2.2⟩
  rw [(g' _).2.1]
  show replies (c.out ++ [_] ++ _) = _
  rw [replies_append, replies_append, r0]
  rfl

/-- One input without DATA or HEADERS. -/
theorem step_rep (c : Conn x) (i : Input) (h : i.isWork = false) :
    c.ctl ≤ (step c i).ctl ∧ replies (step c i).out + min c.ctl 1000 ≤ replies c.out + min (step c i).ctl 1000 := by
  have kk : ∀ {b : Conn x}, Kept c b → c.ctl ≤ b.ctl ∧ replies b.out + min c.ctl 1000 ≤ replies c.out + min b.ctl 1000 := fun k => by
    rw [k.ctl, k.rep]; omega
  cases i with
  | data => cases h
  | headers => cases h
  | preface => exact kk (kept_onPreface _)
  | continuation sid f eh sc =>
    obtain ⟨k1, k2⟩ := quiet_onCont c sid f eh sc
    show c.ctl ≤ (onContinuation c sid f eh sc).ctl ∧ replies (onContinuation c sid f eh sc).out + _ ≤ _ + min (onContinuation c sid f eh sc).ctl _
    rw [k1.rep, k2]; omega
  | settings sid ack es =>
    show c.ctl ≤ (onSettings c sid ack es).ctl ∧ replies (onSettings c sid ack es).out + _ ≤ _ + min (onSettings c sid ack es).ctl _
    rcases onSettings_rep c sid ack es with k | ⟨d, k, k2 | ⟨hd, e⟩⟩
    · exact kk k
    · have h1 := k2.ctl
      have h2 := k2.rep
      simp only [] at h1 h2
      rw [h1, h2, k.ctl, k.rep]; omega
    · rw [e]
      show c.ctl ≤ d.ctl + 1 ∧ replies (d.out ++ [_]) + _ ≤ _ + min (d.ctl + 1) _
      rw [replies_append, k.rep]
      have := k.ctl
      simp only [replies]
      omega
  | rst sid code =>
    obtain ⟨k1, k2, _⟩ := onRst_rep c sid code
    show c.ctl ≤ (onRst c sid code).ctl ∧ replies (onRst c sid code).out + _ ≤ _ + min (onRst c sid code).ctl _
    rw [k1, k2]; omega
  | goaway last code =>
    obtain ⟨k1, k2, _⟩ := onGoaway_rep c last code
    show c.ctl ≤ (onGoaway c last code).ctl ∧ replies (onGoaway c last code).out + _ ≤ _ + min (onGoaway c last code).ctl _
    rw [k1, k2]; omega
  | windowUpdate sid inc => exact kk (kept_onWindowUpdate _ _ _)
  | ping sid ack p =>
    show c.ctl ≤ (onPing c sid ack p).ctl ∧ replies (onPing c sid ack p).out + _ ≤ _ + min (onPing c sid ack p).ctl _
    rcases onPing_rep c sid ack p with k | k2 | ⟨hd, e⟩
    · exact kk k
    · have h1 := k2.ctl
      have h2 := k2.rep
      simp only [] at h1 h2
      rw [h1, h2]; omega
    · rw [e]
      show c.ctl ≤ c.ctl + 1 ∧ replies (c.out ++ [_]) + _ ≤ _ + min (c.ctl + 1) _
      rw [replies_append]
      simp only [replies]
      omega
  | pushPromise => exact kk (kept_goaway _ _)
  | priority sid => exact kk (kept_onPriority _ _)
  | framerError code sid => exact kk (kept_onFramerError _ _ _)
  | app a => exact kk (kept_act _ _)
  | cleanup e => exact kk (kept_cleanup _ _)

theorem rep_run (c : Conn x) (mid : List Input) (h : ∀ i ∈ mid, i.isWork = false) :
    replies (run c mid).out + min c.ctl 1000 ≤ replies c.out + min (run c mid).ctl 1000 := by
  induction mid generalizing c with
  | nil => exact Nat.le_refl _
  | cons i mid ih =>
    have h1 := (step_rep c i (h i (List.mem_cons_self ..))).2
    have h2 := ih (step c i) (fun j hj => h j (List.mem_cons_of_mem _ hj))
    show replies (run (step c i) mid).out + _ ≤ _ + min (run (step c i) mid).ctl 1000
    omega

/-- **C95.** As long as the client sends neither DATA nor HEADERS, an HTTP/2 server answers at most 1000 of its PING and
SETTINGS frames, whatever came before and whatever else it sends. -/
theorem C95_replies (d : x.D) (e : x.E) (pre mid : List Input) (h : ∀ i ∈ mid, i.isWork = false) :
    replies (run (Conn.init (x := x) d e) (pre ++ mid)).out ≤ replies (run (Conn.init (x := x) d e) pre).out + 1000 := by
  rw [run_append]
  have := rep_run (run (Conn.init (x := x) d e) pre) mid h
  omega

/-! ## CONTINUATION -/

/-- After `S` octets and `N` frames of CONTINUATION since the last HEADERS. -/
structure Cont (c : Conn x) (N S : Nat) : Prop where
  n : N ≤ c.contCount
  n' : N ≤ 512
  s : S ≤ c.frag.length ∨ c.curSid = 0
  s' : S ≤ 1048576

theorem Cont.kept {a b : Conn x} {N S : Nat} (h : Cont a N S) (k : Kept a b) : Cont b N S :=
  ⟨by rw [k.cont]; exact h.n, h.n', by rw [k.frag, k.cur]; exact h.s, h.s'⟩

theorem cont_step {c : Conn x} {N S : Nat} (i : Input) (hw : i.isHeaders = false) (ha : (step c i).alive = true) (h : Cont c N S) :
    Cont (step c i) (N + conts [i]) (S + contOctets [i]) := by
  cases i with
  | headers => cases hw
  | data sid p pad fin sc =>
    show Cont (onData c sid p pad fin sc) N S
    rcases kept_onData c sid p pad fin sc with k | k
    · exact h.kept k
    · exact Cont.kept (a := { c with ctl := 0 }) ⟨h.n, h.n', h.s, h.s'⟩ k
  | preface => exact h.kept (kept_onPreface _)
  | continuation sid f eh sc =>
    have ha : (onContinuation c sid f eh sc).alive = true := ha
    show Cont (onContinuation c sid f eh sc) (N + 1) (S + f.length)
    obtain ⟨_, c0, l1, l2, k⟩ := cont_alive ha
    have hs : S ≤ c.frag.length := h.s.resolve_right c0
    have := h.n
    rcases k with ⟨_, dec, k⟩ | ⟨_, k⟩
    · exact Cont.kept (a := clearAssembly { c with contCount := c.contCount + 1, dec := dec })
        ⟨by show N + 1 ≤ c.contCount + 1; omega, by omega, .inr rfl, by omega⟩ k
    · exact Cont.kept (a := { c with contCount := c.contCount + 1, frag := c.frag ++ f })
        ⟨by show N + 1 ≤ c.contCount + 1; omega, by omega, .inl (by show _ ≤ (c.frag ++ f).length; rw [List.length_append]; omega), by omega⟩ k
  | settings sid ack es =>
    show Cont (onSettings c sid ack es) N S
    rcases onSettings_rep c sid ack es with k | ⟨b, k, k2 | ⟨hd, e⟩⟩
    · exact h.kept k
    · have h2 := h.kept k
      exact Cont.kept (a := { b with ctl := b.ctl + 1 }) ⟨h2.n, h2.n', h2.s, h2.s'⟩ k2
    · have h2 := h.kept k
      rw [e]
      exact ⟨h2.n, h2.n', h2.s, h2.s'⟩
  | rst sid code =>
    obtain ⟨_, _, k3, k4, k5⟩ := onRst_rep c sid code
    show Cont (onRst c sid code) N S
    exact ⟨by rw [k3]; exact h.n, h.n', by rw [k4, k5]; exact h.s, h.s'⟩
  | goaway last code =>
    obtain ⟨_, _, _, k3, k4, k5⟩ := onGoaway_rep c last code
    show Cont (onGoaway c last code) N S
    exact ⟨by rw [k3]; exact h.n, h.n', by rw [k4, k5]; exact h.s, h.s'⟩
  | windowUpdate sid inc => exact h.kept (kept_onWindowUpdate _ _ _)
  | ping sid ack p =>
    show Cont (onPing c sid ack p) N S
    rcases onPing_rep c sid ack p with k | k2 | ⟨hd, e⟩
    · exact h.kept k
    · exact Cont.kept (a := { c with ctl := c.ctl + 1 }) ⟨h.n, h.n', h.s, h.s'⟩ k2
    · rw [e]
      exact ⟨h.n, h.n', h.s, h.s'⟩
  | pushPromise => exact h.kept (kept_goaway _ _)
  | priority sid => exact h.kept (kept_onPriority _ _)
  | framerError code sid => exact h.kept (kept_onFramerError _ _ _)
  | app a => exact h.kept (kept_act _ _)
  | cleanup e => exact h.kept (kept_cleanup _ _)

/-- **C95.** A connection that is still processing frames has seen at most 512 CONTINUATION frames, with at most 1 MiB of
header block, since the last HEADERS frame. -/
theorem C95_continuation (d : x.D) (e : x.E) (pre mid : List Input) (h : ∀ i ∈ mid, i.isHeaders = false)
    (ha : (run (Conn.init (x := x) d e) (pre ++ mid)).alive = true) : conts mid ≤ 512 ∧ contOctets mid ≤ 1048576 := by
  have key : Cont (run (Conn.init (x := x) d e) (pre ++ mid)) (conts mid) (contOctets mid) := by
    induction mid using snocInd with
    | h0 => exact ⟨Nat.zero_le _, Nat.zero_le _, .inl (Nat.zero_le _), Nat.zero_le _⟩
    | hs mid i ih =>
      rw [← List.append_assoc, run_snoc] at ha ⊢
      rw [conts_append, contOctets_append]
      obtain ⟨_, _, p⟩ := path_step (run (Conn.init (x := x) d e) (pre ++ mid)) i ((Inv0.init d e).run _)
      exact cont_step i (h i (by simp)) ha (ih (fun j hj => h j (List.mem_append_left _ hj)) (alive_path p ha))
  exact ⟨key.n', key.s'⟩

/-! ## Rapid resets -/

theorem step_still (c : Conn x) (i : Input) (h : ∀ sid code, i ≠ .rst sid code) : (step c i).rstCount = c.rstCount := by
  cases i with
  | data sid p pad fin sc => exact (quiet_onData c sid p pad fin sc).rst
  | headers sid f fin eh sc => exact (quiet_onHeaders c sid f fin eh sc).rst
  | continuation sid f eh sc => exact (quiet_onCont c sid f eh sc).1.rst
  | preface => exact (kept_onPreface _).rst
  | settings sid ack es =>
    show (onSettings c sid ack es).rstCount = _
    rcases onSettings_rep c sid ack es with k | ⟨b, k, k2 | ⟨hd, e⟩⟩
    · exact k.rst
    · exact k2.rst.trans k.rst
    · rw [e]; exact k.rst
  | rst sid code => exact absurd rfl (h sid code)
  | goaway last code => exact (onGoaway_rep c last code).2.2.1
  | windowUpdate sid inc => exact (kept_onWindowUpdate _ _ _).rst
  | ping sid ack p =>
    show (onPing c sid ack p).rstCount = _
    rcases onPing_rep c sid ack p with k | k2 | ⟨hd, e⟩
    · exact k.rst
    · exact k2.rst
    · rw [e]; rfl
  | pushPromise => exact (kept_goaway _ _).rst
  | priority sid => exact (kept_onPriority _ _).rst
  | framerError code sid => exact (kept_onFramerError _ _ _).rst
  | app a => exact (kept_act _ _).rst
  | cleanup e => exact (kept_cleanup _ _).rst

/-- RST_STREAM: how it is counted. -/
theorem onRst_count (c : Conn x) (sid code : Nat) : (onRst c sid code).rstCount = c.rstCount ∨
    ((onRst c sid code).rstCount = c.rstCount + 1 ∧ ((onRst c sid code).alive = true →
      c.rstCount + 1 ≤ 100 ∨ (c.rstCount + 1) * 2 ≤ (c.lastClient + 1) / 2)) := by
  unfold onRst
  split
  · exact .inl rfl
  split
  · exact .inl (kept_goaway _ _).rst
  simp only []
  by_cases hl : sid ≤ c.lastClient
  · right
    rw [if_pos hl]
    split
    · refine ⟨(kept_goaway _ _).rst, fun ha => ?_⟩
      rw [goaway_dead] at ha; cases ha
    · rename_i hf
      have hb : c.rstCount + 1 ≤ 100 ∨ (c.rstCount + 1) * 2 ≤ (c.lastClient + 1) / 2 := by
        by_cases z1 : c.rstCount + 1 ≤ 100
        · exact .inl z1
        by_cases z2 : (c.rstCount + 1) * 2 ≤ (c.lastClient + 1) / 2
        · exact .inr z2
        · exfalso
          apply hf
          have y1 : c.rstCount + 1 > MAX_RAPID_RESETS := by unfold MAX_RAPID_RESETS; omega
          have y2 : (c.rstCount + 1) * 2 > (c.lastClient + 1) / 2 := by omega
          simp only [hl, y1, y2, decide_true, Bool.and_true]
      refine ⟨?_, fun _ => hb⟩
      split
      · rename_i s _
        have e1 := Kept.upd { c with rstCount := c.rstCount + 1 } sid (fun s => { s with rstRecv := true, err := code, state := .closed })
        have e2 := fun (q : Bool) => Kept.ite (p := q = true)
          (Kept.emit ({ c with rstCount := c.rstCount + 1 }.upd sid (fun s => { s with rstRecv := true, err := code, state := .closed })) (.streamError sid code) rfl)
          (Kept.refl _)
        exact ((e1.trans (e2 ((!s.dispatched || !s.endSent) && code != NO_ERROR))).trans (kept_tryClose _ _)).rst
      · split
        · exact (kept_goaway _ _).rst
        · rfl
  · left
    rw [if_neg hl]
    split
    · exact (kept_goaway _ _).rst
    split
    · rename_i s _
      have e1 := Kept.upd c sid (fun s => { s with rstRecv := true, err := code, state := .closed })
      have e2 := fun (q : Bool) => Kept.ite (p := q = true)
        (Kept.emit (c.upd sid (fun s => { s with rstRecv := true, err := code, state := .closed })) (.streamError sid code) rfl)
        (Kept.refl _)
      exact ((e1.trans (e2 ((!s.dispatched || !s.endSent) && code != NO_ERROR))).trans (kept_tryClose _ _)).rst
    · split
      · exact (kept_goaway _ _).rst
      · rfl

/-- A reset of a client stream is counted, if the connection survives it. -/
theorem onRst_counted {c : Conn x} {sid code : Nat} (hk : Known c) (ho : sid % 2 = 1) (ha : (onRst c sid code).alive = true) :
    (onRst c sid code).rstCount = c.rstCount + 1 := by
  by_cases hl : sid ≤ c.lastClient
  · have hc : c.alive = true := by
      cases h : c.alive with
      | true => rfl
      | false =>
        unfold onRst at ha
        have : (!c.ok || !c.active) = true := by
          unfold Conn.alive at h; revert h; cases c.ok <;> cases c.active <;> simp
        rw [if_pos this, h] at ha
        cases ha
    rcases onRst_count c sid code with h | h
    · exfalso
      unfold onRst at h
      obtain ⟨h1, h2⟩ := alive_iff.mp hc
      rw [if_neg (by simp [h1, h2])] at h
      rw [if_neg (by simp; omega)] at h
      simp only [] at h
      rw [if_pos hl] at h
      revert h
      split
      · intro h
        rw [(kept_goaway _ _).rst] at h
        simp at h
      split
      · rename_i s _
        have e1 := Kept.upd { c with rstCount := c.rstCount + 1 } sid (fun s => { s with rstRecv := true, err := code, state := .closed })
        have e2 := fun (q : Bool) => Kept.ite (p := q = true)
          (Kept.emit ({ c with rstCount := c.rstCount + 1 }.upd sid (fun s => { s with rstRecv := true, err := code, state := .closed })) (.streamError sid code) rfl)
          (Kept.refl _)
        have e := ((e1.trans (e2 ((!s.dispatched || !s.endSent) && code != NO_ERROR))).trans (kept_tryClose _ sid)).rst
        intro h
        have h' := e.symm.trans h
        simp at h'
      · split
        · intro h
          rw [(kept_goaway _ _).rst] at h
          simp at h
        · intro h
          simp at h
    · exact h.1
  · exfalso
    have hn : c.find sid = none := hk sid ho (by omega)
    unfold onRst at ha
    split at ha
    · rename_i h1
      obtain ⟨a1, a2⟩ := alive_iff.mp ha
      rw [a1, a2] at h1; cases h1
    split at ha
    · rw [goaway_dead] at ha; cases ha
    simp only [if_neg hl] at ha
    split at ha
    · rw [goaway_dead] at ha; cases ha
    rw [hn] at ha
    simp only [] at ha
    rw [if_pos (by omega), goaway_dead] at ha
    cases ha

theorem path_lastLe {a b : Conn x} {l : List Lab} {N : Nat} (p : Path a l b) (h : a.lastClient ≤ N) (hl : ∀ j, Lab.opened j ∈ l → j ≤ N) :
    b.lastClient ≤ N := by
  induction p with
  | refl _ => exact h
  | step m _ ih =>
    refine ih ?_ (fun j hj => hl j (List.mem_append_right _ hj))
    cases m with
    | opened j h1 h2 h3 h4 h5 => exact hl j (by simp)
    | aux _ h1 h2 h3 h4 h5 h6 h7 h8 h9 h10 => rw [h7]; exact h
    | _ => exact h

theorem opened_highest {i : Input} {ls : List Lab} (h : StepLabs i ls) {sid : Nat} (hm : Lab.opened sid ∈ ls) : sid ≤ highest [i] := by
  cases i with
  | settings k ack es =>
    have := (h _ hm).1
    cases this
  | data k d pad fin sc =>
    rcases h with e | e | e | ⟨es, rs, sl, k', e⟩ <;> subst e <;> simp at hm
    rcases hm with hm | hm
    · rcases k' with k' | ⟨f, k'⟩
      · subst k'; cases hm
      · subst k'
        simp at hm
    · exact absurd hm (labs_opened (isApp_script sl))
  | headers k frag fin eh sc =>
    obtain ⟨rs, sl, e⟩ := h
    rcases e with e | e <;> subst e
    · exact absurd hm (labs_opened (isApp_script sl))
    · rcases List.mem_cons.mp hm with z | z
      · cases z
        simp [highest]
      · exact absurd z (labs_opened (isApp_script sl))
  | continuation k frag eh sc => exact absurd hm (labs_opened (isApp_script h))
  | app a =>
    have h : ls.Sublist a.labs := h
    have : ls.Sublist ([a].flatMap Act.labs) := by simpa using h
    exact absurd hm (labs_opened (isApp_acts this))
  | windowUpdate k inc => rcases h with e | ⟨_, e⟩ | ⟨_, e⟩ <;> subst e <;> simp at hm
  | rst k code => rcases h with e | e <;> subst e <;> simp at hm
  | goaway last code => rcases h with e | e <;> subst e <;> simp at hm
  | _ => have h : ls = [] := h; subst h; simp at hm

/-- The highest stream number. -/
theorem lastClient_run (d : x.D) (e : x.E) (is : List Input) : (run (Conn.init (x := x) d e) is).lastClient ≤ highest is := by
  induction is using snocInd with
  | h0 => exact Nat.le_refl _
  | hs is i ih =>
    rw [run_snoc, highest_append]
    obtain ⟨ls, hl, p⟩ := path_step (run (Conn.init (x := x) d e) is) i ((Inv0.init d e).run is)
    exact path_lastLe p (Nat.le_trans ih (Nat.le_max_left ..)) (fun j hj => Nat.le_trans (opened_highest hl hj) (Nat.le_max_right ..))

theorem rst_run (d : x.D) (e : x.E) (is : List Input) : (run (Conn.init (x := x) d e) is).rstCount ≤ rsts is ∧
    ((run (Conn.init (x := x) d e) is).alive = true → resets is ≤ (run (Conn.init (x := x) d e) is).rstCount ∧
      ((run (Conn.init (x := x) d e) is).rstCount ≤ 100 ∨
       (run (Conn.init (x := x) d e) is).rstCount * 2 ≤ ((run (Conn.init (x := x) d e) is).lastClient + 1) / 2)) := by
  induction is using snocInd with
  | h0 => exact ⟨Nat.le_refl _, fun _ => ⟨Nat.le_refl _, .inl (Nat.zero_le _)⟩⟩
  | hs is i ih =>
    rw [run_snoc, rsts_append, resets_append]
    obtain ⟨ls, hl, p⟩ := path_step (run (Conn.init (x := x) d e) is) i ((Inv0.init d e).run is)
    have hk := Known.run d e is
    have hmono := path_lastClient p
    have hal := alive_path p
    generalize run (Conn.init (x := x) d e) is = c at *
    by_cases hr : ∃ sid code, i = .rst sid code
    · obtain ⟨sid, code, hr⟩ := hr
      subst hr
      have e1 : rsts [Input.rst sid code] = 1 := rfl
      have e2 : resets [Input.rst sid code] = if sid % 2 = 1 then 1 else 0 := by simp [resets]
      have hmono : c.lastClient ≤ (onRst c sid code).lastClient := hmono
      have hal : (onRst c sid code).alive = true → c.alive = true := hal
      show (onRst c sid code).rstCount ≤ _ ∧ ((onRst c sid code).alive = true → _ ≤ (onRst c sid code).rstCount ∧
        ((onRst c sid code).rstCount ≤ 100 ∨ (onRst c sid code).rstCount * 2 ≤ ((onRst c sid code).lastClient + 1) / 2))
      have hc := onRst_count c sid code
      refine ⟨?_, fun ha => ⟨?_, ?_⟩⟩
      · rcases hc with z | ⟨z, _⟩ <;> omega
      · have := ih.2 (hal ha)
        rw [e2]
        split
        · rename_i ho
          rw [onRst_counted hk ho ha]; omega
        · rcases hc with z | ⟨z, _⟩ <;> omega
      · have := ih.2 (hal ha)
        rcases hc with z | ⟨z, z2⟩
        · rw [z]; omega
        · rw [z]
          have := z2 ha
          omega
    · have hs := step_still c i (fun sid code z => hr ⟨sid, code, z⟩)
      have e1 : rsts [i] = 0 := by cases i <;> first | rfl | exact absurd ⟨_, _, rfl⟩ hr
      have e2 : resets [i] = 0 := by cases i <;> first | rfl | exact absurd ⟨_, _, rfl⟩ hr
      rw [hs, e1, e2]
      refine ⟨by omega, fun ha => ?_⟩
      have := ih.2 (hal ha)
      omega

/-- **C95.** A connection on which the client has reset more than 100 streams, and more than half of all client
streams up to the highest number it used (there are `(highest + 1) / 2`), is not served any longer. -/
theorem C95_rapid_reset (d : x.D) (e : x.E) (is : List Input) (ha : (run (Conn.init (x := x) d e) is).alive = true)
    (h : 100 < resets is) : resets is * 2 ≤ (highest is + 1) / 2 := by
  obtain ⟨h1, h2⟩ := (rst_run d e is).2 ha
  have := lastClient_run d e is
  omega

/-- **C95.** A client that has sent at most 100 RST_STREAM frames is not disconnected for it. -/
theorem C95_reset_spared (d : x.D) (e : x.E) (is : List Input) (sid code last : Nat) (h : rsts (is ++ [.rst sid code]) ≤ 100)
    (hg : Out.goaway last ENHANCE_YOUR_CALM ∈ (run (Conn.init (x := x) d e) (is ++ [.rst sid code])).out) :
    Out.goaway last ENHANCE_YOUR_CALM ∈ (run (Conn.init (x := x) d e) is).out := by
  rw [rsts_append] at h
  have e1 : rsts [Input.rst sid code] = 1 := rfl
  have hc := (rst_run d e is).1
  rw [run_snoc] at hg
  generalize run (Conn.init (x := x) d e) is = c at *
  have hg : Out.goaway last ENHANCE_YOUR_CALM ∈ (onRst c sid code).out := hg
  have ga : ∀ {b : Conn x}, b.out = c.out → Out.goaway last ENHANCE_YOUR_CALM ∈ (goaway b PROTOCOL_ERROR).out → Out.goaway last ENHANCE_YOUR_CALM ∈ c.out := by
    intro b hb hm
    unfold goaway at hm
    split at hm
    · rw [← hb]; exact hm
    · have hm : _ ∈ b.out ++ [Out.goaway b.lastClient PROTOCOL_ERROR] ++ [_] := hm
      simp [PROTOCOL_ERROR, ENHANCE_YOUR_CALM] at hm
      rw [← hb]; exact hm
  have tc : ∀ (b : Conn x), (tryClose b sid).out = b.out := by
    intro b
    unfold tryClose
    split
    · rfl
    split
    · simp only []
      split
      · split <;> rfl
      · split <;> rfl
    · rfl
  unfold onRst at hg
  split at hg
  · exact hg
  split at hg
  · exact ga rfl hg
  simp only [] at hg
  have hb : (if sid ≤ c.lastClient then { c with rstCount := c.rstCount + 1 } else c).out = c.out := by split <;> rfl
  generalize (if sid ≤ c.lastClient then { c with rstCount := c.rstCount + 1 } else c) = b at *
  split at hg
  · rename_i hf
    exfalso
    have hf := (Bool.and_eq_true_iff.mp (Bool.and_eq_true_iff.mp hf).2).1
    have hf : c.rstCount + 1 > 100 := of_decide_eq_true hf
    omega
  split at hg
  · rw [tc] at hg
    revert hg
    split
    · intro hg
      have hg : _ ∈ b.out ++ [Out.streamError sid code] := hg
      rw [hb] at hg
      simpa using hg
    · intro hg
      have hg : _ ∈ b.out := hg
      rwa [hb] at hg
  · split at hg
    · exact ga hb hg
    · rwa [hb] at hg

/-! ## PING is answered -/

theorem ctl_run (d : x.D) (e : x.E) (is : List Input) (ha : (run (Conn.init (x := x) d e) is).alive = true) :
    (run (Conn.init (x := x) d e) is).ctl ≤ replies (run (Conn.init (x := x) d e) is).out := by
  induction is using snocInd with
  | h0 => exact Nat.le_refl _
  | hs is i ih =>
    rw [run_snoc] at ha ⊢
    obtain ⟨ls, hl, p⟩ := path_step (run (Conn.init (x := x) d e) is) i ((Inv0.init d e).run is)
    have ih := ih (alive_path p ha)
    generalize run (Conn.init (x := x) d e) is = c at *
    have kk : ∀ {b : Conn x}, Still c b → b.ctl ≤ replies b.out := fun k => by
      have := k.ctl; rw [k.rep]; omega
    have act : ∀ {a b : Conn x}, Kept a b → b.alive = true → a.active = true := fun k h => k.act (alive_iff.mp h).2
    cases i with
    | data sid q pad fin sc => exact kk (quiet_onData c sid q pad fin sc)
    | headers sid f fin eh sc => exact kk (quiet_onHeaders c sid f fin eh sc)
    | continuation sid f eh sc => exact kk (quiet_onCont c sid f eh sc).1
    | preface => exact kk (kept_onPreface _).quiet
    | settings sid ack es =>
      have ha : (onSettings c sid ack es).alive = true := ha
      show (onSettings c sid ack es).ctl ≤ replies (onSettings c sid ack es).out
      unfold onSettings at ha ⊢
      split
      · exact ih
      rename_i h1
      rw [if_neg h1] at ha
      split
      · rename_i h2; rw [if_pos h2, goaway_dead] at ha; cases ha
      rename_i h2
      rw [if_neg h2] at ha
      split
      · exact kk (by split; exact .refl _; exact (kept_goaway _ _).quiet)
      rename_i h3
      rw [if_neg h3] at ha
      simp only [] at ha ⊢
      have k := kept_settingsLoop es c
      split
      · exact kk k.quiet
      rename_i h4
      rw [if_neg h4] at ha
      split
      · rename_i h5; rw [if_pos h5, goaway_dead] at ha; cases ha
      · show (settingsLoop es c).1.ctl + 1 ≤ replies ((settingsLoop es c).1.out ++ [_])
        rw [replies_append, k.ctl, k.rep]
        simp only [replies]
        omega
    | rst sid code =>
      obtain ⟨k1, k2, _⟩ := onRst_rep c sid code
      show (onRst c sid code).ctl ≤ replies (onRst c sid code).out
      rw [k1, k2]; exact ih
    | goaway last code =>
      obtain ⟨k1, k2, _⟩ := onGoaway_rep c last code
      show (onGoaway c last code).ctl ≤ replies (onGoaway c last code).out
      rw [k1, k2]; exact ih
    | windowUpdate sid inc => exact kk (kept_onWindowUpdate _ _ _).quiet
    | ping sid ack q =>
      have ha : (onPing c sid ack q).alive = true := ha
      show (onPing c sid ack q).ctl ≤ replies (onPing c sid ack q).out
      unfold onPing at ha ⊢
      split
      · exact ih
      rename_i h1
      rw [if_neg h1] at ha
      split
      · rename_i h2; rw [if_pos h2, goaway_dead] at ha; cases ha
      rename_i h2
      rw [if_neg h2] at ha
      split
      · exact ih
      rename_i h3
      rw [if_neg h3] at ha
      simp only [] at ha ⊢
      split
      · rename_i h5; rw [if_pos h5, goaway_dead] at ha; cases ha
      · show c.ctl + 1 ≤ replies (c.out ++ [_])
        rw [replies_append]
        simp only [replies]
        omega
    | pushPromise => exact kk (kept_goaway _ _).quiet
    | priority sid => exact kk (kept_onPriority _ _).quiet
    | framerError code sid => exact kk (kept_onFramerError _ _ _).quiet
    | app a => exact kk (kept_act _ _).quiet
    | cleanup e => exact kk (kept_cleanup _ _).quiet

/-- **C95.** A PING on a working connection is answered with its own octets, unless the server has written 1000 replies
already. -/
theorem C95_ping (d : x.D) (e : x.E) (is : List Input) (p : Bytes) (ha : (run (Conn.init (x := x) d e) is).alive = true)
    (h : replies (run (Conn.init (x := x) d e) is).out < 1000) :
    (run (Conn.init (x := x) d e) (is ++ [.ping 0 false p])).out = (run (Conn.init (x := x) d e) is).out ++ [.pong p] ∧
    (run (Conn.init (x := x) d e) (is ++ [.ping 0 false p])).alive = true := by
  have hc := ctl_run d e is ha
  rw [run_snoc]
  generalize run (Conn.init (x := x) d e) is = c at *
  show (onPing c 0 false p).out = _ ∧ (onPing c 0 false p).alive = true
  obtain ⟨h1, h2⟩ := alive_iff.mp ha
  unfold onPing
  rw [if_neg (by simp [h1, h2]), if_neg (by simp), if_neg (by simp)]
  simp only []
  rw [if_neg (by unfold MAX_QUEUED_CONTROL_REPLIES; omega)]
  exact ⟨rfl, ha⟩

/-! ## The guards at work -/

/-- The hypotheses are met: three PINGs and a CONTINUATION-free request on a fresh connection are served. -/
example : (run toy [.ping 0 false [1], .headers 1 [] true true {}, .rst 1 8, .ping 0 false [2]]).alive = true ∧
    (run toy [.ping 0 false [1], .headers 1 [] true true {}, .rst 1 8, .ping 0 false [2]]).out =
      [.pong [1], .request 1 { method := b!"GET", scheme := b!"https", authority := b!"a", path := b!"/" }, .streamError 1 8, .pong [2]] := by
  decide

/-- A header block in three frames. -/
example : (run toy [.headers 1 [7] true false {}, .continuation 1 [8] false {}, .continuation 1 [9] true {}]).alive = true ∧
    (run toy [.headers 1 [7] true false {}, .continuation 1 [8] false {}, .continuation 1 [9] true {}]).out =
      [.request 1 { method := b!"GET", scheme := b!"https", authority := b!"a", path := b!"/" }] := by
  decide

end Verif.Srv
