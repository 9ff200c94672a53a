import Verif.Srv.Still
import Verif.Srv.Real

/-! # C96: the HPACK decoder stays in step with the client

HPACK is stateful: every header block of the client changes the tables, so the server has to decode every one of them, in
order, also those of streams it refuses. -/

namespace Verif.Srv
open Verif.Stream

variable {x : Ext}

/-! ## Specification -/

/-- The header blocks the client completed; `acc` is what it has sent of the present one. -/
def blocks : Bytes → List Input → List Bytes
  | _, [] => []
  | _, .headers _ frag _ eh _ :: is => if eh then frag :: blocks [] is else blocks frag is
  | acc, .continuation _ frag eh _ :: is => if eh then (acc ++ frag) :: blocks [] is else blocks (acc ++ frag) is
  | acc, _ :: is => blocks acc is

/-- CONTINUATION frames follow the HEADERS frame they belong to (the framer sees to it, base.h 617-630); `o` is the stream
of the present block, 0 if there is none. -/
def Framed : Nat → List Input → Bool
  | _, [] => true
  | o, .headers sid _ _ eh _ :: is => o == 0 && Framed (if eh then 0 else sid) is
  | o, .continuation sid _ eh _ :: is => o == sid && Framed (if eh then 0 else o) is
  | o, _ :: is => Framed o is

/-- The decoder after some blocks. -/
def decodeAll (d : x.D) (bs : List Bytes) : x.D := bs.foldl (fun d b => (x.decode d b).2) d

/-- The server has written no RST_STREAM. -/
def NoReset (os : List Out) : Prop := ∀ sid code, Out.rst sid code ∉ os

/-! ## Proof -/

/-- What is left of the present block. -/
def openBlock : Bytes → List Input → Bytes
  | acc, [] => acc
  | _, .headers _ frag _ eh _ :: is => openBlock (if eh then [] else frag) is
  | acc, .continuation _ frag eh _ :: is => openBlock (if eh then [] else acc ++ frag) is
  | acc, _ :: is => openBlock acc is

def openSid : Nat → List Input → Nat
  | o, [] => o
  | _, .headers sid _ _ eh _ :: is => openSid (if eh then 0 else sid) is
  | o, .continuation _ _ eh _ :: is => openSid (if eh then 0 else o) is
  | o, _ :: is => openSid o is

theorem blocks_append (acc : Bytes) (a b : List Input) : blocks acc (a ++ b) = blocks acc a ++ blocks (openBlock acc a) b := by
  induction a generalizing acc with
  | nil => rfl
  | cons i a ih => cases i <;> simp only [List.cons_append, blocks, openBlock, ih] <;> split <;> simp_all

theorem openBlock_append (acc : Bytes) (a b : List Input) : openBlock acc (a ++ b) = openBlock (openBlock acc a) b := by
  induction a generalizing acc with
  | nil => rfl
  | cons i a ih => cases i <;> simp only [List.cons_append, openBlock, ih]

theorem openSid_append (o : Nat) (a b : List Input) : openSid o (a ++ b) = openSid (openSid o a) b := by
  induction a generalizing o with
  | nil => rfl
  | cons i a ih => cases i <;> simp only [List.cons_append, openSid, ih]

theorem framed_append (o : Nat) (a b : List Input) : Framed o (a ++ b) = (Framed o a && Framed (openSid o a) b) := by
  induction a generalizing o with
  | nil => rfl
  | cons i a ih => cases i <;> simp only [List.cons_append, Framed, openSid, ih, Bool.and_assoc]

theorem decodeAll_append (d : x.D) (a b : List Bytes) : decodeAll (x := x) d (a ++ b) = decodeAll (x := x) (decodeAll (x := x) d a) b := by
  unfold decodeAll; rw [List.foldl_append]

theorem NoReset.left {a b : List Out} (h : NoReset (a ++ b)) : NoReset a := fun s c m => h s c (List.mem_append_left _ m)

theorem NoReset.not {c : Conn x} {sid : Nat} (h : NoReset c.out) : ¬ WasReset c sid := fun ⟨code, m⟩ => h sid code m

/-- Streams that count as reset have had RST_STREAM written. -/
theorem reset_run (d : x.D) (e : x.E) (is : List Input) (sid : Nat) :
    ∀ s, (run (Conn.init (x := x) d e) is).find sid = some s → s.rstSent = true → WasReset (run (Conn.init (x := x) d e) is) sid := by
  have key : Ex (run (Conn.init (x := x) d e) is) sid True := by
    induction is using snocInd with
    | h0 =>
      refine ⟨?_, ?_, ?_, ?_⟩
      · intro s hs; simp [run, Conn.init, Conn.find] at hs
      · intro s hs; simp [run, Conn.init, Conn.find] at hs
      · intro s hs; simp [run, Conn.init, Conn.find] at hs
      · intro _ _; exact .inr (.inr trivial)
    | hs is i ih =>
      rw [run_snoc]
      obtain ⟨_, _, p⟩ := path_step (run (Conn.init (x := x) d e) is) i ((Inv0.init d e).run is)
      exact ih.path p ((Inv0.init d e).run is) (fun _ => trivial)
  exact key.rst

/-- The end of a header block decodes it. -/
theorem headersEnd_dec (c : Conn x) (sid : Nat) (tr : Bool) (h : Script) :
    (headersEnd c sid tr h).dec = (x.decode c.dec c.frag).2 ∧ (headersEnd c sid tr h).frag = [] ∧ (headersEnd c sid tr h).curSid = 0 := by
  unfold headersEnd
  simp only []
  refine ⟨?_, rfl, rfl⟩
  obtain ⟨f, k⟩ := processBlock_kept (c.upd sid (fun s => { s with expecting := false })) sid tr h
  generalize processBlock (c.upd sid (fun s => { s with expecting := false })) sid tr h = r at *
  have e : r.1.dec = (x.decode c.dec c.frag).2 := k.dec
  show Conn.dec (if _ then _ else _) = _
  split
  · exact e
  · exact (kept_closeTail r.1 sid).dec.trans e

theorem continuationEnd_dec (c : Conn x) (s : SStream) (h : Script) :
    (continuationEnd c s h).dec = (x.decode c.dec c.frag).2 ∧ (continuationEnd c s h).frag = [] ∧ (continuationEnd c s h).curSid = 0 := by
  unfold continuationEnd
  simp only []
  refine ⟨?_, rfl, rfl⟩
  obtain ⟨f, k⟩ := processBlock_kept (c.upd s.id (fun s => { s with expecting := false })) s.id s.headersMain h
  generalize processBlock (c.upd s.id (fun s => { s with expecting := false })) s.id s.headersMain h = r at *
  have e : r.1.dec = (x.decode c.dec c.frag).2 := k.dec
  show Conn.dec (if _ then _ else _) = _
  split
  · exact e
  split
  · exact e
  have e1 : Kept r.1 (if s.headersMain = true then r.1.upd s.id (fun s => { s with trailersRecv := true }) else r.1) := by
    split
    · exact .upd _ _ _
    · exact .refl _
  generalize (if s.headersMain = true then r.1.upd s.id (fun s => { s with trailersRecv := true }) else r.1) = d1 at *
  have e2 := (e1.trans (Kept.upd d1 s.id (fun s => { s with state := if s.endRecv then recvEnd s.state else s.state })))
  generalize d1.upd s.id (fun s => { s with state := if s.endRecv then recvEnd s.state else s.state }) = d2 at *
  split
  · exact e2.dec.trans e
  split
  · exact ((e2.trans (kept_dispatch _ _ _)).trans (kept_tryClose _ _)).dec.trans e
  · exact e2.dec.trans e

theorem mark_kept (c : Conn x) (sid : Nat) (a b : Bool) : Kept c (markHeaders c sid a b) := by
  unfold markHeaders
  simp only []
  split
  · exact (Kept.upd _ _ _).trans (Kept.upd _ _ _)
  · exact Kept.upd _ _ _

/-- HEADERS on a stream that is not reset, with no block under way. -/
theorem headersOn_dec {c : Conn x} {s : SStream} {frag : Bytes} {fin eh : Bool} {h : Script} (c0 : c.curSid = 0) (f0 : c.frag = []) (act : c.active = true)
    (h1 : s.state ≠ .closed) (h2 : s.rstSent = false) (h3 : s.rstRecv = false)
    (ha : (headersOn c s frag fin eh h).alive = true) (hn : NoReset (headersOn c s frag fin eh h).out) :
    if eh then (headersOn c s frag fin eh h).dec = (x.decode c.dec frag).2 ∧ (headersOn c s frag fin eh h).frag = [] ∧ (headersOn c s frag fin eh h).curSid = 0
    else (headersOn c s frag fin eh h).dec = c.dec ∧ (headersOn c s frag fin eh h).frag = frag ∧ (headersOn c s frag fin eh h).curSid = s.id := by
  unfold headersOn at ha hn ⊢
  simp only [] at ha hn ⊢
  split at ha
  · rw [clear_alive, goaway_dead] at ha; cases ha
  rename_i z; rw [if_neg z] at hn ⊢
  have z1 : ¬ (s.state == .closed || s.rstRecv || s.rstSent) = true := by simp [h1, h2, h3]
  rw [if_neg z1] at ha hn ⊢
  split at hn
  · exact absurd (sendRst_wrote act) (NoReset.not hn)
  rename_i z; rw [if_neg z] at ha ⊢
  split at ha
  · rw [goaway_dead] at ha; cases ha
  rename_i z; rw [if_neg z] at hn ⊢
  split at ha
  · rw [goaway_dead] at ha; cases ha
  rename_i z; rw [if_neg z] at hn ⊢
  cases eh with
  | true =>
    simp only [if_true] at ha hn ⊢
    have k := mark_kept { c with ctl := 0, contCount := 0, curSid := s.id, frag := c.frag ++ frag } s.id fin true
    obtain ⟨e1, e2, e3⟩ := headersEnd_dec (markHeaders { c with ctl := 0, contCount := 0, curSid := s.id, frag := c.frag ++ frag } s.id fin true) s.id s.headersMain h
    refine ⟨e1.trans ?_, e2, e3⟩
    rw [k.dec, k.frag]
    show (x.decode c.dec (c.frag ++ frag)).2 = _
    rw [f0]; rfl
  | false =>
    simp only [Bool.false_eq_true, if_false] at ha hn ⊢
    have k := mark_kept { c with ctl := 0, contCount := 0, curSid := s.id, frag := c.frag ++ frag } s.id fin false
    refine ⟨k.dec, ?_, k.cur⟩
    refine Eq.trans k.frag ?_
    show c.frag ++ frag = _
    rw [f0]; rfl

/-- The decoder and the assembly are as they were. -/
def Same3 (a b : Conn x) : Prop := b.dec = a.dec ∧ b.frag = a.frag ∧ b.curSid = a.curSid

theorem Kept.same3 {a b : Conn x} (k : Kept a b) : Same3 a b := ⟨k.dec, k.frag, k.cur⟩

theorem Same3.trans {a b c : Conn x} (h : Same3 a b) (k : Same3 b c) : Same3 a c :=
  ⟨k.1.trans h.1, k.2.1.trans h.2.1, k.2.2.trans h.2.2⟩

theorem same_onSettings (c : Conn x) (sid : Nat) (ack : Bool) (es : List (UInt16 × UInt32)) : Same3 c (onSettings c sid ack es) := by
  unfold onSettings
  split
  · exact ⟨rfl, rfl, rfl⟩
  split
  · exact (kept_goaway _ _).same3
  split
  · split
    · exact ⟨rfl, rfl, rfl⟩
    · exact (kept_goaway _ _).same3
  simp only []
  refine (kept_settingsLoop es c).same3.trans ?_
  split
  · exact ⟨rfl, rfl, rfl⟩
  split
  · exact Same3.trans (b := { (settingsLoop es c).1 with ctl := (settingsLoop es c).1.ctl + 1 }) ⟨rfl, rfl, rfl⟩ (kept_goaway _ _).same3
  · exact ⟨rfl, rfl, rfl⟩

theorem same_onPing (c : Conn x) (sid : Nat) (ack : Bool) (p : Bytes) : Same3 c (onPing c sid ack p) := by
  unfold onPing
  split
  · exact ⟨rfl, rfl, rfl⟩
  split
  · exact (kept_goaway _ _).same3
  split
  · exact ⟨rfl, rfl, rfl⟩
  simp only []
  split
  · exact Same3.trans (b := { c with ctl := c.ctl + 1 }) ⟨rfl, rfl, rfl⟩ (kept_goaway _ _).same3
  · exact ⟨rfl, rfl, rfl⟩

theorem same_onRst (c : Conn x) (sid code : Nat) : Same3 c (onRst c sid code) := by
  unfold onRst
  split
  · exact ⟨rfl, rfl, rfl⟩
  split
  · exact (kept_goaway _ _).same3
  simp only []
  have hb : Same3 c (if sid ≤ c.lastClient then { c with rstCount := c.rstCount + 1 } else c) := by
    split <;> exact ⟨rfl, rfl, rfl⟩
  refine hb.trans ?_
  generalize (if sid ≤ c.lastClient then { c with rstCount := c.rstCount + 1 } else c) = b
  split
  · exact (kept_goaway _ _).same3
  split
  · rename_i s _
    have e1 := Kept.upd b sid (fun s => { s with rstRecv := true, err := code, state := .closed })
    have e2 := fun (q : Bool) => Kept.ite (p := q = true)
      (Kept.emit (b.upd sid (fun s => { s with rstRecv := true, err := code, state := .closed })) (.streamError sid code) rfl) (Kept.refl _)
    exact ((e1.trans (e2 ((!s.dispatched || !s.endSent) && code != NO_ERROR))).trans (kept_tryClose _ _)).same3
  · split
    · exact (kept_goaway _ _).same3
    · exact ⟨rfl, rfl, rfl⟩

theorem same_onGoaway (c : Conn x) (last code : Nat) : Same3 c (onGoaway c last code) := by
  unfold onGoaway
  split
  · exact ⟨rfl, rfl, rfl⟩
  simp only []
  unfold goawayEnd
  split
  · exact ⟨rfl, rfl, rfl⟩
  split <;> exact ⟨rfl, rfl, rfl⟩

theorem sync_run (hx : ∀ l, (x.order l).Perm l) (d : x.D) (e : x.E) (is : List Input) (hf : Framed 0 is = true)
    (ha : (run (Conn.init (x := x) d e) is).alive = true) (hn : NoReset (run (Conn.init (x := x) d e) is).out) :
    (run (Conn.init (x := x) d e) is).dec = decodeAll (x := x) d (blocks [] is) ∧
    (run (Conn.init (x := x) d e) is).frag = openBlock [] is ∧ (run (Conn.init (x := x) d e) is).curSid = openSid 0 is ∧
    (openSid 0 is = 0 → openBlock [] is = []) := by
  induction is using snocInd with
  | h0 => exact ⟨rfl, rfl, rfl, fun _ => rfl⟩
  | hs is i ih =>
    have hi := (Inv0.init (x := x) d e).run is
    have hrest := rest_run hx d e is
    have hreset := reset_run (x := x) d e is
    rw [run_snoc] at ha hn ⊢
    obtain ⟨ls, _, p⟩ := path_step (run (Conn.init (x := x) d e) is) i hi
    obtain ⟨os, eo⟩ := path_out p
    have hc := alive_path p ha
    have hn0 : NoReset (run (Conn.init (x := x) d e) is).out := by rw [eo] at hn; exact hn.left
    rw [framed_append, Bool.and_eq_true] at hf
    obtain ⟨i1, i2, i3, i4⟩ := ih hf.1 hc hn0
    have hf := hf.2
    rw [blocks_append, openBlock_append, openSid_append, decodeAll_append, ← i1]
    have hok := hrest hc
    generalize run (Conn.init (x := x) d e) is = c at *
    obtain ⟨c1, c2⟩ := alive_iff.mp hc
    generalize openBlock [] is = acc at *
    generalize openSid 0 is = o at *
    have same3 : Same3 c (step c i) → blocks acc [i] = [] → openBlock acc [i] = acc → openSid o [i] = o →
        (step c i).dec = decodeAll (x := x) c.dec (blocks acc [i]) ∧ (step c i).frag = openBlock acc [i] ∧ (step c i).curSid = openSid o [i] ∧
          (openSid o [i] = 0 → openBlock acc [i] = []) := by
      intro k e1 e2 e3
      rw [e1, e2, e3]
      exact ⟨k.1, k.2.1.trans i2, k.2.2.trans i3, i4⟩
    have same : Kept c (step c i) → blocks acc [i] = [] → openBlock acc [i] = acc → openSid o [i] = o →
        (step c i).dec = decodeAll (x := x) c.dec (blocks acc [i]) ∧ (step c i).frag = openBlock acc [i] ∧ (step c i).curSid = openSid o [i] ∧
          (openSid o [i] = 0 → openBlock acc [i] = []) := by
      intro k e1 e2 e3
      rw [e1, e2, e3]
      exact ⟨k.dec, k.frag.trans i2, k.cur.trans i3, i4⟩
    cases i with
    | headers sid frag fin eh h =>
      simp only [Framed, Bool.and_eq_true, beq_iff_eq] at hf
      have o0 := hf.1
      subst o0
      have hcur := i3
      have hfrag : c.frag = [] := by rw [i2]; exact i4 rfl
      have key : ∀ R, R = onHeaders c sid frag fin eh h → R.alive = true → NoReset R.out →
          if eh then R.dec = (x.decode c.dec frag).2 ∧ R.frag = [] ∧ R.curSid = 0
          else R.dec = c.dec ∧ R.frag = frag ∧ R.curSid = sid := by
        intro R eR ha hn
        unfold onHeaders at eR
        rw [if_neg (by simp [c1, c2])] at eR
        split at eR
        · rw [eR, goaway_dead] at ha; cases ha
        split at eR
        · rw [eR, goaway_dead] at ha; cases ha
        rename_i z2
        have ho : sid % 2 = 1 := by
          have : ¬ sid % 2 = 0 := by simpa using z2
          omega
        cases hs : c.find sid with
        | none =>
          rw [hs] at eR
          simp only [] at eR
          split at eR
          · rw [eR] at hn; exact absurd (sendRst_wrote c2) (NoReset.not hn)
          split at eR
          · rw [eR] at hn; exact absurd (sendRst_wrote c2) (NoReset.not hn)
          split at eR
          · rw [eR] at hn; exact absurd (sendRst_wrote c2) (NoReset.not hn)
          rw [eR] at ha hn ⊢
          exact headersOn_dec (c := { c with streams := c.streams ++ [{ id := sid, peerW := c.initPeer }], lastClient := max c.lastClient sid })
            (s := { id := sid, peerW := c.initPeer }) hcur hfrag c2 (by simp) rfl rfl ha hn
        | some s =>
          rw [hs] at eR
          simp only [] at eR
          have hid := find_id hs
          have core := hok sid ho s hs
          have hcl : s.state ≠ .closed := by
            intro z; have act : isActive s = true := core.2; unfold isActive at act; rw [z] at act; simp at act
          have hrs : s.rstSent = false := by
            cases z : s.rstSent with
            | false => rfl
            | true => exact absurd (hreset sid s hs z) (NoReset.not hn0)
          rw [eR] at ha hn ⊢
          have := headersOn_dec hcur hfrag c2 hcl hrs core.1.rr ha hn
          rw [hid] at this
          exact this
      have key := key _ rfl ha hn
      show (onHeaders c sid frag fin eh h).dec = _ ∧ (onHeaders c sid frag fin eh h).frag = _ ∧ (onHeaders c sid frag fin eh h).curSid = _ ∧ _
      cases eh with
      | true => 
        simp only [if_true] at key
        exact ⟨key.1, key.2.1, key.2.2, fun _ => rfl⟩
      | false =>
        simp only [Bool.false_eq_true, if_false] at key
        refine ⟨key.1, key.2.1, key.2.2, fun z => ?_⟩
        exfalso
        have z : sid = 0 := z
        subst z
        have : (onHeaders c 0 frag fin false h).alive = true := ha
        unfold onHeaders at this
        rw [if_neg (by simp [c1, c2]), if_pos (by rfl), goaway_dead] at this
        cases this
    | continuation sid frag eh h =>
      have ha : (onContinuation c sid frag eh h).alive = true := ha
      obtain ⟨_, q2, _, _, q⟩ := cont_alive ha
      show (onContinuation c sid frag eh h).dec = _ ∧ (onContinuation c sid frag eh h).frag = _ ∧ (onContinuation c sid frag eh h).curSid = _ ∧ _
      rcases q with ⟨e1, _⟩ | ⟨e1, k⟩ <;> subst e1
      · have q : (onContinuation c sid frag true h).dec = (x.decode c.dec (c.frag ++ frag)).2 ∧ (onContinuation c sid frag true h).frag = [] ∧ (onContinuation c sid frag true h).curSid = 0 := by
          unfold onContinuation at ha ⊢
          rw [if_neg (by simp [c1, c2])] at ha ⊢
          split at ha
          · rw [clear_alive, goaway_dead] at ha; cases ha
          rename_i z; rw [if_neg z]
          split at ha
          · rw [clear_alive, goaway_dead] at ha; cases ha
          rename_i s hs
          simp only [hs] at ha ⊢
          split at ha
          · rw [clear_alive, goaway_dead] at ha; cases ha
          rename_i z; rw [if_neg z]
          split at ha
          · rw [clear_alive, goaway_dead] at ha; cases ha
          rename_i z; rw [if_neg z]
          split at ha
          · rw [clear_alive, goaway_dead] at ha; cases ha
          rename_i z; rw [if_neg z]
          exact continuationEnd_dec { c with contCount := c.contCount + 1, frag := c.frag ++ frag } s h
        rw [i2] at q
        exact ⟨q.1, q.2.1, q.2.2, fun _ => rfl⟩
      · refine ⟨k.dec, ?_, k.cur.trans i3, fun z => ?_⟩
        · rw [k.frag]
          show c.frag ++ frag = acc ++ frag
          rw [i2]
        · exfalso
          have z : o = 0 := z
          rw [i3, z] at q2; exact q2 rfl
    | data sid b pad fin h =>
      rcases kept_onData c sid b pad fin h with k | k
      · exact same k rfl rfl rfl
      · exact ⟨k.dec, k.frag.trans i2, k.cur.trans i3, i4⟩
    | preface => exact same (kept_onPreface _) rfl rfl rfl
    | settings sid ack es => exact same3 (same_onSettings _ _ _ _) rfl rfl rfl
    | rst sid code => exact same3 (same_onRst _ _ _) rfl rfl rfl
    | goaway last code => exact same3 (same_onGoaway _ _ _) rfl rfl rfl
    | windowUpdate sid inc => exact same (kept_onWindowUpdate _ _ _) rfl rfl rfl
    | ping sid ack p => exact same3 (same_onPing _ _ _ _) rfl rfl rfl
    | pushPromise => exact same (kept_goaway _ _) rfl rfl rfl
    | priority sid => exact same (kept_onPriority _ _) rfl rfl rfl
    | framerError code sid => exact same (kept_onFramerError _ _ _) rfl rfl rfl
    | app a => exact same (kept_act _ _) rfl rfl rfl
    | cleanup ex => exact same (kept_cleanup _ _) rfl rfl rfl

/-- **C96, partial.** As long as the server has written no RST_STREAM, its decoder has decoded every header block of the
client, in order and once. What is missing is false: a block on a stream that the server refuses, or has reset, is not
decoded (server.h 428, 432, 449, 476, 482), see below. -/
theorem C96_in_step_partial (hx : ∀ l, (x.order l).Perm l) (d : x.D) (e : x.E) (is : List Input) (hf : Framed 0 is = true)
    (ha : (run (Conn.init (x := x) d e) is).alive = true) (hn : NoReset (run (Conn.init (x := x) d e) is).out) :
    (run (Conn.init (x := x) d e) is).dec = decodeAll (x := x) d (blocks [] is) := (sync_run hx d e is hf ha hn).1

/-- The real codec, with any known method and a path that is never empty. -/
abbrev rfcExt : Ext := realExt (fun _ => true) (fun _ => false) id

/-- A request head: GET, https, /, authority a, nothing indexed. -/
def plainHead : Bytes := [0x82, 0x87, 0x84, 0x01, 0x01, 0x61]

/-- **C96, refuted in general.** The application resets stream 1 while the client is sending the trailers of stream 1, which
put a field into the dynamic table. The server drops that block undecoded, and the client's next request, on stream 3,
which refers to the field, is refused with COMPRESSION_ERROR. Decoded in step, the block of that request is fine. -/
theorem C96_in_step_refuted :
    ∃ is : List Input, Framed 0 is = true ∧ (run (Conn.init (x := rfcExt) {} {}) is).alive = true ∧
      Out.rst 3 COMPRESSION_ERROR ∈ (run (Conn.init (x := rfcExt) {} {}) is).out ∧
      (∃ bs b fs, blocks [] is = bs ++ [b] ∧ (rfcExt.decode (decodeAll (x := rfcExt) {} bs) b).1 = some fs ∧ fs.length = 5) := by
  refine ⟨[.headers 1 plainHead false true {}, .app (.reset 1 CANCEL), .headers 1 [0x40, 0x01, 0x78, 0x01, 0x79] true true {},
    .headers 3 (plainHead ++ [0xbe]) true true {}], by decide, by decide +kernel, by decide +kernel,
    [plainHead, [0x40, 0x01, 0x78, 0x01, 0x79]], plainHead ++ [0xbe],
    [(b!":method", b!"GET"), (b!":scheme", b!"https"), (b!":path", b!"/"), (b!":authority", b!"a"), (b!"x", b!"y")], rfl, by decide +kernel, rfl⟩

/-- The hypotheses of `C96_in_step_partial` are met, with the real codec and a block in two frames. -/
example : Framed 0 [.headers 1 plainHead false true {}, .headers 3 [0x82, 0x87] true false {}, .continuation 3 [0x84, 0x41, 0x01, 0x61] true {}] = true ∧
    (run (Conn.init (x := rfcExt) {} {}) [.headers 1 plainHead false true {}, .headers 3 [0x82, 0x87] true false {}, .continuation 3 [0x84, 0x41, 0x01, 0x61] true {}]).alive = true ∧
    requestsOn 3 (run (Conn.init (x := rfcExt) {} {}) [.headers 1 plainHead false true {}, .headers 3 [0x82, 0x87] true false {}, .continuation 3 [0x84, 0x41, 0x01, 0x61] true {}]).out =
      [{ method := b!"GET", scheme := b!"https", authority := b!"a", path := b!"/" }] := by decide +kernel

end Verif.Srv
