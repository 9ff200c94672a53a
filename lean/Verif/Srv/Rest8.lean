import Verif.Srv.Rest7

/-! # Streams at rest: SETTINGS, WINDOW_UPDATE, cleanup, and every step -/

namespace Verif.Srv
open Verif.Stream

variable {x : Ext}

/-- In order, except that an unfinished response may have become sendable. -/
structure Weak (F : Prop) (s : SStream) : Prop where
  rr : s.rstRecv = false
  rs : s.rstSent = true → s.dispatched = true
  le : s.offset ≤ s.body.length
  blk : F → s.endSent = false → s.pending = true ∧ s.offset < s.body.length
  act : isActive s = true

def AtW (c : Conn x) (k : Nat) : Prop := ∀ s, c.find k = some s → Weak (framesOn k c.out ≠ []) s

theorem At.weak {c : Conn x} {k : Nat} (h : At c k Act1) : AtW c k := fun s hs => by
  obtain ⟨h1, h2⟩ := h s hs
  exact ⟨h1.rr, h1.rs, h1.le, fun f e => ⟨(h1.blk f e).1, (h1.blk f e).2.1⟩, h2⟩

theorem Fr.weak {sid k : Nat} {c c' : Conn x} (f : Fr sid c c') (ho : k % 2 = 1) (hk : k ≠ sid) (h : AtW c k) : AtW c' k := by
  intro s hs
  rw [f.find k ho hk] at hs
  obtain ⟨h1, h2, h3, h4, h5⟩ := h s hs
  refine ⟨h1, h2, h3, ?_, h5⟩
  rw [f.frames k hk]; exact h4

theorem Weak.pre {F : Prop} {s : SStream} (h : Weak F s) (k : StateOk s) : Pre s :=
  ⟨h.rr, h.rs, h.le, h.act, ⟨fun e => by
    rcases k.sent e with z | z
    · exact z
    · have := h.act; rw [isActive, z] at this; simp at this, k.hcl⟩⟩

theorem AtW.send {c : Conn x} {sid : Nat} (h : AtW c sid) (hm : 0 < c.peerMaxFrame) (hi : Inv0 c) (ha : c.alive = true) : At (trySend c sid) sid Act1 :=
  at_trySend hm ha (fun s hs => ⟨(h s hs).pre (hi.state _ _ hs), fun f e => Or.inl ((h s hs).blk f e)⟩)

/-- A changed peer window. -/
theorem AtW.peerW {c : Conn x} {sid : Nat} {g : Int → Int} (h : AtW c sid) : AtW (c.upd sid (fun s => { s with peerW := g s.peerW })) sid := by
  intro s hs
  rcases find_upd_some (c := c) hs (fun _ => rfl) with ⟨_, u, hu, e⟩ | ⟨e, _⟩
  · subst e
    obtain ⟨h1, h2, h3, h4, h5⟩ := h u hu
    exact ⟨h1, h2, h3, h4, h5⟩
  · exact absurd rfl e

theorem shiftStream_rest {c : Conn x} {delta : Int} {sid : Nat} (hm : 0 < c.peerMaxFrame) (hi : Inv0 c)
    (ha : (shiftStream c delta sid).1.alive = true) : Good sid c (shiftStream c delta sid).1 := by
  unfold shiftStream at ha ⊢
  cases hs : c.find sid with
  | none => exact .refl
  | some s =>
    rw [hs] at ha
    simp only [] at ha ⊢
    split
    · rename_i h1
      rw [if_pos h1] at ha
      have f1 : Fr sid c (c.upd sid (fun s => { s with peerW := s.peerW + delta })) := .withUpd _ (fun _ => rfl)
      have w1 : AtW c sid → AtW (c.upd sid (fun s => { s with peerW := s.peerW + delta })) sid := AtW.peerW (g := (· + delta))
      have i1 := hi.micro (.shift c sid delta)
      have m1 : 0 < (c.upd sid (fun s => { s with peerW := s.peerW + delta })).peerMaxFrame := hm
      split
      · rename_i h2; rw [if_pos h2] at ha; simp only [] at ha; rw [goaway_dead] at ha; cases ha
      · rename_i h2
        rw [if_neg h2] at ha
        split
        · rename_i h3
          rw [if_pos h3] at ha
          simp only [] at ha ⊢
          exact ⟨(f1.trans (fr_trySend _ _)).others, fun _ z => (w1 z.weak).send m1 i1 (alive_path (path_trySend _ _) ha)⟩
        · rename_i h3
          refine ⟨f1.others, fun _ z => z.upd (fun _ => rfl) (fun F w t ht hc hp => ⟨⟨hc.rr, hc.rs, hc.le, fun hF he => ?_⟩, hp⟩)⟩
          have e : t = s := Option.some.inj (ht.symm.trans hs)
          subst e
          obtain ⟨b1, b2, b3⟩ := hc.blk hF he
          refine ⟨b1, b2, ?_⟩
          simp only [b1, Bool.and_true, Bool.and_eq_true, decide_eq_true_eq] at h3
          show t.peerW + delta ≤ 0 ∨ _
          omega
    · exact .refl

theorem shiftStream_max (c : Conn x) (delta : Int) (sid : Nat) : (shiftStream c delta sid).1.peerMaxFrame = c.peerMaxFrame := by
  unfold shiftStream
  split
  · rfl
  · split
    · simp only []
      split
      · exact (fr_goaway sid _ _).maxF.trans (fr_sendRst _ _ _ _).maxF
      · split
        · exact (fr_trySend _ _).maxF
        · rfl
    · rfl

theorem shiftLoop_rest {delta : Int} (ids : List Nat) {c : Conn x} (hm : 0 < c.peerMaxFrame) (hi : Inv0 c) (hok : AllOk c)
    (ha : (shiftLoop delta ids c).alive = true) : AllOk (shiftLoop delta ids c) := by
  induction ids generalizing c with
  | nil => exact hok
  | cons sid ids ih =>
    rw [shiftLoop] at ha ⊢
    obtain ⟨ls, _, p⟩ := path_shiftStream c delta sid
    split
    · rename_i h1
      rw [if_pos h1] at ha
      obtain ⟨l2, _, p2⟩ := path_shiftLoop delta ids (shiftStream c delta sid).1
      exact ih (by rw [shiftStream_max]; exact hm) (hi.path p) ((shiftStream_rest hm hi (alive_path p2 ha)).all hok) ha
    · rename_i h1
      rw [if_neg h1] at ha
      exact (shiftStream_rest hm hi ha).all hok

theorem AllOk.aux {c c' : Conn x} (h : AllOk c) (h1 : c'.streams = c.streams) (h2 : c'.out = c.out) (h3 : c'.sendW = c.sendW) : AllOk c' :=
  fun k o => at_aux (h k o) h1 h2 h3

theorem applySetting_rest {c : Conn x} {id : UInt16} {v : UInt32} (hm : 0 < c.peerMaxFrame) (hi : Inv0 c) (hok : AllOk c)
    (ha : (applySetting c id v).alive = true) : AllOk (applySetting c id v) := by
  unfold applySetting at ha ⊢
  split
  · exact hok.aux rfl rfl rfl
  · rename_i h1
    rw [if_neg h1] at ha
    split
    · exact hok.aux rfl rfl rfl
    · rename_i h2
      rw [if_neg h2] at ha
      split
      · exact hok.aux rfl rfl rfl
      · rename_i h3
        rw [if_neg h3] at ha
        split
        · rename_i h4
          rw [if_pos h4] at ha
          unfold updateInitial at ha ⊢
          simp only [] at ha ⊢
          exact shiftLoop_rest _ (c := { c with initPeer := v.toNat }) hm ⟨hi.state, hi.odd, hi.cur, hi.nodup⟩ (hok.aux rfl rfl rfl) ha
        · rename_i h4
          split
          · exact hok.aux rfl rfl rfl
          · split
            · exact hok.aux rfl rfl rfl
            · exact hok

/-- The peer's limit for frames. -/
def MaxOk (c : Conn x) : Prop := 16384 ≤ c.peerMaxFrame

theorem MaxOk.micro {a b : Conn x} {l : List Lab} (m : Micro a l b) (h : MaxOk a) : MaxOk b := by
  cases m with
  | aux _ h1 h2 h3 h4 h5 h6 h7 h8 h9 _ => unfold MaxOk at *; rw [h5]; exact h
  | setMax n hn => exact hn
  | _ => exact h

theorem MaxOk.path {a b : Conn x} {l : List Lab} (p : Path a l b) (h : MaxOk a) : MaxOk b := p.induct (fun _ _ _ m h => h.micro m) h

theorem MaxOk.pos {c : Conn x} (h : MaxOk c) : 0 < c.peerMaxFrame := by unfold MaxOk at h; omega

theorem settingsLoop_rest (es : List (UInt16 × UInt32)) {c : Conn x} (hm : MaxOk c) (hi : Inv0 c) (hok : AllOk c)
    (ha : (settingsLoop es c).1.alive = true) : AllOk (settingsLoop es c).1 := by
  induction es generalizing c with
  | nil => exact hok
  | cons e es ih =>
    obtain ⟨id, v⟩ := e
    rw [settingsLoop] at ha ⊢
    cases hv : validateSetting id v with
    | some e => rw [hv] at ha; simp only [] at ha; rw [goaway_dead] at ha; cases ha
    | none =>
      rw [hv] at ha
      simp only [] at ha ⊢
      obtain ⟨ls, _, p⟩ := path_applySetting c id v
      obtain ⟨l2, _, p2⟩ := path_settingsLoop es (applySetting c id v)
      exact ih (hm.path p) (hi.path p) (applySetting_rest hm.pos hi hok (alive_path p2 ha)) ha

theorem allOk_emit {c : Conn x} (o : Out) (ho : ∀ k, framesOn k [o] = []) (hok : AllOk c) : AllOk (c.emit o) := fun k o' => by
  refine (hok k o').same rfl ?_ (Int.le_refl _)
  show framesOn k (c.out ++ [o]) = _
  rw [framesOn_append, ho, List.append_nil]

theorem onSettings_rest {c : Conn x} {sid : Nat} {ack : Bool} {es : List (UInt16 × UInt32)} (hm : MaxOk c) (hi : Inv0 c) (hok : AllOk c)
    (ha : (onSettings c sid ack es).alive = true) : AllOk (onSettings c sid ack es) := by
  unfold onSettings at ha ⊢
  split
  · exact hok
  · rename_i h1
    rw [if_neg h1] at ha
    split
    · rename_i h2; rw [if_pos h2, goaway_dead] at ha; cases ha
    · rename_i h2
      rw [if_neg h2] at ha
      split
      · rename_i h3
        rw [if_pos h3] at ha
        split
        · exact hok
        · rename_i h4; rw [if_neg h4, goaway_dead] at ha; cases ha
      · rename_i h3
        rw [if_neg h3] at ha
        simp only [] at ha ⊢
        split
        · rename_i h4
          rw [if_pos h4] at ha
          exact settingsLoop_rest es hm hi hok ha
        · rename_i h4
          rw [if_neg h4] at ha
          split
          · rename_i h5; rw [if_pos h5, goaway_dead] at ha; cases ha
          · rename_i h5
            rw [if_neg h5] at ha
            exact allOk_emit _ (fun _ => rfl) ((settingsLoop_rest es hm hi hok ha).aux rfl rfl rfl)

/-! ## WINDOW_UPDATE -/

theorem sendAll_rest (ids : List Nat) {c : Conn x} (hm : 0 < c.peerMaxFrame) (hi : Inv0 c)
    (h : ∀ k, k % 2 = 1 → AtW c k ∧ (k ∉ ids → At c k Act1)) (ha : (sendAll ids c).alive = true) : AllOk (sendAll ids c) := by
  induction ids generalizing c with
  | nil => exact fun k o => (h k o).2 (by simp)
  | cons sid ids ih =>
    rw [sendAll] at ha ⊢
    have skip : (sid % 2 = 1 → At c sid Act1) → ∀ k, k % 2 = 1 → AtW c k ∧ (k ∉ ids → At c k Act1) := by
      intro hsid k o
      refine ⟨(h k o).1, fun hk => ?_⟩
      by_cases e : k = sid
      · subst e; exact hsid o
      · exact (h k o).2 (fun hm => (List.mem_cons.mp hm).elim e hk)
    cases hs : c.find sid with
    | none =>
      rw [hs] at ha
      exact ih hm hi (skip (fun _ => .gone hs)) ha
    | some s =>
      rw [hs] at ha
      simp only [] at ha ⊢
      split
      · rename_i hp
        rw [if_pos hp] at ha
        have tail : (if (!(trySend c sid).active) = true then trySend c sid else sendAll ids (trySend c sid)).alive = true → (trySend c sid).alive = true := by
          split
          · exact id
          · exact fun z => alive_path (path_sendAll _ _) z
        have ha' := tail ha
        have hc := alive_path (path_trySend c sid) ha'
        rw [(alive_iff.mp ha').2] at ha ⊢
        simp only [Bool.not_true, Bool.false_eq_true, if_false] at ha ⊢
        refine ih (by rw [(fr_trySend _ _).maxF]; exact hm) (hi.path (path_trySend _ _)) (fun k o => ?_) ha
        by_cases e : k = sid
        · subst e
          have := (h k o).1.send hm hi hc
          exact ⟨this.weak, fun _ => this⟩
        · exact ⟨(fr_trySend sid c).weak o e (h k o).1, fun hk => (fr_trySend sid c).at o e ((h k o).2 (fun hm => (List.mem_cons.mp hm).elim e hk))⟩
      · rename_i hp
        rw [if_neg hp] at ha
        refine ih hm hi (skip (fun o t ht => ?_)) ha
        have e : t = s := Option.some.inj (ht.symm.trans hs)
        subst e
        have w := (h sid o).1 t ht
        exact ⟨⟨w.rr, w.rs, w.le, fun f e => absurd (w.blk f e).1 hp⟩, w.act⟩

theorem onWindowUpdate_rest (hx : ∀ l, (x.order l).Perm l) {c : Conn x} {sid inc : Nat} (hm : 0 < c.peerMaxFrame) (hi : Inv0 c) (hok : AllOk c)
    (ha : (onWindowUpdate c sid inc).alive = true) : AllOk (onWindowUpdate c sid inc) := by
  have rst : ∀ code, (sendRst c sid code).alive = true → AllOk (sendRst c sid code) := fun code z =>
    (Good.rst (alive_iff.mp (alive_path (path_sendRst _ _ _ _) z)).2).all hok
  unfold onWindowUpdate at ha ⊢
  split
  · rename_i h1
    rw [if_pos h1] at ha
    split
    · rename_i h2; rw [if_pos h2, goaway_dead] at ha; cases ha
    · rename_i h2; rw [if_neg h2] at ha; exact rst _ ha
  · rename_i h1
    rw [if_neg h1] at ha
    split
    · rename_i h2
      rw [if_pos h2] at ha
      split
      · rename_i h3; rw [if_pos h3, goaway_dead] at ha; cases ha
      · rename_i h3
        rw [if_neg h3] at ha
        simp only [] at ha ⊢
        refine sendAll_rest _ (c := { c with sendW := c.sendW + (inc : Int) }) hm ⟨hi.state, hi.odd, hi.cur, hi.nodup⟩ (fun k o => ⟨(hok k o).weak, fun hk => ?_⟩) ha
        intro s hs
        obtain ⟨h4, h5⟩ := hok k o s hs
        refine ⟨⟨h4.rr, h4.rs, h4.le, fun f e => absurd ?_ hk⟩, h5⟩
        refine (hx _).mem_iff.mpr (List.mem_map.mpr ⟨s, List.mem_filter.mpr ⟨find_mem (c := c) hs, (h4.blk f e).1⟩, find_id (c := c) hs⟩)
    · rename_i h2
      rw [if_neg h2] at ha
      cases hs : c.find sid with
      | none =>
        rw [hs] at ha
        simp only [] at ha ⊢
        split
        · rename_i h3; rw [if_pos h3, goaway_dead] at ha; cases ha
        · exact hok
      | some s =>
        rw [hs] at ha
        simp only [] at ha ⊢
        split
        · rename_i h3; rw [if_pos h3] at ha; exact rst _ ha
        · rename_i h3
          rw [if_neg h3] at ha
          split
          · rename_i h4
            rw [if_pos h4] at ha
            split
            · rename_i h5; rw [if_pos h5] at ha; exact rst _ ha
            · exact hok
          · rename_i h4
            rw [if_neg h4] at ha
            split
            · rename_i h5; rw [if_pos h5] at ha; exact rst _ ha
            · rename_i h5
              rw [if_neg h5] at ha
              have f1 : Fr sid c (c.upd sid (fun s => { s with peerW := s.peerW + (inc : Int) })) := .withUpd _ (fun _ => rfl)
              have i1 := hi.micro (.grant c sid inc s hs (by omega))
              split
              · rename_i h6
                rw [if_pos h6] at ha
                refine hok.others (f1.trans (fr_trySend _ _)).others (fun o => ?_)
                exact AtW.send (AtW.peerW (g := (· + (inc : Int))) (hok sid o).weak) hm i1 (alive_path (path_trySend _ _) ha)
              · rename_i h6
                refine hok.others f1.others (fun o => (hok sid o).upd (fun _ => rfl) (fun F w t ht hc hp => ⟨⟨hc.rr, hc.rs, hc.le, fun hF he => ?_⟩, hp⟩))
                have e : t = s := Option.some.inj (ht.symm.trans hs)
                subst e
                exact absurd (hc.blk hF he).1 h6

theorem cleanupLoop_rest (e : SStream → Bool) (ids : List Nat) {c : Conn x} (hok : AllOk c) : AllOk (cleanupLoop e ids c) := by
  induction ids generalizing c with
  | nil => exact hok
  | cons sid ids ih =>
    rw [cleanupLoop]
    split
    · exact ih hok
    · split
      · refine ih (hok.others ((fr_sendRst sid c CANCEL true).trans (.erase _ _)).others (fun _ => .gone ?_))
        rw [find_erase, if_pos rfl]
      · exact ih hok

/-! ## Every step -/

theorem rest_step (hx : ∀ l, (x.order l).Perm l) {c : Conn x} (i : Input) (hm : MaxOk c) (hi : Inv0 c)
    (hf : ∀ k, k % 2 = 1 → c.lastClient < k → framesOn k c.out = []) (hok : AllOk c) (ha : (step c i).alive = true) : AllOk (step c i) := by
  cases i with
  | preface =>
    show AllOk (onPreface c)
    unfold onPreface
    split
    · exact hok
    · split
      · exact hok
      · exact (allOk_emit .settings (fun _ => rfl) hok).aux rfl rfl rfl
  | data sid d pad fin h => exact (onData_rest hm.pos hi ha).all hok
  | headers sid frag fin eh h => exact onHeaders_rest hm.pos hi hf hok ha
  | continuation sid frag eh h => exact onContinuation_rest hm.pos hi hok ha
  | settings sid ack es => exact onSettings_rest hm hi hok ha
  | rst sid code => exact onRst_rest hok ha
  | goaway last code => exact onGoaway_rest hi hok
  | windowUpdate sid inc => exact onWindowUpdate_rest hx hm.pos hi hok ha
  | ping sid ack d =>
    have ha : (onPing c sid ack d).alive = true := ha
    show AllOk (onPing c sid ack d)
    unfold onPing at ha ⊢
    split
    · exact hok
    · rename_i h1
      rw [if_neg h1] at ha
      split
      · rename_i h2; rw [if_pos h2, goaway_dead] at ha; cases ha
      · rename_i h2
        rw [if_neg h2] at ha
        split
        · exact hok
        · rename_i h3
          rw [if_neg h3] at ha
          simp only [] at ha ⊢
          split
          · rename_i h4; rw [if_pos h4, goaway_dead] at ha; cases ha
          · exact allOk_emit _ (fun _ => rfl) (hok.aux (c' := { c with ctl := c.ctl + 1 }) rfl rfl rfl)
  | pushPromise =>
    have ha : (goaway c PROTOCOL_ERROR).alive = true := ha
    rw [goaway_dead] at ha; cases ha
  | priority sid =>
    have ha : (onPriority c sid).alive = true := ha
    show AllOk (onPriority c sid)
    unfold onPriority at ha ⊢
    split
    · exact hok
    · rename_i h1
      rw [if_neg h1] at ha
      split
      · rename_i h2; rw [if_pos h2, goaway_dead] at ha; cases ha
      · exact hok
  | framerError code sid =>
    have ha : (onFramerError c code sid).alive = true := ha
    unfold onFramerError at ha
    simp only [] at ha
    split at ha
    · have := (alive_iff.mp (alive_path (path_sendRst _ _ _ _) ha)).1
      cases this
    · rw [goaway_dead] at ha; cases ha
  | app a =>
    have := tame_act false a hm.pos hi ha
    exact fun k o => at_unb (this k o (at_b (hok k o)))
  | cleanup e => exact cleanupLoop_rest e _ hok

theorem MaxOk.run (d : x.D) (e : x.E) (is : List Input) : MaxOk (run (Conn.init (x := x) d e) is) := by
  induction is using snocInd with
  | h0 => exact Nat.le_refl _
  | hs is i ih =>
    rw [run_snoc]
    obtain ⟨ls, _, p⟩ := path_step _ i ((Inv0.init d e).run is)
    exact ih.path p

theorem rest_run (hx : ∀ l, (x.order l).Perm l) (d : x.D) (e : x.E) (is : List Input) :
    (run (Conn.init (x := x) d e) is).alive = true → AllOk (run (Conn.init (x := x) d e) is) := by
  induction is using snocInd with
  | h0 => intro _ k _; exact .gone rfl
  | hs is i ih =>
    rw [run_snoc]
    intro ha
    obtain ⟨ls, _, p⟩ := path_step _ i ((Inv0.init d e).run is)
    exact rest_step hx i (MaxOk.run d e is) ((Inv0.init d e).run is) (fun k ho hl => by
      obtain ⟨rs, _, ri⟩ := ri_run d e is ho
      exact (ri.fresh hl).1) (ih (alive_path p ha)) ha

end Verif.Srv
