import Verif.Srv.Kept

/-! # What DATA, HEADERS and CONTINUATION do to the counters and to the header block under assembly -/

namespace Verif.Srv
open Verif.Stream

variable {x : Ext}

/-- Neither replies nor counted resets, and the counter of replies does not grow. -/
structure Still (c c' : Conn x) : Prop where
  rst : c'.rstCount = c.rstCount
  rep : replies c'.out = replies c.out
  ctl : c'.ctl ≤ c.ctl

theorem Still.refl (c : Conn x) : Still c c := ⟨rfl, rfl, Nat.le_refl _⟩

theorem Still.trans {a b c : Conn x} (h : Still a b) (k : Still b c) : Still a c := ⟨k.rst.trans h.rst, k.rep.trans h.rep, Nat.le_trans k.ctl h.ctl⟩

theorem Kept.quiet {a b : Conn x} (k : Kept a b) : Still a b := ⟨k.rst, k.rep, Nat.le_of_eq k.ctl⟩

theorem Still.same {a b : Conn x} (h1 : b.rstCount = a.rstCount) (h2 : b.out = a.out) (h3 : b.ctl ≤ a.ctl) : Still a b := ⟨h1, by rw [h2], h3⟩

theorem Kept.clear {a b : Conn x} (k : Kept a b) : Kept (clearAssembly a) (clearAssembly b) :=
  ⟨k.ctl, k.cont, rfl, rfl, k.rst, k.dec, k.rep, k.act, k.shut⟩

theorem quiet_clear (c : Conn x) : Still c (clearAssembly c) := ⟨rfl, rfl, Nat.le_refl _⟩

theorem quiet_block (c : Conn x) (sid : Nat) (tr : Bool) (h : Script) : Still c (processBlock c sid tr h).1 := by
  obtain ⟨f, k⟩ := processBlock_kept c sid tr h
  exact ⟨k.rst, k.rep, Nat.le_of_eq k.ctl⟩

theorem quiet_headersEnd (c : Conn x) (sid : Nat) (tr : Bool) (h : Script) : Still c (headersEnd c sid tr h) := by
  unfold headersEnd
  simp only []
  refine Still.trans ?_ (quiet_clear _)
  have k := (Kept.upd c sid (fun s => { s with expecting := false })).quiet.trans (quiet_block _ sid tr h)
  generalize processBlock (c.upd sid (fun s => { s with expecting := false })) sid tr h = r at *
  refine k.trans ?_
  split
  · exact .refl _
  · exact (kept_closeTail _ _).quiet

theorem quiet_mark (c : Conn x) (sid : Nat) (a b : Bool) : Still c (markHeaders c sid a b) := by
  unfold markHeaders
  simp only []
  split
  · exact ((Kept.upd _ _ _).trans (Kept.upd _ _ _)).quiet
  · exact (Kept.upd _ _ _).quiet

theorem quiet_headersOn (c : Conn x) (s : SStream) (frag : Bytes) (fin eh : Bool) (h : Script) : Still c (headersOn c s frag fin eh h) := by
  unfold headersOn
  simp only []
  split
  · exact (kept_goaway _ _).quiet.trans (quiet_clear _)
  split
  · exact .refl _
  split
  · exact (kept_sendRst _ _ _ _).quiet
  split
  · exact Still.trans (b := { c with ctl := 0, contCount := 0 }) (.same rfl rfl (Nat.zero_le _)) (kept_goaway _ _).quiet
  refine Still.trans (b := { c with ctl := 0, contCount := 0, curSid := s.id, frag := c.frag ++ frag }) (.same rfl rfl (Nat.zero_le _)) ?_
  split
  · exact (kept_goaway _ _).quiet
  split
  · exact (quiet_mark _ _ _ _).trans (quiet_headersEnd _ _ _ _)
  · exact (quiet_mark _ _ _ _).trans (Kept.upd _ _ _).quiet

theorem quiet_onHeaders (c : Conn x) (sid : Nat) (frag : Bytes) (fin eh : Bool) (h : Script) : Still c (onHeaders c sid frag fin eh h) := by
  unfold onHeaders
  split
  · exact .refl _
  split
  · exact (kept_goaway _ _).quiet
  split
  · exact (kept_goaway _ _).quiet
  split
  · split
    · exact (kept_sendRst _ _ _ _).quiet
    split
    · exact (kept_sendRst _ _ _ _).quiet
    split
    · exact (kept_sendRst _ _ _ _).quiet
    · exact Still.trans (b := { c with streams := c.streams ++ [{ id := sid, peerW := c.initPeer }], lastClient := max c.lastClient sid }) (.same rfl rfl (Nat.le_refl _))
        (quiet_headersOn _ _ _ _ _ _)
  · exact quiet_headersOn _ _ _ _ _ _

/-- Everything but the counter of replies, which DATA resets. -/
theorem kept_onData (c : Conn x) (sid : Nat) (d : Bytes) (pad : Nat) (fin : Bool) (h : Script) :
    Kept c (onData c sid d pad fin h) ∨ Kept { c with ctl := 0 } (onData c sid d pad fin h) := by
  have less : ∀ (c : Conn x) n, Kept c (recvLess c n) := fun c n => ⟨rfl, rfl, rfl, rfl, rfl, rfl, rfl, id, fun _ => rfl⟩
  unfold onData
  simp only []
  split
  · exact .inl (.refl _)
  split
  · exact .inl (kept_goaway _ _)
  split
  · exact .inl (kept_goaway _ _)
  split
  · unfold dataUnknown
    split
    · exact .inl (kept_goaway _ _)
    · exact .inl (((less c _).trans (kept_sendRst _ _ _ _)).trans (kept_condConn _))
  split
  · have e := (less c (d.length + pad)).trans (kept_condConn _)
    split
    · exact .inl (e.trans (kept_sendRst _ _ _ _))
    · exact .inl e
  split
  · exact .inl (((kept_sendRst c _ _ _).trans (less _ _)).trans (kept_condConn _))
  split
  · exact .inl (((kept_sendRst c _ _ _).trans (less _ _)).trans (kept_condConn _))
  · refine .inr ?_
    unfold dataAccept
    simp only []
    refine Kept.trans (b := { c with recvW := c.recvW - ((d.length + pad : Nat) : Int), ctl := 0 }) ⟨rfl, rfl, rfl, rfl, rfl, rfl, rfl, id, fun _ => rfl⟩ ?_
    refine (Kept.upd _ sid (fun s => { s with localW := s.localW - ((d.length + pad : Nat) : Int), req := { s.req with body := s.req.body ++ d } })).trans ?_
    split
    · exact .refl _
    split
    · exact kept_sendRst _ _ _ _
    split
    · exact kept_sendRst _ _ _ _
    split
    · exact kept_dataEnd _ _ _ _
    · exact (kept_creditStream _ _ _).trans (kept_condConn _)

theorem quiet_onData (c : Conn x) (sid : Nat) (d : Bytes) (pad : Nat) (fin : Bool) (h : Script) : Still c (onData c sid d pad fin h) := by
  rcases kept_onData c sid d pad fin h with k | k
  · exact k.quiet
  · exact ⟨k.rst, k.rep, Nat.le_trans (Nat.le_of_eq k.ctl) (Nat.zero_le _)⟩

/-- The end of a header block: the assembly is cleared. -/
theorem kept_contEnd (c : Conn x) (s : SStream) (h : Script) :
    ∃ dec, Kept (clearAssembly { c with dec := dec }) (continuationEnd c s h) := by
  unfold continuationEnd
  simp only []
  obtain ⟨f, k⟩ := processBlock_kept (c.upd s.id (fun s => { s with expecting := false })) s.id s.headersMain h
  refine ⟨(x.decode c.dec c.frag).2, ?_⟩
  have k0 := Kept.clear k
  have k1 : Kept (clearAssembly { c with dec := (x.decode c.dec c.frag).2 })
      (clearAssembly (processBlock (c.upd s.id (fun s => { s with expecting := false })) s.id s.headersMain h).1) :=
    ⟨k0.ctl, k0.cont, k0.frag, k0.cur, k0.rst, k0.dec, k0.rep, k0.act, k0.shut⟩
  refine k1.trans ?_
  generalize processBlock (c.upd s.id (fun s => { s with expecting := false })) s.id s.headersMain h = r
  refine Kept.clear ?_
  split
  · exact .refl _
  split
  · exact .refl _
  have e1 : Kept r.1 (if s.headersMain = true then r.1.upd s.id (fun s => { s with trailersRecv := true }) else r.1) := by
    split
    · exact .upd _ _ _
    · exact .refl _
  generalize (if s.headersMain = true then r.1.upd s.id (fun s => { s with trailersRecv := true }) else r.1) = d1 at *
  refine (e1.trans (Kept.upd _ s.id (fun s => { s with state := if s.endRecv then recvEnd s.state else s.state }))).trans ?_
  split
  · exact .refl _
  split
  · exact (kept_dispatch _ _ _).trans (kept_tryClose _ _)
  · exact .refl _

theorem goaway_alive (c : Conn x) (code : Nat) : (goaway c code).active = false := by
  unfold goaway
  split
  · rename_i h; simpa using h
  · rfl

/-- CONTINUATION on a connection that survives it. -/
theorem cont_alive {c : Conn x} {sid : Nat} {frag : Bytes} {eh : Bool} {h : Script} (ha : (onContinuation c sid frag eh h).alive = true) :
    c.alive = true ∧ c.curSid ≠ 0 ∧ c.contCount + 1 ≤ 512 ∧ c.frag.length + frag.length ≤ 1048576 ∧
      ((eh = true ∧ ∃ dec, Kept (clearAssembly { c with contCount := c.contCount + 1, dec := dec }) (onContinuation c sid frag eh h)) ∨
       (eh = false ∧ Kept { c with contCount := c.contCount + 1, frag := c.frag ++ frag } (onContinuation c sid frag eh h))) := by
  have dead : ∀ (c : Conn x) code, (clearAssembly (goaway c code)).alive ≠ true := fun c code => by
    show ((goaway c code).ok && (goaway c code).active) ≠ true
    rw [goaway_alive]; simp
  unfold onContinuation at ha ⊢
  split at ha
  · rename_i h1
    unfold Conn.alive at ha
    revert h1 ha
    cases c.ok <;> cases c.active <;> simp
  rename_i h1
  rw [if_neg h1]
  split at ha
  · exact absurd ha (dead _ _)
  rename_i h2
  rw [if_neg h2]
  split at ha
  · exact absurd ha (dead _ _)
  rename_i s hs
  simp only [hs] at ha ⊢
  split at ha
  · exact absurd ha (dead _ _)
  rename_i h3
  rw [if_neg h3]
  split at ha
  · exact absurd ha (dead _ _)
  rename_i h4
  rw [if_neg h4]
  split at ha
  · exact absurd ha (dead _ _)
  rename_i h5
  rw [if_neg h5]
  have a0 : c.alive = true := by
    unfold Conn.alive
    revert h1
    cases c.ok <;> cases c.active <;> simp
  have c0 : c.curSid ≠ 0 := by
    intro z; rw [z] at h2; simp at h2
  have l4 : c.contCount + 1 ≤ 512 := by
    unfold MAX_CONTINUATION_FRAMES at h4; omega
  have l5 : c.frag.length + frag.length ≤ 1048576 := by
    unfold MAX_HEADER_BLOCK_SIZE at h5
    simp only [List.length_append] at h5
    omega
  refine ⟨a0, c0, l4, l5, ?_⟩
  cases eh with
  | true =>
    left
    refine ⟨rfl, ?_⟩
    rw [if_pos rfl]
    obtain ⟨dec, k⟩ := kept_contEnd { c with contCount := c.contCount + 1, frag := c.frag ++ frag } s h
    refine ⟨dec, ?_⟩
    exact ⟨k.ctl, k.cont, k.frag, k.cur, k.rst, k.dec, k.rep, k.act, k.shut⟩
  | false =>
    right
    refine ⟨rfl, ?_⟩
    rw [if_neg (by simp)]
    exact Kept.upd _ _ _

/-- CONTINUATION writes no reply and leaves the counters of replies and resets. -/
theorem quiet_onCont (c : Conn x) (sid : Nat) (frag : Bytes) (eh : Bool) (h : Script) :
    Still c (onContinuation c sid frag eh h) ∧ (onContinuation c sid frag eh h).ctl = c.ctl := by
  have g : ∀ (b : Conn x) code, b.rstCount = c.rstCount → b.out = c.out → b.ctl = c.ctl →
      Still c (clearAssembly (goaway b code)) ∧ (clearAssembly (goaway b code)).ctl = c.ctl := fun b code h1 h2 h3 =>
    ⟨((Still.same h1 h2 (Nat.le_of_eq h3)).trans (kept_goaway b code).quiet).trans (quiet_clear _), (kept_goaway b code).ctl.trans h3⟩
  unfold onContinuation
  split
  · exact ⟨.refl _, rfl⟩
  split
  · exact g _ _ rfl rfl rfl
  split
  · exact g _ _ rfl rfl rfl
  split
  · exact g _ _ rfl rfl rfl
  simp only []
  split
  · exact g _ _ rfl rfl rfl
  split
  · exact g _ _ rfl rfl rfl
  split
  · rename_i s _ _ _ _ _
    obtain ⟨dec, k⟩ := kept_contEnd { c with contCount := c.contCount + 1, frag := c.frag ++ frag } s h
    exact ⟨⟨k.rst, k.rep, Nat.le_of_eq k.ctl⟩, k.ctl⟩
  · exact ⟨⟨rfl, rfl, Nat.le_refl _⟩, rfl⟩

end Verif.Srv
