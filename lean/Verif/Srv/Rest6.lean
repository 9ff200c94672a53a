import Verif.Srv.Rest5

/-! # Streams at rest: HEADERS, CONTINUATION -/

namespace Verif.Srv
open Verif.Stream

variable {x : Ext}

/-- Active, or just created. -/
abbrev ActI (s : SStream) : Prop := isActive s = true ∨ (s.state = .idle ∧ s.rstSent = false)

theorem markHeaders_rest1 {c : Conn x} {sid : Nat} {fin : Bool} (h : At c sid ActI) : At (markHeaders c sid fin false) sid Act1 := by
  unfold markHeaders
  have one : At (c.upd sid (fun s => { s with state := if s.state == .idle then .open_ else s.state })) sid Act1 := by
    refine h.upd (fun _ => rfl) (fun F w s _ hc hp => ⟨hc.same rfl, ?_⟩)
    show isActive { s with state := if s.state == .idle then .open_ else s.state } = true
    unfold ActI isActive at hp
    unfold isActive
    cases hs : s.state <;> simp [hs] at hp ⊢
  simp only []
  split
  · exact one.upd (fun _ => rfl) (fun F w s _ hc hp => ⟨hc.same rfl, hp⟩)
  · exact one

theorem act1_upd {c : Conn x} {sid : Nat} {f : SStream → SStream} (k : ∀ s, (f s).id = s.id)
    (e : ∀ s, ((f s).rstRecv, (f s).rstSent, (f s).dispatched, (f s).offset, (f s).body, (f s).endSent, (f s).pending, (f s).peerW, (f s).state) =
      (s.rstRecv, s.rstSent, s.dispatched, s.offset, s.body, s.endSent, s.pending, s.peerW, s.state)) : At c sid Act1 → At (c.upd sid f) sid Act1 := by
  intro h
  refine h.upd k (fun F w s _ hc hp => ?_)
  have := e s
  simp only [Prod.mk.injEq] at this
  obtain ⟨e1, e2, e3, e4, e5, e6, e7, e8, e9⟩ := this
  refine ⟨hc.same (by rw [e1, e2, e3, e4, e5, e6, e7, e8]), ?_⟩
  unfold Act1 isActive at hp ⊢
  rw [e9]; exact hp

theorem AllOk.clear {c : Conn x} (h : AllOk c) : AllOk (clearAssembly c) := fun k o => at_clear (h k o)

theorem dispatch_max (c : Conn x) (sid : Nat) (h : Script) : (dispatch c sid h).peerMaxFrame = c.peerMaxFrame := by
  unfold dispatch
  split
  · rfl
  · split
    · rfl
    · split
      · split
        · exact (fr_sendRst _ _ _ _).maxF
        · simp only []
          split
          · rw [(fr_sendRst _ _ _ _).maxF, acts_max]; rfl
          · exact (fr_closeTail _ _).maxF.trans (acts_max _ _)
      · rfl

theorem processBlock_max (c : Conn x) (sid : Nat) (tr : Bool) (h : Script) : (processBlock c sid tr h).1.peerMaxFrame = c.peerMaxFrame := by
  unfold processBlock
  simp only []
  split
  · exact (fr_sendRst _ _ _ _).maxF
  · split
    · unfold processHead
      split
      · exact (fr_sendRst _ _ _ _).maxF
      · simp only []
        split
        · rfl
        · split
          · split
            · exact (fr_sendRst _ _ _ _).maxF
            · exact dispatch_max _ _ _
          · rfl
    · unfold processTrailers
      split
      · rfl
      · split
        · exact (fr_sendRst _ _ _ _).maxF
        · simp only []
          split
          · exact (fr_sendRst _ _ _ _).maxF
          · split
            · exact (fr_sendRst _ _ _ _).maxF
            · split
              · exact dispatch_max _ _ _
              · rfl

theorem headersOn_rest {c : Conn x} {s : SStream} {frag : Bytes} {fin eh : Bool} {h : Script} (ho : s.id % 2 = 1) (hm : 0 < c.peerMaxFrame) (hi : Inv0 c)
    (hc : c.active = true) (hs : c.find s.id = some s) (hat : At c s.id ActI) (ha : (headersOn c s frag fin eh h).alive = true) :
    Others s.id c (headersOn c s frag fin eh h) ∧ At (headersOn c s frag fin eh h) s.id Act1 := by
  unfold headersOn at ha ⊢
  simp only [] at ha ⊢
  split
  · rename_i h1
    rw [if_pos h1, clear_alive, goaway_dead] at ha; cases ha
  · rename_i h1
    rw [if_neg h1] at ha
    split
    · rename_i h2
      refine ⟨.refl, fun t ht => ?_⟩
      have e : t = s := Option.some.inj (ht.symm.trans hs)
      subst e
      obtain ⟨k1, k2⟩ := hat t ht
      refine ⟨k1, ?_⟩
      rcases k2 with k2 | ⟨k2, k3⟩
      · exact k2
      · rw [k2, k1.rr, k3] at h2; simp at h2
    · rename_i h2
      rw [if_neg h2] at ha
      split
      · exact ⟨(fr_sendRst _ _ _ _).others, .gone (sendRst_find (Or.inl hc))⟩
      · rename_i h3
        rw [if_neg h3] at ha
        split
        · rename_i h4; rw [if_pos h4, goaway_dead] at ha; cases ha
        · rename_i h4
          rw [if_neg h4] at ha
          split
          · rename_i h5; rw [if_pos h5, goaway_dead] at ha; cases ha
          · rename_i h5
            rw [if_neg h5] at ha
            have f0 : Fr s.id c { c with ctl := 0, contCount := 0, curSid := s.id, frag := c.frag ++ frag } := .aux rfl rfl rfl rfl
            have a0 : At { c with ctl := 0, contCount := 0, curSid := s.id, frag := c.frag ++ frag } s.id ActI := at_aux hat rfl rfl rfl
            have i0 : Inv0 { c with ctl := 0, contCount := 0, curSid := s.id, frag := c.frag ++ frag } := ⟨hi.state, hi.odd, Or.inr ho, hi.nodup⟩
            have c0 : ({ c with ctl := 0, contCount := 0, curSid := s.id, frag := c.frag ++ frag } : Conn x).active = true := hc
            have m0 : 0 < ({ c with ctl := 0, contCount := 0, curSid := s.id, frag := c.frag ++ frag } : Conn x).peerMaxFrame := hm
            generalize ({ c with ctl := 0, contCount := 0, curSid := s.id, frag := c.frag ++ frag } : Conn x) = d at *
            have f1 := fr_markHeaders s.id d fin eh
            have i1 := i0.path (path_markHeaders d s.id fin eh)
            have m1 : 0 < (markHeaders d s.id fin eh).peerMaxFrame := by rw [f1.maxF]; exact m0
            have c1 : (markHeaders d s.id fin eh).active = true := by
              unfold markHeaders; simp only []; split <;> exact c0
            split
            · rename_i h6
              rw [if_pos h6] at ha
              obtain ⟨r1, r2⟩ := headersEnd_rest _ s.id s.headersMain h ho m1 i1 c1 ha
              exact ⟨(f0.trans f1).others.trans r1, r2 (markHeaders_rest i0 (a0.mono (fun _ z => z.imp id (·.1))))⟩
            · rename_i h6
              have h6 : eh = false := by simpa using h6
              subst h6
              exact ⟨((f0.trans f1).trans (Fr.withUpd (f := fun s => { s with expecting := true }) _ (fun _ => rfl))).others, act1_upd (fun _ => rfl) (fun _ => rfl) (markHeaders_rest1 a0)⟩

theorem opened_rest {c : Conn x} {sid : Nat} {frag : Bytes} {fin eh : Bool} {h : Script} (ho : sid % 2 = 1) (hm : 0 < c.peerMaxFrame) (hi : Inv0 c)
    (hok : AllOk c) (hn : c.find sid = none) (hl : c.lastClient < sid) (hf : framesOn sid c.out = []) (h1 : c.ok = true) (hc : c.active = true)
    (ha : (headersOn { c with streams := c.streams ++ [{ id := sid, peerW := c.initPeer }], lastClient := sid } { id := sid, peerW := c.initPeer } frag fin eh h).alive = true) :
    AllOk (headersOn { c with streams := c.streams ++ [{ id := sid, peerW := c.initPeer }], lastClient := sid } { id := sid, peerW := c.initPeer } frag fin eh h) := by
  have hfd : ∀ k, ({ c with streams := c.streams ++ [{ id := sid, peerW := c.initPeer }], lastClient := sid } : Conn x).find k =
      if k = sid then some { id := sid, peerW := c.initPeer } else c.find k :=
    fun k => find_append_list c.streams { id := sid, peerW := c.initPeer } k hn
  have i1 : Inv0 ({ c with streams := c.streams ++ [{ id := sid, peerW := c.initPeer }], lastClient := sid } : Conn x) :=
    hi.micro (Micro.opened c sid ho hl hn h1 hc)
  have o1 : Others sid c ({ c with streams := c.streams ++ [{ id := sid, peerW := c.initPeer }], lastClient := sid } : Conn x) := by
    intro k _ hk z
    refine z.same ?_ rfl (Int.le_refl _)
    rw [hfd, if_neg hk]
  have a1 : At ({ c with streams := c.streams ++ [{ id := sid, peerW := c.initPeer }], lastClient := sid } : Conn x) sid ActI := by
    intro t ht
    rw [hfd, if_pos rfl] at ht
    have e := (Option.some.inj ht).symm
    subst e
    exact ⟨⟨rfl, fun z => (by cases z), Nat.le_refl _, fun z => absurd hf z⟩, Or.inr ⟨rfl, rfl⟩⟩
  have hs := (hfd sid).trans (if_pos rfl)
  have m1 : 0 < ({ c with streams := c.streams ++ [{ id := sid, peerW := c.initPeer }], lastClient := sid } : Conn x).peerMaxFrame := hm
  have c1 : ({ c with streams := c.streams ++ [{ id := sid, peerW := c.initPeer }], lastClient := sid } : Conn x).active = true := hc
  generalize ({ c with streams := c.streams ++ [{ id := sid, peerW := c.initPeer }], lastClient := sid } : Conn x) = d at *
  obtain ⟨r1, r2⟩ := headersOn_rest (s := { id := sid, peerW := c.initPeer }) ho m1 i1 c1 hs a1 ha
  exact hok.others (o1.trans r1) (fun _ => r2)

theorem onHeaders_rest {c : Conn x} {sid : Nat} {frag : Bytes} {fin eh : Bool} {h : Script} (hm : 0 < c.peerMaxFrame) (hi : Inv0 c)
    (hf : ∀ k, k % 2 = 1 → c.lastClient < k → framesOn k c.out = []) (hok : AllOk c) (ha : (onHeaders c sid frag fin eh h).alive = true) :
    AllOk (onHeaders c sid frag fin eh h) := by
  unfold onHeaders at ha ⊢
  split
  · exact hok
  · rename_i h1
    rw [if_neg h1] at ha
    have hc : c.active = true := by
      simp only [Bool.or_eq_true, Bool.not_eq_true', not_or, Bool.not_eq_false] at h1; exact h1.2
    split
    · rename_i h2; rw [if_pos h2, goaway_dead] at ha; cases ha
    · rename_i h2
      rw [if_neg h2] at ha
      split
      · rename_i h3; rw [if_pos h3, goaway_dead] at ha; cases ha
      · rename_i h3
        rw [if_neg h3] at ha
        have ho : sid % 2 = 1 := by
          have : ¬ sid % 2 = 0 := by simpa using h3
          omega
        split
        · rename_i hn
          rw [hn] at ha
          simp only [] at ha
          have rst : ∀ code, AllOk (sendRst c sid code) := fun code =>
            hok.others (fr_sendRst sid c code true).others (fun _ => .gone (sendRst_find (Or.inl hc)))
          split
          · exact rst _
          · rename_i h4
            rw [if_neg h4] at ha
            split
            · exact rst _
            · rename_i h5
              rw [if_neg h5] at ha
              split
              · exact rst _
              · rename_i h6
                rw [if_neg h6] at ha
                have hmx : max c.lastClient sid = sid := by omega
                rw [hmx] at ha ⊢
                exact opened_rest ho hm hi hok hn (by omega) (hf sid ho (by omega)) (by
                  simp only [Bool.or_eq_true, Bool.not_eq_true', not_or, Bool.not_eq_false] at h1; exact h1.1) hc ha
        · rename_i s hs
          rw [hs] at ha
          simp only [] at ha
          have e : s.id = sid := find_id hs
          subst e
          obtain ⟨r1, r2⟩ := headersOn_rest ho hm hi hc hs ((hok _ ho).mono (fun _ => Or.inl)) ha
          exact hok.others r1 (fun _ => r2)

/-! ## CONTINUATION -/

theorem dispatch_alive {c : Conn x} {sid : Nat} {h : Script} (ha : (dispatch c sid h).alive = true) : c.alive = true := by
  unfold dispatch at ha
  split at ha
  · exact ha
  · split at ha
    · exact ha
    · split at ha
      · rename_i h2
        exact h2
      · exact ha

theorem continuationEnd_rest {c : Conn x} {s : SStream} {h : Script} (ho : s.id % 2 = 1) (hm : 0 < c.peerMaxFrame) (hi : Inv0 c)
    (hc : c.active = true) (hs : c.find s.id = some s) (hok : AllOk c) (ha : (continuationEnd c s h).alive = true) : AllOk (continuationEnd c s h) := by
  unfold continuationEnd at ha ⊢
  simp only [] at ha ⊢
  rw [clear_alive] at ha
  have f1 : Fr s.id c (c.upd s.id (fun s => { s with expecting := false })) := Fr.withUpd _ (fun _ => rfl)
  have k1 : At (c.upd s.id (fun s => { s with expecting := false })) s.id Act2 :=
    act2_upd (fun _ => rfl) (fun _ => rfl) ((hok _ ho).mono (fun _ => Or.inl))
  have i1 : Inv0 (c.upd s.id (fun s => { s with expecting := false })) := hi.upd s.id (fun _ => rfl) (fun s k => k.same rfl) (fun _ => Or.inl)
  have m1 : 0 < (c.upd s.id (fun s => { s with expecting := false })).peerMaxFrame := hm
  have c1 : (c.upd s.id (fun s => { s with expecting := false })).active = true := hc
  have hmain : s.headersMain = true → ∀ t, (c.upd s.id (fun s => { s with expecting := false })).find s.id = some t → t.headersMain = true := by
    intro e t ht
    rcases find_upd_some (c := c) ht (fun _ => rfl) with ⟨_, u, hu, e'⟩ | ⟨e', _⟩
    · have : u = s := Option.some.inj (hu.symm.trans hs)
      subst this; subst e'; exact e
    · exact absurd rfl e'
  generalize c.upd s.id (fun s => { s with expecting := false }) = d at *
  obtain ⟨ls, sl, p⟩ := path_processBlock d s.id ho s.headersMain h hmain
  have i2 := i1.path p
  have bo := processBlock_rest d s.id s.headersMain h ho m1 i1 c1
  have mx := processBlock_max d s.id s.headersMain h
  generalize processBlock d s.id s.headersMain h = r at *
  have m2 : 0 < r.1.peerMaxFrame := by rw [mx]; exact m1
  refine AllOk.clear ?_
  split
  · rename_i hr
    rw [if_pos hr] at ha
    have bo := bo ha
    exact hok.others (f1.others.trans bo.others) (fun _ => .gone (bo.refused (by simpa using hr)))
  · rename_i hr
    rw [if_neg hr] at ha
    cases hf : r.1.find s.id with
    | none =>
      rw [hf] at ha
      exact hok.others (f1.others.trans (bo ha).others) (fun _ => .gone hf)
    | some t =>
      rw [hf] at ha
      simp only [] at ha ⊢
      have f3 : Fr s.id r.1 (if s.headersMain = true then r.1.upd s.id (fun s => { s with trailersRecv := true }) else r.1) := by
        split
        · exact .withUpd _ (fun _ => rfl)
        · exact .refl _ _
      have p3 : Path r.1 [] (if s.headersMain = true then r.1.upd s.id (fun s => { s with trailersRecv := true }) else r.1) := by
        split
        · exact Path.soft (fun s => soft_same _ _ rfl)
        · exact .refl _
      have k3 : At r.1 s.id Act2 → At (if s.headersMain = true then r.1.upd s.id (fun s => { s with trailersRecv := true }) else r.1) s.id Act2 := by
        split
        · exact act2_upd (fun _ => rfl) (fun _ => rfl)
        · exact id
      have i3 := i2.path p3
      have m3 : 0 < (if s.headersMain = true then r.1.upd s.id (fun s => { s with trailersRecv := true }) else r.1).peerMaxFrame := by
        rw [f3.maxF]; exact m2
      generalize (if s.headersMain = true then r.1.upd s.id (fun s => { s with trailersRecv := true }) else r.1) = e at *
      have f4 : Fr s.id e (e.upd s.id (fun s => { s with state := if s.endRecv then recvEnd s.state else s.state })) := .withUpd _ (fun _ => rfl)
      have p4 : Path e [] (e.upd s.id (fun s => { s with state := if s.endRecv then recvEnd s.state else s.state })) := Path.soft (sid := s.id) soft_recvEnd'
      have k4 : At e s.id Act2 → At (e.upd s.id (fun s => { s with state := if s.endRecv then recvEnd s.state else s.state })) s.id Act2 := by
        intro z
        refine z.upd (fun _ => rfl) (fun F w u _ hc hp => ⟨hc.same rfl, ?_⟩)
        show isActive { u with state := if u.endRecv then recvEnd u.state else u.state } = true ∨ (if u.endRecv then recvEnd u.state else u.state) = .closed
        unfold Act2 isActive at hp
        unfold isActive
        cases u.endRecv <;> cases hs : u.state <;> simp [hs, recvEnd] at hp ⊢
      have i4 := i3.path p4
      have m4 : 0 < (e.upd s.id (fun s => { s with state := if s.endRecv then recvEnd s.state else s.state })).peerMaxFrame := by
        rw [f4.maxF]; exact m3
      have p34 := p3.trans p4
      generalize e.upd s.id (fun s => { s with state := if s.endRecv then recvEnd s.state else s.state }) = g at *
      cases hg : g.find s.id with
      | none =>
        rw [hg] at ha
        have bo := bo (alive_path p34 ha)
        exact hok.others ((f1.others.trans bo.others).trans (f3.trans f4).others) (fun _ => .gone hg)
      | some u =>
        rw [hg] at ha
        simp only [] at ha ⊢
        split
        · rename_i hcl
          rw [if_pos hcl] at ha
          have hd := alive_path (path_tryClose _ _) ha
          have bo := bo (alive_path p34 (dispatch_alive hd))
          obtain ⟨q1, q2⟩ := dispatch_rest g s.id h ho m4 i4 hd
          exact hok.others (((f1.others.trans bo.others).trans (f3.trans f4).others).trans (q1.trans (fr_tryClose _ _).others))
            (fun _ => at_tryClose (q2 (k4 (k3 (bo.here k1)))))
        · rename_i hcl
          rw [if_neg hcl] at ha
          have bo := bo (alive_path p34 ha)
          refine hok.others ((f1.others.trans bo.others).trans (f3.trans f4).others) (fun _ => ?_)
          intro v hv
          have e' : v = u := Option.some.inj (hv.symm.trans hg)
          subst e'
          obtain ⟨a1, a2⟩ := k4 (k3 (bo.here k1)) v hv
          exact ⟨a1, a2.resolve_right (by simpa using hcl)⟩

theorem onContinuation_rest {c : Conn x} {sid : Nat} {frag : Bytes} {eh : Bool} {h : Script} (hm : 0 < c.peerMaxFrame) (hi : Inv0 c)
    (hok : AllOk c) (ha : (onContinuation c sid frag eh h).alive = true) : AllOk (onContinuation c sid frag eh h) := by
  unfold onContinuation at ha ⊢
  split
  · exact hok
  · rename_i h1
    rw [if_neg h1] at ha
    have hc : c.active = true := by
      simp only [Bool.or_eq_true, Bool.not_eq_true', not_or, Bool.not_eq_false] at h1; exact h1.2
    split
    · rename_i h2; rw [if_pos h2, clear_alive, goaway_dead] at ha; cases ha
    · rename_i h2
      rw [if_neg h2] at ha
      have ho : sid % 2 = 1 := by
        simp only [Bool.or_eq_true, beq_iff_eq, bne_iff_ne, ne_eq, not_or, Decidable.not_not] at h2
        rcases hi.cur with h | h
        · exact absurd h h2.1.2
        · rw [h2.2]; exact h
      cases hs : c.find sid with
      | none => rw [hs] at ha; simp only [] at ha; rw [clear_alive, goaway_dead] at ha; cases ha
      | some s =>
        rw [hs] at ha
        simp only [] at ha ⊢
        have e : s.id = sid := find_id hs
        subst e
        split
        · rename_i h3; rw [if_pos h3, clear_alive, goaway_dead] at ha; cases ha
        · rename_i h3
          rw [if_neg h3] at ha
          split
          · rename_i h4; rw [if_pos h4, clear_alive, goaway_dead] at ha; cases ha
          · rename_i h4
            rw [if_neg h4] at ha
            split
            · rename_i h5; rw [if_pos h5, clear_alive, goaway_dead] at ha; cases ha
            · rename_i h5
              rw [if_neg h5] at ha
              have ok1 : AllOk { c with contCount := c.contCount + 1, frag := c.frag ++ frag } := fun k o => at_aux (hok k o) rfl rfl rfl
              have i1 : Inv0 { c with contCount := c.contCount + 1, frag := c.frag ++ frag } := ⟨hi.state, hi.odd, hi.cur, hi.nodup⟩
              have m1 : 0 < ({ c with contCount := c.contCount + 1, frag := c.frag ++ frag } : Conn x).peerMaxFrame := hm
              have s1 : ({ c with contCount := c.contCount + 1, frag := c.frag ++ frag } : Conn x).find s.id = some s := hs
              have c1 : ({ c with contCount := c.contCount + 1, frag := c.frag ++ frag } : Conn x).active = true := hc
              generalize ({ c with contCount := c.contCount + 1, frag := c.frag ++ frag } : Conn x) = d at *
              split
              · rename_i h6
                rw [if_pos h6] at ha
                exact continuationEnd_rest ho m1 i1 c1 s1 ok1 ha
              · exact ok1.others (Fr.others (Fr.withUpd (f := fun s => { s with expecting := true }) _ (fun _ => rfl)))
                  (fun _ => act1_upd (fun _ => rfl) (fun _ => rfl) (ok1 _ ho))

end Verif.Srv
