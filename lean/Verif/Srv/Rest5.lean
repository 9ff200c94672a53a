import Verif.Srv.Rest4

/-! # Streams at rest: header blocks -/

namespace Verif.Srv
open Verif.Stream

variable {x : Ext}

/-- The result of processing a header block: others untouched, the stream active or closed, gone if refused. -/
structure BlockOk (sid : Nat) (c : Conn x) (r : Conn x × Bool) : Prop where
  others : Others sid c r.1
  here : At c sid Act2 → At r.1 sid Act2
  refused : r.2 = false → r.1.find sid = none

theorem BlockOk.after {sid : Nat} {c c' : Conn x} {r : Conn x × Bool} (h : BlockOk sid c' r) (f : Others sid c c') (k : At c sid Act2 → At c' sid Act2) :
    BlockOk sid c r := ⟨f.trans h.others, fun z => h.here (k z), h.refused⟩

theorem BlockOk.rst {sid code : Nat} {c : Conn x} (ha : c.active = true) : BlockOk sid c (sendRst c sid code, false) :=
  ⟨(fr_sendRst _ _ _ _).others, fun _ => .gone (sendRst_find (Or.inl ha)), fun _ => sendRst_find (Or.inl ha)⟩

theorem act2_upd {c : Conn x} {sid : Nat} {f : SStream → SStream} (k : ∀ s, (f s).id = s.id)
    (e : ∀ s, ((f s).rstRecv, (f s).rstSent, (f s).dispatched, (f s).offset, (f s).body, (f s).endSent, (f s).pending, (f s).peerW, (f s).state) =
      (s.rstRecv, s.rstSent, s.dispatched, s.offset, s.body, s.endSent, s.pending, s.peerW, s.state)) : At c sid Act2 → At (c.upd sid f) sid Act2 := by
  intro h
  refine h.upd k (fun F w s _ hc hp => ?_)
  have := e s
  simp only [Prod.mk.injEq] at this
  obtain ⟨e1, e2, e3, e4, e5, e6, e7, e8, e9⟩ := this
  refine ⟨hc.same (by rw [e1, e2, e3, e4, e5, e6, e7, e8]), ?_⟩
  unfold Act2 isActive at hp ⊢
  rw [e9]; exact hp

theorem processHead_rest (c : Conn x) (sid : Nat) (fs : List Field) (h : Script) (ho : sid % 2 = 1) (hm : 0 < c.peerMaxFrame) (hi : Inv0 c)
    (hc : c.active = true) (ha : (processHead c sid fs h).1.alive = true) : BlockOk sid c (processHead c sid fs h) := by
  unfold processHead at ha ⊢
  split
  · exact .rst hc
  · rename_i r cl hr
    rw [hr] at ha
    simp only [] at ha ⊢
    have f1 : Fr sid c (c.upd sid (fun s => { s with headersMain := true, cl := cl, req := { r with body := s.req.body } })) := .withUpd _ (fun _ => rfl)
    have k1 : At c sid Act2 → At (c.upd sid (fun s => { s with headersMain := true, cl := cl, req := { r with body := s.req.body } })) sid Act2 :=
      act2_upd (fun _ => rfl) (fun _ => rfl)
    have i1 : Inv0 (c.upd sid (fun s => { s with headersMain := true, cl := cl, req := { r with body := s.req.body } })) :=
      hi.upd sid (fun _ => rfl) (fun s k => k.same rfl) (fun _ _ => Or.inr ho)
    have m1 : 0 < (c.upd sid (fun s => { s with headersMain := true, cl := cl, req := { r with body := s.req.body } })).peerMaxFrame := hm
    have c1 : (c.upd sid (fun s => { s with headersMain := true, cl := cl, req := { r with body := s.req.body } })).active = true := hc
    generalize c.upd sid (fun s => { s with headersMain := true, cl := cl, req := { r with body := s.req.body } }) = d at *
    have keep : BlockOk sid c (d, true) := ⟨f1.others, k1, fun e => by cases e⟩
    split
    · exact keep
    · rename_i s hs
      rw [hs] at ha
      simp only [] at ha
      split
      · rename_i he
        rw [if_pos he] at ha
        split
        · exact BlockOk.after (.rst c1) f1.others k1
        · rename_i hmm
          rw [if_neg hmm] at ha
          obtain ⟨r1, r2⟩ := dispatch_rest d sid h ho m1 i1 ha
          exact ⟨f1.others.trans r1, fun z => r2 (k1 z), fun e => by cases e⟩
      · exact keep

theorem processTrailers_rest (c : Conn x) (sid : Nat) (fs : List Field) (h : Script) (ho : sid % 2 = 1) (hm : 0 < c.peerMaxFrame) (hi : Inv0 c)
    (hc : c.active = true) (ha : (processTrailers c sid fs h).1.alive = true) : BlockOk sid c (processTrailers c sid fs h) := by
  unfold processTrailers at ha ⊢
  split
  · exact ⟨.refl, id, fun e => by cases e⟩
  · rename_i s hs
    rw [hs] at ha
    simp only [] at ha
    split
    · exact .rst hc
    · rename_i hds ht
      rw [ht] at ha
      simp only [] at ha ⊢
      have f1 : Fr sid c (c.upd sid (fun s => { s with trailersRecv := true, req := { s.req with headers := hds } })) := .withUpd _ (fun _ => rfl)
      have k1 : At c sid Act2 → At (c.upd sid (fun s => { s with trailersRecv := true, req := { s.req with headers := hds } })) sid Act2 :=
        act2_upd (fun _ => rfl) (fun _ => rfl)
      have i1 : Inv0 (c.upd sid (fun s => { s with trailersRecv := true, req := { s.req with headers := hds } })) :=
        hi.upd sid (fun _ => rfl) (fun s k => k.same rfl) (fun _ => Or.inl)
      have m1 : 0 < (c.upd sid (fun s => { s with trailersRecv := true, req := { s.req with headers := hds } })).peerMaxFrame := hm
      have c1 : (c.upd sid (fun s => { s with trailersRecv := true, req := { s.req with headers := hds } })).active = true := hc
      generalize c.upd sid (fun s => { s with trailersRecv := true, req := { s.req with headers := hds } }) = d at *
      split
      · exact BlockOk.after (.rst c1) f1.others k1
      · rename_i g1
        rw [if_neg g1] at ha
        split
        · exact BlockOk.after (.rst c1) f1.others k1
        · rename_i g2
          rw [if_neg g2] at ha
          split
          · rename_i g3
            rw [if_pos g3] at ha
            obtain ⟨r1, r2⟩ := dispatch_rest d sid h ho m1 i1 ha
            exact ⟨f1.others.trans r1, fun z => r2 (k1 z), fun e => by cases e⟩
          · exact ⟨f1.others, k1, fun e => by cases e⟩

theorem at_aux {c c' : Conn x} {k : Nat} {P : SStream → Prop} (h : At c k P) (h1 : c'.streams = c.streams) (h2 : c'.out = c.out)
    (h3 : c'.sendW = c.sendW) : At c' k P := h.same (by unfold Conn.find; rw [h1]) (by rw [h2]) (Int.le_of_eq h3)

theorem processBlock_rest (c : Conn x) (sid : Nat) (tr : Bool) (h : Script) (ho : sid % 2 = 1) (hm : 0 < c.peerMaxFrame) (hi : Inv0 c)
    (hc : c.active = true) (ha : (processBlock c sid tr h).1.alive = true) : BlockOk sid c (processBlock c sid tr h) := by
  unfold processBlock at ha ⊢
  simp only [] at ha ⊢
  split
  · exact BlockOk.after (c' := { c with dec := (x.decode c.dec c.frag).2 }) (.rst hc) (Fr.others (.aux rfl rfl rfl rfl)) (fun z => at_aux z rfl rfl rfl)
  · rename_i fs hd
    rw [hd] at ha
    simp only [] at ha
    have f1 : Fr sid c ({ c with dec := (x.decode c.dec c.frag).2, frag := [] }.upd sid (fun s => { s with expecting := false })) :=
      Fr.trans (.aux (c' := { c with dec := (x.decode c.dec c.frag).2, frag := [] }) rfl rfl rfl rfl) (Fr.withUpd (f := fun s => { s with expecting := false }) _ (fun _ => rfl))
    have k1 : At c sid Act2 → At ({ c with dec := (x.decode c.dec c.frag).2, frag := [] }.upd sid (fun s => { s with expecting := false })) sid Act2 :=
      fun z => act2_upd (c := { c with dec := (x.decode c.dec c.frag).2, frag := [] }) (f := fun s => { s with expecting := false }) (fun _ => rfl) (fun _ => rfl) (at_aux z rfl rfl rfl)
    have i0 : Inv0 { c with dec := (x.decode c.dec c.frag).2, frag := [] } := ⟨hi.state, hi.odd, hi.cur, hi.nodup⟩
    have i1 : Inv0 ({ c with dec := (x.decode c.dec c.frag).2, frag := [] }.upd sid (fun s => { s with expecting := false })) :=
      i0.upd sid (fun _ => rfl) (fun s k => k.same rfl) (fun _ => Or.inl)
    have m1 : 0 < ({ c with dec := (x.decode c.dec c.frag).2, frag := [] }.upd sid (fun s => { s with expecting := false })).peerMaxFrame := hm
    have c1 : ({ c with dec := (x.decode c.dec c.frag).2, frag := [] }.upd sid (fun s => { s with expecting := false })).active = true := hc
    generalize ({ c with dec := (x.decode c.dec c.frag).2, frag := [] } : Conn x).upd sid (fun s => { s with expecting := false }) = d at *
    split
    · rename_i ht
      rw [if_pos ht] at ha
      exact (processHead_rest d sid fs h ho m1 i1 c1 ha).after f1.others k1
    · rename_i ht
      rw [if_neg ht] at ha
      exact (processTrailers_rest d sid fs h ho m1 i1 c1 ha).after f1.others k1

/-! ## HEADERS -/

/-- A step that leaves every client stream active. -/
def AllOk (c : Conn x) : Prop := ∀ k, k % 2 = 1 → At c k Act1

theorem AllOk.others {sid : Nat} {c c' : Conn x} (h : AllOk c) (o : Others sid c c') (k : sid % 2 = 1 → At c' sid Act1) : AllOk c' := by
  intro j ho
  by_cases e : j = sid
  · subst e; exact k ho
  · exact o j ho e (h j ho)

theorem clear_alive (c : Conn x) : (clearAssembly c).alive = c.alive := rfl
theorem at_clear {c : Conn x} {k : Nat} {P : SStream → Prop} (h : At c k P) : At (clearAssembly c) k P := at_aux h rfl rfl rfl
theorem fr_clear (sid : Nat) (c : Conn x) : Fr sid c (clearAssembly c) := .aux rfl rfl rfl rfl

theorem headersEnd_rest (c : Conn x) (sid : Nat) (tr : Bool) (h : Script) (ho : sid % 2 = 1) (hm : 0 < c.peerMaxFrame) (hi : Inv0 c)
    (hc : c.active = true) (ha : (headersEnd c sid tr h).alive = true) :
    Others sid c (headersEnd c sid tr h) ∧ (At c sid Act2 → At (headersEnd c sid tr h) sid Act1) := by
  unfold headersEnd at ha ⊢
  simp only [] at ha ⊢
  rw [clear_alive] at ha
  have f1 : Fr sid c (c.upd sid (fun s => { s with expecting := false })) := Fr.withUpd _ (fun _ => rfl)
  have k1 : At c sid Act2 → At (c.upd sid (fun s => { s with expecting := false })) sid Act2 := act2_upd (fun _ => rfl) (fun _ => rfl)
  have i1 : Inv0 (c.upd sid (fun s => { s with expecting := false })) := hi.upd sid (fun _ => rfl) (fun s k => k.same rfl) (fun _ => Or.inl)
  have m1 : 0 < (c.upd sid (fun s => { s with expecting := false })).peerMaxFrame := hm
  have c1 : (c.upd sid (fun s => { s with expecting := false })).active = true := hc
  generalize c.upd sid (fun s => { s with expecting := false }) = d at *
  have pr : ∀ r : Conn x × Bool, Path r.1 [] (if (!r.2) = true then r.1 else match r.1.find sid with
      | none => r.1
      | some s => if s.state == .closed then tryClose r.1 sid else r.1) := by
    intro r
    split
    · exact .refl _
    · exact path_closeTail _ _
  have bo := processBlock_rest d sid tr h ho m1 i1 c1 (alive_path (pr _) ha)
  generalize processBlock d sid tr h = r at *
  refine ⟨(f1.others.trans bo.others).trans ?_, fun z => at_clear ?_⟩
  · refine Others.trans ?_ (fr_clear _ _).others
    split
    · exact .refl
    · exact (fr_closeTail _ _).others
  · split
    · rename_i hr
      exact .gone (bo.refused (by simpa using hr))
    · exact at_closeTail (bo.here (k1 z))

theorem markHeaders_rest {c : Conn x} {sid : Nat} {fin eh : Bool} (hi : Inv0 c)
    (h : At c sid (fun s => isActive s = true ∨ s.state = .idle)) : At (markHeaders c sid fin eh) sid Act2 := by
  unfold markHeaders
  have one : At (c.upd sid (fun s => { s with state := if s.state == .idle then .open_ else s.state })) sid Act1 := by
    refine h.upd (fun _ => rfl) (fun F w s _ hc hp => ⟨hc.same rfl, ?_⟩)
    show isActive { s with state := if s.state == .idle then .open_ else s.state } = true
    unfold isActive at hp ⊢
    cases hs : s.state <;> simp [hs] at hp ⊢
  simp only []
  split
  · refine one.upd (fun _ => rfl) (fun F w s _ hc hp => ⟨hc.same rfl, ?_⟩)
    show isActive { s with endRecv := true, state := if eh then recvEnd s.state else s.state } = true ∨ (if eh then recvEnd s.state else s.state) = .closed
    unfold Act1 isActive at hp
    unfold isActive
    cases eh <;> cases hs : s.state <;> simp [hs, recvEnd] at hp ⊢
  · exact one.mono (fun _ => Or.inl)

theorem fr_markHeaders (sid : Nat) (c : Conn x) (fin eh : Bool) : Fr sid c (markHeaders c sid fin eh) := by
  unfold markHeaders
  simp only []
  have f1 : Fr sid c (c.upd sid (fun s => { s with state := if s.state == .idle then .open_ else s.state })) := .withUpd _ (fun _ => rfl)
  split
  · exact f1.trans (.withUpd _ (fun _ => rfl))
  · exact f1

end Verif.Srv
