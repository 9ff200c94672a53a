import Verif.Srv.Rest6

/-! # Streams at rest: DATA, RST_STREAM, GOAWAY -/

namespace Verif.Srv
open Verif.Stream

variable {x : Ext}

/-! ## DATA -/

theorem framesOn_wu (k j n : Nat) : framesOn k [.windowUpdate j n] = [] := rfl

theorem fr_windowUpdate (sid : Nat) (c : Conn x) (j n : Nat) : Fr sid c (sendWindowUpdate c j n) := by
  unfold sendWindowUpdate
  split
  · exact .refl _ _
  · exact .emit _ (fun _ _ => rfl)

theorem windowUpdate_out (c : Conn x) (j n k : Nat) : framesOn k (sendWindowUpdate c j n).out = framesOn k c.out := by
  unfold sendWindowUpdate
  split
  · rfl
  · show framesOn k (c.out ++ _) = _
    rw [framesOn_append, framesOn_wu, List.append_nil]

theorem windowUpdate_find (c : Conn x) (j n k : Nat) : (sendWindowUpdate c j n).find k = c.find k := by
  unfold sendWindowUpdate; split <;> rfl

theorem windowUpdate_sendW (c : Conn x) (j n : Nat) : (sendWindowUpdate c j n).sendW = c.sendW := by
  unfold sendWindowUpdate; split <;> rfl

theorem fr_condConn (sid : Nat) (c : Conn x) : Fr sid c (condConnUpdate c) := by
  unfold condConnUpdate
  simp only []
  split
  · split
    · exact Fr.trans (fr_windowUpdate sid c 0 (65535 - c.recvW).toNat) (.aux rfl rfl rfl rfl)
    · exact .refl _ _
  · exact .refl _ _

theorem at_condConn {c : Conn x} {k : Nat} {P : SStream → Prop} (h : At c k P) : At (condConnUpdate c) k P := by
  refine h.same (find_condConn c k) ?_ (fr_condConn 0 c).sendW
  unfold condConnUpdate
  simp only []
  split
  · split
    · exact windowUpdate_out c 0 _ k
    · rfl
  · rfl

theorem fr_creditStream (sid n : Nat) (c : Conn x) : Fr sid c (creditStream c sid n) := by
  unfold creditStream
  split
  · exact .refl _ _
  · simp only []
    split
    · exact Fr.trans (fr_windowUpdate sid c sid _) (.withUpd _ (fun _ => rfl))
    · exact .withUpd _ (fun _ => rfl)

theorem at_creditStream {c : Conn x} {sid n : Nat} (h : At c sid Act1) : At (creditStream c sid n) sid Act1 := by
  unfold creditStream
  split
  · exact h
  · simp only []
    split
    · refine act1_upd (f := fun s => { s with localW := s.localW + ((_ : Nat) : Int), processed := 0 }) (fun _ => rfl) (fun _ => rfl) ?_
      exact h.same (windowUpdate_find _ _ _ _) (windowUpdate_out _ _ _ _) (Int.le_of_eq (windowUpdate_sendW _ _ _))
    · exact act1_upd (fun _ => rfl) (fun _ => rfl) h

/-- The others as they were, this one active or gone. -/
def Good (sid : Nat) (c c' : Conn x) : Prop := Others sid c c' ∧ (sid % 2 = 1 → At c sid Act1 → At c' sid Act1)

theorem Good.all {sid : Nat} {c c' : Conn x} (h : Good sid c c') (k : AllOk c) : AllOk c' := k.others h.1 (fun o => h.2 o (k sid o))

theorem Good.trans {sid : Nat} {a b c : Conn x} (h : Good sid a b) (k : Good sid b c) : Good sid a c :=
  ⟨h.1.trans k.1, fun o z => k.2 o (h.2 o z)⟩

theorem Good.rst {sid code : Nat} {c : Conn x} (h : c.active = true) : Good sid c (sendRst c sid code) :=
  ⟨(fr_sendRst _ _ _ _).others, fun _ _ => .gone (sendRst_find (Or.inl h))⟩

theorem Good.refl {sid : Nat} {c : Conn x} : Good sid c c := ⟨.refl, fun _ h => h⟩

theorem Good.cond {sid : Nat} {c : Conn x} : Good sid c (condConnUpdate c) := ⟨(fr_condConn _ _).others, fun _ => at_condConn⟩

theorem Good.recv {sid n : Nat} {c : Conn x} : Good sid c (recvLess c n) := ⟨Fr.others (.aux rfl rfl rfl rfl), fun _ h => at_aux h rfl rfl rfl⟩

theorem Good.upd {sid : Nat} {c : Conn x} {f : SStream → SStream} (k : ∀ s, (f s).id = s.id)
    (e : ∀ s, ((f s).rstRecv, (f s).rstSent, (f s).dispatched, (f s).offset, (f s).body, (f s).endSent, (f s).pending, (f s).peerW, (f s).state) =
      (s.rstRecv, s.rstSent, s.dispatched, s.offset, s.body, s.endSent, s.pending, s.peerW, s.state)) : Good sid c (c.upd sid f) :=
  ⟨Fr.others (.withUpd _ k), fun _ => act1_upd k e⟩

theorem dataEnd_rest {c : Conn x} {sid n : Nat} {h : Script} (hm : 0 < c.peerMaxFrame) (hi : Inv0 c) (h0 : sid ≠ 0) (hf : c.find sid ≠ none)
    (ha : (dataEnd c sid n h).alive = true) : Good sid c (dataEnd c sid n h) := by
  unfold dataEnd at ha ⊢
  simp only [] at ha ⊢
  have g1 : Good sid c (c.upd sid (fun s => { s with endRecv := true })) := Good.upd (fun _ => rfl) (fun _ => rfl)
  have p1 : Path c [.ended sid] (c.upd sid (fun s => { s with endRecv := true })) := .one (.ended c sid)
  have m1 : (c.upd sid (fun s => { s with endRecv := true })).peerMaxFrame = c.peerMaxFrame := rfl
  generalize c.upd sid (fun s => { s with endRecv := true }) = c1 at *
  have g2 : Good sid c1 (condConnUpdate (creditStream c1 sid n)) :=
    ⟨((fr_creditStream _ _ _).trans (fr_condConn _ _)).others, fun _ z => at_condConn (at_creditStream z)⟩
  obtain ⟨l1, _, _, p2⟩ := path_creditStream c1 sid n h0
  have m2 := ((fr_creditStream sid n c1).trans (fr_condConn _ _)).maxF
  have p3 := p1.trans (p2.tr' (path_condConn _))
  generalize condConnUpdate (creditStream c1 sid n) = d at *
  have i3 := hi.path p3
  have g := g1.trans g2
  have md : 0 < d.peerMaxFrame := by rw [m2, m1]; exact hm
  cases hs : d.find sid with
  | none => exact g
  | some s =>
    rw [hs] at ha
    simp only [] at ha ⊢
    split
    · rename_i h1
      rw [if_pos h1] at ha
      exact g.trans (.rst (alive_iff.mp (alive_path (path_sendRst _ _ _ _) ha)).2)
    · rename_i h1
      rw [if_neg h1] at ha
      have tail : ∀ e : Conn x, (∀ t, e.find sid = some t → t.endSent = true → True) → Others sid d e → (sid % 2 = 1 → At d sid Act1 → At e sid Act2) →
          Good sid d (match e.find sid with
            | none => e
            | some s => if s.endSent = true then tryClose (e.upd sid (fun s => { s with state := .closed })) sid
              else e.upd sid (fun s => { s with state := .halfClosedRemote })) := by
        intro e _ o a
        cases he : e.find sid with
        | none => exact ⟨o, fun _ _ => .gone he⟩
        | some t =>
          simp only []
          split
          · refine ⟨o.trans (Fr.others ((Fr.withUpd (f := fun s => { s with state := .closed }) _ (fun _ => rfl)).trans (fr_tryClose _ _))), fun ho z => at_tryClose ?_⟩
            exact (a ho z).upd (fun _ => rfl) (fun F w u _ hc _ => ⟨hc.same rfl, Or.inr rfl⟩)
          · exact ⟨o.trans (Fr.others (.withUpd _ (fun _ => rfl))), fun ho z =>
              (a ho z).upd (fun _ => rfl) (fun F w u _ hc _ => ⟨hc.same rfl, rfl⟩)⟩
      have tp : ∀ e : Conn x, (match e.find sid with
            | none => e
            | some s => if s.endSent = true then tryClose (e.upd sid (fun s => { s with state := .closed })) sid
              else e.upd sid (fun s => { s with state := .halfClosedRemote })).alive = true → e.alive = true := by
        intro e
        cases he : e.find sid with
        | none => exact id
        | some t =>
          simp only []
          split
          · exact fun z => alive_path (a := e.upd sid (fun s => { s with state := .closed })) (path_tryClose _ _) z
          · exact id
      refine g.trans ?_
      by_cases hh : s.headersMain = true
      · rw [if_pos hh] at ha ⊢
        have ho := i3.odd _ _ hs hh
        obtain ⟨q1, q2⟩ := dispatch_rest d sid h ho md i3 (tp _ ha)
        exact tail _ (fun _ _ _ => trivial) q1 (fun _ z => q2 (z.mono (fun _ => Or.inl)))
      · rw [if_neg hh] at ha ⊢
        exact tail _ (fun _ _ _ => trivial) .refl (fun _ z => z.mono (fun _ => Or.inl))

theorem dataAccept_rest {c : Conn x} {sid n : Nat} {b : Bytes} {fin : Bool} {h : Script} (hm : 0 < c.peerMaxFrame) (hi : Inv0 c) (h0 : sid ≠ 0)
    (s0 : SStream) (hf : c.find sid = some s0) (hr : s0.endRecv = false)
    (ha : (dataAccept c sid n b fin h).alive = true) : Good sid c (dataAccept c sid n b fin h) := by
  unfold dataAccept at ha ⊢
  simp only [] at ha ⊢
  have g1 : Good sid c ({ c with recvW := c.recvW - (n : Int), ctl := 0 }.upd sid (fun s =>
        { s with localW := s.localW - (n : Int), req := { s.req with body := s.req.body ++ b } })) :=
    Good.trans (b := { c with recvW := c.recvW - (n : Int), ctl := 0 }) ⟨Fr.others (.aux rfl rfl rfl rfl), fun _ h => at_aux h rfl rfl rfl⟩
      (Good.upd (fun _ => rfl) (fun _ => rfl))
  have p : Path c [.dataIn sid n b] ({ c with recvW := c.recvW - (n : Int), ctl := 0 }.upd sid (fun s =>
        { s with localW := s.localW - (n : Int), req := { s.req with body := s.req.body ++ b } })) :=
    Path.tr (b := { c with ctl := 0 }) (Path.one (Micro.aux _ _ rfl rfl rfl rfl rfl rfl rfl (fun h => h) (fun h => h)))
      (.one (.dataIn { c with ctl := 0 } sid n b s0 hf hr))
  have hf1 : ({ c with recvW := c.recvW - (n : Int), ctl := 0 }.upd sid (fun s =>
        { s with localW := s.localW - (n : Int), req := { s.req with body := s.req.body ++ b } })).find sid ≠ none :=
    find_upd_isSome (c := { c with recvW := c.recvW - (n : Int), ctl := 0 }) (by
      intro hn
      have hn : c.find sid = none := hn
      rw [hf] at hn; cases hn) (fun _ => rfl)
  have m1 : 0 < ({ c with recvW := c.recvW - (n : Int), ctl := 0 }.upd sid (fun s =>
        { s with localW := s.localW - (n : Int), req := { s.req with body := s.req.body ++ b } })).peerMaxFrame := hm
  generalize ({ c with recvW := c.recvW - (n : Int), ctl := 0 } : Conn x).upd sid (fun s =>
        { s with localW := s.localW - (n : Int), req := { s.req with body := s.req.body ++ b } }) = c1 at *
  have i1 := hi.path p
  cases hs : c1.find sid with
  | none => exact absurd hs hf1
  | some s =>
    rw [hs] at ha
    simp only [] at ha ⊢
    split
    · rename_i h1
      rw [if_pos h1] at ha
      exact g1.trans (.rst (alive_iff.mp (alive_path (path_sendRst _ _ _ _) ha)).2)
    · rename_i h1
      rw [if_neg h1] at ha
      split
      · rename_i h2
        rw [if_pos h2] at ha
        exact g1.trans (.rst (alive_iff.mp (alive_path (path_sendRst _ _ _ _) ha)).2)
      · rename_i h2
        rw [if_neg h2] at ha
        split
        · rename_i h3
          rw [if_pos h3] at ha
          exact g1.trans (dataEnd_rest m1 i1 h0 hf1 ha)
        · exact g1.trans ⟨((fr_creditStream _ _ _).trans (fr_condConn _ _)).others, fun _ z => at_condConn (at_creditStream z)⟩

theorem onData_rest {c : Conn x} {sid : Nat} {b : Bytes} {pad : Nat} {fin : Bool} {h : Script} (hm : 0 < c.peerMaxFrame) (hi : Inv0 c)
    (ha : (onData c sid b pad fin h).alive = true) : Good sid c (onData c sid b pad fin h) := by
  unfold onData at ha ⊢
  simp only [] at ha ⊢
  split
  · exact .refl
  · rename_i h1
    rw [if_neg h1] at ha
    have hc : c.active = true := by
      simp only [Bool.or_eq_true, Bool.not_eq_true', not_or, Bool.not_eq_false] at h1; exact h1.2
    split
    · rename_i h2; rw [if_pos h2, goaway_dead] at ha; cases ha
    · rename_i h2
      rw [if_neg h2] at ha
      split
      · rename_i h3; rw [if_pos h3, goaway_dead] at ha; cases ha
      · rename_i h3
        rw [if_neg h3] at ha
        cases hs : c.find sid with
        | none =>
          rw [hs] at ha
          simp only [] at ha ⊢
          unfold dataUnknown at ha ⊢
          split
          · rename_i h4; rw [if_pos h4, goaway_dead] at ha; cases ha
          · exact Good.trans (Good.trans (b := recvLess c (b.length + pad)) .recv (.rst hc)) .cond
        | some s =>
          rw [hs] at ha
          simp only [] at ha ⊢
          split
          · have g := Good.trans (.recv (sid := sid) (n := b.length + pad) (c := c)) .cond
            split
            · refine g.trans (.rst ?_)
              unfold condConnUpdate sendWindowUpdate recvLess
              simp only []
              split
              · split
                · split <;> exact hc
                · exact hc
              · exact hc
            · exact g
          · rename_i h4
            rw [if_neg h4] at ha
            split
            · exact Good.trans (Good.trans (.rst hc) .recv) .cond
            · rename_i h5
              rw [if_neg h5] at ha
              split
              · exact Good.trans (Good.trans (.rst hc) .recv) .cond
              · rename_i h6
                rw [if_neg h6] at ha
                exact dataAccept_rest hm hi (by simpa using h2) s hs (by simpa using h5) ha

/-! ## RST_STREAM, GOAWAY -/

theorem onRst_rest {c : Conn x} {sid code : Nat} (hok : AllOk c) (ha : (onRst c sid code).alive = true) : AllOk (onRst c sid code) := by
  unfold onRst at ha ⊢
  split
  · exact hok
  · rename_i h1
    rw [if_neg h1] at ha
    split
    · rename_i h2; rw [if_pos h2, goaway_dead] at ha; cases ha
    · rename_i h2
      rw [if_neg h2] at ha
      simp only [] at ha ⊢
      have ok1 : AllOk (if sid ≤ c.lastClient then { c with rstCount := c.rstCount + 1 } else c) := by
        split
        · exact fun k o => at_aux (hok k o) rfl rfl rfl
        · exact hok
      generalize (if sid ≤ c.lastClient then { c with rstCount := c.rstCount + 1 } else c) = d at *
      split
      · rename_i h3; rw [if_pos h3, goaway_dead] at ha; cases ha
      · rename_i h3
        rw [if_neg h3] at ha
        cases hs : d.find sid with
        | none =>
          rw [hs] at ha
          simp only [] at ha ⊢
          split
          · rename_i h4; rw [if_pos h4, goaway_dead] at ha; cases ha
          · exact ok1
        | some s =>
          simp only []
          have p1 : Fr sid d (d.upd sid (fun s => { s with rstRecv := true, err := code, state := .closed })) := .withUpd _ (fun _ => rfl)
          have p2 : ∀ (z : Bool) (d : Conn x), Fr sid d (if z = true then d.emit (.streamError sid code) else d) := fun z d => by
            split
            · exact .plain d rfl
            · exact .refl _ _
          refine ok1.others ((p1.trans (p2 _ _)).trans (fr_tryClose _ _)).others (fun _ => .gone ?_)
          apply tryClose_find
          intro t ht
          have e : ∀ (b : Bool) (d : Conn x), (if b = true then d.emit (.streamError sid code) else d).find sid = d.find sid := by
            intro b d; split <;> rfl
          rw [e] at ht
          rcases find_upd_some ht (fun _ => rfl) with ⟨_, u, _, e⟩ | ⟨h, _⟩
          · rw [e]; simp
          · exact absurd rfl h

theorem framesOn_errs (k code : Nat) (ss : List SStream) : framesOn k (ss.map (goawayError code)) = [] := by
  induction ss with
  | nil => rfl
  | cons s ss ih => exact ih

theorem goawayEnd_at {c : Conn x} {last code k : Nat} {P : SStream → Prop} (h : At c k P) : At (goawayEnd c last code) k P := by
  unfold goawayEnd
  split
  · exact at_aux h rfl rfl rfl
  · split
    · exact at_aux h rfl rfl rfl
    · exact h

theorem onGoaway_rest {c : Conn x} {last code : Nat} (hi : Inv0 c) (hok : AllOk c) : AllOk (onGoaway c last code) := by
  unfold onGoaway
  split
  · exact hok
  · simp only []
    intro k ho
    refine goawayEnd_at (fun s hs => ?_)
    have hs := (find_filter_some hi.nodup hs).1
    obtain ⟨h1, h2⟩ := hok k ho s hs
    refine ⟨h1.mono ?_ (Int.le_refl _), h2⟩
    show framesOn k ((c.out ++ [_]) ++ List.map _ _) ≠ [] → _
    rw [framesOn_append, framesOn_append, framesOn_errs]
    simp [framesOn]

end Verif.Srv
