import Verif.Srv.Path

/-! # The functions of the model as paths of small steps (sending) -/

namespace Verif.Srv
open Verif.Stream
open Verif.Wire (Headers)

variable {x : Ext}

local macro "softp" : tactic => `(tactic| refine ⟨rfl, rfl, rfl, rfl, rfl, rfl, rfl, rfl, rfl, rfl, rfl, rfl, rfl, ?_, ?_, ?_, rfl⟩)

theorem keeps_with {sid : Nat} {f : SStream → SStream} (h : ∀ s, (f s).id = s.id) : Keeps sid f :=
  fun s hs => (h s).trans hs

theorem Path.soft {c : Conn x} {sid : Nat} {f : SStream → SStream} (h : ∀ s, Soft s (f s))
    (hp : ∀ s, PendOk (framesOn sid c.out ≠ []) (WasReset c sid) s (f s) := by exact fun s => ⟨Or.inl, Or.inl, Or.inl, id⟩) : Path c [] (c.upd sid f) :=
  .one (.soft c sid f (fun s hs => (h s).id.trans hs) (fun s _ => h s) (fun s _ => hp s))

theorem Path.softAt {c : Conn x} {sid : Nat} {f : SStream → SStream} (k : ∀ s, (f s).id = s.id)
    (h : ∀ s, c.find sid = some s → Soft s (f s))
    (hp : ∀ s, PendOk (framesOn sid c.out ≠ []) (WasReset c sid) s (f s) := by exact fun s => ⟨Or.inl, Or.inl, Or.inl, id⟩) : Path c [] (c.upd sid f) :=
  .one (.soft c sid f (keeps_with k) h (fun s _ => hp s))

theorem path_tryClose (c : Conn x) (sid : Nat) : Path c [] (tryClose c sid) := by
  unfold tryClose
  split
  · exact .refl _
  · split
    · rename_i s hs hc
      have e := Path.one (Micro.erase c sid (fun t ht => by rw [← Option.some.inj (hs.symm.trans ht)]; exact hc))
      simp only []
      split
      · split
        · exact e.tr (.one (.aux _ _ rfl rfl rfl rfl rfl rfl rfl (by simp) (by simp)))
        · exact e
      · split
        · exact e.tr (.one (.aux _ _ rfl rfl rfl rfl rfl rfl rfl (by exact id) (by simp)))
        · exact e
    · exact .refl _

theorem soft_rst (s : SStream) (code : Nat) : Soft s { s with state := .closed, rstSent := true, err := code } := by
  softp
  · intro h
    exact ⟨fun _ => Or.inr rfl, by simp, by simp, by simp, fun _ => Or.inl rfl⟩
  · simp [Early]
  · simp

theorem soft_rstRecv (s : SStream) (code : Nat) : Soft s { s with rstRecv := true, err := code, state := .closed } := by
  softp
  · intro h
    exact ⟨fun _ => Or.inr rfl, by simp, by simp, by simp, fun _ => Or.inr (Or.inl rfl)⟩
  · simp [Early]
  · simp

theorem soft_same (s s' : SStream)
    (h : s' = { s with
      pending := s'.pending
      isTrailers := s'.isTrailers
      expecting := s'.expecting
      trailersRecv := s'.trailersRecv }) : Soft s s' := by
  rw [h]
  refine ⟨rfl, rfl, rfl, rfl, rfl, rfl, rfl, rfl, rfl, rfl, rfl, rfl, rfl, ?_, ?_, ?_, rfl⟩
  · intro k; exact ⟨k.sent, k.hcl, k.hcr, k.local_, k.closed⟩
  · exact id
  · exact id

theorem path_sendRst (c : Conn x) (sid code : Nat) (b : Bool) : Path c [] (sendRst c sid code b) := by
  unfold sendRst
  split
  · exact .refl _
  · have e1 := Path.one (Micro.plain c (.rst sid code) rfl)
    simp only []
    split
    · exact e1
    · refine e1.tr ?_
      have e2 : Path (c.emit (.rst sid code)) [] _ := Path.soft (sid := sid) (fun s => soft_rst s code)
        (fun s => ⟨Or.inl, Or.inl, fun _ => Or.inr ⟨code, List.mem_append_right _ (List.mem_singleton.mpr rfl)⟩, id⟩)
      refine e2.tr ?_
      have e3 : ∀ (b : Bool) (c : Conn x), Path c [] (if b = true then c.emit (.streamError sid code) else c) := by
        intro b c
        split
        · exact .one (.plain _ _ rfl)
        · exact .refl _
      split
      · exact (e3 _ _).tr (path_tryClose _ _)
      · exact e3 _ _

theorem path_goaway (c : Conn x) (code : Nat) : Path c [] (goaway c code) := by
  unfold goaway
  split
  · exact .refl _
  · rename_i h
    have h : c.active = true := by simpa using h
    refine (Path.one (.die c code h)).tr ?_
    refine (Path.one (.plain _ (.goawayEvent code c.lastClient) rfl)).tr ?_
    exact .one (.aux _ _ rfl rfl rfl rfl rfl rfl rfl (by simp) (fun h => h))

theorem path_condConn (c : Conn x) : Path c [] (condConnUpdate c) := by
  unfold condConnUpdate
  split
  · rename_i h
    simp only []
    split
    · rename_i hi
      have e : ((65535 - c.recvW).toNat : Int) = 65535 - c.recvW := by omega
      have := Micro.credConn c (65535 - c.recvW).toNat h e
      have e2 : ({ sendWindowUpdate c 0 (65535 - c.recvW).toNat with
          recvW := (sendWindowUpdate c 0 (65535 - c.recvW).toNat).recvW + ((65535 - c.recvW).toNat : Int) } : Conn x) =
          { c with recvW := c.recvW + ((65535 - c.recvW).toNat : Int),
                   out := c.out ++ (if c.ok then [.windowUpdate 0 (65535 - c.recvW).toNat] else []) } := by
        unfold sendWindowUpdate
        have hb : ((65535 - c.recvW).toNat == 0) = false := by
          simp only [beq_eq_false_iff_ne]; omega
        rw [hb]
        cases hok : c.ok <;> simp [Conn.emit, hok]
      rw [e2]
      exact .one this
    · exact .refl _
  · exact .refl _

/-! ## Sending the body -/

/-- The connection after a body loop. -/
def pumped (c : Conn x) (sid : Nat) (r : SStream × Int × List Out × Bool) : Conn x :=
  { c.upd sid (fun _ => r.1) with sendW := r.2.1, out := c.out ++ r.2.2.1 }

theorem pump_id (b : Bool) (m n : Nat) (s : SStream) (w : Int) : (pump b m n s w).1.id = s.id := by
  induction n generalizing s w with
  | zero => rfl
  | succ n ih =>
    rw [pump]
    split
    · split
      · rfl
      · simp only []
        split
        · rfl
        · split
          · rfl
          · exact ih _ _
    · rfl

theorem path_pump (b : Bool) (n : Nat) (c : Conn x) (s : SStream) (hs : c.find s.id = some s) (he : StateOk s → s.endSent = false)
    (hh : s.pending = true ∨ framesOn s.id c.out ≠ []) :
    Path c [] (pumped c s.id (pump b c.peerMaxFrame n s c.sendW)) := by
  induction n generalizing c s with
  | zero =>
    rw [pump]
    have h1 : Path c [] (c.upd s.id (fun _ => s)) :=
      .one (.soft c s.id _ (fun _ _ => rfl) (fun t ht => by
        have : t = s := Option.some.inj (ht.symm.trans hs)
        subst this; exact soft_same _ _ rfl) (fun t ht => by
        have : t = s := Option.some.inj (ht.symm.trans hs)
        subst this; exact ⟨Or.inl, Or.inl, Or.inl, id⟩))
    refine h1.tr (.one (.aux _ _ rfl rfl rfl rfl rfl ?_ rfl id id))
    show c.out ++ [] = c.out
    simp
  | succ n ih =>
    have stop : ∀ p : Bool, Path c [] (pumped c s.id ({ s with pending := p }, c.sendW, [], true)) := by
      intro p
      have h1 : Path c [] (c.upd s.id (fun _ => { s with pending := p })) :=
        .one (.soft c s.id _ (fun _ _ => rfl) (fun t ht => by
          have : t = s := Option.some.inj (ht.symm.trans hs)
          subst this; exact soft_same _ _ rfl) (fun t ht => by
          have : t = s := Option.some.inj (ht.symm.trans hs)
          subst this; exact ⟨fun _ => hh, Or.inl, Or.inl, id⟩))
      refine h1.tr (.one (.aux _ _ rfl rfl rfl rfl rfl ?_ rfl id id))
      show c.out ++ [] = c.out
      simp
    rw [pump]
    split
    · rename_i hlt
      split
      · exact stop true
      · rename_i hw
        have hw1 : 0 < s.peerW := by
          simp only [Bool.or_eq_true, decide_eq_true_eq, not_or] at hw; omega
        have hw2 : 0 < c.sendW := by
          simp only [Bool.or_eq_true, decide_eq_true_eq, not_or] at hw; omega
        simp only []
        split
        · exact stop true
        · rename_i hk0
          generalize hk : min (s.body.length - s.offset) (min c.peerMaxFrame (min s.peerW.toNat c.sendW.toNat)) = k at *
          have hk0 : 0 < k := by
            have : ¬ k = 0 := by simpa using hk0
            omega
          have h1 : k ≤ c.peerMaxFrame := by omega
          have h2 : (k : Int) ≤ s.peerW := by omega
          have h3 : (k : Int) ≤ c.sendW := by omega
          have h4 : s.offset + k ≤ s.body.length := by omega
          split
          · rename_i hf
            have hf' := hf
            simp only [Bool.and_eq_true, beq_iff_eq] at hf
            have := Micro.data c s k true (if b then false else s.pending) hs hk0 h1 h2 h3 h4 he (fun _ => hf.1.1) (fun _ _ _ => rfl) hh (by cases b <;> simp)
            have e : pumped c s.id ({ s with
                    offset := s.offset + k
                    peerW := s.peerW - (k : Int)
                    endSent := true
                    state := .halfClosedLocal
                    pending := if b then false else s.pending },
                  c.sendW - (k : Int), [Out.data s.id ((s.body.drop s.offset).take k) true], false) =
                { c.upd s.id (fun _ => { s with
                    offset := s.offset + k
                    peerW := s.peerW - (k : Int)
                    endSent := s.endSent || true
                    state := if true then .halfClosedLocal else s.state
                    pending := if b then false else s.pending }) with
                  sendW := c.sendW - (k : Int)
                  out := c.out ++ [.data s.id ((s.body.drop s.offset).take k) true] } := by
              simp [pumped]
            have e3 := Path.one this
            rw [← e] at e3
            rw [hf']
            exact e3
          · rename_i hf
            have hf : (s.offset + k == s.body.length && !s.isTrailers && !(b && s.endSent)) = false := by
              simpa only [Bool.not_eq_true] using hf
            rw [hf]
            have m := Path.one (Micro.data c s k false s.pending hs hk0 h1 h2 h3 h4 he (by simp) (fun ok h5 h6 => by
              rw [h6, he ok, beq_iff_eq.mpr h5, Bool.and_false] at hf; cases hf) hh id)
            have e0 : (s.endSent || false) = s.endSent := Bool.or_false _
            rw [e0] at m
            refine m.tr ?_
            let s' : SStream := { s with offset := s.offset + k, peerW := s.peerW - (k : Int) }
            let c1 : Conn x := { c.upd s.id (fun _ => s') with
              sendW := c.sendW - (k : Int)
              out := c.out ++ [.data s.id ((s.body.drop s.offset).take k) false] }
            have hs' : c1.find s'.id = some s' := find_upd_same (c := c) (sid := s.id) (f := fun _ => s') (fun _ _ => rfl) hs
            have p := ih c1 s' hs' (fun k => he ⟨k.sent, k.hcl, k.hcr, k.local_, k.closed⟩) (Or.inr (by
              show framesOn s.id (c.out ++ [_]) ≠ []
              rw [framesOn_append]; simp [framesOn]))
            have e : pumped c1 s'.id (pump b c1.peerMaxFrame n s' c1.sendW) =
                pumped c s.id ((pump b c.peerMaxFrame n s' (c.sendW - (k : Int))).1,
                  (pump b c.peerMaxFrame n s' (c.sendW - (k : Int))).2.1,
                  Out.data s.id ((s.body.drop s.offset).take k) false :: (pump b c.peerMaxFrame n s' (c.sendW - (k : Int))).2.2.1,
                  (pump b c.peerMaxFrame n s' (c.sendW - (k : Int))).2.2.2) := by
              unfold pumped
              have := upd_upd (c := c) (sid := s.id) (f := fun _ => s') (g := fun _ => (pump b c.peerMaxFrame n s' (c.sendW - (k : Int))).1) (fun _ _ => rfl)
              have e1 : c1.streams = (c.upd s.id (fun _ => s')).streams := rfl
              have e2 : (c1.upd s'.id (fun _ => (pump b c1.peerMaxFrame n s' c1.sendW).1)).streams =
                  ((c.upd s.id (fun _ => s')).upd s.id (fun _ => (pump b c.peerMaxFrame n s' (c.sendW - (k : Int))).1)).streams := rfl
              rw [this] at e2
              have e3 : c1.out ++ (pump b c1.peerMaxFrame n s' c1.sendW).2.2.1 =
                  c.out ++ (Out.data s.id ((s.body.drop s.offset).take k) false :: (pump b c.peerMaxFrame n s' (c.sendW - (k : Int))).2.2.1) := by
                show (c.out ++ [_]) ++ _ = _
                rw [List.append_assoc]; rfl
              exact congrArg (fun z : List SStream × List Out => ({ c with streams := z.1, sendW := (pump b c.peerMaxFrame n s' (c.sendW - (k : Int))).2.1, out := z.2 } : Conn x)) (Prod.ext (x := (_, _)) (y := (_, _)) e2 e3)
            rw [e] at p
            exact p
    · have := stop s.pending
      exact this

theorem path_runPump (b : Bool) (c : Conn x) (s : SStream) (hs : c.find s.id = some s) (he : StateOk s → s.endSent = false)
    (hh : s.pending = true ∨ framesOn s.id c.out ≠ []) :
    Path c [] (runPump c b s).1 := path_pump b _ c s hs he hh

theorem soft_close (s : SStream) (h : StateOk s → s.endSent = true ∧ s.endRecv = true) : Soft s { s with state := .closed } := by
  softp
  · intro k
    exact ⟨fun _ => Or.inr rfl, by simp, by simp, by simp, fun _ => Or.inr (Or.inr (h k))⟩
  · simp [Early]
  · simp

theorem path_finishSend (c : Conn x) (sid : Nat) : Path c [] (finishSend c sid) := by
  unfold finishSend
  split
  · exact .refl _
  · rename_i s hs
    have h1 : Path c [] (if (s.offset == s.body.length && s.isTrailers && !s.endSent) = true then
        (c.emit (.headers sid [] true)).upd sid (fun s => { s with state := .halfClosedLocal, endSent := true, isTrailers := false })
      else c) := by
      split
      · rename_i h
        simp only [Bool.and_eq_true, beq_iff_eq, Bool.not_eq_true'] at h
        exact .one (.trail c sid s hs h.2 h.1.1 h.1.2)
      · exact .refl _
    simp only []
    generalize (if (s.offset == s.body.length && s.isTrailers && !s.endSent) = true then
        (c.emit (.headers sid [] true)).upd sid (fun s => { s with state := .halfClosedLocal, endSent := true, isTrailers := false })
      else c) = d at *
    refine h1.tr ?_
    clear hs
    split
    · exact .refl _
    · rename_i t ht
      split
      · rename_i he
        have h2 : Path d [] (if (t.state == .halfClosedLocal && t.endRecv) = true then d.upd sid (fun s => { s with state := .closed }) else d) := by
          split
          · rename_i h
            simp only [Bool.and_eq_true, beq_iff_eq] at h
            refine .softAt (fun _ => rfl) (fun u hu => ?_)
            have : u = t := Option.some.inj (hu.symm.trans ht)
            subst this
            exact soft_close _ (fun _ => ⟨he, h.2⟩)
          · exact .refl _
        exact h2.tr (path_tryClose _ _)
      · exact .refl _

theorem notEnd {s : SStream} (h : ¬ (s.state != .open_ && s.state != .halfClosedRemote) = true) : StateOk s → s.endSent = false := by
  intro k
  cases he : s.endSent with
  | false => rfl
  | true =>
    rcases k.sent he with h' | h' <;> rw [h'] at h <;> simp at h

theorem notEnd' {s : SStream} (h : StateOk s → s.state = .open_ ∨ s.state = .halfClosedRemote) : StateOk s → s.endSent = false := by
  intro k
  refine notEnd ?_ k
  rcases h k with h | h <;> rw [h] <;> simp

theorem path_trySend (c : Conn x) (sid : Nat) : Path c [] (trySend c sid) := by
  unfold trySend
  split
  · exact .refl _
  · split
    · exact .refl _
    · rename_i s hs
      split
      · exact .refl _
      · rename_i hst
        split
        · rename_i hpd
          have hi := find_id hs
          have p := path_runPump true c s (by rw [hi]; exact hs) (notEnd hst) (by
            rw [Bool.and_eq_true] at hpd; exact Or.inl hpd.1)
          simp only []
          split
          · exact p
          · refine p.tr (Path.tr (Path.soft (sid := sid) (f := fun s => { s with pending := if s.offset == s.body.length then false else s.pending })
              (fun s => soft_same _ _ rfl) (fun s => ⟨fun h => by
              have h : (if (s.offset == s.body.length) = true then false else s.pending) = true := h
              split at h
              · cases h
              · exact Or.inl h, Or.inl, Or.inl, id⟩)) (path_finishSend _ _))
        · exact path_finishSend _ _

theorem runPump_upd (c : Conn x) (b : Bool) (g : SStream → SStream) (s : SStream) (k : Keeps s.id g) :
    runPump (c.upd s.id g) b s = runPump c b s := by
  unfold runPump
  have e := upd_upd (c := c) (sid := s.id) (f := g) (g := fun _ => (pump b c.peerMaxFrame (s.body.length - s.offset) s c.sendW).1) k
  have e1 : (((c.upd s.id g).upd s.id (fun _ => (pump b c.peerMaxFrame (s.body.length - s.offset) s c.sendW).1)).streams) =
    (c.upd s.id (fun _ => (pump b c.peerMaxFrame (s.body.length - s.offset) s c.sendW).1)).streams := by rw [e]
  exact congrArg (fun z : List SStream => (({ c with
    streams := z
    sendW := (pump b c.peerMaxFrame (s.body.length - s.offset) s c.sendW).2.1
    out := c.out ++ (pump b c.peerMaxFrame (s.body.length - s.offset) s c.sendW).2.2.1 } : Conn x),
    (pump b c.peerMaxFrame (s.body.length - s.offset) s c.sendW).2.2.2)) e1

theorem path_sendBody (c : Conn x) (sid : Nat) (he : ∀ s, c.find sid = some s → StateOk s → s.endSent = false)
    (hF : framesOn sid c.out ≠ []) :
    Path c [] (sendBody c sid) := by
  unfold sendBody
  split
  · exact .refl _
  · rename_i s0 hs
    have hi := find_id hs
    have close : ∀ (d : Conn x) (t : SStream), d.find sid = some t → (t.endSent && t.endRecv) = true →
        Path d [] (d.upd sid (fun s => { s with state := .closed })) := by
      intro d t ht h
      simp only [Bool.and_eq_true] at h
      refine .softAt (fun _ => rfl) (fun u hu => ?_)
      have : u = t := Option.some.inj (hu.symm.trans ht)
      subst this
      exact soft_close _ (fun _ => h)
    have p1 : Path c [] (c.upd sid (fun s => { s with isTrailers := s.hasTrailer })) := 
      Path.soft (fun s => soft_same _ _ rfl) (fun s => ⟨Or.inl, fun h => Or.inr ⟨h, hF⟩, Or.inl, id⟩)
    have hs1 : (c.upd sid (fun s => { s with isTrailers := s.hasTrailer })).find sid = some { s0 with isTrailers := s0.hasTrailer } := by
      rw [find_upd_same ?_ hs]; exact keeps_with (fun _ => rfl)
    have p2 := path_runPump false _ { s0 with isTrailers := s0.hasTrailer } (by
      show Conn.find (c.upd sid (fun s => { s with isTrailers := s.hasTrailer })) s0.id = _
      have e : s0.id = sid := hi
      exact (congrArg _ e).trans hs1) (fun k => he s0 hs ⟨k.sent, k.hcl, k.hcr, k.local_, k.closed⟩) (Or.inr (by
      show framesOn s0.id c.out ≠ []
      rw [hi]; exact hF))
    have e := runPump_upd c false (fun s => { s with isTrailers := s.hasTrailer }) { s0 with isTrailers := s0.hasTrailer } (keeps_with (fun _ => rfl))
    have e' : runPump (c.upd sid (fun s => { s with isTrailers := s.hasTrailer })) false { s0 with isTrailers := s0.hasTrailer } =
        runPump c false { s0 with isTrailers := s0.hasTrailer } := by
      rw [← e]; show _ = runPump (Conn.upd _ s0.id _) _ _; rw [hi]
    rw [e'] at p2
    have p := p1.tr p2
    have hF' : framesOn sid (runPump c false { s0 with isTrailers := s0.hasTrailer }).1.out ≠ [] := by
      show framesOn sid (c.out ++ _) ≠ []
      rw [framesOn_append]
      exact fun h => hF (List.append_eq_nil_iff.mp h).1
    simp only []
    generalize runPump c false { s0 with isTrailers := s0.hasTrailer } = r at *
    split
    · exact p
    · refine p.tr ?_
      refine Path.tr (Path.soft (sid := sid) (f := fun s => { s with pending := s.offset != s.body.length }) (fun s => soft_same _ _ rfl)
        (fun s => ⟨fun _ => Or.inr hF', Or.inl, Or.inl, id⟩)) ?_
      generalize r.1.upd sid (fun s => { s with pending := s.offset != s.body.length }) = d
      split
      · exact .refl _
      · rename_i t ht
        split
        · refine (path_trySend d sid).tr ?_
          split
          · exact .refl _
          · rename_i u hu
            split
            · rename_i h; exact close _ _ hu h
            · exact .refl _
        · split
          · rename_i h; exact close _ _ ht h
          · exact .refl _

/-- Closing a stream whose state is closed. -/
theorem path_closeTail (c : Conn x) (sid : Nat) :
    Path c [] (match c.find sid with
      | none => c
      | some s => if s.state == .closed then tryClose c sid else c) := by
  split
  · exact .refl _
  · split
    · exact path_tryClose _ _
    · exact .refl _

/-- `sendHead` after the body was stored. -/
theorem path_sendHead (c : Conn x) (sid : Nat) (s : SStream) (hs : c.find sid = some s) (he : StateOk s → s.state = .open_ ∨ s.state = .halfClosedRemote)
    (block : Bytes) (r : Response) (b : Bool) (hbt : b = (Verif.Wire.find r.headers b!"Trailer").isSome) :
    Path c [.resp sid r] (sendHead (c.upd sid (fun s => { s with body := r.body, offset := 0, hasTrailer := b })) sid block r) := by
  unfold sendHead
  split
  · exact (Path.one (.rebody c sid r b hbt)).tr' (path_sendRst _ _ _ _)
  · have m := Path.one (Micro.start c sid r b s block hbt hs he)
    simp only []
    split
    · rename_i hb
      have e : (((c.upd sid (fun s => { s with body := r.body, offset := 0, hasTrailer := b })).emit (.headers sid block r.body.isEmpty)).upd sid
          (fun s => { s with endSent := true, state := sendEnd s.state })) =
          ((c.emit (.headers sid block r.body.isEmpty)).upd sid (fun s => { s with
            body := r.body, offset := 0, hasTrailer := b
            endSent := s.endSent || r.body.isEmpty
            state := if r.body.isEmpty then sendEnd s.state else s.state })) := by
        have := upd_upd (c := c.emit (.headers sid block r.body.isEmpty)) (sid := sid)
          (f := fun s => { s with body := r.body, offset := 0, hasTrailer := b })
          (g := fun s => { s with endSent := true, state := sendEnd s.state }) (keeps_with (fun _ => rfl))
        refine Eq.trans this ?_
        rw [hb]
        simp
      rw [e]
      exact m.tr' (path_closeTail _ _)
    · rename_i hb
      have hb : r.body.isEmpty = false := by simpa using hb
      have e : ((c.emit (.headers sid block r.body.isEmpty)).upd sid (fun s => { s with
            body := r.body, offset := 0, hasTrailer := b
            endSent := s.endSent || r.body.isEmpty
            state := if r.body.isEmpty then sendEnd s.state else s.state })) =
          ((c.upd sid (fun s => { s with body := r.body, offset := 0, hasTrailer := b })).emit (.headers sid block r.body.isEmpty)) := by
        rw [hb]
        simp [Conn.upd, Conn.emit]
      rw [e] at m
      have hf : ((c.upd sid (fun s => { s with body := r.body, offset := 0, hasTrailer := b })).emit (.headers sid block r.body.isEmpty)).find sid =
          some { s with body := r.body, offset := 0, hasTrailer := b } := by
        rw [find_emit, find_upd_same ?_ hs]; exact keeps_with (fun _ => rfl)
      refine m.tr' ?_
      refine Path.tr (path_sendBody _ sid (fun t ht k => ?_) (by
        show framesOn sid (c.out ++ [_]) ≠ []
        rw [framesOn_append]; simp [framesOn])) (path_closeTail _ _)
      have : t = { s with body := r.body, offset := 0, hasTrailer := b } := Option.some.inj (ht.symm.trans hf)
      subst this
      exact notEnd' (s := s) he ⟨k.sent, k.hcl, k.hcr, k.local_, k.closed⟩

theorem path_sendResponse (c : Conn x) (sid : Nat) (r : Response) :
    ∃ ls, ls.Sublist [Lab.resp sid r] ∧ Path c ls (sendResponse c sid r) := by
  unfold sendResponse
  split
  · exact ⟨[], by simp, .refl _⟩
  · rename_i s hs
    refine ⟨[.resp sid r], List.Sublist.refl _, ?_⟩
    generalize hb : (Verif.Wire.find r.headers b!"Trailer").isSome = b
    have m := Path.one (Micro.rebody c sid r b hb.symm)
    simp only []
    split
    · exact m.tr' (path_sendRst _ _ _ _)
    · rename_i h0
      split
      · exact m
      · rename_i hst
        split
        · exact m.tr' (path_sendRst _ _ _ _)
        · split
          · exact m.tr' (path_sendRst _ _ _ _)
          · have he : StateOk s → s.state = .open_ ∨ s.state = .halfClosedRemote := by
              intro k
              have := k.local_
              cases h : s.state <;> rw [h] at hst h0 this <;> simp at hst h0 this ⊢
            split
            · refine m.tr' ?_
              refine Path.tr ?_ (path_goaway _ _)
              exact .one (.aux _ _ rfl rfl rfl rfl rfl rfl rfl (fun h => h) (fun h => h))
            · rename_i fs _ _ _ _ _ block _
              have a : Path c [] { c with enc := (x.encode c.enc fs).2 } :=
                .one (.aux _ _ rfl rfl rfl rfl rfl rfl rfl (fun h => h) (fun h => h))
              exact a.tr (path_sendHead { c with enc := (x.encode c.enc fs).2 } sid s hs he block r b hb.symm)

theorem path_sendPush (c : Conn x) (sid p : Nat) (f : Option (List Field)) : Path c [] (sendPush c sid p f) := by
  unfold sendPush
  split
  · exact .refl _
  split
  · exact .refl _
  split
  · exact .refl _
  rename_i hp
  split
  · exact .refl _
  split
  · exact .refl _
  split
  · exact .refl _
  split
  · exact .refl _
  rename_i hf
  split
  · exact .refl _
  simp only []
  split
  · exact .one (.aux _ _ rfl rfl rfl rfl rfl rfl rfl (fun h => h) (fun h => h))
  · rename_i fs _ block _
    simp only [Bool.or_eq_true, beq_iff_eq, bne_iff_ne, ne_eq, not_or] at hp
    have a : Path c [] { c with enc := (x.encode c.enc fs).2 } :=
      .one (.aux _ _ rfl rfl rfl rfl rfl rfl rfl (fun h => h) (fun h => h))
    refine a.tr ?_
    have hf : c.find p = none := by simpa using hf
    refine Path.tr (.one (.pushed _ p sid (by omega) hp.1 hf)) ?_
    exact .one (.plain _ (.pushPromise sid p block) rfl)

/-- The labels of the application and of the end of a request. -/
def Lab.isApp : Lab → Bool
  | .resp _ _ | .req _ | .ended _ => true
  | _ => false

/-- The labels an act may produce. -/
def Act.labs : Act → List Lab
  | .respond sid r => [.resp sid r]
  | _ => []

theorem path_act (c : Conn x) (a : Act) : ∃ ls, ls.Sublist a.labs ∧ Path c ls (act c a) := by
  cases a with
  | respond sid r => exact path_sendResponse c sid r
  | reset sid code => exact ⟨[], by simp, path_sendRst _ _ _ _⟩
  | push sid p f => exact ⟨[], by simp, path_sendPush _ _ _ _⟩

theorem path_acts (as : List Act) (c : Conn x) : ∃ ls, ls.Sublist (as.flatMap Act.labs) ∧ Path c ls (as.foldl act c) := by
  induction as generalizing c with
  | nil => exact ⟨[], by simp, .refl _⟩
  | cons a as ih =>
    obtain ⟨l1, s1, p1⟩ := path_act c a
    obtain ⟨l2, s2, p2⟩ := ih (act c a)
    exact ⟨l1 ++ l2, by rw [List.flatMap_cons]; exact s1.append s2, p1.trans p2⟩

theorem isApp_acts {as : List Act} {ls : List Lab} (h : ls.Sublist (as.flatMap Act.labs)) : ∀ y ∈ ls, Lab.isApp y = true := by
  intro y hm
  have := h.mem hm
  rw [List.mem_flatMap] at this
  obtain ⟨a, _, ha⟩ := this
  cases a <;> simp [Act.labs] at ha
  subst ha; rfl

end Verif.Srv
