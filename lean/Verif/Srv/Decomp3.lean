import Verif.Srv.Decomp2
import Verif.H2.TheoremsMore

/-! # The functions of the model as paths of small steps (every input) -/

namespace Verif.Srv
open Verif.Stream
open Verif.Wire (Headers)

variable {x : Ext}

local macro "softp" : tactic => `(tactic| refine ⟨rfl, rfl, rfl, rfl, rfl, rfl, rfl, rfl, rfl, rfl, rfl, rfl, rfl, ?_, ?_, ?_, rfl⟩)
local macro "auxp" : tactic => `(tactic| exact Path.one (Micro.aux _ _ rfl rfl rfl rfl rfl rfl rfl (fun h => h) (fun h => h)))

theorem soft_open (s : SStream) : Soft s { s with state := if s.state == .idle then .open_ else s.state } := by
  softp
  · intro k
    by_cases h : s.state = .idle
    · have e : (if (s.state == .idle) = true then State.open_ else s.state) = .open_ := by rw [h]; rfl
      rw [e]
      refine ⟨fun hs => ?_, by simp, by simp, by simp, by simp⟩
      rcases k.sent hs with h' | h' <;> rw [h] at h' <;> cases h'
    · have e : (if (s.state == .idle) = true then State.open_ else s.state) = s.state := by simp [h]
      rw [e]; exact k
  · cases h : s.state <;> simp [Early, h]
  · cases h : s.state <;> simp [h]

theorem stateOk_recvEnd {s : SStream} (k : StateOk s) : StateOk { s with endRecv := true, state := recvEnd s.state } := by
  have hc := k.closed
  have hs := k.sent
  have hl := k.hcl
  have hloc := k.local_
  cases h : s.state <;> rw [h] at hc hs hl hloc
  · exact ⟨fun e => (by rcases hs e with h' | h' <;> cases h'), by simp [recvEnd], by simp [recvEnd], by simp [recvEnd], by simp [recvEnd]⟩
  · exact ⟨fun e => (by rcases hs e with h' | h' <;> cases h'), by simp [recvEnd], by simp, by simp [recvEnd], by simp [recvEnd]⟩
  · exact ⟨fun e => (by rcases hs e with h' | h' <;> cases h'), by simp [recvEnd], by simp [recvEnd], by simp [recvEnd], by simp [recvEnd]⟩
  · exact absurd rfl hloc
  · exact ⟨fun e => Or.inr rfl, by simp [recvEnd], by simp [recvEnd], by simp [recvEnd], fun _ => Or.inr (Or.inr ⟨hl rfl, rfl⟩)⟩
  · exact ⟨fun e => (by rcases hs e with h' | h' <;> cases h'), by simp [recvEnd], by simp, by simp [recvEnd], by simp [recvEnd]⟩
  · refine ⟨fun e => Or.inr rfl, by simp [recvEnd], by simp [recvEnd], by simp [recvEnd], fun _ => ?_⟩
    rcases hc rfl with h | h | h
    · exact Or.inl h
    · exact Or.inr (Or.inl h)
    · exact Or.inr (Or.inr ⟨h.1, rfl⟩)

theorem soft_recvEnd' (s : SStream) : Soft s { s with state := if s.endRecv then recvEnd s.state else s.state } := by
  softp
  · intro k
    cases h : s.endRecv with
    | false => exact ⟨k.sent, k.hcl, fun e => h.symm.trans (k.hcr e), k.local_, fun e => by
        rcases k.closed e with h' | h' | h'
        · exact Or.inl h'
        · exact Or.inr (Or.inl h')
        · rw [h] at h'; cases h'.2⟩
    | true =>
      have := stateOk_recvEnd k
      exact ⟨this.sent, this.hcl, fun _ => rfl, this.local_, this.closed⟩
  · cases s.endRecv
    · exact id
    · cases h : s.state <;> simp [Early, h, recvEnd]
  · cases s.endRecv
    · exact id
    · cases h : s.state <;> simp [h, recvEnd]

theorem path_markHeaders (c : Conn x) (sid : Nat) (fin eh : Bool) : Path c (if fin then [.ended sid] else []) (markHeaders c sid fin eh) := by
  unfold markHeaders
  refine Path.tr (Path.soft (sid := sid) soft_open) ?_
  simp only []
  generalize c.upd sid (fun s => { s with state := if s.state == .idle then .open_ else s.state }) = c1
  cases fin with
  | false => exact .refl _
  | true =>
    rw [if_pos rfl, if_pos rfl]
    have e : (c1.upd sid (fun s => { s with endRecv := true })).upd sid (fun s => { s with state := if eh && s.endRecv then recvEnd s.state else s.state }) =
        c1.upd sid (fun s => { s with endRecv := true, state := if eh then recvEnd s.state else s.state }) := by
      rw [upd_upd (keeps_with (f := fun s => { s with endRecv := true }) (fun _ => rfl))]
      cases eh <;> rfl
    rw [← e]
    refine (Path.one (.ended c1 sid)).tr' (Path.soft (fun s => ?_))
    cases eh with
    | false => exact soft_same _ _ rfl
    | true => exact soft_recvEnd' s

theorem markHeaders_find {c : Conn x} {sid : Nat} {fin eh : Bool} {t : SStream} (h : (markHeaders c sid fin eh).find sid = some t) :
    ∃ s, c.find sid = some s ∧ t.headersMain = s.headersMain := by
  unfold markHeaders at h
  have one : ∀ u, (c.upd sid (fun s => { s with state := if s.state == .idle then .open_ else s.state })).find sid = some u →
      ∃ s, c.find sid = some s ∧ u.headersMain = s.headersMain := by
    intro u hu
    rcases find_upd_some hu (fun _ => rfl) with ⟨_, v, hv, e⟩ | ⟨h, _⟩
    · exact ⟨v, hv, by rw [e]⟩
    · exact absurd rfl h
  simp only [] at h
  split at h
  · rcases find_upd_some h (fun _ => rfl) with ⟨_, v, hv, e⟩ | ⟨h, _⟩
    · obtain ⟨s, hs, e'⟩ := one v hv
      exact ⟨s, hs, by rw [e]; exact e'⟩
    · exact absurd rfl h
  · exact one t h

theorem path_headersEnd (c : Conn x) (sid : Nat) (tr : Bool) (h : Script) (ho : sid % 2 = 1)
    (hm : ∀ t, c.find sid = some t → t.headersMain = tr) :
    ∃ ls, ls.Sublist (h.labs sid) ∧ Path c ls (headersEnd c sid tr h) := by
  unfold headersEnd
  simp only []
  have p5 : Path c [] (c.upd sid (fun s => { s with expecting := false })) := Path.soft (fun s => soft_same _ _ rfl)
  have hs5 : ∀ t, (c.upd sid (fun s => { s with expecting := false })).find sid = some t → t.headersMain = tr := by
    intro t ht
    rcases find_upd_some ht (fun _ => rfl) with ⟨_, u, hu, e⟩ | ⟨h, _⟩
    · rw [e]; exact hm u hu
    · exact absurd rfl h
  generalize c.upd sid (fun s => { s with expecting := false }) = c5 at *
  obtain ⟨ls, sl, p⟩ := path_processBlock c5 sid ho tr h (fun e t ht => (hs5 t ht).trans e)
  refine ⟨ls, sl, p5.tr (p.tr' (Path.tr ?_ (path_clear _)))⟩
  split
  · exact .refl _
  · exact path_closeTail _ _

theorem path_headersOn (c : Conn x) (s : SStream) (frag : Bytes) (fin eh : Bool) (h : Script) (hs : c.find s.id = some s) (ho : s.id % 2 = 1) :
    ∃ ls, ls.Sublist (h.labs s.id fin) ∧ Path c ls (headersOn c s frag fin eh h) := by
  have nil : ∀ {c' : Conn x}, Path c [] c' → ∃ ls, ls.Sublist (h.labs s.id fin) ∧ Path c ls c' := fun p => ⟨[], by simp, p⟩
  unfold headersOn
  simp only []
  split
  · exact nil ((path_goaway _ _).tr (path_clear _))
  split
  · exact nil (.refl _)
  split
  · exact nil (path_sendRst _ _ _ _)
  have p1 : Path c [] { c with ctl := 0, contCount := 0 } := by auxp
  split
  · exact nil (p1.tr (path_goaway _ _))
  have p2 : Path c [] { c with ctl := 0, contCount := 0, curSid := s.id, frag := c.frag ++ frag } :=
    .one (.aux _ _ rfl rfl rfl rfl rfl rfl rfl (fun h => h) (fun h => h) (fun _ => Or.inr ho))
  split
  · exact nil (p2.tr (path_goaway _ _))
  have p4 := p2.tr (path_markHeaders _ s.id fin eh)
  have hs4 : ∀ t, (markHeaders { c with ctl := 0, contCount := 0, curSid := s.id, frag := c.frag ++ frag } s.id fin eh).find s.id = some t →
      t.headersMain = s.headersMain := by
    intro t ht
    obtain ⟨u, hu, e⟩ := markHeaders_find ht
    have hu : c.find s.id = some u := hu
    have : u = s := Option.some.inj (hu.symm.trans hs)
    rw [e, this]
  generalize markHeaders { c with ctl := 0, contCount := 0, curSid := s.id, frag := c.frag ++ frag } s.id fin eh = c4 at *
  split
  · obtain ⟨ls, sl, p⟩ := path_headersEnd c4 s.id s.headersMain h ho hs4
    refine ⟨_ ++ ls, ?_, p4.trans p⟩
    unfold Script.labs
    exact (List.Sublist.refl _).append sl
  · refine ⟨_, ?_, p4.tr' (Path.soft (fun s => soft_same _ _ rfl))⟩
    unfold Script.labs
    exact List.sublist_append_left _ _

theorem path_onHeaders (c : Conn x) (sid : Nat) (frag : Bytes) (fin eh : Bool) (h : Script) :
    ∃ ls, (∃ rs, rs.Sublist (h.labs sid fin) ∧ (ls = rs ∨ ls = .opened sid :: rs)) ∧ Path c ls (onHeaders c sid frag fin eh h) := by
  have nil : ∀ {c' : Conn x}, Path c [] c' → ∃ ls, (∃ rs, rs.Sublist (h.labs sid fin) ∧ (ls = rs ∨ ls = .opened sid :: rs)) ∧ Path c ls c' :=
    fun p => ⟨[], ⟨[], by simp, Or.inl rfl⟩, p⟩
  unfold onHeaders
  split
  · exact nil (.refl _)
  rename_i hal
  simp only [Bool.or_eq_true, Bool.not_eq_true', not_or, Bool.not_eq_false] at hal
  split
  · exact nil (path_goaway _ _)
  split
  · exact nil (path_goaway _ _)
  rename_i _ ho
  have ho : sid % 2 = 1 := by
    have : ¬ sid % 2 = 0 := by simpa using ho
    omega
  split
  · rename_i hn
    split
    · exact nil (path_sendRst _ _ _ _)
    rename_i hlt
    split
    · exact nil (path_sendRst _ _ _ _)
    split
    · exact nil (path_sendRst _ _ _ _)
    have m := Micro.opened c sid ho (by omega) hn hal.1 hal.2
    have e : max c.lastClient sid = sid := by omega
    simp only []
    rw [e]
    obtain ⟨ls, sl, p⟩ := path_headersOn { c with streams := c.streams ++ [{ id := sid, peerW := c.initPeer }], lastClient := sid }
      { id := sid, peerW := c.initPeer } frag fin eh h (by
        exact (find_append_list c.streams { id := sid, peerW := c.initPeer } sid hn).trans (if_pos rfl)) ho
    exact ⟨.opened sid :: ls, ⟨ls, sl, Or.inr rfl⟩, (Path.one m).trans p⟩
  · rename_i s hs
    have hi := find_id hs
    obtain ⟨ls, sl, p⟩ := path_headersOn c s frag fin eh h (by rw [hi]; exact hs) (by rw [hi]; exact ho)
    exact ⟨ls, ⟨ls, by rw [← hi]; exact sl, Or.inl rfl⟩, p⟩

theorem dispatch_noop (c : Conn x) (sid : Nat) (h : Script)
    (hd : ∀ s, c.find sid = some s → s.dispatched = false → s.rstSent = false → s.rstRecv = false → c.ok = true → c.active = true → False) :
    dispatch c sid h = c := by
  unfold dispatch
  split
  · rfl
  · rename_i s hs
    split
    · rfl
    · rename_i h1
      simp only [Bool.or_eq_true, not_or, Bool.not_eq_true] at h1
      split
      · rename_i h2
        simp only [Bool.and_eq_true] at h2
        exact (hd s hs h1.1.1 h1.1.2 h1.2 h2.1 h2.2).elim
      · rfl

theorem path_continuationEnd (c : Conn x) (s : SStream) (h : Script) (hi : Inv0 c) (hs : c.find s.id = some s) (ho : s.id % 2 = 1) :
    ∃ ls, ls.Sublist (h.labs s.id) ∧ Path c ls (continuationEnd c s h) := by
  unfold continuationEnd
  simp only []
  have p1 : Path c [] (c.upd s.id (fun s => { s with expecting := false })) := Path.soft (fun s => soft_same _ _ rfl)
  have hs1 : ∀ t, (c.upd s.id (fun s => { s with expecting := false })).find s.id = some t → t.headersMain = s.headersMain := by
    intro t ht
    rcases find_upd_some ht (fun _ => rfl) with ⟨_, u, hu, e⟩ | ⟨h, _⟩
    · have : u = s := Option.some.inj (hu.symm.trans hs)
      rw [e, this]
    · exact absurd rfl h
  generalize c.upd s.id (fun s => { s with expecting := false }) = c1 at *
  obtain ⟨ls, sl, p2⟩ := path_processBlock c1 s.id ho s.headersMain h (fun e t ht => (hs1 t ht).trans e)
  have done := processBlock_done c1 s.id ho s.headersMain h
  have hi2 := (hi.path p1).path p2
  refine ⟨ls, sl, p1.tr (p2.tr' (Path.tr ?_ (path_clear _)))⟩
  generalize processBlock c1 s.id s.headersMain h = r at *
  split
  · exact .refl _
  · rename_i hr
    have hr : r.2 = true := by simpa using hr
    split
    · exact .refl _
    · rename_i t ht
      have p3 : Path r.1 [] (if s.headersMain = true then r.1.upd s.id (fun s => { s with trailersRecv := true }) else r.1) := by
        split
        · exact Path.soft (fun s => soft_same _ _ rfl)
        · exact .refl _
      have hs3 : ∀ u, (if s.headersMain = true then r.1.upd s.id (fun s => { s with trailersRecv := true }) else r.1).find s.id = some u →
          u.dispatched = t.dispatched ∧ u.rstSent = t.rstSent ∧ u.rstRecv = t.rstRecv ∧ u.endRecv = t.endRecv ∧ u.state = t.state := by
        intro u hu
        split at hu
        · rcases find_upd_some hu (fun _ => rfl) with ⟨_, v, hv, e⟩ | ⟨h, _⟩
          · have : v = t := Option.some.inj (hv.symm.trans ht)
            subst this
            rw [e]; exact ⟨rfl, rfl, rfl, rfl, rfl⟩
          · exact absurd rfl h
        · have : u = t := Option.some.inj (hu.symm.trans ht)
          subst this; exact ⟨rfl, rfl, rfl, rfl, rfl⟩
      have al3 : (if s.headersMain = true then r.1.upd s.id (fun s => { s with trailersRecv := true }) else r.1).ok = r.1.ok ∧
          (if s.headersMain = true then r.1.upd s.id (fun s => { s with trailersRecv := true }) else r.1).active = r.1.active := by
        split <;> exact ⟨rfl, rfl⟩
      generalize (if s.headersMain = true then r.1.upd s.id (fun s => { s with trailersRecv := true }) else r.1) = c3 at *
      refine p3.tr ?_
      refine Path.tr (Path.soft (sid := s.id) soft_recvEnd') ?_
      split
      · exact .refl _
      · rename_i u hu
        split
        · rename_i hcl
          have hcl : u.state = .closed := by simpa using hcl
          have noop : dispatch (c3.upd s.id (fun s => { s with state := if s.endRecv then recvEnd s.state else s.state })) s.id h =
              c3.upd s.id (fun s => { s with state := if s.endRecv then recvEnd s.state else s.state }) := by
            apply dispatch_noop
            intro v hv d1 d2 d3 o1 o2
            have : v = u := Option.some.inj (hv.symm.trans hu)
            subst this
            rcases find_upd_some hv (fun _ => rfl) with ⟨_, w, hw, e⟩ | ⟨h, _⟩
            · obtain ⟨e1, e2, e3, e4, e5⟩ := hs3 w hw
              have f1 : t.dispatched = false := by rw [← e1]; rw [e] at d1; exact d1
              have f2 : t.rstSent = false := by rw [← e2]; rw [e] at d2; exact d2
              have f3 : t.rstRecv = false := by rw [← e3]; rw [e] at d3; exact d3
              have g := done t hr ht (by rw [← al3.1]; exact o1) (by rw [← al3.2]; exact o2) f1 f2 f3
              have hst : w.state = .closed := by
                rw [e] at hcl
                have hcl : (if w.endRecv = true then recvEnd w.state else w.state) = .closed := hcl
                rw [e4, g] at hcl
                exact hcl
              rcases (hi2.state _ _ ht).closed (by rw [← e5]; exact hst) with k | k | k
              · rw [f2] at k; cases k
              · rw [f3] at k; cases k
              · rw [g] at k; cases k.2
            · exact absurd rfl h
          rw [noop]
          exact path_tryClose _ _
        · exact .refl _

theorem path_onContinuation (c : Conn x) (sid : Nat) (frag : Bytes) (eh : Bool) (h : Script) (hi : Inv0 c) :
    ∃ ls, ls.Sublist (h.labs sid) ∧ Path c ls (onContinuation c sid frag eh h) := by
  have nil : ∀ {c' : Conn x}, Path c [] c' → ∃ ls, ls.Sublist (h.labs sid) ∧ Path c ls c' := fun p => ⟨[], by simp, p⟩
  unfold onContinuation
  split
  · exact nil (.refl _)
  split
  · exact nil ((path_goaway _ _).tr (path_clear _))
  rename_i hc
  simp only [Bool.or_eq_true, beq_iff_eq, bne_iff_ne, ne_eq, not_or, Decidable.not_not] at hc
  have ho : sid % 2 = 1 := by
    rcases hi.cur with h | h
    · exact absurd h hc.1.2
    · rw [hc.2]; exact h
  split
  · exact nil ((path_goaway _ _).tr (path_clear _))
  rename_i s hs
  have hid := find_id hs
  split
  · exact nil ((path_goaway _ _).tr (path_clear _))
  simp only []
  have p1 : Path c [] { c with contCount := c.contCount + 1 } := by auxp
  split
  · exact nil (p1.tr ((path_goaway _ _).tr (path_clear _)))
  have p2 : Path c [] { c with contCount := c.contCount + 1, frag := c.frag ++ frag } := by auxp
  split
  · exact nil (p2.tr ((path_goaway _ _).tr (path_clear _)))
  split
  · obtain ⟨ls, sl, p⟩ := path_continuationEnd { c with contCount := c.contCount + 1, frag := c.frag ++ frag } s h (hi.path p2)
      (by rw [hid]; exact hs) (by rw [hid]; exact ho)
    exact ⟨ls, by rw [← hid]; exact sl, p2.tr p⟩
  · exact nil (p2.tr (Path.soft (fun s => soft_same _ _ rfl)))

/-! ## SETTINGS -/

/-- The labels of SETTINGS. -/
def Lab.isSet : Lab → Bool
  | .setInit _ | .shift _ _ | .setMax _ => true
  | _ => false

/-- The labels of a SETTINGS frame with the entries `es`. -/
def SetLab (es : List (UInt16 × UInt32)) (y : Lab) : Prop :=
  Lab.isSet y = true ∧ ∀ n, y = .setMax n → ∃ v, ((5 : UInt16), v) ∈ es ∧ n = (H2.clampPeerMax v).toNat

theorem path_shiftStream (c : Conn x) (delta : Int) (sid : Nat) :
    ∃ ls, (ls = [] ∨ ls = [.shift sid delta]) ∧ Path c ls (shiftStream c delta sid).1 := by
  unfold shiftStream
  split
  · exact ⟨[], Or.inl rfl, .refl _⟩
  · split
    · refine ⟨_, Or.inr rfl, ?_⟩
      have p := Path.one (Micro.shift c sid delta)
      simp only []
      split
      · exact p.tr' ((path_sendRst _ _ _ _).tr (path_goaway _ _))
      · split
        · exact p.tr' (path_trySend _ _)
        · exact p
    · exact ⟨[], Or.inl rfl, .refl _⟩

theorem path_shiftLoop (delta : Int) (ids : List Nat) (c : Conn x) :
    ∃ ls, (∀ y ∈ ls, Lab.isSet y = true ∧ ∀ n, y ≠ .setMax n) ∧ Path c ls (shiftLoop delta ids c) := by
  induction ids generalizing c with
  | nil => exact ⟨[], by simp, .refl _⟩
  | cons sid ids ih =>
    rw [shiftLoop]
    obtain ⟨l1, e1, p1⟩ := path_shiftStream c delta sid
    have q1 : ∀ y ∈ l1, Lab.isSet y = true ∧ ∀ n, y ≠ .setMax n := by
      rcases e1 with e | e <;> subst e <;> simp [Lab.isSet]
    split
    · obtain ⟨l2, q2, p2⟩ := ih (shiftStream c delta sid).1
      refine ⟨l1 ++ l2, ?_, p1.trans p2⟩
      intro y hy
      rcases List.mem_append.mp hy with h | h
      · exact q1 y h
      · exact q2 y h
    · exact ⟨l1, q1, p1⟩

theorem path_applySetting (c : Conn x) (id : UInt16) (v : UInt32) :
    ∃ ls, (∀ y ∈ ls, SetLab [(id, v)] y) ∧ Path c ls (applySetting c id v) := by
  unfold applySetting
  have nil : ∀ {c' : Conn x}, Path c [] c' → ∃ ls, (∀ y ∈ ls, SetLab [(id, v)] y) ∧ Path c ls c' := fun p => ⟨[], by simp, p⟩
  split
  · exact nil (by auxp)
  split
  · exact nil (by auxp)
  split
  · exact nil (by auxp)
  split
  · unfold updateInitial
    simp only []
    obtain ⟨ls, q, p⟩ := path_shiftLoop ((v.toNat : Int) - (c.initPeer : Int)) (x.order (c.streams.map (·.id))) { c with initPeer := v.toNat }
    exact ⟨.setInit v.toNat :: ls, by
      intro y hy
      rcases List.mem_cons.mp hy with h | h
      · subst h; exact ⟨rfl, fun _ h => by cases h⟩
      · exact ⟨(q y h).1, fun n e => absurd e ((q y h).2 n)⟩, (Path.one (.setInit c v.toNat)).trans p⟩
  split
  · rename_i h5
    have h5 : id = 5 := by simpa using h5
    refine ⟨[.setMax (H2.clampPeerMax v).toNat], fun y hy => by
      rw [List.mem_singleton] at hy
      subst hy
      refine ⟨rfl, fun n e => ⟨v, by rw [h5]; exact List.mem_singleton.mpr rfl, by cases e; rfl⟩⟩, .one (.setMax _ _ ?_)⟩
    rw [H2.C24_peer_limit]; omega
  split
  · exact nil (by auxp)
  · exact nil (.refl _)

theorem path_settingsLoop (es : List (UInt16 × UInt32)) (c : Conn x) :
    ∃ ls, (∀ y ∈ ls, SetLab es y) ∧ Path c ls (settingsLoop es c).1 := by
  induction es generalizing c with
  | nil => exact ⟨[], by simp, .refl _⟩
  | cons e es ih =>
    obtain ⟨id, v⟩ := e
    rw [settingsLoop]
    split
    · exact ⟨[], by simp, path_goaway _ _⟩
    · obtain ⟨l1, q1, p1⟩ := path_applySetting c id v
      obtain ⟨l2, q2, p2⟩ := ih (applySetting c id v)
      refine ⟨l1 ++ l2, ?_, p1.trans p2⟩
      intro y hy
      rcases List.mem_append.mp hy with h | h
      · exact ⟨(q1 y h).1, fun n e => by
          obtain ⟨w, hw, e⟩ := (q1 y h).2 n e
          exact ⟨w, by rw [List.mem_singleton.mp hw]; exact List.mem_cons_self .., e⟩⟩
      · exact ⟨(q2 y h).1, fun n e => by
          obtain ⟨w, hw, e⟩ := (q2 y h).2 n e
          exact ⟨w, List.mem_cons_of_mem _ hw, e⟩⟩

theorem path_onSettings (c : Conn x) (sid : Nat) (ack : Bool) (es : List (UInt16 × UInt32)) :
    ∃ ls, (∀ y ∈ ls, SetLab es y) ∧ Path c ls (onSettings c sid ack es) := by
  have nil : ∀ {c' : Conn x}, Path c [] c' → ∃ ls, (∀ y ∈ ls, SetLab es y) ∧ Path c ls c' := fun p => ⟨[], by simp, p⟩
  unfold onSettings
  split
  · exact nil (.refl _)
  split
  · exact nil (path_goaway _ _)
  split
  · split
    · exact nil (.refl _)
    · exact nil (path_goaway _ _)
  obtain ⟨ls, q, p⟩ := path_settingsLoop es c
  refine ⟨ls, q, ?_⟩
  simp only []
  split
  · exact p
  · refine p.tr' ?_
    have p1 : Path (settingsLoop es c).1 [] { (settingsLoop es c).1 with ctl := (settingsLoop es c).1.ctl + 1 } := by auxp
    refine p1.tr ?_
    split
    · exact path_goaway _ _
    · exact .one (.plain _ _ rfl)

/-! ## The other frames -/

theorem path_onRst (c : Conn x) (sid code : Nat) : ∃ ls, (ls = [] ∨ ls = [.rstIn sid]) ∧ Path c ls (onRst c sid code) := by
  have nil : ∀ {c' : Conn x}, Path c [] c' → ∃ ls, (ls = [] ∨ ls = [Lab.rstIn sid]) ∧ Path c ls c' := fun p => ⟨[], Or.inl rfl, p⟩
  unfold onRst
  split
  · exact nil (.refl _)
  split
  · exact nil (path_goaway _ _)
  simp only []
  have p1 : Path c [] (if sid ≤ c.lastClient then { c with rstCount := c.rstCount + 1 } else c) := by
    split
    · auxp
    · exact .refl _
  generalize (if sid ≤ c.lastClient then { c with rstCount := c.rstCount + 1 } else c) = c1 at *
  split
  · exact nil (p1.tr (path_goaway _ _))
  · split
    · rename_i s hs
      refine ⟨_, Or.inr rfl, p1.tr ((Path.one (.rstIn c1 sid code)).tr' ?_)⟩
      refine Path.tr ?_ (path_tryClose _ _)
      split
      · exact .one (.plain _ _ rfl)
      · exact .refl _
    · split
      · exact nil (p1.tr (path_goaway _ _))
      · exact nil p1

theorem path_plains (os : List Out) (h : ∀ o ∈ os, Plain o = true) (c : Conn x) : Path c [] { c with out := c.out ++ os } := by
  induction os generalizing c with
  | nil =>
    have : ({ c with out := c.out ++ [] } : Conn x) = c := by simp
    rw [this]; exact .refl _
  | cons o os ih =>
    refine Path.tr (.one (.plain c o (h o (List.mem_cons_self ..)))) ?_
    have := ih (fun o ho => h o (List.mem_cons_of_mem _ ho)) (c.emit o)
    have e : ({ c.emit o with out := (c.emit o).out ++ os } : Conn x) = { c with out := c.out ++ o :: os } := by
      simp [Conn.emit]
    rw [e] at this
    exact this

theorem path_onGoaway (c : Conn x) (last code : Nat) (hi : Inv0 c) : ∃ ls, (ls = [] ∨ ls = [.lost]) ∧ Path c ls (onGoaway c last code) := by
  unfold onGoaway
  split
  · exact ⟨[], Or.inl rfl, .refl _⟩
  simp only []
  have p1 : Path c [] { c with shutdown := true, goawayLast := last } := by auxp
  have p2 := p1.tr (.one (.plain _ (.goawayEvent code last) rfl))
  have hi2 := hi.path p2
  generalize ({ c with shutdown := true, goawayLast := last } : Conn x).emit (.goawayEvent code last) = c2 at *
  have p3 := p2.tr (.one (.prune c2 (fun s => !goawayCloses c2 last s) hi2.nodup))
  have p4 := p3.tr' (path_plains ((c2.streams.filter (goawayCloses c2 last)).map (goawayError code)) (by
    intro o ho
    obtain ⟨s, _, e⟩ := List.mem_map.mp ho
    rw [← e]; rfl) _)
  refine ⟨_, Or.inr rfl, p4.tr' ?_⟩
  unfold goawayEnd
  split
  · exact .one (.aux _ _ rfl rfl rfl rfl rfl rfl rfl (by simp) (by simp))
  · split
    · exact .one (.aux _ _ rfl rfl rfl rfl rfl rfl rfl (by simp) (by simp))
    · exact .refl _

theorem path_sendAll (ids : List Nat) (c : Conn x) : Path c [] (sendAll ids c) := by
  induction ids generalizing c with
  | nil => exact .refl _
  | cons sid ids ih =>
    rw [sendAll]
    split
    · exact ih c
    · split
      · simp only []
        split
        · exact path_trySend _ _
        · exact (path_trySend _ _).tr (ih _)
      · exact ih c

theorem path_onWindowUpdate (c : Conn x) (sid inc : Nat) :
    ∃ ls, (ls = [] ∨ (sid = 0 ∧ ls = [.grantConn inc]) ∨ (sid ≠ 0 ∧ ls = [.grant sid inc])) ∧ Path c ls (onWindowUpdate c sid inc) := by
  have nil : ∀ {c' : Conn x}, Path c [] c' → ∃ ls, (ls = [] ∨ (sid = 0 ∧ ls = [.grantConn inc]) ∨ (sid ≠ 0 ∧ ls = [.grant sid inc])) ∧ Path c ls c' :=
    fun p => ⟨[], Or.inl rfl, p⟩
  unfold onWindowUpdate
  split
  · split
    · exact nil (path_goaway _ _)
    · exact nil (path_sendRst _ _ _ _)
  split
  · rename_i h0
    have h0 : sid = 0 := by simpa using h0
    split
    · exact nil (path_goaway _ _)
    · rename_i hw
      exact ⟨_, Or.inr (Or.inl ⟨h0, rfl⟩), (Path.one (.grantConn c inc (by omega))).tr' (path_sendAll _ _)⟩
  · rename_i h0
    have h0 : sid ≠ 0 := by simpa using h0
    split
    · split
      · exact nil (path_goaway _ _)
      · exact nil (.refl _)
    · rename_i s hs
      split
      · exact nil (path_sendRst _ _ _ _)
      split
      · split
        · exact nil (path_sendRst _ _ _ _)
        · exact nil (.refl _)
      split
      · exact nil (path_sendRst _ _ _ _)
      · rename_i hw
        refine ⟨_, Or.inr (Or.inr ⟨h0, rfl⟩), (Path.one (.grant c sid inc s hs (by omega))).tr' ?_⟩
        split
        · exact path_trySend _ _
        · exact .refl _

theorem path_cleanup (c : Conn x) (e : SStream → Bool) : Path c [] (cleanup c e) := by
  unfold cleanup
  generalize x.order (c.streams.map (·.id)) = ids
  induction ids generalizing c with
  | nil => exact .refl _
  | cons sid ids ih =>
    rw [cleanupLoop]
    split
    · exact ih c
    · split
      · exact (path_sendRst _ _ _ _).tr (Path.tr (.one (.erase _ _ (fun s hs => by rw [sendRst_find (Or.inr rfl)] at hs; cases hs))) (ih _))
      · exact ih c

/-- The labels an input may produce. -/
def StepLabs : Input → List Lab → Prop
  | .data sid d pad fin h, ls => DataLabs sid (d.length + pad) d fin h ls
  | .headers sid _ fin _ h, ls => ∃ rs, rs.Sublist (h.labs sid fin) ∧ (ls = rs ∨ ls = .opened sid :: rs)
  | .continuation sid _ _ h, ls => ls.Sublist (h.labs sid)
  | .settings _ _ es, ls => ∀ y ∈ ls, SetLab es y
  | .windowUpdate sid inc, ls => ls = [] ∨ (sid = 0 ∧ ls = [.grantConn inc]) ∨ (sid ≠ 0 ∧ ls = [.grant sid inc])
  | .app a, ls => ls.Sublist a.labs
  | .rst sid _, ls => ls = [] ∨ ls = [.rstIn sid]
  | .goaway _ _, ls => ls = [] ∨ ls = [.lost]
  | _, ls => ls = []

theorem path_step (c : Conn x) (i : Input) (hi : Inv0 c) : ∃ ls, StepLabs i ls ∧ Path c ls (step c i) := by
  cases i with
  | data sid d pad fin h => exact path_onData c sid d pad fin h hi
  | headers sid frag fin eh h => exact path_onHeaders c sid frag fin eh h
  | continuation sid frag eh h => exact path_onContinuation c sid frag eh h hi
  | settings sid ack es => exact path_onSettings c sid ack es
  | windowUpdate sid inc => exact path_onWindowUpdate c sid inc
  | app a => exact path_act c a
  | preface =>
    refine ⟨[], rfl, ?_⟩
    show Path c [] (onPreface c)
    unfold onPreface
    split
    · exact .refl _
    · split
      · exact .refl _
      · refine Path.tr (.one (.plain c .settings rfl)) (.one (.aux _ _ rfl rfl rfl rfl rfl rfl rfl (fun h => h) (fun h => h)))
  | rst sid code => exact path_onRst c sid code
  | goaway last code => exact path_onGoaway c last code hi
  | ping sid ack d =>
    refine ⟨[], rfl, ?_⟩
    show Path c [] (onPing c sid ack d)
    unfold onPing
    split
    · exact .refl _
    split
    · exact path_goaway _ _
    split
    · exact .refl _
    simp only []
    have p1 : Path c [] { c with ctl := c.ctl + 1 } := by auxp
    refine p1.tr ?_
    split
    · exact path_goaway _ _
    · exact .one (.plain _ _ rfl)
  | pushPromise => exact ⟨[], rfl, path_goaway c _⟩
  | priority sid =>
    refine ⟨[], rfl, ?_⟩
    show Path c [] (onPriority c sid)
    unfold onPriority
    split
    · exact .refl _
    · split
      · exact path_goaway _ _
      · exact .refl _
  | framerError code sid =>
    refine ⟨[], rfl, ?_⟩
    show Path c [] (onFramerError c code sid)
    unfold onFramerError
    simp only []
    have p1 : Path c [] { c with ok := false } := .one (.aux _ _ rfl rfl rfl rfl rfl rfl rfl (by simp) (fun h => h))
    refine p1.tr ?_
    split
    · exact path_sendRst _ _ _ _
    · exact path_goaway _ _
  | cleanup e => exact ⟨[], rfl, path_cleanup c e⟩

theorem Inv0.init (d : x.D) (e : x.E) : Inv0 (Conn.init (x := x) d e) :=
  ⟨fun sid s h => by simp [Conn.init, Conn.find] at h, fun sid s h => by simp [Conn.init, Conn.find] at h, Or.inl rfl, by simp [Conn.init]⟩

theorem Inv0.step {c : Conn x} (h : Inv0 c) (i : Input) : Inv0 (step c i) := by
  obtain ⟨ls, _, p⟩ := path_step c i h
  exact h.path p

theorem Inv0.run {c : Conn x} (h : Inv0 c) (is : List Input) : Inv0 (run c is) := by
  unfold Verif.Srv.run
  induction is generalizing c with
  | nil => exact h
  | cons i is ih => exact ih (h.step i)

end Verif.Srv
