import Verif.Srv.TheoremsSync
import Verif.Srv.TheoremsLimit
import Verif.Srv.Pushes

/-! # C94 (delivery), C97 (handler exceptions), C98 (GOAWAY of the client), C99 (server push) -/

namespace Verif.Srv
open Verif.Stream

variable {x : Ext}

/-! ## Between header blocks -/

/-- No header block is under assembly, or the one the client is sending. -/
def Between (c : Conn x) (o : Nat) : Prop := (c.curSid = 0 ∧ c.frag = []) ∨ (c.curSid = o ∧ o ≠ 0)

theorem headersOn_between {c : Conn x} {s : SStream} {frag : Bytes} {fin eh : Bool} {h : Script} (c0 : c.curSid = 0) (f0 : c.frag = [])
    (hid : s.id ≠ 0) (ha : (headersOn c s frag fin eh h).alive = true) : Between (headersOn c s frag fin eh h) (if eh then 0 else s.id) := by
  unfold headersOn at ha ⊢
  simp only [] at ha ⊢
  split at ha
  · rw [clear_alive, goaway_dead] at ha; cases ha
  rename_i z; rw [if_neg z]
  split
  · exact .inl ⟨c0, f0⟩
  rename_i z; rw [if_neg z] at ha
  split
  · have k := kept_sendRst c s.id PROTOCOL_ERROR true
    exact .inl ⟨k.cur.trans c0, k.frag.trans f0⟩
  rename_i z; rw [if_neg z] at ha
  split at ha
  · rw [goaway_dead] at ha; cases ha
  rename_i z; rw [if_neg z]
  split at ha
  · rw [goaway_dead] at ha; cases ha
  rename_i z; rw [if_neg z]
  cases eh with
  | true =>
    simp only [if_true]
    obtain ⟨_, e2, e3⟩ := headersEnd_dec (markHeaders { c with ctl := 0, contCount := 0, curSid := s.id, frag := c.frag ++ frag } s.id fin true) s.id s.headersMain h
    exact .inl ⟨e3, e2⟩
  | false =>
    simp only [Bool.false_eq_true, if_false]
    have k := mark_kept { c with ctl := 0, contCount := 0, curSid := s.id, frag := c.frag ++ frag } s.id fin false
    exact .inr ⟨k.cur, hid⟩

theorem between_run (d : x.D) (e : x.E) (is : List Input) (hf : Framed 0 is = true) (ha : (run (Conn.init (x := x) d e) is).alive = true) :
    Between (run (Conn.init (x := x) d e) is) (openSid 0 is) := by
  induction is using snocInd with
  | h0 => exact .inl ⟨rfl, rfl⟩
  | hs is i ih =>
    have hi := (Inv0.init (x := x) d e).run is
    rw [run_snoc] at ha ⊢
    obtain ⟨ls, _, p⟩ := path_step (run (Conn.init (x := x) d e) is) i hi
    have hc := alive_path p ha
    rw [framed_append, Bool.and_eq_true] at hf
    have ih := ih hf.1 hc
    have hf := hf.2
    rw [openSid_append]
    generalize run (Conn.init (x := x) d e) is = c at *
    obtain ⟨c1, c2⟩ := alive_iff.mp hc
    generalize openSid 0 is = o at *
    have same : Same3 c (step c i) → openSid o [i] = o → Between (step c i) (openSid o [i]) := by
      intro k e
      rw [e]
      rcases ih with q | q
      · exact .inl ⟨k.2.2.trans q.1, k.2.1.trans q.2⟩
      · exact .inr ⟨k.2.2.trans q.1, q.2⟩
    cases i with
    | headers sid frag fin eh h =>
      simp only [Framed, Bool.and_eq_true, beq_iff_eq] at hf
      have o0 := hf.1
      subst o0
      have q : c.curSid = 0 ∧ c.frag = [] := by
        rcases ih with q | q
        · exact q
        · exact absurd rfl q.2
      show Between (onHeaders c sid frag fin eh h) (if eh then 0 else sid)
      have ha : (onHeaders c sid frag fin eh h).alive = true := ha
      unfold onHeaders at ha ⊢
      rw [if_neg (by simp [c1, c2])] at ha ⊢
      split at ha
      · rw [goaway_dead] at ha; cases ha
      rename_i z0; rw [if_neg z0]
      split at ha
      · rw [goaway_dead] at ha; cases ha
      rename_i z; rw [if_neg z]
      have rst : ∀ code, Between (sendRst c sid code) (if eh then 0 else sid) := fun code => by
        have k := kept_sendRst c sid code true
        exact .inl ⟨k.cur.trans q.1, k.frag.trans q.2⟩
      have n0 : sid ≠ 0 := by simpa using z0
      cases hs : c.find sid with
      | none =>
        rw [hs] at ha
        simp only [] at ha ⊢
        split
        · exact rst _
        rename_i z; rw [if_neg z] at ha
        split
        · exact rst _
        rename_i z; rw [if_neg z] at ha
        split
        · exact rst _
        rename_i z; rw [if_neg z] at ha
        exact headersOn_between (c := { c with streams := c.streams ++ [{ id := sid, peerW := c.initPeer }], lastClient := max c.lastClient sid })
            (s := { id := sid, peerW := c.initPeer }) q.1 q.2 n0 ha
      | some s =>
        rw [hs] at ha
        simp only [] at ha ⊢
        have hid := find_id hs
        have := headersOn_between q.1 q.2 (by rw [hid]; exact n0) ha
        rw [hid] at this
        exact this
    | continuation sid frag eh h =>
      have ha : (onContinuation c sid frag eh h).alive = true := ha
      obtain ⟨_, q2, _, _, q⟩ := cont_alive ha
      show Between (onContinuation c sid frag eh h) (if eh then 0 else o)
      have io : c.curSid = o ∧ o ≠ 0 := by
        rcases ih with q | q
        · exact absurd q.1 q2
        · exact q
      rcases q with ⟨e1, dec, k⟩ | ⟨e1, k⟩ <;> subst e1
      · exact .inl ⟨k.cur, k.frag⟩
      · exact .inr ⟨k.cur.trans io.1, io.2⟩
    | data sid b pad fin h =>
      rcases kept_onData c sid b pad fin h with k | k
      · exact same k.same3 rfl
      · exact same ⟨k.dec, k.frag, k.cur⟩ rfl
    | preface => exact same (kept_onPreface _).same3 rfl
    | settings sid ack es => exact same (same_onSettings _ _ _ _) rfl
    | rst sid code => exact same (same_onRst _ _ _) rfl
    | goaway last code => exact same (same_onGoaway _ _ _) rfl
    | windowUpdate sid inc => exact same (kept_onWindowUpdate _ _ _).same3 rfl
    | ping sid ack p => exact same (same_onPing _ _ _ _) rfl
    | pushPromise => exact same (kept_goaway _ _).same3 rfl
    | priority sid => exact same (kept_onPriority _ _).same3 rfl
    | framerError code sid => exact same (kept_onFramerError _ _ _).same3 rfl
    | app a => exact same (kept_act _ _).same3 rfl
    | cleanup ex => exact same (kept_cleanup _ _).same3 rfl

/-! ## C94: delivery -/

/-- The client sent no GOAWAY. -/
def Input.isGoaway : Input → Bool
  | .goaway _ _ => true
  | _ => false

theorem shut_step (c : Conn x) (i : Input) (h : i.isGoaway = false) (ha : (step c i).alive = true) : (step c i).shutdown = c.shutdown := by
  have ac := (alive_iff.mp ha).2
  have clr : ∀ {a b : Conn x}, Kept a b → b.active = true → b.shutdown = a.shutdown := fun k z => k.shut z
  cases i with
  | goaway => cases h
  | headers sid frag fin eh sc =>
    have ac : (onHeaders c sid frag fin eh sc).active = true := ac
    show (onHeaders c sid frag fin eh sc).shutdown = _
    have he : ∀ (b : Conn x) (s : SStream), (headersOn b s frag fin eh sc).active = true → (headersOn b s frag fin eh sc).shutdown = b.shutdown := by
      intro b s ac
      unfold headersOn at ac ⊢
      simp only [] at ac ⊢
      split
      · rename_i z; rw [if_pos z] at ac
        exact (kept_goaway b PROTOCOL_ERROR).shut ac
      rename_i z; rw [if_neg z] at ac
      split
      · rfl
      rename_i z; rw [if_neg z] at ac
      split
      · rename_i z; rw [if_pos z] at ac
        exact (kept_sendRst _ _ _ _).shut ac
      rename_i z; rw [if_neg z] at ac
      split
      · rename_i z; rw [if_pos z] at ac
        exact (kept_goaway _ _).shut ac
      rename_i z; rw [if_neg z] at ac
      split
      · rename_i z; rw [if_pos z] at ac
        exact (kept_goaway _ _).shut ac
      rename_i z; rw [if_neg z] at ac
      have k := mark_kept { b with ctl := 0, contCount := 0, curSid := s.id, frag := b.frag ++ frag } s.id fin eh
      generalize markHeaders { b with ctl := 0, contCount := 0, curSid := s.id, frag := b.frag ++ frag } s.id fin eh = g at *
      split
      · rename_i z; rw [if_pos z] at ac
        unfold headersEnd at ac ⊢
        simp only [] at ac ⊢
        obtain ⟨f, k2⟩ := processBlock_kept (g.upd s.id (fun s => { s with expecting := false })) s.id s.headersMain sc
        generalize processBlock (g.upd s.id (fun s => { s with expecting := false })) s.id s.headersMain sc = r at *
        have k3 : Kept r.1 (if (!r.2) = true then r.1 else match r.1.find s.id with
            | none => r.1
            | some t => if (t.state == .closed) = true then tryClose r.1 s.id else r.1) := by
          split
          · exact .refl _
          · exact kept_closeTail _ _
        generalize (if (!r.2) = true then r.1 else match r.1.find s.id with
            | none => r.1
            | some t => if (t.state == .closed) = true then tryClose r.1 s.id else r.1) = r3 at *
        have ac : r3.active = true := ac
        show r3.shutdown = _
        have k4 := k2.trans k3
        rw [k4.shut ac]
        have g1 : g.active = true := k4.act ac
        exact k.shut g1
      · rename_i z; rw [if_neg z] at ac
        exact k.shut ac
    unfold onHeaders at ac ⊢
    split
    · rfl
    rename_i z; rw [if_neg z] at ac
    split
    · rename_i z; rw [if_pos z] at ac; exact (kept_goaway _ _).shut ac
    rename_i z; rw [if_neg z] at ac
    split
    · rename_i z; rw [if_pos z] at ac; exact (kept_goaway _ _).shut ac
    rename_i z; rw [if_neg z] at ac
    cases hs : c.find sid with
    | none =>
      rw [hs] at ac
      simp only [] at ac ⊢
      split
      · rename_i z; rw [if_pos z] at ac; exact (kept_sendRst _ _ _ _).shut ac
      rename_i z; rw [if_neg z] at ac
      split
      · rename_i z; rw [if_pos z] at ac; exact (kept_sendRst _ _ _ _).shut ac
      rename_i z; rw [if_neg z] at ac
      split
      · rename_i z; rw [if_pos z] at ac; exact (kept_sendRst _ _ _ _).shut ac
      rename_i z; rw [if_neg z] at ac
      exact he _ _ ac
    | some s =>
      rw [hs] at ac
      exact he _ _ ac
  | continuation sid frag eh sc =>
    have ha : (onContinuation c sid frag eh sc).alive = true := ha
    obtain ⟨_, _, _, _, q⟩ := cont_alive ha
    rcases q with ⟨_, _, k⟩ | ⟨_, k⟩
    · exact k.shut ac
    · exact k.shut ac
  | data sid b pad fin sc =>
    rcases kept_onData c sid b pad fin sc with k | k
    · exact k.shut ac
    · exact k.shut ac
  | preface => exact (kept_onPreface _).shut ac
  | settings sid ack es =>
    have ac : (onSettings c sid ack es).active = true := ac
    show (onSettings c sid ack es).shutdown = _
    unfold onSettings at ac ⊢
    split
    · rfl
    rename_i z; rw [if_neg z] at ac
    split
    · rename_i z; rw [if_pos z] at ac; exact (kept_goaway _ _).shut ac
    rename_i z; rw [if_neg z] at ac
    split
    · rename_i z; rw [if_pos z] at ac
      split
      · rfl
      · rename_i z; rw [if_neg z] at ac; exact (kept_goaway _ _).shut ac
    rename_i z; rw [if_neg z] at ac
    simp only [] at ac ⊢
    have k := kept_settingsLoop es c
    generalize settingsLoop es c = r at *
    split
    · rename_i z; rw [if_pos z] at ac; exact k.shut ac
    rename_i z; rw [if_neg z] at ac
    split
    · rename_i z; rw [if_pos z] at ac
      have k2 := kept_goaway { r.1 with ctl := r.1.ctl + 1 } ENHANCE_YOUR_CALM
      rw [k2.shut ac]
      exact k.shut (k2.act ac)
    · rename_i z; rw [if_neg z] at ac
      exact k.shut ac
  | rst sid code =>
    have ac : (onRst c sid code).active = true := ac
    show (onRst c sid code).shutdown = _
    unfold onRst at ac ⊢
    split
    · rfl
    rename_i z; rw [if_neg z] at ac
    split
    · rename_i z; rw [if_pos z] at ac; exact (kept_goaway _ _).shut ac
    rename_i z; rw [if_neg z] at ac
    simp only [] at ac ⊢
    have hb : (if sid ≤ c.lastClient then { c with rstCount := c.rstCount + 1 } else c).shutdown = c.shutdown := by split <;> rfl
    generalize (if sid ≤ c.lastClient then { c with rstCount := c.rstCount + 1 } else c) = b at *
    rw [← hb]
    split
    · rename_i z; rw [if_pos z] at ac; exact (kept_goaway _ _).shut ac
    rename_i z; rw [if_neg z] at ac
    cases hs : b.find sid with
    | none =>
      rw [hs] at ac
      simp only [] at ac ⊢
      split
      · rename_i z; rw [if_pos z] at ac; exact (kept_goaway _ _).shut ac
      · rfl
    | some s =>
      rw [hs] at ac
      simp only [] at ac ⊢
      have e1 := Kept.upd b sid (fun s => { s with rstRecv := true, err := code, state := .closed })
      have e2 := fun (q : Bool) => Kept.ite (p := q = true)
        (Kept.emit (b.upd sid (fun s => { s with rstRecv := true, err := code, state := .closed })) (.streamError sid code) rfl) (Kept.refl _)
      exact ((e1.trans (e2 ((!s.dispatched || !s.endSent) && code != NO_ERROR))).trans (kept_tryClose _ _)).shut ac
  | windowUpdate sid inc => exact (kept_onWindowUpdate _ _ _).shut ac
  | ping sid ack p =>
    have ac : (onPing c sid ack p).active = true := ac
    show (onPing c sid ack p).shutdown = _
    unfold onPing at ac ⊢
    split
    · rfl
    rename_i z; rw [if_neg z] at ac
    split
    · rename_i z; rw [if_pos z] at ac; exact (kept_goaway _ _).shut ac
    rename_i z; rw [if_neg z] at ac
    split
    · rfl
    rename_i z; rw [if_neg z] at ac
    simp only [] at ac ⊢
    split
    · rename_i z; rw [if_pos z] at ac
      exact (kept_goaway { c with ctl := c.ctl + 1 } ENHANCE_YOUR_CALM).shut ac
    · rfl
  | pushPromise => exact (kept_goaway _ _).shut ac
  | priority sid => exact (kept_onPriority _ _).shut ac
  | framerError code sid => exact (kept_onFramerError _ _ _).shut ac
  | app a => exact (kept_act _ _).shut ac
  | cleanup ex => exact (kept_cleanup _ _).shut ac

theorem shut_run (d : x.D) (e : x.E) (is : List Input) (h : ∀ i ∈ is, i.isGoaway = false) (ha : (run (Conn.init (x := x) d e) is).alive = true) :
    (run (Conn.init (x := x) d e) is).shutdown = false := by
  induction is using snocInd with
  | h0 => rfl
  | hs is i ih =>
    rw [run_snoc] at ha ⊢
    obtain ⟨ls, _, p⟩ := path_step (run (Conn.init (x := x) d e) is) i ((Inv0.init (x := x) d e).run is)
    rw [shut_step _ i (h i (by simp)) ha]
    exact ih (fun j hj => h j (by simp [hj])) (alive_path p ha)

/-- A complete request is handed over. -/
theorem dispatch_out {q : Conn x} {sid : Nat} {S : SStream} (h : Script) (f : q.find sid = some S) (d1 : S.dispatched = false) (d2 : S.rstSent = false)
    (d3 : S.rstRecv = false) (hc : q.alive = true) (hp : x.pathEmpty S.req = false) :
    ∃ os, (dispatch q sid h).out = q.out ++ .request sid S.req :: os := by
  obtain ⟨c1, c2⟩ := alive_iff.mp hc
  unfold dispatch
  rw [f]
  simp only []
  rw [if_neg (by simp [d1, d2, d3]), if_pos (by simp [c1, c2]), if_neg (by simp [hp])]
  obtain ⟨ls, sl, pp⟩ := path_acts h.acts ((q.upd sid (fun s => { s with dispatched := true })).emit (.request sid S.req))
  obtain ⟨os, eo⟩ := path_out pp
  have e2 : ((q.upd sid (fun s => { s with dispatched := true })).emit (.request sid S.req)).out = q.out ++ [.request sid S.req] := rfl
  rw [e2] at eo
  generalize List.foldl act ((q.upd sid (fun s => { s with dispatched := true })).emit (.request sid S.req)) h.acts = t at *
  split
  · obtain ⟨os2, eo2⟩ := path_out (path_sendRst t sid INTERNAL_ERROR false)
    exact ⟨os ++ os2, by rw [eo2, eo]; simp⟩
  · split
    · exact ⟨os, by rw [eo]; simp⟩
    · split
      · obtain ⟨os2, eo2⟩ := path_out (path_tryClose t sid)
        exact ⟨os ++ os2, by rw [eo2, eo]; simp⟩
      · exact ⟨os, by rw [eo]; simp⟩

/-- A header block that completes a request. -/
theorem block_out {m : Conn x} {sid : Nat} {S : SStream} (h : Script) (f : m.find sid = some S) (d0 : S.endRecv = true) (d1 : S.dispatched = false)
    (d2 : S.rstSent = false) (d3 : S.rstRecv = false) (db : S.req.body = []) (hc : m.alive = true) {fs : List Field} {r : Request} {cl : Option Nat}
    (hd : (x.decode m.dec m.frag).1 = some fs) (hv : ValidHead x.methodKnown fs r cl) (hcl : cl = none ∨ cl = some 0) (hp : x.pathEmpty r = false) :
    ∃ os, (processBlock m sid false h).1.out = m.out ++ .request sid r :: os := by
  have hr := (requestHead_iff x.methodKnown fs r cl).mpr hv
  unfold processBlock
  simp only []
  rw [hd]
  simp only [Bool.not_false, if_true]
  have f1 : ({ m with dec := (x.decode m.dec m.frag).2, frag := [] } : Conn x).find sid = some S := f
  have a1 : ({ m with dec := (x.decode m.dec m.frag).2, frag := [] } : Conn x).alive = true := hc
  have o1 : ({ m with dec := (x.decode m.dec m.frag).2, frag := [] } : Conn x).out = m.out := rfl
  generalize ({ m with dec := (x.decode m.dec m.frag).2, frag := [] } : Conn x) = g at *
  have f2 := find_upd_same (c := g) (sid := sid) (f := fun s => { s with expecting := false }) (fun s hs => hs) f1
  have a2 : (g.upd sid (fun s => { s with expecting := false })).alive = true := a1
  have o2 : (g.upd sid (fun s => { s with expecting := false })).out = m.out := o1
  generalize g.upd sid (fun s => { s with expecting := false }) = g2 at *
  unfold processHead
  rw [hr]
  simp only []
  have hb : ({ r with body := S.req.body } : Request) = r := by
    have := hv.body
    rw [db]
    cases r; simp_all
  have f3 : (g2.upd sid (fun s => { s with headersMain := true, cl := cl, req := { r with body := s.req.body } })).find sid =
      some { S with expecting := false, headersMain := true, cl := cl, req := r } := by
    rw [find_upd_same (c := g2) (sid := sid) (f := fun s => { s with headersMain := true, cl := cl, req := { r with body := s.req.body } }) (fun s hs => hs) f2]
    simp only [hb]
  have a3 : (g2.upd sid (fun s => { s with headersMain := true, cl := cl, req := { r with body := s.req.body } })).alive = true := a2
  have o3 : (g2.upd sid (fun s => { s with headersMain := true, cl := cl, req := { r with body := s.req.body } })).out = m.out := o2
  generalize g2.upd sid (fun s => { s with headersMain := true, cl := cl, req := { r with body := s.req.body } }) = g3 at *
  rw [f3]
  simp only []
  rw [if_pos d0, if_neg]
  · obtain ⟨os, eo⟩ := dispatch_out h f3 d1 d2 d3 a3 hp
    exact ⟨os, by rw [eo, o3]⟩
  · have := hv.body
    rcases hcl with z | z <;> subst z <;> simp [mismatch, this]

theorem find_append_other (l : List SStream) (s : SStream) (j : Nat) (h : s.id ≠ j) :
    (l ++ [s]).find? (fun t => t.id == j) = l.find? (fun t => t.id == j) := by
  rw [List.find?_append]
  have : [s].find? (fun t => t.id == j) = none := by simp [h]
  rw [this]; simp

/-- HEADERS that completes a request on a new stream: the state in which its block is processed. -/
theorem arrive {c : Conn x} {sid : Nat} {frag : Bytes} (h : Script) (hc : c.alive = true) (ho : sid % 2 = 1) (hnew : c.lastClient < sid) (hk : c.find sid = none)
    (hcur : c.curSid = 0) (hfrag : c.frag = []) (hsh : c.shutdown = false) (hlen : frag.length ≤ 1048576) (h50 : activeCount c < 50) :
    ∃ (m : Conn x) (S : SStream), onHeaders c sid frag true true h = headersEnd m sid false h ∧ m.find sid = some S ∧ S.endRecv = true ∧ S.dispatched = false ∧
      S.rstSent = false ∧ S.rstRecv = false ∧ S.endSent = false ∧ S.req.body = [] ∧ m.out = c.out ∧ m.dec = c.dec ∧ m.frag = frag ∧ m.alive = true ∧ m.shutdown = false ∧
      ∀ j, j ≠ sid → m.find j = c.find j := by
  obtain ⟨c1, c2⟩ := alive_iff.mp hc
  unfold onHeaders
  rw [if_neg (by simp [c1, c2]), if_neg (by simp; omega), if_neg (by simp; omega), hk]
  simp only []
  rw [if_neg (by omega), if_neg (by simp [hsh]), if_neg (by unfold OUR_MAX_CONCURRENT; omega)]
  unfold headersOn
  simp only []
  rw [if_neg (by simp), if_neg (by simp), if_neg (by simp), if_neg (by simp [hcur]), if_neg (by rw [hfrag]; unfold MAX_HEADER_BLOCK_SIZE; simp; omega)]
  simp only [if_true]
  -- the stream after the frame
  have f0 : ({ c with streams := c.streams ++ [{ id := sid, peerW := c.initPeer }], lastClient := max c.lastClient sid, ctl := 0, contCount := 0, curSid := sid, frag := c.frag ++ frag } : Conn x).find sid = some { id := sid, peerW := c.initPeer } := by
    have := find_append_list c.streams { id := sid, peerW := (c.initPeer : Int) } sid hk
    rw [if_pos rfl] at this
    exact this
  generalize hg : ({ c with streams := c.streams ++ [{ id := sid, peerW := c.initPeer }], lastClient := max c.lastClient sid, ctl := 0, contCount := 0, curSid := sid, frag := c.frag ++ frag } : Conn x) = g at *
  have g1 : g.out = c.out := by rw [← hg]
  have g2 : g.dec = c.dec := by rw [← hg]
  have g3 : g.frag = frag := by rw [← hg]; simp [hfrag]
  have g4 : g.ok = true := by rw [← hg]; exact c1
  have g5 : g.active = true := by rw [← hg]; exact c2
  have g6 : g.shutdown = false := by rw [← hg]; exact hsh
  have g7 : ∀ j, j ≠ sid → g.find j = c.find j := by
    intro j hj
    rw [← hg]
    exact (find_append_other c.streams { id := sid, peerW := (c.initPeer : Int) } j (fun e => hj e.symm))
  clear hg
  unfold markHeaders
  simp only [if_true]
  rw [upd_upd (f := fun s => { s with state := if (s.state == .idle) = true then .open_ else s.state }) (fun s hs => hs)]
  have f1 := find_upd_same (c := g) (sid := sid) (f := fun s =>
    { s with state := recvEnd (if (s.state == .idle) = true then .open_ else s.state), endRecv := true }) (fun s hs => hs) f0
  generalize hg1 : g.upd sid (fun s => { s with state := recvEnd (if (s.state == .idle) = true then .open_ else s.state), endRecv := true }) = m at *
  have m1 : m.out = c.out := by rw [← hg1]; exact g1
  have m2 : m.dec = c.dec := by rw [← hg1]; exact g2
  have m3 : m.frag = frag := by rw [← hg1]; exact g3
  have m4 : m.ok = true := by rw [← hg1]; exact g4
  have m5 : m.active = true := by rw [← hg1]; exact g5
  have m6 : m.shutdown = false := by rw [← hg1]; exact g6
  have m7 : ∀ j, j ≠ sid → m.find j = c.find j := by
    intro j hj
    rw [← hg1, ← g7 j hj]
    exact find_upd_other (fun s hs => hs) hj
  clear hg1
  exact ⟨m, _, rfl, f1, rfl, rfl, rfl, rfl, rfl, rfl, m1, m2, m3, alive_iff.mpr ⟨m4, m5⟩, m6, m7⟩

/-- A request that ends with its head reaches the application. -/
theorem deliver {c : Conn x} {sid : Nat} {frag : Bytes} {h : Script} (hc : c.alive = true) (ho : sid % 2 = 1) (hnew : c.lastClient < sid) (hk : c.find sid = none)
    (hcur : c.curSid = 0) (hfrag : c.frag = []) (hsh : c.shutdown = false) (hlen : frag.length ≤ 1048576) {fs : List Field} {r : Request} {cl : Option Nat}
    (hd : (x.decode c.dec frag).1 = some fs) (hv : ValidHead x.methodKnown fs r cl) (hcl : cl = none ∨ cl = some 0) (hp : x.pathEmpty r = false)
    (h50 : activeCount c < 50) :
    ∃ os, (onHeaders c sid frag true true h).out = c.out ++ .request sid r :: os := by
  obtain ⟨m, S, e, f1, d0, d1, d2, d3, _, db, m1, m2, m3, m4, _, _⟩ := arrive h hc ho hnew hk hcur hfrag hsh hlen h50
  rw [e]
  -- the block
  have key : ∃ os, (processBlock (m.upd sid (fun s => { s with expecting := false })) sid false h).1.out = c.out ++ .request sid r :: os := by
    have f2 := find_upd_same (c := m) (sid := sid) (f := fun s => { s with expecting := false }) (fun s hs => hs) f1
    have := block_out h f2 d0 d1 d2 d3 db m4 (by show (x.decode m.dec m.frag).1 = _; rw [m2, m3]; exact hd) hv hcl hp
    obtain ⟨os, eo⟩ := this
    refine ⟨os, eo.trans ?_⟩
    show m.out ++ _ = _
    rw [m1]
  unfold headersEnd
  simp only []
  obtain ⟨os, eo⟩ := key
  generalize processBlock (m.upd sid (fun s => { s with expecting := false })) sid false h = r2 at *
  unfold clearAssembly
  simp only []
  split
  · exact ⟨os, eo⟩
  · split
    · exact ⟨os, eo⟩
    · split
      · obtain ⟨os2, eo2⟩ := path_out (path_tryClose r2.1 sid)
        exact ⟨os ++ os2, by rw [eo2, eo]; simp⟩
      · exact ⟨os, eo⟩

/-- **C94 (delivery).** On a working connection whose client has not announced that it is leaving, a request that consists of
one HEADERS frame with a valid head, on a new stream, is handed to the application at once, or the server has 50 client
streams open. -/
theorem C94_delivered (d : x.D) (e : x.E) (is : List Input) (ha : (run (Conn.init (x := x) d e) is).alive = true)
    (hf : Framed 0 is = true) (hopen : openSid 0 is = 0) (hg : ∀ i ∈ is, i.isGoaway = false)
    {sid : Nat} (ho : sid % 2 = 1) (hnew : ∀ j ∈ headersIn is, j < sid) {frag : Bytes} (hlen : frag.length ≤ 1048576) (h : Script)
    {fs : List Field} {r : Request} {cl : Option Nat} (hd : (x.decode (run (Conn.init (x := x) d e) is).dec frag).1 = some fs)
    (hv : ValidHead x.methodKnown fs r cl) (hcl : cl = none ∨ cl = some 0) (hp : x.pathEmpty r = false) :
    (∃ os, (run (Conn.init (x := x) d e) (is ++ [.headers sid frag true true h])).out = (run (Conn.init (x := x) d e) is).out ++ .request sid r :: os) ∨
    50 ≤ ((run (Conn.init (x := x) d e) is).streams.filter (fun s => s.id % 2 != 0 && isActive s)).length := by
  have hlast := last_run (x := x) d e is (sid := sid) (by omega) hnew
  have hb := between_run d e is hf ha
  have hsh := shut_run d e is hg ha
  have hk := Known.run (x := x) d e is
  rw [run_snoc]
  generalize run (Conn.init (x := x) d e) is = c at *
  have hcur : c.curSid = 0 ∧ c.frag = [] := by
    rcases hb with q | q
    · exact q
    · exact absurd hopen q.2
  by_cases h50 : activeCount c < 50
  · exact .inl (deliver ha ho hlast (hk sid ho hlast) hcur.1 hcur.2 hsh hlen hd hv hcl hp h50)
  · right
    show 50 ≤ activeCount c
    omega

/-! ## A handler that throws -/

/-- The handler throws before it called anything. -/
theorem dispatch_throw {q : Conn x} {sid : Nat} {S : SStream} (f : q.find sid = some S) (d1 : S.dispatched = false) (d2 : S.rstSent = false)
    (d3 : S.rstRecv = false) (d4 : S.endSent = false) (hc : q.alive = true) (hp : x.pathEmpty S.req = false) :
    ∃ t T, dispatch q sid ⟨[], true⟩ = t ∧ t.find sid = some T ∧ T.state = .closed ∧ t.out = q.out ++ [.request sid S.req, .rst sid 2, .streamError sid 2] ∧
      t.alive = true ∧ t.shutdown = q.shutdown ∧ ∀ j, j ≠ sid → t.find j = q.find j := by
  obtain ⟨c1, c2⟩ := alive_iff.mp hc
  refine ⟨_, { S with dispatched := true, state := .closed, rstSent := true, err := INTERNAL_ERROR }, rfl, ?_, ?_⟩
  all_goals
    unfold dispatch
    rw [f]
    simp only []
    rw [if_neg (by simp [d1, d2, d3]), if_pos (by simp [c1, c2]), if_neg (by simp [hp])]
    simp only [List.foldl_nil, if_true]
    unfold sendRst
    rw [if_neg (by show ¬ ((!q.active && _) = true); simp [c2])]
    have f1 := find_upd_same (c := q) (sid := sid) (f := fun s => { s with dispatched := true }) (fun s hs => hs) f
    have f2 : Conn.find (Conn.emit ((q.upd sid (fun s => { s with dispatched := true })).emit (.request sid S.req)) (.rst sid INTERNAL_ERROR)) sid =
      some { S with dispatched := true } := f1
    simp only [f2]
    simp only [Bool.false_eq_true, if_false]
    rw [if_pos (by simp [d4, INTERNAL_ERROR, NO_ERROR])]
  · exact find_upd_same (c := Conn.emit ((q.upd sid (fun s => { s with dispatched := true })).emit (.request sid S.req)) (.rst sid INTERNAL_ERROR))
      (f := fun s => { s with state := .closed, rstSent := true, err := INTERNAL_ERROR }) (fun s hs => hs) f2
  · refine ⟨trivial, ?_, hc, rfl, ?_⟩
    · show q.out ++ [_] ++ [_] ++ [_] = _
      simp; rfl
    · intro j hj
      exact (find_upd_other (c := Conn.emit ((q.upd sid (fun s => { s with dispatched := true })).emit (.request sid S.req)) (.rst sid INTERNAL_ERROR))
        (f := fun s => { s with state := .closed, rstSent := true, err := INTERNAL_ERROR }) (fun s hs => hs) hj).trans
        (find_upd_other (c := q) (f := fun s => { s with dispatched := true }) (fun s hs => hs) hj)

/-- A block that completes a request whose handler throws. -/
theorem block_throw {m : Conn x} {sid : Nat} {S : SStream} (f : m.find sid = some S) (d0 : S.endRecv = true) (d1 : S.dispatched = false)
    (d2 : S.rstSent = false) (d3 : S.rstRecv = false) (d4 : S.endSent = false) (db : S.req.body = []) (hc : m.alive = true) {fs : List Field} {r : Request} {cl : Option Nat}
    (hd : (x.decode m.dec m.frag).1 = some fs) (hv : ValidHead x.methodKnown fs r cl) (hcl : cl = none ∨ cl = some 0) (hp : x.pathEmpty r = false) :
    ∃ t T, processBlock m sid false ⟨[], true⟩ = (t, true) ∧ t.find sid = some T ∧ T.state = .closed ∧ t.out = m.out ++ [.request sid r, .rst sid 2, .streamError sid 2] ∧
      t.alive = true ∧ t.shutdown = m.shutdown ∧ ∀ j, j ≠ sid → t.find j = m.find j := by
  have hr := (requestHead_iff x.methodKnown fs r cl).mpr hv
  unfold processBlock
  simp only []
  rw [hd]
  simp only [Bool.not_false, if_true]
  have f1 : ({ m with dec := (x.decode m.dec m.frag).2, frag := [] } : Conn x).find sid = some S := f
  have a1 : ({ m with dec := (x.decode m.dec m.frag).2, frag := [] } : Conn x).alive = true := hc
  have o1 : ({ m with dec := (x.decode m.dec m.frag).2, frag := [] } : Conn x).out = m.out := rfl
  have s1 : ({ m with dec := (x.decode m.dec m.frag).2, frag := [] } : Conn x).shutdown = m.shutdown := rfl
  have j1 : ∀ j, j ≠ sid → ({ m with dec := (x.decode m.dec m.frag).2, frag := [] } : Conn x).find j = m.find j := fun _ _ => rfl
  generalize ({ m with dec := (x.decode m.dec m.frag).2, frag := [] } : Conn x) = g at *
  have f2 := find_upd_same (c := g) (sid := sid) (f := fun s => { s with expecting := false }) (fun s hs => hs) f1
  have a2 : (g.upd sid (fun s => { s with expecting := false })).alive = true := a1
  have o2 : (g.upd sid (fun s => { s with expecting := false })).out = m.out := o1
  have s2 : (g.upd sid (fun s => { s with expecting := false })).shutdown = m.shutdown := s1
  have j2 : ∀ j, j ≠ sid → (g.upd sid (fun s => { s with expecting := false })).find j = m.find j := fun j hj =>
    (find_upd_other (f := fun s => { s with expecting := false }) (fun s hs => hs) hj).trans (j1 j hj)
  generalize g.upd sid (fun s => { s with expecting := false }) = g2 at *
  unfold processHead
  rw [hr]
  simp only []
  have hb : ({ r with body := S.req.body } : Request) = r := by
    have := hv.body
    rw [db]
    cases r; simp_all
  have f3 : (g2.upd sid (fun s => { s with headersMain := true, cl := cl, req := { r with body := s.req.body } })).find sid =
      some { S with expecting := false, headersMain := true, cl := cl, req := r } := by
    rw [find_upd_same (c := g2) (sid := sid) (f := fun s => { s with headersMain := true, cl := cl, req := { r with body := s.req.body } }) (fun s hs => hs) f2]
    simp only [hb]
  have a3 : (g2.upd sid (fun s => { s with headersMain := true, cl := cl, req := { r with body := s.req.body } })).alive = true := a2
  have o3 : (g2.upd sid (fun s => { s with headersMain := true, cl := cl, req := { r with body := s.req.body } })).out = m.out := o2
  have s3 : (g2.upd sid (fun s => { s with headersMain := true, cl := cl, req := { r with body := s.req.body } })).shutdown = m.shutdown := s2
  have j3 : ∀ j, j ≠ sid → (g2.upd sid (fun s => { s with headersMain := true, cl := cl, req := { r with body := s.req.body } })).find j = m.find j := fun j hj =>
    (find_upd_other (f := fun s => { s with headersMain := true, cl := cl, req := { r with body := s.req.body } }) (fun s hs => hs) hj).trans (j2 j hj)
  generalize g2.upd sid (fun s => { s with headersMain := true, cl := cl, req := { r with body := s.req.body } }) = g3 at *
  rw [f3]
  simp only []
  rw [if_pos d0, if_neg]
  · obtain ⟨t, T, e, x1, x2, x3, x4, x5, x6⟩ := dispatch_throw f3 d1 d2 d3 d4 a3 hp
    exact ⟨t, T, by rw [e], x1, x2, by rw [x3, o3], x4, by rw [x5, s3], fun j hj => (x6 j hj).trans (j3 j hj)⟩
  · have := hv.body
    rcases hcl with z | z <;> subst z <;> simp [mismatch, this]

/-- **C97 (partial: requests that end with their HEADERS frame; C97_throw_data_refuted has the others).** When the handler of
such a request throws before it answered, the client gets RST_STREAM with INTERNAL_ERROR for this stream at once, the connection
stays usable, the stream no longer takes part in anything, and every other stream is as it was. -/
theorem C97_throw_partial (d : x.D) (e : x.E) (is : List Input) (ha : (run (Conn.init (x := x) d e) is).alive = true)
    (hf : Framed 0 is = true) (hopen : openSid 0 is = 0) (hg : ∀ i ∈ is, i.isGoaway = false)
    {sid : Nat} (ho : sid % 2 = 1) (hnew : ∀ j ∈ headersIn is, j < sid) {frag : Bytes} (hlen : frag.length ≤ 1048576)
    {fs : List Field} {r : Request} {cl : Option Nat} (hd : (x.decode (run (Conn.init (x := x) d e) is).dec frag).1 = some fs)
    (hv : ValidHead x.methodKnown fs r cl) (hcl : cl = none ∨ cl = some 0) (hp : x.pathEmpty r = false)
    (h50 : ((run (Conn.init (x := x) d e) is).streams.filter (fun s => s.id % 2 != 0 && isActive s)).length < 50) :
    (run (Conn.init (x := x) d e) (is ++ [.headers sid frag true true { throws := true }])).out =
      (run (Conn.init (x := x) d e) is).out ++ [.request sid r, .rst sid 2, .streamError sid 2] ∧
    (run (Conn.init (x := x) d e) (is ++ [.headers sid frag true true { throws := true }])).alive = true ∧
    (run (Conn.init (x := x) d e) (is ++ [.headers sid frag true true { throws := true }])).find sid = none ∧
    ∀ j, j ≠ sid → (run (Conn.init (x := x) d e) (is ++ [.headers sid frag true true { throws := true }])).find j =
      (run (Conn.init (x := x) d e) is).find j := by
  have hlast := last_run (x := x) d e is (sid := sid) (by omega) hnew
  have hb := between_run d e is hf ha
  have hsh := shut_run d e is hg ha
  have hk := Known.run (x := x) d e is
  rw [run_snoc]
  generalize run (Conn.init (x := x) d e) is = c at *
  have hcur : c.curSid = 0 ∧ c.frag = [] := by
    rcases hb with q | q
    · exact q
    · exact absurd hopen q.2
  obtain ⟨m, S, e, f1, d0, d1, d2, d3, d4, db, m1, m2, m3, m4, m5, m6⟩ := arrive { throws := true } ha ho hlast (hk sid ho hlast) hcur.1 hcur.2 hsh hlen h50
  show (onHeaders c sid frag true true { throws := true }).out = _ ∧ (onHeaders c sid frag true true { throws := true }).alive = true ∧
    (onHeaders c sid frag true true { throws := true }).find sid = none ∧ ∀ j, j ≠ sid → (onHeaders c sid frag true true { throws := true }).find j = c.find j
  rw [e]
  have f2 := find_upd_same (c := m) (sid := sid) (f := fun s => { s with expecting := false }) (fun s hs => hs) f1
  obtain ⟨t, T, e2, x1, x2, x3, x4, x5, x6⟩ := block_throw f2 d0 d1 d2 d3 d4 db m4 (by show (x.decode m.dec m.frag).1 = _; rw [m2, m3]; exact hd) hv hcl hp
  have x3 : t.out = m.out ++ _ := x3
  have x5 : t.shutdown = m.shutdown := x5
  have x6 : ∀ j, j ≠ sid → t.find j = c.find j := fun j hj => ((x6 j hj).trans (find_upd_other (f := fun s => { s with expecting := false }) (fun s hs => hs) hj)).trans (m6 j hj)
  unfold headersEnd
  simp only []
  rw [e2]
  simp only [x1, x2]
  have tc : tryClose t sid = t.erase sid := by
    unfold tryClose
    rw [x1]
    simp only []
    rw [if_pos (by simp [x2]), if_neg, if_neg]
    · show ¬ ((t.shutdown && _ && _) = true)
      rw [x5, m5]; simp
    · show ¬ ((t.shutdown && _) = true)
      rw [x5, m5]; simp
  simp only [Bool.not_true, Bool.false_eq_true, if_false, beq_self_eq_true, if_true]
  rw [tc]
  refine ⟨by show t.out = _; rw [x3, m1], x4, ?_, ?_⟩
  · show (t.erase sid).find sid = none
    rw [find_erase, if_pos rfl]
  · intro j hj
    show (t.erase sid).find j = _
    rw [find_erase, if_neg hj]
    exact x6 j hj

/-- 50 requests with an empty body whose handlers throw. -/
def fiftyThrows : List Input := (List.range 50).flatMap (fun k => [.headers (2 * k + 1) [] false true {}, .data (2 * k + 1) [] 0 true { throws := true }])

/-- **C97, the clause that fails.** When the request ends with a DATA frame instead, the server goes on counting the stream
although it was reset (server.h 376 sets its state again): after 50 of them, each answered by RST_STREAM, nothing is in
progress, yet the next request is refused. -/
theorem C97_throw_data_refuted :
    (run toy fiftyThrows).alive = true ∧
    (∀ k < 50, (run toy fiftyThrows).out.contains (.rst (2 * k + 1) 2) = true) ∧
    (run toy (fiftyThrows ++ [.headers 101 [] true true {}])).out = (run toy fiftyThrows).out ++ [.rst 101 7] := by
  decide +kernel

/-! ## GOAWAY of the client -/

/-- **C98 (partial).** When the client announces with GOAWAY and NO_ERROR that it will leave, the requests in progress on streams
up to the number it names are carried on: the connection is still served and nothing about these requests changes. -/
theorem C98_goaway_partial (hx : ∀ l, (x.order l).Perm l) (d : x.D) (e : x.E) (is : List Input) (ha : (run (Conn.init (x := x) d e) is).alive = true)
    (last : Nat) {j : Nat} (hp : InProgress is (run (Conn.init (x := x) d e) is).out j) (hle : j ≤ last) :
    (run (Conn.init (x := x) d e) (is ++ [.goaway last 0])).alive = true ∧
    (run (Conn.init (x := x) d e) (is ++ [.goaway last 0])).find j = (run (Conn.init (x := x) d e) is).find j ∧
    (run (Conn.init (x := x) d e) is).find j ≠ none := by
  have hj := hp.odd
  have ex := ex_run d e is j
  have hok := rest_run hx d e is ha
  obtain ⟨s, hs⟩ : ∃ s, (run (Conn.init (x := x) d e) is).find j = some s := by
    cases hf : (run (Conn.init (x := x) d e) is).find j with
    | none =>
      rcases ex.gone (Or.inr hp.request) hf with ⟨o, h1, h2⟩ | ⟨code, z⟩ | z
      · rw [hp.unfinished o h1] at h2; cases h2
      · exact absurd z (hp.kept code)
      · rw [hp.wanted] at z; cases z
    | some s => exact ⟨s, rfl⟩
  have r1 : s.rstSent = false := by
    cases h : s.rstSent
    · rfl
    · obtain ⟨code, z⟩ := ex.rst s hs h
      exact absurd z (hp.kept code)
  have r2 : s.rstRecv = false := by
    cases h : s.rstRecv
    · rfl
    · have := ex.recv s hs h
      rw [hp.wanted] at this; cases this
  have r3 : isActive s = true := (hok j hj s hs).2
  rw [run_snoc]
  generalize run (Conn.init (x := x) d e) is = c at *
  show (onGoaway c last 0).alive = true ∧ (onGoaway c last 0).find j = _ ∧ _
  obtain ⟨a1, a2⟩ := alive_iff.mp ha
  have key : ∀ (p : SStream → Bool), (∀ s, s.id = j → p s = true) → (c.streams.filter p).find? (fun s => s.id == j) = c.streams.find? (fun s => s.id == j) := by
    intro p hp
    rw [List.find?_filter]
    congr 1
    funext s
    by_cases hs : s.id = j
    · simp [hs, hp s hs]
    · simp [hs]
  unfold onGoaway
  rw [if_neg (by simp [a1])]
  simp only []
  generalize hG : ({ ({ c with shutdown := true, goawayLast := last } : Conn x).emit (.goawayEvent 0 last) with
      streams := (({ c with shutdown := true, goawayLast := last } : Conn x).emit (.goawayEvent 0 last)).streams.filter
        (fun s => !goawayCloses (({ c with shutdown := true, goawayLast := last } : Conn x).emit (.goawayEvent 0 last)) last s)
      out := (({ c with shutdown := true, goawayLast := last } : Conn x).emit (.goawayEvent 0 last)).out ++
        ((({ c with shutdown := true, goawayLast := last } : Conn x).emit (.goawayEvent 0 last)).streams.filter
          (goawayCloses (({ c with shutdown := true, goawayLast := last } : Conn x).emit (.goawayEvent 0 last)) last)).map (goawayError 0) } : Conn x) = G
  have g1 : G.find j = c.find j := by
    rw [← hG]
    apply key
    intro s hs
    unfold goawayCloses
    rw [if_neg (by rw [hs]; simp; omega)]
    simp [hs]; omega
  have g2 : G.alive = true := by rw [← hG]; exact ha
  have g3 : relevantClosed G last = false := by
    unfold relevantClosed
    rw [Bool.and_eq_false_iff]; right
    rw [List.all_eq_false]
    refine ⟨s, find_mem (c := G) (by rw [g1]; exact hs), ?_⟩
    have := find_id hs
    unfold isActive at r3
    have z : s.id % 2 = 1 := by rw [this]; exact hj
    have z2 : s.id ≤ last := by rw [this]; exact hle
    cases hst : s.state <;> simp [hst] at r3 <;> simp [z, z2, r1, r2]
  unfold goawayEnd
  rw [if_neg (by simp [NO_ERROR]), g3]
  simp only [Bool.false_eq_true, if_false]
  exact ⟨g2, g1, by rw [hs]; simp⟩

/-- **C98, the clause that fails.** The number in GOAWAY counts the streams the *server* opened, so a client that leaves says 0;
the server takes it for a number of the client's requests and drops those that it is still working on (server.h 862): the
answer is not written. -/
theorem C98_goaway_refuted :
    requestsOn 1 (run toy [.headers 1 [] true true {}]).out ≠ [] ∧
    (run toy [.headers 1 [] true true {}, .goaway 0 0]).alive = false ∧
    (run toy [.headers 1 [] true true {}, .goaway 0 0, .app (.respond 1 ⟨200, [], b!"x"⟩)]).out =
      (run toy [.headers 1 [] true true {}, .goaway 0 0]).out ∧
    (run toy [.headers 1 [] true true {}, .app (.respond 1 ⟨200, [], b!"x"⟩)]).out =
      (run toy [.headers 1 [] true true {}]).out ++ [.headers 1 [] false, .data 1 b!"x" true] := by
  decide +kernel

/-! ## Server push -/

theorem pushState (d : x.D) (e : x.E) (is : List Input) (ha : (run (Conn.init (x := x) d e) is).alive = true) :
    (run (Conn.init (x := x) d e) is).allowPush = pushOn true is := by
  induction is using snocInd with
  | h0 => rfl
  | hs is i ih =>
    rw [run_snoc] at ha ⊢
    obtain ⟨ls, _, p⟩ := path_step (run (Conn.init (x := x) d e) is) i ((Inv0.init (x := x) d e).run is)
    rw [(push_step _ i).1 ha, ih (alive_path p ha), pushOn_append]

/-- **C99 (permission).** Whatever the application calls, PUSH_PROMISE is written only on a working connection and only while
the last SETTINGS_ENABLE_PUSH the client sent, if any, was 1. -/
theorem C99_push_allowed (d : x.D) (e : x.E) (is : List Input) (i : Input) {sid p : Nat} {b : Bytes}
    (hm : Out.pushPromise sid p b ∈ (run (Conn.init (x := x) d e) (is ++ [i])).out)
    (hn : Out.pushPromise sid p b ∉ (run (Conn.init (x := x) d e) is).out) :
    pushOn true is = true ∧ (run (Conn.init (x := x) d e) is).alive = true := by
  rw [run_snoc] at hm
  rcases (push_step _ i).2 sid p b hm with z | ⟨z1, z2⟩
  · exact absurd z hn
  · rw [pushState d e is z2] at z1
    exact ⟨z1, z2⟩

/-- **C99 (the promise).** A call that promises a request on behalf of the stream of a request: it writes one PUSH_PROMISE on
that stream with an even number that names no stream of the connection, or nothing. -/
theorem C99_push_promise (d : x.D) (e : x.E) (is : List Input) (sid p : Nat) (f : Option (List Field)) :
    (run (Conn.init (x := x) d e) (is ++ [.app (.push sid p f)])).out = (run (Conn.init (x := x) d e) is).out ∨
    (∃ b, (run (Conn.init (x := x) d e) (is ++ [.app (.push sid p f)])).out = (run (Conn.init (x := x) d e) is).out ++ [.pushPromise sid p b] ∧
      p % 2 = 0 ∧ p ≠ 0 ∧ (run (Conn.init (x := x) d e) is).find p = none ∧
      (∃ s, (run (Conn.init (x := x) d e) is).find sid = some s ∧ (s.state = .open_ ∨ s.state = .halfClosedRemote)) ∧
      ∀ j, j ≠ p → (run (Conn.init (x := x) d e) (is ++ [.app (.push sid p f)])).find j = (run (Conn.init (x := x) d e) is).find j) := by
  rw [run_snoc]
  generalize run (Conn.init (x := x) d e) is = c
  show (sendPush c sid p f).out = _ ∨ ∃ b, (sendPush c sid p f).out = _ ∧ _ ∧ _ ∧ _ ∧ _ ∧ ∀ j, j ≠ p → (sendPush c sid p f).find j = _
  unfold sendPush
  split
  · exact .inl rfl
  split
  · exact .inl rfl
  split
  · exact .inl rfl
  rename_i h3
  simp only [Bool.or_eq_true, beq_iff_eq, bne_iff_ne, ne_eq, not_or, Decidable.not_not] at h3
  split
  · exact .inl rfl
  split
  · exact .inl rfl
  rename_i s hs
  split
  · exact .inl rfl
  rename_i h4
  split
  · exact .inl rfl
  rename_i h5
  split
  · exact .inl rfl
  · simp only []
    split
    · exact .inl rfl
    · rename_i block _
      refine .inr ⟨block, rfl, h3.2, h3.1, ?_, ⟨s, hs, ?_⟩, ?_⟩
      · cases hf : c.find p with
        | none => rfl
        | some t => rw [hf] at h5; simp at h5
      · cases hst : s.state <;> simp [hst] at h4 ⊢
      · intro j hj
        exact find_append_other c.streams _ j (fun e => hj e.symm)

/-- **C99, the clause that fails.** The pushed response cannot be sent: the answer to a promised request is refused with
PROTOCOL_ERROR by the server itself (server.h 1081 has no case for a reserved stream). -/
theorem C99_push_answer_refuted :
    (run toy [.headers 1 [] true true {}, .app (.push 1 2 (some []))]).out = (run toy [.headers 1 [] true true {}]).out ++ [.pushPromise 1 2 []] ∧
    (run toy [.headers 1 [] true true {}, .app (.push 1 2 (some [])), .app (.respond 2 ⟨200, [], b!"x"⟩)]).out =
      (run toy [.headers 1 [] true true {}]).out ++ [.pushPromise 1 2 [], .rst 2 1, .streamError 2 1] := by
  decide +kernel

/-! ## The hypotheses are met -/

/-- C97: three requests, one of them answered, then one whose handler throws. -/
example :
    (run toy [.headers 1 [] true true {}, .headers 3 [] true true { acts := [.respond 3 ⟨200, [], b!"x"⟩] }, .headers 5 [] false true {}]).alive = true ∧
    Framed 0 [.headers 1 [] true true {}, .headers 3 [] true true { acts := [.respond 3 ⟨200, [], b!"x"⟩] }, .headers 5 [] false true {}] = true ∧
    openSid 0 [.headers 1 [] true true {}, .headers 3 [] true true { acts := [.respond 3 ⟨200, [], b!"x"⟩] }, .headers 5 [] false true {}] = 0 ∧
    headersIn [.headers 1 [] true true {}, .headers 3 [] true true { acts := [.respond 3 ⟨200, [], b!"x"⟩] }, .headers 5 [] false true {}] = [1, 3, 5] ∧
    ((run toy [.headers 1 [] true true {}, .headers 3 [] true true { acts := [.respond 3 ⟨200, [], b!"x"⟩] }, .headers 5 [] false true {},
      .headers 7 [] true true { throws := true }]).find 1).isSome = true ∧
    framesOn 7 (run toy [.headers 1 [] true true {}, .headers 3 [] true true { acts := [.respond 3 ⟨200, [], b!"x"⟩] }, .headers 5 [] false true {},
      .headers 7 [] true true { throws := true }]).out = [] := by decide +kernel

/-- C98: two requests in progress, GOAWAY up to the first. -/
example : (run toy [.headers 1 [] true true {}, .headers 3 [] true true {}, .goaway 1 0]).alive = true ∧
    ((run toy [.headers 1 [] true true {}, .headers 3 [] true true {}, .goaway 1 0]).find 1).isSome = true ∧
    InProgress [.headers 1 [] true true {}, .headers 3 [] true true {}] (run toy [.headers 1 [] true true {}, .headers 3 [] true true {}]).out 1 := by
  refine ⟨by decide +kernel, by decide +kernel, ⟨rfl, by decide +kernel, by decide +kernel, ?_, by decide +kernel⟩⟩
  intro code h
  have : ∀ o ∈ (run toy [.headers 1 [] true true {}, .headers 3 [] true true {}]).out, (match o with | .rst _ _ => false | _ => true) = true := by decide +kernel
  have := this _ h
  cases this

/-- C99: the client switches pushes off and on. -/
example : pushOn true [.settings 0 false [(2, 0)]] = false ∧
    pushOn true [.settings 0 false [(2, 0)], .headers 1 [] true true {}, .settings 0 false [(4, 100), (2, 1)]] = true ∧
    (run toy [.settings 0 false [(2, 0)], .headers 1 [] true true { acts := [.push 1 2 (some [])] }]).out.contains (.pushPromise 1 2 []) = false ∧
    (run toy [.settings 0 false [(2, 0)], .settings 0 false [(2, 1)], .headers 1 [] true true { acts := [.push 1 2 (some [])] }]).out.contains (.pushPromise 1 2 []) = true := by
  decide +kernel

end Verif.Srv
