import Verif.Srv.Still

/-! # PUSH_PROMISE -/

namespace Verif.Srv
open Verif.Stream

variable {x : Ext}

/-- PUSH_PROMISE is written only while the client allows it. -/
structure PushOk (c c' : Conn x) : Prop where
  allow : c'.allowPush = c.allowPush
  push : ∀ s p b, Out.pushPromise s p b ∈ c'.out → Out.pushPromise s p b ∈ c.out ∨ (c.allowPush = true ∧ c.alive = true)
  mono : c'.alive = true → c.alive = true

theorem PushOk.same {a b : Conn x} (h : b.allowPush = a.allowPush) (k : b.out = a.out)
    (m : b.alive = true → a.alive = true := by first | exact fun h => h | (intro h; simp [Conn.alive] at h)) : PushOk a b := ⟨h, fun _ _ _ m => .inl (by rw [← k]; exact m), m⟩

theorem PushOk.refl (c : Conn x) : PushOk c c := .same rfl rfl

theorem PushOk.trans {a b c : Conn x} (h : PushOk a b) (k : PushOk b c) : PushOk a c :=
  ⟨k.allow.trans h.allow, fun s p d m => by
    rcases k.push s p d m with m | m
    · exact h.push s p d m
    · exact .inr ⟨by rw [← h.allow]; exact m.1, h.mono m.2⟩, fun m => h.mono (k.mono m)⟩

theorem PushOk.upd (c : Conn x) (sid : Nat) (f : SStream → SStream) : PushOk c (c.upd sid f) := .same rfl rfl

/-- Not a PUSH_PROMISE. -/
def notPush : Out → Bool
  | .pushPromise _ _ _ => false
  | _ => true

theorem PushOk.app {c b : Conn x} (os : List Out) (h : b.allowPush = c.allowPush) (k : b.out = c.out ++ os) (hs : ∀ o ∈ os, notPush o = true)
    (m : b.alive = true → c.alive = true := by first | exact fun h => h | (intro h; simp [Conn.alive] at h)) : PushOk c b :=
  ⟨h, fun s p d m => by
    rw [k] at m
    rcases List.mem_append.mp m with m | m
    · exact .inl m
    · exact absurd (hs _ m) (by simp [notPush]), m⟩

theorem PushOk.emit (c : Conn x) (o : Out) (h : notPush o = true) : PushOk c (c.emit o) := .app [o] rfl rfl (by simpa using h)

theorem PushOk.ite {c a b : Conn x} {p : Prop} [Decidable p] (h1 : PushOk c a) (h2 : PushOk c b) : PushOk c (if p then a else b) := by
  split
  · exact h1
  · exact h2

local macro "pushp" : tactic => `(tactic| exact .same rfl rfl)

theorem pushok_tryClose (c : Conn x) (sid : Nat) : PushOk c (tryClose c sid) := by
  unfold tryClose
  split
  · exact .refl _
  · split
    · simp only []
      split
      · split
        · exact .same rfl rfl
        · pushp
      · split
        · exact .same rfl rfl
        · pushp
    · exact .refl _

theorem pushok_tryCloseIf (c : Conn x) (sid : Nat) (b : Bool) : PushOk c (if b then tryClose c sid else c) := by
  split
  · exact pushok_tryClose _ _
  · exact .refl _

theorem pushok_sendRst (c : Conn x) (sid code : Nat) (b : Bool) : PushOk c (sendRst c sid code b) := by
  unfold sendRst
  split
  · exact .refl _
  · simp only []
    have e1 := PushOk.emit c (.rst sid code) rfl
    split
    · exact e1
    · refine e1.trans ?_
      have e2 := PushOk.upd (c.emit (.rst sid code)) sid (fun s => { s with state := .closed, rstSent := true, err := code })
      refine e2.trans ?_
      generalize Conn.upd (c.emit (.rst sid code)) sid (fun s => { s with state := .closed, rstSent := true, err := code }) = d
      have e3 := fun (q : Bool) => PushOk.ite (p := q = true) (PushOk.emit d (.streamError sid code) rfl) (PushOk.refl d)
      rename_i s1 _
      exact (e3 ((!s1.dispatched || !s1.endSent) && code != NO_ERROR)).trans (pushok_tryCloseIf _ _ _)

theorem pushok_goaway (c : Conn x) (code : Nat) : PushOk c (goaway c code) := by
  unfold goaway
  split
  · exact .refl _
  · exact .app [.goaway c.lastClient code, .goawayEvent code c.lastClient] rfl (by show c.out ++ [_] ++ [_] = _; simp; rfl) (by simp [notPush])

theorem pushok_condConn (c : Conn x) : PushOk c (condConnUpdate c) := by
  unfold condConnUpdate sendWindowUpdate
  split
  · simp only []
    split
    · split
      · pushp
      · refine (PushOk.emit c (.windowUpdate 0 (65535 - c.recvW).toNat) rfl).trans ?_
        pushp
    · exact .refl _
  · exact .refl _

theorem push_pump (b : Bool) (m n : Nat) (s : SStream) (w : Int) : ∀ o ∈ (pump b m n s w).2.2.1, notPush o = true := by
  induction n generalizing s w with
  | zero => intro o h; cases h
  | succ n ih =>
    rw [pump]
    split
    · split
      · intro o h; cases h
      · simp only []
        split
        · intro o h; cases h
        · split
          · intro o h; simp only [List.mem_singleton] at h; subst h; rfl
          · intro o h
            rcases List.mem_cons.mp h with h | h
            · subst h; rfl
            · exact ih _ _ o h
    · intro o h; cases h

theorem pushok_runPump (c : Conn x) (b : Bool) (s : SStream) : PushOk c (runPump c b s).1 := by
  unfold runPump
  exact .app _ rfl rfl (push_pump _ _ _ _ _)

theorem pushok_finishSend (c : Conn x) (sid : Nat) : PushOk c (finishSend c sid) := by
  unfold finishSend
  split
  · exact .refl _
  · simp only []
    have e1 := fun (c : Conn x) => (PushOk.emit c (.headers sid [] true) rfl).trans (PushOk.upd _ sid (fun s => { s with state := .halfClosedLocal, endSent := true, isTrailers := false }))
    have e3 := fun (q : Bool) => PushOk.ite (p := q = true) (e1 c) (PushOk.refl c)
    rename_i s1 _
    refine (e3 (s1.offset == List.length s1.body && s1.isTrailers && !s1.endSent)).trans ?_
    generalize (if (s1.offset == List.length s1.body && s1.isTrailers && !s1.endSent) = true then _ else c) = d
    split
    · exact .refl _
    · split
      · split
        · exact (PushOk.upd _ _ _).trans (pushok_tryClose _ _)
        · exact pushok_tryClose _ _
      · exact .refl _

theorem pushok_trySend (c : Conn x) (sid : Nat) : PushOk c (trySend c sid) := by
  unfold trySend
  split
  · exact .refl _
  split
  · exact .refl _
  split
  · exact .refl _
  split
  · simp only []
    split
    · exact pushok_runPump _ _ _
    · exact ((pushok_runPump _ _ _).trans (PushOk.upd _ _ _)).trans (pushok_finishSend _ _)
  · exact pushok_finishSend _ _

theorem pushok_sendBody (c : Conn x) (sid : Nat) : PushOk c (sendBody c sid) := by
  unfold sendBody
  split
  · exact .refl _
  · simp only []
    split
    · exact pushok_runPump _ _ _
    · rename_i s0 _ _
      refine ((pushok_runPump c false { s0 with isTrailers := s0.hasTrailer }).trans (PushOk.upd _ sid (fun s => { s with pending := s.offset != s.body.length }))).trans ?_
      generalize Conn.upd (runPump c false { s0 with isTrailers := s0.hasTrailer }).1 sid (fun s => { s with pending := s.offset != s.body.length }) = d
      split
      · exact .refl _
      · split
        · have k := pushok_trySend d sid
          generalize trySend d sid = d2 at *
          refine k.trans ?_
          split
          · exact .refl _
          · split
            · exact .upd _ _ _
            · exact .refl _
        · split
          · exact .upd _ _ _
          · exact .refl _

theorem pushok_closeTail (c : Conn x) (sid : Nat) :
    PushOk c (match c.find sid with
      | none => c
      | some s => if s.state == .closed then tryClose c sid else c) := by
  split
  · exact .refl _
  · split
    · exact pushok_tryClose _ _
    · exact .refl _

theorem pushok_sendHead (c : Conn x) (sid : Nat) (block : Bytes) (r : Response) : PushOk c (sendHead c sid block r) := by
  unfold sendHead
  split
  · exact pushok_sendRst _ _ _ _
  · simp only []
    have e1 := PushOk.emit c (.headers sid block r.body.isEmpty) rfl
    split
    · exact (e1.trans (PushOk.upd _ _ _)).trans (pushok_closeTail _ _)
    · exact (e1.trans (pushok_sendBody _ _)).trans (pushok_closeTail _ _)

theorem pushok_sendResponse (c : Conn x) (sid : Nat) (r : Response) : PushOk c (sendResponse c sid r) := by
  unfold sendResponse
  split
  · exact .refl _
  · simp only []
    have e1 := PushOk.upd c sid (fun s => { s with body := r.body, offset := 0, hasTrailer := (Verif.Wire.find r.headers b!"Trailer").isSome })
    refine e1.trans ?_
    split
    · exact pushok_sendRst _ _ _ _
    split
    · exact .refl _
    split
    · exact pushok_sendRst _ _ _ _
    split
    · exact pushok_sendRst _ _ _ _
    · split
      · refine PushOk.trans (b := { (c.upd sid (fun s => { s with body := r.body, offset := 0, hasTrailer := (Verif.Wire.find r.headers b!"Trailer").isSome })) with enc := _ }) ?_ (pushok_goaway _ _)
        pushp
      · refine PushOk.trans (b := { (c.upd sid (fun s => { s with body := r.body, offset := 0, hasTrailer := (Verif.Wire.find r.headers b!"Trailer").isSome })) with enc := _ }) ?_ (pushok_sendHead _ _ _ _)
        pushp

theorem pushok_sendPush (c : Conn x) (sid p : Nat) (f : Option (List Field)) : PushOk c (sendPush c sid p f) := by
  unfold sendPush
  split
  · exact .refl _
  rename_i h1
  have h1 : c.alive = true := by unfold Conn.alive; simpa using h1
  split
  · exact .refl _
  split
  · exact .refl _
  split
  · exact .refl _
  split
  · exact .refl _
  split
  · exact .refl _
  split
  · exact .refl _
  split
  · exact .refl _
  · simp only []
    split
    · pushp
    · rename_i h2 _ _ _ _ _ _ _ _ _ _ _ _
      exact ⟨rfl, fun _ _ _ _ => .inr ⟨by simpa using h2, h1⟩, fun h => h⟩

theorem pushok_act (c : Conn x) (a : Act) : PushOk c (act c a) := by
  cases a with
  | respond sid r => exact pushok_sendResponse _ _ _
  | reset sid code => exact pushok_sendRst _ _ _ _
  | push sid p f => exact pushok_sendPush _ _ _ _

theorem pushok_acts (as : List Act) (c : Conn x) : PushOk c (as.foldl act c) := by
  induction as generalizing c with
  | nil => exact .refl _
  | cons a as ih => exact (pushok_act c a).trans (ih _)

theorem pushok_dispatch (c : Conn x) (sid : Nat) (h : Script) : PushOk c (dispatch c sid h) := by
  unfold dispatch
  split
  · exact .refl _
  rename_i s hs
  split
  · exact .refl _
  split
  · split
    · exact pushok_sendRst _ _ _ _
    · simp only []
      have e1 := ((PushOk.upd c sid (fun s => { s with dispatched := true })).trans (PushOk.emit _ (.request sid s.req) rfl)).trans (pushok_acts h.acts _)
      split
      · exact e1.trans (pushok_sendRst _ _ _ _)
      · exact e1.trans (pushok_closeTail _ _)
  · exact .refl _

theorem pushok_processHead (c : Conn x) (sid : Nat) (fs : List Field) (h : Script) : PushOk c (processHead c sid fs h).1 := by
  unfold processHead
  split
  · exact pushok_sendRst _ _ _ _
  · simp only []
    have e1 := PushOk.upd c sid
    split
    · exact e1 _
    · split
      · split
        · exact (e1 _).trans (pushok_sendRst _ _ _ _)
        · exact (e1 _).trans (pushok_dispatch _ _ _)
      · exact e1 _

theorem pushok_processTrailers (c : Conn x) (sid : Nat) (fs : List Field) (h : Script) : PushOk c (processTrailers c sid fs h).1 := by
  unfold processTrailers
  split
  · exact .refl _
  split
  · exact pushok_sendRst _ _ _ _
  · simp only []
    have e1 := PushOk.upd c sid
    split
    · exact (e1 _).trans (pushok_sendRst _ _ _ _)
    split
    · exact (e1 _).trans (pushok_sendRst _ _ _ _)
    split
    · exact (e1 _).trans (pushok_dispatch _ _ _)
    · exact e1 _

theorem pushok_creditStream (c : Conn x) (sid n : Nat) : PushOk c (creditStream c sid n) := by
  unfold creditStream
  split
  · exact .refl _
  · simp only []
    split
    · unfold sendWindowUpdate
      split
      · exact .upd _ _ _
      · exact (PushOk.emit _ (.windowUpdate sid _) rfl).trans (.upd _ _ _)
    · exact .upd _ _ _

theorem pushok_dataEnd (c : Conn x) (sid n : Nat) (h : Script) : PushOk c (dataEnd c sid n h) := by
  unfold dataEnd
  simp only []
  have e1 := ((PushOk.upd c sid (fun s => { s with endRecv := true })).trans (pushok_creditStream _ sid n)).trans (pushok_condConn _)
  refine e1.trans ?_
  split
  · exact .refl _
  split
  · exact pushok_sendRst _ _ _ _
  · generalize condConnUpdate (creditStream (c.upd sid (fun s => { s with endRecv := true })) sid n) = d
    rename_i s1 _ _
    have k : PushOk d (if s1.headersMain = true then dispatch d sid h else d) := by
      split
      · exact pushok_dispatch _ _ _
      · exact .refl _
    generalize (if s1.headersMain = true then dispatch d sid h else d) = d2 at *
    refine k.trans ?_
    split
    · exact .refl _
    split
    · exact (PushOk.upd _ _ _).trans (pushok_tryClose _ _)
    · exact .upd _ _ _

theorem pushok_shiftStream (c : Conn x) (delta : Int) (sid : Nat) : PushOk c (shiftStream c delta sid).1 := by
  unfold shiftStream
  split
  · exact .refl _
  split
  · simp only []
    split
    · exact ((PushOk.upd _ _ _).trans (pushok_sendRst _ _ _ _)).trans (pushok_goaway _ _)
    split
    · exact (PushOk.upd _ _ _).trans (pushok_trySend _ _)
    · exact .upd _ _ _
  · exact .refl _

theorem pushok_shiftLoop (delta : Int) (ids : List Nat) (c : Conn x) : PushOk c (shiftLoop delta ids c) := by
  induction ids generalizing c with
  | nil => exact .refl _
  | cons sid ids ih =>
    rw [shiftLoop]
    split
    · exact (pushok_shiftStream _ _ _).trans (ih _)
    · exact pushok_shiftStream _ _ _

theorem pushok_sendAll (ids : List Nat) (c : Conn x) : PushOk c (sendAll ids c) := by
  induction ids generalizing c with
  | nil => exact .refl _
  | cons sid ids ih =>
    rw [sendAll]
    split
    · exact ih _
    split
    · simp only []
      split
      · exact pushok_trySend _ _
      · exact (pushok_trySend _ _).trans (ih _)
    · exact ih _

theorem pushok_onWindowUpdate (c : Conn x) (sid inc : Nat) : PushOk c (onWindowUpdate c sid inc) := by
  unfold onWindowUpdate
  split
  · split
    · exact pushok_goaway _ _
    · exact pushok_sendRst _ _ _ _
  split
  · split
    · exact pushok_goaway _ _
    · simp only []
      refine PushOk.trans (b := { c with sendW := c.sendW + (inc : Int) }) ?_ (pushok_sendAll _ _)
      pushp
  split
  · split
    · exact pushok_goaway _ _
    · exact .refl _
  split
  · exact pushok_sendRst _ _ _ _
  split
  · split
    · exact pushok_sendRst _ _ _ _
    · exact .refl _
  split
  · exact pushok_sendRst _ _ _ _
  · simp only []
    split
    · exact (PushOk.upd _ _ _).trans (pushok_trySend _ _)
    · exact .upd _ _ _

theorem pushok_cleanup (c : Conn x) (e : SStream → Bool) : PushOk c (cleanup c e) := by
  unfold cleanup
  generalize x.order (c.streams.map (·.id)) = ids
  induction ids generalizing c with
  | nil => exact .refl _
  | cons sid ids ih =>
    rw [cleanupLoop]
    split
    · exact ih c
    · split
      · refine PushOk.trans ((pushok_sendRst c sid CANCEL true).trans ?_) (ih _)
        pushp
      · exact ih c

theorem pushok_onPreface (c : Conn x) : PushOk c (onPreface c) := by
  unfold onPreface
  split
  · exact .refl _
  split
  · exact .refl _
  · refine (PushOk.emit c .settings rfl).trans ?_
    pushp

theorem pushok_onPriority (c : Conn x) (sid : Nat) : PushOk c (onPriority c sid) := by
  unfold onPriority
  split
  · exact .refl _
  split
  · exact pushok_goaway _ _
  · exact .refl _

theorem pushok_onFramerError (c : Conn x) (code sid : Nat) : PushOk c (onFramerError c code sid) := by
  unfold onFramerError
  simp only []
  have e1 : PushOk c { c with ok := false } := by pushp
  split
  · exact e1.trans (pushok_sendRst _ _ _ _)
  · exact e1.trans (pushok_goaway _ _)

/-- The decoder and the assembly after a header block. -/
theorem processBlock_pushok (c : Conn x) (sid : Nat) (tr : Bool) (h : Script) :
    ∃ f, PushOk { c with dec := (x.decode c.dec c.frag).2, frag := f } (processBlock c sid tr h).1 := by
  unfold processBlock
  simp only []
  split
  · exact ⟨c.frag, pushok_sendRst _ _ _ _⟩
  · refine ⟨[], ?_⟩
    have e1 : PushOk ({ c with dec := (x.decode c.dec c.frag).2, frag := [] } : Conn x) ({ c with dec := (x.decode c.dec c.frag).2, frag := [] }.upd sid (fun s => { s with expecting := false })) := PushOk.upd _ _ _
    split
    · exact e1.trans (pushok_processHead _ _ _ _)
    · exact e1.trans (pushok_processTrailers _ _ _ _)


/-! ## Frames -/

theorem pushok_block (c : Conn x) (sid : Nat) (tr : Bool) (h : Script) : PushOk c (processBlock c sid tr h).1 := by
  obtain ⟨f, k⟩ := processBlock_pushok c sid tr h
  exact PushOk.trans (b := { c with dec := (x.decode c.dec c.frag).2, frag := f }) (.same rfl rfl) k

theorem pushok_clear (c : Conn x) : PushOk c (clearAssembly c) := .same rfl rfl

theorem pushok_headersEnd (c : Conn x) (sid : Nat) (tr : Bool) (h : Script) : PushOk c (headersEnd c sid tr h) := by
  unfold headersEnd
  simp only []
  refine PushOk.trans ?_ (pushok_clear _)
  have k := (PushOk.upd c sid (fun s => { s with expecting := false })).trans (pushok_block _ sid tr h)
  generalize processBlock (c.upd sid (fun s => { s with expecting := false })) sid tr h = r at *
  refine k.trans ?_
  split
  · exact .refl _
  · exact pushok_closeTail _ _

theorem pushok_mark (c : Conn x) (sid : Nat) (a b : Bool) : PushOk c (markHeaders c sid a b) := by
  unfold markHeaders
  simp only []
  split <;> exact .same rfl rfl

theorem pushok_headersOn (c : Conn x) (s : SStream) (frag : Bytes) (fin eh : Bool) (h : Script) : PushOk c (headersOn c s frag fin eh h) := by
  unfold headersOn
  simp only []
  split
  · exact (pushok_goaway _ _).trans (pushok_clear _)
  split
  · exact .refl _
  split
  · exact pushok_sendRst _ _ _ _
  have e1 : ∀ cs fr, PushOk c { c with ctl := 0, contCount := 0, curSid := cs, frag := fr } := fun _ _ => .same rfl rfl
  split
  · exact PushOk.trans (b := { c with ctl := 0, contCount := 0 }) (.same rfl rfl) (pushok_goaway _ _)
  split
  · exact (e1 _ _).trans (pushok_goaway _ _)
  split
  · exact ((e1 _ _).trans (pushok_mark _ _ _ _)).trans (pushok_headersEnd _ _ _ _)
  · exact ((e1 _ _).trans (pushok_mark _ _ _ _)).trans (.upd _ _ _)

theorem pushok_onHeaders (c : Conn x) (sid : Nat) (frag : Bytes) (fin eh : Bool) (h : Script) : PushOk c (onHeaders c sid frag fin eh h) := by
  unfold onHeaders
  split
  · exact .refl _
  split
  · exact pushok_goaway _ _
  split
  · exact pushok_goaway _ _
  split
  · split
    · exact pushok_sendRst _ _ _ _
    split
    · exact pushok_sendRst _ _ _ _
    split
    · exact pushok_sendRst _ _ _ _
    · exact PushOk.trans (b := { c with streams := c.streams ++ [{ id := sid, peerW := c.initPeer }], lastClient := max c.lastClient sid }) (.same rfl rfl)
        (pushok_headersOn _ _ _ _ _ _)
  · exact pushok_headersOn _ _ _ _ _ _

theorem pushok_onData (c : Conn x) (sid : Nat) (d : Bytes) (pad : Nat) (fin : Bool) (h : Script) : PushOk c (onData c sid d pad fin h) := by
  have less : ∀ (c : Conn x) n, PushOk c (recvLess c n) := fun c n => .same rfl rfl
  unfold onData
  simp only []
  split
  · exact .refl _
  split
  · exact pushok_goaway _ _
  split
  · exact pushok_goaway _ _
  split
  · unfold dataUnknown
    split
    · exact pushok_goaway _ _
    · exact ((less c _).trans (pushok_sendRst _ _ _ _)).trans (pushok_condConn _)
  split
  · have e := (less c (d.length + pad)).trans (pushok_condConn _)
    split
    · exact e.trans (pushok_sendRst _ _ _ _)
    · exact e
  split
  · exact ((pushok_sendRst c _ _ _).trans (less _ _)).trans (pushok_condConn _)
  split
  · exact ((pushok_sendRst c _ _ _).trans (less _ _)).trans (pushok_condConn _)
  · unfold dataAccept
    simp only []
    refine PushOk.trans (b := { c with recvW := c.recvW - ((d.length + pad : Nat) : Int), ctl := 0 }) (.same rfl rfl) ?_
    refine (PushOk.upd _ sid (fun s => { s with localW := s.localW - ((d.length + pad : Nat) : Int), req := { s.req with body := s.req.body ++ d } })).trans ?_
    split
    · exact .refl _
    split
    · exact pushok_sendRst _ _ _ _
    split
    · exact pushok_sendRst _ _ _ _
    split
    · exact pushok_dataEnd _ _ _ _
    · exact (pushok_creditStream _ _ _).trans (pushok_condConn _)

theorem pushok_contEnd (c : Conn x) (s : SStream) (h : Script) : PushOk c (continuationEnd c s h) := by
  unfold continuationEnd
  simp only []
  refine PushOk.trans ?_ (pushok_clear _)
  have k := (PushOk.upd c s.id (fun s => { s with expecting := false })).trans (pushok_block _ s.id s.headersMain h)
  generalize processBlock (c.upd s.id (fun s => { s with expecting := false })) s.id s.headersMain h = r at *
  refine k.trans ?_
  split
  · exact .refl _
  split
  · exact .refl _
  have e1 : PushOk r.1 (if s.headersMain = true then r.1.upd s.id (fun s => { s with trailersRecv := true }) else r.1) := by
    split
    · exact .upd _ _ _
    · exact .refl _
  generalize (if s.headersMain = true then r.1.upd s.id (fun s => { s with trailersRecv := true }) else r.1) = d1 at *
  refine (e1.trans (PushOk.upd _ s.id (fun s => { s with state := if s.endRecv then recvEnd s.state else s.state }))).trans ?_
  split
  · exact .refl _
  split
  · exact (pushok_dispatch _ _ _).trans (pushok_tryClose _ _)
  · exact .refl _

theorem pushok_onCont (c : Conn x) (sid : Nat) (frag : Bytes) (eh : Bool) (h : Script) : PushOk c (onContinuation c sid frag eh h) := by
  have g : ∀ (b : Conn x) code, PushOk b (clearAssembly (goaway b code)) := fun b code => (pushok_goaway _ _).trans (pushok_clear _)
  unfold onContinuation
  split
  · exact .refl _
  split
  · exact g _ _
  split
  · exact g _ _
  split
  · exact g _ _
  simp only []
  split
  · exact PushOk.trans (b := { c with contCount := c.contCount + 1 }) (.same rfl rfl) (g _ _)
  refine PushOk.trans (b := { c with contCount := c.contCount + 1, frag := c.frag ++ frag }) (.same rfl rfl) ?_
  split
  · exact g _ _
  split
  · exact pushok_contEnd _ _ _
  · exact .upd _ _ _

theorem pushok_onPing (c : Conn x) (sid : Nat) (ack : Bool) (p : Bytes) : PushOk c (onPing c sid ack p) := by
  unfold onPing
  split
  · exact .refl _
  split
  · exact pushok_goaway _ _
  split
  · exact .refl _
  simp only []
  refine PushOk.trans (b := { c with ctl := c.ctl + 1 }) (.same rfl rfl) ?_
  split
  · exact pushok_goaway _ _
  · exact .emit _ _ rfl

theorem pushok_onRst (c : Conn x) (sid code : Nat) : PushOk c (onRst c sid code) := by
  unfold onRst
  split
  · exact .refl _
  split
  · exact pushok_goaway _ _
  simp only []
  have hb : PushOk c (if sid ≤ c.lastClient then { c with rstCount := c.rstCount + 1 } else c) := by
    split <;> exact .same rfl rfl
  refine hb.trans ?_
  generalize (if sid ≤ c.lastClient then { c with rstCount := c.rstCount + 1 } else c) = b
  split
  · exact pushok_goaway _ _
  split
  · rename_i s _
    have e1 := PushOk.upd b sid (fun s => { s with rstRecv := true, err := code, state := .closed })
    have e2 := fun (q : Bool) => PushOk.ite (p := q = true)
      (PushOk.emit (b.upd sid (fun s => { s with rstRecv := true, err := code, state := .closed })) (.streamError sid code) rfl) (PushOk.refl _)
    exact (e1.trans (e2 ((!s.dispatched || !s.endSent) && code != NO_ERROR))).trans (pushok_tryClose _ _)
  · split
    · exact pushok_goaway _ _
    · exact .refl _

theorem pushok_onGoaway (c : Conn x) (last code : Nat) : PushOk c (onGoaway c last code) := by
  unfold onGoaway
  split
  · exact .refl _
  simp only []
  have g : ∀ (b : Conn x), PushOk b (goawayEnd b last code) := by
    intro b
    unfold goawayEnd
    split
    · exact .same rfl rfl
    split <;> exact .same rfl rfl
  refine PushOk.trans ?_ (g _)
  refine PushOk.app (.goawayEvent code last :: _) rfl (by show c.out ++ [_] ++ _ = _; rw [List.append_assoc]; rfl) ?_
  intro o ho
  rcases List.mem_cons.mp ho with h | h
  · subst h; rfl
  · obtain ⟨s, _, e⟩ := List.mem_map.mp h
    subst e; rfl

/-! ## SETTINGS -/

/-- The value of SETTINGS_ENABLE_PUSH after some entries. -/
def pushIn (v : Bool) : List (UInt16 × UInt32) → Bool
  | [] => v
  | (id, n) :: es => pushIn (if id = 2 then n == 1 else v) es

/-- SETTINGS_ENABLE_PUSH after some frames of the client; it is on at first. -/
def pushOn (v : Bool) : List Input → Bool
  | [] => v
  | .settings _ false es :: is => pushOn (pushIn v es) is
  | _ :: is => pushOn v is

theorem pushOn_append (v : Bool) (a b : List Input) : pushOn v (a ++ b) = pushOn (pushOn v a) b := by
  induction a generalizing v with
  | nil => rfl
  | cons i a ih =>
    cases i with
    | settings sid ack es => cases ack <;> exact ih _
    | _ => exact ih _

/-- No PUSH_PROMISE is written. -/
def NoPush (a b : Conn x) : Prop := ∀ s p d, Out.pushPromise s p d ∈ b.out → Out.pushPromise s p d ∈ a.out

theorem NoPush.trans {a b c : Conn x} (h : NoPush a b) (k : NoPush b c) : NoPush a c := fun s p d m => h s p d (k s p d m)

/-- SETTINGS makes the server write pending DATA, never PUSH_PROMISE: with push disabled this is `PushOk`, and the
setting does not matter for it. -/
theorem nopush_shiftStream (c : Conn x) (delta : Int) (sid : Nat) : NoPush c (shiftStream c delta sid).1 := by
  have tc : ∀ b : Conn x, NoPush b (tryClose b sid) := fun b s p d m => by
    have e : (tryClose b sid).out = b.out := by
      unfold tryClose
      split
      · rfl
      split
      · simp only []
        split
        · split <;> rfl
        · split <;> rfl
      · rfl
    rwa [e] at m
  have em : ∀ (b : Conn x) o, notPush o = true → NoPush b (b.emit o) := fun b o h s p d m => by
    rcases List.mem_append.mp m with m | m
    · exact m
    · simp only [List.mem_singleton] at m; subst m; cases h
  have sr : ∀ (b : Conn x) code, NoPush b (sendRst b sid code) := fun b code => by
    unfold sendRst
    split
    · exact fun _ _ _ m => m
    · simp only []
      refine (em b (.rst sid code) rfl).trans ?_
      split
      · exact fun _ _ _ m => m
      · rename_i s1 _
        have e1 : NoPush (b.emit (.rst sid code)) ((b.emit (.rst sid code)).upd sid (fun s => { s with state := .closed, rstSent := true, err := code })) := fun _ _ _ m => m
        refine e1.trans ?_
        generalize (b.emit (.rst sid code)).upd sid (fun s => { s with state := .closed, rstSent := true, err := code }) = d
        have e2 : ∀ q : Bool, NoPush d (if q = true then d.emit (.streamError sid code) else d) := fun q => by
          cases q
          · exact fun _ _ _ m => m
          · exact em _ _ rfl
        exact (e2 ((!s1.dispatched || !s1.endSent) && code != NO_ERROR)).trans (tc _)
  have ga : ∀ (b : Conn x) code, NoPush b (goaway b code) := fun b code s p d m => by
    unfold goaway at m
    split at m
    · exact m
    · have m : Out.pushPromise s p d ∈ b.out ++ [Out.goaway b.lastClient code] ++ [Out.goawayEvent code b.lastClient] := m
      simpa using m
  have fs : ∀ b : Conn x, NoPush b (finishSend b sid) := fun b => by
    unfold finishSend
    split
    · exact fun _ _ _ m => m
    · simp only []
      rename_i s1 _
      have e1 : ∀ q : Bool, NoPush b (if q = true then (b.emit (.headers sid [] true)).upd sid (fun s => { s with state := .halfClosedLocal, endSent := true, isTrailers := false }) else b) := fun q => by
        cases q
        · exact fun _ _ _ m => m
        · exact em b (.headers sid [] true) rfl
      refine (e1 (s1.offset == List.length s1.body && s1.isTrailers && !s1.endSent)).trans ?_
      generalize (if (s1.offset == List.length s1.body && s1.isTrailers && !s1.endSent) = true then _ else b) = d
      split
      · exact fun _ _ _ m => m
      · split
        · split
          · exact NoPush.trans (b := d.upd sid (fun s => { s with state := .closed })) (fun _ _ _ m => m) (tc _)
          · exact tc _
        · exact fun _ _ _ m => m
  have rp : ∀ (b : Conn x) q s, NoPush b (runPump b q s).1 := fun b q t s p d m => by
    unfold runPump at m
    have m : Out.pushPromise s p d ∈ b.out ++ _ := m
    rcases List.mem_append.mp m with m | m
    · exact m
    · have := push_pump _ _ _ _ _ _ m; cases this
  have ts : ∀ b : Conn x, NoPush b (trySend b sid) := fun b => by
    unfold trySend
    split
    · exact fun _ _ _ m => m
    split
    · exact fun _ _ _ m => m
    split
    · exact fun _ _ _ m => m
    split
    · simp only []
      split
      · exact rp _ _ _
      · rename_i t _ _ _ _
        exact NoPush.trans (rp b true t) (NoPush.trans (b := Conn.upd (runPump b true t).1 sid (fun s => { s with pending := if s.offset == s.body.length then false else s.pending })) (fun _ _ _ m => m) (fs _))
    · exact fs _
  unfold shiftStream
  split
  · exact fun _ _ _ m => m
  split
  · simp only []
    refine NoPush.trans (b := c.upd sid (fun s => { s with peerW := s.peerW + delta })) (fun _ _ _ m => m) ?_
    split
    · exact (sr _ _).trans (ga _ _)
    split
    · exact ts _
    · exact fun _ _ _ m => m
  · exact fun _ _ _ m => m

theorem nopush_shiftLoop (delta : Int) (ids : List Nat) (c : Conn x) : NoPush c (shiftLoop delta ids c) := by
  induction ids generalizing c with
  | nil => exact fun _ _ _ m => m
  | cons sid ids ih =>
    rw [shiftLoop]
    split
    · exact (nopush_shiftStream _ _ _).trans (ih _)
    · exact nopush_shiftStream _ _ _

theorem allow_applySetting (c : Conn x) (id : UInt16) (v : UInt32) :
    (applySetting c id v).allowPush = (if id = 2 then v == 1 else c.allowPush) ∧ NoPush c (applySetting c id v) := by
  unfold applySetting
  by_cases h1 : id = 1
  · subst h1; exact ⟨rfl, fun _ _ _ m => m⟩
  rw [if_neg (by simpa using h1)]
  by_cases h2 : id = 2
  · subst h2; exact ⟨rfl, fun _ _ _ m => m⟩
  rw [if_neg (by simpa using h2), if_neg h2]
  split
  · exact ⟨rfl, fun _ _ _ m => m⟩
  split
  · unfold updateInitial
    simp only []
    exact ⟨(pushok_shiftLoop _ _ _).allow, nopush_shiftLoop _ _ _⟩
  split
  · exact ⟨rfl, fun _ _ _ m => m⟩
  split
  · exact ⟨rfl, fun _ _ _ m => m⟩
  · exact ⟨rfl, fun _ _ _ m => m⟩

theorem nopush_goaway (b : Conn x) (code : Nat) : NoPush b (goaway b code) := fun s p d m => by
  unfold goaway at m
  split at m
  · exact m
  · have m : Out.pushPromise s p d ∈ b.out ++ [Out.goaway b.lastClient code] ++ [Out.goawayEvent code b.lastClient] := m
    simpa using m

theorem allow_settingsLoop (es : List (UInt16 × UInt32)) (c : Conn x) :
    NoPush c (settingsLoop es c).1 ∧ ((settingsLoop es c).2 = true → (settingsLoop es c).1.allowPush = pushIn c.allowPush es) ∧
    ((settingsLoop es c).2 = false → (settingsLoop es c).1.alive = false) := by
  induction es generalizing c with
  | nil => exact ⟨fun _ _ _ m => m, fun _ => rfl, fun h => by cases h⟩
  | cons e es ih =>
    obtain ⟨id, v⟩ := e
    rw [settingsLoop]
    split
    · exact ⟨nopush_goaway _ _, fun h => (nomatch h), fun _ => goaway_dead _ _⟩
    · obtain ⟨a1, a2⟩ := allow_applySetting c id v
      obtain ⟨b1, b2, b3⟩ := ih (applySetting c id v)
      refine ⟨a2.trans b1, fun h => ?_, b3⟩
      rw [b2 h, a1]; rfl

theorem allow_onSettings (c : Conn x) (sid : Nat) (ack : Bool) (es : List (UInt16 × UInt32)) :
    NoPush c (onSettings c sid ack es) ∧ ((onSettings c sid ack es).alive = true → (onSettings c sid ack es).allowPush = pushOn c.allowPush [.settings sid ack es]) := by
  have g : ∀ (b : Conn x) (code : Nat) v, NoPush b (goaway b code) ∧ ((goaway b code).alive = true → (goaway b code).allowPush = v) :=
    fun b code v => ⟨nopush_goaway _ _, fun h => by rw [goaway_dead] at h; cases h⟩
  unfold onSettings
  split
  · rename_i h
    refine ⟨fun _ _ _ m => m, fun ha => ?_⟩
    unfold Conn.alive at ha
    revert h ha
    cases c.ok <;> cases c.active <;> simp
  split
  · exact g _ _ _
  cases ack with
  | true =>
    simp only [if_true]
    split
    · exact ⟨fun _ _ _ m => m, fun _ => rfl⟩
    · exact g _ _ _
  | false =>
    simp only [Bool.false_eq_true, if_false]
    obtain ⟨b1, b2, b3⟩ := allow_settingsLoop es c
    split
    · rename_i h
      exact ⟨b1, fun ha => by rw [b3 (by simpa using h)] at ha; cases ha⟩
    · rename_i h
      split
      · exact ⟨NoPush.trans b1 (NoPush.trans (b := { (settingsLoop es c).1 with ctl := (settingsLoop es c).1.ctl + 1 }) (fun _ _ _ m => m) (nopush_goaway _ _)), (g _ _ _).2⟩
      · refine ⟨NoPush.trans b1 (fun s p d m => ?_), fun _ => b2 (by simpa using h)⟩
        have m : Out.pushPromise s p d ∈ (settingsLoop es c).1.out ++ [Out.settingsAck] := m
        simpa using m

/-- Every input: the setting is followed, and PUSH_PROMISE is written only if it allows it. -/
theorem push_step (c : Conn x) (i : Input) :
    ((step c i).alive = true → (step c i).allowPush = pushOn c.allowPush [i]) ∧
    (∀ s p d, Out.pushPromise s p d ∈ (step c i).out → Out.pushPromise s p d ∈ c.out ∨ (c.allowPush = true ∧ c.alive = true)) := by
  have k : PushOk c (step c i) → pushOn c.allowPush [i] = c.allowPush → 
    ((step c i).alive = true → (step c i).allowPush = pushOn c.allowPush [i]) ∧
    (∀ s p d, Out.pushPromise s p d ∈ (step c i).out → Out.pushPromise s p d ∈ c.out ∨ (c.allowPush = true ∧ c.alive = true)) := fun h e =>
    ⟨fun _ => by rw [e]; exact h.allow, h.push⟩
  cases i with
  | preface => exact k (pushok_onPreface _) rfl
  | data sid d pad fin h => exact k (pushok_onData _ _ _ _ _ _) rfl
  | headers sid frag fin eh h => exact k (pushok_onHeaders _ _ _ _ _ _) rfl
  | continuation sid frag eh h => exact k (pushok_onCont _ _ _ _ _) rfl
  | settings sid ack es =>
    obtain ⟨a, b⟩ := allow_onSettings c sid ack es
    exact ⟨b, fun s p d m => .inl (a s p d m)⟩
  | rst sid code => exact k (pushok_onRst _ _ _) rfl
  | goaway last code => exact k (pushok_onGoaway _ _ _) rfl
  | windowUpdate sid inc => exact k (pushok_onWindowUpdate _ _ _) rfl
  | ping sid ack p => exact k (pushok_onPing _ _ _ _) rfl
  | pushPromise => exact k (pushok_goaway _ _) rfl
  | priority sid => exact k (pushok_onPriority _ _) rfl
  | framerError code sid => exact k (pushok_onFramerError _ _ _) rfl
  | app a => exact k (pushok_act _ _) rfl
  | cleanup e => exact k (pushok_cleanup _ _) rfl

end Verif.Srv
