import Verif.Srv.TheoremsRequest

/-! # What only the frame handlers themselves change: counters, header assembly, the HPACK decoder -/

namespace Verif.Srv
open Verif.Stream

variable {x : Ext}

structure Kept (c c' : Conn x) : Prop where
  ctl : c'.ctl = c.ctl
  cont : c'.contCount = c.contCount
  frag : c'.frag = c.frag
  cur : c'.curSid = c.curSid
  rst : c'.rstCount = c.rstCount
  dec : c'.dec = c.dec
  rep : replies c'.out = replies c.out
  act : c'.active = true → c.active = true
  shut : c'.active = true → c'.shutdown = c.shutdown

theorem Kept.refl (c : Conn x) : Kept c c := ⟨rfl, rfl, rfl, rfl, rfl, rfl, rfl, id, fun _ => rfl⟩

theorem Kept.trans {a b c : Conn x} (h : Kept a b) (k : Kept b c) : Kept a c :=
  ⟨k.ctl.trans h.ctl, k.cont.trans h.cont, k.frag.trans h.frag, k.cur.trans h.cur, k.rst.trans h.rst, k.dec.trans h.dec, k.rep.trans h.rep,
    fun z => h.act (k.act z), fun z => (k.shut z).trans (h.shut (k.act z))⟩

theorem Kept.upd (c : Conn x) (sid : Nat) (f : SStream → SStream) : Kept c (c.upd sid f) := ⟨rfl, rfl, rfl, rfl, rfl, rfl, rfl, id, fun _ => rfl⟩

theorem Kept.emit (c : Conn x) (o : Out) (h : replies [o] = 0) : Kept c (c.emit o) :=
  ⟨rfl, rfl, rfl, rfl, rfl, rfl, by show replies (c.out ++ [o]) = _; rw [replies_append, h]; rfl, id, fun _ => rfl⟩

theorem Kept.ite {c a b : Conn x} {p : Prop} [Decidable p] (h1 : Kept c a) (h2 : Kept c b) : Kept c (if p then a else b) := by
  split
  · exact h1
  · exact h2

local macro "keptp" : tactic => `(tactic| exact ⟨rfl, rfl, rfl, rfl, rfl, rfl, rfl, id, fun _ => rfl⟩)

theorem kept_tryClose (c : Conn x) (sid : Nat) : Kept c (tryClose c sid) := by
  unfold tryClose
  split
  · exact .refl _
  · split
    · simp only []
      split
      · split
        · exact ⟨rfl, rfl, rfl, rfl, rfl, rfl, rfl, by simp, by simp⟩
        · keptp
      · split
        · exact ⟨rfl, rfl, rfl, rfl, rfl, rfl, rfl, by simp, by simp⟩
        · keptp
    · exact .refl _

theorem kept_tryCloseIf (c : Conn x) (sid : Nat) (b : Bool) : Kept c (if b then tryClose c sid else c) := by
  split
  · exact kept_tryClose _ _
  · exact .refl _

theorem kept_sendRst (c : Conn x) (sid code : Nat) (b : Bool) : Kept c (sendRst c sid code b) := by
  unfold sendRst
  split
  · exact .refl _
  · simp only []
    have e1 := Kept.emit c (.rst sid code) rfl
    split
    · exact e1
    · refine e1.trans ?_
      have e2 := Kept.upd (c.emit (.rst sid code)) sid (fun s => { s with state := .closed, rstSent := true, err := code })
      refine e2.trans ?_
      generalize Conn.upd (c.emit (.rst sid code)) sid (fun s => { s with state := .closed, rstSent := true, err := code }) = d
      have e3 := fun (q : Bool) => Kept.ite (p := q = true) (Kept.emit d (.streamError sid code) rfl) (Kept.refl d)
      rename_i s1 _
      exact (e3 ((!s1.dispatched || !s1.endSent) && code != NO_ERROR)).trans (kept_tryCloseIf _ _ _)

theorem kept_goaway (c : Conn x) (code : Nat) : Kept c (goaway c code) := by
  unfold goaway
  split
  · exact .refl _
  · refine ⟨rfl, rfl, rfl, rfl, rfl, rfl, ?_, by simp [Conn.emit], by simp [Conn.emit]⟩
    show replies (c.out ++ [_] ++ [_]) = _
    rw [replies_append, replies_append]; rfl

theorem kept_condConn (c : Conn x) : Kept c (condConnUpdate c) := by
  unfold condConnUpdate sendWindowUpdate
  split
  · simp only []
    split
    · split
      · keptp
      · refine (Kept.emit c (.windowUpdate 0 (65535 - c.recvW).toNat) rfl).trans ?_
        keptp
    · exact .refl _
  · exact .refl _

theorem replies_pump (b : Bool) (m n : Nat) (s : SStream) (w : Int) : replies (pump b m n s w).2.2.1 = 0 := by
  induction n generalizing s w with
  | zero => rfl
  | succ n ih =>
    rw [pump]
    split
    · split
      · rfl
      · simp only []
        split
        · rfl
        · split
          · rfl
          · exact ih _ _
    · rfl

theorem kept_runPump (c : Conn x) (b : Bool) (s : SStream) : Kept c (runPump c b s).1 := by
  unfold runPump
  refine ⟨rfl, rfl, rfl, rfl, rfl, rfl, ?_, id, fun _ => rfl⟩
  show replies (c.out ++ _) = _
  rw [replies_append, replies_pump]; rfl

theorem kept_finishSend (c : Conn x) (sid : Nat) : Kept c (finishSend c sid) := by
  unfold finishSend
  split
  · exact .refl _
  · simp only []
    have e1 := fun (c : Conn x) => (Kept.emit c (.headers sid [] true) rfl).trans (Kept.upd _ sid (fun s => { s with state := .halfClosedLocal, endSent := true, isTrailers := false }))
    have e3 := fun (q : Bool) => Kept.ite (p := q = true) (e1 c) (Kept.refl c)
    rename_i s1 _
    refine (e3 (s1.offset == List.length s1.body && s1.isTrailers && !s1.endSent)).trans ?_
    generalize (if (s1.offset == List.length s1.body && s1.isTrailers && !s1.endSent) = true then _ else c) = d
    split
    · exact .refl _
    · split
      · split
        · exact (Kept.upd _ _ _).trans (kept_tryClose _ _)
        · exact kept_tryClose _ _
      · exact .refl _

theorem kept_trySend (c : Conn x) (sid : Nat) : Kept c (trySend c sid) := by
  unfold trySend
  split
  · exact .refl _
  split
  · exact .refl _
  split
  · exact .refl _
  split
  · simp only []
    split
    · exact kept_runPump _ _ _
    · exact ((kept_runPump _ _ _).trans (Kept.upd _ _ _)).trans (kept_finishSend _ _)
  · exact kept_finishSend _ _

theorem kept_sendBody (c : Conn x) (sid : Nat) : Kept c (sendBody c sid) := by
  unfold sendBody
  split
  · exact .refl _
  · simp only []
    split
    · exact kept_runPump _ _ _
    · rename_i s0 _ _
      refine ((kept_runPump c false { s0 with isTrailers := s0.hasTrailer }).trans (Kept.upd _ sid (fun s => { s with pending := s.offset != s.body.length }))).trans ?_
      generalize Conn.upd (runPump c false { s0 with isTrailers := s0.hasTrailer }).1 sid (fun s => { s with pending := s.offset != s.body.length }) = d
      split
      · exact .refl _
      · split
        · have k := kept_trySend d sid
          generalize trySend d sid = d2 at *
          refine k.trans ?_
          split
          · exact .refl _
          · split
            · exact .upd _ _ _
            · exact .refl _
        · split
          · exact .upd _ _ _
          · exact .refl _

theorem kept_closeTail (c : Conn x) (sid : Nat) :
    Kept c (match c.find sid with
      | none => c
      | some s => if s.state == .closed then tryClose c sid else c) := by
  split
  · exact .refl _
  · split
    · exact kept_tryClose _ _
    · exact .refl _

theorem kept_sendHead (c : Conn x) (sid : Nat) (block : Bytes) (r : Response) : Kept c (sendHead c sid block r) := by
  unfold sendHead
  split
  · exact kept_sendRst _ _ _ _
  · simp only []
    have e1 := Kept.emit c (.headers sid block r.body.isEmpty) rfl
    split
    · exact (e1.trans (Kept.upd _ _ _)).trans (kept_closeTail _ _)
    · exact (e1.trans (kept_sendBody _ _)).trans (kept_closeTail _ _)

theorem kept_sendResponse (c : Conn x) (sid : Nat) (r : Response) : Kept c (sendResponse c sid r) := by
  unfold sendResponse
  split
  · exact .refl _
  · simp only []
    have e1 := Kept.upd c sid (fun s => { s with body := r.body, offset := 0, hasTrailer := (Verif.Wire.find r.headers b!"Trailer").isSome })
    refine e1.trans ?_
    split
    · exact kept_sendRst _ _ _ _
    split
    · exact .refl _
    split
    · exact kept_sendRst _ _ _ _
    split
    · exact kept_sendRst _ _ _ _
    · split
      · refine Kept.trans (b := { (c.upd sid (fun s => { s with body := r.body, offset := 0, hasTrailer := (Verif.Wire.find r.headers b!"Trailer").isSome })) with enc := _ }) ?_ (kept_goaway _ _)
        keptp
      · refine Kept.trans (b := { (c.upd sid (fun s => { s with body := r.body, offset := 0, hasTrailer := (Verif.Wire.find r.headers b!"Trailer").isSome })) with enc := _ }) ?_ (kept_sendHead _ _ _ _)
        keptp

theorem kept_sendPush (c : Conn x) (sid p : Nat) (f : Option (List Field)) : Kept c (sendPush c sid p f) := by
  unfold sendPush
  split
  · exact .refl _
  split
  · exact .refl _
  split
  · exact .refl _
  split
  · exact .refl _
  split
  · exact .refl _
  split
  · exact .refl _
  split
  · exact .refl _
  split
  · exact .refl _
  · simp only []
    split
    · keptp
    · refine ⟨rfl, rfl, rfl, rfl, rfl, rfl, ?_, id, fun _ => rfl⟩
      show replies (c.out ++ [_]) = _
      rw [replies_append]; rfl

theorem kept_act (c : Conn x) (a : Act) : Kept c (act c a) := by
  cases a with
  | respond sid r => exact kept_sendResponse _ _ _
  | reset sid code => exact kept_sendRst _ _ _ _
  | push sid p f => exact kept_sendPush _ _ _ _

theorem kept_acts (as : List Act) (c : Conn x) : Kept c (as.foldl act c) := by
  induction as generalizing c with
  | nil => exact .refl _
  | cons a as ih => exact (kept_act c a).trans (ih _)

theorem kept_dispatch (c : Conn x) (sid : Nat) (h : Script) : Kept c (dispatch c sid h) := by
  unfold dispatch
  split
  · exact .refl _
  rename_i s hs
  split
  · exact .refl _
  split
  · split
    · exact kept_sendRst _ _ _ _
    · simp only []
      have e1 := ((Kept.upd c sid (fun s => { s with dispatched := true })).trans (Kept.emit _ (.request sid s.req) rfl)).trans (kept_acts h.acts _)
      split
      · exact e1.trans (kept_sendRst _ _ _ _)
      · exact e1.trans (kept_closeTail _ _)
  · exact .refl _

theorem kept_processHead (c : Conn x) (sid : Nat) (fs : List Field) (h : Script) : Kept c (processHead c sid fs h).1 := by
  unfold processHead
  split
  · exact kept_sendRst _ _ _ _
  · simp only []
    have e1 := Kept.upd c sid
    split
    · exact e1 _
    · split
      · split
        · exact (e1 _).trans (kept_sendRst _ _ _ _)
        · exact (e1 _).trans (kept_dispatch _ _ _)
      · exact e1 _

theorem kept_processTrailers (c : Conn x) (sid : Nat) (fs : List Field) (h : Script) : Kept c (processTrailers c sid fs h).1 := by
  unfold processTrailers
  split
  · exact .refl _
  split
  · exact kept_sendRst _ _ _ _
  · simp only []
    have e1 := Kept.upd c sid
    split
    · exact (e1 _).trans (kept_sendRst _ _ _ _)
    split
    · exact (e1 _).trans (kept_sendRst _ _ _ _)
    split
    · exact (e1 _).trans (kept_dispatch _ _ _)
    · exact e1 _

theorem kept_creditStream (c : Conn x) (sid n : Nat) : Kept c (creditStream c sid n) := by
  unfold creditStream
  split
  · exact .refl _
  · simp only []
    split
    · unfold sendWindowUpdate
      split
      · exact .upd _ _ _
      · exact (Kept.emit _ (.windowUpdate sid _) rfl).trans (.upd _ _ _)
    · exact .upd _ _ _

theorem kept_dataEnd (c : Conn x) (sid n : Nat) (h : Script) : Kept c (dataEnd c sid n h) := by
  unfold dataEnd
  simp only []
  have e1 := ((Kept.upd c sid (fun s => { s with endRecv := true })).trans (kept_creditStream _ sid n)).trans (kept_condConn _)
  refine e1.trans ?_
  split
  · exact .refl _
  split
  · exact kept_sendRst _ _ _ _
  · generalize condConnUpdate (creditStream (c.upd sid (fun s => { s with endRecv := true })) sid n) = d
    rename_i s1 _ _
    have k : Kept d (if s1.headersMain = true then dispatch d sid h else d) := by
      split
      · exact kept_dispatch _ _ _
      · exact .refl _
    generalize (if s1.headersMain = true then dispatch d sid h else d) = d2 at *
    refine k.trans ?_
    split
    · exact .refl _
    split
    · exact (Kept.upd _ _ _).trans (kept_tryClose _ _)
    · exact .upd _ _ _

theorem kept_shiftStream (c : Conn x) (delta : Int) (sid : Nat) : Kept c (shiftStream c delta sid).1 := by
  unfold shiftStream
  split
  · exact .refl _
  split
  · simp only []
    split
    · exact ((Kept.upd _ _ _).trans (kept_sendRst _ _ _ _)).trans (kept_goaway _ _)
    split
    · exact (Kept.upd _ _ _).trans (kept_trySend _ _)
    · exact .upd _ _ _
  · exact .refl _

theorem kept_shiftLoop (delta : Int) (ids : List Nat) (c : Conn x) : Kept c (shiftLoop delta ids c) := by
  induction ids generalizing c with
  | nil => exact .refl _
  | cons sid ids ih =>
    rw [shiftLoop]
    split
    · exact (kept_shiftStream _ _ _).trans (ih _)
    · exact kept_shiftStream _ _ _

theorem kept_applySetting (c : Conn x) (id : UInt16) (v : UInt32) : Kept c (applySetting c id v) := by
  unfold applySetting
  split
  · keptp
  split
  · keptp
  split
  · keptp
  split
  · unfold updateInitial
    simp only []
    refine Kept.trans (b := { c with initPeer := v.toNat }) ?_ (kept_shiftLoop _ _ _)
    keptp
  split
  · keptp
  split
  · keptp
  · keptp

theorem kept_settingsLoop (es : List (UInt16 × UInt32)) (c : Conn x) : Kept c (settingsLoop es c).1 := by
  induction es generalizing c with
  | nil => exact .refl _
  | cons e es ih =>
    obtain ⟨id, v⟩ := e
    rw [settingsLoop]
    split
    · exact kept_goaway _ _
    · exact (kept_applySetting _ _ _).trans (ih _)

theorem kept_sendAll (ids : List Nat) (c : Conn x) : Kept c (sendAll ids c) := by
  induction ids generalizing c with
  | nil => exact .refl _
  | cons sid ids ih =>
    rw [sendAll]
    split
    · exact ih _
    split
    · simp only []
      split
      · exact kept_trySend _ _
      · exact (kept_trySend _ _).trans (ih _)
    · exact ih _

theorem kept_onWindowUpdate (c : Conn x) (sid inc : Nat) : Kept c (onWindowUpdate c sid inc) := by
  unfold onWindowUpdate
  split
  · split
    · exact kept_goaway _ _
    · exact kept_sendRst _ _ _ _
  split
  · split
    · exact kept_goaway _ _
    · simp only []
      refine Kept.trans (b := { c with sendW := c.sendW + (inc : Int) }) ?_ (kept_sendAll _ _)
      keptp
  split
  · split
    · exact kept_goaway _ _
    · exact .refl _
  split
  · exact kept_sendRst _ _ _ _
  split
  · split
    · exact kept_sendRst _ _ _ _
    · exact .refl _
  split
  · exact kept_sendRst _ _ _ _
  · simp only []
    split
    · exact (Kept.upd _ _ _).trans (kept_trySend _ _)
    · exact .upd _ _ _

theorem kept_cleanup (c : Conn x) (e : SStream → Bool) : Kept c (cleanup c e) := by
  unfold cleanup
  generalize x.order (c.streams.map (·.id)) = ids
  induction ids generalizing c with
  | nil => exact .refl _
  | cons sid ids ih =>
    rw [cleanupLoop]
    split
    · exact ih c
    · split
      · refine Kept.trans ((kept_sendRst c sid CANCEL true).trans ?_) (ih _)
        keptp
      · exact ih c

theorem kept_onPreface (c : Conn x) : Kept c (onPreface c) := by
  unfold onPreface
  split
  · exact .refl _
  split
  · exact .refl _
  · refine (Kept.emit c .settings rfl).trans ?_
    keptp

theorem kept_onPriority (c : Conn x) (sid : Nat) : Kept c (onPriority c sid) := by
  unfold onPriority
  split
  · exact .refl _
  split
  · exact kept_goaway _ _
  · exact .refl _

theorem kept_onFramerError (c : Conn x) (code sid : Nat) : Kept c (onFramerError c code sid) := by
  unfold onFramerError
  simp only []
  have e1 : Kept c { c with ok := false } := by keptp
  split
  · exact e1.trans (kept_sendRst _ _ _ _)
  · exact e1.trans (kept_goaway _ _)

/-- The decoder and the assembly after a header block. -/
theorem processBlock_kept (c : Conn x) (sid : Nat) (tr : Bool) (h : Script) :
    ∃ f, Kept { c with dec := (x.decode c.dec c.frag).2, frag := f } (processBlock c sid tr h).1 := by
  unfold processBlock
  simp only []
  split
  · exact ⟨c.frag, kept_sendRst _ _ _ _⟩
  · refine ⟨[], ?_⟩
    have e1 : Kept ({ c with dec := (x.decode c.dec c.frag).2, frag := [] } : Conn x) ({ c with dec := (x.decode c.dec c.frag).2, frag := [] }.upd sid (fun s => { s with expecting := false })) := Kept.upd _ _ _
    split
    · exact e1.trans (kept_processHead _ _ _ _)
    · exact e1.trans (kept_processTrailers _ _ _ _)

end Verif.Srv
