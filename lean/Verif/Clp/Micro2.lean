import Verif.Clp.Micro

/-! The functions of the model as small steps: requests, callbacks, responses. -/

namespace Verif.Clp
open Verif.Stream
variable {x : Ext}

theorem sendRequest_steps (c : Conn x) (p : Option In) (q : Req) : Steps c p (sendRequest c q) p := by
  unfold sendRequest
  split
  · exact .one (.note c p _ rfl (fun h => (by cases h)) fun _ _ h => (by cases h))
  · rename_i h
    simp only [Bool.or_eq_true, Bool.not_eq_true', not_or, Bool.not_eq_false, Bool.not_eq_true] at h
    split
    · exact .one (.note c p _ rfl (fun h => (by cases h)) fun _ _ h => (by cases h))
    · rename_i hm
      generalize he : x.encode c.enc (requestFields q) = e
      obtain ⟨e1, e2⟩ := e
      cases e1 with
      | none =>
        refine .cons (.burn c p e2) ((goaway_steps _ p INTERNAL_ERROR).trans ?_)
        exact .one (.note _ p _ rfl (fun h => (by cases h)) fun _ _ h => (by cases h))
      | some block =>
        have m := Micro.opens c p q block e2 h.1.1 h.1.2 h.2 (by omega)
        show Steps c p (if (newStream { c with next := c.next + 2, lastInit := c.next, enc := e2 } q (q.body.isEmpty && !announces q.headers)).pending then _ else _) p
        split
        · refine .cons m (Steps.trans (sendBody_steps _ p c.next _ ?_ ?_ ?_) (tryClose_steps _ p _))
          · exact if_pos rfl
          · exact h.1.1
          · exact h.1.2
        · exact .one m

theorem sends_steps (p : Option In) : ∀ (qs : List Req) (c : Conn x), Steps c p (qs.foldl sendRequest c) p
  | [], c => .refl _ _
  | q :: qs, c => (sendRequest_steps c p q).trans (sends_steps p qs _)

theorem sendRst_steps (c : Conn x) (p : Option In) (sid code : Nat) : Steps c p (sendRst c sid code) p := by
  unfold sendRst
  split
  · exact .refl _ _
  · rename_i h
    simp only [Bool.or_eq_true, Bool.not_eq_true', not_or, Bool.not_eq_false] at h
    dsimp only
    cases hs : c.get sid with
    | none =>
      rw [show (c.add (.rst sid code)).get sid = none from hs]
      exact .one (.note c p (.rst sid code) rfl (fun _ => h.1) fun j k e => (by cases e; exact hs))
    | some s =>
      rw [show (c.add (.rst sid code)).get sid = some s from hs]
      dsimp only
      cases hd : s.dispatched with
      | true => exact .one (.cutDone c p sid s code hs hd h.1)
      | false => exact .cons (.cut c p sid s code hs hd h.1) (sends_steps p _ _)

theorem sendTrailers_steps (c : Conn x) (sid : Nat) (hs : Verif.Wire.Headers) : Steps c none (sendTrailers c sid hs) none := by
  unfold sendTrailers
  split
  · exact .refl _ _
  · rename_i s hg
    split
    · exact .refl _ _
    · rename_i he
      split
      · exact sendRst_steps _ _ _ _
      · rename_i hw
        split
        · exact sendRst_steps _ _ _ _
        · generalize x.encode c.enc (hs.flatMap fun h => h.2.map fun v => (h.1, v)) = e
          obtain ⟨e1, e2⟩ := e
          refine .cons (.misc c none c.frag c.curSid c.contCount c.need c.dec e2) ?_
          cases e1 with
          | none => exact sendRst_steps _ _ _ _
          | some block =>
            refine .cons (.apiTrailers _ sid s block hg (by simpa using he) (by simpa using hw)) ?_
            exact tryClose_steps _ _ _

theorem sendOwnTrailers_steps (c : Conn x) (p : Option In) (sid : Nat) (s : CStream) (hg : c.get sid = some s) (hp : s.pending = false) (ho : c.ok = true) (ha : c.active = true) :
    Steps c p (sendOwnTrailers c sid s) p := by
  unfold sendOwnTrailers
  split
  · rename_i h
    simp only [Bool.and_eq_true, Bool.not_eq_true'] at h
    dsimp only
    generalize x.encode c.enc (ownTrailers s) = e
    obtain ⟨e1, e2⟩ := e
    dsimp only
    split
    · exact .one (.ownTrailers c p sid s [] hg h.2 h.1 hp ho ha)
    · refine .cons (.misc c p c.frag c.curSid c.contCount c.need c.dec e2) ?_
      cases e1 with
      | none => exact sendRst_steps _ _ _ _
      | some block =>
        refine .one (.ownTrailers _ p sid s block ?_ h.2 h.1 hp ?_ ?_)
        · exact hg
        · exact ho
        · exact ha
  · exact .refl _ _

theorem sendBody_up (c : Conn x) (sid : Nat) (s : CStream) : (sendBody c sid s).ok = c.ok ∧ (sendBody c sid s).active = c.active := by
  unfold sendBody
  split <;> exact ⟨rfl, rfl⟩

theorem trySend_steps (c : Conn x) (p : Option In) (sid : Nat) : Steps c p (trySend c sid) p := by
  unfold trySend
  split
  · exact .refl _ _
  · rename_i h
    simp only [Bool.or_eq_true, Bool.not_eq_true', not_or, Bool.not_eq_false] at h
    split
    · exact .refl _ _
    · rename_i s hs
      split
      · exact .refl _ _
      · have h1 : Steps c p (if s.pending then sendBody c sid s else c) p := by
          split
          · exact sendBody_steps c p sid s hs h.1 h.2
          · exact .refl _ _
        have h2 : (if s.pending then sendBody c sid s else c).ok = true ∧ (if s.pending then sendBody c sid s else c).active = true := by
          split
          · rw [(sendBody_up c sid s).1, (sendBody_up c sid s).2]; exact h
          · exact h
        dsimp only
        refine h1.trans ?_
        generalize (if s.pending then sendBody c sid s else c) = c1 at *
        split
        · exact .refl _ _
        · rename_i s2 hs2
          split
          · exact .refl _ _
          · rename_i hp
            exact (sendOwnTrailers_steps _ p sid s2 hs2 (by simpa using hp) h2.1 h2.2).trans (tryClose_steps _ p sid)

theorem tryClose_done (c : Conn x) (sid : Nat) (s : CStream) : tryClose ({ c with ctl := 0 }.put sid (some s.done)) sid = { c.put sid s.after with ctl := 0 } := by
  unfold tryClose
  simp only [put_get, if_true]
  unfold CStream.after
  split
  · rw [put_put]; rfl
  · rfl

theorem complete_steps (c : Conn x) (p : Option In) (sid : Nat) (ho : c.ok = true) (hp : ∀ sid d pad fin, p ≠ some (.data sid d pad fin)) : Steps c p (complete c sid) p := by
  unfold complete
  split
  · exact .refl _ _
  · rename_i s hs
    split
    · exact .refl _ _
    · rename_i h
      split
      · exact sendRst_steps _ _ _ _
      · rename_i he
        rw [tryClose_done]
        simp only [Bool.or_eq_true, Bool.not_eq_true', not_or, Bool.not_eq_true, Bool.not_eq_false, Bool.and_eq_true, not_and, Bool.or_eq_false_iff] at h he
        refine .cons (.dispatch c p sid s hs h.1.1.1 h.1.1.2 ?_ ?_ ho hp ?_) (sends_steps p _ _)
        · have := h.1.2
          cases h1 : s.endRecv <;> cases h2 : s.rstRecv <;> simp_all
        · intro ht
          have := h.2
          cases h1 : s.trailersRecv <;> cases h2 : s.rstRecv <;> simp_all
        · exact he

theorem condConnUpdate_steps (c : Conn x) (p : Option In) : Steps c p (condConnUpdate c) p := by
  unfold condConnUpdate
  split
  · exact .refl _ _
  · rename_i h
    split
    · rename_i hp
      exact .one (.wu0 c p (by simpa using h) hp)
    · exact .refl _ _

theorem creditStream_steps (c : Conn x) (p : Option In) (sid : Nat) (h0 : sid ≠ 0) (ho : c.ok = true) : Steps c p (creditStream c sid) p := by
  unfold creditStream
  split
  · exact .refl _ _
  · rename_i s hs
    split
    · rename_i hp
      exact .one (.wuS c p sid s hs h0 ho hp)
    · exact .refl _ _

theorem credit_ok (c : Conn x) (sid : Nat) : (condConnUpdate (creditStream c sid)).ok = c.ok := by
  have h1 : (creditStream c sid).ok = c.ok := by
    unfold creditStream
    split
    · rfl
    · split <;> rfl
  rw [← h1]
  unfold condConnUpdate
  split
  · rfl
  · split <;> rfl

theorem dataEnd_steps (c : Conn x) (sid : Nat) (h0 : sid ≠ 0) (ho : c.ok = true) : Steps c none (dataEnd c sid) none := by
  unfold dataEnd
  refine ((creditStream_steps c none sid h0 ho).trans (condConnUpdate_steps _ none)).trans ?_
  have ho1 : (condConnUpdate (creditStream c sid)).ok = true := by rw [credit_ok]; exact ho
  generalize condConnUpdate (creditStream c sid) = c1 at *
  dsimp only
  split
  · exact .refl _ _
  · rename_i s hs
    split
    · exact sendRst_steps _ _ _ _
    · have h1 : Steps c1 none (if !s.trailersExp then complete c1 sid else c1) none := by
        split
        · exact complete_steps _ _ _ ho1 fun _ _ _ _ h => (by cases h)
        · exact .refl _ _
      refine h1.trans ?_
      generalize (if !s.trailersExp then complete c1 sid else c1) = c2
      split
      · exact .refl _ _
      · split
        · exact tryClose_steps _ _ _
        · exact .refl _ _

/-! ### Simple invariants -/

theorem mono_log {c c' : Conn x} {p p' : Option In} (h : Steps c p c' p') (e : Ev) : e ∈ c.log → e ∈ c'.log := by
  refine h.ind (I := fun c _ => e ∈ c.log) ?_
  intro c p c' p' m i
  cases m <;> first | exact i | exact List.mem_cons_of_mem _ i | exact List.mem_cons_of_mem _ (List.mem_cons_of_mem _ i)

/-- Once closed, always closed. -/
theorem stays_down {c c' : Conn x} {p p' : Option In} (h : Steps c p c' p') : c.ok = false → c'.ok = false := by
  refine h.ind (I := fun c _ => c.ok = false) ?_
  intro c p c' p' m i
  cases m <;> first | exact i | rfl

/-- Identifiers of streams are odd and were given out. -/
structure Wf (c : Conn x) : Prop where
  keys : ∀ j s, c.get j = some s → j < c.next ∧ j % 2 = 1
  odd : c.next % 2 = 1
  last : c.lastInit < c.next

theorem Wf.put {c : Conn x} (h : Wf c) (sid : Nat) (s : CStream) (o : Option CStream) (hs : c.get sid = some s) : Wf (c.put sid o) := by
  refine ⟨fun j t ht => ?_, h.odd, h.last⟩
  simp only [put_get] at ht
  split at ht
  · rename_i e; rw [e]; exact h.keys _ _ hs
  · exact h.keys _ _ ht

theorem wf_micro {c c' : Conn x} {p p' : Option In} (m : Micro c p c' p') (i : Wf c) : Wf c' := by
  cases m
  case burn e => exact ⟨fun j s hs => by have := i.keys j s hs; exact ⟨by show j < c.next + 2; omega, this.2⟩, by have := i.odd; show (c.next + 2) % 2 = 1; omega, by show c.next < c.next + 2; omega⟩
  case opens q block e _ _ _ _ =>
    refine ⟨fun j s hs => ?_, by have := i.odd; show (c.next + 2) % 2 = 1; omega, by show c.next < c.next + 2; omega⟩
    rw [put_get] at hs
    split at hs
    · rename_i h; rw [h]; exact ⟨by show c.next < c.next + 2; omega, i.odd⟩
    · have := i.keys j s hs; exact ⟨by show j < c.next + 2; omega, this.2⟩
  case shift v es _ =>
    refine ⟨fun j s hs => ?_, i.odd, i.last⟩
    simp only [Option.map_eq_some_iff] at hs
    obtain ⟨s', h, _⟩ := hs
    exact i.keys j s' h
  case chunk sid s k fin hs _ _ _ _ _ _ _ _ => have := i.put sid s (some (s.sent k fin)) hs; exact ⟨this.keys, this.odd, this.last⟩
  case accept sid s d pad fin hs _ _ _ => have := i.put sid s (some (s.accept (d.length + pad) d)) hs; exact ⟨this.keys, this.odd, this.last⟩
  case ownTrailers sid s block hs _ _ _ _ _ => have := i.put sid s (some { s with endSent := true, state := .halfClosedLocal, will := false }) hs; exact ⟨this.keys, this.odd, this.last⟩
  case apiTrailers sid s block hs _ _ => have := i.put sid s (some { s with endSent := true, state := sendEnd s.state }) hs; exact ⟨this.keys, this.odd, this.last⟩
  case creditS sid s inc _ hs => exact i.put sid s _ hs
  case wuS sid s hs _ _ _ => have := i.put sid s (some { s with localW := s.localW + (s.processed : Int), processed := 0 }) hs; exact ⟨this.keys, this.odd, this.last⟩
  case mark sid s s' hs _ => exact i.put sid s _ hs
  case told sid s code hs _ _ _ => have := i.put sid s none hs; exact ⟨this.keys, this.odd, this.last⟩
  case forget sid s hs _ _ => exact i.put sid s _ hs
  case cut sid s code hs _ _ => have := i.put sid s none hs; exact ⟨this.keys, this.odd, this.last⟩
  case cutDone sid s code hs _ _ => have := i.put sid s none hs; exact ⟨this.keys, this.odd, this.last⟩
  case lose sid s hs _ _ => exact i.put sid s _ hs
  case dispatch sid s hs _ _ _ _ _ _ _ => have := i.put sid s s.after hs; exact ⟨this.keys, this.odd, this.last⟩
  all_goals exact ⟨i.keys, i.odd, i.last⟩

theorem Wf.steps {c c' : Conn x} {p p' : Option In} (i : Wf c) (h : Steps c p c' p') : Wf c' := h.ind (I := fun c _ => Wf c) (fun _ _ _ _ m i => wf_micro m i) i

/-- A stream that is gone, for good. -/
def Gone (j : Nat) (c : Conn x) : Prop := c.get j = none ∧ j < c.next

theorem gone_put {c : Conn x} {j : Nat} (h : c.get j = none) (sid : Nat) (s : CStream) (o : Option CStream) (hs : c.get sid = some s) : (c.put sid o).get j = none := by
  rw [put_get]
  split
  · rename_i e; rw [← e, h] at hs; cases hs
  · exact h

theorem gone_micro {c c' : Conn x} {p p' : Option In} (j : Nat) (m : Micro c p c' p') (i : Gone j c) : Gone j c' := by
  obtain ⟨i, n⟩ := i
  cases m
  case burn e => exact ⟨i, by show j < c.next + 2; omega⟩
  case opens q block e _ _ _ _ =>
    refine ⟨?_, by show j < c.next + 2; omega⟩
    rw [put_get]
    split
    · omega
    · exact i
  case shift v es _ => exact ⟨by simp [i], n⟩
  case chunk sid s k fin hs _ _ _ _ _ _ _ _ => exact ⟨gone_put i sid s _ hs, n⟩
  case accept sid s d pad fin hs _ _ _ => exact ⟨gone_put (c := c) i sid s (some (s.accept (d.length + pad) d)) hs, n⟩
  case ownTrailers sid s block hs _ _ _ _ _ => exact ⟨gone_put (c := c) i sid s _ hs, n⟩
  case apiTrailers sid s block hs _ _ => exact ⟨gone_put (c := c) i sid s _ hs, n⟩
  case creditS sid s inc _ hs => exact ⟨gone_put i sid s _ hs, n⟩
  case wuS sid s hs _ _ _ => exact ⟨gone_put (c := c) i sid s _ hs, n⟩
  case mark sid s s' hs _ => exact ⟨gone_put i sid s _ hs, n⟩
  case told sid s code hs _ _ _ => exact ⟨gone_put (c := c) i sid s none hs, n⟩
  case forget sid s hs _ _ => exact ⟨gone_put i sid s _ hs, n⟩
  case cut sid s code hs _ _ => exact ⟨gone_put (c := c) i sid s none hs, n⟩
  case cutDone sid s code hs _ _ => exact ⟨gone_put (c := c) i sid s none hs, n⟩
  case lose sid s hs _ _ => exact ⟨gone_put i sid s _ hs, n⟩
  case dispatch sid s hs _ _ _ _ _ _ _ => exact ⟨gone_put (c := c) i sid s s.after hs, n⟩
  all_goals exact ⟨i, n⟩

theorem Gone.steps {c c' : Conn x} {p p' : Option In} {j : Nat} (i : Gone j c) (h : Steps c p c' p') : Gone j c' := h.ind (I := fun c _ => Gone j c) (fun _ _ _ _ m i => gone_micro j m i) i

/-- A stream that is reset is gone. -/
theorem sendRst_gone (c : Conn x) (sid code : Nat) (hn : sid < c.next) (h0 : sid ≠ 0) (ho : c.ok = true) : Gone sid (sendRst c sid code) := by
  unfold sendRst
  split
  · rename_i h
    simp [ho, h0] at h
  · show Gone sid (match (c.add (.rst sid code)).get sid with | none => _ | some s => _)
    split
    · rename_i h; exact ⟨h, hn⟩
    · rename_i s hs
      have g : Gone sid ((c.add (.rst sid code)).put sid none) := ⟨by simp, hn⟩
      split
      · have g2 : Gone sid (((c.add (.rst sid code)).put sid none).add (.streamError sid code)) := g
        exact g2.steps (sends_steps none _ _)
      · exact g

end Verif.Clp
