import Verif.Clp.Micro2

/-! The functions of the model as small steps: the frames. -/

namespace Verif.Clp
open Verif.Stream
variable {x : Ext}

theorem dataUnknown_steps (c : Conn x) (sid : Nat) (d : Bytes) (pad : Nat) (fin : Bool) (hg : c.get sid = none) : Steps c (some (.data sid d pad fin)) (dataUnknown c sid (d.length + pad)) none := by
  unfold dataUnknown
  by_cases h : sid % 2 = 0
  · simp only [h, beq_self_eq_true, if_true]
    refine (sendRst_steps c _ sid STREAM_CLOSED).trans (.cons (.debit _ sid d pad fin ?_) (condConnUpdate_steps _ _))
    intro _
    refine ⟨?_, fun ho => by omega⟩
    unfold sendRst
    split
    · exact hg
    · show (match (c.add (.rst sid STREAM_CLOSED)).get sid with | none => _ | some s => _ : Conn x).get sid = none
      rw [show (c.add (.rst sid STREAM_CLOSED)).get sid = none from hg]
      exact hg
  · have : (sid % 2 == 0) = false := by simp [h]
    simp only [this, Bool.false_eq_true, if_false]
    refine (goaway_steps c _ PROTOCOL_ERROR).trans (.cons (.debit _ sid d pad fin ?_) (condConnUpdate_steps _ _))
    intro ho
    rw [goaway_ok] at ho; cases ho

theorem drop_down {c : Conn x} {p : Option In} {c' : Conn x} (i : In) (h : Steps c p c' (some i)) (ho : c'.ok = false) : Steps c p c' none := by
  refine h.snoc (.drop c' i ?_)
  cases i <;> first | trivial | (intro h; rw [ho] at h; cases h)

theorem onData_steps (c : Conn x) (sid : Nat) (d : Bytes) (pad : Nat) (fin : Bool) (w : Wf c) (ho : c.ok = true) (hl : Ev.rx (.data sid d pad fin) ∈ c.log) :
    Steps c (some (.data sid d pad fin)) (onData c sid d pad fin) none := by
  unfold onData
  dsimp only
  split
  · rename_i h; exact dataUnknown_steps c sid d pad fin h
  · rename_i s hs
    have hk := w.keys sid s hs
    have h0 : sid ≠ 0 := by omega
    split
    · exact drop_down _ (goaway_steps c _ STREAM_CLOSED) (goaway_ok _ _)
    · split
      · have g := sendRst_gone c sid STREAM_CLOSED hk.1 h0 ho
        exact (sendRst_steps c _ sid STREAM_CLOSED).snoc (.drop _ _ fun _ => ⟨g.1, fun _ => g.2⟩)
      · rename_i hst
        split
        · exact drop_down _ ((sendRst_steps c _ sid FLOW_CONTROL_ERROR).trans (goaway_steps _ _ FLOW_CONTROL_ERROR)) (goaway_ok _ _)
        · rename_i hlw
          split
          · exact drop_down _ (goaway_steps c _ FLOW_CONTROL_ERROR) (goaway_ok _ _)
          · rename_i hrw
            have hst' : s.state = .open_ ∨ s.state = .halfClosedLocal := by
              cases hs : s.state <;> simp_all
            have m := Micro.accept c sid s d pad fin hs (by omega) (by omega) hst'
            refine .cons m ?_
            generalize hc1 : ({ (debit c (d.length + pad)).put sid (some (s.accept (d.length + pad) d)) with ctl := 0 } : Conn x) = c1
            have g1 : c1.get sid = some (s.accept (d.length + pad) d) := by rw [← hc1]; exact if_pos rfl
            have o1 : c1.ok = true := by rw [← hc1]; exact ho
            have l1 : c1.log = c.log := by rw [← hc1]; rfl
            split
            · exact sendRst_steps _ _ _ _
            · split
              · exact sendRst_steps _ _ _ _
              · split
                · rename_i hf
                  refine .cons (.mark c1 none sid _ (s.accept (d.length + pad) d).ended g1 ?_) (dataEnd_steps _ sid h0 ?_)
                  · refine ⟨rfl, rfl, rfl, rfl, rfl, rfl, rfl, rfl, rfl, rfl, .inl rfl, fun _ => .inr (.inl ⟨d, pad, ?_⟩), fun _ => rfl, .inl, fun h => ?_, fun h => ?_, fun h => ?_, .inl ⟨rfl, rfl⟩, .inl, fun _ => .inr rfl⟩
                    · rw [l1, ← hf]; exact hl
                    · rcases hst' with e | e
                      · simp [CStream.ended, CStream.accept, e, recvEnd] at h
                      · exact .inr (.inr ⟨rfl, .inr e⟩)
                    · rcases hst' with e | e <;> simp [CStream.ended, CStream.accept, e, recvEnd] at h
                    · rcases hst' with e | e <;> simp [CStream.ended, CStream.accept, e, recvEnd] at h
                  · exact o1
                · exact (creditStream_steps c1 none sid h0 o1).trans (condConnUpdate_steps _ _)

theorem respBlock_body (s : CStream) (t : Bool) (fs : List Field) (r : Resp) (cl : Option Nat) (h : respBlock s t fs = .ok (r, cl)) : r.body = s.resp.body := by
  unfold respBlock at h
  (repeat' split at h) <;> first | (cases h; rfl) | cases h

theorem clear_steps (c : Conn x) (p : Option In) : Steps c p (clear c) p := .one (.misc c p [] 0 0 c.need c.dec c.enc)

theorem takeBlock_steps (c : Conn x) (p : Option In) (sid : Nat) (s0 s : CStream) (ended : Bool) (hs : c.get sid = some s0) (h : s = s0 ∨ s = { s0 with expecting := false }) :
    Steps c p (takeBlock c sid s ended).1 p ∧ ((takeBlock c sid s ended).2 = true → (takeBlock c sid s ended).1.ok = c.ok ∧ ∀ t, (takeBlock c sid s ended).1.get sid = some t → t.main = true) := by
  unfold takeBlock
  dsimp only
  generalize x.decode c.dec c.frag = d
  obtain ⟨d1, d2⟩ := d
  have h1 : Steps c p { c with dec := d2 } p := .one (.misc c p c.frag c.curSid c.contCount c.need d2 c.enc)
  cases d1 with
  | none => exact ⟨h1.trans ((sendRst_steps _ p sid _).trans ((goaway_steps _ p _).trans (clear_steps _ p))), fun h => (by cases h)⟩
  | some fs =>
    have h2 := h1.trans (clear_steps _ p)
    dsimp only
    cases hb : respBlock s s.main fs with
    | error e => exact ⟨h2.trans (sendRst_steps _ p sid _), fun h => (by cases h)⟩
    | ok r =>
      obtain ⟨r, cl⟩ := r
      have e1 : respBlock s0 s0.main fs = .ok (r, cl) := by rcases h with h | h <;> (rw [h] at hb; exact hb)
      have bd := respBlock_body _ _ _ _ _ e1
      refine ⟨h2.snoc (.mark _ p sid s0 _ hs ?_), fun _ => ⟨rfl, fun t ht => ?_⟩⟩
      · unfold CStream.block
        rcases h with h | h <;> rw [h] <;> dsimp only <;> split <;> rename_i hm
        · exact ⟨rfl, rfl, rfl, rfl, rfl, rfl, rfl, rfl, rfl, bd, .inl rfl, .inl, id, .inl, .inl, id, id, .inr ⟨fs, e1⟩, fun _ => .inl hm, .inl⟩
        · exact ⟨rfl, rfl, rfl, rfl, rfl, rfl, rfl, rfl, rfl, bd, .inl rfl, .inl, id, .inl, .inl, id, id, .inr ⟨fs, e1⟩, fun _ => .inr ⟨fs, by simpa [hm] using e1⟩, .inl⟩
        · exact ⟨rfl, rfl, rfl, rfl, rfl, rfl, rfl, rfl, rfl, bd, .inl rfl, .inl, id, .inl, .inl, id, id, .inr ⟨fs, e1⟩, fun _ => .inl hm, .inl⟩
        · exact ⟨rfl, rfl, rfl, rfl, rfl, rfl, rfl, rfl, rfl, bd, .inl rfl, .inl, id, .inl, .inl, id, id, .inr ⟨fs, e1⟩, fun _ => .inr ⟨fs, by simpa [hm] using e1⟩, .inl⟩
      · simp only [put_get, if_true, Option.some.injEq] at ht
        rw [← ht]
        unfold CStream.block
        dsimp only
        split
        · rename_i hm; exact hm
        · rfl

theorem headersEnd_steps (c : Conn x) (sid : Nat) (fin eh : Bool) (ho : c.ok = true) (hm : eh = true → ∀ s, c.get sid = some s → s.main = true) (hl : fin = true → Ended sid c.log) :
    Steps c none (headersEnd c sid fin eh) none := by
  unfold headersEnd
  split
  · exact .refl _ _
  · rename_i s hs
    split
    · rename_i hf
      refine .cons (.mark c none sid s _ hs ?_) (complete_steps _ none sid ho fun _ _ _ _ h => (by cases h))
      refine ⟨rfl, rfl, rfl, rfl, rfl, rfl, rfl, rfl, rfl, rfl, .inl rfl, fun _ => .inr (hl hf), fun _ => rfl, .inl, fun h => ?_, fun h => ?_, fun h => ?_, .inl ⟨rfl, rfl⟩, fun h => ?_, fun _ => .inr rfl⟩
      · simp only [CStream.endHead] at h
        split at h
        · rename_i e; exact .inr (.inr ⟨rfl, .inl e⟩)
        · split at h
          · cases h
          · exact .inl h
      · simp only [CStream.endHead] at h
        split at h
        · cases h
        · split at h
          · cases h
          · exact h
      · simp only [CStream.endHead] at h
        split at h
        · cases h
        · split at h
          · cases h
          · exact h
      · left
        simp only [CStream.endHead, Bool.or_eq_true] at h
        rcases h with h | h
        · exact h
        · exact hm h s hs
    · exact complete_steps _ none sid ho fun _ _ _ _ h => (by cases h)

theorem headersOn_steps (c : Conn x) (ho : c.ok = true) (sid : Nat) (s : CStream) (frag : Bytes) (fin eh : Bool) (hs : c.get sid = some s) (hl : fin = true → Ended sid c.log) :
    Steps c none (headersOn c sid s frag fin eh) none := by
  unfold headersOn
  split
  · exact sendRst_steps _ _ _ _
  · split
    · exact sendRst_steps _ _ _ _
    · split
      · exact (sendRst_steps _ _ _ _).trans (goaway_steps _ _ _)
      · have m : Steps c none { c with curSid := sid, frag := c.frag ++ frag } none := .one (.misc c none (c.frag ++ frag) sid c.contCount c.need c.dec c.enc)
        refine m.trans ?_
        generalize hc1 : ({ c with curSid := sid, frag := c.frag ++ frag } : Conn x) = c1
        have g1 : c1.get sid = some s := by rw [← hc1]; exact hs
        have l1 : c1.log = c.log := by rw [← hc1]
        have o1 : c1.ok = true := by rw [← hc1]; exact ho
        dsimp only
        split
        · exact (goaway_steps _ _ _).trans (clear_steps _ _)
        · split
          · rename_i he
            have t := takeBlock_steps c1 none sid s s fin g1 (.inl rfl)
            split
            · rename_i h2
              refine t.1.trans (headersEnd_steps _ sid fin eh (by rw [(t.2 h2).1]; exact o1) (fun _ => (t.2 h2).2) fun hf => ?_)
              rcases hl hf with ⟨d, pad, h⟩ | ⟨f, e, h⟩
              · exact .inl ⟨d, pad, mono_log t.1 _ (by rw [l1]; exact h)⟩
              · exact .inr ⟨f, e, mono_log t.1 _ (by rw [l1]; exact h)⟩
            · exact t.1
          · rename_i he
            refine .cons (.mark c1 none sid s { s with expecting := true } g1 ⟨rfl, rfl, rfl, rfl, rfl, rfl, rfl, rfl, rfl, rfl, .inl rfl, .inl, id, .inl, .inl, id, id, .inl ⟨rfl, rfl⟩, .inl, .inl⟩) ?_
            refine headersEnd_steps _ sid fin eh o1 (fun h => absurd h he) fun hf => ?_
            show Ended sid c1.log
            rw [l1]; exact hl hf

theorem onHeaders_steps (c : Conn x) (ho : c.ok = true) (sid : Nat) (frag : Bytes) (fin eh : Bool) (hl : fin = true → Ended sid c.log) : Steps c none (onHeaders c sid frag fin eh) none := by
  unfold onHeaders
  split
  · split
    · exact goaway_steps _ _ _
    · exact sendRst_steps _ _ _ _
  · rename_i s hs
    exact headersOn_steps c ho sid s frag fin eh hs hl

theorem onContinuation_steps (c : Conn x) (ho : c.ok = true) (sid : Nat) (frag : Bytes) (eh : Bool) : Steps c none (onContinuation c sid frag eh) none := by
  unfold onContinuation
  split
  · exact goaway_steps _ _ _
  · split
    · exact (goaway_steps _ _ _).trans (clear_steps _ _)
    · rename_i s hs
      split
      · exact (sendRst_steps _ _ _ _).trans ((goaway_steps _ _ _).trans (clear_steps _ _))
      · have m : Steps c none { c with contCount := c.contCount + 1 } none := .one (.misc c none c.frag c.curSid (c.contCount + 1) c.need c.dec c.enc)
        refine m.trans ?_
        dsimp only
        split
        · exact (goaway_steps _ _ _).trans (clear_steps _ _)
        · have m2 : Steps { c with contCount := c.contCount + 1 } none { c with contCount := c.contCount + 1, frag := c.frag ++ frag } none :=
            .one (.misc _ none (c.frag ++ frag) c.curSid (c.contCount + 1) c.need c.dec c.enc)
          refine m2.trans ?_
          split
          · exact (goaway_steps _ _ _).trans (clear_steps _ _)
          · split
            · have t := takeBlock_steps { c with contCount := c.contCount + 1, frag := c.frag ++ frag } none sid s { s with expecting := false } s.endRecv hs (.inr rfl)
              split
              · rename_i h2
                exact t.1.trans (complete_steps _ _ _ (by rw [(t.2 h2).1]; exact ho) fun _ _ _ _ h => (by cases h))
              · exact t.1
            · exact complete_steps _ _ _ ho fun _ _ _ _ h => (by cases h)

theorem sendAll_steps (p : Option In) : ∀ (ids : List Nat) (c : Conn x), Steps c p (sendAll ids c) p
  | [], c => .refl _ _
  | sid :: ids, c => by
    unfold sendAll
    split
    · exact sendAll_steps p ids c
    · split
      · split
        · exact trySend_steps _ _ _
        · exact (trySend_steps _ _ _).trans (sendAll_steps p ids _)
      · exact sendAll_steps p ids c

theorem applySetting_steps (c : Conn x) (id : UInt16) (v : UInt32) (es : List (UInt16 × UInt32)) (hv : validateSetting id v = none) :
    Steps c (some (.settings false ((id, v) :: es))) (applySetting c id v) (some (.settings false es)) := by
  by_cases h4 : id = 4
  · subst h4
    have e : applySetting c 4 v = updateInitial c v.toNat := by unfold applySetting; simp
    rw [e]
    unfold updateInitial
    refine .cons (.shift c v es hv) ?_
    dsimp only
    split
    · exact goaway_steps _ _ _
    · exact sendAll_steps _ _ _
  · unfold applySetting
    by_cases h1 : id = 1
    · subst h1; exact .one (.setting c 1 v es (x.encPeerMax c.enc v.toNat) (by decide) hv)
    · by_cases h3 : id = 3
      · subst h3; exact .one (.setting c 3 v es c.enc (by decide) hv)
      · by_cases h5 : id = 5
        · subst h5; exact .one (.setting c 5 v es c.enc (by decide) hv)
        · have := Micro.setting c id v es c.enc h4 hv
          simp only [h3, h5, if_false] at this
          simp only [beq_eq_false_iff_ne.mpr h1, beq_eq_false_iff_ne.mpr h3, beq_eq_false_iff_ne.mpr h4, beq_eq_false_iff_ne.mpr h5, Bool.false_eq_true, if_false]
          exact .one this

theorem settingsLoop_steps : ∀ (es : List (UInt16 × UInt32)) (c : Conn x), Steps c (some (.settings false es)) (settingsLoop es c).1 none
  | [], c => .one (.drop c _ fun _ => .inr rfl)
  | (id, v) :: es, c => by
    unfold settingsLoop
    split
    · exact drop_down _ (goaway_steps _ _ _) (goaway_ok _ _)
    · rename_i hv
      exact (applySetting_steps c id v es hv).trans (settingsLoop_steps es _)

theorem reply_steps (c : Conn x) (e : Ev) (h : e = .settingsAck ∨ (∃ d, e = .pong d) ∧ c.ok = true) : Steps c none (reply c e) none := by
  unfold reply
  dsimp only
  split
  · rename_i hc
    exact .cons (.over c none (by simpa [MAX_QUEUED_CONTROL_REPLIES] using hc)) (goaway_steps _ _ _)
  · rename_i hc
    exact .one (.reply c e h (by simp only [MAX_QUEUED_CONTROL_REPLIES] at hc; omega))

theorem onSettings_steps (c : Conn x) (ack : Bool) (es : List (UInt16 × UInt32)) : Steps c (some (.settings ack es)) (onSettings c ack es) none := by
  unfold onSettings
  cases ack with
  | true =>
    simp only [if_true]
    split
    · exact .one (.drop c _ fun _ => .inl rfl)
    · exact drop_down _ (goaway_steps _ _ _) (goaway_ok _ _)
  | false =>
    simp only [Bool.false_eq_true, if_false]
    split
    · exact (settingsLoop_steps es c).trans (reply_steps _ _ (.inl rfl))
    · exact settingsLoop_steps es c

theorem onRst_steps (c : Conn x) (sid code : Nat) (w : Wf c) (hm : ∃ t, c.log = Ev.rx (.rst sid code) :: t) (ho : c.ok = true) : Steps c (some (.rst sid code)) (onRst c sid code) none := by
  unfold onRst
  split
  · exact drop_down _ (goaway_steps _ _ _) (goaway_ok _ _)
  · split
    · rename_i s hs
      have hk := w.keys sid s hs
      have g : Gone sid (c.put sid none) := ⟨by simp, hk.1⟩
      cases hd : s.dispatched with
      | true =>
        refine .cons (.forget _ _ sid s hs hd (.inl ⟨code, hm⟩)) (.one (.drop _ _ fun _ => ⟨g.1, fun _ => g.2⟩))
      | false =>
        have g2 : Gone sid ((c.put sid none).add (.streamError sid code)) := g
        refine .cons (.told _ _ sid s code hs hd hm ho) ((sends_steps _ _ _).snoc (.drop _ _ fun _ => ?_))
        exact ⟨(g2.steps (sends_steps none _ _)).1, fun _ => (g2.steps (sends_steps none _ _)).2⟩
    · rename_i hn
      split
      · exact drop_down _ (goaway_steps _ _ _) (goaway_ok _ _)
      · rename_i ho2
        refine .one (.drop _ _ fun _ => ⟨hn, fun hod => ?_⟩)
        simp only [Bool.and_eq_true, bne_iff_ne, ne_eq, decide_eq_true_eq, not_and] at ho2
        have := ho2 (by omega)
        have := w.last
        omega

theorem goawayRecv_stays {c c' : Conn x} {p p' : Option In} (h : Steps c p c' p') : c.goawayRecv = true → c'.goawayRecv = true := by
  refine h.ind (I := fun c _ => c.goawayRecv = true) ?_
  intro c p c' p' m i
  cases m <;> first | exact i | rfl

theorem callback_gone {c : Conn x} {j : Nat} (h : Gone j c) (e : Ev) : Gone j (callback c e) := by
  have g : Gone j (c.add e) := h
  exact g.steps (sends_steps none _ _)

/-- What becomes of a stream that is completed after its stream was reset. -/
theorem complete_rst (c : Conn x) (sid : Nat) (s : CStream) (hs : c.get sid = some s) (hr : s.rstRecv = true) (hn : sid < c.next) : complete c sid = c ∨ (complete c sid).get sid = none := by
  unfold complete
  rw [hs]
  dsimp only
  split
  · exact .inl rfl
  · split
    · by_cases h : c.ok = true ∧ sid ≠ 0
      · exact .inr (sendRst_gone c sid _ hn h.2 h.1).1
      · left
        unfold sendRst
        rw [if_pos]
        simp only [Bool.or_eq_true, Bool.not_eq_true', beq_iff_eq]
        by_cases h1 : c.ok = true
        · right
          by_cases h2 : sid = 0
          · exact h2
          · exact absurd ⟨h1, h2⟩ h
        · left; simpa using h1
    · right
      rw [tryClose_done]
      have a : s.after = none := by unfold CStream.after; simp [CStream.done, hr]
      have g : Gone sid ({ c.put sid s.after with ctl := 0 } : Conn x) := ⟨by show (c.put sid s.after).get sid = none; simp [a], hn⟩
      exact (callback_gone g _).1

theorem sends_refused : ∀ (qs : List Req) (c : Conn x), c.goawayRecv = true → (qs.foldl sendRequest c).ok = c.ok
  | [], _, _ => rfl
  | q :: qs, c, h => by
    have e : sendRequest c q = c.add (.refused q.app) := by
      unfold sendRequest
      rw [if_pos (by simp [h])]
    rw [List.foldl_cons, e]
    exact sends_refused qs (c.add (.refused q.app)) h

theorem sendRst_ok (c : Conn x) (sid code : Nat) (h : c.goawayRecv = true) : (sendRst c sid code).ok = c.ok := by
  unfold sendRst
  split
  · rfl
  · show (match (c.add (.rst sid code)).get sid with | none => _ | some s => _ : Conn x).ok = c.ok
    split
    · rfl
    · split
      · exact sends_refused _ _ h
      · rfl

theorem complete_ok (c : Conn x) (sid : Nat) (h : c.goawayRecv = true) : (complete c sid).ok = c.ok := by
  unfold complete
  split
  · rfl
  · split
    · rfl
    · split
      · exact sendRst_ok c sid _ h
      · rw [tryClose_done]
        exact sends_refused _ _ h

theorem sweepOne_ok (c : Conn x) (sid code : Nat) (h : c.goawayRecv = true) : (sweepOne code c sid).ok = c.ok := by
  unfold sweepOne
  split
  · rfl
  · rename_i s hs
    exact complete_ok (c.put sid (some { s with err := code, rstRecv := true, state := .closed })) sid h

theorem sweepOne_steps (c : Conn x) (p : Option In) (hp : ∀ sid d pad fin, p ≠ some (.data sid d pad fin)) (ho : c.ok = true) (last code sid : Nat) (w : Wf c) (hl : last < sid) (hm : Ev.rx (.goaway last code) ∈ c.log) : Steps c p (sweepOne code c sid) p := by
  unfold sweepOne
  split
  · exact .refl _ _
  · rename_i s hs
    refine .cons (.mark c p sid s { s with err := code, rstRecv := true, state := .closed } hs
      ⟨rfl, rfl, rfl, rfl, rfl, rfl, rfl, rfl, rfl, rfl, .inl rfl, .inl, id, fun _ => .inr ⟨last, code, hl, hm⟩, fun _ => .inr (.inl rfl), fun h => (by cases h), fun h => (by cases h), .inl ⟨rfl, rfl⟩, .inl, fun h => (by cases h)⟩) ?_
    have hn := (w.keys sid s hs).1
    generalize hc1 : c.put sid (some { s with err := code, rstRecv := true, state := .closed }) = c1
    have g1 : c1.get sid = some { s with err := code, rstRecv := true, state := .closed } := by rw [← hc1]; simp
    have n1 : c1.next = c.next := by rw [← hc1]; rfl
    refine (complete_steps c1 p sid (by rw [← hc1]; exact ho) hp).trans ?_
    rcases complete_rst c1 sid _ g1 rfl (by omega) with e | e
    · rw [e]
      cases hd : s.dispatched with
      | true => exact .one (.forget c1 p sid _ g1 hd (.inr (.inl rfl)))
      | false => exact .one (.lose c1 p sid _ g1 hd (.inl rfl))
    · have : (complete c1 sid).put sid none = complete c1 sid := by
        unfold Conn.put
        have : (fun j => if j = sid then none else (complete c1 sid).get j) = (complete c1 sid).get := by
          funext j
          by_cases h : j = sid <;> simp [h, e]
        rw [this]
      rw [this]
      exact .refl _ _

theorem sweep_steps (p : Option In) (hp : ∀ sid d pad fin, p ≠ some (.data sid d pad fin)) (last code : Nat) : ∀ (ids : List Nat) (c : Conn x), c.ok = true → c.goawayRecv = true → Wf c → (∀ j ∈ ids, last < j) → Ev.rx (.goaway last code) ∈ c.log → Steps c p (ids.foldl (sweepOne code) c) p
  | [], c, _, _, _, _, _ => .refl _ _
  | j :: ids, c, ho, hg, w, h, hm => by
    have s := sweepOne_steps c p hp ho last code j w (h j (by simp)) hm
    exact s.trans (sweep_steps p hp last code ids _ (by rw [sweepOne_ok c j code hg]; exact ho) (goawayRecv_stays s hg) (w.steps s) (fun k hk => h k (by simp [hk])) (mono_log s _ hm))

theorem onGoaway_steps (c : Conn x) (last code : Nat) (ho : c.ok = true) (w : Wf c) (hm : Ev.rx (.goaway last code) ∈ c.log) : Steps { c with goawayRecv := true } (some (.goaway last code)) (onGoaway c last code) none := by
  unfold onGoaway
  dsimp only
  have hs := sweep_steps (some (In.goaway last code)) (fun _ _ _ _ h => (by cases h)) last code (({ c with goawayRecv := true } : Conn x).ids.filter fun j => decide (j > last) && j % 2 != 0) { c with goawayRecv := true } ho rfl
    ⟨w.keys, w.odd, w.last⟩ (fun j hj => by simp only [List.mem_filter, Bool.and_eq_true, decide_eq_true_eq] at hj; exact hj.2.1) hm
  have hg := goawayRecv_stays hs rfl
  generalize (({ c with goawayRecv := true } : Conn x).ids.filter fun j => decide (j > last) && j % 2 != 0).foldl (sweepOne code) { c with goawayRecv := true } = c1 at *
  refine hs.trans (.cons (.note c1 _ (.goawayEvent code last) rfl (fun h => (by cases h)) fun _ _ h => (by cases h)) ?_)
  refine .cons (.drop _ _ fun _ => ⟨hg, by simp [Conn.add]⟩) ?_
  split
  · exact .one (.down _ none _)
  · split
    · exact .one (.down _ none _)
    · exact .refl _ _

theorem onWindowUpdate_steps (c : Conn x) (sid inc : Nat) : Steps c (some (.windowUpdate sid inc)) (onWindowUpdate c sid inc) none := by
  unfold onWindowUpdate
  split
  · refine .cons (.drop c _ trivial) ?_
    split
    · exact goaway_steps _ _ _
    · exact sendRst_steps _ _ _ _
  · split
    · rename_i h
      have h : sid = 0 := by simpa using h
      subst h
      split
      · exact .cons (.drop c _ trivial) (goaway_steps _ _ _)
      · exact .cons (.credit0 c inc) (sendAll_steps _ _ _)
    · rename_i h0
      split
      · refine .cons (.drop c _ trivial) ?_
        split
        · exact goaway_steps _ _ _
        · exact .refl _ _
      · rename_i s hs
        split
        · exact .cons (.drop c _ trivial) (goaway_steps _ _ _)
        · split
          · exact .cons (.drop c _ trivial) ((sendRst_steps _ _ _ _).trans (goaway_steps _ _ _))
          · refine .cons (.creditS c sid s inc (by simpa using h0) hs) ?_
            dsimp only
            split
            · exact trySend_steps _ _ _
            · exact .refl _ _

theorem handle_steps (c : Conn x) (i : In) (hi : ∀ last code, i ≠ .goaway last code) (w : Wf c) (ho : c.ok = true) (hh : ∃ t, c.log = Ev.rx i :: t) : Steps c (some i) (handle c i) none := by
  have hl : Ev.rx i ∈ c.log := by obtain ⟨t, h⟩ := hh; rw [h]; simp
  cases i with
  | data sid d pad fin => exact onData_steps c sid d pad fin w ho hl
  | headers sid frag fin eh => exact .cons (.drop c _ trivial) (onHeaders_steps c ho sid frag fin eh fun h => .inr ⟨frag, eh, by rw [h] at hl; exact hl⟩)
  | continuation sid frag eh => exact .cons (.drop c _ trivial) (onContinuation_steps c ho sid frag eh)
  | settings ack es => exact onSettings_steps c ack es
  | rst sid code => exact onRst_steps c sid code w hh ho
  | goaway last code => exact absurd rfl (hi last code)
  | windowUpdate sid inc => exact onWindowUpdate_steps c sid inc
  | ping ack d =>
    refine .cons (.drop c _ trivial) ?_
    show Steps c none (if ack then c else reply c (.pong d)) none
    split
    · exact .refl _ _
    · exact reply_steps c _ (.inr ⟨⟨d, rfl⟩, ho⟩)
  | pushPromise => exact .cons (.drop c _ trivial) (goaway_steps _ _ _)
  | priority sid =>
    refine .cons (.drop c _ trivial) ?_
    show Steps c none (if sid == 0 then goaway c PROTOCOL_ERROR else c) none
    split
    · exact goaway_steps _ _ _
    · exact .refl _ _
  | bad => exact .cons (.drop c _ trivial) (.one (.down c none c.active))

theorem receive_steps (c : Conn x) (i : In) (w : Wf c) : Steps c none (receive c i) none := by
  unfold receive
  split
  · exact .refl _ _
  · rename_i h
    have ho : c.ok = true := by simpa using h
    dsimp only
    split
    · exact .one (.refuse c i ho)
    · by_cases hi : ∃ last code, i = .goaway last code
      · obtain ⟨last, code, hi⟩ := hi
        subst hi
        have hs := onGoaway_steps (c.add (.rx (.goaway last code))) last code ho ⟨w.keys, w.odd, w.last⟩ (by simp [Conn.add])
        refine .cons (.takeGoaway c last code ho) (hs.trans ?_)
        exact .one (.misc _ none _ _ _ _ _ _)
      · refine .cons (.take c i ho fun last code e => hi ⟨last, code, e⟩) ?_
        have hs := handle_steps (c.add (.rx i)) i (fun last code e => hi ⟨last, code, e⟩) ⟨w.keys, w.odd, w.last⟩ ho ⟨c.log, rfl⟩
        generalize handle (c.add (.rx i)) i = c1 at *
        exact hs.snoc (.misc c1 none c1.frag c1.curSid c1.contCount _ c1.dec c1.enc)

theorem step_steps (c : Conn x) (i : Input) (w : Wf c) : Steps c none (step c i) none := by
  cases i with
  | frame i => exact receive_steps c i w
  | send q => exact sendRequest_steps c none q
  | trailers sid hs => exact sendTrailers_steps c sid hs

theorem run_steps : ∀ (is : List Input) (c : Conn x), Wf c → Steps c none (run c is) none
  | [], c, _ => .refl _ _
  | i :: is, c, w => (step_steps c i w).trans (run_steps is _ (w.steps (step_steps c i w)))

theorem wf_init (d : x.D) (e : x.E) : Wf (Conn.init d e) := ⟨fun j s h => by simp [Conn.init] at h, rfl, Nat.zero_lt_one⟩

/-- An invariant of the small steps holds in every run. -/
theorem run_ind {I : Conn x → Option In → Prop} (hI : ∀ c p c' p', Wf c → Micro c p c' p' → I c p → I c' p') (d : x.D) (e : x.E) (h0 : I (Conn.init d e) none) (is : List Input) :
    I (run (Conn.init d e) is) none :=
  ((run_steps is (Conn.init d e) (wf_init d e)).ind (I := fun c p => Wf c ∧ I c p) (fun c p c' p' m i => ⟨wf_micro m i.1, hI c p c' p' i.1 m i.2⟩) ⟨wf_init d e, h0⟩).2

end Verif.Clp
