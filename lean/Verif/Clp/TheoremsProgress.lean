import Verif.Clp.TheoremsStream

/-! C167: a response that the server completes is reported. -/

namespace Verif.Clp
open Verif.Stream
variable {x : Ext}

def Told (sid : Nat) (l : List Ev) : Prop := ∃ a ∈ l, a.outcome sid = true

theorem Told.steps {sid : Nat} {c c' : Conn x} {p p' : Option In} (h : Told sid c.log) (s : Steps c p c' p') : Told sid c'.log := by
  obtain ⟨a, h1, h2⟩ := h
  exact ⟨a, mono_log s _ h1, h2⟩

theorem sendRst_told (c : Conn x) (sid code : Nat) (s : CStream) (hs : c.get sid = some s) (hd : s.dispatched = false) (h0 : sid ≠ 0) (ho : c.ok = true) : Told sid (sendRst c sid code).log := by
  unfold sendRst
  rw [if_neg (by simp [ho, h0])]
  dsimp only
  rw [show (c.add (.rst sid code)).get sid = some s from hs]
  dsimp only
  rw [if_pos (by simp [hd])]
  have t : Told sid (((c.add (.rst sid code)).put sid none).add (.streamError sid code)).log := ⟨_, List.mem_cons_self, by simp [Ev.outcome]⟩
  exact t.steps (sends_steps none _ _)

theorem complete_told (c : Conn x) (sid : Nat) (s : CStream) (hs : c.get sid = some s) (hd : s.dispatched = false) (hm : s.main = true) (he : s.endRecv = true) (ht : s.trailersExp = true → s.trailersRecv = true) (h0 : sid ≠ 0) (ho : c.ok = true) :
    Told sid (complete c sid).log := by
  unfold complete
  rw [hs]
  dsimp only
  rw [if_neg]
  · split
    · exact sendRst_told c sid _ s hs hd h0 ho
    · have t : Told sid ((tryClose ({ c with ctl := 0 }.put sid (some s.done)) sid).add (.response sid s.req.app s.resp (if s.rstRecv then s.err else NO_ERROR))).log := ⟨_, List.mem_cons_self, by simp [Ev.outcome]⟩
      exact t.steps (sends_steps none _ _)
  · cases h1 : s.trailersExp <;> simp [hd, hm, he]
    rw [ht h1]; simp

theorem takeBlock_cases (c : Conn x) (sid : Nat) (s : CStream) (ended : Bool) :
    ((x.decode c.dec c.frag).1 = none ∧ takeBlock c sid s ended = (clear (goaway (sendRst { c with dec := (x.decode c.dec c.frag).2 } sid COMPRESSION_ERROR) COMPRESSION_ERROR), false)) ∨
    (∃ fs e, (x.decode c.dec c.frag).1 = some fs ∧ respBlock s s.main fs = .error e ∧ takeBlock c sid s ended = (sendRst (clear { c with dec := (x.decode c.dec c.frag).2 }) sid e, false)) ∨
    (∃ fs r cl, (x.decode c.dec c.frag).1 = some fs ∧ respBlock s s.main fs = .ok (r, cl) ∧ takeBlock c sid s ended = ((clear { c with dec := (x.decode c.dec c.frag).2 }).put sid (some (s.block r cl fs ended)), true)) := by
  rcases hd : (x.decode c.dec c.frag).1 with _ | fs
  · left; refine ⟨rfl, ?_⟩
    unfold takeBlock; dsimp only; rw [hd]
  · rcases hb : respBlock s s.main fs with e | ⟨r, cl⟩
    · right; left; refine ⟨fs, e, rfl, hb, ?_⟩
      unfold takeBlock; dsimp only; rw [hd]; dsimp only; rw [hb]
    · right; right; refine ⟨fs, r, cl, rfl, hb, ?_⟩
      unfold takeBlock; dsimp only; rw [hd]; dsimp only; rw [hb]

/-- C167. The client waits for the response to a request. Then HEADERS that ends the stream, in one frame, is an outcome at once - the response, or a stream error if it cannot be taken - or the connection is closed. -/
theorem C167_head_ends (d : x.D) (e : x.E) (is : List Input) (c : Conn x) (hc : c = run (Conn.init d e) is) (sid : Nat) (q : Req) (b : Bytes) (f : Bool) (hq : Ev.request sid q b f ∈ c.log) (hn : ¬ Told sid c.log)
    (he : ¬ Ended sid c.log) (hs : ¬ Swept sid c.log) (frag : Bytes) :
    Told sid (receive c (.headers sid frag true true)).log ∨ (receive c (.headers sid frag true true)).ok = false := by
  have wr := (whole_run (x := x) d e is).core
  have wf := (wf_init (x := x) d e).steps (run_steps is _ (wf_init d e))
  rw [← hc] at wr wf
  rcases wr.live sid q b f hq with ⟨s, hg⟩ | ev
  case inr => rcases ev.told with t | t | t <;> first | exact absurd t hn | exact absurd t he | exact absurd t hs
  have st := wr.streams sid s hg
  have hd : s.dispatched = false := by
    cases h : s.dispatched with
    | false => rfl
    | true => exact absurd (st.disp h) hn
  have her : s.endRecv = false := by
    cases h : s.endRecv with
    | false => rfl
    | true => exact absurd (st.endRecv h) he
  have k := wf.keys sid s hg
  have h0 : sid ≠ 0 := by omega
  cases ho : c.ok with
  | false => right; unfold receive; simp [ho]
  | true =>
    unfold receive
    simp only [ho, Bool.not_true, Bool.false_eq_true, if_false]
    split
    · exact .inr rfl
    · show Told sid (onHeaders (c.add (.rx (.headers sid frag true true))) sid frag true true).log ∨ (onHeaders (c.add (.rx (.headers sid frag true true))) sid frag true true).ok = false
      generalize hc0 : c.add (.rx (.headers sid frag true true)) = c0
      have g0 : c0.get sid = some s := by rw [← hc0]; exact hg
      have o0 : c0.ok = true := by rw [← hc0]; exact ho
      unfold onHeaders
      rw [g0]
      dsimp only
      unfold headersOn
      rw [her]
      simp only [Bool.false_and, Bool.false_eq_true, if_false]
      split
      · exact .inl (sendRst_told c0 sid _ s g0 hd h0 o0)
      · split
        · exact .inr (goaway_ok _ _)
        · split
          · exact .inr (by unfold clear; exact goaway_ok _ _)
          · simp only [if_true]
            generalize hc1 : ({ c0 with curSid := sid, frag := c0.frag ++ frag } : Conn x) = c1
            have g1 : c1.get sid = some s := by rw [← hc1]; exact g0
            have o1 : c1.ok = true := by rw [← hc1]; exact o0
            rcases takeBlock_cases c1 sid s true with ⟨_, t⟩ | ⟨fs, er, _, _, t⟩ | ⟨fs, r, cl, _, _, t⟩
            · rw [t]; right; simp only [Bool.false_eq_true, if_false]; exact goaway_ok _ _
            · rw [t]; left; simp only [Bool.false_eq_true, if_false]; exact sendRst_told _ sid _ s g1 hd h0 o1
            · rw [t]; left
              simp only [if_true]
              unfold headersEnd
              simp only [put_get, if_true]
              refine complete_told _ sid ((s.block r cl fs true).endHead true) (if_pos rfl) ?_ ?_ rfl ?_ h0 o1
              · show (s.block r cl fs true).dispatched = false
                unfold CStream.block; dsimp only; split <;> exact hd
              · simp [CStream.endHead]
              · intro ht
                have ht : (s.block r cl fs true).trailersExp = true := ht
                simp [CStream.endHead, ht]

/-- C167. The same for DATA that ends the stream, if a response head was taken that announced no trailers. -/
theorem C167_data_ends (d : x.D) (e : x.E) (is : List Input) (c : Conn x) (hc : c = run (Conn.init d e) is) (sid : Nat) (s : CStream) (hg : c.get sid = some s) (hn : ¬ Told sid c.log) (hm : s.main = true) (ht : s.trailersExp = false)
    (body : Bytes) (pad : Nat) : Told sid (receive c (.data sid body pad true)).log ∨ (receive c (.data sid body pad true)).ok = false := by
  have wr := (whole_run (x := x) d e is).core
  have wf := (wf_init (x := x) d e).steps (run_steps is _ (wf_init d e))
  rw [← hc] at wr wf
  have st := wr.streams sid s hg
  have hd : s.dispatched = false := by
    cases h : s.dispatched with
    | false => rfl
    | true => exact absurd (st.disp h) hn
  have k := wf.keys sid s hg
  have h0 : sid ≠ 0 := by omega
  cases ho : c.ok with
  | false => right; unfold receive; simp [ho]
  | true =>
    unfold receive
    simp only [ho, Bool.not_true, Bool.false_eq_true, if_false]
    split
    · exact .inr rfl
    · show Told sid (onData (c.add (.rx (.data sid body pad true))) sid body pad true).log ∨ (onData (c.add (.rx (.data sid body pad true))) sid body pad true).ok = false
      generalize hc0 : c.add (.rx (.data sid body pad true)) = c0
      have g0 : c0.get sid = some s := by rw [← hc0]; exact hg
      have o0 : c0.ok = true := by rw [← hc0]; exact ho
      unfold onData
      rw [g0]
      dsimp only
      split
      · exact .inr (goaway_ok _ _)
      · split
        · exact .inl (sendRst_told c0 sid _ s g0 hd h0 o0)
        · split
          · exact .inr (goaway_ok _ _)
          · split
            · exact .inr (goaway_ok _ _)
            · left
              generalize hc1 : ({ (debit c0 (body.length + pad)).put sid (some (s.accept (body.length + pad) body)) with ctl := 0 } : Conn x) = c1
              have g1 : c1.get sid = some (s.accept (body.length + pad) body) := by rw [← hc1]; exact if_pos rfl
              have o1 : c1.ok = true := by rw [← hc1]; exact o0
              split
              · exact sendRst_told c1 sid _ _ g1 hd h0 o1
              · split
                · exact sendRst_told c1 sid _ _ g1 hd h0 o1
                · simp only [if_true]
                  unfold dataEnd
                  generalize hc2 : c1.put sid (some (s.accept (body.length + pad) body).ended) = c2
                  have g2 : c2.get sid = some (s.accept (body.length + pad) body).ended := by rw [← hc2]; exact if_pos rfl
                  have o2 : c2.ok = true := by rw [← hc2]; exact o1
                  have o3 : (condConnUpdate (creditStream c2 sid)).ok = true := by rw [credit_ok]; exact o2
                  have g3 : ∃ t, (condConnUpdate (creditStream c2 sid)).get sid = some t ∧ t.dispatched = false ∧ t.main = true ∧ t.endRecv = true ∧ t.trailersExp = false := by
                    have a : ∃ t, (creditStream c2 sid).get sid = some t ∧ t.dispatched = false ∧ t.main = true ∧ t.endRecv = true ∧ t.trailersExp = false := by
                      unfold creditStream
                      rw [g2]
                      dsimp only
                      split
                      · exact ⟨_, if_pos rfl, hd, hm, rfl, ht⟩
                      · exact ⟨_, g2, hd, hm, rfl, ht⟩
                    unfold condConnUpdate
                    split
                    · exact a
                    · split
                      · exact a
                      · exact a
                  obtain ⟨t, g3, td, tm, te, tt⟩ := g3
                  generalize condConnUpdate (creditStream c2 sid) = c3 at *
                  dsimp only
                  rw [g3]
                  dsimp only
                  split
                  · exact sendRst_told c3 sid _ t g3 td h0 o3
                  · rw [tt]
                    simp only [Bool.not_false, if_true]
                    have ct := complete_told c3 sid t g3 td tm te (fun h => by rw [tt] at h; cases h) h0 o3
                    split
                    · exact ct
                    · split
                      · exact ct.steps (tryClose_steps _ none sid)
                      · exact ct

end Verif.Clp
