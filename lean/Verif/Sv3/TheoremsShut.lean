import Verif.Sv3.Theorems

/-! # C186: graceful shutdown, and C187: responses of the HTTP/3 server -/

namespace Verif.Sv3

open Verif.Wire (Headers find)
open Verif.Parse (setHeader)

/-! ## C186: graceful shutdown -/

theorem active_iff {t : St} {c : Nat} : active t c = true ↔ Active t c := by
  unfold active Active
  rw [List.any_eq_true]
  constructor
  · rintro ⟨⟨⟨c', s⟩, o⟩, h1, h2⟩
    simp only [Bool.and_eq_true, beq_iff_eq] at h2
    obtain ⟨rfl, h2⟩ := h2
    obtain ⟨x, hx⟩ := Option.isSome_iff_exists.1 h2
    exact ⟨s, o, x, h1, hx⟩
  · rintro ⟨s, o, x, h1, hx⟩
    exact ⟨_, h1, by simp [hx]⟩

theorem maybeFinish_frame (t : St) (c : Nat) : (maybeFinish t c).sess = t.sess ∧ (maybeFinish t c).objs = t.objs ∧ (maybeFinish t c).shut = t.shut := by
  unfold maybeFinish
  split
  · exact ⟨rfl, rfl, rfl⟩
  split <;> exact ⟨rfl, rfl, rfl⟩

open Classical in
/-- What `maybeFinish` does. -/
theorem maybeFinish_log (t : St) (c : Nat) : (maybeFinish t c).log = if c ∈ t.shut ∧ ¬ Active t c then .close c 0 :: t.log else t.log := by
  unfold maybeFinish
  by_cases h1 : c ∈ t.shut
  · by_cases h2 : Active t c
    · rw [if_neg (by simp [h1]), if_pos (active_iff.2 h2), if_neg (fun h => h.2 h2)]
    · rw [if_neg (by simp [h1]), if_neg (fun h => h2 (active_iff.1 h)), if_pos ⟨h1, h2⟩]; rfl
  · rw [if_pos (by simp [h1]), if_neg (fun h => h1 h.1)]

/-- An event that closes a connection without an error is logged for a connection that goes away and is idle in `t`. -/
def Just (t : St) (q : Prop) (e : Ev) : Prop := ∀ c, e = .close c 0 → c ∈ t.shut ∧ (¬ Active t c ∨ q)

theorem just_none {t : St} {q : Prop} {e : Ev} (h : ∀ c, e ≠ .close c 0) : Just t q e := fun c he => absurd he (h c)

theorem Active.anti {t t' : St} {c : Nat} (h : Active t' c) (hs : ∀ e ∈ t'.sess, e ∈ t.sess) (ho : t'.objs = t.objs) : Active t c := by
  obtain ⟨s, o, x, h1, h2⟩ := h
  exact ⟨s, o, x, hs _ h1, by unfold St.obj at h2 ⊢; rw [← ho]; exact h2⟩

theorem just_maybeFinish (t t' : St) (c : Nat) (q : Prop) (hs : ∀ e ∈ t'.sess, e ∈ t.sess) (ho : t'.objs = t.objs) (hh : t'.shut = t.shut) : News (Just t' q) t (maybeFinish t c) := by
  rw [News, maybeFinish_log]
  split
  · rename_i h
    refine ⟨[.close c 0], rfl, fun e he => ?_⟩
    rw [List.mem_singleton.1 he]
    intro d hd
    cases hd
    exact ⟨by rw [hh]; exact h.1, .inl (fun ha => h.2 (ha.anti hs ho))⟩
  · exact ⟨[], rfl, fun _ h => by cases h⟩

theorem markSent_shut (t : St) (o : Nat) : (markSent t o).shut = t.shut := (keeps_markSent t o).shut

theorem news_split {p : Ev → Prop} {t t' : St} (h : News p t t') {es : List Ev} (e : t'.log = es ++ t.log) : ∀ x ∈ es, p x := by
  obtain ⟨fs, e', h'⟩ := h
  rw [e] at e'
  rw [List.append_cancel_right e']; exact h'

def drainedMid (t : St) (c s : Nat) : St := match get t.sess (c, s) with | some o => markSent t o | none => t

theorem outputDrained_just (t t' : St) (c s : Nat) (q : Prop) (hs : ∀ e ∈ t'.sess, e ∈ (outputDrained t c s).sess) (ho : t'.objs = (outputDrained t c s).objs) (hh : t'.shut = (outputDrained t c s).shut) :
    News (Just t' q) t (outputDrained t c s) := by
  have f := maybeFinish_frame (drainedMid t c s) c
  have e : outputDrained t c s = maybeFinish (drainedMid t c s) c := rfl
  rw [e] at hs ho hh ⊢
  rw [f.1] at hs; rw [f.2.1] at ho; rw [f.2.2] at hh
  have h1 : News (Just t' q) t (drainedMid t c s) := by
    unfold drainedMid
    split
    · exact news_markSent _ _ (fun x => just_none (fun _ => by simp))
    · exact .none rfl
  exact h1.trans (just_maybeFinish (drainedMid t c s) t' c q hs ho hh)

theorem step_just (t : St) (i : In) : News (Just (step t i) (i = .noticeEnd true)) t (step t i) := by
  have gen : (∀ c, ¬ May t i (.close c 0)) → News (Just (step t i) (i = .noticeEnd true)) t (step t i) := by
    intro h
    obtain ⟨es, e, h'⟩ := step_news t i
    exact ⟨es, e, fun x hx => just_none (fun c hc => h c (by rw [← hc]; exact h' x hx))⟩
  cases i with
  | h3Closed c s =>
    let t1 := t.add (.drained c s)
    let t2 := outputDrained t1 c s
    let t3 : St := { t2 with sess := del t2.sess (c, s) }
    show News (Just (maybeFinish t3 c) _) t (maybeFinish t3 c)
    have f := maybeFinish_frame t3 c
    have n1 : News (Just (maybeFinish t3 c) (In.h3Closed c s = .noticeEnd true)) t t1 := .one _ rfl (just_none (fun _ => by simp))
    have n2 : News (Just (maybeFinish t3 c) (In.h3Closed c s = .noticeEnd true)) t1 t2 :=
      outputDrained_just t1 _ c s _ (fun e he => by rw [f.1] at he; exact (mem_del.1 he).1) f.2.1 f.2.2
    have n3 : News (Just (maybeFinish t3 c) (In.h3Closed c s = .noticeEnd true)) t2 t3 := .none rfl
    exact ((n1.trans n2).trans n3).trans (just_maybeFinish t3 _ c _ (fun e he => by rw [f.1] at he; exact he) f.2.1 f.2.2)
  | drained c s =>
    have n1 : News (Just (outputDrained (t.add (.drained c s)) c s) (In.drained c s = .noticeEnd true)) t (t.add (.drained c s)) := .one _ rfl (just_none (fun _ => by simp))
    exact n1.trans (outputDrained_just _ _ c s _ (fun _ he => he) rfl rfl)
  | sendEnd ok =>
    simp only [Sv3.step]
    split
    · rename_i c s st hst
      split
      · have f := maybeFinish_frame t.pop c
        exact News.trans (t' := t.pop) (.none rfl) (just_maybeFinish t.pop _ c _ (fun e he => by rw [f.1] at he; exact he) f.2.1 f.2.2)
      · exact News.trans (t' := t.pop) (.none rfl) (.one _ rfl (just_none (fun _ => by simp)))
    · exact .none rfl
  | noticeEnd d =>
    simp only [Sv3.step]
    split
    · rename_i c k cs st hst
      split
      · rename_i hd
        refine ⟨[.close c 0, .goaway c, .used k .late], rfl, fun e he => ?_⟩
        simp only [List.mem_cons, List.not_mem_nil, or_false] at he
        rcases he with rfl | rfl | rfl
        · intro c' hc
          cases hc
          refine ⟨?_, ?_⟩
          · show c ∈ ins t.shut c
            rw [mem_ins]; exact .inl rfl
          · simp only [Bool.or_eq_true, Bool.not_eq_true'] at hd
            rcases hd with hd | hd
            · exact .inr (by rw [hd])
            · refine .inl (fun ha => ?_)
              rw [Bool.eq_false_iff] at hd
              exact hd (active_iff.2 (ha.anti (fun _ h => h) rfl))
        · exact just_none (fun _ => by simp)
        · exact just_none (fun _ => by simp)
      · refine ⟨[.goaway c, .used k .late], rfl, fun e he => ?_⟩
        simp only [List.mem_cons, List.not_mem_nil, or_false] at he
        rcases he with rfl | rfl <;> exact just_none (fun _ => by simp)
    · exact .none rfl
  | connected c h3 => exact gen (by intro d; simp [May])
  | _ => exact gen (by intro d; simp [May])

/-- C186. A connection is closed without an error only after it was told to go away (and was not closed since), and only if no request waits on it, or the protocol says that all its output is drained. -/
theorem C186_only (is : List In) (i : In) (es : List Ev) (h : (run (is ++ [i])).log = es ++ (run is).log) (c : Nat) (hc : .close c 0 ∈ es) :
    shutting (run (is ++ [i])).log c = true ∧ (¬ Active (run (is ++ [i])) c ∨ i = .noticeEnd true) := by
  have hN := step_just (run is) i
  rw [← run_snoc] at hN
  obtain ⟨h1, h2⟩ := news_split hN h _ hc c rfl
  exact ⟨((R.run _).shut c).1 h1, h2⟩

/-- The last step for a connection: output of a stream is drained, a stream is closed by the protocol, a response is submitted, the connection is told to go away. -/
def Turn (t : St) (c : Nat) : In → Prop
  | .drained d _ => d = c
  | .h3Closed d _ => d = c
  | .sendEnd ok => ok = true ∧ ∃ s st, t.stack = .submit c s :: st
  | .noticeEnd _ => ∃ k cs st, t.stack = .notice c k cs :: st
  | _ => False

/-- C186. And it is closed as soon as output is drained, a response is submitted, or it is told to go away, and then no request waits on it. (Full statement: as soon as no request waits on it; see `C186_stuck_partial`.) -/
theorem C186_finish_partial (is : List In) (i : In) (c : Nat) (ht : Turn (run is) c i) (hs : shutting (run (is ++ [i])).log c = true) (ha : ¬ Active (run (is ++ [i])) c) :
    ∃ l, (run (is ++ [i])).log = .close c 0 :: l := by
  have hs := ((R.run (is ++ [i])).shut c).2 hs
  have fin : ∀ t, c ∈ (maybeFinish t c).shut → ¬ Active (maybeFinish t c) c → ∃ l, (maybeFinish t c).log = .close c 0 :: l := by
    intro t h1 h2
    have f := maybeFinish_frame t c
    rw [f.2.2] at h1
    rw [maybeFinish_log, if_pos ⟨h1, fun h => h2 (h.anti (fun e he => by rw [f.1]; exact he) f.2.1.symm)⟩]
    exact ⟨_, rfl⟩
  rw [run_snoc] at hs ha ⊢
  cases i <;> first | exact ht.elim | skip
  · cases ht; exact fin _ hs ha
  · cases ht; exact fin _ hs ha
  · obtain ⟨rfl, s, st, hst⟩ := ht
    simp only [Sv3.step, hst, if_true] at hs ha ⊢
    exact fin _ hs ha
  · obtain ⟨k, cs, st, hst⟩ := ht
    simp only [Sv3.step, hst] at hs ha ⊢
    split
    · exact ⟨_, rfl⟩
    · rename_i hd
      rw [if_neg hd] at ha
      exfalso
      apply hd
      simp only [Bool.or_eq_true, Bool.not_eq_true']
      refine .inr ?_
      rw [Bool.eq_false_iff]
      intro h
      exact ha ((active_iff.1 h).anti (fun _ h => h) rfl)

/-- A request waits; the server shuts down; the connection is closed when its response is drained. -/
def exampleShut : List In := [.connected 1 true, .dataBegin 1, .reqBegin 0 false, .reqEnd true, .dataEnd, .shutdown, .next, .noticeEnd false, .next, .send 0 { body := b!"ok" }, .sendEnd true]

example : .close 1 0 ∉ (run exampleShut).log ∧ Turn (run exampleShut) 1 (.drained 1 0) ∧ shutting (run (exampleShut ++ [.drained 1 0])).log 1 = true ∧ active (run (exampleShut ++ [.drained 1 0])) 1 = false ∧
    (run (exampleShut ++ [.drained 1 0])).log.head? = some (.close 1 0) := ⟨by decide, rfl, by decide, by decide, by decide⟩

/-- C186, what is missing (1): if the last request that waits is given up because its stream is closed, nothing closes the connection. -/
theorem C186_stuck_partial : ∃ is c, (run is).stack = [] ∧ shutting (run is).log c = true ∧ active (run is) c = false ∧ .close c 0 ∉ (run is).log :=
  ⟨exampleShut.take 9 ++ [.streamClosed 1 0, .cancelEnd], 1, rfl, by decide, by decide, by decide⟩

/-- C186, what is missing (2): a request that is being routed does not count: its connection is closed, although it was accepted and not answered. -/
theorem C186_cut_partial : ∃ is c o x, .start x o ∈ (run is).log ∧ ((run is).obj o).c = c ∧ .route o x ∈ (run is).stack ∧ .close c 0 ∈ (run is).log ∧ ∀ r, .submitted c ((run is).obj o).s r ∉ (run is).log := by
  refine ⟨[.connected 1 true, .dataBegin 1, .reqBegin 0 false, .shutdown, .next, .noticeEnd false], 1, 0, 0, by decide, rfl, by decide, by decide, ?_⟩
  intro r h
  simp [run, Sv3.step, Sv3.ensure, get, St.add, St.push, St.pop, ensureSession, St.setObj, St.obj, active] at h

/-! ## C187: responses -/

/-- C187. A response to HEAD has the fields and the status of the response to GET, and no body. -/
theorem C187_head (r : Resp) : (finish true r).headers = (finish false r).headers ∧ (finish true r).status = r.status ∧ (finish true r).body = [] ∧ (finish false r).status = r.status ∧ (finish false r).body = r.body := by
  unfold finish
  simp

/-- C187. A body that is not empty is announced with its length, also to HEAD, unless the response states a length itself; all other fields are left alone. -/
theorem C187_length (head : Bool) (r : Resp) (n : Bytes) : find (finish head r).headers n =
    if Utility.iequals b!"content-length" n = true ∧ find r.headers b!"content-length" = none ∧ r.body ≠ [] then some [Date.decNat r.body.length] else find r.headers n := by
  have e : (finish head r).headers = if (find r.headers b!"content-length").isNone && !r.body.isEmpty then setHeader r.headers b!"content-length" (Date.decNat r.body.length) else r.headers := by
    unfold finish
    cases head <;> rfl
  rw [e]
  by_cases h1 : find r.headers b!"content-length" = none
  · by_cases h2 : r.body = []
    · simp [h1, h2]
    · have : ((find r.headers b!"content-length").isNone && !r.body.isEmpty) = true := by simp [h1, h2]
      rw [if_pos this, Mid.find_setHeader]
      by_cases h3 : Utility.iequals b!"content-length" n = true
      · rw [if_pos h3, if_pos ⟨h3, h1, h2⟩]
      · rw [if_neg h3, if_neg (fun h => h3 h.1)]
  · have : ((find r.headers b!"content-length").isNone && !r.body.isEmpty) = false := by
      cases hf : find r.headers b!"content-length" with
      | none => exact absurd hf h1
      | some v => rfl
    rw [this, if_neg (by simp), if_neg (fun h => h1 h.2.1)]

example : finish true { headers := [(b!"a", [b!"b"])], body := b!"hello" } = { headers := [(b!"a", [b!"b"]), (b!"content-length", [b!"5"])], body := [] } := by
  have h5 : Date.decNat 5 = [53] := by rw [Date.decNat]; rfl
  show ({ headers := [(b!"a", [b!"b"]), (b!"content-length", [Date.decNat 5])], body := [] } : Resp) = _
  rw [h5]

/-- The status, the fields and the body a session gives to its connection are what the application or the router (404) meant for that session. -/
def Meant (t : St) (i : In) (o : Nat) (r : Resp) : Prop :=
  (∃ r0, i = .send o r0 ∧ r = finish (t.obj o).head r0) ∨ (i = .reqEnd false ∧ (∃ x st, t.stack = .route o x :: st) ∧ r = { status := 404 })

/-- C187. Every response submitted is one that was meant for that stream, by the session that was made for that stream, and goes to the living object of that connection. -/
theorem C187_submit (is : List In) (i : In) (es : List Ev) (h : (run (is ++ [i])).log = es ++ (run is).log) (c s : Nat) (r : Resp) (hr : .submitted c s r ∈ es) :
    ∃ o k, .session o c s ∈ (run is).log ∧ Meant (run is) i o r ∧ .created k c ∈ (run is).log ∧ .freed k ∉ (run is).log := by
  have hN := step_news (run is) i
  rw [← run_snoc] at hN
  have h1 := news_split hN h _ hr
  cases i <;> first | (simp [May] at h1; done) | skip
  · rename_i found
    simp only [May, reduceCtorEq, exists_const, or_false, and_false, false_or, Ev.submitted.injEq] at h1
    obtain ⟨hf, o, x, st, hst, k, hk, e1, e2, e3⟩ := h1
    subst e1; subst e2; subst hf
    have ho := ((X.run is).route o x (by rw [hst]; exact List.mem_cons_self ..)).2
    exact ⟨o, k, (X.run is).sessLog o ho, .inr ⟨rfl, ⟨x, st, hst⟩, e3⟩, (R.run is).made _ _ hk, (L.run is).live _ _ hk⟩
  · rename_i o r0
    simp only [May, reduceCtorEq, false_or, Ev.submitted.injEq] at h1
    obtain ⟨ho, k, hk, e1, e2, e3⟩ := h1
    subst e1; subst e2
    exact ⟨o, k, (X.run is).sessLog o ho, .inl ⟨r0, rfl, e3⟩, (R.run is).made _ _ hk, (L.run is).live _ _ hk⟩

/-- C187. A response on a connection whose object is gone is dropped: only a connection that is reported, or data that arrive on it, make an object. -/
theorem C187_revive (is : List In) (i : In) (k c : Nat) (h : .created k c ∈ (run (is ++ [i])).log) (h0 : .created k c ∉ (run is).log) : i = .connected c true ∨ i = .dataBegin c := by
  rw [run_snoc] at h
  rcases news_mem (step_news (run is) i) h with h1 | h1
  · exact absurd h1 h0
  cases i <;> first | (simp [May] at h1; done) | skip
  · simp only [May, Ev.created.injEq, reduceCtorEq, and_false, or_false] at h1
    obtain ⟨rfl, -, rfl⟩ := h1
    exact .inl rfl
  · simp only [May, Ev.created.injEq, reduceCtorEq, exists_const, or_false] at h1
    rw [h1.2]; exact .inr rfl

/-- C187. Whether a session cuts bodies is what the request said that is being routed. -/
theorem C187_asked (is : List In) (k c s : Nat) (hd : Bool) (st : List Fr) (h : (run is).stack = .read k c :: st) :
    ∃ o x, (run (is ++ [.reqBegin s hd])).stack = .route o x :: (run is).stack ∧ ((c, s), o) ∈ (run (is ++ [.reqBegin s hd])).sess ∧ ((run (is ++ [.reqBegin s hd])).obj o).head = hd := by
  rw [run_snoc]
  simp only [Sv3.step, h]
  obtain ⟨h1, h2⟩ := (X.run is).ensureSession c s
  have hl := (h1.key _ _ _ h2).1
  refine ⟨(ensureSession (run is) c s).2, (ensureSession (run is) c s).1.nx, ?_, h2, ?_⟩
  · have : (ensureSession (run is) c s).1.stack = (run is).stack := by
      unfold ensureSession
      split <;> rfl
    show _ :: (ensureSession (run is) c s).1.stack = _
    rw [this, h]
    rfl
  · show ((((ensureSession (run is) c s).1.setObj (ensureSession (run is) c s).2 { (ensureSession (run is) c s).1.obj (ensureSession (run is) c s).2 with head := hd }).obj (ensureSession (run is) c s).2)).head = hd
    rw [obj_setObj, if_pos ⟨rfl, hl⟩]

def SameHeads (t t' : St) : Prop := ∀ o, (t'.obj o).head = (t.obj o).head

theorem SameHeads.eq {t t' : St} (h : t'.objs = t.objs) : SameHeads t t' := fun o => by unfold St.obj; rw [h]
theorem SameHeads.trans {t t' t'' : St} (h : SameHeads t t') (h' : SameHeads t' t'') : SameHeads t t'' := fun o => (h' o).trans (h o)
theorem heads_set {t t' : St} (o : Nat) (v : Sess) (h : t'.objs = t.objs.set o v) (hv : v.head = (t.obj o).head) : SameHeads t t' := by
  refine SameHeads.trans (t' := t.setObj o v) (fun o' => ?_) (.eq h)
  rw [obj_setObj]
  split
  · rename_i e; rw [hv, e.1]
  · rfl
theorem heads_markSent (t : St) (o : Nat) : SameHeads t (markSent t o) := by
  unfold markSent
  split
  · exact .eq rfl
  split
  · exact heads_set o _ rfl rfl
  · exact heads_set o _ rfl rfl
theorem heads_attach (t : St) (o x : Nat) : SameHeads t (attach t o x) := by
  unfold attach
  dsimp only
  split
  · exact heads_set o _ rfl rfl
  · exact heads_set o _ rfl rfl
theorem heads_outputDrained (t : St) (c s : Nat) : SameHeads t (outputDrained t c s) := by
  unfold outputDrained
  refine SameHeads.trans ?_ (.eq (maybeFinish_frame _ _).2.1)
  split
  · exact heads_markSent t _
  · exact .eq rfl
theorem objs_ensure (t : St) (c : Nat) : (ensure t c).1.objs = t.objs := by
  unfold ensure
  split <;> rfl
theorem objs_cancelErase (t : St) (o : Nat) (key : Nat × Nat) : (cancelErase t o key).objs = t.objs := by
  unfold cancelErase
  split <;> rfl
theorem objs_sendResponse (t : St) (c s : Nat) (r : Resp) : (sendResponse t c s r).objs = t.objs := by
  unfold sendResponse
  split <;> rfl

/-- C187. And nothing but the next request of that stream changes that. -/
theorem C187_kept (is : List In) (i : In) (hi : ∀ s hd, i ≠ .reqBegin s hd) (o : Nat) : ((run (is ++ [i])).obj o).head = ((run is).obj o).head := by
  rw [run_snoc]
  generalize run is = t
  suffices SameHeads t (step t i) from this o
  cases i with
  | connected c h3 =>
    simp only [Sv3.step]
    split
    · exact .eq (objs_ensure t c)
    · exact .eq rfl
  | dataBegin c => exact .eq (objs_ensure t c)
  | dataEnd =>
    simp only [Sv3.step]
    split
    · split <;> exact .eq rfl
    · exact .eq rfl
  | acked c =>
    simp only [Sv3.step]
    split <;> exact .eq rfl
  | next =>
    simp only [Sv3.step]
    split
    · split <;> exact .eq rfl
    · split
      · exact .eq rfl
      · exact .eq (objs_cancelErase ..)
    · exact .eq rfl
    · split <;> exact .eq rfl
    · exact .eq rfl
  | streamClosed c s =>
    simp only [Sv3.step]
    split
    · exact .eq rfl
    · exact .eq (objs_cancelErase ..)
  | cancelEnd =>
    simp only [Sv3.step]
    split
    · exact heads_set _ _ rfl rfl
    · exact .eq rfl
  | h3Closed c s => exact SameHeads.trans (t' := t.add (.drained c s)) (.eq rfl) ((heads_outputDrained _ c s).trans (.eq (maybeFinish_frame _ c).2.1))
  | drained c s => exact SameHeads.trans (t' := t.add (.drained c s)) (.eq rfl) (heads_outputDrained _ c s)
  | afterDispatch =>
    simp only [Sv3.step]
    split <;> exact .eq rfl
  | reqBegin s hd => exact absurd rfl (hi s hd)
  | reqEnd found =>
    simp only [Sv3.step]
    split
    · split
      · exact SameHeads.trans (t' := t.pop) (.eq rfl) (heads_attach _ _ _)
      · exact .eq (objs_sendResponse ..)
    · exact .eq rfl
  | send o r =>
    simp only [Sv3.step]
    split
    · exact .eq (objs_sendResponse ..)
    · exact .eq rfl
  | sendEnd ok =>
    simp only [Sv3.step]
    split
    · split
      · exact .eq (maybeFinish_frame t.pop _).2.1
      · exact .eq rfl
    · exact .eq rfl
  | connClosed c => exact .eq rfl
  | shutdown => exact .eq rfl
  | noticeEnd d =>
    simp only [Sv3.step]
    split
    · split <;> exact .eq rfl
    · exact .eq rfl

end Verif.Sv3
