import Verif.Sv3.LemmasNews

/-! # C184-C187: the HTTP/3 server -/

namespace Verif.Sv3

open Verif.Wire (Headers find)

/-! ## C184: connection objects -/

/-- C184. No use of a connection object by a read, an acknowledgement, a response or a shutdown notice comes after its destruction, whatever calls back whatever in between. (Full statement: without `w ≠ .late`; see `C184_shutdown_partial`.) -/
theorem C184_live_partial (is : List In) (a b : List Ev) (k : Nat) (w : Use) (h : (run is).log = a ++ .used k w :: b) (hw : w ≠ .late) : .freed k ∉ b :=
  (L.run is).uses a k w b h hw

/-- C184. The object a read works on is alive for as long as the read is under way. -/
theorem C184_reading (is : List In) (k c : Nat) (h : .read k c ∈ (run is).stack) : .freed k ∉ (run is).log :=
  (L.run is).live c k ((L.run is).reads k c h)

theorem depth_pop {t : St} {k c : Nat} {st : List Fr} (h : t.stack = .read k c :: st) : t.depth = t.pop.depth + 1 := by
  unfold St.depth
  rw [pop_stack h, h, List.filter_cons, if_pos rfl]
  rfl

theorem depth_reading {t : St} : t.depth = 0 ↔ ¬ Reading t := by
  constructor
  · rintro h ⟨k, c, hm⟩
    exact not_read_of_depth h k c hm
  · intro h
    unfold St.depth
    rw [List.length_eq_zero_iff, List.filter_eq_nil_iff]
    intro f hf
    cases f with
    | read k c => exact absurd ⟨k, c, hf⟩ h
    | _ => simp

/-- C184. Nothing is destroyed while a read is under way: destruction is left to the end of the outermost read, or to the end of an event of the endpoint. -/
theorem C184_idle (is : List In) (i : In) (k : Nat) (h : .freed k ∈ (run (is ++ [i])).log) (h0 : .freed k ∉ (run is).log) :
    ¬ Reading (run (is ++ [i])) ∧ (i = .dataEnd ∨ i = .afterDispatch) := by
  rw [run_snoc] at h ⊢
  rcases news_mem (step_news (run is) i) h with h1 | h1
  · exact absurd h1 h0
  cases i <;> first | (simp [May] at h1; done) | skip
  · simp only [May, reduceCtorEq, exists_const, false_or] at h1
    obtain ⟨_, -, hd⟩ := h1
    refine ⟨?_, .inl rfl⟩
    rw [← depth_reading]
    simp only [Sv3.step]
    split
    · split <;> exact hd
    · rename_i hns
      exfalso
      apply h0
      have e : step (run is) .dataEnd = run is := by
        simp only [Sv3.step]
      rw [e] at h; exact h
  · simp only [May] at h1
    obtain ⟨_, -, hd⟩ := h1
    refine ⟨?_, .inr rfl⟩
    rw [← depth_reading]
    simp only [Sv3.step]
    split <;> exact hd

/-- C184. Only objects whose closure was reported, after they were created, are destroyed. -/
theorem C184_cause (is : List In) (k : Nat) (h : .freed k ∈ (run is).log) : ∃ c a n b, (run is).log = a ++ .closedDone c n :: b ∧ .created k c ∈ b :=
  (F.run is).freed k h

/-- C184. And all of these are destroyed as soon as an event of the endpoint, or a read, ends while no read is under way: no connection leaks, also if its closure was reported in the middle of a read. -/
theorem C184_reaped (is : List In) (i : In) (hi : i = .afterDispatch ∨ (i = .dataEnd ∧ ∃ k c st, (run is).stack = .read k c :: st)) (hr : ¬ Reading (run (is ++ [i])))
    (a b : List Ev) (c n k : Nat) (h : (run (is ++ [i])).log = a ++ .closedDone c n :: b) (hk : .created k c ∈ b) : .freed k ∈ (run (is ++ [i])).log := by
  have hcl : (run (is ++ [i])).closed = [] := by
    rw [run_snoc] at hr ⊢
    rcases hi with rfl | ⟨rfl, k', c', st, hst⟩
    · simp only [Sv3.step] at hr ⊢
      split
      · rfl
      · rename_i hd
        rw [if_neg hd, ← depth_reading] at hr
        rw [hr] at hd
        exact absurd rfl hd
    · simp only [Sv3.step, hst] at hr ⊢
      split
      · rfl
      · rename_i hd
        rw [if_neg hd, ← depth_reading] at hr
        rw [hr] at hd
        exact absurd rfl hd
  rcases (R.run (is ++ [i])).due a c n b k h hk with h1 | ⟨-, h2⟩
  · exact h1
  · rw [hcl] at h2; cases h2

/-- C184. A connection has one object at a time. -/
theorem C184_single (is : List In) (c k k' : Nat) (h : .created k c ∈ (run is).log) (h' : .created k' c ∈ (run is).log) (hf : .freed k ∉ (run is).log) (hf' : .freed k' ∉ (run is).log) : k = k' :=
  (L.run is).fn c k k' (((R.run is).there k c h).resolve_left hf) (((R.run is).there k' c h').resolve_left hf')

/-- A request handler fails its connection in the middle of the read; the object is destroyed when the read ends, not before. -/
def exampleRead : List In := [.connected 1 true, .dataBegin 1, .reqBegin 0 false, .send 0 {}, .connClosed 1, .next, .next, .afterDispatch, .sendEnd false, .reqEnd true, .dataEnd]

example : .freed 0 ∉ (run (exampleRead.take 10)).log ∧ Reading (run (exampleRead.take 10)) ∧ .freed 0 ∈ (run exampleRead).log ∧ ¬ Reading (run exampleRead) :=
  ⟨by decide, ⟨0, 1, by decide⟩, by decide, by rw [← depth_reading]; decide⟩

/-- C184, what is missing: `graceful_shutdown` keeps the raw pointer to the connection across `submit_shutdown_notice`; if the endpoint reports the closure of the connection before that returns, the object is destroyed, and then used. -/
theorem C184_shutdown_partial : ∃ is k a b, (run is).log = a ++ .used k .late :: b ∧ .freed k ∈ b :=
  ⟨[.connected 1 true, .shutdown, .next, .connClosed 1, .next, .afterDispatch, .noticeEnd false], 0, [.close 1 0, .goaway 1], _, rfl, by decide⟩

/-! ## C185: contexts -/

/-- C185. The hook after the response runs at most once per context. -/
theorem C185_once (is : List In) (x : Nat) : hooks x (run is).log ≤ 1 := (X.run is).once x

/-- C185. A context belongs to the one session its request was routed for. -/
theorem C185_owner (is : List In) (x o o' : Nat) (b b' : Bool) (h : .attached x o b ∈ (run is).log) : .start x o ∈ (run is).log ∧ (.attached x o' b' ∈ (run is).log → o = o') :=
  ⟨((X.run is).att x o b h).1, (X.run is).att1 x o b o' b' h⟩

/-- C185. No context is forgotten: one that was attached to a session of the table had its hook run, was cancelled, or still hangs on that session, which is still in the table. (The last argument: streams carry one request each. Full statement: for every context; see `C185_orphan_partial`.) -/
theorem C185_accounted_partial (is : List In) (x o : Nat) (h : .attached x o true ∈ (run is).log) (h1 : OneRequest (run is).log) :
    .hook x ∈ (run is).log ∨ .cancel x ∈ (run is).log ∨ ((((run is).obj o).c, ((run is).obj o).s), o) ∈ (run is).sess ∧ ((run is).obj o).ctx = some x :=
  (Y.run is h1).acc x o h

/-- C185. When the report of the closure of a connection has returned, none of the sessions the connection had is in the table any more, and none comes back. -/
theorem C185_closed (is js : List In) (c s o : Nat) (h : (run (is ++ .connClosed c :: js)).stack.length ≤ (run is).stack.length) (ho : ((c, s), o) ∈ (run is).sess) :
    ((c, s), o) ∉ (run (is ++ .connClosed c :: js)).sess := by
  rcases closing_run is js c with ⟨top, ks, m, hst, -⟩ | hg
  · rw [hst] at h
    simp only [List.length_append, List.length_cons] at h
    omega
  · intro hm
    have := hg s o hm
    have := ((X.run is).key c s o ho).1
    omega

/-- C185. So a context that was waiting on that connection had its hook run or was cancelled by then. -/
theorem C185_settled (is js : List In) (c s o x : Nat) (h : (run (is ++ .connClosed c :: js)).stack.length ≤ (run is).stack.length)
    (ho : ((c, s), o) ∈ (run is).sess) (ha : .attached x o true ∈ (run is).log) (h1 : OneRequest (run (is ++ .connClosed c :: js)).log) :
    .hook x ∈ (run (is ++ .connClosed c :: js)).log ∨ .cancel x ∈ (run (is ++ .connClosed c :: js)).log := by
  have hg : ∀ (js : List In) (t : St), Grows t (js.foldl step t) := by
    intro js
    induction js with
    | nil => exact fun t => .refl t
    | cons i js ih => exact fun t => (Grows.step t i).trans (ih _)
  have hm : Ev.attached x o true ∈ (run (is ++ .connClosed c :: js)).log := by
    rw [run_append]; exact (hg _ _).mem ha
  rcases (Y.run _ h1).acc x o hm with h2 | h2 | ⟨h2, h3⟩
  · exact .inl h2
  · exact .inr h2
  · exfalso
    have hl := ((X.run is).key c s o ho).1
    rcases closing_run is js c with ⟨top, ks, m, hst, -⟩ | hG
    · rw [hst] at h
      simp only [List.length_append, List.length_cons] at h
      omega
    · have k0 := (X.run is).sessLog o hl
      rw [((X.run is).key c s o ho).2.1, ((X.run is).key c s o ho).2.2] at k0
      have k1 := (X.run (is ++ .connClosed c :: js)).sessLog o ((X.run _).ctx o x h3).1
      have e : ∀ {p q p' q'}, Ev.session o p q ∈ (run (is ++ .connClosed c :: js)).log → Ev.session o p' q' ∈ (run (is ++ .connClosed c :: js)).log → p = p' := by
        intro p q p' q' h4 h5
        exact (S.run _ o p q p' q' h4 h5).1
      have e1 := e (by rw [run_append]; exact (hg _ _).mem k0) k1
      have aux : ∀ p, c = p → ∀ q, ((p, q), o) ∈ (run (is ++ .connClosed c :: js)).sess → (run is).objs.length ≤ o := by
        intro p e q hq
        exact hG q o (by rw [← e] at hq; exact hq)
      have := aux _ e1 _ h2
      omega

/-- C185. A context is cancelled only because its stream or its connection was closed, while its session had it. -/
theorem C185_cause (is : List In) (i : In) (x : Nat) (h : .cancel x ∈ (run (is ++ [i])).log) (h0 : .cancel x ∉ (run is).log) :
    ∃ c s o, ((c, s), o) ∈ (run is).sess ∧ ((run is).obj o).ctx = some x ∧ (i = .streamClosed c s ∨ (i = .next ∧ ∃ d ks n st, (run is).stack = .closing d ((c, s) :: ks) n :: st)) := by
  rw [run_snoc] at h
  rcases news_mem (step_news (run is) i) h with h1 | h1
  · exact absurd h1 h0
  cases i <;> first | (simp [May] at h1; done) | skip
  · simp only [May, reduceCtorEq, exists_const, false_or] at h1
    obtain ⟨y, c, ⟨k1, k2⟩, ks, n, st, e, hst, o, ho, hx⟩ := h1
    cases e
    exact ⟨k1, k2, o, ho, hx, .inr ⟨rfl, c, ks, n, st, hst⟩⟩
  · rename_i c s
    simp only [May, reduceCtorEq, false_or] at h1
    obtain ⟨y, e, o, ho, hx⟩ := h1
    cases e
    exact ⟨c, s, o, ho, hx, .inl rfl⟩

/-- Two requests wait; the connection is closed; both are cancelled. -/
def exampleClosed : List In := [.connected 1 true, .dataBegin 1, .reqBegin 0 false, .reqEnd true, .reqBegin 4 true, .reqEnd true, .dataEnd]

example : (run exampleClosed).sess = [((1, 0), 0), ((1, 4), 1)] ∧ .attached 1 1 true ∈ (run exampleClosed).log ∧
    (run (exampleClosed ++ .connClosed 1 :: [.next, .cancelEnd, .next, .cancelEnd, .next])).stack.length ≤ (run exampleClosed).stack.length ∧
    .cancel 1 ∈ (run (exampleClosed ++ .connClosed 1 :: [.next, .cancelEnd, .next, .cancelEnd, .next])).log := by decide

/-- C185, what is missing: if the connection is closed while the request is being routed, the context is attached to a session that is no longer in the table: when all calls have returned and the connection is gone, it was neither cancelled, nor was its hook run. -/
theorem C185_orphan_partial : ∃ is x o, .attached x o false ∈ (run is).log ∧ (run is).stack = [] ∧ OneRequest (run is).log ∧ (run is).conns = [] ∧ (run is).sess = [] ∧ .hook x ∉ (run is).log ∧ .cancel x ∉ (run is).log := by
  refine ⟨[.connected 1 true, .dataBegin 1, .reqBegin 0 false, .connClosed 1, .next, .next, .reqEnd true, .dataEnd], 0, 0, by decide, rfl, ⟨?_, ?_⟩, rfl, rfl, by decide, by decide⟩
  · intro x y o h1 h2
    simp [run, Sv3.step, Sv3.ensure, get, St.add, St.push, St.pop, ensureSession, St.setObj, St.obj, cancelErase, attach, St.depth, reap, del] at h1 h2
    omega
  · intro o o' c s h1 h2
    simp [run, Sv3.step, Sv3.ensure, get, St.add, St.push, St.pop, ensureSession, St.setObj, St.obj, cancelErase, attach, St.depth, reap, del] at h1 h2
    omega

end Verif.Sv3
