import Verif.Cli2.Spec

/-! The machine moves the requests in a few ways only. -/

namespace Verif.Cli2

/-- The bookkeeping of requests: `queued` are the requests that may still be sent. -/
structure Book where
  total : Nat
  successful : Nat
  failed : Nat
  log : List Ev
  held : List Nat
  queued : List Nat

def isReq : Ev → Bool
  | .done _ _ => true
  | .sent _ _ _ => true
  | _ => false

/-- The requests that may go back to the queue. -/
def Frame.kept : Frame → List Ctx
  | .timeoutPending _ kept => kept
  | _ => []

def Frame.uncounted : Frame → Nat
  | .countFailed => 1
  | .sendFailed _ => 0
  | _ => 0

def St.book (s : St) : Book where
  total := s.total
  successful := s.successful
  failed := s.failed + (s.stack.map Frame.uncounted).sum
  log := s.trace.filter isReq
  held := s.held
  queued := (s.pending ++ s.stack.flatMap Frame.kept).map (·.call)

def Book.Eq (q' q : List Nat) : Prop := ∀ n, q'.count n = q.count n

def Book.Le (q' q : List Nat) : Prop := ∀ n, q'.count n ≤ q.count n

inductive Move : Book → Book → Prop
  | refuse (b b' e) : b'.total = b.total + 1 → b'.successful = b.successful → b'.failed = b.failed + 1 →
      b'.log = .done (b.total + 1) (.error e) :: b.log → Book.Eq b'.held b.held → Book.Le b'.queued b.queued → Move b b'
  | accept (b b') : b'.total = b.total + 1 → b'.successful = b.successful → b'.failed = b.failed →
      b'.log = b.log → Book.Eq b'.held ((b.total + 1) :: b.held) → Book.Le b'.queued ((b.total + 1) :: b.queued) → Move b b'
  | answer (b b' n r) : b'.total = b.total → b'.successful = b.successful + 1 → b'.failed = b.failed →
      b'.log = .done n (.response r) :: b.log → Book.Eq b.held (n :: b'.held) → Book.Le b'.queued b.queued → Move b b'
  | fail (b b' n e) : b'.total = b.total → b'.successful = b.successful → b'.failed = b.failed + 1 →
      b'.log = .done n (.error e) :: b.log → Book.Eq b.held (n :: b'.held) → Book.Le b'.queued b.queued → Move b b'
  | send (b b' n a st) : b'.total = b.total → b'.successful = b.successful → b'.failed = b.failed →
      b'.log = .sent n a st :: b.log → Book.Eq b'.held b.held → Book.Eq b.queued (n :: b'.queued) → Move b b'
  | skip (b b') : b'.total = b.total → b'.successful = b.successful → b'.failed = b.failed →
      b'.log = b.log → Book.Eq b'.held b.held → Book.Le b'.queued b.queued → Move b b'

/-- The application ids of the requests on the wire are different, and smaller than the next one. -/
structure Apps (s : St) : Prop where
  lt : ∀ c ∈ s.active, c.app < s.nextApp
  nodup : (s.active.map (·.app)).Nodup

theorem perm_take {l : List Ctx} {c : Ctx} (hc : c ∈ l) (hn : (l.map (·.app)).Nodup) :
    l.Perm (c :: l.filter (·.app ≠ c.app)) := by
  induction l with
  | nil => cases hc
  | cons a l ih =>
    simp only [List.map_cons, List.nodup_cons] at hn
    rcases List.mem_cons.1 hc with rfl | h
    · have : (c :: l).filter (·.app ≠ c.app) = l := by
        rw [List.filter_cons]
        simp only [ne_eq, not_true_eq_false, decide_false, Bool.false_eq_true, if_false]
        rw [List.filter_eq_self]
        intro x hx
        simp only [decide_eq_true_eq]
        intro e
        exact hn.1 (e ▸ List.mem_map_of_mem hx)
      rw [this]
    · have hne : a.app ≠ c.app := fun e => hn.1 (e ▸ List.mem_map_of_mem h)
      rw [List.filter_cons]
      simp only [hne, ne_eq, not_false_eq_true, decide_true, if_true]
      exact ((ih h hn.2).cons a).trans (List.Perm.swap c a _)

theorem findStream_mem {l : List Ctx} {sid : Nat} {c : Ctx} (h : findStream l sid = some c) : c ∈ l ∧ c.stream = sid := by
  unfold findStream at h
  split at h
  · next c' hc =>
    cases h
    have h2 := List.find?_some hc
    simp at h2
    exact ⟨List.mem_of_find?_eq_some hc, h2.2⟩
  · have h2 := List.find?_some h
    simp at h2
    exact ⟨List.mem_of_find?_eq_some h, h2⟩

theorem filter_new {s : St} (h : Apps s) {a : Nat} (ha : s.nextApp ≤ a) : s.active.filter (·.app ≠ a) = s.active := by
  rw [List.filter_eq_self]
  intro x hx
  have := h.lt x hx
  simp only [ne_eq, decide_eq_true_eq]
  omega

theorem count_take {l : List Ctx} {c : Ctx} (hc : c ∈ l) (hn : (l.map (·.app)).Nodup) (n : Nat) :
    (l.map (·.call)).count n = (c.call :: (l.filter (·.app ≠ c.app)).map (·.call)).count n :=
  ((perm_take hc hn).map (·.call)).count_eq n

theorem count_split (l : List Ctx) (p : Ctx → Bool) (n : Nat) :
    (l.map (·.call)).count n = ((l.filter p).map (·.call)).count n + ((l.filter (fun c => !p c)).map (·.call)).count n := by
  induction l with
  | nil => simp
  | cons a l ih =>
    cases h : p a <;> simp [h, List.count_cons, ih] <;> omega

theorem Apps.sub {s s' : St} (h : Apps s) (p : Ctx → Bool) (ha : s'.active = s.active.filter p) (hn : s'.nextApp = s.nextApp) : Apps s' := by
  refine ⟨?_, ?_⟩
  · intro c hc
    rw [ha] at hc
    rw [hn]
    exact h.lt c (List.mem_filter.1 hc).1
  · rw [ha]
    exact (List.filter_sublist.map _).nodup h.nodup

theorem Apps.none {s' : St} (ha : s'.active = []) : Apps s' := ⟨by simp [ha], by simp [ha]⟩

theorem Apps.same {s s' : St} (h : Apps s) (ha : s'.active = s.active) (hn : s'.nextApp = s.nextApp) : Apps s' :=
  ⟨by rw [ha, hn]; exact h.lt, by rw [ha]; exact h.nodup⟩

/-- A step is a move that keeps the ids apart. -/
def Good (s s' : St) : Prop := Apps s' ∧ Move s.book s'.book

/-- `skip` for a step that changes neither the requests nor the trace. -/
theorem good_skip {s s' : St} (h : Apps s) (ha : s'.active = s.active) (hn : s'.nextApp = s.nextApp) (hp : s'.pending = s.pending)
    (ht : s'.total = s.total) (hs : s'.successful = s.successful) (hf : s'.failed = s.failed)
    (htr : s'.trace.filter isReq = s.trace.filter isReq)
    (hst : s'.stack.flatMap Frame.ctxs = s.stack.flatMap Frame.ctxs)
    (hk : s'.stack.flatMap Frame.kept = s.stack.flatMap Frame.kept)
    (hu : (s'.stack.map Frame.uncounted).sum = (s.stack.map Frame.uncounted).sum) : Good s s' := by
  refine ⟨h.same ha hn, .skip _ _ ht hs ?_ htr ?_ ?_⟩
  · simp only [St.book, hf, hu]
  · intro n; simp only [St.book, St.held, hp, ha, hst]
  · intro n; simp only [St.book, hp, hk]; exact Nat.le_refl _

theorem connect_good (s : St) (cb : Option Nat) (rest : List Frame) (h : Apps s)
    (hst : rest.flatMap Frame.ctxs = s.stack.flatMap Frame.ctxs) (hk : rest.flatMap Frame.kept = s.stack.flatMap Frame.kept)
    (hu : (rest.map Frame.uncounted).sum = (s.stack.map Frame.uncounted).sum) : Good s (s.connect cb rest) := by
  unfold St.connect
  split
  · split
    · exact good_skip h rfl rfl rfl rfl rfl rfl rfl hst hk (by simpa [St.enter, Frame.uncounted] using hu)
    · exact good_skip h rfl rfl rfl rfl rfl rfl rfl hst hk hu
  · split
    · exact good_skip h rfl rfl rfl rfl rfl rfl rfl hst hk hu
    · exact good_skip h rfl rfl rfl rfl rfl rfl rfl hst hk hu

theorem push_good (s : St) (valid : Bool) (h : Apps s) : Good s (s.push valid) := by
  have acc : ∀ s' : St, s'.active = s.active → s'.nextApp = s.nextApp → s'.pending = s.pending ++ [⟨s.total + 1, 0, 0⟩] →
      s'.total = s.total + 1 → s'.successful = s.successful → s'.failed = s.failed → s'.trace = s.trace →
      s'.stack.flatMap Frame.ctxs = s.stack.flatMap Frame.ctxs → s'.stack.flatMap Frame.kept = s.stack.flatMap Frame.kept →
      (s'.stack.map Frame.uncounted).sum = (s.stack.map Frame.uncounted).sum → Good s s' := by
    intro s' ha hn hp ht hs hf htr hst hk hu
    refine ⟨h.same ha hn, .accept _ _ ht hs ?_ ?_ ?_ ?_⟩
    · simp only [St.book, hf, hu]
    · simp only [St.book, htr]
    · intro n; simp only [St.book, St.held, hp, ha, hst, List.map_append, List.count_append, List.count_cons, List.map_cons, List.map_nil, List.count_nil]; omega
    · intro n; simp only [St.book, hp, hk, List.map_append, List.count_append, List.count_cons, List.map_cons, List.map_nil, List.count_nil]; omega
  unfold St.push
  simp only
  split
  · refine ⟨h.same rfl rfl, .refuse _ _ 400 rfl rfl ?_ rfl (fun _ => rfl) (fun _ => Nat.le_refl _)⟩
    simp [St.book, St.enter, Frame.uncounted]; omega
  · split
    · refine ⟨h.same rfl rfl, .refuse _ _ 503 rfl rfl ?_ rfl (fun _ => rfl) (fun _ => Nat.le_refl _)⟩
      simp [St.book, St.enter, Frame.uncounted]; omega
    · split
      · exact acc _ rfl rfl rfl rfl rfl rfl rfl rfl rfl (by simp [Frame.uncounted])
      · split
        · next h1 h2 =>
          unfold St.connect
          rw [if_neg h1, if_neg (by simpa using h2)]
          exact acc _ rfl rfl rfl rfl rfl rfl rfl rfl rfl rfl
        · exact acc _ rfl rfl rfl rfl rfl rfl rfl rfl rfl rfl

theorem failRequest_good (s : St) (sid status : Nat) (rest : List Frame) (h : Apps s)
    (hst : rest.flatMap Frame.ctxs = s.stack.flatMap Frame.ctxs) (hk : rest.flatMap Frame.kept = s.stack.flatMap Frame.kept)
    (hu : (rest.map Frame.uncounted).sum = (s.stack.map Frame.uncounted).sum) : Good s (s.failRequest sid status rest) := by
  unfold St.failRequest
  split
  · exact good_skip h rfl rfl rfl rfl rfl rfl rfl hst hk hu
  · next c hc =>
    obtain ⟨hm, -⟩ := findStream_mem hc
    refine ⟨h.sub _ rfl rfl, .fail _ _ c.call status rfl rfl ?_ rfl ?_ ?_⟩
    · simp [St.book, St.enter, Frame.uncounted, hu]; omega
    · intro n
      have := count_take hm h.nodup n
      simp only [St.book, St.held, St.enter, List.map_append, List.count_append, List.flatMap_cons, Frame.ctxs, List.nil_append, hst,
        List.count_cons] at *
      omega
    · intro n; simp only [St.book, St.enter, List.flatMap_cons, Frame.kept, List.nil_append, hk]; exact Nat.le_refl _

theorem failAll_good (s t : St) (rest : List Frame) (ha : t.active = s.active) (hp : t.pending = s.pending)
    (ht : t.total = s.total) (hs : t.successful = s.successful) (hf : t.failed = s.failed) (htr : t.trace = s.trace)
    (hst : rest.flatMap Frame.ctxs = s.stack.flatMap Frame.ctxs) (hk : rest.flatMap Frame.kept = s.stack.flatMap Frame.kept)
    (hu : (rest.map Frame.uncounted).sum = (s.stack.map Frame.uncounted).sum) : Good s (t.failAll rest) := by
  refine ⟨.none rfl, .skip _ _ ht hs ?_ ?_ ?_ ?_⟩
  · simp [St.book, St.failAll, Frame.uncounted, hu, hf]
  · simp [St.book, St.failAll, htr]
  · intro n
    simp only [St.book, St.held, St.failAll, List.map_append, List.count_append, List.flatMap_cons, Frame.ctxs, hst, ha, hp, List.nil_append,
      List.map_nil, List.count_nil]
    omega
  · intro n
    simp only [St.book, St.failAll, List.flatMap_cons, Frame.kept, List.nil_append, hk, List.map_append, List.count_append]
    omega

/-- A request in the hands of a function is failed. -/
theorem good_done (s s' : St) (h : Apps s) (n e : Nat) (ha : s'.active = s.active) (hn : s'.nextApp = s.nextApp)
    (ht : s'.total = s.total) (hs : s'.successful = s.successful)
    (htr : s'.trace = .done n (.error e) :: s.trace)
    (hf : s'.failed + (s'.stack.map Frame.uncounted).sum = s.failed + (s.stack.map Frame.uncounted).sum + 1)
    (hh : ∀ m, ((s.pending ++ s.stack.flatMap Frame.ctxs).map (·.call)).count m =
      (n :: (s'.pending ++ s'.stack.flatMap Frame.ctxs).map (·.call)).count m)
    (hq : ∀ m, ((s'.pending ++ s'.stack.flatMap Frame.kept).map (·.call)).count m ≤
      ((s.pending ++ s.stack.flatMap Frame.kept).map (·.call)).count m) : Good s s' := by
  refine ⟨h.same ha hn, .fail _ _ n e ht hs hf ?_ ?_ hq⟩
  · simp only [St.book, htr]; rfl
  · intro m
    have := hh m
    simp only [St.book, St.held, ha, List.map_append, List.count_append, List.count_cons] at *
    omega

theorem connectionFailed_good (s t : St) (h : Apps s) (ha : t.active = s.active) (hn : t.nextApp = s.nextApp) (hp : t.pending = s.pending)
    (ht : t.total = s.total) (hs : t.successful = s.successful) (hf : t.failed = s.failed) (htr : t.trace = s.trace)
    (hst : t.stack.flatMap Frame.ctxs = s.stack.flatMap Frame.ctxs) (hk : t.stack.flatMap Frame.kept = s.stack.flatMap Frame.kept)
    (hu : (t.stack.map Frame.uncounted).sum = (s.stack.map Frame.uncounted).sum) : Good s t.connectionFailed :=
  good_skip h ha hn hp ht hs hf (by rw [St.connectionFailed, St.down]; simp only; rw [htr]) hst hk
    (by simpa [St.connectionFailed, Frame.uncounted] using hu)

theorem frame_good (s : St) (out : Send) (f : Frame) (rest : List Frame) (hst : s.stack = f :: rest) (h : Apps s) :
    Good s (s.runFrame out rest f) := by
  have e1 : s.stack.flatMap Frame.ctxs = f.ctxs ++ rest.flatMap Frame.ctxs := by rw [hst]; rfl
  have e2 : s.stack.flatMap Frame.kept = f.kept ++ rest.flatMap Frame.kept := by rw [hst]; rfl
  have e3 : (s.stack.map Frame.uncounted).sum = f.uncounted + (rest.map Frame.uncounted).sum := by rw [hst]; simp
  have sk : ∀ s' : St, f.ctxs = [] → f.kept = [] → f.uncounted = 0 → s'.active = s.active → s'.nextApp = s.nextApp → s'.pending = s.pending →
      s'.total = s.total → s'.successful = s.successful → s'.failed = s.failed → s'.trace.filter isReq = s.trace.filter isReq →
      s'.stack.flatMap Frame.ctxs = rest.flatMap Frame.ctxs → s'.stack.flatMap Frame.kept = rest.flatMap Frame.kept →
      (s'.stack.map Frame.uncounted).sum = (rest.map Frame.uncounted).sum → Good s s' := by
    intro s' f1 f2 f3 ha hn hp ht hs hf htr h1 h2 h3
    exact good_skip h ha hn hp ht hs hf htr (by rw [h1, e1, f1]; rfl) (by rw [h2, e2, f2]; rfl) (by rw [h3, e3, f3]; omega)
  cases f with
  | user => exact good_skip h rfl rfl rfl rfl rfl rfl rfl rfl rfl rfl
  | process =>
    simp only [St.runFrame]
    split
    · exact sk _ rfl rfl rfl rfl rfl rfl rfl rfl rfl rfl rfl rfl rfl
    · exact sk _ rfl rfl rfl rfl rfl rfl rfl rfl rfl rfl rfl rfl (by simp [Frame.uncounted])
  | sendLoop =>
    simp only [St.runFrame]
    split
    · exact sk _ rfl rfl rfl rfl rfl rfl rfl rfl rfl rfl rfl rfl rfl
    · next c ps hp =>
      split
      · exact sk _ rfl rfl rfl rfl rfl rfl rfl rfl rfl rfl rfl rfl rfl
      split
      · exact good_skip h rfl rfl rfl rfl rfl rfl rfl rfl rfl rfl
      split
      · next skip stream =>
        have hf := filter_new h (a := s.nextApp + skip) (by omega)
        refine ⟨⟨?_, ?_⟩, .send _ _ c.call (s.nextApp + skip) stream rfl rfl ?_ rfl ?_ ?_⟩
        · simp only [hf]
          intro x hx
          rcases List.mem_append.1 hx with hx | hx
          · have := h.lt x hx; omega
          · simp at hx; subst hx; simp only; omega
        · simp only [hf, List.map_append, List.map_cons, List.map_nil]
          refine List.nodup_append.2 ⟨h.nodup, by simp, ?_⟩
          intro a ha b hb
          simp at ha hb
          obtain ⟨x, hx, rfl⟩ := ha
          have := h.lt x hx
          omega
        · simp [St.book, hst, Frame.uncounted]
        · intro n
          simp only [St.book, St.held, hf, hst, hp, List.map_append, List.count_append, List.map_cons, List.map_nil, List.count_cons, List.count_nil,
            List.flatMap_cons]
          omega
        · intro n
          simp only [St.book, hst, hp, List.map_append, List.count_append, List.map_cons, List.count_cons, List.flatMap_cons]
          omega
      · refine ⟨h.same rfl rfl, .skip _ _ rfl rfl ?_ rfl ?_ ?_⟩
        · simp [St.book, hst, Frame.uncounted]
        · intro n
          simp only [St.book, St.held, hst, hp, List.map_append, List.count_append, List.map_cons, List.map_nil, List.count_cons, List.count_nil,
            List.flatMap_cons, Frame.ctxs]
          omega
        · intro n
          simp only [St.book, hst, hp, List.map_append, List.count_append, List.map_cons, List.count_cons, List.flatMap_cons, Frame.kept,
            List.nil_append]
          omega
      · refine ⟨h.same rfl rfl, .skip _ _ rfl rfl ?_ rfl ?_ ?_⟩
        · simp [St.book, hst, Frame.uncounted]
        · intro n
          simp only [St.book, St.held, hst, hp, List.map_append, List.count_append, List.map_cons, List.map_nil, List.count_cons, List.count_nil,
            List.flatMap_cons, Frame.ctxs]
          omega
        · intro n
          simp only [St.book, hst, hp, List.map_append, List.count_append, List.map_cons, List.count_cons, List.flatMap_cons, Frame.kept,
            List.nil_append]
          omega
  | sendFailed c =>
    refine good_done _ _ h c.call 503 rfl rfl rfl rfl rfl ?_ ?_ ?_
    · rw [e3]; simp [St.runFrame, St.enter, Frame.uncounted]; omega
    · intro m
      rw [e1]
      simp only [St.runFrame, St.enter, List.map_append, List.count_append, List.count_cons, List.flatMap_cons, Frame.ctxs, List.map_cons, List.map_nil,
        List.count_nil]
      omega
    · intro m
      rw [e2]
      simp only [St.runFrame, St.enter, List.flatMap_cons, Frame.kept]; exact Nat.le_refl _
  | countFailed =>
    refine ⟨h.same rfl rfl, .skip _ _ rfl rfl ?_ rfl ?_ ?_⟩
    · simp [St.book, St.runFrame, hst, Frame.uncounted]; omega
    · intro n; simp only [St.book, St.held, St.runFrame, e1]; rfl
    · intro n; simp only [St.book, St.runFrame, e2]; exact Nat.le_refl _
  | failList cs status =>
    simp only [St.runFrame]
    cases cs with
    | nil => exact sk _ rfl rfl rfl rfl rfl rfl rfl rfl rfl rfl rfl rfl rfl
    | cons c cs =>
      refine good_done _ _ h c.call status rfl rfl rfl rfl rfl ?_ ?_ ?_
      · rw [e3]; simp [St.enter, Frame.uncounted]; omega
      · intro m
        rw [e1]
        simp only [St.enter, List.map_append, List.count_append, List.count_cons, List.flatMap_cons, Frame.ctxs, List.map_cons, List.nil_append]
        omega
      · intro m
        rw [e2]
        simp only [St.enter, List.flatMap_cons, Frame.kept]; exact Nat.le_refl _
  | failAll => exact failAll_good s s rest rfl rfl rfl rfl rfl rfl (by rw [e1]; rfl) (by rw [e2]; rfl) (by rw [e3]; simp [Frame.uncounted])
  | disc => exact failAll_good s s.down (.close :: rest) rfl rfl rfl rfl rfl rfl (by rw [e1]; rfl) (by rw [e2]; rfl) (by rw [e3]; simp [Frame.uncounted])
  | close => exact sk _ rfl rfl rfl rfl rfl rfl rfl rfl rfl rfl rfl rfl rfl
  | afterComplete =>
    simp only [St.runFrame]
    split <;> exact sk _ rfl rfl rfl rfl rfl rfl rfl rfl rfl rfl rfl rfl (by simp [Frame.uncounted])
  | finish =>
    simp only [St.runFrame]
    split
    · exact sk _ rfl rfl rfl rfl rfl rfl rfl rfl rfl rfl rfl rfl rfl
    split
    · exact sk _ rfl rfl rfl rfl rfl rfl rfl rfl rfl rfl rfl rfl rfl
    split
    · exact failAll_good s _ _ rfl rfl rfl rfl rfl rfl (by rw [e1]; rfl) (by rw [e2]; rfl) (by rw [e3]; simp [Frame.uncounted])
    · exact sk _ rfl rfl rfl rfl rfl rfl rfl rfl rfl rfl rfl rfl (by simp [Frame.uncounted])
  | finishEnd => exact sk _ rfl rfl rfl rfl rfl rfl rfl rfl rfl rfl rfl rfl rfl
  | connLoop cbs ok =>
    simp only [St.runFrame]
    cases cbs with
    | nil => exact sk _ rfl rfl rfl rfl rfl rfl rfl rfl rfl rfl rfl rfl rfl
    | cons k ks => exact sk _ rfl rfl rfl rfl rfl rfl rfl rfl rfl rfl rfl rfl (by simp [St.enter, Frame.uncounted])
  | reconnect =>
    simp only [St.runFrame]
    split
    · exact connect_good s none rest h (by rw [e1]; rfl) (by rw [e2]; rfl) (by rw [e3]; simp [Frame.uncounted])
    · exact sk _ rfl rfl rfl rfl rfl rfl rfl rfl rfl rfl rfl rfl rfl
  | timeoutStreams ss =>
    simp only [St.runFrame]
    cases ss with
    | nil => exact sk _ rfl rfl rfl rfl rfl rfl rfl rfl rfl rfl rfl rfl rfl
    | cons sid ss => exact failRequest_good s sid 408 _ h (by rw [e1]; rfl) (by rw [e2]; rfl) (by rw [e3]; simp [Frame.uncounted])
  | timeoutPending expired kept =>
    simp only [St.runFrame]
    split
    · next hp =>
      refine ⟨h.same rfl rfl, .skip _ _ rfl rfl ?_ rfl ?_ ?_⟩
      · simp [St.book, hst, Frame.uncounted]
      · intro n
        simp only [St.book, St.held, hst, hp, List.map_append, List.count_append, List.map_nil, List.count_nil, List.flatMap_cons, Frame.ctxs]
        omega
      · intro n
        simp only [St.book, hst, hp, List.map_append, List.count_append, List.map_nil, List.count_nil, List.flatMap_cons, Frame.kept]
        omega
    · next c ps hp =>
      split
      · refine good_done _ _ h c.call 408 rfl rfl rfl rfl rfl ?_ ?_ ?_
        · rw [e3]; simp [St.enter, Frame.uncounted]; omega
        · intro m
          rw [e1]
          simp only [St.enter, hp, List.map_append, List.count_append, List.count_cons, List.flatMap_cons, Frame.ctxs, List.map_cons, List.nil_append]
          omega
        · intro m
          rw [e2]
          simp only [St.enter, hp, List.map_append, List.count_append, List.count_cons, List.flatMap_cons, Frame.kept, List.map_cons, List.nil_append]
          omega
      · refine ⟨h.same rfl rfl, .skip _ _ rfl rfl ?_ rfl ?_ ?_⟩
        · simp [St.book, hst, Frame.uncounted]
        · intro n
          simp only [St.book, St.held, hst, hp, List.map_append, List.count_append, List.map_cons, List.map_nil, List.count_cons, List.count_nil,
            List.flatMap_cons, Frame.ctxs]
          omega
        · intro n
          simp only [St.book, hst, hp, List.map_append, List.count_append, List.map_cons, List.map_nil, List.count_cons, List.count_nil,
            List.flatMap_cons, Frame.kept]
          omega
  | timeoutEnd late =>
    simp only [St.runFrame]
    split
    · exact connectionFailed_good s _ h rfl rfl rfl rfl rfl rfl rfl (by rw [e1]; rfl) (by rw [e2]; rfl) (by rw [e3]; simp [Frame.uncounted])
    · exact sk _ rfl rfl rfl rfl rfl rfl rfl rfl rfl rfl rfl rfl rfl
  | lostEnd =>
    simp only [St.runFrame]
    split
    · split
      · exact failAll_good s _ _ rfl rfl rfl rfl rfl rfl (by rw [e1]; rfl) (by rw [e2]; rfl) (by rw [e3]; simp [Frame.uncounted])
      · exact sk _ rfl rfl rfl rfl rfl rfl rfl rfl rfl rfl rfl rfl (by simp [Frame.uncounted])
    · exact failAll_good s _ _ rfl rfl rfl rfl rfl rfl (by rw [e1]; rfl) (by rw [e2]; rfl) (by rw [e3]; simp [Frame.uncounted])
  | gone => exact sk _ rfl rfl rfl rfl rfl rfl rfl rfl rfl rfl rfl rfl rfl

theorem event_good (s : St) (e : Event) (s' : St) (he : s.doEvent e = some s') (h : Apps s) : Good s s' := by
  cases e with
  | connector ok =>
    simp only [St.doEvent] at he
    split at he
    · cases he
    split at he <;> cases he
    · exact good_skip h rfl rfl rfl rfl rfl rfl rfl rfl rfl rfl
    · exact connectionFailed_good s _ h rfl rfl rfl rfl rfl rfl rfl rfl rfl rfl
  | handshake ok =>
    simp only [St.doEvent] at he
    split at he
    · cases he
    split at he <;> cases he
    · exact good_skip h rfl rfl rfl rfl rfl rfl rfl rfl rfl (by simp [Frame.uncounted])
    · exact connectionFailed_good s _ h rfl rfl rfl rfl rfl rfl rfl rfl rfl rfl
  | response app r =>
    simp only [St.doEvent] at he
    split at he
    · cases he; exact good_skip h rfl rfl rfl rfl rfl rfl rfl rfl rfl rfl
    · next c hc =>
      cases he
      have hm := List.mem_of_find?_eq_some hc
      have ha : c.app = app := by have := List.find?_some hc; simpa using this
      subst ha
      refine ⟨h.sub _ rfl rfl, .answer _ _ c.call r rfl rfl ?_ rfl ?_ ?_⟩
      · simp [St.book, St.enter, Frame.uncounted]
      · intro n
        have := count_take hm h.nodup n
        simp only [St.book, St.held, St.enter, List.map_append, List.count_append, List.flatMap_cons, Frame.ctxs, List.nil_append,
          List.count_cons] at *
        omega
      · intro n; simp only [St.book, St.enter, List.flatMap_cons, Frame.kept, List.nil_append]; exact Nat.le_refl _
  | streamError sid =>
    simp only [St.doEvent, Option.some.injEq] at he
    subst he
    exact failRequest_good s sid 503 s.stack h rfl rfl rfl
  | goaway last =>
    simp only [St.doEvent, Option.some.injEq] at he
    subst he
    refine ⟨h.sub _ rfl rfl, .skip _ _ rfl rfl ?_ rfl ?_ ?_⟩
    · simp [St.book, Frame.uncounted]
    · intro n
      have := count_split s.active (fun c => decide (c.stream > last)) n
      simp only [St.book, St.held, List.map_append, List.count_append, List.flatMap_cons, Frame.ctxs, List.nil_append] at *
      have e : (fun c : Ctx => !decide (c.stream > last)) = (fun c => decide ¬ c.stream > last) := by
        funext c; rw [decide_not]
      rw [e] at this
      omega
    · intro n; simp only [St.book, List.flatMap_cons, Frame.kept, List.nil_append]; exact Nat.le_refl _
  | goawayError =>
    simp only [St.doEvent, Option.some.injEq] at he
    subst he
    exact good_skip h rfl rfl rfl rfl rfl rfl rfl rfl rfl (by simp [Frame.uncounted])
  | connectionError =>
    simp only [St.doEvent, Option.some.injEq] at he
    subst he
    exact good_skip h rfl rfl rfl rfl rfl rfl rfl rfl rfl (by simp [Frame.uncounted])
  | timeout expired late =>
    simp only [St.doEvent, Option.some.injEq] at he
    subst he
    exact good_skip h rfl rfl rfl rfl rfl rfl rfl rfl rfl (by simp [Frame.uncounted])
  | disconnected =>
    simp only [St.doEvent] at he
    split at he <;> cases he <;> exact good_skip h rfl rfl rfl rfl rfl rfl rfl rfl rfl (by simp [Frame.uncounted])
  | dispose =>
    simp only [St.doEvent, Option.some.injEq] at he
    subst he
    exact good_skip h rfl rfl rfl rfl rfl rfl rfl rfl rfl (by simp [Frame.uncounted])

theorem step_good (s : St) (ch : Choice) (s' : St) (he : s.step ch = some s') (h : Apps s) : Good s s' := by
  have hc : ∀ c, Good s (s.doCall c) := by
    intro c
    cases c with
    | push valid => exact push_good s valid h
    | connect b =>
      simp only [St.doCall]
      split
      · exact connect_good { s with nextCb := s.nextCb + 1 } (some s.nextCb) s.stack (h.same rfl rfl) rfl rfl rfl
      · exact connect_good s none s.stack h rfl rfl rfl
    | disconnect => exact good_skip h rfl rfl rfl rfl rfl rfl rfl rfl rfl (by simp [St.doCall, Frame.uncounted])
  unfold St.step at he
  split at he
  · cases he
  split at he
  · cases he; exact hc _
  · exact event_good s _ s' he h
  · cases he; exact hc _
  · next rest hst => cases he; exact good_skip h rfl rfl rfl rfl rfl rfl rfl (by rw [hst]; rfl) (by rw [hst]; rfl) (by rw [hst]; simp [Frame.uncounted])
  · cases he
  · next f rest out _ hst => cases he; exact frame_good s out f rest hst h
  · cases he

/-- An invariant of the moves holds after every run. -/
theorem run_book (I : Book → Prop) (hI : ∀ b b', Move b b' → I b → I b') (s : St) (chs : List Choice) (s' : St)
    (h : s.run chs = some s') (ha : Apps s) (h0 : I s.book) : I s'.book ∧ Apps s' := by
  induction chs generalizing s with
  | nil => simp [St.run] at h; rw [← h]; exact ⟨h0, ha⟩
  | cons ch chs ih =>
    rw [St.run] at h
    split at h
    · next s1 e =>
      have g := step_good s ch s1 e ha
      exact ih s1 h g.1 (hI _ _ g.2 h0)
    · cases h

/-- An invariant of the steps holds after every run. -/
theorem run_inv (I : St → Prop) (hI : ∀ s ch s', s.step ch = some s' → I s → I s') (s : St) (chs : List Choice) (s' : St)
    (h : s.run chs = some s') (h0 : I s) : I s' := by
  induction chs generalizing s with
  | nil => simp [St.run] at h; rw [← h]; exact h0
  | cons ch chs ih =>
    rw [St.run] at h
    split at h
    · next s1 e => exact ih s1 h (hI _ _ _ e h0)
    · cases h

theorem apps_init (auto : Bool) (ms mp : Nat) : Apps (St.init auto ms mp) := .none rfl

end Verif.Cli2
