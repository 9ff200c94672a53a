import Verif.Cli2.Lemmas

/-! C137 (every request is answered exactly once), C138 (limits), C139 (statistics) of the persistent
HTTP/2 client. -/

namespace Verif.Cli2

theorem completions_filter (t : List Ev) : completions (t.filter isReq) = completions t := by
  induction t with
  | nil => rfl
  | cons e t ih => cases e <;> simp_all [completions, isReq, List.filter]

theorem sends_filter (t : List Ev) : sends (t.filter isReq) = sends t := by
  induction t with
  | nil => rfl
  | cons e t ih => cases e <;> simp_all [sends, isReq, List.filter]

theorem answered_filter (t : List Ev) : answered (t.filter isReq) = answered t := by
  induction t with
  | nil => rfl
  | cons e t ih => cases e <;> simp_all [answered, isReq, List.filter, List.countP_cons]

theorem refused_filter (t : List Ev) : refused (t.filter isReq) = refused t := by
  induction t with
  | nil => rfl
  | cons e t ih => cases e <;> simp_all [refused, isReq, List.filter, List.countP_cons]

def pushCall : Call → Nat
  | .push _ => 1
  | _ => 0

def pushIn : Choice → Nat
  | .call c => pushCall c
  | _ => 0

/-- The calls are numbered in order. -/
theorem step_total (s : St) (ch : Choice) (s' : St) (h : s.step ch = some s') :
    s'.total = s.total + pushIn ch := by
  have hcon : ∀ (t : St) cb rest, (t.connect cb rest).total = t.total := by
    intro t cb rest; unfold St.connect; (split <;> (try split)) <;> rfl
  have hfr : ∀ (t : St) a b rest, (t.failRequest a b rest).total = t.total := by
    intro t a b rest; unfold St.failRequest; split <;> rfl
  have hcall : ∀ c, (s.doCall c).total = s.total + pushCall c := by
    intro c
    cases c with
    | push v =>
      simp only [St.doCall, St.push]
      (split <;> (try split) <;> (try split) <;> (try split)) <;> first | rfl | (rw [hcon]; rfl)
    | connect b => simp only [St.doCall]; split <;> rw [hcon] <;> rfl
    | disconnect => rfl
  unfold St.step at h
  split at h
  · cases h
  split at h
  · cases h; exact hcall _
  · next e _ =>
    cases e <;> simp only [St.doEvent] at h <;> (try split at h) <;> (try split at h) <;> cases h <;>
      first | rfl | (rw [hfr]; rfl)
  · cases h; exact hcall _
  · cases h; rfl
  · cases h
  · next f rest out _ _ =>
    cases h
    show (s.runFrame _ _ _).total = s.total
    cases f <;> simp only [St.runFrame] <;> (repeat' split) <;> first | rfl | rw [hcon] | rw [hfr]
  · cases h

theorem run_total (s : St) (chs : List Choice) (s' : St) (h : s.run chs = some s') : s'.total = s.total + pushes chs := by
  induction chs generalizing s with
  | nil => simp [St.run] at h; rw [← h]; simp [pushes]
  | cons ch chs ih =>
    rw [St.run] at h
    split at h
    · next s1 e =>
      rw [ih s1 h, step_total s ch s1 e]
      unfold pushes
      rw [List.countP_cons]
      cases ch with
      | call c => cases c <;> simp [pushIn, pushCall] <;> omega
      | _ => simp [pushIn]
    · cases h

def Once (b : Book) : Prop :=
  ∀ n, (completions b.log).count n + b.held.count n = if 1 ≤ n ∧ n ≤ b.total then 1 else 0

theorem once_move (b b' : Book) (hm : Move b b') (h : Once b) : Once b' := by
  intro n
  have h1 := h n
  have step : ∀ k o t, completions (.done k o :: t) = k :: completions t := fun _ _ _ => rfl
  have ss : ∀ k a st t, completions (.sent k a st :: t) = completions t := fun _ _ _ _ => rfl
  have top : (if 1 ≤ n ∧ n ≤ b.total + 1 then 1 else 0) = (if 1 ≤ n ∧ n ≤ b.total then 1 else 0) + (if b.total + 1 == n then 1 else 0) := by
    by_cases e : b.total + 1 = n
    · rw [if_pos (by omega), if_neg (by omega), if_pos (by simpa using e)]
    · have e1 : (b.total + 1 == n) = false := by simpa using e
      rw [e1]
      by_cases e2 : 1 ≤ n ∧ n ≤ b.total
      · rw [if_pos e2, if_pos (by omega)]; rfl
      · rw [if_neg e2, if_neg (by omega)]; rfl
  cases hm with
  | refuse e t _ _ l hh q => rw [l, step, hh n, t, List.count_cons, top, ← h1]; omega
  | accept t _ _ l hh q => rw [l, hh n, t, List.count_cons, top, ← h1]; omega
  | answer k r t _ _ l hh q => rw [l, step, t, ← h1, hh n, List.count_cons, List.count_cons]; omega
  | fail k r t _ _ l hh q => rw [l, step, t, ← h1, hh n, List.count_cons, List.count_cons]; omega
  | send k a st t _ _ l hh q => rw [l, ss, t, hh n]; exact h1
  | skip t _ _ l hh q => rw [l, t, hh n]; exact h1

theorem once_init (auto : Bool) (ms mp : Nat) : Once (St.init auto ms mp).book := by
  intro n
  simp [St.init, St.book, St.held, completions]
  omega

/-- **C137** A request given to `push_request` is completed exactly once or still held exactly once, at
every moment of every history of calls (from outside or from within callbacks) and events; no callback
is invoked twice, and none that was not registered. -/
theorem C137_exactly_once (auto : Bool) (ms mp : Nat) (chs : List Choice) (s : St)
    (h : (St.init auto ms mp).run chs = some s) (n : Nat) :
    (completions s.trace).count n + s.held.count n = if 1 ≤ n ∧ n ≤ pushes chs then 1 else 0 := by
  have h0 := (run_book Once once_move _ chs s h (apps_init ..) (once_init auto ms mp)).1 n
  have h2 := run_total _ chs s h
  have h1 : (completions s.trace).count n + s.held.count n = if 1 ≤ n ∧ n ≤ s.total then 1 else 0 := by
    rw [← completions_filter]; exact h0
  have h3 : s.total = pushes chs := by rw [h2]; simp [St.init]
  rw [h1]
  by_cases e : 1 ≤ n ∧ n ≤ pushes chs
  · rw [if_pos e, if_pos (by omega)]
  · rw [if_neg e, if_neg (by omega)]

def SentOnce (b : Book) : Prop :=
  (∀ n, (sends b.log).count n + b.queued.count n ≤ 1) ∧ ∀ n, b.total < n → (sends b.log).count n + b.queued.count n = 0

theorem sentOnce_move (b b' : Book) (hm : Move b b') (h : SentOnce b) : SentOnce b' := by
  obtain ⟨h1, h2⟩ := h
  have sd : ∀ k o t, sends (.done k o :: t) = sends t := fun _ _ _ => rfl
  have ss : ∀ k a st t, sends (.sent k a st :: t) = k :: sends t := fun _ _ _ _ => rfl
  cases hm with
  | refuse e t _ _ l hh q =>
    refine ⟨fun n => ?_, fun n hn => ?_⟩
    · have := h1 n; have := q n; rw [l, sd]; omega
    · rw [t] at hn; have := h2 n (by omega); have := q n; rw [l, sd]; omega
  | accept t _ _ l hh q =>
    refine ⟨fun n => ?_, fun n hn => ?_⟩
    · have a := h1 n; have c := q n; rw [List.count_cons] at c; rw [l]
      by_cases e : b.total + 1 = n
      · have := h2 n (by omega); split at c <;> omega
      · have e1 : (b.total + 1 == n) = false := by simpa using e
        rw [e1] at c; simp at c; omega
    · rw [t] at hn; have := h2 n (by omega); have c := q n; rw [List.count_cons] at c; rw [l]
      have e1 : (b.total + 1 == n) = false := by simp; omega
      rw [e1] at c; simp at c; omega
  | answer k r t _ _ l hh q =>
    refine ⟨fun n => ?_, fun n hn => ?_⟩
    · have := h1 n; have := q n; rw [l, sd]; omega
    · rw [t] at hn; have := h2 n (by omega); have := q n; rw [l, sd]; omega
  | fail k r t _ _ l hh q =>
    refine ⟨fun n => ?_, fun n hn => ?_⟩
    · have := h1 n; have := q n; rw [l, sd]; omega
    · rw [t] at hn; have := h2 n (by omega); have := q n; rw [l, sd]; omega
  | send k a st t _ _ l hh q =>
    refine ⟨fun n => ?_, fun n hn => ?_⟩
    · have := h1 n; have c := q n; rw [List.count_cons] at c; rw [l, ss, List.count_cons]; omega
    · rw [t] at hn; have := h2 n (by omega); have c := q n; rw [List.count_cons] at c; rw [l, ss, List.count_cons]; omega
  | skip t _ _ l hh q =>
    refine ⟨fun n => ?_, fun n hn => ?_⟩
    · have := h1 n; have := q n; rw [l]; omega
    · rw [t] at hn; have := h2 n (by omega); have := q n; rw [l]; omega

/-- **C137** A request is sent at most once, however often the connection is lost and made again. -/
theorem C137_sent_once (auto : Bool) (ms mp : Nat) (chs : List Choice) (s : St)
    (h : (St.init auto ms mp).run chs = some s) (n : Nat) : (sends s.trace).count n ≤ 1 := by
  have h0 : SentOnce (St.init auto ms mp).book := by
    refine ⟨fun n => ?_, fun n _ => ?_⟩ <;> simp [St.init, St.book, sends]
  have := (run_book SentOnce sentOnce_move _ chs s h (apps_init ..) h0).1.1 n
  simp only [St.book, sends_filter] at this
  omega

/-! ### Responses -/

/-- The requests on the wire, and the ids used so far. -/
structure Wired (s : St) : Prop where
  act : ∀ c ∈ s.active, .sent c.call c.app c.stream ∈ s.trace
  old : ∀ n a st, .sent n a st ∈ s.trace → a < s.nextApp
  uniq : ∀ n a st n' st', .sent n a st ∈ s.trace → .sent n' a st' ∈ s.trace → n = n' ∧ st = st'

theorem Wired.mono {s s' : St} (h : Wired s) (ha : ∀ c ∈ s'.active, c ∈ s.active) (hn : s'.nextApp = s.nextApp)
    (ht : ∀ n a st, .sent n a st ∈ s'.trace ↔ .sent n a st ∈ s.trace) : Wired s' := by
  refine ⟨fun c hc => (ht ..).2 (h.act c (ha c hc)), ?_, ?_⟩
  · intro n a st hm; rw [hn]; exact h.old n a st ((ht ..).1 hm)
  · intro n a st n' st' h1 h2; exact h.uniq n a st n' st' ((ht ..).1 h1) ((ht ..).1 h2)

theorem wired_step (s : St) (ch : Choice) (s' : St) (h : s.step ch = some s') (hw : Wired s) : Wired s' := by
  have same : ∀ t : St, t.active = s.active → t.nextApp = s.nextApp → t.trace = s.trace → Wired t := fun t h1 h2 h3 =>
    hw.mono (by rw [h1]; exact fun _ h => h) h2 (by intro n a st; rw [h3])
  have ent : ∀ (t : St) e rest, (∀ n a st, e ≠ .sent n a st) → (∀ c ∈ t.active, c ∈ s.active) → t.nextApp = s.nextApp →
      t.trace = s.trace → Wired (t.enter e rest) := by
    intro t e rest he ha hn ht
    refine hw.mono ha hn ?_
    intro n a st
    simp only [St.enter, List.mem_cons, ht]
    exact ⟨fun h => h.resolve_left (fun e' => he n a st e'.symm), .inr⟩
  have hcon : ∀ (t : St) cb rest, t.active = s.active → t.nextApp = s.nextApp → t.trace = s.trace → Wired (t.connect cb rest) := by
    intro t cb rest h1 h2 h3
    unfold St.connect
    split
    · split
      · exact ent _ _ _ (by intros; simp) (by rw [h1]; exact fun _ h => h) h2 h3
      · exact same _ h1 h2 h3
    · split <;> exact same _ h1 h2 h3
  have hfr : ∀ (t : St) a b rest, t.active = s.active → t.nextApp = s.nextApp → t.trace = s.trace → Wired (t.failRequest a b rest) := by
    intro t a b rest h1 h2 h3
    unfold St.failRequest
    split
    · exact same _ h1 h2 h3
    · refine ent _ _ _ (by intros; simp) ?_ h2 h3
      intro c hc
      simp only at hc
      rw [h1] at hc
      exact (List.mem_filter.1 hc).1
  have hcall : ∀ c, Wired (s.doCall c) := by
    intro c
    cases c with
    | push v =>
      simp only [St.doCall, St.push]
      (repeat' split) <;> first
        | exact ent _ _ _ (by intros; simp) (fun _ h => h) rfl rfl
        | exact hcon _ _ _ rfl rfl rfl
        | exact same _ rfl rfl rfl
    | connect b => simp only [St.doCall]; split <;> exact hcon _ _ _ rfl rfl rfl
    | disconnect => exact same _ rfl rfl rfl
  have none : ∀ t : St, t.active = [] → t.nextApp = s.nextApp → t.trace = s.trace → Wired t := fun t h1 h2 h3 =>
    hw.mono (by rw [h1]; simp) h2 (by intro n a st; rw [h3])
  unfold St.step at h
  split at h
  · cases h
  split at h
  · cases h; exact hcall _
  · next e _ =>
    cases e <;> simp only [St.doEvent] at h
    · split at h
      · cases h
      · split at h <;> cases h <;> exact same _ rfl rfl rfl
    · split at h
      · cases h
      · split at h <;> cases h
        · refine hw.mono (fun _ h => h) rfl ?_
          intro n a st; simp
        · exact same _ rfl rfl rfl
    · split at h
      · cases h; exact hw
      · cases h
        exact ent _ _ _ (by intros; simp) (fun c hc => (List.mem_filter.1 hc).1) rfl rfl
    · cases h; exact hfr _ _ _ _ rfl rfl rfl
    · cases h
      refine hw.mono (fun c hc => (List.mem_filter.1 hc).1) rfl ?_
      intro n a st; simp
    · cases h; exact same _ rfl rfl rfl
    · cases h; exact same _ rfl rfl rfl
    · cases h; exact same _ rfl rfl rfl
    · split at h <;> cases h <;> exact same _ rfl rfl rfl
    · cases h; exact same _ rfl rfl rfl
  · cases h; exact hcall _
  · cases h; exact same _ rfl rfl rfl
  · cases h
  · next f rest out _ _ =>
    cases h
    cases f with
    | sendLoop =>
      simp only [St.runFrame]
      split
      · exact same _ rfl rfl rfl
      · next c ps hp =>
        split
        · exact same _ rfl rfl rfl
        split
        · exact same _ rfl rfl rfl
        split
        · next skip stream =>
          refine ⟨?_, ?_, ?_⟩
          · intro x hx
            rcases List.mem_append.1 hx with hx | hx
            · exact List.mem_cons_of_mem _ (hw.act x (List.mem_filter.1 hx).1)
            · simp at hx; subst hx; exact List.mem_cons_self ..
          · intro n a st hm
            rcases List.mem_cons.1 hm with e | hm
            · cases e; simp only; omega
            · have := hw.old n a st hm; simp only; omega
          · intro n a st n' st' h1 h2
            rcases List.mem_cons.1 h1 with e1 | h1
            · cases e1
              rcases List.mem_cons.1 h2 with e2 | h2
              · cases e2; exact ⟨rfl, rfl⟩
              · have := hw.old _ _ _ h2; omega
            · rcases List.mem_cons.1 h2 with e2 | h2
              · cases e2; have := hw.old _ _ _ h1; omega
              · exact hw.uniq n a st n' st' h1 h2
        · exact same _ rfl rfl rfl
        · exact same _ rfl rfl rfl
    | user => exact same _ rfl rfl rfl
    | _ =>
      simp only [St.runFrame]
      (repeat' split) <;> first
        | exact same _ rfl rfl rfl
        | exact ent _ _ _ (by intros; simp) (fun _ h => h) rfl rfl
        | exact hcon _ _ _ rfl rfl rfl
        | exact hfr _ _ _ _ rfl rfl rfl
        | exact none _ rfl rfl rfl
  · cases h

theorem wired_run (auto : Bool) (ms mp : Nat) (chs : List Choice) (s : St) (h : (St.init auto ms mp).run chs = some s) : Wired s :=
  run_inv Wired wired_step _ chs s h ⟨by simp [St.init], by simp [St.init], by simp [St.init]⟩

/-- **C137** A response of the network completes the one request that was sent under its id. -/
theorem C137_response (auto : Bool) (ms mp : Nat) (chs : List Choice) (s s' : St) (h : (St.init auto ms mp).run chs = some s)
    (app r : Nat) (he : s.doEvent (.response app r) = some s') :
    s' = s ∨ ∃ n st, s'.trace = .done n (.response r) :: s.trace ∧ .sent n app st ∈ s.trace ∧
      ∀ n' st', .sent n' app st' ∈ s.trace → n' = n := by
  have hw := wired_run auto ms mp chs s h
  simp only [St.doEvent] at he
  split at he
  · cases he; exact .inl rfl
  · next c hc =>
    cases he
    have hm := hw.act c (List.mem_of_find?_eq_some hc)
    have ha : c.app = app := by have := List.find?_some hc; simpa using this
    rw [ha] at hm
    exact .inr ⟨c.call, c.stream, rfl, hm, fun n' st' h' => (hw.uniq _ _ _ _ _ h' hm).1⟩

/-- Two requests sent at once, answered in the other order; the callback of the second pushes a third. -/
def demo : List Choice :=
  [.call (.push true), .call (.push true), .event (.connector true), .event (.handshake true), .go .refused, .go .refused,
   .go (.ok 0 1), .go (.ok 3 3), .go .refused, .event (.response 5 9), .call (.push true), .go .refused, .go (.ok 0 5), .go .refused, .ret,
   .go .refused, .go .refused, .go .refused, .event (.response 1 8), .ret, .go .refused, .go .refused, .go .refused]

theorem C137_example :
    ((St.init true 10 10).run demo).map (fun s => (completions s.trace, s.held, sends s.trace, s.stack)) =
      some ([1, 2], [3], [3, 2, 1], []) := by decide

/-! ### Limits -/

/-- **C138** No more requests are on the wire than the limit of concurrent streams. -/
theorem C138_streams (auto : Bool) (ms mp : Nat) (chs : List Choice) (s : St) (h : (St.init auto ms mp).run chs = some s) :
    s.active.length ≤ ms := by
  have key : ∀ (s : St) ch s', s.step ch = some s' → (s.maxStreams = ms ∧ s.active.length ≤ ms) → (s'.maxStreams = ms ∧ s'.active.length ≤ ms) := by
    intro s ch s' h ⟨hm, hi⟩
    have hcon : ∀ (t : St) cb rest, (t.connect cb rest).active = t.active ∧ (t.connect cb rest).maxStreams = t.maxStreams := by
      intro t cb rest; unfold St.connect; (split <;> (try split)) <;> exact ⟨rfl, rfl⟩
    have hfr : ∀ (a b : Nat) (rest : List Frame), (s.failRequest a b rest).maxStreams = ms ∧ (s.failRequest a b rest).active.length ≤ ms := by
      intro a b rest; unfold St.failRequest
      split
      · exact ⟨hm, hi⟩
      · exact ⟨hm, Nat.le_trans (List.length_filter_le _ _) hi⟩
    have hcall : ∀ c, (s.doCall c).maxStreams = ms ∧ (s.doCall c).active.length ≤ ms := by
      intro c
      cases c with
      | push v =>
        simp only [St.doCall, St.push]
        (repeat' split) <;> first | exact ⟨hm, hi⟩ | (rw [(hcon _ _ _).1, (hcon _ _ _).2]; exact ⟨hm, hi⟩)
      | connect b => simp only [St.doCall]; split <;> rw [(hcon _ _ _).1, (hcon _ _ _).2] <;> exact ⟨hm, hi⟩
      | disconnect => exact ⟨hm, hi⟩
    unfold St.step at h
    split at h
    · cases h
    split at h
    · cases h; exact hcall _
    · next e _ =>
      cases e <;> simp only [St.doEvent] at h <;> (try split at h) <;> (try split at h) <;> cases h <;>
        first
          | exact ⟨hm, hi⟩
          | exact hfr _ _ _
          | exact ⟨hm, Nat.le_trans (List.length_filter_le _ _) hi⟩
    · cases h; exact hcall _
    · cases h; exact ⟨hm, hi⟩
    · cases h
    · next f rest out _ _ =>
      cases h
      cases f <;> simp only [St.runFrame] <;> (repeat' split) <;>
        first
          | exact ⟨hm, hi⟩
          | exact hfr _ _ _
          | (rw [(hcon _ _ _).1, (hcon _ _ _).2]; exact ⟨hm, hi⟩)
          | exact ⟨hm, Nat.zero_le _⟩
          | (refine ⟨hm, ?_⟩
             simp only [List.length_append, List.length_cons, List.length_nil]
             rename_i hlt _ _ sk _
             have := List.length_filter_le (fun c : Ctx => decide (c.app ≠ s.nextApp + sk)) s.active
             rw [hm] at hlt
             omega)
    · cases h
  exact (run_inv (fun s => s.maxStreams = ms ∧ s.active.length ≤ ms) key _ chs s h ⟨rfl, Nat.zero_le _⟩).2

/-- **C138** What a call of `push_request` does at once: an invalid request is refused with 400, a request over
the limit with 503, and neither touches the requests already held; any other request joins the end of
the queue. -/
theorem C138_admission (s : St) (valid : Bool) :
    let s' := s.push valid
    (valid = false → s'.trace = .done (s.total + 1) (.error 400) :: s.trace ∧ s'.pending = s.pending ∧ s'.active = s.active) ∧
    (valid = true → s.maxPending ≤ s.pending.length + s.active.length →
      s'.trace = .done (s.total + 1) (.error 503) :: s.trace ∧ s'.pending = s.pending ∧ s'.active = s.active) ∧
    (valid = true → s.pending.length + s.active.length < s.maxPending →
      s'.trace = s.trace ∧ s'.pending.map (·.call) = s.pending.map (·.call) ++ [s.total + 1] ∧ s'.active = s.active) := by
  refine ⟨?_, ?_, ?_⟩
  · intro hv; subst hv; exact ⟨rfl, rfl, rfl⟩
  · intro hv hm; subst hv
    simp only [St.push]
    rw [if_neg (by simp), if_pos hm]
    exact ⟨rfl, rfl, rfl⟩
  · intro hv hm; subst hv
    simp only [St.push]
    rw [if_neg (by simp), if_neg (by omega)]
    split
    · exact ⟨rfl, by simp, rfl⟩
    · next h1 =>
      split
      · next h2 =>
        unfold St.connect
        rw [if_neg h1, if_neg (by simpa using h2)]
        exact ⟨rfl, by simp, rfl⟩
      · exact ⟨rfl, by simp, rfl⟩

theorem C138_example :
    ((St.init true 1 2).run [.call (.push true), .call (.push true), .call (.push true), .ret, .event (.connector true),
      .event (.handshake true), .go .refused, .go .refused, .go (.ok 0 1), .go .refused]).map
      (fun s => (s.pending.map (·.call), s.active.map (·.call), completions s.trace, s.stack)) = some ([2], [1], [3], []) := by decide

/-! ### Statistics -/

structure Counts (b : Book) : Prop where
  ok : b.successful = answered b.log
  bad : b.failed = refused b.log
  sum : b.successful + b.failed + b.held.length = b.total

theorem len_eq {l l' : List Nat} (h : Book.Eq l l') : l.length = l'.length :=
  (List.perm_iff_count.2 fun n => h n).length_eq

theorem counts_move (b b' : Book) (hm : Move b b') (h : Counts b) : Counts b' := by
  obtain ⟨h1, h2, h3⟩ := h
  have a1 : ∀ n r t, answered (.done n (.response r) :: t) = answered t + 1 := fun _ _ _ => by simp [answered]
  have a2 : ∀ n r t, answered (.done n (.error r) :: t) = answered t := fun _ _ _ => by simp [answered]
  have a3 : ∀ n a r t, answered (.sent n a r :: t) = answered t := fun _ _ _ _ => by simp [answered]
  have r1 : ∀ n r t, refused (.done n (.response r) :: t) = refused t := fun _ _ _ => by simp [refused]
  have r2 : ∀ n r t, refused (.done n (.error r) :: t) = refused t + 1 := fun _ _ _ => by simp [refused]
  have r3 : ∀ n a r t, refused (.sent n a r :: t) = refused t := fun _ _ _ _ => by simp [refused]
  cases hm with
  | refuse e t s f l hh q =>
    have := len_eq hh
    exact ⟨by rw [l, a2, s, h1], by rw [l, r2, f, h2], by omega⟩
  | accept t s f l hh q =>
    have := len_eq hh; simp at this
    exact ⟨by rw [l, s, h1], by rw [l, f, h2], by omega⟩
  | answer k r t s f l hh q =>
    have := len_eq hh; simp at this
    exact ⟨by rw [l, a1, s, h1], by rw [l, r1, f, h2], by omega⟩
  | fail k r t s f l hh q =>
    have := len_eq hh; simp at this
    exact ⟨by rw [l, a2, s, h1], by rw [l, r2, f, h2], by omega⟩
  | send k a st t s f l hh q =>
    have := len_eq hh
    exact ⟨by rw [l, a3, s, h1], by rw [l, r3, f, h2], by omega⟩
  | skip t s f l hh q =>
    have := len_eq hh
    exact ⟨by rw [l, s, h1], by rw [l, f, h2], by omega⟩

/-- **C139** Whenever the client is idle its statistics are exact: the successes are the callbacks that got a
response, the failures those that got an error, and together with the requests held they are all the
calls of `push_request`. -/
theorem C139_stats (auto : Bool) (ms mp : Nat) (chs : List Choice) (s : St) (h : (St.init auto ms mp).run chs = some s)
    (hidle : s.stack = []) :
    s.total = pushes chs ∧ s.successful = answered s.trace ∧ s.failed = refused s.trace ∧
      s.successful + s.failed + s.held.length = pushes chs := by
  have h0 : Counts (St.init auto ms mp).book := by refine ⟨?_, ?_, ?_⟩ <;> simp [St.init, St.book, answered, refused, St.held]
  obtain ⟨c1, c2, c3⟩ := (run_book Counts counts_move _ chs s h (apps_init ..) h0).1
  have h3 : s.total = pushes chs := by rw [run_total _ chs s h]; simp [St.init]
  simp only [St.book, hidle, List.map_nil, List.sum_nil, Nat.add_zero, answered_filter, refused_filter] at c1 c2 c3
  exact ⟨h3, c1, c2, by rw [← h3]; exact c3⟩

/-- **C139** Within a callback the failures may be behind by the callbacks of refused sends under way. -/
theorem C139_within_callbacks (auto : Bool) (ms mp : Nat) (chs : List Choice) (s : St) (h : (St.init auto ms mp).run chs = some s) :
    s.failed + s.stack.count .countFailed = refused s.trace := by
  have h0 : Counts (St.init auto ms mp).book := by refine ⟨?_, ?_, ?_⟩ <;> simp [St.init, St.book, answered, refused, St.held]
  obtain ⟨c1, c2, c3⟩ := (run_book Counts counts_move _ chs s h (apps_init ..) h0).1
  simp only [St.book, refused_filter] at c2
  have : ∀ l : List Frame, (l.map Frame.uncounted).sum = l.count .countFailed := by
    intro l
    induction l with
    | nil => rfl
    | cons f l ih => cases f <;> simp [Frame.uncounted, ih] <;> omega
  rw [this] at c2
  exact c2

theorem C139_example :
    ((St.init true 10 10).run demo).map (fun s => (s.total, s.successful, s.failed, s.held.length, s.stack)) = some (3, 2, 0, 1, []) := by decide

end Verif.Cli2
