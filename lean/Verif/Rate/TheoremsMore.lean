import Verif.Rate.Theorems

/-! # The rate limiter: isolation, the announced quota, and who a client is (C82-C84) -/

namespace Verif.Rate

/-- No record, or one whose window is over. -/
def Dead (o : Options) (u : Int) (c : Bytes) (s : St) : Prop := ∀ r, find s.clients c = some r → expired o u r = true

/-- The record and the verdict for a request that finds the record `r`. -/
def next (o : Options) (k : Clock) (r : Rec) : Rec × Verdict :=
  if r.count ≥ o.maxRequests then (r, .limited (headers o k.shown r))
  else ({ r with count := r.count + 1 }, .allowed (headers o k.shown { r with count := r.count + 1 }))

theorem count_next {o s c k} (hf : ¬ (s.clients.length ≥ MAX_TRACKED_CLIENTS ∧ find s.clients c = none)) :
    (count o s c k).2 = (next o k (current o k s.clients c)).2 ∧
    find (count o s c k).1.clients c = some (next o k (current o k s.clients c)).1 := by
  unfold count next
  rw [if_neg hf]
  simp only []
  split
  · exact ⟨rfl, by show find (put _ _ _) c = _; rw [find_put, if_pos rfl]⟩
  · exact ⟨rfl, by show find (put _ _ _) c = _; rw [find_put, if_pos rfl]⟩

theorem process_short {o s c k} (hc : c.length ≤ MAX_CLIENT_ID_LENGTH) : process o s c k = count o (housekeeping o s k.now) c k := by
  unfold process
  rw [if_neg (by omega), List.take_of_length_le hc]

theorem own_live {o s c k r} (hd : Distinct s) (hc : c.length ≤ MAX_CLIENT_ID_LENGTH) (hf : find s.clients c = some r)
    (hx : expired o k.now r = false) :
    (process o s c k).2 = (next o k r).2 ∧ find (process o s c k).1.clients c = some (next o k r).1 := by
  rw [process_short hc]
  have hh : find (housekeeping o s k.now).clients c = some r := by
    rcases find_housekeeping (o := o) (now := k.now) (c := c) hd with h | ⟨r', h1, h2, _⟩
    · rw [h, hf]
    · rw [hf] at h1; cases h1; rw [hx] at h2; simp at h2
  have := count_next (o := o) (k := k) (s := housekeeping o s k.now) (c := c) (by rw [hh]; simp)
  have hcur : current o k (housekeeping o s k.now).clients c = r := by
    unfold current; simp [hh, hx]
  rw [hcur] at this
  exact this

theorem own_dead {o s c k} (hd : Distinct s) (hc : c.length ≤ MAX_CLIENT_ID_LENGTH) (hf : Dead o k.now c s) (hk : k.created = k.now) :
    ((process o s c k).2 = .full ∧ s.clients.length ≥ MAX_TRACKED_CLIENTS) ∨
    (process o s c k).2 = (next o k ⟨0, k.now⟩).2 ∧ find (process o s c k).1.clients c = some (next o k ⟨0, k.now⟩).1 := by
  rw [process_short hc]
  by_cases hfull : (housekeeping o s k.now).clients.length ≥ MAX_TRACKED_CLIENTS ∧ find (housekeeping o s k.now).clients c = none
  · left
    refine ⟨by unfold count; rw [if_pos hfull], Nat.le_trans hfull.1 ?_⟩
    unfold housekeeping
    split
    · exact List.length_filter_le ..
    · exact Nat.le_refl _
  · right
    have := count_next (o := o) (k := k) hfull
    have hcur : current o k (housekeeping o s k.now).clients c = ⟨0, k.now⟩ := by
      unfold current
      simp only []
      rcases find_housekeeping (o := o) (now := k.now) (c := c) hd with h | ⟨r', h1, h2, h3⟩
      · rw [h]
        cases hfs : find s.clients c with
        | none => simp [hk]
        | some r => simp [hf r hfs]
      · rw [h3]; simp [hk]
    rw [hcur] at this
    exact this

theorem dead_mono {o u u' c s} (hp : Past u s) (h : u ≤ u') (hd : Dead o u c s) : Dead o u' c s :=
  fun r hr => expired_mono (past_find hp hr) h (hd r hr)

/-- Two middlewares that will treat `c` alike from `u` on. -/
def Alike (o : Options) (u : Int) (c : Bytes) (s1 s2 : St) : Prop :=
  find s1.clients c = find s2.clients c ∨ (Dead o u c s1 ∧ Dead o u c s2)

theorem alike_mono {o u u' c s1 s2} (p1 : Past u s1) (p2 : Past u s2) (h : u ≤ u') : Alike o u c s1 s2 → Alike o u' c s1 s2
  | .inl e => .inl e
  | .inr ⟨a, b⟩ => .inr ⟨dead_mono p1 h a, dead_mono p2 h b⟩

/-- Dropping the stale record of one of them changes nothing. -/
theorem alike_drop {o u c s1 s1' s2} (h : Alike o u c s1 s2)
    (hx : find s1'.clients c = find s1.clients c ∨ ∃ r, find s1.clients c = some r ∧ expired o u r = true ∧ find s1'.clients c = none) :
    Alike o u c s1' s2 := by
  have dn : ∀ {s : St}, find s.clients c = none → Dead o u c s := fun g r hr => by rw [g] at hr; simp at hr
  rcases hx with hx | ⟨r, h1, h2, h3⟩
  · rcases h with h | ⟨a, b⟩
    · exact .inl (hx.trans h)
    · exact .inr ⟨fun r hr => a r (hx ▸ hr), b⟩
  · refine .inr ⟨dn h3, ?_⟩
    rcases h with h | ⟨_, b⟩
    · intro r' hr'
      rw [← h, h1] at hr'; cases hr'; exact h2
    · exact b

theorem verdicts_append (a b : List Entry) (c) : verdicts (a ++ b) c = verdicts a c ++ verdicts b c := by simp [verdicts]

theorem verdicts_other {e : Entry} {c} (h : e.client ≠ c) : verdicts [e] c = [] := by simp [verdicts, h]

theorem verdicts_own {e : Entry} {c} (h : e.client = c) : verdicts [e] c = [e.verdict] := by simp [verdicts, h]

theorem solo_process {o s c k} (h : ∀ e ∈ s.clients, e.1 = c) : ∀ e ∈ (process o s c k).1.clients, e.1 = c := by
  unfold process
  split
  · exact h
  · rename_i hl
    rw [List.take_of_length_le (by simpa using hl)]
    have hh : ∀ e ∈ (housekeeping o s k.now).clients, e.1 = c := by
      unfold housekeeping
      split
      · intro e he; exact h e (List.mem_filter.1 he).1
      · exact h
    unfold count
    split
    · exact hh
    · simp only []
      split
      · intro e he
        rcases mem_put he with rfl | he
        · rfl
        · exact hh e he
      · intro e he
        rcases mem_put he with rfl | he
        · rfl
        · exact hh e he

theorem solo_size {s : St} {c} (hd : Distinct s) (h : ∀ e ∈ s.clients, e.1 = c) : s.clients.length < MAX_TRACKED_CLIENTS := by
  have : s.clients.length ≤ 1 := by
    cases hs : s.clients with
    | nil => simp
    | cons a l =>
      cases l with
      | nil => simp
      | cons b l =>
        unfold Distinct at hd
        rw [hs] at hd h
        have h1 := h a (by simp)
        have h2 := h b (by simp)
        simp [h1, h2] at hd
  have : MAX_TRACKED_CLIENTS = 100000 := rfl
  omega

theorem alike_run {o c} : ∀ (es : List Event) {u s1 s2}, Ordered u es → Past u s1 → Past u s2 → Distinct s1 → Distinct s2 →
    (∀ e ∈ s2.clients, e.1 = c) → Alike o u c s1 s2 → (∀ k, Event.request c k ∈ es → k.created = k.now) →
    (∀ v ∈ verdicts (run o s1 es).2 c, v ≠ .full) →
    verdicts (run o s1 es).2 c = verdicts (run o s2 (es.filter (concerns c))).2 c
  | [], _, _, _, _, _, _, _, _, _, _, _, _ => rfl
  | e :: es, u, s1, s2, ho, p1, p2, d1, d2, hs, ha, hk, hf => by
    have hk' : ∀ k, Event.request c k ∈ es → k.created = k.now := fun k h => hk k (List.mem_cons_of_mem _ h)
    rw [run_cons] at hf ⊢
    rw [verdicts_append] at hf ⊢
    have hf' : ∀ v ∈ verdicts (run o (step o s1 e).1 es).2 c, v ≠ .full := fun v hv => hf v (List.mem_append_right _ hv)
    have d1' := distinct_step (o := o) (e := e) d1
    cases e with
    | request d k =>
      obtain ⟨h1, h2, h3, h4⟩ := ho
      have p1' : Past k.shown (step o s1 (.request d k)).1 := past_mono h3 (past_process (past_mono h1 p1) h2)
      by_cases hdc : d = c
      · subst hdc
        have hfil : (Event.request d k :: es).filter (concerns d) = .request d k :: es.filter (concerns d) := by simp [concerns]
        rw [hfil, run_cons, verdicts_append]
        have hkk := hk k (List.mem_cons_self ..)
        have p2' : Past k.shown (step o s2 (.request d k)).1 := past_mono h3 (past_process (past_mono h1 p2) h2)
        have d2' := distinct_step (o := o) (e := .request d k) d2
        have hs' : ∀ e ∈ (step o s2 (.request d k)).1.clients, e.1 = d := solo_process hs
        have ha' := alike_mono p1 p2 h1 ha
        have hv : (process o s1 d k).2 ≠ .full := by
          apply hf
          apply List.mem_append_left
          show _ ∈ verdicts [(⟨d, k, _⟩ : Entry)] d
          rw [verdicts_own rfl]; simp
        have hv2 := solo_size d2 hs
        have main : (process o s1 d k).2 = (process o s2 d k).2 ∧
            Alike o k.shown d (step o s1 (.request d k)).1 (step o s2 (.request d k)).1 := by
          by_cases hl : d.length ≤ MAX_CLIENT_ID_LENGTH
          · by_cases hlive : ∃ r, find s1.clients d = some r ∧ expired o k.now r = false
            · obtain ⟨r, g1, g2⟩ := hlive
              have g1' : find s2.clients d = some r := by
                rcases ha' with h | ⟨a, _⟩
                · rw [← h, g1]
                · rw [a r g1] at g2; simp at g2
              obtain ⟨q1, q2⟩ := own_live (k := k) d1 hl g1 g2
              obtain ⟨q3, q4⟩ := own_live (k := k) d2 hl g1' g2
              exact ⟨q1.trans q3.symm, .inl (q2.trans q4.symm)⟩
            · have dead1 : Dead o k.now d s1 := by
                intro r hr
                cases hx : expired o k.now r with
                | true => rfl
                | false => exact absurd ⟨r, hr, hx⟩ hlive
              have dead2 : Dead o k.now d s2 := by
                rcases ha' with h | ⟨_, b⟩
                · intro r hr; exact dead1 r (h ▸ hr)
                · exact b
              rcases own_dead d1 hl dead1 hkk with ⟨h, _⟩ | ⟨q1, q2⟩
              · exact absurd h hv
              · rcases own_dead d2 hl dead2 hkk with ⟨_, h⟩ | ⟨q3, q4⟩
                · omega
                · exact ⟨q1.trans q3.symm, .inl (q2.trans q4.symm)⟩
          · have e1 : ∀ s, process o s d k = (s, .badId) := by intro s; unfold process; rw [if_pos (by omega)]
            refine ⟨by rw [e1, e1], ?_⟩
            show Alike o k.shown d (process o s1 d k).1 (process o s2 d k).1
            rw [e1, e1]
            exact alike_mono p1 p2 (by omega) ha
        have ih := alike_run es h4 p1' p2' d1' d2' hs' main.2 hk' hf'
        rw [ih]
        congr 1
        show verdicts [(⟨d, k, _⟩ : Entry)] d = verdicts [(⟨d, k, _⟩ : Entry)] d
        rw [verdicts_own rfl, verdicts_own rfl]
        exact congrArg (fun v => [v]) main.1
      · have hfil : (Event.request d k :: es).filter (concerns c) = es.filter (concerns c) := by simp [concerns, hdc]
        rw [hfil]
        have ha' : Alike o k.shown c (step o s1 (.request d k)).1 s2 := by
          refine alike_drop (alike_mono p1 p2 (by omega) ha) ?_
          rcases find_process_other (o := o) (t := k) d1 hdc with g | ⟨r, g1, g2, g3⟩
          · exact .inl g
          · exact .inr ⟨r, g1, expired_mono (past_find (past_mono h1 p1) g1) (by omega) g2, g3⟩
        have ih := alike_run es h4 p1' (past_mono (by omega) p2) d1' d2 hs ha' hk' hf'
        rw [ih]
        show verdicts [(⟨d, k, _⟩ : Entry)] c ++ _ = _
        rw [verdicts_other hdc]; rfl
    | resetAll =>
      have hfil : (Event.resetAll :: es).filter (concerns c) = .resetAll :: es.filter (concerns c) := rfl
      rw [hfil, run_cons, verdicts_append]
      have ih := alike_run (o := o) (c := c) es (s1 := (step o s1 .resetAll).1) (s2 := (step o s2 .resetAll).1) ho
        (fun e he => nomatch he) (fun e he => nomatch he) d1' (distinct_step (e := .resetAll) d2)
        (fun e he => nomatch he) (.inl rfl) hk' hf'
      rw [ih]; rfl
    | resetClient d =>
      have p1' : Past u (step o s1 (.resetClient d)).1 := fun e he => p1 e (List.mem_filter.1 he).1
      by_cases hdc : d = c
      · subst hdc
        have hfil : (Event.resetClient d :: es).filter (concerns d) = .resetClient d :: es.filter (concerns d) := by simp [concerns]
        rw [hfil, run_cons, verdicts_append]
        have p2' : Past u (step o s2 (.resetClient d)).1 := fun e he => p2 e (List.mem_filter.1 he).1
        have en : ∀ s : St, find (step o s (.resetClient d)).1.clients d = none := by
          intro s
          rw [find_none_iff]
          simp [step, erase]
        have ih := alike_run (o := o) (c := d) es ho p1' p2' d1' (distinct_step (e := .resetClient d) d2)
          (fun e he => hs e (List.mem_filter.1 he).1) (.inl ((en s1).trans (en s2).symm)) hk' hf'
        rw [ih]; rfl
      · have hfil : (Event.resetClient d :: es).filter (concerns c) = es.filter (concerns c) := by simp [concerns, hdc]
        rw [hfil]
        have ha' : Alike o u c (step o s1 (.resetClient d)).1 s2 := alike_drop ha (.inl (find_erase_other d1 hdc))
        have ih := alike_run (o := o) (c := c) es ho p1' p2 d1' d2 hs ha' hk' hf'
        rw [ih]; rfl
    | evictNow k =>
      obtain ⟨h1, h2⟩ := ho
      have hfil : (Event.evictNow k :: es).filter (concerns c) = es.filter (concerns c) := by simp [concerns]
      rw [hfil]
      have p1' : Past k (step o s1 (.evictNow k)).1 := fun e he => by have := p1 e (List.mem_filter.1 he).1; omega
      have ha' : Alike o k c (step o s1 (.evictNow k)).1 s2 := alike_drop (alike_mono p1 p2 h1 ha) (find_evict d1)
      have ih := alike_run (o := o) (c := c) es h2 p1' (past_mono h1 p2) d1' d2 hs ha' hk' hf'
      rw [ih]; rfl

/-- C82 (part): the other clients do not matter.  What happens to the requests of `c` - verdicts and headers - is
what would have happened without any request of another client, any sweep and any operation on another client,
as long as the table is not full when `c` asks, and if the clock does not advance between the two readings
(`now`, and the creation of a record) inside one call. -/
theorem C82_isolation_partial (o : Options) (t₀ : Int) (es : List Event) (c : Bytes) (ho : Ordered t₀ es)
    (hk : ∀ k, Event.request c k ∈ es → k.created = k.now) (hf : ∀ v ∈ verdicts (history o t₀ es) c, v ≠ .full) :
    verdicts (history o t₀ es) c = verdicts (history o t₀ (es.filter (concerns c))) c :=
  alike_run es ho (past_init t₀) (past_init t₀) (distinct_init t₀) (distinct_init t₀) (fun e he => nomatch he) (.inl rfl) hk hf

/-- Without the assumption on the clock C82 is false: a request of another client can move the moment at which a
stale record is dropped rather than reset, and a record created afresh starts a few nanoseconds later than a
record that is reset; a request exactly one window later is then refused instead of passed on. -/
theorem C82_false_skew : ∃ (o : Options) (es : List Event) (c : Bytes), Ordered 0 es ∧
    verdicts (history o 0 es) c ≠ verdicts (history o 0 (es.filter (concerns c))) c := by
  refine ⟨{ maxRequests := 1, window := 1000000 },
    [.request b!"d" ⟨60400000000, 60400000000, 60400000000⟩, .request b!"c" ⟨60500000000, 60500000000, 60500000000⟩,
      .request b!"c" ⟨120450000000, 120450000005, 120450000005⟩, .request b!"c" ⟨120451000000, 120451000000, 120451000000⟩], b!"c", ?_, ?_⟩
  · simp [Ordered]
  · decide +kernel

/-! ## the announced quota -/

theorem promise {o c} : ∀ (es : List Event) {s} (n : Nat), Distinct s → NotReset c es → n ≤ o.maxRequests →
    (∀ r, find s.clients c = some r → r.count + n ≤ o.maxRequests) →
    ∀ v ∈ (verdicts (run o s es).2 c).take n, v.refused = false
  | [], _, _, _, _, _, _, v, hv => by simp [run, verdicts] at hv
  | e :: es, s, n, hd, hr, hn, hc, v, hv => by
    have hd' := distinct_step (o := o) (e := e) hd
    have hrt := notReset_tail hr
    rw [run_cons, verdicts_append] at hv
    -- dropping the record keeps the promise
    have other : ∀ s' : St, Distinct s' → (find s'.clients c = find s.clients c ∨ find s'.clients c = none) →
        v ∈ (verdicts (run o s' es).2 c).take n → v.refused = false := by
      intro s' hd' hs' hv
      refine promise es n hd' hrt hn ?_ v hv
      intro r hf
      rcases hs' with h | h
      · exact hc r (h ▸ hf)
      · rw [h] at hf; simp at hf
    cases e with
    | request d k =>
      by_cases hdc : d = c
      · subst hdc
        have hone : verdicts (step o s (.request d k)).2 d = [(process o s d k).2] := verdicts_own (e := ⟨d, k, _⟩) rfl
        rw [hone] at hv
        cases n with
        | zero => simp at hv
        | succ m =>
          rw [List.singleton_append, List.take_succ_cons] at hv
          have hm : ∀ {x : Option Rec}, find (step o s (.request d k)).1.clients d = x → (∀ r, x = some r → r.count + m ≤ o.maxRequests) →
              v ∈ (verdicts (run o (step o s (.request d k)).1 es).2 d).take m → v.refused = false :=
            fun hx h hv => promise es m hd' hrt (by omega) (fun r hf => h r (hx ▸ hf)) v hv
          rcases own (o := o) (c := d) (t := k) hd with g | ⟨g, g2, g3⟩ | ⟨r', g, g2, g3, g4⟩ | ⟨r', g1, g2, g3, g4, g5⟩ | ⟨ρ, g1, g2, g3, g4, g5⟩
          · rcases List.mem_cons.1 hv with hv | hv
            · rw [hv, g]; rfl
            · refine hm (x := find s.clients d) (by show find (process o s d k).1.clients d = _; rw [g]) ?_ hv
              intro r hf; have := hc r hf; omega
          · rcases List.mem_cons.1 hv with hv | hv
            · rw [hv, g]; rfl
            · exact hm g2 (fun r hf => by simp at hf) hv
          · exfalso
            rcases g4 with ⟨g4, _⟩ | g4
            · have := hc r' g4; omega
            · omega
          · rcases List.mem_cons.1 hv with hv | hv
            · rw [hv, g1]; rfl
            · refine hm g2 (fun r hf => ?_) hv
              cases hf
              have := hc r' g4
              show r'.count + 1 + m ≤ _
              omega
          · rcases List.mem_cons.1 hv with hv | hv
            · rw [hv, g1]; rfl
            · refine hm g2 (fun r hf => ?_) hv
              cases hf
              show 1 + m ≤ _
              omega
      · have hone : verdicts (step o s (.request d k)).2 c = [] := verdicts_other (e := ⟨d, k, _⟩) hdc
        rw [hone, List.nil_append] at hv
        refine other _ hd' ?_ hv
        rcases find_process_other (o := o) (t := k) hd hdc with g | ⟨r, g1, g2, g3⟩
        · exact .inl g
        · exact .inr g3
    | resetAll => exact (hr .resetAll (List.mem_cons_self ..)).elim
    | resetClient d =>
      have hdc : d ≠ c := hr (.resetClient d) (List.mem_cons_self ..)
      exact other _ hd' (.inl (find_erase_other hd hdc)) hv
    | evictNow k =>
      refine other _ hd' ?_ hv
      rcases find_evict (o := o) (now := k) (c := c) hd with g | ⟨r, g1, g2, g3⟩
      · exact .inl g
      · exact .inr g3

/-- A verdict that carries the three headers. -/
def Verdict.headers? : Verdict → Option Headers
  | .limited h => some h
  | .allowed h => some h
  | _ => none

/-- A response that carries headers leaves the record they describe. -/
theorem own_headers {o s c k h} (hd : Distinct s) (hh : (process o s c k).2.headers? = some h) :
    ∃ r, find (process o s c k).1.clients c = some r ∧ h = headers o k.shown r := by
  rcases own (o := o) (c := c) (t := k) hd with g | ⟨g, g2, g3⟩ | ⟨r', g, g2, g3, g4⟩ | ⟨r', g1, g2, g3, g4, g5⟩ | ⟨ρ, g1, g2, g3, g4, g5⟩
  · rw [g] at hh; simp [Verdict.headers?] at hh
  · rw [g] at hh; simp [Verdict.headers?] at hh
  · rw [g] at hh; simp [Verdict.headers?] at hh; exact ⟨_, g2, hh.symm⟩
  · rw [g1] at hh; simp [Verdict.headers?] at hh; exact ⟨_, g2, hh.symm⟩
  · rw [g1] at hh; simp [Verdict.headers?] at hh; exact ⟨_, g2, hh.symm⟩

/-- C83: the limit announced is the configured one, and `X-RateLimit-Remaining` is a promise - whatever happens
next (requests of other clients, sweeps), that many further requests of the client are not refused for lack
of quota. -/
theorem C83_remaining_is_promised (o : Options) (t₀ : Int) (es fs : List Event) (c : Bytes) (k : Clock) (v : Verdict) (h : Headers)
    (hv : (process o (run o (St.init t₀) es).1 c k).2 = v) (hh : v.headers? = some h) (hr : NotReset c fs) :
    h.limit = o.maxRequests ∧
    ∀ w ∈ (verdicts (run o (process o (run o (St.init t₀) es).1 c k).1 fs).2 c).take h.remaining, w.refused = false := by
  have hd := distinct_run (o := o) es (distinct_init t₀)
  obtain ⟨r, h1, h2⟩ := own_headers hd (hv ▸ hh)
  subst h2
  refine ⟨rfl, ?_⟩
  by_cases hle : o.maxRequests > r.count
  · have hrem : (headers o k.shown r).remaining = o.maxRequests - r.count := by simp only [headers]; rw [if_pos hle]
    rw [hrem]
    refine promise fs _ (distinct_process hd) hr (by omega) ?_
    intro r' hf
    rw [h1] at hf; cases hf
    omega
  · have hrem : (headers o k.shown r).remaining = 0 := by simp only [headers]; rw [if_neg hle]
    rw [hrem]
    intro w hw; simp at hw

theorem blocked {o c} (B : Int) (hlen : c.length ≤ MAX_CLIENT_ID_LENGTH) : ∀ (es : List Event) {u s r}, Ordered u es → Past u s → Distinct s → NotReset c es →
    find s.clients c = some r → r.count ≥ o.maxRequests → (∀ now, u ≤ now → now < B → expired o now r = false) →
    ∀ e ∈ (run o s es).2, e.client = c → e.time.now < B → e.verdict.refused = true
  | [], _, _, _, _, _, _, _, _, _, _, e, he, _, _ => by simp [run] at he
  | ev :: es, u, s, r, ho, hp, hd, hr, hf, hm, hx, e, he, hec, heb => by
    have hd' := distinct_step (o := o) (e := ev) hd
    have hrt := notReset_tail hr
    rw [run_cons] at he
    cases ev with
    | request d k =>
      obtain ⟨h1, h2, h3, h4⟩ := ho
      have hp' : Past k.shown (step o s (.request d k)).1 := past_mono h3 (past_process (past_mono h1 hp) h2)
      by_cases hk : k.now < B
      · have hxk := hx k.now h1 hk
        have hf' : find (step o s (.request d k)).1.clients c = some r := by
          by_cases hdc : d = c
          · subst hdc
            have := (own_live (k := k) hd hlen hf hxk).2
            simp only [next, if_pos hm] at this
            exact this
          · rcases find_process_other (o := o) (t := k) hd hdc with g | ⟨r', g1, g2, g3⟩
            · exact g.trans hf
            · rw [hf] at g1; cases g1; rw [hxk] at g2; simp at g2
        rcases List.mem_append.1 he with he | he
        · simp [step] at he
          subst he
          have hdc : d = c := hec
          subst hdc
          show (process o s d k).2.refused = true
          rw [(own_live (k := k) hd hlen hf hxk).1]
          simp only [next, if_pos hm]; rfl
        · exact blocked B hlen es h4 hp' hd' hrt hf' hm (fun now g1 g2 => hx now (by omega) g2) e he hec heb
      · rcases List.mem_append.1 he with he | he
        · simp [step] at he
          subst he
          exact absurd heb hk
        · have := log_after es h4 e he
          omega
    | resetAll => exact (hr .resetAll (List.mem_cons_self ..)).elim
    | resetClient d =>
      have hdc : d ≠ c := hr (.resetClient d) (List.mem_cons_self ..)
      have hp' : Past u (step o s (.resetClient d)).1 := fun e he => hp e (List.mem_filter.1 he).1
      exact blocked B hlen es ho hp' hd' hrt ((find_erase_other hd hdc).trans hf) hm hx e (by simpa [step] using he) hec heb
    | evictNow k =>
      obtain ⟨h1, h2⟩ := ho
      have hp' : Past k (step o s (.evictNow k)).1 := fun e he => by have := hp e (List.mem_filter.1 he).1; omega
      have he : e ∈ (run o (step o s (.evictNow k)).1 es).2 := by simpa [step] using he
      by_cases hk : k < B
      · have hf' : find (step o s (.evictNow k)).1.clients c = some r := by
          rcases find_evict (o := o) (now := k) (c := c) hd with g | ⟨r', g1, g2, g3⟩
          · exact g.trans hf
          · rw [hf] at g1; cases g1; rw [hx k h1 hk] at g2; simp at g2
        exact blocked B hlen es h2 hp' hd' hrt hf' hm (fun now g1 g2 => hx now (by omega) g2) e he hec heb
      · have := log_after es h2 e he
        omega

/-- `X-RateLimit-Reset`, in nanoseconds after the response, is at most when the window ends, and at most a second
short of it. -/
theorem reset_bounds {o shown} {r : Rec} (hs : r.reset ≤ shown) :
    0 ≤ (headers o shown r).reset ∧
    ((headers o shown r).reset = 0 ∨ shown + (headers o shown r).reset * 1000000000 < r.reset + o.window + 1000000) ∧
    r.reset + o.window < shown + ((headers o shown r).reset + 1) * 1000000000 + 1000000 := by
  simp only [headers]
  rw [Int.tdiv_eq_ediv_of_nonneg (show 0 ≤ shown - r.reset by omega)]
  split
  · simp; omega
  · rename_i h
    rw [Int.tdiv_eq_ediv_of_nonneg (by omega)]
    omega

/-- C83: a client told that nothing remains is refused until `X-RateLimit-Reset` seconds later (less the
millisecond of the rounding). -/
theorem C83_refused_until_reset (o : Options) (t₀ : Int) (es fs : List Event) (c : Bytes) (k : Clock) (h : Headers)
    (ho : Ordered t₀ (es ++ .request c k :: fs)) (hr : NotReset c fs)
    (hh : (process o (run o (St.init t₀) es).1 c k).2.headers? = some h) (h0 : h.remaining = 0) :
    ∀ e ∈ (run o (process o (run o (St.init t₀) es).1 c k).1 fs).2, e.client = c →
      e.time.now < k.shown + h.reset * 1000000000 - 1000000 → e.verdict.refused = true := by
  obtain ⟨h1, h2, h3, h4, h5⟩ := ordered_append es ho
  have hd := distinct_run (o := o) es (distinct_init t₀)
  have hp := past_process (o := o) (c := c) (past_mono h2 (past_run (o := o) es h1 (past_init t₀))) h3
  obtain ⟨r, g1, g2⟩ := own_headers hd hh
  have hlen : c.length ≤ MAX_CLIENT_ID_LENGTH := by
    apply Nat.le_of_not_gt
    intro hl
    unfold process at hh
    rw [if_pos hl] at hh
    simp [Verdict.headers?] at hh
  have hreset : r.reset ≤ k.shown := by have := past_find hp g1; omega
  have hb := reset_bounds (o := o) hreset
  subst g2
  have hm : r.count ≥ o.maxRequests := by
    simp only [headers] at h0
    split at h0 <;> omega
  refine blocked _ hlen fs h5 (past_mono h4 hp) (distinct_process hd) hr g1 hm ?_
  intro now hn hlt
  cases hx : expired o now r with
  | false => rfl
  | true =>
    have := expired_le (by omega) hx
    omega

/-- Nothing but requests of `c` makes its record change before it is stale. -/
theorem idle {o c} : ∀ (es : List Event) {s}, Distinct s → NotReset c es → (∀ e ∈ (run o s es).2, e.client ≠ c) →
    find (run o s es).1.clients c = find s.clients c ∨ find (run o s es).1.clients c = none
  | [], _, _, _, _ => .inl rfl
  | e :: es, s, hd, hr, hi => by
    have hd' := distinct_step (o := o) (e := e) hd
    rw [run_cons] at hi ⊢
    have ih := idle es hd' (notReset_tail hr) (fun x hx => hi x (List.mem_append_right _ hx))
    have hs : find (step o s e).1.clients c = find s.clients c ∨ find (step o s e).1.clients c = none := by
      cases e with
      | request d k =>
        have hdc : d ≠ c := hi ⟨d, k, _⟩ (List.mem_append_left _ (List.mem_singleton.2 rfl))
        rcases find_process_other (o := o) (t := k) hd hdc with g | ⟨r, g1, g2, g3⟩
        · exact .inl g
        · exact .inr g3
      | resetAll => exact .inr rfl
      | resetClient d => exact .inl (find_erase_other hd (hr (.resetClient d) (List.mem_cons_self ..)))
      | evictNow k =>
        rcases find_evict (o := o) (now := k) (c := c) hd with g | ⟨r, g1, g2, g3⟩
        · exact .inl g
        · exact .inr g3
    rcases ih with ih | ih
    · rcases hs with hs | hs
      · exact .inl (ih.trans hs)
      · exact .inr (ih.trans hs)
    · exact .inr ih

/-- C83: a client that waits for `X-RateLimit-Reset` seconds and one more (and a millisecond) before its next
request is not refused. -/
theorem C83_served_after_reset (o : Options) (t₀ : Int) (es fs : List Event) (c : Bytes) (k k' : Clock) (h : Headers)
    (ho : Ordered t₀ (es ++ .request c k :: fs ++ [.request c k'])) (hr : NotReset c fs) (hmax : 0 < o.maxRequests)
    (hh : (process o (run o (St.init t₀) es).1 c k).2.headers? = some h)
    (hidle : ∀ e ∈ (run o (process o (run o (St.init t₀) es).1 c k).1 fs).2, e.client ≠ c)
    (hw : k'.now ≥ k.shown + (h.reset + 1) * 1000000000 + 2000000) :
    (process o (run o (process o (run o (St.init t₀) es).1 c k).1 fs).1 c k').2.refused = false := by
  rw [List.append_assoc] at ho
  obtain ⟨h1, h2, h3, h4, h5⟩ := ordered_append es ho
  have hd := distinct_run (o := o) es (distinct_init t₀)
  have hp := past_process (o := o) (c := c) (past_mono h2 (past_run (o := o) es h1 (past_init t₀))) h3
  obtain ⟨r, g1, g2⟩ := own_headers hd hh
  have hreset : r.reset ≤ k.shown := by have := past_find hp g1; omega
  have hb := (reset_bounds (o := o) hreset).2.2
  subst g2
  have hd2 := distinct_run (o := o) fs (distinct_process (o := o) (c := c) (t := k) hd)
  have hi := idle fs (distinct_process (o := o) (c := c) (t := k) hd) hr hidle
  have hx : expired o k'.now r = true := by
    have : 0 ≤ (headers o k.shown r).reset := (reset_bounds (o := o) hreset).1
    rw [expired_iff (by omega)]; omega
  rcases own (o := o) (c := c) (t := k') hd2 with g | ⟨g, g2, g3⟩ | ⟨r'', g, g2, g3, g4⟩ | ⟨r'', q1, g2, g3, g4, g5⟩ | ⟨ρ, q1, g2, g3, g4, g5⟩
  · rw [g]; rfl
  · rw [g]; rfl
  · exfalso
    rcases g4 with ⟨g4, g5⟩ | g4
    · rcases hi with hi | hi
      · rw [hi, g1] at g4; cases g4; rw [hx] at g5; simp at g5
      · rw [hi] at g4; simp at g4
    · omega
  · rw [q1]; rfl
  · rw [q1]; rfl

/-! ## who a client is -/

/-- C84: by default the client is the peer's address, and nothing in the request can change that. -/
theorem C84_peer_address (o : Options) (ho : o.trustForwarded = false) (a : Nat) (ip : Bytes) (hip : ip ≠ []) (cf tc xff : Bytes) :
    extractClientId o { custom := none, session := some (a, some ip), cf := cf, trueClient := tc, xff := xff } = ip := by
  have : peerIp { custom := none, session := some (a, some ip), cf := cf, trueClient := tc, xff := xff } = some ip := by
    simp [peerIp, hip]
  simp [extractClientId, ho, this]

/-- But a session without an address falls back on the headers, although they are not trusted. -/
theorem C84_false_no_address : ∃ (o : Options) (q : Origin), o.trustForwarded = false ∧ q.custom = none ∧ q.session ≠ none ∧
    extractClientId o { q with xff := b!"1.1.1.1" } ≠ extractClientId o { q with xff := b!"2.2.2.2" } :=
  ⟨{}, { session := some (1, none) }, rfl, rfl, by simp, by decide⟩

theorem takeWhile_all {α} {p : α → Bool} {a b : List α} (h : ∀ x ∈ a, p x = true) : (a ++ b).takeWhile p = a ++ b.takeWhile p := by
  induction a with
  | nil => rfl
  | cons x a ih =>
    rw [List.cons_append, List.takeWhile_cons, if_pos (h x (List.mem_cons_self ..)), ih (fun y hy => h y (List.mem_cons_of_mem _ hy))]
    rfl

theorem afterLastComma_eq (pre last : Bytes) (h : c!"," ∉ last) : afterLastComma (pre ++ c!"," :: last) = last := by
  unfold afterLastComma
  rw [List.reverse_append, List.reverse_cons, List.append_assoc, takeWhile_all]
  · rw [List.singleton_append, List.takeWhile_cons, if_neg (by simp)]
    simp
  · intro x hx
    simp
    rintro rfl
    exact h (List.mem_reverse.1 hx)

theorem dropBlank_eq (ws ip : Bytes) (hw : ∀ b ∈ ws, b = c!" " ∨ b = 9) (x : UInt8) (hx : ip.head? = some x) (h1 : x ≠ c!" ") (h2 : x ≠ 9) :
    dropBlank (ws ++ ip) = ip := by
  cases ip with
  | nil => simp at hx
  | cons y ip =>
    simp at hx; subst hx
    unfold dropBlank
    rw [if_neg]
    · induction ws with
      | nil => simp [h1, h2]
      | cons w ws ih =>
        rw [List.cons_append, List.dropWhile_cons, if_pos]
        · exact ih (fun b hb => hw b (List.mem_cons_of_mem _ hb))
        · simpa using hw w (List.mem_cons_self ..)
    · simp [h1, h2]

/-- C84: behind a trusted proxy the client is the last element of `X-Forwarded-For` (blanks before it dropped),
whatever the elements before it - which the client can forge - are. -/
theorem C84_last_hop (o : Options) (ho : o.trustForwarded = true) (q : Origin) (hc : q.custom = none) (hcf : q.cf = []) (htc : q.trueClient = [])
    (pre ws ip : Bytes) (hx : q.xff = pre ++ c!"," :: (ws ++ ip)) (hw : ∀ b ∈ ws, b = c!" " ∨ b = 9)
    (hip : c!"," ∉ ip) (x : UInt8) (h0 : ip.head? = some x) (h1 : x ≠ c!" ") (h2 : x ≠ 9) :
    extractClientId o q = ip := by
  have hcomma : c!"," ∉ ws ++ ip := by
    intro h
    rcases List.mem_append.1 h with h | h
    · rcases hw _ h with h | h <;> exact absurd h (by decide)
    · exact hip h
  have hf : forwarded q = ip := by
    unfold forwarded
    simp only [hcf, htc, List.isEmpty_nil, Bool.not_true, Bool.false_eq_true, if_false]
    rw [hx, if_pos (by simp), afterLastComma_eq _ _ hcomma, dropBlank_eq ws ip hw x h0 h1 h2]
  have hne : ip ≠ [] := by rintro rfl; simp at h0
  unfold extractClientId fromHeaders
  simp [hc, ho, hf, hne]

/-- C84: a header set by a single-address proxy takes precedence over `X-Forwarded-For`. -/
theorem C84_precedence (o : Options) (ho : o.trustForwarded = true) (q : Origin) (hc : q.custom = none) :
    (q.cf ≠ [] → extractClientId o q = q.cf) ∧ (q.cf = [] → q.trueClient ≠ [] → extractClientId o q = q.trueClient) := by
  constructor
  · intro h; simp [extractClientId, fromHeaders, forwarded, hc, ho, h]
  · intro h h2; simp [extractClientId, fromHeaders, forwarded, hc, ho, h, h2]

/-- C84: an identifier longer than 256 octets is refused and leaves no trace. -/
theorem C84_long_identifier (o : Options) (s : St) (c : Bytes) (k : Clock) : c.length > 256 ↔ (process o s c k).2 = .badId := by
  constructor
  · intro h; unfold process; rw [if_pos (show c.length > MAX_CLIENT_ID_LENGTH from h)]
  · intro h
    apply Nat.lt_of_not_le
    intro hl
    rw [process_short (show c.length ≤ MAX_CLIENT_ID_LENGTH from hl)] at h
    unfold count at h
    split at h
    · simp at h
    · simp only [] at h
      split at h <;> simp at h

theorem C84_long_identifier_forgotten (o : Options) (s : St) (c : Bytes) (k : Clock) (h : c.length > 256) : (process o s c k).1 = s := by
  unfold process; rw [if_pos (show c.length > MAX_CLIENT_ID_LENGTH from h)]

/-! ## the hypotheses are met -/

def demo : List Event :=
  [.request b!"a" ⟨0, 1, 2⟩, .request b!"b" ⟨10, 11, 12⟩, .request b!"a" ⟨20, 21, 22⟩, .request b!"a" ⟨30, 31, 32⟩,
   .evictNow 40, .request b!"a" ⟨2000050, 2000051, 2000052⟩]

/-- C79, C80, C83: two requests of `a` pass, the third is refused, and passes after the window of 2 ms. -/
example : Ordered 0 demo ∧ NotReset b!"a" demo ∧
    verdicts (history { maxRequests := 2, window := 2000000 } 0 demo) b!"a" =
      [.allowed ⟨2, 1, 0⟩, .allowed ⟨2, 0, 0⟩, .limited ⟨2, 0, 0⟩, .allowed ⟨2, 1, 0⟩] := by
  refine ⟨by simp [Ordered, demo], by simp [NotReset, demo], by decide +kernel⟩

/-- C83: with a window of a minute, a refusal announces how long to wait. -/
example : verdicts (history { maxRequests := 1 } 0 [.request b!"a" ⟨0, 1, 2⟩, .request b!"a" ⟨20000000000, 20000000001, 20000000002⟩]) b!"a" =
      [.allowed ⟨1, 0, 60⟩, .limited ⟨1, 0, 40⟩] := by decide +kernel

/-- C84 -/
example : extractClientId { trustForwarded := true } { session := some (7, some b!"10.0.0.1"), xff := b!"6.6.6.6, 1.2.3.4" } = b!"1.2.3.4" := by decide

end Verif.Rate
