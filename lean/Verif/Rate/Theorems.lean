import Verif.Rate.Lemmas

/-! # The rate limiter: C79-C84 -/

namespace Verif.Rate

theorem run_cons (o s e es) : run o s (e :: es) = ((run o (step o s e).1 es).1, (step o s e).2 ++ (run o (step o s e).1 es).2) := rfl

theorem run_append (o) : ∀ (es fs : List Event) (s), run o s (es ++ fs) =
    ((run o (run o s es).1 fs).1, (run o s es).2 ++ (run o (run o s es).1 fs).2)
  | [], fs, s => by simp [run]
  | e :: es, fs, s => by
    rw [List.cons_append, run_cons, run_append o es fs, run_cons]
    simp

theorem passed_append (a b : List Entry) (c p) : passed (a ++ b) c p = passed a c p + passed b c p := by
  simp [passed]

theorem passed_one (e : Entry) (c p) : passed [e] c p = if e.client = c ∧ e.verdict.passed = true ∧ p e.time = true then 1 else 0 := by
  unfold passed
  by_cases h1 : e.client = c <;> by_cases h2 : e.verdict.passed = true <;> by_cases h3 : p e.time = true <;> simp [h1, h2, h3]

theorem passed_one_le (e : Entry) (c p) : passed [e] c p ≤ 1 := by rw [passed_one]; split <;> omega

theorem passed_none (c p) : passed [] c p = 0 := rfl

theorem ordered_mono {t t'} (h : t ≤ t') : ∀ {es}, Ordered t' es → Ordered t es
  | [], _ => trivial
  | .request _ _ :: _, ⟨a, b⟩ => ⟨by omega, b⟩
  | .evictNow _ :: _, ⟨a, b⟩ => ⟨by omega, b⟩
  | .resetAll :: es, g => ordered_mono h (es := es) g
  | .resetClient _ :: es, g => ordered_mono h (es := es) g

theorem log_after {o} : ∀ (es : List Event) {t s}, Ordered t es → ∀ e ∈ (run o s es).2, t ≤ e.time.now
  | [], _, _, _, e, he => by simp [run] at he
  | .request c k :: es, t, s, ⟨h1, h2, h3, h4⟩, e, he => by
    rw [run_cons] at he
    rcases List.mem_append.1 he with he | he
    · simp [step] at he; subst he; exact h1
    · have := log_after es h4 e he; omega
  | .evictNow k :: es, t, s, ⟨h1, h2⟩, e, he => by
    rw [run_cons] at he
    have := log_after es h2 e (by simpa [step] using he); omega
  | .resetAll :: es, t, s, h, e, he => by
    rw [run_cons] at he
    exact log_after es h e (by simpa [step] using he)
  | .resetClient d :: es, t, s, h, e, he => by
    rw [run_cons] at he
    exact log_after es h e (by simpa [step] using he)

/-- In the interval `[t, t + w)`. -/
def within (t w : Int) (k : Clock) : Bool := decide (t ≤ k.now) && decide (k.now < t + w)

theorem passed_late {o es t u w s c} (h : Ordered u es) (hu : t + w ≤ u) : passed (run o s es).2 c (within t w) = 0 := by
  unfold passed
  rw [List.length_eq_zero_iff, List.filter_eq_nil_iff]
  intro e he
  have := log_after es h e he
  simp [within]
  intro _ _ _; omega

/-- What is left to `c` in `[t, t + window)` once the clock has reached `t`. -/
def budget (o : Options) (t : Int) : Option Rec → Nat
  | none => o.maxRequests
  | some r => (o.maxRequests - r.count) + if t ≤ r.reset then 0 else o.maxRequests

theorem notReset_tail {c e es} (h : NotReset c (e :: es)) : NotReset c es := fun x hx => h x (List.mem_cons_of_mem _ hx)

theorem find_erase_other {m : List (Bytes × Rec)} (hn : (m.map (·.1)).Nodup) {c d : Bytes} (h : d ≠ c) : find (erase m d) c = find m c := by
  unfold erase
  rw [find_filter _ hn]
  cases find m c with
  | none => rfl
  | some r => simp [Ne.symm h]

theorem find_evict {o s now c} (hd : Distinct s) :
    find (evictStale o now s.clients) c = find s.clients c ∨
      ∃ r, find s.clients c = some r ∧ expired o now r = true ∧ find (evictStale o now s.clients) c = none := by
  unfold evictStale
  rw [find_filter _ hd]
  cases hf : find s.clients c with
  | none => simp
  | some r => cases he : expired o now r <;> simp [he]

theorem zero_max {o} (hm : o.maxRequests = 0) (c p) : ∀ (es : List Event) {s}, Distinct s → passed (run o s es).2 c p = 0
  | [], _, _ => rfl
  | e :: es, s, hd => by
    rw [run_cons, passed_append, zero_max hm c p es (distinct_step hd)]
    cases e with
    | request d k =>
      show passed [_] c p + 0 = 0
      rw [passed_one, if_neg]
      rintro ⟨_, h, _⟩
      have h : (process o s d k).2.passed = true := h
      rcases own (o := o) (c := d) (t := k) hd with g | ⟨g, _, _⟩ | ⟨r, g, _, _, _⟩ | ⟨r, _, _, g, _, _⟩ | ⟨ρ, _, _, g, _, _⟩
      · rw [g] at h; simp [Verdict.passed] at h
      · rw [g] at h; simp [Verdict.passed] at h
      · rw [g] at h; simp [Verdict.passed] at h
      · omega
      · omega
    | resetAll => rfl
    | resetClient d => rfl
    | evictNow k => rfl

theorem budget_bound {o t c} : ∀ (es : List Event) {u s}, t ≤ u → Ordered u es → Past u s → Distinct s → NotReset c es →
    passed (run o s es).2 c (within t o.window) ≤ budget o t (find s.clients c)
  | [], _, _, _, _, _, _, _ => by simp [run, passed_none]
  | e :: es, u, s, hu, ho, hp, hd, hr => by
    have hrt := notReset_tail hr
    rw [run_cons, passed_append]
    have hd' := distinct_step (o := o) (e := e) hd
    -- dropping a stale record
    have drop : ∀ {r now}, find s.clients c = some r → expired o now r = true → u ≤ now → Ordered now es → ∀ s' : St,
        passed (run o s' es).2 c (within t o.window) ≤ o.maxRequests →
        passed (run o s' es).2 c (within t o.window) ≤ budget o t (find s.clients c) := by
      intro r now hf hx hun hon s' hs'
      have hpast := past_find hp hf
      have hxl := expired_le (by omega) hx
      rw [hf]
      show _ ≤ (o.maxRequests - r.count) + if t ≤ r.reset then 0 else o.maxRequests
      by_cases htr : t ≤ r.reset
      · rw [passed_late hon (by omega)]; omega
      · rw [if_neg htr]; omega
    cases e with
    | request d k =>
      obtain ⟨h1, h2, h3, h4⟩ := ho
      have hp' : Past k.shown (step o s (.request d k)).1 := past_mono h3 (past_process (past_mono h1 hp) h2)
      have ih := budget_bound (o := o) (t := t) (c := c) es (by omega) h4 hp' hd' hrt
      have hon : Ordered k.now es := ordered_mono (by omega) h4
      by_cases hdc : d = c
      · subst hdc
        show passed [_] d _ + _ ≤ _
        rcases own (o := o) (c := d) (t := k) hd with g | ⟨g, g2, g3⟩ | ⟨r, g, g2, g3, g4⟩ | ⟨r, g1, g2, g3, g4, g5⟩ | ⟨ρ, g1, g2, g3, g4, g5⟩
        · have hs : (step o s (.request d k)).1 = s := by show (process o s d k).1 = s; rw [g]
          rw [hs] at ih ⊢
          rw [passed_one, if_neg (by rw [g]; simp [Verdict.passed])]
          omega
        · rw [passed_one, if_neg (by rw [g]; simp [Verdict.passed])]
          have hs : find (step o s (.request d k)).1.clients d = none := g2
          rw [hs] at ih
          rcases g3 with g3 | ⟨r, g3, g4⟩
          · rw [g3]; omega
          · have := drop g3 g4 h1 hon _ ih; omega
        · rw [passed_one, if_neg (by rw [g]; simp [Verdict.passed])]
          have hs : find (step o s (.request d k)).1.clients d = some r := g2
          rw [hs] at ih
          rcases g4 with ⟨g4, _⟩ | g4
          · rw [g4]; omega
          · have := zero_max (o := o) (by omega) d (within t o.window) es hd'; omega
        · have := passed_one_le ⟨d, k, (process o s d k).2⟩ d (within t o.window)
          have hs : find (step o s (.request d k)).1.clients d = some { r with count := r.count + 1 } := g2
          rw [hs] at ih
          rw [g4]
          simp only [budget] at ih ⊢
          omega
        · have hle := passed_one_le ⟨d, k, (process o s d k).2⟩ d (within t o.window)
          have hs : find (step o s (.request d k)).1.clients d = some ⟨1, ρ⟩ := g2
          rw [hs] at ih
          have htρ : t ≤ ρ := by rcases g4 with g4 | g4 <;> omega
          simp only [budget, if_pos htρ] at ih
          rcases g5 with g5 | ⟨r, g5, g6⟩
          · rw [g5]; simp only [budget]; omega
          · have hpast := past_find hp g5
            have hxl := expired_le (by omega) g6
            rw [g5]; simp only [budget]
            by_cases htr : t ≤ r.reset
            · have hz := passed_late (o := o) (s := (step o s (.request d k)).1) (c := d) hon (show t + o.window ≤ k.now by omega)
              rw [passed_one, if_neg (by simp [within]; intro _ _; omega)]
              omega
            · rw [if_neg htr]; omega
      · show passed [_] c _ + _ ≤ _
        rw [passed_one, if_neg (fun h => hdc h.1)]
        rcases find_process_other (o := o) (t := k) hd hdc with g | ⟨r, g1, g2, g3⟩
        · have hs : find (step o s (.request d k)).1.clients c = find s.clients c := g
          rw [hs] at ih; omega
        · have hs : find (step o s (.request d k)).1.clients c = none := g3
          rw [hs] at ih
          have := drop g1 g2 h1 hon _ ih; omega
    | resetAll => exact (hr .resetAll (List.mem_cons_self ..)).elim
    | resetClient d =>
      have hdc : d ≠ c := hr (.resetClient d) (List.mem_cons_self ..)
      have hp' : Past u (step o s (.resetClient d)).1 := fun e he => hp e (List.mem_filter.1 he).1
      have ih := budget_bound (o := o) (t := t) (c := c) es hu ho hp' hd' hrt
      have hs : find (step o s (.resetClient d)).1.clients c = find s.clients c := find_erase_other hd hdc
      rw [hs] at ih
      show passed [] c _ + _ ≤ _
      rw [passed_none]; omega
    | evictNow k =>
      obtain ⟨h1, h2⟩ := ho
      have hp' : Past k (step o s (.evictNow k)).1 := fun e he => by have := hp e (List.mem_filter.1 he).1; omega
      have ih := budget_bound (o := o) (t := t) (c := c) es (by omega) h2 hp' hd' hrt
      show passed [] c _ + _ ≤ _
      rw [passed_none, Nat.zero_add]
      rcases find_evict (o := o) (now := k) (c := c) hd with g | ⟨r, g1, g2, g3⟩
      · have hs : find (step o s (.evictNow k)).1.clients c = find s.clients c := g
        rw [hs] at ih; exact ih
      · have hs : find (step o s (.evictNow k)).1.clients c = none := g3
        rw [hs] at ih
        exact drop g1 g2 h1 h2 _ ih

theorem budget_le (o t r) : budget o t r ≤ 2 * o.maxRequests := by
  cases r with
  | none => simp only [budget]; omega
  | some r => simp only [budget]; split <;> omega

theorem interval_bound {o t c} : ∀ (es : List Event) {u s}, Ordered u es → Past u s → Distinct s → NotReset c es →
    passed (run o s es).2 c (within t o.window) ≤ 2 * o.maxRequests
  | [], _, _, _, _, _, _ => by simp [run, passed_none]
  | e :: es, u, s, ho, hp, hd, hr => by
    have hrt := notReset_tail hr
    have hd' := distinct_step (o := o) (e := e) hd
    cases e with
    | request d k =>
      have hoo := ho
      obtain ⟨h1, h2, h3, h4⟩ := ho
      by_cases hk : t ≤ k.now
      · exact Nat.le_trans (budget_bound (t := t) (c := c) (u := k.now) _ hk ⟨by omega, h2, h3, h4⟩ (past_mono h1 hp) hd hr) (budget_le ..)
      · have hp' : Past k.shown (step o s (.request d k)).1 := past_mono h3 (past_process (past_mono h1 hp) h2)
        have ih := interval_bound (o := o) (t := t) (c := c) es h4 hp' hd' hrt
        rw [run_cons, passed_append]
        show passed [_] c _ + _ ≤ _
        rw [passed_one, if_neg (by simp [within]; intro _ _ h; omega)]
        omega
    | resetAll => exact (hr .resetAll (List.mem_cons_self ..)).elim
    | resetClient d =>
      have hp' : Past u (step o s (.resetClient d)).1 := fun e he => hp e (List.mem_filter.1 he).1
      have ih := interval_bound (o := o) (t := t) (c := c) es ho hp' hd' hrt
      rw [run_cons, passed_append]
      show passed [] c _ + _ ≤ _
      rw [passed_none]; omega
    | evictNow k =>
      obtain ⟨h1, h2⟩ := ho
      have hp' : Past k (step o s (.evictNow k)).1 := fun e he => by have := hp e (List.mem_filter.1 he).1; omega
      have ih := interval_bound (o := o) (t := t) (c := c) es h2 hp' hd' hrt
      rw [run_cons, passed_append]
      show passed [] c _ + _ ≤ _
      rw [passed_none]; omega

/-- The clock after a history. -/
def lastTime : Int → List Event → Int
  | t, [] => t
  | _, .request _ k :: es => lastTime k.shown es
  | _, .evictNow k :: es => lastTime k es
  | t, _ :: es => lastTime t es

theorem ordered_append : ∀ (es : List Event) {t fs}, Ordered t (es ++ fs) → Ordered t es ∧ Ordered (lastTime t es) fs
  | [], _, _, h => ⟨trivial, h⟩
  | .request _ _ :: es, _, _, ⟨a, b, c, d⟩ => ⟨⟨a, b, c, (ordered_append es d).1⟩, (ordered_append es d).2⟩
  | .evictNow _ :: es, _, _, ⟨a, d⟩ => ⟨⟨a, (ordered_append es d).1⟩, (ordered_append es d).2⟩
  | .resetAll :: es, _, _, h => ⟨(ordered_append es h).1, (ordered_append es h).2⟩
  | .resetClient _ :: es, _, _, h => ⟨(ordered_append es h).1, (ordered_append es h).2⟩

theorem past_run {o} : ∀ (es : List Event) {t s}, Ordered t es → Past t s → Past (lastTime t es) (run o s es).1
  | [], _, _, _, h => h
  | .request c k :: es, t, s, ⟨h1, h2, h3, h4⟩, h => by
    rw [run_cons]
    exact past_run es h4 (past_mono h3 (past_process (past_mono h1 h) h2))
  | .evictNow k :: es, t, s, ⟨h1, h2⟩, h => by
    rw [run_cons]
    exact past_run es h2 (fun e he => by have := h e (List.mem_filter.1 he).1; omega)
  | .resetAll :: es, t, s, ho, h => by
    rw [run_cons]
    exact past_run es ho (fun e he => by simp [step] at he)
  | .resetClient d :: es, t, s, ho, h => by
    rw [run_cons]
    exact past_run es ho (fun e he => h e (List.mem_filter.1 he).1)

theorem past_init (t) : Past t (St.init t) := fun e he => by simp [St.init] at he

theorem distinct_init (t) : Distinct (St.init t) := by simp [Distinct, St.init]

/-- C79: whatever happened before (`es`), in every part of the history in which the operator does not wipe the
client's record (`fs`), and in every interval of the length of the window, at most twice the configured
number of requests of a client are passed on - the guarantee of a fixed-window limiter - however the requests
of other clients, the housekeeping and the operator's sweeps interleave. -/
theorem C79_limit (o : Options) (t₀ : Int) (es fs : List Event) (ho : Ordered t₀ (es ++ fs)) (c : Bytes) (hr : NotReset c fs) (t : Int) :
    passed (run o (run o (St.init t₀) es).1 fs).2 c (fun k => t ≤ k.now ∧ k.now < t + o.window) ≤ 2 * o.maxRequests := by
  obtain ⟨h1, h2⟩ := ordered_append es ho
  have := interval_bound (o := o) (t := t) (c := c) fs h2 (past_run (o := o) es h1 (past_init t₀)) (distinct_run (o := o) es (distinct_init t₀)) hr
  have heq : (fun k : Clock => (decide (t ≤ k.now ∧ k.now < t + o.window) : Bool)) = within t o.window := by
    funext k; simp [within]
  rw [heq]; exact this

/-! ## records and the log -/

/-- What the records mean: there are no more than allowed, each client tracked was seen since its window
started, and its counter is the number of its requests passed on since then (at most). -/
structure Faithful (o : Options) (log : List Entry) (s : St) : Prop where
  seen : ∀ c r, find s.clients c = some r → ∃ e ∈ log, e.client = c ∧ r.reset ≤ e.time.created
  counted : ∀ c r, find s.clients c = some r → r.count ≤ passed log c (fun k => r.reset ≤ k.created)
  size : s.clients.length ≤ MAX_TRACKED_CLIENTS

theorem passed_imp {log : List Entry} {c} {p q : Clock → Bool} (h : ∀ e ∈ log, p e.time = true → q e.time = true) :
    passed log c p ≤ passed log c q := by
  induction log with
  | nil => simp [passed]
  | cons e log ih =>
    have h1 := passed_append [e] log c p
    have h2 := passed_append [e] log c q
    simp only [List.singleton_append] at h1 h2
    rw [h1, h2, passed_one, passed_one]
    have := ih (fun x hx => h x (List.mem_cons_of_mem _ hx))
    have h3 := h e (List.mem_cons_self ..)
    by_cases g : e.client = c ∧ e.verdict.passed = true ∧ p e.time = true
    · rw [if_pos g, if_pos ⟨g.1, g.2.1, h3 g.2.2⟩]; omega
    · rw [if_neg g]; split <;> omega

theorem faithful_sub {o log s} (h : Faithful o log s) (p n) : Distinct s → Faithful o log { clients := s.clients.filter p, nextCleanup := n } := by
  intro hd
  have sub : ∀ c r, find (s.clients.filter p) c = some r → find s.clients c = some r := by
    intro c r hf
    exact find_of_mem hd (List.mem_filter.1 (find_mem hf)).1
  exact ⟨fun c r hf => h.seen c r (sub c r hf), fun c r hf => h.counted c r (sub c r hf),
    Nat.le_trans (List.length_filter_le ..) h.size⟩

theorem length_put (m : List (Bytes × Rec)) (c r) : (put m c r).length = if find m c = none then m.length + 1 else m.length := by
  have := congrArg List.length (keys_put m c r)
  rw [List.length_map] at this
  rw [this]
  split <;> simp

theorem size_count {o s c t} (h : s.clients.length ≤ MAX_TRACKED_CLIENTS) : (count o s c t).1.clients.length ≤ MAX_TRACKED_CLIENTS := by
  unfold count
  by_cases hf : s.clients.length ≥ MAX_TRACKED_CLIENTS ∧ find s.clients c = none
  · rw [if_pos hf]; exact h
  · rw [if_neg hf]
    have key : ∀ r, (put s.clients c r).length ≤ MAX_TRACKED_CLIENTS := by
      intro r
      rw [length_put]
      split
      · rename_i g
        have : ¬ s.clients.length ≥ MAX_TRACKED_CLIENTS := fun hh => hf ⟨hh, g⟩
        omega
      · exact h
    simp only []
    split <;> exact key _

theorem size_process {o s c t} (h : s.clients.length ≤ MAX_TRACKED_CLIENTS) : (process o s c t).1.clients.length ≤ MAX_TRACKED_CLIENTS := by
  unfold process
  split
  · exact h
  · apply size_count
    unfold housekeeping
    split
    · exact Nat.le_trans (List.length_filter_le ..) h
    · exact h

theorem seen_mono {log log' : List Entry} {c ρ} (h : ∃ e ∈ log, e.client = c ∧ ρ ≤ e.time.created) :
    ∃ e ∈ log ++ log', e.client = c ∧ ρ ≤ e.time.created := by
  obtain ⟨e, h1, h2⟩ := h; exact ⟨e, List.mem_append_left _ h1, h2⟩

theorem faithful_request {o log s} {c : Bytes} {k : Clock} (h : Faithful o log s) (hd : Distinct s) (hp : Past k.now s) (hk : k.now ≤ k.created) :
    Faithful o (log ++ [⟨c, k, (process o s c k).2⟩]) (process o s c k).1 := by
  have self : ∀ {ρ : Int}, ρ ≤ k.created → ∃ e ∈ log ++ [(⟨c, k, (process o s c k).2⟩ : Entry)], e.client = c ∧ ρ ≤ e.time.created :=
    fun hρ => ⟨_, List.mem_append_right _ (List.mem_singleton.2 rfl), rfl, hρ⟩
  have cnt : ∀ d (q : Clock → Bool), passed log d q ≤ passed (log ++ [⟨c, k, (process o s c k).2⟩]) d q := by
    intro d q; rw [passed_append]; omega
  refine ⟨?_, ?_, size_process h.size⟩
  · intro d r hf
    by_cases hdc : c = d
    · subst hdc
      have hr : r.reset ≤ k.created := past_find (past_process (o := o) (c := c) hp hk) hf
      exact self hr
    · rcases find_process_other (o := o) (t := k) hd hdc with g | ⟨r', _, _, g⟩
      · rw [g] at hf; exact seen_mono (h.seen d r hf)
      · rw [g] at hf; simp at hf
  · intro d r hf
    by_cases hdc : c = d
    · subst hdc
      rcases own (o := o) (c := c) (t := k) hd with g | ⟨g, g2, g3⟩ | ⟨r', g, g2, g3, g4⟩ | ⟨r', g1, g2, g3, g4, g5⟩ | ⟨ρ, g1, g2, g3, g4, g5⟩
      · rw [g] at hf ⊢
        exact Nat.le_trans (h.counted c r hf) (by rw [passed_append]; omega)
      · rw [g2] at hf; simp at hf
      · rw [g2] at hf; cases hf
        rcases g4 with ⟨g4, _⟩ | g4
        · exact Nat.le_trans (h.counted c r g4) (cnt ..)
        · omega
      · rw [g2] at hf; cases hf
        have := h.counted c r' g4
        have hrr := past_find hp g4
        rw [passed_append, passed_one, if_pos ⟨rfl, by rw [g1]; rfl, by simp; omega⟩]
        simp only []
        omega
      · rw [g2] at hf; cases hf
        have hρ : ρ ≤ k.created := by rcases g4 with g4 | g4 <;> omega
        rw [passed_append, passed_one, if_pos ⟨rfl, by rw [g1]; rfl, by simpa using hρ⟩]
        simp only []
        omega
    · rcases find_process_other (o := o) (t := k) hd hdc with g | ⟨r', _, _, g⟩
      · rw [g] at hf; exact Nat.le_trans (h.counted d r hf) (cnt ..)
      · rw [g] at hf; simp at hf

theorem faithful_run {o} : ∀ (es : List Event) {t log s}, Ordered t es → Past t s → Distinct s → Faithful o log s →
    Faithful o (log ++ (run o s es).2) (run o s es).1
  | [], _, _, _, _, _, _, h => by simpa [run] using h
  | .request c k :: es, t, log, s, ⟨h1, h2, h3, h4⟩, hp, hd, h => by
    rw [run_cons, ← List.append_assoc]
    exact faithful_run es h4 (past_mono h3 (past_process (past_mono h1 hp) h2)) (distinct_step (e := .request c k) hd)
      (faithful_request h hd (past_mono h1 hp) h2)
  | .evictNow k :: es, t, log, s, ⟨h1, h2⟩, hp, hd, h => by
    rw [run_cons]
    simp only [step, List.nil_append]
    exact faithful_run es h2 (fun e he => by have := hp e (List.mem_filter.1 he).1; omega) (nodup_filter _ hd _) (faithful_sub h _ _ hd)
  | .resetAll :: es, t, log, s, ho, hp, hd, h => by
    rw [run_cons]
    simp only [step, List.nil_append]
    exact faithful_run es ho (fun e he => by simp at he) (by simp [Distinct])
      ⟨fun c r hf => by simp [find] at hf, fun c r hf => by simp [find] at hf, by simp⟩
  | .resetClient d :: es, t, log, s, ho, hp, hd, h => by
    rw [run_cons]
    simp only [step, List.nil_append]
    exact faithful_run es ho (fun e he => hp e (List.mem_filter.1 he).1) (nodup_filter _ hd _) (faithful_sub h _ _ hd)

theorem faithful_history {o t es} (h : Ordered t es) : Faithful o (history o t es) (run o (St.init t) es).1 := by
  have := faithful_run (o := o) (log := []) es h (past_init t) (distinct_init t)
    ⟨fun c r hf => by simp [find, St.init] at hf, fun c r hf => by simp [find, St.init] at hf, by simp [St.init]⟩
  simpa [history] using this

/-- C79, the first window: from the first request of a client on, no more than the configured number of
requests is passed on before a window has passed. -/
theorem C79_first_window (o : Options) (t₀ : Int) (es fs : List Event) (c : Bytes) (k : Clock)
    (ho : Ordered t₀ (es ++ .request c k :: fs)) (hr : NotReset c fs) (hnew : ∀ e ∈ history o t₀ es, e.client ≠ c) :
    passed (run o (run o (St.init t₀) es).1 (.request c k :: fs)).2 c (fun k' => k'.now < k.now + o.window) ≤ o.maxRequests := by
  obtain ⟨h1, h2⟩ := ordered_append es ho
  have hp := past_run (o := o) es h1 (past_init t₀)
  have hd := distinct_run (o := o) es (distinct_init t₀)
  have hf : find (run o (St.init t₀) es).1.clients c = none := by
    cases hh : find (run o (St.init t₀) es).1.clients c with
    | none => rfl
    | some r =>
      obtain ⟨e, he, hec, _⟩ := (faithful_history h1).seen c r hh
      exact absurd hec (hnew e he)
  generalize (run o (St.init t₀) es).1 = s at *
  generalize lastTime t₀ es = u at *
  obtain ⟨g1, g2, g3, g4⟩ := h2
  have hb := budget_bound (o := o) (t := k.now) (c := c) (u := k.now) (.request c k :: fs) (by omega) ⟨by omega, g2, g3, g4⟩ (past_mono g1 hp) hd
    (fun e he => by
      rcases List.mem_cons.1 he with rfl | he
      · trivial
      · exact hr e he)
  rw [hf] at hb
  refine Nat.le_trans (passed_imp ?_) hb
  intro e he hlt
  have := log_after (.request c k :: fs) (show Ordered k.now (.request c k :: fs) from ⟨Int.le_refl k.now, g2, g3, g4⟩) e he
  simp [within, this]
  simpa using hlt

/-- C80: nobody is refused early.  When a request is refused for lack of quota, at least the configured number
of requests of the same client was passed on within the last window (plus the millisecond to which the code
rounds). -/
theorem C80_no_early_refusal (o : Options) (t₀ : Int) (es : List Event) (c : Bytes) (k : Clock) (h : Headers)
    (ho : Ordered t₀ (es ++ [.request c k])) (hl : history o t₀ (es ++ [.request c k]) = history o t₀ es ++ [⟨c, k, .limited h⟩]) :
    o.maxRequests ≤ passed (history o t₀ es) c (fun k' => k.now - o.window - 1000000 < k'.created) ∧
    (o.window % 1000000 = 0 → o.maxRequests ≤ passed (history o t₀ es) c (fun k' => k.now - o.window < k'.created)) := by
  obtain ⟨h1, h2, h3, h4, _⟩ := ordered_append es ho
  have hp := past_run (o := o) es h1 (past_init t₀)
  have hd := distinct_run (o := o) es (distinct_init t₀)
  have hfa := faithful_history (o := o) h1
  have hv : (process o (run o (St.init t₀) es).1 c k).2 = .limited h := by
    unfold history at hl
    rw [run_append] at hl
    have := List.append_cancel_left hl
    simp [run, step] at this
    exact this
  rcases own (o := o) (c := c) (t := k) hd with g | ⟨g, g2, g3⟩ | ⟨r', g, g2, g3, g4⟩ | ⟨r', g1, g2, g3, g4, g5⟩ | ⟨ρ, g1, g2, g3, g4, g5⟩
  · rw [g] at hv; simp at hv
  · rw [g] at hv; simp at hv
  · rcases g4 with ⟨g4, g5⟩ | g4
    · have hc := hfa.counted c r' g4
      have hr := past_find hp g4
      have hx : ¬ o.window ≤ (k.now - r'.reset) / 1000000 * 1000000 := by
        rw [← expired_iff (by omega)]; simp [g5]
      constructor
      · refine Nat.le_trans g3 (Nat.le_trans hc (passed_imp ?_))
        intro e _ he
        simp at he ⊢; omega
      · intro hw
        refine Nat.le_trans g3 (Nat.le_trans hc (passed_imp ?_))
        intro e _ he
        simp at he ⊢; omega
    · have : o.maxRequests = 0 := by omega
      omega
  · rw [g1] at hv; simp at hv
  · rw [g1] at hv; simp at hv

/-- C81: no history makes the middleware remember more than 100000 clients. -/
theorem C81_bounded (o : Options) (t₀ : Int) (es : List Event) (ho : Ordered t₀ es) :
    (run o (St.init t₀) es).1.clients.length ≤ 100000 := (faithful_history ho).size

/-- C81: a request is refused for lack of room (503) only while 100000 other clients have each made a request
within the last window (plus a millisecond): stale clients never use up the room. -/
theorem C81_full_only_if_busy (o : Options) (t₀ : Int) (es : List Event) (c : Bytes) (k : Clock)
    (ho : Ordered t₀ (es ++ [.request c k])) (hl : history o t₀ (es ++ [.request c k]) = history o t₀ es ++ [⟨c, k, .full⟩]) :
    ∃ ids : List Bytes, ids.Nodup ∧ ids.length = 100000 ∧ c ∉ ids ∧
      ∀ d ∈ ids, ∃ e ∈ history o t₀ es, e.client = d ∧ k.now - o.window - 1000000 < e.time.created := by
  obtain ⟨h1, h2, h3, h4, _⟩ := ordered_append es ho
  have hp := past_run (o := o) es h1 (past_init t₀)
  have hd := distinct_run (o := o) es (distinct_init t₀)
  have hfa := faithful_history (o := o) h1
  have hv : (process o (run o (St.init t₀) es).1 c k).2 = .full := by
    unfold history at hl
    rw [run_append] at hl
    have := List.append_cancel_left hl
    simp [run, step] at this
    exact this
  generalize hs : (run o (St.init t₀) es).1 = s at *
  unfold process at hv
  by_cases hc : c.length > MAX_CLIENT_ID_LENGTH
  · rw [if_pos hc] at hv; simp at hv
  · rw [if_neg hc, List.take_of_length_le (by simpa using hc)] at hv
    have hfull : (housekeeping o s k.now).clients.length ≥ MAX_TRACKED_CLIENTS ∧ find (housekeeping o s k.now).clients c = none := by
      unfold count at hv
      by_cases hf : (housekeeping o s k.now).clients.length ≥ MAX_TRACKED_CLIENTS ∧ find (housekeeping o s k.now).clients c = none
      · exact hf
      · rw [if_neg hf] at hv
        simp only [] at hv
        split at hv <;> simp at hv
    have hh : housekeeping o s k.now = { clients := evictStale o k.now s.clients, nextCleanup := k.now + STALE_ENTRY_CLEANUP_INTERVAL } := by
      unfold housekeeping
      by_cases hcond : k.now ≥ s.nextCleanup ∨
          s.clients.length * MEMORY_PRESSURE_DENOMINATOR ≥ MAX_TRACKED_CLIENTS * MEMORY_PRESSURE_NUMERATOR
      · rw [if_pos hcond]
      · exfalso
        have : housekeeping o s k.now = s := by unfold housekeeping; rw [if_neg hcond]
        rw [this] at hfull
        have h9 := hfull.1
        apply hcond
        right
        simp only [MAX_TRACKED_CLIENTS, MEMORY_PRESSURE_DENOMINATOR, MEMORY_PRESSURE_NUMERATOR] at h9 ⊢
        omega
    rw [hh] at hfull
    obtain ⟨hlen, hnone⟩ := hfull
    have hlen : (evictStale o k.now s.clients).length ≥ 100000 := hlen
    have hnone : find (evictStale o k.now s.clients) c = none := hnone
    refine ⟨((evictStale o k.now s.clients).map (·.1)).take 100000, ?_, ?_, ?_, ?_⟩
    · exact (nodup_filter _ hd _).sublist (List.take_sublist ..)
    · rw [List.length_take, List.length_map]; omega
    · intro hmem
      exact (find_none_iff _ _).1 hnone (List.mem_of_mem_take hmem)
    · intro d hmem
      obtain ⟨⟨d', r⟩, hin, rfl⟩ := List.mem_map.1 (List.mem_of_mem_take hmem)
      obtain ⟨hin, hx⟩ := List.mem_filter.1 hin
      have hf := find_of_mem hd hin
      obtain ⟨e, he, hec, her⟩ := hfa.seen d' r hf
      refine ⟨e, he, hec, ?_⟩
      have hr := past_find hp hf
      have hx : ¬ o.window ≤ (k.now - r.reset) / 1000000 * 1000000 := by
        rw [← expired_iff (by omega)]; simpa using hx
      omega

end Verif.Rate
