import Verif.Cli2.TheoremsGoaway

/-! C138 (the limit of queued requests), C142 (queued requests are not forgotten) and C143 (no crash) of the
persistent HTTP/2 client. -/

namespace Verif.Cli2

/-! ### Histories -/

/-- What may happen next satisfies `ok`, along a run. -/
def Along (ok : St → Choice → Prop) (s : St) : List Choice → Prop
  | [] => True
  | ch :: chs => ok s ch ∧ ∀ s', s.step ch = some s' → Along ok s' chs

theorem run_along (I : St → Prop) (ok : St → Choice → Prop) (hI : ∀ s ch s', s.step ch = some s' → ok s ch → I s → I s') (s : St)
    (chs : List Choice) (s' : St) (h : s.run chs = some s') (hok : Along ok s chs) (h0 : I s) : I s' := by
  induction chs generalizing s with
  | nil => simp [St.run] at h; rw [← h]; exact h0
  | cons ch chs ih =>
    rw [St.run] at h
    split at h
    · next s1 e => exact ih s1 h (hok.2 s1 e) (hI _ _ _ e hok.1 h0)
    · cases h

theorem along_of {ok : St → Choice → Prop} {chs : List Choice} (h : ∀ ch ∈ chs, ∀ s, ok s ch) (s : St) : Along ok s chs := by
  induction chs generalizing s with
  | nil => trivial
  | cons ch chs ih => exact ⟨h ch (List.mem_cons_self ..) s, fun s' _ => ih (fun c hc => h c (List.mem_cons_of_mem _ hc)) s'⟩

/-- No timer finds an expired request. -/
def NoExpiry (_ : St) : Choice → Prop
  | .event (.timeout expired _) => expired = []
  | _ => True

def Frame.tp : Frame → Bool
  | .timeoutPending _ _ | .timeoutStreams _ => true
  | _ => false

/-- The timeout handler is run without interruption: its frames are on the stack only alone. -/
def Shape (l : List Frame) : Prop :=
  (∀ f ∈ l, f.tp = false) ∨ (∃ late, l = [.timeoutStreams [], .timeoutPending [] [], .timeoutEnd late]) ∨
    ∃ k late, l = [.timeoutPending [] k, .timeoutEnd late]

theorem shape_step (s : St) (ch : Choice) (s' : St) (h : s.step ch = some s') (hok : NoExpiry s ch) (hs : Shape s.stack) : Shape s'.stack := by
  have hcon : ∀ (t : St) cb rest, ∀ f ∈ (t.connect cb rest).stack, f ∈ rest ∨ f.tp = false := by
    intro t cb rest f hf
    unfold St.connect at hf
    (split at hf <;> (try split at hf)) <;> (try simp only [St.enter, List.mem_cons] at hf)
    · rcases hf with rfl | hf
      · exact .inr rfl
      · exact .inl hf
    all_goals exact .inl hf
  have hfr : ∀ (t : St) a b rest, ∀ f ∈ (t.failRequest a b rest).stack, f ∈ rest ∨ f.tp = false := by
    intro t a b rest f hf
    unfold St.failRequest at hf
    split at hf
    · exact .inl hf
    · simp only [St.enter, List.mem_cons] at hf
      rcases hf with rfl | rfl | hf
      · exact .inr rfl
      · exact .inr rfl
      · exact .inl hf
  have call : (∀ f ∈ s.stack, f.tp = false) → ∀ c, Shape (s.doCall c).stack := by
    intro hp c
    refine .inl fun f hf => ?_
    cases c with
    | push v =>
      simp only [St.doCall, St.push] at hf
      split at hf
      · simp only [St.enter, List.mem_cons] at hf; rcases hf with rfl | hf; all_goals first | rfl | exact hp _ (by assumption)
      split at hf
      · simp only [St.enter, List.mem_cons] at hf; rcases hf with rfl | hf; all_goals first | rfl | exact hp _ (by assumption)
      split at hf
      · simp only [List.mem_cons] at hf; rcases hf with rfl | hf; all_goals first | rfl | exact hp _ (by assumption)
      split at hf
      · exact (hcon _ _ _ f hf).elim (hp f) id
      · exact hp f hf
    | connect w =>
      simp only [St.doCall] at hf
      split at hf <;> exact (hcon _ _ _ f hf).elim (hp f) id
    | disconnect =>
      simp only [St.doCall, List.mem_cons] at hf; rcases hf with rfl | hf; all_goals first | rfl | exact hp _ (by assumption)
  have user : ∀ rest, s.stack = .user :: rest → ∀ f ∈ s.stack, f.tp = false := by
    intro rest e
    rcases hs with hs | ⟨l, hs⟩ | ⟨k, l, hs⟩
    · exact hs
    · rw [e] at hs; cases hs
    · rw [e] at hs; cases hs
  unfold St.step at h
  split at h
  · cases h
  split at h
  · next e => cases h; exact call (by rw [e]; simp) _
  · next ev e =>
    cases ev <;> simp only [St.doEvent] at h
    case timeout expired late =>
      cases h
      have : expired = [] := hok
      subst this
      refine .inr (.inl ⟨late, ?_⟩)
      have : s.active.filter (fun c => decide (c.call ∈ ([] : List Nat))) = [] := by simp
      simp only [this, e, List.map_nil]
    case streamError sid =>
      cases h
      exact .inl fun f hf => (hfr _ _ _ _ f hf).elim (by rw [e]; simp) id
    all_goals
      (try split at h) <;> (try split at h) <;> cases h <;>
        exact .inl (by simp [St.connectionFailed, St.down, St.enter, e, Frame.tp])
  · next rest e => cases h; exact call (user _ e) _
  · next rest e =>
    cases h
    exact .inl fun f hf => user _ e f (by rw [e]; exact List.mem_cons_of_mem _ hf)
  · cases h
  · next f rest out hu e =>
    cases h
    rcases hs with hs | ⟨l, hs⟩ | ⟨k, l, hs⟩
    · have hp : ∀ x ∈ rest, x.tp = false := fun x hx => hs x (by rw [e]; exact List.mem_cons_of_mem _ hx)
      have hf : f.tp = false := hs f (by rw [e]; exact List.mem_cons_self ..)
      refine .inl ?_
      cases f <;> simp only [St.runFrame]
      case timeoutPending => cases hf
      case reconnect =>
        split
        · exact fun x hx => (hcon _ _ _ x hx).elim (hp x) id
        · exact hp
      case timeoutStreams ss => cases hf
      case sendLoop =>
        (repeat' split) <;> simp only [List.mem_cons] <;> intro x hx
        all_goals first
          | exact hp x hx
          | exact hs x hx
          | (rcases hx with rfl | hx; all_goals first | rfl | exact hp _ (by assumption))
          | (rcases hx with rfl | rfl | hx; all_goals first | rfl | exact hp _ (by assumption))
          | (rcases hx with rfl | rfl | rfl | rfl | hx; all_goals first | rfl | exact hp _ (by assumption))
      case timeoutEnd late =>
        split
        · simp only [St.connectionFailed, List.mem_cons]
          intro x hx
          rcases hx with rfl | rfl | rfl | hx; all_goals first | rfl | exact hp _ (by assumption)
        · exact hp
      case afterComplete =>
        intro x hx
        rcases List.mem_cons.1 hx with rfl | hx
        · split <;> rfl
        · exact hp x hx
      all_goals
        (try split) <;> (try split) <;> (try split) <;> (try simp only [St.enter, St.failAll, St.down, List.mem_cons]) <;> intro x hx
        all_goals first
          | exact hp x hx
          | exact hs x hx
          | (rcases hx with rfl | hx; all_goals first | rfl | exact hp _ (by assumption))
          | (rcases hx with rfl | rfl | hx; all_goals first | rfl | exact hp _ (by assumption))
          | (rcases hx with rfl | rfl | rfl | hx; all_goals first | rfl | exact hp _ (by assumption))
    · rw [hs] at e; cases e
      exact .inr (.inr ⟨_, _, rfl⟩)
    · rw [hs] at e; cases e
      simp only [St.runFrame, List.not_mem_nil, if_false]
      split
      · exact .inl (by simp [Frame.tp])
      · exact .inr (.inr ⟨_, _, rfl⟩)
  · cases h

/-! ### The limit -/

structure Bounded (mp : Nat) (s : St) : Prop where
  shape : Shape s.stack
  max : s.maxPending = mp
  sum : s.pending.length + s.active.length + (s.stack.flatMap Frame.kept).length ≤ mp

theorem kept_none {l : List Frame} (h : ∀ f ∈ l, f.tp = false) : l.flatMap Frame.kept = [] := by
  induction l with
  | nil => rfl
  | cons f l ih =>
    have h1 := h f (List.mem_cons_self ..)
    rw [List.flatMap_cons, ih fun x hx => h x (List.mem_cons_of_mem _ hx)]
    cases f <;> first | rfl | cases h1

theorem bounded_step (mp : Nat) (s : St) (ch : Choice) (s' : St) (h : s.step ch = some s') (hok : NoExpiry s ch) (hb : Bounded mp s) :
    Bounded mp s' := by
  suffices hh : s'.maxPending = mp ∧ s'.pending.length + s'.active.length + (s'.stack.flatMap Frame.kept).length ≤ mp from
    ⟨shape_step s ch s' h hok hb.shape, hh.1, hh.2⟩
  obtain ⟨hs, hm, hi⟩ := hb
  have hcon : ∀ (t : St) cb rest, (t.connect cb rest).maxPending = t.maxPending ∧ (t.connect cb rest).pending = t.pending ∧
      (t.connect cb rest).active = t.active ∧ (t.connect cb rest).stack.flatMap Frame.kept = rest.flatMap Frame.kept := by
    intro t cb rest; unfold St.connect; (split <;> (try split)) <;> exact ⟨rfl, rfl, rfl, rfl⟩
  have hfr : ∀ (t : St) a b rest, (t.failRequest a b rest).maxPending = t.maxPending ∧ (t.failRequest a b rest).pending = t.pending ∧
      (t.failRequest a b rest).active.length ≤ t.active.length ∧ (t.failRequest a b rest).stack.flatMap Frame.kept = rest.flatMap Frame.kept := by
    intro t a b rest; unfold St.failRequest
    split
    · exact ⟨rfl, rfl, Nat.le_refl _, rfl⟩
    · exact ⟨rfl, rfl, List.length_filter_le _ _, rfl⟩
  have call : (∀ f ∈ s.stack, f.tp = false) → ∀ c, (s.doCall c).maxPending = mp ∧
      (s.doCall c).pending.length + (s.doCall c).active.length + ((s.doCall c).stack.flatMap Frame.kept).length ≤ mp := by
    intro hp c
    have hk := kept_none hp
    rw [hk] at hi
    cases c with
    | push v =>
      simp only [St.doCall, St.push]
      split
      · exact ⟨hm, by simpa [St.enter, Frame.kept, hk] using hi⟩
      split
      · exact ⟨hm, by simpa [St.enter, Frame.kept, hk] using hi⟩
      next hl =>
      simp only [hm] at hl
      split
      · exact ⟨hm, by simp [Frame.kept, hk]; omega⟩
      split
      · obtain ⟨h1, h2, h3, h4⟩ := hcon { s with total := s.total + 1, pending := s.pending ++ [⟨s.total + 1, 0, 0⟩] } none s.stack
        rw [h1, h2, h3, h4, hk]
        exact ⟨hm, by simp; omega⟩
      · exact ⟨hm, by simp [hk]; omega⟩
    | connect w =>
      simp only [St.doCall]
      split
      · obtain ⟨h1, h2, h3, h4⟩ := hcon { s with nextCb := s.nextCb + 1 } (some s.nextCb) s.stack
        rw [h1, h2, h3, h4, hk]; exact ⟨hm, hi⟩
      · obtain ⟨h1, h2, h3, h4⟩ := hcon s none s.stack
        rw [h1, h2, h3, h4, hk]; exact ⟨hm, hi⟩
    | disconnect => exact ⟨hm, by simpa [St.doCall, Frame.kept, hk] using hi⟩
  have user : ∀ rest, s.stack = .user :: rest → ∀ f ∈ s.stack, f.tp = false := by
    intro rest e
    rcases hs with hs | ⟨l, hs⟩ | ⟨k, l, hs⟩
    · exact hs
    · rw [e] at hs; cases hs
    · rw [e] at hs; cases hs
  unfold St.step at h
  split at h
  · cases h
  split at h
  · next e => cases h; exact call (by rw [e]; simp) _
  · next ev e =>
    rw [e] at hi
    cases ev <;> simp only [St.doEvent] at h
    case streamError sid =>
      cases h
      obtain ⟨h1, h2, h3, h4⟩ := hfr s sid 503 s.stack
      rw [h1, h2, h4]
      have hk : s.stack.flatMap Frame.kept = [] := by rw [e]; rfl
      rw [hk]
      simp only [List.flatMap_nil, List.length_nil] at *
      exact ⟨hm, by omega⟩
    case response app r =>
      split at h
      · cases h; exact ⟨hm, by simpa [e] using hi⟩
      · cases h
        have := List.length_filter_le (fun x : Ctx => decide (x.app ≠ app)) s.active
        exact ⟨hm, by simp [St.enter, Frame.kept, e] at *; omega⟩
    case goaway last =>
      cases h
      have := List.length_filter_le (fun c : Ctx => decide (¬ c.stream > last)) s.active
      exact ⟨hm, by simp [Frame.kept, e] at *; omega⟩
    all_goals
      (try split at h) <;> (try split at h) <;> cases h <;>
        exact ⟨hm, by simpa [St.connectionFailed, St.down, Frame.kept, e] using hi⟩
  · next rest e => cases h; exact call (user _ e) _
  · next rest e =>
    cases h
    exact ⟨hm, by simpa [e, Frame.kept] using hi⟩
  · cases h
  · next f rest out hu e =>
    cases h
    rw [e] at hi
    simp only [List.flatMap_cons, List.length_append] at hi
    cases f <;> simp only [St.runFrame]
    case reconnect =>
      split
      · obtain ⟨h1, h2, h3, h4⟩ := hcon s none rest
        rw [h1, h2, h3, h4]; exact ⟨hm, by simp only [Frame.kept, List.length_nil] at hi; omega⟩
      · exact ⟨hm, by simp only [Frame.kept, List.length_nil] at *; omega⟩
    case timeoutStreams ss =>
      split
      · exact ⟨hm, by simp only [Frame.kept, List.length_nil] at *; omega⟩
      · obtain ⟨h1, h2, h3, h4⟩ := hfr s _ 408 (.timeoutStreams _ :: rest)
        rw [h1, h2, h4]; exact ⟨hm, by simp only [Frame.kept, List.flatMap_cons, List.length_nil, List.nil_append] at *; omega⟩
    case sendLoop =>
      split
      · exact ⟨hm, by simp only [Frame.kept, List.length_nil] at *; omega⟩
      next c ps hp =>
      rw [hp] at hi
      simp only [List.length_cons, Frame.kept, List.length_nil] at hi
      split
      · exact ⟨hm, by rw [hp]; simp only [List.length_cons]; omega⟩
      split
      · exact ⟨hm, by rw [hp, e]; simp only [Frame.kept, List.flatMap_cons, List.nil_append, List.length_cons]; omega⟩
      split
      · next sk _ =>
        have := List.length_filter_le (fun c : Ctx => decide (c.app ≠ s.nextApp + sk)) s.active
        exact ⟨hm, by simp only [Frame.kept, List.length_append, List.length_cons, List.length_nil, List.flatMap_cons]; omega⟩
      · exact ⟨hm, by simp only [Frame.kept, List.flatMap_cons, List.nil_append]; omega⟩
      · exact ⟨hm, by simp only [Frame.kept, List.flatMap_cons, List.nil_append]; omega⟩
    case timeoutPending ex k =>
      split
      · exact ⟨hm, by simp only [Frame.kept] at *; omega⟩
      next c ps hp =>
      rw [hp] at hi
      split
      · exact ⟨hm, by simp [St.enter, Frame.kept] at *; omega⟩
      · exact ⟨hm, by simp [Frame.kept] at *; omega⟩
    case user => exact absurd rfl (hu ·)
    case timeoutEnd late =>
      split
      · exact ⟨hm, by simpa [St.connectionFailed, St.down, Frame.kept] using hi⟩
      · exact ⟨hm, by simpa [Frame.kept] using hi⟩
    case afterComplete =>
      refine ⟨hm, ?_⟩
      split <;> simpa [Frame.kept] using hi
    all_goals
      (try split) <;> (try split) <;> (try split) <;>
        exact ⟨hm, by simp [St.enter, St.failAll, St.down, Frame.kept] at *; omega⟩
  · cases h

/-- **C138, in part** As long as no request times out, the requests queued and on the wire are never more than the
limit. -/
theorem C138_limit_partial (auto : Bool) (ms mp : Nat) (chs : List Choice) (s : St) (h : (St.init auto ms mp).run chs = some s)
    (hne : Along NoExpiry (St.init auto ms mp) chs) : s.pending.length + s.active.length ≤ mp := by
  have h0 : Bounded mp (St.init auto ms mp) := ⟨.inl (by simp [St.init]), rfl, by simp [St.init]⟩
  have := (run_along (Bounded mp) NoExpiry (bounded_step mp) _ chs s h hne h0).sum
  omega

/-- The full claim is false: while the timeout handler goes through the queue, the requests it will keep are not
counted, so a callback can push beyond the limit (here 2). -/
theorem C138_limit_is_false :
    ((St.init true 1 2).run [.call (.push true), .call (.push true), .event (.timeout [2] false), .go .refused, .go .refused, .go .refused,
      .call (.push true), .call (.push true), .ret, .go .refused, .go .refused, .go .refused, .go .refused]).map
      (fun s => (s.pending.map (·.call), s.maxPending, s.stack)) = some ([1, 3, 4], 2, []) := by decide

/-! ### Waiting -/

/-- A request waits although it could be sent: the connection is up, no GOAWAY came, and fewer requests are on
the wire than the limit allows. -/
def St.Hungry (s : St) : Prop :=
  s.isConnected = true ∧ s.goaway = false ∧ s.pending ++ s.stack.flatMap Frame.kept ≠ [] ∧ s.active.length < s.maxStreams

/-- Frames that send queued requests. -/
def Frame.works : Frame → Bool
  | .process | .sendLoop | .afterComplete => true
  | _ => false

/-- No stream fails and no request times out. -/
def Smooth (s : St) : Choice → Prop
  | .event (.streamError _) => False
  | ch => NoExpiry s ch

theorem smooth_noExpiry {s : St} {ch : Choice} (h : Smooth s ch) : NoExpiry s ch := by
  cases ch with
  | event e => cases e <;> first | exact h | trivial
  | _ => trivial

structure Going (s : St) : Prop where
  shape : Shape s.stack
  proto : s.isConnected = true → s.proto = true
  works : s.Hungry → ∃ f ∈ s.stack, f.works = true

theorem going_step (s : St) (ch : Choice) (s' : St) (h : s.step ch = some s') (hok : Smooth s ch) (hg : Going s) : Going s' := by
  suffices hh : (s'.isConnected = true → s'.proto = true) ∧ (s'.Hungry → ∃ f ∈ s'.stack, f.works = true) from
    ⟨shape_step s ch s' h (smooth_noExpiry hok) hg.shape, hh.1, hh.2⟩
  obtain ⟨hs, hp, hw⟩ := hg
  have keep : ∀ (t : St) (f new rest : List Frame), s.stack = f ++ rest → t.stack = new ++ rest → (∀ x ∈ f, x.works = false) →
      (t.isConnected = true → t.proto = true) → (t.Hungry → s.Hungry) →
      (t.isConnected = true → t.proto = true) ∧ (t.Hungry → ∃ f ∈ t.stack, f.works = true) := by
    intro t f new rest e1 e2 e3 e4 e5
    refine ⟨e4, fun hh => ?_⟩
    obtain ⟨x, hx, hx'⟩ := hw (e5 hh)
    rw [e1] at hx
    rcases List.mem_append.1 hx with hx | hx
    · rw [e3 x hx] at hx'; cases hx'
    · exact ⟨x, by rw [e2]; exact List.mem_append_right _ hx, hx'⟩
  have down : ∀ t : St, t.isConnected = false → (t.isConnected = true → t.proto = true) ∧ (t.Hungry → ∃ f ∈ t.stack, f.works = true) := by
    intro t ht
    exact ⟨fun h => (by rw [ht] at h; cases h), fun h => (by have := h.1; rw [ht] at this; cases this)⟩
  have hcon : ∀ (t : St) cb (f rest : List Frame), s.stack = f ++ rest → (∀ x ∈ f, x.works = false) → (∀ x ∈ f, x.kept = []) →
      t.isConnected = s.isConnected → t.proto = s.proto → t.goaway = s.goaway → (t.isConnected = true → t.pending = s.pending) →
      t.active = s.active → t.maxStreams = s.maxStreams →
      ((t.connect cb rest).isConnected = true → (t.connect cb rest).proto = true) ∧
        ((t.connect cb rest).Hungry → ∃ f ∈ (t.connect cb rest).stack, f.works = true) := by
    intro t cb f rest e1 e2 e3 e4 e5 e6 e7 e8 e9
    have hk : s.stack.flatMap Frame.kept = rest.flatMap Frame.kept := by
      rw [e1, List.flatMap_append]
      have : f.flatMap Frame.kept = [] := by
        rw [List.flatMap_eq_nil_iff]; exact e3
      rw [this]; rfl
    have fin : ∀ (u : St) (new : List Frame), u.stack = new ++ rest → u.stack.flatMap Frame.kept = rest.flatMap Frame.kept → u.isConnected = t.isConnected →
        u.proto = t.proto → u.goaway = t.goaway → u.pending = t.pending → u.active = t.active → u.maxStreams = t.maxStreams →
        (u.isConnected = true → u.proto = true) ∧ (u.Hungry → ∃ f ∈ u.stack, f.works = true) := by
      intro u new g1 g2 g3 g4 g5 g6 g7 g8
      refine keep u f new rest e1 g1 e2 (by rw [g3, g4, e4, e5]; exact hp) ?_
      rintro ⟨a1, a2, a3, a4⟩
      rw [g3] at a1
      refine ⟨by rw [← e4]; exact a1, by rw [← e6, ← g5]; exact a2, ?_, by rw [← e8, ← e9, ← g7, ← g8]; exact a4⟩
      rw [hk, ← e7 a1, ← g6, ← g2]; exact a3
    unfold St.connect
    split
    · split
      · exact fin _ [.user] rfl rfl rfl rfl rfl rfl rfl rfl
      · exact fin _ [] rfl rfl rfl rfl rfl rfl rfl rfl
    · split <;> exact fin _ [] rfl rfl rfl rfl rfl rfl rfl rfl
  have call : ∀ c, ((s.doCall c).isConnected = true → (s.doCall c).proto = true) ∧ ((s.doCall c).Hungry → ∃ f ∈ (s.doCall c).stack, f.works = true) := by
    intro c
    cases c with
    | push v =>
      simp only [St.doCall, St.push]
      split
      · exact keep _ [] [.user] s.stack rfl rfl (by simp) hp id
      split
      · exact keep _ [] [.user] s.stack rfl rfl (by simp) hp id
      split
      · exact ⟨hp, fun _ => ⟨.process, by simp, rfl⟩⟩
      next hc =>
      have hc : s.isConnected = false := by simpa using hc
      split
      · exact hcon _ none [] s.stack rfl (by simp) (by simp) rfl rfl rfl (fun h => by simp only [hc] at h; cases h) rfl rfl
      · exact down _ hc
    | connect w =>
      simp only [St.doCall]
      split
      · exact hcon _ _ [] s.stack rfl (by simp) (by simp) rfl rfl rfl (fun _ => rfl) rfl rfl
      · exact hcon _ _ [] s.stack rfl (by simp) (by simp) rfl rfl rfl (fun _ => rfl) rfl rfl
    | disconnect => exact keep _ [] [.disc] s.stack rfl rfl (by simp) hp id
  unfold St.step at h
  split at h
  · cases h
  split at h
  · cases h; exact call _
  · next ev e =>
    have none : s.Hungry → False := fun hh => by
      obtain ⟨x, hx, -⟩ := hw hh
      rw [e] at hx; cases hx
    cases ev <;> simp only [St.doEvent] at h
    case streamError sid => exact absurd hok id
    case connector ok =>
      split at h
      · cases h
      split at h <;> cases h
      · exact keep _ [] [] s.stack rfl rfl (by simp) hp id
      · exact down _ rfl
    case handshake ok =>
      split at h
      · cases h
      split at h <;> cases h
      · exact ⟨fun _ => rfl, fun _ => ⟨.process, by simp, rfl⟩⟩
      · exact down _ rfl
    case response app r =>
      split at h
      · cases h; exact ⟨hp, hw⟩
      · cases h; exact ⟨hp, fun _ => ⟨.afterComplete, by simp [St.enter], rfl⟩⟩
    case goaway last =>
      cases h
      exact ⟨hp, fun hh => by have := hh.2.1; cases this⟩
    case timeout expired late =>
      cases h
      have he : expired = [] := hok
      subst he
      exact keep _ [] [.timeoutStreams _, .timeoutPending [] [], .timeoutEnd late] s.stack rfl rfl (by simp) hp id
    case disconnected =>
      split at h <;> cases h
      · exact keep _ [] [.connLoop _ _, .lostEnd] s.stack rfl rfl (by simp) hp id
      · exact keep _ [] [.lostEnd] s.stack rfl rfl (by simp) hp id
    case goawayError => cases h; exact keep _ [] [.failAll, .disc] s.stack rfl rfl (by simp) hp id
    case connectionError => cases h; exact keep _ [] [.failAll, .disc, .reconnect] s.stack rfl rfl (by simp) hp id
    case dispose => cases h; exact keep _ [] [.failAll, .gone] s.stack rfl rfl (by simp) hp id
  · cases h; exact call _
  · next rest e =>
    cases h
    exact keep _ [.user] [] rest e rfl (by simp [Frame.works]) hp (by unfold St.Hungry; rw [e]; exact id)
  · cases h
  · next f rest out hu e =>
    cases h
    rcases hs with hs | ⟨l, hs⟩ | ⟨k, l, hs⟩
    · have hkr : rest.flatMap Frame.kept = [] := kept_none fun x hx => hs x (by rw [e]; exact List.mem_cons_of_mem _ hx)
      have hf : f.tp = false := hs f (by rw [e]; exact List.mem_cons_self ..)
      have hks : s.stack.flatMap Frame.kept = [] := kept_none hs
      have kp : f.works = false → ∀ (t : St) (new : List Frame), t.stack = new ++ rest → t.stack.flatMap Frame.kept = [] →
          t.isConnected = s.isConnected → t.proto = s.proto → t.goaway = s.goaway → t.pending = s.pending → t.active = s.active → t.maxStreams = s.maxStreams →
          (t.isConnected = true → t.proto = true) ∧ (t.Hungry → ∃ f ∈ t.stack, f.works = true) := by
        intro hfw t new g1 g2 g3 g4 g5 g6 g7 g8
        refine keep t [f] new rest e g1 (by simpa using hfw) (by rw [g3, g4]; exact hp) ?_
        unfold St.Hungry
        rw [g2, g3, g5, g6, g7, g8, hks]; exact id
      have empty : ∀ t : St, t.isConnected = s.isConnected → t.proto = s.proto → t.pending = [] → t.stack.flatMap Frame.kept = [] →
          (t.isConnected = true → t.proto = true) ∧ (t.Hungry → ∃ f ∈ t.stack, f.works = true) := by
        intro t g1 g2 g3 g4
        refine ⟨by rw [g1, g2]; exact hp, fun hh => ?_⟩
        have := hh.2.2.1
        rw [g3, g4] at this
        exact absurd rfl this
      cases f <;> simp only [St.runFrame]
      case user => exact absurd rfl (hu ·)
      case process =>
        split
        · next hb =>
          refine ⟨hp, fun hh => ?_⟩
          have h1 : s.isConnected = true := hh.1
          have h2 : s.goaway = false := hh.2.1
          rw [h1, h2, hp h1] at hb
          simp at hb
        · exact ⟨hp, fun _ => ⟨.sendLoop, by simp, rfl⟩⟩
      case sendLoop =>
        split
        · next hpe => exact empty _ rfl rfl hpe hkr
        next c ps hpe =>
        split
        · next hl =>
          refine ⟨hp, fun hh => ?_⟩
          have : s.active.length < s.maxStreams := hh.2.2.2
          omega
        split
        · exact ⟨hp, fun _ => ⟨.sendLoop, by simp [e], rfl⟩⟩
        split
        · exact ⟨hp, fun _ => ⟨.sendLoop, by simp, rfl⟩⟩
        · exact ⟨hp, fun _ => ⟨.sendLoop, by simp, rfl⟩⟩
        · exact ⟨hp, fun _ => ⟨.sendLoop, by simp, rfl⟩⟩
      case sendFailed c => exact kp rfl _ [.user, .countFailed] rfl hkr rfl rfl rfl rfl rfl rfl
      case countFailed => exact kp rfl { s with failed := s.failed + 1, stack := rest } [] rfl hkr rfl rfl rfl rfl rfl rfl
      case failList cs status =>
        split
        · exact kp rfl _ [] rfl hkr rfl rfl rfl rfl rfl rfl
        · exact kp rfl _ [.user, .failList _ status] rfl hkr rfl rfl rfl rfl rfl rfl
      case failAll => exact empty _ rfl rfl rfl hkr
      case disc => exact down _ rfl
      case close => exact kp rfl { s with closing := true, stack := rest } [] rfl hkr rfl rfl rfl rfl rfl rfl
      case afterComplete =>
        refine ⟨hp, fun hh => ?_⟩
        have h2 : s.goaway = false := hh.2.1
        exact ⟨.process, by simp [h2], rfl⟩
      case finish =>
        split
        · exact kp rfl _ [] rfl hkr rfl rfl rfl rfl rfl rfl
        split
        · exact down _ rfl
        split
        · exact down _ rfl
        · exact down _ rfl
      case finishEnd => exact kp rfl { s with preserve := true, closing := true, stack := rest } [] rfl hkr rfl rfl rfl rfl rfl rfl
      case connLoop cbs ok =>
        split
        · exact kp rfl _ [] rfl hkr rfl rfl rfl rfl rfl rfl
        · exact kp rfl _ [.user, .connLoop _ ok] rfl hkr rfl rfl rfl rfl rfl rfl
      case reconnect =>
        split
        · exact hcon _ _ [.reconnect] rest e (by simp [Frame.works]) (by simp [Frame.kept]) rfl rfl rfl (fun _ => rfl) rfl rfl
        · exact kp rfl _ [] rfl hkr rfl rfl rfl rfl rfl rfl
      case timeoutStreams => cases hf
      case timeoutPending => cases hf
      case timeoutEnd late =>
        split
        · exact down _ rfl
        · exact kp rfl _ [] rfl hkr rfl rfl rfl rfl rfl rfl
      case lostEnd =>
        split
        · split <;> exact down _ rfl
        · exact down _ rfl
      case gone => exact down { s.down with stack := rest } rfl
    · rw [hs] at e; cases e
      refine keep _ [.timeoutStreams []] [] _ hs rfl (by simp [Frame.works]) hp ?_
      unfold St.Hungry
      rw [hs]; exact id
    · rw [hs] at e; cases e
      simp only [St.runFrame, List.not_mem_nil, if_false]
      split
      · next hpe =>
        refine keep _ [.timeoutPending [] k] [] _ hs rfl (by simp [Frame.works]) hp ?_
        unfold St.Hungry
        rw [hs, hpe]
        simp [Frame.kept]
      · next c ps hpe =>
        refine keep _ [.timeoutPending [] k] [.timeoutPending [] (k ++ [c])] _ hs rfl (by simp [Frame.works]) hp ?_
        unfold St.Hungry
        rw [hs, hpe]
        simp [Frame.kept]
  · cases h

/-- **C142, in part** In a history without failed streams and expired requests, a request waits in an idle client
only for a reason: the connection is not up, or a GOAWAY came, or the limit of concurrent streams is
reached. -/
theorem C142_not_forgotten_partial (auto : Bool) (ms mp : Nat) (chs : List Choice) (s : St) (h : (St.init auto ms mp).run chs = some s)
    (hsm : Along Smooth (St.init auto ms mp) chs) (hidle : s.stack = []) (hw : s.pending ≠ []) :
    s.isConnected = false ∨ s.goaway = true ∨ s.maxStreams ≤ s.active.length := by
  have h0 : Going (St.init auto ms mp) := ⟨.inl (by simp [St.init]), fun h => (by cases h), fun h => (by cases h.1)⟩
  have hg := run_along Going Smooth going_step _ chs s h hsm h0
  rcases Bool.eq_false_or_eq_true s.isConnected with h1 | h1
  · rcases Bool.eq_false_or_eq_true s.goaway with h2 | h2
    · exact .inr (.inl h2)
    · refine .inr (.inr ?_)
      refine Nat.le_of_not_lt fun h3 => ?_
      obtain ⟨f, hf, -⟩ := hg.works ⟨h1, h2, by simp [hidle, hw], h3⟩
      rw [hidle] at hf; cases hf
  · exact .inl h1

/-- The queue moves on when a response comes: with a limit of one stream the second request is sent after the
first is answered. -/
def demoQueue : List Choice :=
  [.call (.push true), .call (.push true), .event (.connector true), .event (.handshake true), .go .refused, .go .refused,
   .go (.ok 0 1), .go .refused, .event (.response 1 7), .ret, .go .refused, .go .refused, .go (.ok 0 3), .go .refused]

theorem C142_example : Along Smooth (St.init true 1 10) demoQueue ∧
    ((St.init true 1 10).run demoQueue).map (fun s => (s.trace, s.pending, s.stack)) =
      some ([.sent 2 2 3, .done 1 (.response 7), .sent 1 1 1, .up], [], []) :=
  ⟨along_of (by simp [demoQueue, Smooth, NoExpiry]) _, by decide⟩

/-- The full claim is false: when the stream of the only request on the wire fails, nothing sends the requests that
wait, although the connection is up and free. -/
theorem C142_full_is_false :
    ((St.init true 1 10).run [.call (.push true), .call (.push true), .event (.connector true), .event (.handshake true), .go .refused,
      .go .refused, .go (.ok 0 1), .go .refused, .event (.streamError 1), .ret, .go .refused]).map
      (fun s => (s.stack, s.isConnected, s.goaway, s.active, s.pending.map (·.call))) = some ([], true, false, [], [2]) := by decide

/-! ### No crash -/

/-- The user calls `disconnect()` only from outside of callbacks, and encoding a request never ends the
connection. -/
def Calm (s : St) (ch : Choice) : Prop := (ch = .call .disconnect → s.stack = []) ∧ ch ≠ .go .refusedGoaway

/-- Frames that can be above the send loop. -/
def Frame.mild : Frame → Bool
  | .user | .process | .sendLoop | .sendFailed _ | .countFailed => true
  | _ => false

structure Sound (s : St) : Prop where
  alive : s.crashed = false
  proto : .sendLoop ∈ s.stack → s.proto = true
  above : s.stack.Pairwise (fun f g => g = .sendLoop → f.mild = true)

theorem sound_step (s : St) (ch : Choice) (s' : St) (h : s.step ch = some s') (hok : Calm s ch) (hs : Sound s) : Sound s' := by
  obtain ⟨ha, hp, hm⟩ := hs
  have free : ∀ t : St, t.crashed = false → .sendLoop ∉ t.stack → Sound t := by
    intro t h1 h2
    refine ⟨h1, fun h => absurd h h2, ?_⟩
    exact List.Pairwise.imp_of_mem (R := fun _ _ => True) (fun _ hb _ e => absurd (e ▸ hb) h2) (by simp [List.pairwise_iff_forall_sublist])
  have push1 : ∀ (t : St) (f : Frame), f.mild = true → f ≠ .sendLoop → t.crashed = false → t.proto = s.proto → t.stack = f :: s.stack → Sound t := by
    intro t f h1 h2 h3 h4 h5
    refine ⟨h3, fun h => ?_, ?_⟩
    · rw [h5] at h
      rw [h4]; exact hp ((List.mem_cons.1 h).resolve_left (fun e => h2 e.symm))
    · rw [h5]; exact List.Pairwise.cons (fun _ _ _ => h1) hm
  have same : ∀ t : St, t.crashed = false → t.proto = s.proto → t.stack = s.stack → Sound t := by
    intro t h3 h4 h5
    exact ⟨h3, by rw [h5, h4]; exact hp, by rw [h5]; exact hm⟩
  have hcon : ∀ (t : St) cb, t.crashed = false → t.proto = s.proto → Sound (t.connect cb s.stack) := by
    intro t cb h1 h2
    unfold St.connect
    split
    · split
      · exact push1 _ .user rfl (by simp) h1 h2 rfl
      · exact same _ h1 h2 rfl
    · split <;> exact same _ h1 h2 rfl
  have call : ∀ c, (c = .disconnect → s.stack = []) → Sound (s.doCall c) := by
    intro c hc
    cases c with
    | push v =>
      simp only [St.doCall, St.push]
      split
      · exact push1 _ .user rfl (by simp) ha rfl rfl
      split
      · exact push1 _ .user rfl (by simp) ha rfl rfl
      split
      · exact push1 _ .process rfl (by simp) ha rfl rfl
      split
      · exact hcon _ _ ha rfl
      · exact same _ ha rfl rfl
    | connect w =>
      simp only [St.doCall]
      split <;> exact hcon _ _ ha rfl
    | disconnect => exact free _ ha (by simp [St.doCall, hc rfl])
  have fcon : ∀ (t : St) cb rest, t.crashed = false → .sendLoop ∉ rest → Sound (t.connect cb rest) := by
    intro t cb rest h1 h2
    refine free _ ?_ ?_
    · unfold St.connect; (split <;> (try split)) <;> exact h1
    · unfold St.connect; (split <;> (try split)) <;> simp [St.enter, h2]
  have ffr : ∀ (t : St) a b rest, t.crashed = false → .sendLoop ∉ rest → Sound (t.failRequest a b rest) := by
    intro t a b rest h1 h2
    refine free _ ?_ ?_
    · unfold St.failRequest; split <;> exact h1
    · unfold St.failRequest; split <;> simp [St.enter, h2]
  unfold St.step at h
  split at h
  · cases h
  split at h
  · next c e => cases h; exact call _ (fun _ => e)
  · next ev e =>
    cases ev <;> simp only [St.doEvent] at h
    case streamError => cases h; exact ffr _ _ _ _ ha (by simp [e])
    all_goals
      (try split at h) <;> (try split at h) <;> cases h <;>
        exact free _ ha (by simp [St.connectionFailed, St.down, St.enter, e])
  · next c _ e => cases h; exact call _ (fun hc => by have := hok.1 (by rw [hc]); rw [e] at this; cases this)
  · next rest e =>
    cases h
    rw [e] at hp hm
    exact ⟨ha, fun h => hp (List.mem_cons_of_mem _ h), (List.pairwise_cons.1 hm).2⟩
  · cases h
  · next f rest out hu e =>
    cases h
    rw [e] at hp hm
    obtain ⟨hm1, hm2⟩ := List.pairwise_cons.1 hm
    have pop : ∀ t : St, t.crashed = false → t.proto = s.proto → t.stack = rest → Sound t := by
      intro t h1 h2 h3
      exact ⟨h1, by rw [h3, h2]; exact fun h => hp (List.mem_cons_of_mem _ h), by rw [h3]; exact hm2⟩
    have up2 : ∀ (t : St) (a b : Frame), a.mild = true → b.mild = true → a ≠ .sendLoop → (b = .sendLoop → s.proto = true) → t.crashed = false →
        t.proto = s.proto → t.stack = a :: b :: rest → Sound t := by
      intro t a b h1 h2 h3 h4 h5 h6 h7
      refine ⟨h5, ?_, ?_⟩
      · rw [h7, h6]
        intro h
        rcases List.mem_cons.1 h with h | h
        · exact absurd h.symm h3
        rcases List.mem_cons.1 h with h | h
        · exact h4 h.symm
        · exact hp (List.mem_cons_of_mem _ h)
      · rw [h7]
        exact .cons (fun _ _ _ => h1) (.cons (fun _ _ _ => h2) hm2)
    cases f <;> simp only [St.runFrame]
    case user => exact absurd rfl (hu ·)
    case process =>
      split
      · exact pop _ ha rfl rfl
      · next hb =>
        have hpr : s.proto = true := by
          simp only [Bool.or_eq_true, Bool.not_eq_true', not_or, Bool.not_eq_false] at hb
          exact hb.1.2
        exact ⟨ha, fun _ => hpr, .cons (fun _ _ _ => rfl) hm2⟩
    case sendLoop =>
      have hpr := hp (List.mem_cons_self ..)
      split
      · exact pop _ ha rfl rfl
      split
      · exact pop _ ha rfl rfl
      split
      · next hn => rw [hpr] at hn; simp at hn
      split
      · exact ⟨ha, fun _ => hpr, .cons (fun _ _ _ => rfl) hm2⟩
      · exact up2 _ _ _ rfl rfl (by simp) (fun _ => hpr) ha rfl rfl
      · exact absurd rfl hok.2
    case sendFailed c => exact up2 _ .user .countFailed rfl rfl (by simp) (by simp) ha rfl rfl
    case countFailed => exact pop _ ha rfl rfl
    all_goals
      have hn : .sendLoop ∉ rest := fun h => absurd (hm1 _ h rfl) (by simp [Frame.mild])
    case reconnect =>
      split
      · exact fcon _ _ _ ha hn
      · exact pop _ ha rfl rfl
    case timeoutStreams ss =>
      split
      · exact pop _ ha rfl rfl
      · exact ffr _ _ _ _ ha (by simp [hn])
    case afterComplete =>
      refine free _ ha ?_
      simp only [List.mem_cons, not_or]
      exact ⟨by split <;> simp, hn⟩
    all_goals
      (try split) <;> (try split) <;> (try split) <;>
        exact free _ ha (by simp [St.enter, St.failAll, St.down, St.connectionFailed, hn])
  · cases h

/-- **C143, in part** The client never dereferences a null pointer, provided that `disconnect()` is not called from
within a callback and no request makes the encoder end the connection. -/
theorem C143_no_crash_partial (auto : Bool) (ms mp : Nat) (chs : List Choice) (s : St) (h : (St.init auto ms mp).run chs = some s)
    (hc : Along Calm (St.init auto ms mp) chs) : s.crashed = false :=
  (run_along Sound Calm sound_step _ chs s h hc ⟨rfl, by simp [St.init], by simp [St.init]⟩).alive

/-- A send is refused, its callback pushes again, and that request is sent; then the user disconnects. -/
def demoCalm : List Choice :=
  [.call (.push true), .event (.connector true), .event (.handshake true), .go .refused, .go .refused, .go .refused, .go .refused,
   .call (.push true), .go .refused, .go (.ok 0 1), .go .refused, .ret, .go .refused, .go .refused]

theorem C143_example : Along Calm (St.init true 10 10) demoCalm ∧ Along NoExpiry (St.init true 10 10) demoCalm ∧
    ((St.init true 10 10).run demoCalm).map (fun s => (s.trace, s.stack)) = some ([.sent 2 1 1, .done 1 (.error 503), .up], []) :=
  ⟨along_of (by simp [demoCalm, Calm]) _, along_of (by simp [demoCalm, NoExpiry]) _, by decide⟩

/-- The full claim is false: a callback told of a refused request that calls `disconnect()` and pushes again makes the
client use the protocol object that is gone. -/
theorem C143_full_is_false :
    ((St.init true 10 10).run [.call (.push true), .event (.connector true), .event (.handshake true), .go .refused, .go .refused,
      .go .refused, .go .refused, .call .disconnect, .go .refused, .go .refused, .go .refused, .call (.push true), .ret,
      .go .refused, .go .refused]).map (fun s => (s.trace, s.crashed)) = some ([.done 1 (.error 503), .up], true) := by decide

/-- So does a callback that merely pushes again, when the refusal came with the end of the connection. -/
theorem C143_retry_crashes :
    ((St.init true 10 10).run [.call (.push true), .event (.connector true), .event (.handshake true), .go .refused, .go .refused,
      .go .refusedGoaway, .go .refused, .go .refused, .go .refused, .go .refused, .go .refused, .go .refused, .call (.push true), .ret,
      .go .refused, .go .refused]).map (fun s => (s.trace, s.crashed)) = some ([.done 1 (.error 503), .up], true) := by decide

end Verif.Cli2
