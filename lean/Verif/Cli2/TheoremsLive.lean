import Verif.Cli2.TheoremsQueue

/-! More of C140 and C142: what the flag of a GOAWAY means, and requests on a connection that is gone. -/

namespace Verif.Cli2

/-- **C140** `connect()` on an open connection tells the callback of success at once. -/
theorem C140_already_open (s : St) (h : s.isConnected = true) :
    (s.doCall (.connect true)).trace = .connected s.nextCb true :: s.trace ∧ (s.doCall (.connect true)).cbs = s.cbs ∧
      (s.doCall (.connect true)).attempts = s.attempts := by
  simp [St.doCall, St.connect, h, St.enter]

theorem said_step (s : St) (ch : Choice) (s' : St) (h : s.step ch = some s') (hs : s.goaway = true → goneAway s.trace = true) :
    s'.goaway = true → goneAway s'.trace = true := by
  have con : ∀ (t : St) cb rest, (t.goaway = true → goneAway t.trace = true) →
      (t.connect cb rest).goaway = true → goneAway (t.connect cb rest).trace = true := by
    intro t cb rest ht
    unfold St.connect
    split
    · split
      · simpa [St.enter, goneAway] using ht
      · simpa using ht
    · split <;> simpa using ht
  have fr : ∀ (t : St) a b rest, (t.goaway = true → goneAway t.trace = true) →
      (t.failRequest a b rest).goaway = true → goneAway (t.failRequest a b rest).trace = true := by
    intro t a b rest ht
    unfold St.failRequest
    split
    · simpa using ht
    · simpa [St.enter, goneAway] using ht
  have call : ∀ c, (s.doCall c).goaway = true → goneAway (s.doCall c).trace = true := by
    intro c
    cases c with
    | push v =>
      simp only [St.doCall, St.push]
      split
      · simpa [St.enter, goneAway] using hs
      split
      · simpa [St.enter, goneAway] using hs
      split
      · simpa using hs
      split
      · exact con _ _ _ hs
      · simpa using hs
    | connect w => simp only [St.doCall]; split <;> exact con _ _ _ hs
    | disconnect => simpa [St.doCall] using hs
  unfold St.step at h
  split at h
  · cases h
  split at h
  · cases h; exact call _
  · next ev e =>
    cases ev <;> simp only [St.doEvent] at h
    case streamError => cases h; exact fr _ _ _ _ hs
    all_goals
      (try split at h) <;> (try split at h) <;> cases h <;>
        simp_all [St.connectionFailed, St.down, St.enter, goneAway]
  · cases h; exact call _
  · cases h; exact hs
  · cases h
  · next f rest out hu e =>
    cases h
    cases f <;> simp only [St.runFrame]
    case reconnect =>
      split
      · exact con _ _ _ hs
      · exact hs
    case timeoutStreams ss =>
      split
      · exact hs
      · exact fr _ _ _ _ hs
    all_goals
      (try split) <;> (try split) <;> (try split) <;> (try split) <;>
        simp_all [St.enter, St.failAll, St.down, St.connectionFailed, goneAway]
  · cases h

theorem goneAway_iff (t : List Ev) (h : goneAway t = true) : ∃ mid last pre, t = mid ++ .goaway last :: pre ∧ .up ∉ mid := by
  induction t with
  | nil => cases h
  | cons e t ih =>
    cases e with
    | goaway last => exact ⟨[], last, t, rfl, by simp⟩
    | up => cases h
    | _ =>
      obtain ⟨mid, last, pre, rfl, hm⟩ := ih h
      exact ⟨_ :: mid, last, pre, rfl, by simp [hm]⟩

/-- **C142, in part** ... and if a GOAWAY is the reason, it came on the connection that is up now. -/
theorem C142_reasons_partial (auto : Bool) (ms mp : Nat) (chs : List Choice) (s : St) (h : (St.init auto ms mp).run chs = some s)
    (hsm : Along Smooth (St.init auto ms mp) chs) (hidle : s.stack = []) (hw : s.pending ≠ []) :
    s.isConnected = false ∨ (∃ mid last pre, s.trace = mid ++ .goaway last :: pre ∧ .up ∉ mid) ∨ s.maxStreams ≤ s.active.length := by
  rcases C142_not_forgotten_partial auto ms mp chs s h hsm hidle hw with h1 | h1 | h1
  · exact .inl h1
  · refine .inr (.inl (goneAway_iff _ ?_))
    exact run_inv (fun s => s.goaway = true → goneAway s.trace = true) said_step _ chs s h (by simp [St.init]) h1
  · exact .inr (.inr h1)

/-- The client is not disposed of. -/
def Kept (_ : St) (ch : Choice) : Prop := ch ≠ .event .dispose

structure Wire (s : St) : Prop where
  proto : s.proto = true → s.isConnected = true
  gone : .gone ∉ s.stack
  wire : s.isConnected = false → s.active ≠ [] → .failAll ∈ s.stack

theorem wire_step (s : St) (ch : Choice) (s' : St) (h : s.step ch = some s') (hok : Kept s ch) (hs : Wire s) : Wire s' := by
  obtain ⟨hp, hg, hw⟩ := hs
  have con : ∀ (t : St) cb rest, t.proto = s.proto → t.isConnected = s.isConnected → t.active = s.active → .gone ∉ rest →
      (.failAll ∈ s.stack → .failAll ∈ rest) → Wire (t.connect cb rest) := by
    intro t cb rest h1 h2 h3 h4 h5
    unfold St.connect
    split
    · split
      · exact ⟨by simp [St.enter, h1, h2]; exact hp, by simp [St.enter, h4], by simp only [St.enter, h2, h3]; exact fun a b => List.mem_cons_of_mem _ (h5 (hw a b))⟩
      · exact ⟨by simp [h1, h2]; exact hp, by simp [h4], by simp only [h2, h3]; exact fun a b => (h5 (hw a b))⟩
    · split <;> exact ⟨by simp [h1, h2]; exact hp, by simp [h4], by simp only [h2, h3]; exact fun a b => (h5 (hw a b))⟩
  have fr : ∀ (t : St) a b rest, t.proto = s.proto → t.isConnected = s.isConnected → t.active = s.active → .gone ∉ rest →
      (.failAll ∈ s.stack → .failAll ∈ rest) → Wire (t.failRequest a b rest) := by
    intro t a b rest h1 h2 h3 h4 h5
    unfold St.failRequest
    split
    · exact ⟨by simp [h1, h2]; exact hp, by simp [h4], by simp only [h2, h3]; exact fun a b => (h5 (hw a b))⟩
    · refine ⟨by simp [St.enter, h1, h2]; exact hp, by simp [St.enter, h4], ?_⟩
      simp only [St.enter, h2, h3]
      intro c d
      have : s.active ≠ [] := by intro e; rw [e] at d; simp at d
      exact List.mem_cons_of_mem _ (List.mem_cons_of_mem _ (h5 (hw c this)))
  have call : ∀ c, Wire (s.doCall c) := by
    intro c
    cases c with
    | push v =>
      simp only [St.doCall, St.push]
      split
      · exact ⟨hp, by simp [St.enter, hg], fun a b => List.mem_cons_of_mem _ (hw a b)⟩
      split
      · exact ⟨hp, by simp [St.enter, hg], fun a b => List.mem_cons_of_mem _ (hw a b)⟩
      split
      · exact ⟨hp, by simp [hg], fun a b => List.mem_cons_of_mem _ (hw a b)⟩
      split
      · exact con _ _ _ rfl rfl rfl hg id
      · exact ⟨hp, hg, hw⟩
    | connect w => simp only [St.doCall]; split <;> exact con _ _ _ rfl rfl rfl hg id
    | disconnect => exact ⟨hp, by simp [St.doCall, hg], fun a b => List.mem_cons_of_mem _ (hw a b)⟩
  unfold St.step at h
  split at h
  · cases h
  split at h
  · cases h; exact call _
  · next ev e =>
    have hw' : s.isConnected = false → s.active = [] := by
      intro a
      cases hx : s.active with
      | nil => rfl
      | cons x xs => have := hw a (by simp [hx]); rw [e] at this; cases this
    cases ev <;> simp only [St.doEvent] at h
    case streamError => cases h; exact fr _ _ _ _ rfl rfl rfl hg id
    case dispose => exact absurd rfl hok
    all_goals
      (try split at h) <;> (try split at h) <;> cases h <;>
        (refine ⟨?_, ?_, ?_⟩ <;> simp_all [St.connectionFailed, St.down, St.enter])
  · cases h; exact call _
  · next rest e => 
    cases h
    rw [e] at hg hw
    exact ⟨hp, fun h => hg (List.mem_cons_of_mem _ h), fun a b => by simpa using hw a b⟩
  · cases h
  · next f rest out hu e =>
    cases h
    rw [e] at hg
    have hgr : .gone ∉ rest := fun h => hg (List.mem_cons_of_mem _ h)
    by_cases hf : f = .failAll
    · subst hf
      exact ⟨hp, by simp [St.runFrame, St.failAll, hgr], fun _ b => by simp [St.runFrame, St.failAll] at b⟩
    have hwr : s.isConnected = false → s.active ≠ [] → .failAll ∈ rest := by
      intro a b
      have := hw a b
      rw [e] at this
      exact (List.mem_cons.1 this).resolve_left fun h => hf h.symm
    cases f <;> simp only [St.runFrame]
    case user => exact absurd rfl (hu ·)
    case failAll => exact absurd rfl hf
    case gone => exact absurd (List.mem_cons_self ..) hg
    case reconnect =>
      split
      · exact con _ _ _ rfl rfl rfl hgr (by rw [e]; simp)
      · exact ⟨hp, hgr, hwr⟩
    case timeoutStreams ss =>
      split
      · exact ⟨hp, hgr, hwr⟩
      · exact fr _ _ _ _ rfl rfl rfl (by simp [hgr]) (by rw [e]; simp)
    case sendLoop =>
      split
      · exact ⟨hp, hgr, hwr⟩
      split
      · exact ⟨hp, hgr, hwr⟩
      split
      · exact ⟨hp, by rw [e]; exact hg, hw⟩
      next hn =>
      have hcon : s.isConnected = true := hp (by simpa using hn)
      split
      · exact ⟨fun _ => hcon, by simp [hgr], fun a => by rw [hcon] at a; cases a⟩
      · exact ⟨fun _ => hcon, by simp [hgr], fun a => by rw [hcon] at a; cases a⟩
      · exact ⟨fun _ => hcon, by simp [hgr], fun a => by rw [hcon] at a; cases a⟩
    case afterComplete => exact ⟨hp, by simp only [List.mem_cons, not_or]; exact ⟨by split <;> simp, hgr⟩, fun a b => List.mem_cons_of_mem _ (hwr a b)⟩
    case finish =>
      split
      · exact ⟨hp, hgr, hwr⟩
      next hb =>
      have ha : s.active = [] := by simp at hb; exact hb.2
      split
      · exact ⟨fun h => (by cases h), hgr, fun _ b => absurd ha b⟩
      split
      · exact ⟨fun h => (by cases h), by simp [St.failAll, hgr], fun _ b => by simp [St.failAll] at b⟩
      · exact ⟨fun h => (by cases h), by simp [hgr], fun _ b => absurd ha b⟩
    case lostEnd =>
      split
      · split
        · exact ⟨fun h => (by cases h), by simp [St.failAll, hgr], fun _ b => by simp [St.failAll] at b⟩
        · next hb => exact ⟨fun h => (by cases h), by simp [hgr], fun _ b => by simp at hb; exact absurd hb b⟩
      · exact ⟨fun h => (by cases h), by simp [St.failAll, hgr], fun _ b => by simp [St.failAll] at b⟩
    case disc => exact ⟨fun h => (by cases h), by simp [St.failAll, hgr], fun _ b => by simp [St.failAll] at b⟩
    case timeoutEnd late =>
      split
      · exact ⟨fun h => (by cases h), by simp [St.connectionFailed, hgr], fun _ _ => by simp [St.connectionFailed]⟩
      · exact ⟨hp, hgr, hwr⟩
    all_goals
      (try split) <;> (try split) <;>
        exact ⟨hp, by simp [St.enter, hgr], fun a b => by simp [St.enter, hwr a b]⟩
  · cases h

/-- **C142** A request that was sent is not left on a connection that is gone: unless the client is disposed of, an
idle client that is not connected has no request on the wire; every one was answered. -/
theorem C142_none_on_a_dead_wire (auto : Bool) (ms mp : Nat) (chs : List Choice) (s : St) (h : (St.init auto ms mp).run chs = some s)
    (hk : Along Kept (St.init auto ms mp) chs) (hidle : s.stack = []) (hc : s.isConnected = false) : s.active = [] := by
  have hw := run_along Wire Kept wire_step _ chs s h hk ⟨by simp [St.init], by simp [St.init], by simp [St.init]⟩
  cases hx : s.active with
  | nil => rfl
  | cons x xs => have := hw.wire hc (by simp [hx]); rw [hidle] at this; cases this

/-- A request is on the wire when the connection is lost: it is answered with 503. -/
theorem C142_lost_example :
    ((St.init false 1 10).run [.call (.push true), .event (.connector true), .event (.handshake true), .go .refused, .go .refused,
      .go (.ok 0 1), .go .refused, .event .disconnected, .go .refused, .go .refused, .ret, .go .refused, .go .refused]).map
      (fun s => (s.stack, s.isConnected, s.active, s.trace)) = some ([], false, [], [.done 1 (.error 503), .sent 1 1 1, .up]) := by decide

/-- The requests on the wire that have expired are found by their streams, whatever their application ids. -/
theorem C142_expired (s : St) (c : Ctx) (late : Bool) (hs : s.stack = []) (hcr : s.crashed = false) (hc : c ∈ s.active)
    (huniq : ∀ x ∈ s.active, x.stream = c.stream ∨ x.call = c.call → x = c) :
    ∃ s' rest, s.run [.event (.timeout [c.call] late), .go .refused] = some s' ∧ s'.stack = .user :: rest ∧
      s'.trace = .done c.call (.error 408) :: s.trace ∧ ∀ x, x ∈ s'.active → x ∈ s.active ∧ x ≠ c := by
  have hf : ∃ l, (s.active.filter (fun x => x.call ∈ [c.call])).map (·.stream) = c.stream :: l := by
    have hm : c ∈ s.active.filter (fun x => x.call ∈ [c.call]) := List.mem_filter.2 ⟨hc, by simp⟩
    cases hl : s.active.filter (fun x => x.call ∈ [c.call]) with
    | nil => rw [hl] at hm; cases hm
    | cons x xs =>
      have hx : x ∈ s.active.filter (fun x => x.call ∈ [c.call]) := by rw [hl]; simp
      have := List.mem_filter.1 hx
      have : x = c := huniq x this.1 (.inr (by simpa using this.2))
      exact ⟨xs.map (·.stream), by rw [this]; rfl⟩
  obtain ⟨l, hl⟩ := hf
  have hfind : findStream s.active c.stream = some c := by
    unfold findStream
    split
    · next x hx =>
      have h1 := List.find?_some hx
      have h2 := List.mem_of_find?_eq_some hx
      simp at h1
      rw [huniq x h2 (.inl h1.2)]
    · cases hx : s.active.find? (fun x => x.stream = c.stream) with
      | none => exact absurd (List.find?_eq_none.1 hx c hc) (by simp)
      | some x =>
        have h1 := List.find?_some hx
        have h2 := List.mem_of_find?_eq_some hx
        simp at h1
        rw [huniq x h2 (.inl h1)]
  have e1 : s.step (.event (.timeout [c.call] late)) = some { s with
      stack := [.timeoutStreams (c.stream :: l), .timeoutPending [c.call] [], .timeoutEnd late] } := by
    simp only [St.step, hs, hcr, St.doEvent, hl]; simp
  have e2 : St.step { s with stack := [.timeoutStreams (c.stream :: l), .timeoutPending [c.call] [], .timeoutEnd late] } (.go .refused) =
      some (St.failRequest { s with stack := [.timeoutStreams (c.stream :: l), .timeoutPending [c.call] [], .timeoutEnd late] }
        c.stream 408 [.timeoutStreams l, .timeoutPending [c.call] [], .timeoutEnd late]) := by
    simp [St.step, hcr, St.runFrame]
  simp only [St.run, e1, e2]
  simp only [St.failRequest, hfind, St.enter]
  refine ⟨_, _, rfl, rfl, rfl, fun x hx => ?_⟩
  have := List.mem_filter.1 hx
  refine ⟨this.1, fun e => ?_⟩
  have h2 := this.2
  rw [e] at h2
  simp at h2

end Verif.Cli2
