import Verif.Cli.TheoremsRequests

namespace Verif.Cli

/-! ### What holds while `disconnect` runs -/

def Frame.isFailAll : Frame → Bool
  | .failAll _ => true
  | _ => false

def Frame.isFailActive : Frame → Bool
  | .failActive _ => true
  | _ => false

/-- Only the loop over the queued requests stands directly above the end of `disconnect`. -/
def Guarded : List Frame → Prop
  | [] => True
  | f :: l => (l.head? = some .discEnd → f.isFailAll = true) ∧ Guarded l

structure Disc (s : St) : Prop where
  off : .discEnd ∈ s.stack → s.isConnected = false
  act : .discEnd ∈ s.stack → s.active = none ∨ ∃ f, s.stack.head? = some f ∧ f.isFailActive = true
  guard : Guarded s.stack
  top : s.stack.head? = some .discEnd → s.pending = []

theorem connect_fields (s : St) (cb : Option Nat) (rest : List Frame) :
    (s.connect cb rest).isConnected = s.isConnected ∧ (s.connect cb rest).active = s.active ∧
      (s.connect cb rest).pending = s.pending ∧
      ((s.connect cb rest).stack = rest ∨ (s.isConnected = true ∧ (s.connect cb rest).stack = .user :: rest)) := by
  unfold St.connect
  split
  · next h =>
    split
    · exact ⟨rfl, rfl, rfl, .inr ⟨h, rfl⟩⟩
    · exact ⟨rfl, rfl, rfl, .inl rfl⟩
  · split
    · exact ⟨rfl, rfl, rfl, .inl rfl⟩
    · exact ⟨rfl, rfl, rfl, .inl rfl⟩

theorem disc_push (s : St) (v : Bool) (h : Disc s) (hu : s.stack.head? = none ∨ s.stack.head? = some .user) : Disc (s.push v) := by
  obtain ⟨h1, h2, h3, h4⟩ := h
  have ha : .discEnd ∈ s.stack → s.active = none := by
    intro hd
    rcases h2 hd with h | ⟨f, hf, e⟩
    · exact h
    · rcases hu with hu | hu <;> rw [hu] at hf <;> cases hf; cases e
  have hh : s.stack.head? ≠ some .discEnd := by
    rcases hu with hu | hu <;> rw [hu] <;> simp
  unfold St.push
  simp only []
  split
  · refine ⟨?_, ?_, ?_, ?_⟩ <;> simp_all [St.enter, Guarded]
  · by_cases h : s.pending.length + (if s.active.isSome then 1 else 0) ≥ s.maxPending
    · rw [if_pos h]
      refine ⟨?_, ?_, ?_, ?_⟩ <;> simp_all [St.enter, Guarded]
    · rw [if_neg h]
      refine ⟨?_, ?_, ?_, ?_⟩ <;> simp_all [Guarded]

theorem disc_connect (s : St) (cb : Option Nat) (rest : List Frame)
    (hoff : .discEnd ∈ rest → s.isConnected = false) (hact : .discEnd ∈ rest → s.active = none) (hg : Guarded rest)
    (hh : rest.head? ≠ some .discEnd) : Disc (s.connect cb rest) := by
  obtain ⟨h1, h2, h3, h4⟩ := connect_fields s cb rest
  refine ⟨?_, ?_, ?_, ?_⟩
  · rw [h1]
    rcases h4 with e | ⟨_, e⟩ <;> rw [e]
    · exact hoff
    · simpa using hoff
  · rw [h2]
    intro hm
    refine .inl (hact ?_)
    rcases h4 with e | ⟨_, e⟩ <;> rw [e] at hm
    · exact hm
    · simpa using hm
  · rcases h4 with e | ⟨_, e⟩ <;> rw [e]
    · exact hg
    · exact ⟨fun h => absurd h hh, hg⟩
  · rcases h4 with e | ⟨_, e⟩ <;> rw [e]
    · exact fun h => absurd h hh
    · simp

theorem disc_failActive (s : St) (code : Nat) (rest : List Frame)
    (hoff : .discEnd ∈ rest → s.isConnected = false) (hg : Guarded rest)
    (hh : rest.head? ≠ some .discEnd) : Disc (s.failActive code rest) := by
  unfold St.failActive
  split
  · next ha => refine ⟨?_, ?_, ?_, ?_⟩ <;> simp_all
  · refine ⟨?_, ?_, ?_, ?_⟩ <;> simp_all [St.enter, Guarded]

theorem disc_frame (s : St) (ok : Bool) (rest : List Frame) (f : Frame) (hs : s.stack = f :: rest) (hf : f ≠ .user)
    (h : Disc s) : Disc (s.runFrame ok rest f) := by
  obtain ⟨h1, h2, h3, h4⟩ := h
  rw [hs] at h1 h2 h3 h4
  have hoff : .discEnd ∈ rest → s.isConnected = false := fun hm => h1 (List.mem_cons_of_mem _ hm)
  have hact : f.isFailActive = false → .discEnd ∈ rest → s.active = none := by
    intro e hm
    rcases h2 (List.mem_cons_of_mem _ hm) with h | ⟨g, hg, e2⟩
    · exact h
    · simp at hg; subst hg; rw [e] at e2; cases e2
  have hg : Guarded rest := h3.2
  have hh : f.isFailAll = false → rest.head? ≠ some .discEnd := by
    intro e hm
    have := h3.1 hm
    rw [e] at this; cases this
  cases f with
  | user => exact absurd rfl hf
  | process =>
    replace hact := hact rfl
    replace hh := hh rfl
    simp only [St.runFrame]
    split
    · refine ⟨?_, ?_, ?_, ?_⟩ <;> simp_all
    · split
      · refine ⟨?_, ?_, ?_, ?_⟩ <;> simp_all
      · split
        · split
          · refine ⟨?_, ?_, ?_, ?_⟩ <;> simp_all [St.enter, Guarded]
          · split
            · exact disc_connect _ _ _ hoff hact hg hh
            · refine ⟨?_, ?_, ?_, ?_⟩ <;> simp_all
        · next hc =>
          have hne : .discEnd ∉ rest := by
            intro hm
            rw [hoff hm] at hc
            simp at hc
          split
          · refine ⟨?_, ?_, ?_, ?_⟩ <;> simp_all
          · refine disc_failActive _ _ _ ?_ ?_ ?_ <;> simp_all [Guarded]
  | processTail =>
    replace hact := hact rfl
    replace hh := hh rfl
    simp only [St.runFrame]
    split
    · refine ⟨?_, ?_, ?_, ?_⟩ <;> simp_all
    · refine ⟨?_, ?_, ?_, ?_⟩ <;> simp_all [Guarded]
  | failActive code => exact disc_failActive _ _ _ hoff hg (hh rfl)
  | failAll code =>
    replace hact := hact rfl
    simp only [St.runFrame]
    split
    · refine ⟨?_, ?_, ?_, ?_⟩ <;> simp_all
    · refine ⟨?_, ?_, ?_, ?_⟩ <;> simp_all [St.enter, Guarded, Frame.isFailAll]
  | discEnd =>
    replace hact := hact rfl
    replace hh := hh rfl
    simp only [St.runFrame]
    split <;> refine ⟨?_, ?_, ?_, ?_⟩ <;> simp_all [St.closeConn]
  | afterResponse ka =>
    replace hact := hact rfl
    replace hh := hh rfl
    simp only [St.runFrame]
    split
    · refine ⟨?_, ?_, ?_, ?_⟩ <;> simp_all
    · split <;> refine ⟨?_, ?_, ?_, ?_⟩ <;> simp_all [St.closeConn, Guarded]
  | connLoop cbs okk =>
    replace hact := hact rfl
    replace hh := hh rfl
    simp only [St.runFrame]
    split <;> refine ⟨?_, ?_, ?_, ?_⟩ <;> simp_all [St.enter, Guarded]
  | afterConnect =>
    replace hact := hact rfl
    replace hh := hh rfl
    simp only [St.runFrame]
    split <;> refine ⟨?_, ?_, ?_, ?_⟩ <;> simp_all [Guarded]
  | timeoutEnd =>
    replace hact := hact rfl
    replace hh := hh rfl
    simp only [St.runFrame]
    refine ⟨?_, ?_, ?_, ?_⟩ <;> simp_all [St.closeConn]
  | afterDisconnected =>
    replace hact := hact rfl
    replace hh := hh rfl
    simp only [St.runFrame]
    split
    · refine ⟨?_, ?_, ?_, ?_⟩ <;> simp_all
    · split
      · refine ⟨?_, ?_, ?_, ?_⟩ <;> simp_all
      · split <;> refine ⟨?_, ?_, ?_, ?_⟩ <;> simp_all [Guarded]

theorem disc_call (s : St) (c : Call) (h : Disc s) (hu : s.stack.head? = none ∨ s.stack.head? = some .user) :
    Disc (s.doCall c) := by
  have hh : s.stack.head? ≠ some .discEnd := by
    rcases hu with hu | hu <;> rw [hu] <;> simp
  have ha : .discEnd ∈ s.stack → s.active = none := by
    intro hd
    rcases h.act hd with h | ⟨f, hf, e⟩
    · exact h
    · rcases hu with hu | hu <;> rw [hu] at hf <;> cases hf; cases e
  cases c with
  | push v => exact disc_push s v h hu
  | connect w =>
    simp only [St.doCall]
    split
    · exact disc_connect _ _ _ h.off ha h.guard hh
    · exact disc_connect _ _ _ h.off ha h.guard hh
  | disconnect =>
    have := h.guard
    refine ⟨?_, ?_, ?_, ?_⟩ <;> simp_all [St.doCall, St.disconnect, Guarded, Frame.isFailAll, Frame.isFailActive]

theorem disc_event (s : St) (e : Event) (s' : St) (hs : s.stack = []) (h : s.doEvent e = some s') (_hd : Disc s) : Disc s' := by
  cases e <;> simp only [St.doEvent] at h
  case connectOk =>
    split at h <;> (try split at h) <;> cases h
    refine ⟨?_, ?_, ?_, ?_⟩ <;> simp_all [Guarded]
  case connectFailed =>
    split at h <;> (try split at h) <;> cases h
    refine ⟨?_, ?_, ?_, ?_⟩ <;> simp_all [St.connectionFailed, Guarded]
  case response =>
    split at h <;> (try split at h) <;> cases h
    · refine ⟨?_, ?_, ?_, ?_⟩ <;> simp_all [Guarded]
    · refine ⟨?_, ?_, ?_, ?_⟩ <;> simp_all [St.enter, Guarded]
  case timeout =>
    split at h <;> (try split at h) <;> cases h
    · refine ⟨?_, ?_, ?_, ?_⟩ <;> simp_all [St.connectionFailed, Guarded]
    · refine ⟨?_, ?_, ?_, ?_⟩ <;> simp_all [Guarded]
  case disconnected =>
    split at h <;> cases h
    refine ⟨?_, ?_, ?_, ?_⟩ <;> simp_all [Guarded]
  case socketClosed => cases h; refine ⟨?_, ?_, ?_, ?_⟩ <;> simp_all [Guarded]
  case pendingTimeout =>
    split at h <;> cases h
    · refine ⟨?_, ?_, ?_, ?_⟩ <;> simp_all [Guarded]
    · refine ⟨?_, ?_, ?_, ?_⟩ <;> simp_all [St.enter, Guarded]
  case deferredTick => split at h <;> cases h <;> refine ⟨?_, ?_, ?_, ?_⟩ <;> simp_all [Guarded]
  case reconnect =>
    split at h
    · cases h
    · split at h
      · cases h; refine ⟨?_, ?_, ?_, ?_⟩ <;> simp_all [Guarded]
      · cases h
        refine disc_connect _ _ _ ?_ ?_ ?_ ?_ <;> simp_all [Guarded]

theorem disc_step (s : St) (ch : Choice) (s' : St) (h : s.step ch = some s') (hd : Disc s) : Disc s' := by
  unfold St.step at h
  split at h
  · next e => cases h; exact disc_call s _ hd (.inl (by rw [e]; rfl))
  · next e => exact disc_event s _ _ e h hd
  · next e => cases h; exact disc_call s _ hd (.inr (by rw [e]; rfl))
  · next rest e =>
    cases h
    obtain ⟨h1, h2, h3, h4⟩ := hd
    rw [e] at h1 h2 h3 h4
    have hh : rest.head? ≠ some .discEnd := by
      intro hm
      have := h3.1 hm
      cases this
    refine ⟨fun hm => h1 (List.mem_cons_of_mem _ hm), ?_, h3.2, fun hm => absurd hm hh⟩
    intro hm
    rcases h2 (List.mem_cons_of_mem _ hm) with h | ⟨f, hf, e2⟩
    · exact .inl h
    · simp at hf; subst hf; cases e2
  · cases h
  · next f rest ok hu e => cases h; exact disc_frame s _ _ _ e (by rintro rfl; exact hu rfl) hd
  · cases h

/-- An invariant of the steps holds in every reachable state. -/
theorem run_inv (P : St → Prop) (hstep : ∀ s ch s', s.step ch = some s' → P s → P s') (s : St) (chs : List Choice) (s' : St)
    (h : s.run chs = some s') (hs : P s) : P s' := by
  induction chs generalizing s with
  | nil => simp [St.run] at h; rw [← h]; exact hs
  | cons ch chs ih =>
    rw [St.run] at h
    split at h
    · next s1 e => exact ih s1 h (hstep _ _ _ e hs)
    · cases h

theorem disc_run (auto : Bool) (m : Nat) (chs : List Choice) (s : St) (h : (St.init auto m).run chs = some s) : Disc s := by
  refine run_inv Disc disc_step _ chs s h ?_
  refine ⟨?_, ?_, ?_, ?_⟩ <;> simp [St.init, Guarded]

/-- **C127** When `disconnect` (or the destructor) has done its work, the client holds no request:
every request given to it so far, also those pushed by the callbacks `disconnect` itself invoked, was
completed exactly once. -/
theorem C127_disconnect_completes_all (auto : Bool) (m : Nat) (chs : List Choice) (s : St)
    (h : (St.init auto m).run chs = some s) (htop : s.stack.head? = some .discEnd) :
    s.held = [] ∧ ∀ n, (completions s.trace).count n = if 1 ≤ n ∧ n ≤ pushes chs then 1 else 0 := by
  obtain ⟨h1, h2, h3, h4⟩ := disc_run auto m chs s h
  have hm : .discEnd ∈ s.stack := List.mem_of_mem_head? htop
  have ha : s.active = none := by
    rcases h2 hm with h | ⟨f, hf, e⟩
    · exact h
    · rw [htop] at hf; cases hf; cases e
  have hh : s.held = [] := by simp [St.held, ha, h4 htop]
  refine ⟨hh, ?_⟩
  intro n
  have := C126_exactly_once auto m chs s h n
  rw [hh] at this
  simpa using this

/-- Nothing is put on the wire while `disconnect` runs. -/
theorem C127_nothing_sent (auto : Bool) (m : Nat) (chs : List Choice) (s : St)
    (h : (St.init auto m).run chs = some s) (hm : .discEnd ∈ s.stack) (ch : Choice) (s' : St) (hs : s.step ch = some s') :
    sends s'.trace = sends s.trace := by
  have hd := disc_run auto m chs s h
  have hoff := hd.off hm
  have hc : ∀ (t : St) cb rest, sends (t.connect cb rest).trace = sends t.trace := by
    intro t cb rest
    unfold St.connect
    split
    · split <;> rfl
    · split <;> rfl
  have hfa : ∀ (t : St) code rest, sends (t.failActive code rest).trace = sends t.trace := by
    intro t code rest
    unfold St.failActive
    split <;> rfl
  have hcall : ∀ c, sends (s.doCall c).trace = sends s.trace := by
    intro c
    cases c with
    | push v =>
      simp only [St.doCall, St.push]
      split
      · rfl
      · by_cases h : s.pending.length + (if s.active.isSome then 1 else 0) ≥ s.maxPending
        · rw [if_pos h]; rfl
        · rw [if_neg h]
    | connect w => simp only [St.doCall]; split <;> rw [hc]
    | disconnect => rfl
  unfold St.step at hs
  split at hs
  · cases hs; exact hcall _
  · next e => rw [e] at hm; cases hm
  · cases hs; exact hcall _
  · cases hs; rfl
  · cases hs
  · next f rest ok hu e =>
    cases hs
    cases f with
    | user => exact absurd rfl hu
    | process =>
      simp only [St.runFrame]
      split
      · rfl
      · split
        · rfl
        · rw [if_pos (by simp [hoff])]
          split
          · rfl
          · split
            · exact hc _ _ _
            · rfl
    | processTail => simp only [St.runFrame]; split <;> rfl
    | failActive code => exact hfa _ _ _
    | failAll code => simp only [St.runFrame]; split <;> rfl
    | discEnd => simp only [St.runFrame]; split <;> rfl
    | afterResponse ka => simp only [St.runFrame]; (split <;> (try split)) <;> rfl
    | connLoop cbs okk => simp only [St.runFrame]; split <;> rfl
    | afterConnect => simp only [St.runFrame]; split <;> rfl
    | timeoutEnd => rfl
    | afterDisconnected => simp only [St.runFrame]; (split <;> (try split) <;> (try split)) <;> rfl
  · cases hs

/-- The hypotheses of C127 are met: one request on the wire, one queued, `disconnect`, and the callback
of the first pushes a third; all three are completed before `disconnect` ends. -/
theorem C127_example :
    ((St.init true 10).run
      [.call (.push true), .go true, .event .connectOk, .go true, .go true, .go true, .call (.push true), .go true,
       .call .disconnect, .go true, .call (.push true), .go true, .ret, .go true, .ret, .go true, .ret, .go true]).map
      (fun s => (s.stack, s.held, completions s.trace)) = some ([.discEnd], [], [3, 2, 1]) := by decide

end Verif.Cli
