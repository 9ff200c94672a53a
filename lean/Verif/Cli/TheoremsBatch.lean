import Verif.Cli.Batch

namespace Verif.Cli

theorem callbacks_append (s : Batches) (l : List (Nat × List Resp)) (id : Nat) (a : List Batch) (n : Nat) :
    Batches.callbacks ⟨a, n, s.emitted ++ l⟩ id = s.callbacks id ++ l.filterMap fun p => if p.1 = id then some p.2 else none := by
  simp [Batches.callbacks]

theorem filterMap_none {l : List Batch} {id : Nat} (k : Kind) (h : ∀ x ∈ l, x.id ≠ id) :
    (l.map fun b => (b.id, b.fill k)).filterMap (fun p => if p.1 = id then some p.2 else none) = [] := by
  induction l with
  | nil => rfl
  | cons x l ih =>
    have h1 := h x (List.mem_cons_self ..)
    simp only [List.map_cons, List.filterMap_cons, h1, if_false]
    exact ih fun y hy => h y (List.mem_cons_of_mem _ hy)

/-- A batch that is not under way gets no callback any more. -/
theorem done_step (k : Kind) (s : Batches) (op : Op) (id : Nat) (h1 : id < s.next) (h2 : ∀ b ∈ s.active, b.id ≠ id) :
    (s.step k op).callbacks id = s.callbacks id ∧ id < (s.step k op).next ∧ ∀ b ∈ (s.step k op).active, b.id ≠ id := by
  cases op with
  | start prep =>
    simp only [Batches.step, Batches.start]
    split
    · refine ⟨?_, by simp; omega, h2⟩
      rw [callbacks_append]
      have : s.next ≠ id := by omega
      simp [this]
    · refine ⟨rfl, by simp; omega, ?_⟩
      intro b hb
      simp at hb
      rcases hb with hb | rfl
      · exact h2 b hb
      · simp; omega
  | complete id' i r =>
    simp only [Batches.step, Batches.complete]
    split
    · exact ⟨rfl, h1, h2⟩
    · next b hb =>
      have hne : id' ≠ id := by
        rintro rfl
        have hm := List.mem_of_find?_eq_some hb
        have he := List.find?_some hb
        simp at he
        exact h2 b hm he
      split
      · refine ⟨?_, h1, ?_⟩
        · rw [callbacks_append]; simp [hne]
        · intro x hx
          exact h2 x ((List.mem_filter.1 hx).1)
      · refine ⟨rfl, h1, ?_⟩
        intro x hx
        simp at hx
        obtain ⟨y, hy, rfl⟩ := hx
        have := h2 y hy
        split
        · next e => have he := List.find?_some hb; simp at he; simp; omega
        · exact this
  | failAll =>
    cases k with
    | h1 => exact ⟨rfl, h1, h2⟩
    | h2 =>
      simp only [Batches.step, Batches.failAll]
      refine ⟨?_, h1, by simp⟩
      rw [callbacks_append, filterMap_none _ h2]; simp
    | h3 =>
      simp only [Batches.step, Batches.failAll]
      refine ⟨?_, h1, by simp⟩
      rw [callbacks_append, filterMap_none _ h2]; simp

theorem done_run (k : Kind) (ops : List Op) (s : Batches) (id : Nat) (h1 : id < s.next) (h2 : ∀ b ∈ s.active, b.id ≠ id) :
    (s.run k ops).callbacks id = s.callbacks id := by
  induction ops generalizing s with
  | nil => rfl
  | cons op ops ih =>
    obtain ⟨a, b, c⟩ := done_step k s op id h1 h2
    have := ih (s.step k op) b c
    simp only [Batches.run, List.foldl_cons] at this ⊢
    rw [this, a]

/-- The entry of a batch whose answers so far are `slots`. -/
def entry (id : Nat) (slots : List (Option Resp)) : Batch :=
  ⟨id, slots.map (·.getD Resp.default), slots.map (·.isSome), slots.countP (·.isSome)⟩

theorem countP_all (slots : List (Option Resp)) : slots.countP (·.isSome) = slots.length ↔ slots.all (·.isSome) = true := by
  rw [List.countP_eq_length]
  simp

theorem entry_set (id i : Nat) (slots : List (Option Resp)) (r : Resp) (h : slots[i]? = some none) :
    ({ entry id slots with responses := (entry id slots).responses.set i r, flags := (entry id slots).flags.set i true,
                           count := (entry id slots).count + 1 } : Batch) = entry id (slots.set i (some r)) := by
  have hc : (slots.set i (some r)).countP (·.isSome) = slots.countP (·.isSome) + 1 := by
    induction slots generalizing i with
    | nil => simp at h
    | cons x slots ih =>
      cases i with
      | zero => simp at h; subst h; simp [List.countP_cons]
      | succ i =>
        simp at h
        simp only [List.set_cons_succ, List.countP_cons]
        rw [ih i h]; omega
  simp [entry, hc, List.map_set]

theorem outcome_full (k : Kind) (lost : Resp) (id : Nat) (slots : List (Option Resp)) (ops : List Op)
    (h : slots.all (·.isSome) = true) : outcome k lost id slots ops = some (slots.map (·.getD Resp.default)) := by
  have e : slots.map (·.getD lost) = slots.map (·.getD Resp.default) := by
    apply List.map_congr_left
    intro x hx
    have := List.all_eq_true.1 h x hx
    cases x with
    | none => cases this
    | some y => rfl
  cases ops with
  | nil => rw [outcome, h, e]; rfl
  | cons op ops => cases op <;> rw [outcome, h, e] <;> rfl

theorem fill_entry (k : Kind) (id : Nat) (slots : List (Option Resp)) (h : ∀ r, some r ∈ slots → r.status ≠ 0) :
    (entry id slots).fill k = slots.map (·.getD (lostResp k)) := by
  have hz : ∀ l : List (Option Resp), List.zipWith (fun r f => if f then r else Resp.unavailable) (l.map (·.getD Resp.default))
      (l.map (·.isSome)) = l.map (·.getD Resp.unavailable) := by
    intro l
    induction l with
    | nil => rfl
    | cons x l ih =>
      simp only [List.map_cons, List.zipWith_cons_cons, ih]
      cases x <;> rfl
  cases k with
  | h1 => exact hz slots
  | h3 => exact hz slots
  | h2 =>
    simp only [Batch.fill, entry, List.map_map, lostResp]
    apply List.map_congr_left
    intro x hx
    cases x with
    | none => rfl
    | some r =>
      have := h r hx
      simp [this]

theorem active_run (k : Kind) (ops : List Op) (s : Batches) (id : Nat) (slots : List (Option Resp)) (l1 l2 : List Batch)
    (ha : s.active = l1 ++ entry id slots :: l2) (h1 : ∀ b ∈ l1, b.id ≠ id) (h2 : ∀ b ∈ l2, b.id ≠ id) (hn : id < s.next)
    (hall : slots.all (·.isSome) = false) (hst : ∀ r, some r ∈ slots → r.status ≠ 0)
    (he : s.callbacks id = []) (hp : Proper id slots ops) :
    (s.run k ops).callbacks id = (outcome k (lostResp k) id slots ops).toList := by
  induction ops generalizing s slots l1 l2 with
  | nil =>
    rw [outcome]
    simp [hall, Batches.run, he]
  | cons op ops ih =>
    have hrun : s.run k (op :: ops) = (s.step k op).run k ops := rfl
    rw [hrun]
    cases op with
    | start prep =>
      rw [outcome]
      simp only [hall, Bool.false_eq_true, if_false]
      simp only [Batches.step, Batches.start]
      have hne : s.next ≠ id := by omega
      split
      · refine ih _ slots l1 l2 ha h1 h2 (by simp; omega) hall hst ?_ hp
        rw [callbacks_append, he]
        simp [hne]
      · refine ih _ slots l1 (l2 ++ [entry s.next prep]) ?_ h1 ?_ (by simp; omega) hall hst he hp
        · simp only [ha]; simp [entry]
        · intro b hb
          simp at hb
          rcases hb with hb | rfl
          · exact h2 b hb
          · exact hne
    | complete id' i r =>
      rw [outcome]
      simp only [hall, Bool.false_eq_true, if_false]
      by_cases hid : id' = id
      · subst hid
        rw [if_pos rfl]
        rw [Proper, if_pos rfl] at hp
        obtain ⟨hp1, hp2, hp3⟩ := hp
        have hfind : s.active.find? (·.id = id') = some (entry id' slots) := by
          rw [ha, List.find?_append]
          have : l1.find? (·.id = id') = none := by
            rw [List.find?_eq_none]; intro x hx; simpa using h1 x hx
          rw [this]
          simp [entry]
        simp only [Batches.step, Batches.complete, hfind]
        have e1 := congrArg Batch.count (entry_set id' i slots r hp1)
        have e2 := congrArg Batch.responses (entry_set id' i slots r hp1)
        simp only [] at e1 e2
        rw [entry_set id' i slots r hp1, e1, e2]
        have hst' : ∀ r', some r' ∈ slots.set i (some r) → r'.status ≠ 0 := by
          intro r' hr'
          rcases List.mem_or_eq_of_mem_set hr' with h | h
          · exact hst r' h
          · cases h; exact hp2
        have hlen : (entry id' (slots.set i (some r))).count = (entry id' (slots.set i (some r))).responses.length ↔
            (slots.set i (some r)).all (·.isSome) = true := by
          rw [← countP_all]; simp [entry]
        by_cases hfull : (slots.set i (some r)).all (·.isSome) = true
        · rw [if_pos (hlen.2 hfull)]
          rw [done_run]
          · rw [callbacks_append, he, outcome_full _ _ _ _ _ hfull]
            simp [entry]
          · exact hn
          · intro b hb
            simp at hb
            exact hb.2
        · rw [if_neg (fun h => hfull (hlen.1 h))]
          refine ih _ (slots.set i (some r)) l1 l2 ?_ h1 h2 hn (by simpa using hfull) hst' he hp3
          simp only [ha, List.map_append, List.map_cons]
          have m1 : ∀ l : List Batch, (∀ b ∈ l, b.id ≠ id') →
              l.map (fun x => if x.id = id' then entry id' (slots.set i (some r)) else x) = l := by
            intro l hl
            conv => rhs; rw [← List.map_id l]
            apply List.map_congr_left
            intro x hx
            simp [hl x hx]
          rw [m1 l1 h1, m1 l2 h2]
          simp [entry]
      · rw [if_neg hid]
        rw [Proper, if_neg hid] at hp
        simp only [Batches.step, Batches.complete]
        split
        · exact ih s slots l1 l2 ha h1 h2 hn hall hst he hp
        · next b hb =>
          have hbid : b.id = id' := by have := List.find?_some hb; simpa using this
          split
          · refine ih _ slots (l1.filter (·.id ≠ id')) (l2.filter (·.id ≠ id')) ?_ ?_ ?_ hn hall hst ?_ hp
            · simp only [ha, List.filter_append, List.filter_cons]
              have : decide ((entry id slots).id ≠ id') = true := decide_eq_true (Ne.symm hid)
              rw [this]; rfl
            · intro x hx; exact h1 x ((List.mem_filter.1 hx).1)
            · intro x hx; exact h2 x ((List.mem_filter.1 hx).1)
            · rw [callbacks_append, he]; simp [hid]
          · refine ih _ slots (l1.map fun x => if x.id = id' then {b with responses := b.responses.set i r, flags := b.flags.set i true, count := b.count + 1} else x)
              (l2.map fun x => if x.id = id' then {b with responses := b.responses.set i r, flags := b.flags.set i true, count := b.count + 1} else x) ?_ ?_ ?_ hn hall hst he hp
            · simp only [ha, List.map_append, List.map_cons]
              have : ¬ (entry id slots).id = id' := by simpa [entry] using Ne.symm hid
              rw [if_neg this]
            · intro x hx
              simp at hx
              obtain ⟨y, hy, rfl⟩ := hx
              split
              · simp [hbid, hid]
              · exact h1 y hy
            · intro x hx
              simp at hx
              obtain ⟨y, hy, rfl⟩ := hx
              split
              · simp [hbid, hid]
              · exact h2 y hy
    | failAll =>
      rw [outcome]
      simp only [hall, Bool.false_eq_true, if_false]
      have key : ∀ k', k' ≠ .h1 → (({ s with active := [], emitted := s.emitted ++ s.active.map fun b => (b.id, b.fill k') } : Batches).run k ops).callbacks id
          = [slots.map (·.getD (lostResp k'))] := by
        intro k' _
        rw [done_run]
        · rw [callbacks_append, he, ha]
          simp only [List.map_append, List.map_cons, List.filterMap_append, List.filterMap_cons]
          rw [filterMap_none k' h1, filterMap_none k' h2, fill_entry k' id slots hst]
          simp [entry]
        · exact hn
        · simp
      cases k with
      | h1 => exact ih s slots l1 l2 ha h1 h2 hn hall hst he hp
      | h2 => exact key .h2 (by simp)
      | h3 => exact key .h3 (by simp)

/-- **C133** A batch callback is invoked exactly once, as soon as every request of the batch has its
response (or the client has failed), with the responses in the order of the requests: for every
mixture of batches and every order of completion. `s` is any state of the client in which the batch
number is new. -/
theorem C133_batch (k : Kind) (s : Batches) (prep : List (Option Resp)) (ops : List Op)
    (hnew : (∀ b ∈ s.active, b.id < s.next) ∧ ∀ e ∈ s.emitted, e.1 < s.next)
    (hst : ∀ r, some r ∈ prep → r.status ≠ 0) (hp : Proper s.next prep ops) :
    (s.run k (.start prep :: ops)).callbacks s.next = (outcome k (lostResp k) s.next prep ops).toList := by
  have hrun : s.run k (.start prep :: ops) = (s.start prep).run k ops := rfl
  have he : s.callbacks s.next = [] := by
    unfold Batches.callbacks
    rw [List.filterMap_eq_nil_iff]
    intro e hm
    have := hnew.2 e hm
    rw [if_neg (by omega)]
  have ha : ∀ b ∈ s.active, b.id ≠ s.next := fun b hb => by have := hnew.1 b hb; omega
  rw [hrun]
  simp only [Batches.start]
  by_cases hfull : prep.all (·.isSome) = true
  · rw [if_pos (by simpa using (countP_all prep).2 hfull), done_run]
    · rw [callbacks_append, he, outcome_full _ _ _ _ _ hfull]
      simp
    · simp
    · exact ha
  · rw [if_neg (fun h => hfull ((countP_all prep).1 (by simpa using h)))]
    exact active_run k ops _ s.next prep s.active [] rfl ha (by simp) (by simp) (by simpa using hfull) hst he hp

/-- The condition of C133 on the state holds in every state of the client. -/
theorem C133_numbers (k : Kind) (ops : List Op) :
    (∀ b ∈ (Batches.init.run k ops).active, b.id < (Batches.init.run k ops).next) ∧
      ∀ e ∈ (Batches.init.run k ops).emitted, e.1 < (Batches.init.run k ops).next := by
  have step : ∀ (s : Batches) op, ((∀ b ∈ s.active, b.id < s.next) ∧ ∀ e ∈ s.emitted, e.1 < s.next) →
      (∀ b ∈ (s.step k op).active, b.id < (s.step k op).next) ∧ ∀ e ∈ (s.step k op).emitted, e.1 < (s.step k op).next := by
    intro s op ⟨h1, h2⟩
    cases op with
    | start prep =>
      simp only [Batches.step, Batches.start]
      split
      · refine ⟨fun b hb => Nat.lt_succ_of_lt (h1 b hb), ?_⟩
        intro e hm
        simp at hm
        rcases hm with hm | rfl
        · exact Nat.lt_succ_of_lt (h2 e hm)
        · exact Nat.lt_succ_self _
      · refine ⟨?_, fun e hm => Nat.lt_succ_of_lt (h2 e hm)⟩
        intro b hb
        simp at hb
        rcases hb with hb | rfl
        · exact Nat.lt_succ_of_lt (h1 b hb)
        · exact Nat.lt_succ_self _
    | complete id i r =>
      simp only [Batches.step, Batches.complete]
      split
      · exact ⟨h1, h2⟩
      · next b hb =>
        have hm := List.mem_of_find?_eq_some hb
        have hbid : b.id = id := by have := List.find?_some hb; simpa using this
        split
        · refine ⟨fun x hx => h1 x ((List.mem_filter.1 hx).1), ?_⟩
          intro e he
          simp at he
          rcases he with he | rfl
          · exact h2 e he
          · have := h1 b hm; simp; omega
        · refine ⟨?_, h2⟩
          intro x hx
          simp at hx
          obtain ⟨y, hy, rfl⟩ := hx
          split
          · exact h1 b hm
          · exact h1 y hy
    | failAll =>
      have : ∀ k', (∀ e ∈ s.emitted ++ s.active.map (fun b => (b.id, b.fill k')), e.1 < s.next) := by
        intro k' e he
        simp at he
        rcases he with he | ⟨b, hb, rfl⟩
        · exact h2 e he
        · exact h1 b hb
      cases k with
      | h1 => exact ⟨h1, h2⟩
      | h2 => exact ⟨by simp [Batches.step, Batches.failAll], this .h2⟩
      | h3 => exact ⟨by simp [Batches.step, Batches.failAll], this .h3⟩
  have gen : ∀ (s : Batches), ((∀ b ∈ s.active, b.id < s.next) ∧ ∀ e ∈ s.emitted, e.1 < s.next) →
      (∀ b ∈ (s.run k ops).active, b.id < (s.run k ops).next) ∧ ∀ e ∈ (s.run k ops).emitted, e.1 < (s.run k ops).next := by
    induction ops with
    | nil => intro s h; exact h
    | cons op ops ih => intro s h; exact ih (s.step k op) (step s op h)
  exact gen _ (by simp [Batches.init])

/-- Two batches, completed out of order and mixed; the second request of the first was refused. -/
theorem C133_example :
    (Batches.init.run .h3 [.start [none, some ⟨400, 0⟩, none], .start [none], .complete 1 2 ⟨200, 7⟩, .complete 2 0 ⟨404, 8⟩,
      .complete 1 0 ⟨201, 9⟩]).emitted = [(2, [⟨404, 8⟩]), (1, [⟨201, 9⟩, ⟨400, 0⟩, ⟨200, 7⟩])] := by decide

/-- **C134** When an HTTP/3 client fails, the batch under way reports an error for every request that
got no response, and the response for every one that did. -/
theorem C134_h3_truthful (s : Batches) (prep : List (Option Resp)) (ops : List Op)
    (hnew : (∀ b ∈ s.active, b.id < s.next) ∧ ∀ e ∈ s.emitted, e.1 < s.next)
    (hst : ∀ r, some r ∈ prep → r.status ≠ 0) (hp : Proper s.next prep ops) :
    (s.run .h3 (.start prep :: ops)).callbacks s.next = (outcome .h3 .unavailable s.next prep ops).toList :=
  C133_batch .h3 s prep ops hnew hst hp

/-- **C134** What the HTTP/2 client does: as the HTTP/3 client, except that a request that got no
response is reported with the default response, status 200. The claim that it is reported as an error
is false, see `C134_h2_reports_success`. -/
theorem C134_h2_partial (s : Batches) (prep : List (Option Resp)) (ops : List Op)
    (hnew : (∀ b ∈ s.active, b.id < s.next) ∧ ∀ e ∈ s.emitted, e.1 < s.next)
    (hst : ∀ r, some r ∈ prep → r.status ≠ 0) (hp : Proper s.next prep ops) :
    (s.run .h2 (.start prep :: ops)).callbacks s.next = (outcome .h2 ⟨200, 0⟩ s.next prep ops).toList :=
  C133_batch .h2 s prep ops hnew hst hp

/-- **C134, the finding.** Two requests, the connection is lost before any response: the HTTP/2 client
reports 200 for both, the HTTP/3 client 503. -/
theorem C134_h2_reports_success :
    (Batches.init.run .h2 [.start [none, none], .failAll]).emitted = [(1, [⟨200, 0⟩, ⟨200, 0⟩])] ∧
    (Batches.init.run .h3 [.start [none, none], .failAll]).emitted = [(1, [⟨503, 0⟩, ⟨503, 0⟩])] := by decide

end Verif.Cli
