import Verif.Rate.Spec

namespace Verif.Rate

theorem find_put (m : List (Bytes × Rec)) (c d : Bytes) (r : Rec) :
    find (put m c r) d = if c = d then some r else find m d := by
  induction m with
  | nil => simp [put, find]
  | cons e m ih =>
    obtain ⟨k, q⟩ := e
    by_cases h : k = c
    · subst h
      simp only [put, if_true, find]
      by_cases hd : k = d <;> simp [hd]
    · simp only [put, if_neg h, find, ih]
      by_cases hd : k = d
      · subst hd; simp [Ne.symm h]
      · simp [hd]

theorem find_none_iff (m : List (Bytes × Rec)) (c : Bytes) : find m c = none ↔ c ∉ m.map (·.1) := by
  induction m with
  | nil => simp [find]
  | cons e m ih =>
    obtain ⟨k, q⟩ := e
    simp only [find, List.map_cons, List.mem_cons, not_or]
    by_cases h : k = c
    · simp [h]
    · simp only [if_neg h, ih]
      exact ⟨fun hh => ⟨fun hc => h hc.symm, hh⟩, fun hh => hh.2⟩

theorem find_filter (m : List (Bytes × Rec)) (hn : (m.map (·.1)).Nodup) (p : Bytes × Rec → Bool) (c : Bytes) :
    find (m.filter p) c = match find m c with | some r => if p (c, r) then some r else none | none => none := by
  induction m with
  | nil => rfl
  | cons e m ih =>
    obtain ⟨k, q⟩ := e
    rw [List.map_cons, List.nodup_cons] at hn
    have ih := ih hn.2
    by_cases h : k = c
    · subst h
      have hnone : find m k = none := (find_none_iff _ _).2 hn.1
      simp only [find, if_true]
      by_cases hp : p (k, q) = true
      · simp [hp, find]
      · simp [hp, ih, hnone]
    · simp only [find, if_neg h]
      by_cases hp : p (k, q) = true
      · simp [hp, find, h, ih]
      · simp [hp, ih]

theorem find_mem {m : List (Bytes × Rec)} {c : Bytes} {r : Rec} (h : find m c = some r) : (c, r) ∈ m := by
  induction m with
  | nil => simp [find] at h
  | cons e m ih =>
    obtain ⟨k, q⟩ := e
    simp only [find] at h
    split at h
    · rename_i hk; subst hk; cases h; simp
    · exact List.mem_cons_of_mem _ (ih h)

theorem find_of_mem {m : List (Bytes × Rec)} (hn : (m.map (·.1)).Nodup) {c : Bytes} {r : Rec} (h : (c, r) ∈ m) : find m c = some r := by
  induction m with
  | nil => simp at h
  | cons e m ih =>
    obtain ⟨k, q⟩ := e
    rw [List.map_cons, List.nodup_cons] at hn
    rcases List.mem_cons.1 h with h | h
    · cases h; simp [find]
    · have : k ≠ c := by
        rintro rfl
        exact hn.1 (List.mem_map.2 ⟨_, h, rfl⟩)
      simp only [find, if_neg this]
      exact ih hn.2 h

theorem keys_put (m : List (Bytes × Rec)) (c : Bytes) (r : Rec) :
    (put m c r).map (·.1) = if find m c = none then m.map (·.1) ++ [c] else m.map (·.1) := by
  induction m with
  | nil => simp [put, find]
  | cons e m ih =>
    obtain ⟨k, q⟩ := e
    by_cases h : k = c
    · simp [put, find, h]
    · simp only [put, if_neg h, find, List.map_cons, ih]
      split <;> simp

theorem nodup_put (m : List (Bytes × Rec)) (hn : (m.map (·.1)).Nodup) (c : Bytes) (r : Rec) : ((put m c r).map (·.1)).Nodup := by
  rw [keys_put]
  split
  · rename_i h
    rw [find_none_iff] at h
    rw [List.nodup_append]
    exact ⟨hn, by simp, fun a ha b hb => by simp at hb; subst hb; rintro rfl; exact h ha⟩
  · exact hn

theorem nodup_filter (m : List (Bytes × Rec)) (hn : (m.map (·.1)).Nodup) (p) : ((m.filter p).map (·.1)).Nodup :=
  hn.sublist (List.Sublist.map _ (List.filter_sublist))

/-- Keys stay distinct. -/
def Distinct (s : St) : Prop := (s.clients.map (·.1)).Nodup

theorem distinct_housekeeping {o s now} (h : Distinct s) : Distinct (housekeeping o s now) := by
  unfold housekeeping
  split
  · exact nodup_filter _ h _
  · exact h

theorem distinct_count {o s c t} (h : Distinct s) : Distinct (count o s c t).1 := by
  unfold count
  split
  · exact h
  · simp only []
    split
    · exact nodup_put _ h _ _
    · exact nodup_put _ h _ _

theorem distinct_process {o s c t} (h : Distinct s) : Distinct (process o s c t).1 := by
  unfold process
  split
  · exact h
  · exact distinct_count (distinct_housekeeping h)

theorem distinct_step {o s e} (h : Distinct s) : Distinct (step o s e).1 := by
  cases e with
  | request c t => exact distinct_process h
  | resetAll => simp [step, Distinct]
  | resetClient c => exact nodup_filter _ h _
  | evictNow t => exact nodup_filter _ h _

theorem distinct_run {o} : ∀ (es : List Event) {s}, Distinct s → Distinct (run o s es).1
  | [], _, h => h
  | e :: es, _, h => distinct_run es (distinct_step (e := e) h)

/-! ## expiry -/

theorem tdiv_mul_le {x : Int} (h : 0 ≤ x) : x.tdiv 1000000 * 1000000 ≤ x := by
  rw [Int.tdiv_eq_ediv_of_nonneg h]; omega

theorem lt_tdiv_mul {x : Int} (h : 0 ≤ x) : x < x.tdiv 1000000 * 1000000 + 1000000 := by
  rw [Int.tdiv_eq_ediv_of_nonneg h]; omega

theorem expired_iff {o now} {r : Rec} (h : r.reset ≤ now) :
    expired o now r = true ↔ o.window ≤ (now - r.reset) / 1000000 * 1000000 := by
  unfold expired
  rw [Int.tdiv_eq_ediv_of_nonneg (by omega)]
  simp

theorem expired_le {o now} {r : Rec} (h : r.reset ≤ now) (he : expired o now r = true) : r.reset + o.window ≤ now := by
  rw [expired_iff h] at he; omega

theorem expired_mono {o now now'} {r : Rec} (h : r.reset ≤ now) (h' : now ≤ now') (he : expired o now r = true) : expired o now' r = true := by
  rw [expired_iff (by omega)]
  rw [expired_iff h] at he
  have : (now - r.reset) / 1000000 ≤ (now' - r.reset) / 1000000 := Int.ediv_le_ediv (by omega) (by omega)
  omega

/-- A record made by the same request: created after `now`. -/
theorem expired_young {o now} {r : Rec} (h : now ≤ r.reset) (hw : 0 < o.window) : expired o now r = false := by
  unfold expired
  have : (now - r.reset).tdiv 1000000 ≤ 0 := by
    have h1 : now - r.reset = -(r.reset - now) := by omega
    have h2 := Int.tdiv_nonneg (a := r.reset - now) (b := 1000000) (by omega) (by omega)
    rw [h1, Int.neg_tdiv]; omega
  simp only [decide_eq_false_iff_not]
  omega

/-! ## what one operation does to the record of one client -/

/-- Records lie in the past. -/
def Past (t : Int) (s : St) : Prop := ∀ e ∈ s.clients, e.2.reset ≤ t

theorem past_mono {t t' s} (h : t ≤ t') (p : Past t s) : Past t' s := fun e he => by have := p e he; omega

theorem past_find {t s c r} (p : Past t s) (h : find s.clients c = some r) : r.reset ≤ t := p _ (find_mem h)

theorem mem_put {m : List (Bytes × Rec)} {c r e} (h : e ∈ put m c r) : e = (c, r) ∨ e ∈ m := by
  induction m with
  | nil => simp [put] at h; exact Or.inl h
  | cons x m ih =>
    obtain ⟨k, q⟩ := x
    simp only [put] at h
    split at h
    · rename_i hk; subst hk
      rcases List.mem_cons.1 h with h | h
      · exact Or.inl h
      · exact Or.inr (List.mem_cons_of_mem _ h)
    · rcases List.mem_cons.1 h with h | h
      · exact Or.inr (h ▸ List.mem_cons_self ..)
      · rcases ih h with h | h
        · exact Or.inl h
        · exact Or.inr (List.mem_cons_of_mem _ h)

theorem past_filter {t s p n} (h : Past t s) : Past t { s with clients := s.clients.filter p, nextCleanup := n } :=
  fun e he => h e (List.mem_filter.1 he).1

theorem past_housekeeping {o t s now} (h : Past t s) : Past t (housekeeping o s now) := by
  unfold housekeeping
  split
  · intro e he; exact h e (List.mem_filter.1 he).1
  · exact h

theorem past_current {o s c} {t : Clock} (h : Past t.now s) (hc : t.now ≤ t.created) : (current o t s.clients c).reset ≤ t.created := by
  unfold current
  simp only []
  split
  · exact hc
  · cases hf : find s.clients c with
    | none => simp
    | some r => have := past_find h hf; simp; omega

theorem past_count {o s c} {t : Clock} (h : Past t.now s) (hc : t.now ≤ t.created) : Past t.created (count o s c t).1 := by
  have hp := past_mono hc h
  have hk := past_current (o := o) (c := c) h hc
  unfold count
  split
  · exact hp
  · simp only []
    split
    · intro e he
      rcases mem_put he with rfl | he
      · exact hk
      · exact hp e he
    · intro e he
      rcases mem_put he with rfl | he
      · exact hk
      · exact hp e he

theorem past_process {o s c} {t : Clock} (h : Past t.now s) (hc : t.now ≤ t.created) : Past t.created (process o s c t).1 := by
  unfold process
  split
  · exact past_mono hc h
  · exact past_count (past_housekeeping h) hc

/-- The record of a client, as housekeeping leaves it: the same, or dropped because it was stale. -/
theorem find_housekeeping {o s now c} (hd : Distinct s) :
    find (housekeeping o s now).clients c = find s.clients c ∨
      ∃ r, find s.clients c = some r ∧ expired o now r = true ∧ find (housekeeping o s now).clients c = none := by
  unfold housekeeping
  split
  · show find (evictStale o now s.clients) c = _ ∨ ∃ r, _ ∧ _ ∧ find (evictStale o now s.clients) c = none
    unfold evictStale
    rw [find_filter _ hd]
    cases hf : find s.clients c with
    | none => simp
    | some r => cases he : expired o now r <;> simp [he]
  · exact Or.inl rfl

/-- A request of another client: the record of `c` is the same, or dropped because it was stale. -/
theorem find_process_other {o s c d t} (hd : Distinct s) (hne : d ≠ c) :
    find (process o s d t).1.clients c = find s.clients c ∨
      ∃ r, find s.clients c = some r ∧ expired o t.now r = true ∧ find (process o s d t).1.clients c = none := by
  unfold process
  split
  · exact Or.inl rfl
  · rename_i hl
    rw [List.take_of_length_le (by simpa using hl)]
    have hh := find_housekeeping (o := o) (now := t.now) (c := c) hd
    have hx : find (count o (housekeeping o s t.now) d t).1.clients c = find (housekeeping o s t.now).clients c := by
      unfold count
      split
      · rfl
      · simp only []
        split <;> (show find (put _ _ _) c = _; rw [find_put, if_neg hne])
    rw [hx]
    exact hh

/-- A request of `c` itself, by the record it finds. -/
inductive Own (o : Options) (c : Bytes) (t : Clock) (s : St) : Prop
  | badId : process o s c t = (s, .badId) → Own o c t s
  | full : (process o s c t).2 = .full → find (process o s c t).1.clients c = none →
      (find s.clients c = none ∨ ∃ r, find s.clients c = some r ∧ expired o t.now r = true) → Own o c t s
  | limited (r : Rec) : (process o s c t).2 = .limited (headers o t.shown r) → find (process o s c t).1.clients c = some r →
      r.count ≥ o.maxRequests →
      (find s.clients c = some r ∧ expired o t.now r = false ∨ r.count = 0) → Own o c t s
  | more (r : Rec) : (process o s c t).2 = .allowed (headers o t.shown { r with count := r.count + 1 }) →
      find (process o s c t).1.clients c = some { r with count := r.count + 1 } →
      r.count < o.maxRequests → find s.clients c = some r → expired o t.now r = false → Own o c t s
  | first (ρ : Int) : (process o s c t).2 = .allowed (headers o t.shown ⟨1, ρ⟩) → find (process o s c t).1.clients c = some ⟨1, ρ⟩ →
      0 < o.maxRequests → (ρ = t.now ∨ ρ = t.created) →
      (find s.clients c = none ∨ ∃ r, find s.clients c = some r ∧ expired o t.now r = true) → Own o c t s

theorem own {o s c t} (hd : Distinct s) : Own o c t s := by
  by_cases hl : c.length > MAX_CLIENT_ID_LENGTH
  · exact .badId (by unfold process; rw [if_pos hl])
  · have hp : process o s c t = count o (housekeeping o s t.now) c t := by
      unfold process
      rw [if_neg hl, List.take_of_length_le (by simpa using hl)]
    have hh := find_housekeeping (o := o) (now := t.now) (c := c) hd
    by_cases hf : (housekeeping o s t.now).clients.length ≥ MAX_TRACKED_CLIENTS ∧ find (housekeeping o s t.now).clients c = none
    · refine .full ?_ ?_ ?_
      · rw [hp]; unfold count; rw [if_pos hf]
      · rw [hp]; unfold count; rw [if_pos hf]; exact hf.2
      · rcases hh with h | ⟨r, h1, h2, _⟩
        · exact Or.inl (h ▸ hf.2)
        · exact Or.inr ⟨r, h1, h2⟩
    · have hc : count o (housekeeping o s t.now) c t = 
          (let r := current o t (housekeeping o s t.now).clients c
          if r.count ≥ o.maxRequests then
            ({ (housekeeping o s t.now) with clients := put (housekeeping o s t.now).clients c r }, .limited (headers o t.shown r))
          else
            ({ (housekeeping o s t.now) with clients := put (housekeeping o s t.now).clients c { r with count := r.count + 1 } },
              .allowed (headers o t.shown { r with count := r.count + 1 }))) := by
        unfold count; rw [if_neg hf]
      simp only [] at hc
      generalize hr : current o t (housekeeping o s t.now).clients c = r at hc
      -- the record used is fresh, or the stored one
      have key : (r.count = 0 ∧ (r.reset = t.now ∨ r.reset = t.created) ∧
            (find s.clients c = none ∨ ∃ r, find s.clients c = some r ∧ expired o t.now r = true)) ∨
          (find s.clients c = some r ∧ expired o t.now r = false) := by
        unfold current at hr
        simp only [] at hr
        rcases hh with h | ⟨r', h1, h2, h3⟩
        · rw [h] at hr
          cases hfs : find s.clients c with
          | none =>
            rw [hfs] at hr
            left
            by_cases hx : expired o t.now ((none : Option Rec).getD ⟨0, t.created⟩) = true
            · rw [if_pos hx] at hr; subst hr; exact ⟨rfl, Or.inl rfl, Or.inl rfl⟩
            · rw [if_neg hx] at hr; subst hr; exact ⟨rfl, Or.inr rfl, Or.inl rfl⟩
          | some q =>
            rw [hfs] at hr
            by_cases hx : expired o t.now ((some q : Option Rec).getD ⟨0, t.created⟩) = true
            · rw [if_pos hx] at hr; subst hr; exact Or.inl ⟨rfl, Or.inl rfl, Or.inr ⟨q, rfl, hx⟩⟩
            · rw [if_neg hx] at hr; subst hr; exact Or.inr ⟨rfl, by simpa using hx⟩
        · rw [h3] at hr
          left
          by_cases hx : expired o t.now ((none : Option Rec).getD ⟨0, t.created⟩) = true
          · rw [if_pos hx] at hr; subst hr; exact ⟨rfl, Or.inl rfl, Or.inr ⟨r', h1, h2⟩⟩
          · rw [if_neg hx] at hr; subst hr; exact ⟨rfl, Or.inr rfl, Or.inr ⟨r', h1, h2⟩⟩
      by_cases hm : r.count ≥ o.maxRequests
      · rw [if_pos hm] at hc
        refine .limited r (by rw [hp, hc]) (by rw [hp, hc]; show find (put _ _ _) c = _; rw [find_put, if_pos rfl]) hm ?_
        rcases key with ⟨h, _⟩ | h
        · exact Or.inr h
        · exact Or.inl h
      · rw [if_neg hm] at hc
        rcases key with ⟨h0, hρ, hs⟩ | ⟨hs, hx⟩
        · have hre : ({ r with count := r.count + 1 } : Rec) = ⟨1, r.reset⟩ := by simp [h0]
          refine .first r.reset (by rw [hp, hc, hre]) (by rw [hp, hc, hre]; show find (put _ _ _) c = _; rw [find_put, if_pos rfl]) (by omega) hρ hs
        · exact .more r (by rw [hp, hc]) (by rw [hp, hc]; show find (put _ _ _) c = _; rw [find_put, if_pos rfl]) (by omega) hs hx

end Verif.Rate
