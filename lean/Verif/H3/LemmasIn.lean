import Verif.H3.Lemmas

namespace Verif.H3
open Verif.Utility Verif.Wire Verif.Parse Verif.Mid
open Verif.Utility.Spec Verif.Wire.Spec Verif.H3.Spec

/-- The pseudo header fields found. -/
def found (x : Vars) : List Field :=
  (x.method.map fun v => (b!":method", v)).toList ++ ((x.scheme.map fun v => (b!":scheme", v)).toList ++
    ((x.authority.map fun v => (b!":authority", v)).toList ++ (x.path.map fun v => (b!":path", v)).toList))

def slot (x : Vars) (n : Bytes) : Option Bytes :=
  if n = b!":method" then x.method else if n = b!":scheme" then x.scheme else if n = b!":authority" then x.authority
  else if n = b!":path" then x.path else none

def four : List Bytes := [b!":method", b!":scheme", b!":authority", b!":path"]

theorem server_step (x y : Vars) (f : Field) (hp : Pseudo f.1) (h : varsStep .server x f = some y) :
    y.headers = x.headers ∧ y.length = x.length ∧ y.status = x.status ∧ (found x ++ [f]).Perm (found y) := by
  obtain ⟨n, v⟩ := f
  have comm : ∀ (A : List Field) (f : Field), (A ++ [f]).Perm (f :: A) := fun A f => List.perm_append_singleton f A
  unfold varsStep at h
  simp only at h
  split at h
  · next hn =>
    split at h
    · cases h
    next hc =>
    cases h
    refine ⟨rfl, rfl, rfl, ?_⟩
    simp only [beq_iff_eq] at hn
    have : x.method = none := by cases hx : x.method with | none => rfl | some => simp [hx] at hc
    unfold found
    simp only [this, hn, Option.map_none, Option.toList_none, Option.map_some, Option.toList_some, List.nil_append, List.singleton_append]
    exact comm _ _
  split at h
  · next hn =>
    split at h
    · cases h
    next hc =>
    cases h
    refine ⟨rfl, rfl, rfl, ?_⟩
    simp only [beq_iff_eq] at hn
    have : x.scheme = none := by cases hx : x.scheme with | none => rfl | some => simp [hx] at hc
    unfold found
    simp only [this, hn, Option.map_none, Option.toList_none, Option.map_some, Option.toList_some, List.nil_append, List.singleton_append, List.append_assoc]
    refine List.Perm.append_left _ ?_
    rw [← List.append_assoc]
    exact comm _ _
  split at h
  · next hn =>
    split at h
    · cases h
    next hc =>
    cases h
    refine ⟨rfl, rfl, rfl, ?_⟩
    simp only [beq_iff_eq] at hn
    have : x.authority = none := by cases hx : x.authority with | none => rfl | some => simp [hx] at hc
    unfold found
    simp only [this, hn, Option.map_none, Option.toList_none, Option.map_some, Option.toList_some, List.nil_append, List.singleton_append, List.append_assoc]
    exact List.Perm.append_left _ (List.Perm.append_left _ (comm _ _))
  split at h
  · next hn =>
    split at h
    · cases h
    next hc =>
    cases h
    refine ⟨rfl, rfl, rfl, ?_⟩
    simp only [beq_iff_eq] at hn
    have : x.path = none := by cases hx : x.path with | none => rfl | some => simp [hx] at hc
    unfold found
    simp only [this, hn, Option.map_none, Option.toList_none, Option.map_some, Option.toList_some, List.nil_append, List.append_assoc]
    exact List.Perm.refl _
  split at h
  · next hn =>
    rw [if_pos (by simp)] at h
    cases h
  · next hn =>
    obtain ⟨t, rfl⟩ := hp
    rw [if_pos (by simp)] at h
    cases h

theorem server_sound (ps : List Field) (x y : Vars) (hp : ∀ f ∈ ps, Pseudo f.1) (h : varsLoop .server x ps = some y) :
    y.headers = x.headers ∧ y.length = x.length ∧ y.status = x.status ∧ (found x ++ ps).Perm (found y) := by
  induction ps generalizing x with
  | nil => cases h; simp
  | cons f ps ih =>
    rw [varsLoop] at h
    split at h
    · cases h
    next z hz =>
    obtain ⟨a1, a2, a3, a4⟩ := server_step x z f (hp f List.mem_cons_self) hz
    obtain ⟨b1, b2, b3, b4⟩ := ih z (fun g hg => hp g (List.mem_cons_of_mem _ hg)) h
    refine ⟨b1.trans a1, b2.trans a2, b3.trans a3, ?_⟩
    rw [List.append_cons]
    exact (List.Perm.append_right ps a4).trans b4

theorem server_complete (ps : List Field) (x : Vars) (h4 : ∀ f ∈ ps, f.1 ∈ four) (hn : (ps.map (·.1)).Nodup) (hs : ∀ f ∈ ps, slot x f.1 = none) :
    ∃ y, varsLoop .server x ps = some y := by
  induction ps generalizing x with
  | nil => exact ⟨x, rfl⟩
  | cons f ps ih =>
    obtain ⟨n, v⟩ := f
    rw [List.map_cons, List.nodup_cons] at hn
    have hf := h4 _ List.mem_cons_self
    have hx := hs _ List.mem_cons_self
    have hne : ∀ g ∈ ps, g.1 ≠ n := fun g hg e => hn.1 (List.mem_map.2 ⟨g, hg, e⟩)
    have rest : ∀ z, varsStep .server x (n, v) = some z → (∀ m, m ≠ n → slot z m = slot x m) → ∃ y, varsLoop .server x ((n, v) :: ps) = some y := by
      intro z hz hk
      rw [varsLoop, hz]
      refine ih z (fun g hg => h4 g (List.mem_cons_of_mem _ hg)) hn.2 fun g hg => ?_
      rw [hk _ (hne g hg)]
      exact hs g (List.mem_cons_of_mem _ hg)
    simp only [four, List.mem_cons, List.not_mem_nil, or_false] at hf
    simp only at hf hx
    rcases hf with rfl | rfl | rfl | rfl
    · have : x.method = none := hx
      refine rest { x with method := some v } ?_ ?_
      · unfold varsStep; rw [if_pos (by simp), if_neg (by simp [this])]
      · intro m hm; unfold slot; rw [if_neg hm, if_neg hm]
    · have : x.scheme = none := hx
      refine rest { x with scheme := some v } ?_ ?_
      · unfold varsStep; rw [if_neg (by simp), if_pos (by simp), if_neg (by simp [this])]
      · intro m hm; unfold slot; simp only [hm]; rfl
    · have : x.authority = none := hx
      refine rest { x with authority := some v } ?_ ?_
      · unfold varsStep; rw [if_neg (by simp), if_neg (by simp), if_pos (by simp), if_neg (by simp [this])]
      · intro m hm; unfold slot; simp only [hm]; rfl
    · have : x.path = none := hx
      refine rest { x with path := some v } ?_ ?_
      · unfold varsStep; rw [if_neg (by simp), if_neg (by simp), if_neg (by simp), if_pos (by simp), if_neg (by simp [this])]
      · intro m hm; unfold slot; simp only [hm]; rfl

theorem four_pseudo {n : Bytes} (h : n ∈ four) : Pseudo n := by
  simp only [four, List.mem_cons, List.not_mem_nil, or_false] at h
  rcases h with rfl | rfl | rfl | rfl <;> exact ⟨_, rfl⟩

theorem perm_four {ps : List Field} {m s a p : Bytes} (h : ps.Perm [(b!":method", m), (b!":scheme", s), (b!":authority", a), (b!":path", p)]) :
    (∀ f ∈ ps, f.1 ∈ four) ∧ (ps.map (·.1)).Nodup := by
  have hm : (ps.map (·.1)).Perm four := h.map (·.1)
  exact ⟨fun f hf => hm.mem_iff.1 (List.mem_map.2 ⟨f, hf, rfl⟩), hm.nodup_iff.2 (by decide)⟩

/-- The four pseudo header fields determine their values. -/
theorem perm_four_inj {m s a p m' s' a' p' : Bytes} (h : [(b!":method", m), (b!":scheme", s), (b!":authority", a), (b!":path", p)].Perm
    [(b!":method", m'), (b!":scheme", s'), (b!":authority", a'), (b!":path", p')]) : m = m' ∧ s = s' ∧ a = a' ∧ p = p' := by
  have key : ∀ n v, (n, v) ∈ [(b!":method", m), (b!":scheme", s), (b!":authority", a), (b!":path", p)] →
      (n, v) ∈ [(b!":method", m'), (b!":scheme", s'), (b!":authority", a'), (b!":path", p')] := fun n v hv => h.mem_iff.1 hv
  have h1 := key b!":method" m (by simp)
  have h2 := key b!":scheme" s (by simp)
  have h3 := key b!":authority" a (by simp)
  have h4 := key b!":path" p (by simp)
  simp at h1 h2 h3 h4
  exact ⟨h1, h2, h3, h4⟩

theorem materialize_server (methodOf : Bytes → Option Nat) (st st' : St) : materialize methodOf .server st = some st' ↔
    ∃ m s a p ps rs M l, st.block = ps ++ rs ∧ ps.Perm [(b!":method", m), (b!":scheme", s), (b!":authority", a), (b!":path", p)] ∧
      m ≠ [] ∧ s ≠ [] ∧ a ≠ [] ∧ p ≠ [] ∧ (∀ f ∈ rs, ¬ Pseudo f.1 ∧ ¬ ConnectionField f.1) ∧ lengthLoop none (lengthsOf rs) = some l ∧
      methodOf m = some M ∧ st' = { st with headers := rs.foldl (fun h f => push h f.1 f.2) st.headers, expected := l, method := some M, uri := s ++ b!"://" ++ a ++ p } := by
  unfold materialize
  constructor
  · intro h
    split at h
    · cases h
    next hf =>
    simp only [Bool.not_eq_true, Bool.not_eq_false] at hf
    obtain ⟨ps, rs, hb, h1, h2⟩ := (pseudoFirst_iff _).2.1 (by simpa using hf)
    rw [hb, varsLoop_append] at h
    split at h
    · cases h
    next x hx =>
    rw [Option.bind_eq_some_iff] at hx
    obtain ⟨y, hy, hx⟩ := hx
    obtain ⟨a1, a2, a3, a4⟩ := server_sound ps _ y h1 hy
    obtain ⟨b1, l, b2, rfl⟩ := (varsLoop_regular .server rs y x h2).1 hx
    simp only at h
    split at h
    · cases h
    next hr =>
    split at h
    · cases h
    next M hM =>
    cases h
    have hr : hasRequired y.method y.scheme y.authority y.path = true := by simpa using hr
    unfold hasRequired at hr
    simp only [Bool.and_eq_true] at hr
    obtain ⟨⟨⟨r1, r2⟩, r3⟩, r4⟩ := hr
    cases hm : y.method with
    | none => rw [hm] at r1; cases r1
    | some m =>
    cases hs : y.scheme with
    | none => rw [hs] at r2; cases r2
    | some s =>
    cases ha : y.authority with
    | none => rw [ha] at r3; cases r3
    | some a =>
    cases hp : y.path with
    | none => rw [hp] at r4; cases r4
    | some p =>
    rw [hm] at r1; rw [hs] at r2; rw [ha] at r3; rw [hp] at r4
    refine ⟨m, s, a, p, ps, rs, M, l, hb, ?_, by simpa using r1, by simpa using r2, by simpa using r3, by simpa using r4,
      fun f hf => ⟨h2 f hf, b1 f hf⟩, ?_, ?_, ?_⟩
    · have : found y = [(b!":method", m), (b!":scheme", s), (b!":authority", a), (b!":path", p)] := by
        unfold found; rw [hm, hs, ha, hp]; rfl
      rw [this] at a4
      simpa [found] using a4
    · rw [a2] at b2; exact b2
    · simpa [hm] using hM
    · simp [a1, hb, hm, hs, ha, hp]
  · rintro ⟨m, s, a, p, ps, rs, M, l, hb, hperm, n1, n2, n3, n4, hrs, hl, hM, rfl⟩
    obtain ⟨h4, hnd⟩ := perm_four hperm
    have hps : ∀ f ∈ ps, Pseudo f.1 := fun f hf => four_pseudo (h4 f hf)
    rw [if_neg (by simp; exact (pseudoFirst_iff _).2.2 ⟨ps, rs, hb, hps, fun f hf => (hrs f hf).1⟩)]
    obtain ⟨y, hy⟩ := server_complete ps { headers := st.headers } h4 hnd (fun f _ => by unfold slot; simp)
    obtain ⟨a1, a2, a3, a4⟩ := server_sound ps _ y hps hy
    have hx := (varsLoop_regular .server rs y _ (fun f hf => (hrs f hf).1)).2
      ⟨fun f hf => (hrs f hf).2, l, by rw [a2]; exact hl, rfl⟩
    rw [hb, varsLoop_append, hy, Option.bind_some, hx]
    have hfound : (found y).Perm [(b!":method", m), (b!":scheme", s), (b!":authority", a), (b!":path", p)] := by
      refine List.Perm.trans ?_ hperm
      simpa [found] using a4.symm
    have hmem : ∀ n v, (n, v) ∈ found y ↔ (n, v) ∈ [(b!":method", m), (b!":scheme", s), (b!":authority", a), (b!":path", p)] :=
      fun n v => hfound.mem_iff
    have e1 : y.method = some m := by
      have := (hmem b!":method" m).2 (by simp)
      unfold found at this
      simp at this
      exact this
    have e2 : y.scheme = some s := by
      have := (hmem b!":scheme" s).2 (by simp)
      unfold found at this
      simp at this
      exact this
    have e3 : y.authority = some a := by
      have := (hmem b!":authority" a).2 (by simp)
      unfold found at this
      simp at this
      exact this
    have e4 : y.path = some p := by
      have := (hmem b!":path" p).2 (by simp)
      unfold found at this
      simp at this
      exact this
    simp only [e1, e2, e3, e4, Option.getD_some, hM, a1]
    rw [if_neg (by simp [hasRequired, n1, n2, n3, n4])]

theorem materialize_client (methodOf : Bytes → Option Nat) (st st' : St) : materialize methodOf .client st = some st' ↔
    ∃ v n rs l, st.block = (b!":status", v) :: rs ∧ parseStatus v = some n ∧ (∀ f ∈ rs, ¬ Pseudo f.1 ∧ ¬ ConnectionField f.1) ∧
      lengthLoop none (lengthsOf rs) = some l ∧
      st' = { st with headers := rs.foldl (fun h f => push h f.1 f.2) st.headers, expected := l, status := n } := by
  have step : ∀ (x y : Vars) (f : Field), Pseudo f.1 → varsStep .client x f = some y →
      ∃ n, x.status = none ∧ f.1 = b!":status" ∧ parseStatus f.2 = some n ∧ y = { x with status := some n } := by
    intro x y f hp h
    unfold varsStep at h
    split at h
    · simp at h
    split at h
    · simp at h
    split at h
    · simp at h
    split at h
    · simp at h
    split at h
    · next hn =>
      split at h
      · cases h
      next hc =>
      split at h
      · cases h
      next n hs =>
      cases h
      refine ⟨n, ?_, by simpa using hn, hs, rfl⟩
      cases hx : x.status with
      | none => rfl
      | some => simp [hx] at hc
    · obtain ⟨t, ht⟩ := hp
      rw [if_pos (by simp [ht])] at h
      cases h
  unfold materialize
  constructor
  · intro h
    split at h
    · cases h
    next hf =>
    obtain ⟨ps, rs, hb, h1, h2⟩ := (pseudoFirst_iff _).2.1 (by simpa using hf)
    rw [hb, varsLoop_append] at h
    split at h
    · cases h
    next x hx =>
    rw [Option.bind_eq_some_iff] at hx
    obtain ⟨y, hy, hx⟩ := hx
    obtain ⟨b1, l, b2, rfl⟩ := (varsLoop_regular .client rs y x h2).1 hx
    simp only at h
    split at h
    · cases h
    next n hn =>
    cases h
    cases ps with
    | nil =>
      cases hy
      cases hn
    | cons f ps =>
      rw [varsLoop] at hy
      split at hy
      · cases hy
      next z hz =>
      obtain ⟨k, c1, c2, c3, rfl⟩ := step _ _ f (h1 f List.mem_cons_self) hz
      cases ps with
      | cons g ps =>
        rw [varsLoop] at hy
        split at hy
        · cases hy
        next w hw =>
        obtain ⟨k', d1, -⟩ := step _ _ g (h1 g (by simp)) hw
        cases d1
      | nil =>
        cases hy
        cases hn
        obtain ⟨fn, fv⟩ := f
        simp only at c2 c3
        subst c2
        exact ⟨fv, n, rs, l, hb, c3, fun f hf => ⟨h2 f hf, b1 f hf⟩, b2, by simp [hb]⟩
  · rintro ⟨v, n, rs, l, hb, hp, hrs, hl, rfl⟩
    rw [if_neg (by simp; exact (pseudoFirst_iff _).2.2 ⟨[(b!":status", v)], rs, hb, by simp [Pseudo], fun f hf => (hrs f hf).1⟩)]
    have hstep : varsStep .client { headers := st.headers } (b!":status", v) = some { headers := st.headers, status := some n } := by
      unfold varsStep
      rw [if_neg (by simp), if_neg (by simp), if_neg (by simp), if_neg (by simp), if_pos (by simp), if_neg (by simp)]
      simp only [hp]
    have hx := (varsLoop_regular .client rs { headers := st.headers, status := some n } _ (fun f hf => (hrs f hf).1)).2
      ⟨fun f hf => (hrs f hf).2, l, hl, rfl⟩
    rw [hb, varsLoop, hstep]
    simp only [hx]

/-! ### Runs -/

theorem run_fields (S : Setup) (fs : List Field) (st : St) (rest : List Ev) (h0 : st.count ≤ 100) :
    (st.count + fs.length ≤ 100 → (∀ f ∈ fs, Incoming f) →
      S.run st (fs.map .field ++ rest) = S.run { st with block := st.block ++ fs, count := st.count + fs.length } rest) ∧
    (¬ (st.count + fs.length ≤ 100 ∧ ∀ f ∈ fs, Incoming f) → S.run st (fs.map .field ++ rest) = .failed) := by
  induction fs generalizing st with
  | nil => simp [h0]
  | cons f fs ih =>
    rw [List.map_cons, List.cons_append, Setup.run, Setup.step]
    by_cases hc : (st.count + 1 > maxFields || !validIncoming f) = true
    · rw [if_pos hc]
      simp only [Bool.or_eq_true, decide_eq_true_eq, maxFields, gt_iff_lt, Bool.not_eq_true', List.length_cons] at hc ⊢
      refine ⟨fun h1 h2 => ?_, fun _ => by trivial⟩
      rcases hc with hc | hc
      · omega
      · have := (validIncoming_iff f).2 (h2 f List.mem_cons_self)
        rw [this] at hc; cases hc
    · rw [if_neg hc]
      simp only [Bool.or_eq_true, decide_eq_true_eq, maxFields, gt_iff_lt, Bool.not_eq_true', not_or, Bool.not_eq_false] at hc
      have hf := (validIncoming_iff f).1 hc.2
      obtain ⟨i1, i2⟩ := ih { st with block := st.block ++ [f], count := st.count + 1 } (by simp only; omega)
      simp only [List.length_cons] at *
      constructor
      · intro h1 h2
        rw [i1 (by omega) fun g hg => h2 g (List.mem_cons_of_mem _ hg)]
        simp only [List.append_assoc, List.singleton_append]
        rw [show st.count + 1 + fs.length = st.count + (fs.length + 1) by omega]
      · intro h
        refine i2 fun h' => h ⟨by omega, ?_⟩
        intro g hg
        rcases List.mem_cons.1 hg with rfl | hg
        · exact hf
        · exact h'.2 g hg

theorem run_data (S : Setup) (ds : List Bytes) (st : St) (rest : List Ev) (hr : S.role = .server ∨ st.method ≠ some S.headMethod)
    (h0 : S.limit = 0 ∨ st.body.length ≤ S.limit) :
    (S.limit = 0 ∨ st.body.length + ds.flatten.length ≤ S.limit → S.run st (ds.map .data ++ rest) = S.run { st with body := st.body ++ ds.flatten } rest) ∧
    (¬ (S.limit = 0 ∨ st.body.length + ds.flatten.length ≤ S.limit) → S.run st (ds.map .data ++ rest) = .failed) := by
  induction ds generalizing st with
  | nil => simp; intro h1 h2; omega
  | cons d ds ih =>
    rw [List.map_cons, List.cons_append, Setup.run, Setup.step]
    by_cases hc : (S.limit != 0 && st.body.length + d.length > S.limit) = true
    · rw [if_pos hc]
      simp only [Bool.and_eq_true, bne_iff_ne, ne_eq, decide_eq_true_eq, List.flatten_cons, List.length_append] at hc ⊢
      exact ⟨fun h => by omega, fun _ => by trivial⟩
    · rw [if_neg hc]
      simp only [Bool.and_eq_true, bne_iff_ne, ne_eq, decide_eq_true_eq, not_and, Nat.not_lt] at hc
      rw [if_pos (by rcases hr with h | h <;> simp [h])]
      obtain ⟨i1, i2⟩ := ih { st with body := st.body ++ d } hr (by simp only [List.length_append]; by_cases h : S.limit = 0 <;> simp [h]; exact hc h)
      simp only [List.length_append, List.flatten_cons, List.append_assoc, ← Nat.add_assoc] at *
      exact ⟨i1, i2⟩

theorem run_head_data (S : Setup) (ds : List Bytes) (st : St) (rest : List Ev) (hr : S.role = .client) (hm : st.method = some S.headMethod) :
    ((∀ d ∈ ds, S.limit = 0 ∨ st.body.length + d.length ≤ S.limit) → S.run st (ds.map .data ++ rest) = S.run st rest) ∧
    (¬ (∀ d ∈ ds, S.limit = 0 ∨ st.body.length + d.length ≤ S.limit) → S.run st (ds.map .data ++ rest) = .failed) := by
  induction ds with
  | nil => simp
  | cons d ds ih =>
    rw [List.map_cons, List.cons_append, Setup.run, Setup.step]
    by_cases hc : (S.limit != 0 && st.body.length + d.length > S.limit) = true
    · rw [if_pos hc]
      simp only [Bool.and_eq_true, bne_iff_ne, ne_eq, decide_eq_true_eq] at hc
      refine ⟨fun h => ?_, fun _ => rfl⟩
      have := h d List.mem_cons_self
      omega
    · rw [if_neg hc, if_neg (by simp [hr, hm])]
      simp only [Bool.and_eq_true, bne_iff_ne, ne_eq, decide_eq_true_eq, not_and, Nat.not_lt] at hc
      have : S.limit = 0 ∨ st.body.length + d.length ≤ S.limit := by
        by_cases h : S.limit = 0
        · exact .inl h
        · exact .inr (hc h)
      simp only [List.mem_cons, forall_eq_or_imp, this, true_and]
      exact ih

theorem trailersLoop_iff (fs : List Field) (h h' : Headers) : trailersLoop h fs = some h' ↔
    (∀ f ∈ fs, isForbiddenTrailer f.1 = false) ∧ h' = fs.foldl (fun h f => push h f.1 f.2) h := by
  induction fs generalizing h with
  | nil => rw [trailersLoop]; exact ⟨fun h => (by cases h; simp), fun h => (by rw [h.2]; rfl)⟩
  | cons f fs ih =>
    rw [trailersLoop]
    by_cases hc : isForbiddenTrailer f.1 = true
    · rw [if_pos hc]; simp [hc]
    · rw [if_neg hc, ih]
      simp only [List.mem_cons, forall_eq_or_imp, List.foldl_cons, Bool.not_eq_true] at hc ⊢
      simp [hc]

theorem run_section (S : Setup) (fs : List Field) (st : St) (rest : List Ev) : S.run st (sectionEvents fs ++ rest) =
    if fs.length ≤ 100 ∧ (∀ f ∈ fs, validIncoming f = true) then
      match materialize S.methodOf S.role { st with block := fs, count := fs.length } with
      | none => .failed
      | some st => S.run { st with seen := true } rest
    else .failed := by
  have e : sectionEvents fs ++ rest = .beginHeaders :: (fs.map .field ++ (.endHeaders :: rest)) := by simp [sectionEvents]
  rw [e, Setup.run, Setup.step]
  simp only
  obtain ⟨h1, h2⟩ := run_fields S fs { st with block := [], count := 0 } (.endHeaders :: rest) (by simp)
  simp only [List.nil_append, Nat.zero_add] at h1 h2
  by_cases hc : fs.length ≤ 100 ∧ ∀ f ∈ fs, validIncoming f = true
  · rw [if_pos hc, h1 hc.1 fun f hf => (validIncoming_iff f).1 (hc.2 f hf), Setup.run, Setup.step]
    cases materialize S.methodOf S.role { st with block := fs, count := fs.length } <;> rfl
  · rw [if_neg hc]
    exact h2 fun h => hc ⟨h.1, fun f hf => (validIncoming_iff f).2 (h.2 f hf)⟩

theorem run_trailers (S : Setup) (ts : List Field) (st : St) (rest : List Ev) (hs : st.seen = true) : S.run st (trailerEvents (some ts) ++ rest) =
    if ts.length ≤ 100 ∧ (∀ f ∈ ts, validIncoming f = true) ∧ (∀ f ∈ ts, isForbiddenTrailer f.1 = false) then
      S.run { st with block := ts, count := ts.length, headers := ts.foldl (fun h f => push h f.1 f.2) st.headers } rest
    else .failed := by
  have e : trailerEvents (some ts) ++ rest = .beginTrailers :: (ts.map .field ++ (.endTrailers :: rest)) := by simp [trailerEvents]
  rw [e, Setup.run, Setup.step]
  simp only
  obtain ⟨h1, h2⟩ := run_fields S ts { st with block := [], count := 0 } (.endTrailers :: rest) (by simp)
  simp only [List.nil_append, Nat.zero_add] at h1 h2
  by_cases hc : ts.length ≤ 100 ∧ ∀ f ∈ ts, validIncoming f = true
  · rw [h1 hc.1 fun f hf => (validIncoming_iff f).1 (hc.2 f hf), Setup.run, Setup.step]
    unfold materializeTrailers
    simp only [hs, Bool.not_true, Bool.false_eq_true, if_false]
    have hl := trailersLoop_iff ts st.headers
    by_cases hf : ∀ f ∈ ts, isForbiddenTrailer f.1 = false
    · rw [(hl _).2 ⟨hf, rfl⟩, if_pos ⟨hc.1, hc.2, hf⟩]
    · rw [if_neg (fun h => hf h.2.2)]
      cases hx : trailersLoop st.headers ts with
      | none => rfl
      | some h => exact absurd ((hl h).1 hx).1 hf
  · rw [if_neg (fun h => hc ⟨h.1, h.2.1⟩)]
    exact h2 fun h => hc ⟨h.1, fun f hf => (validIncoming_iff f).2 (h.2 f hf)⟩

end Verif.H3
