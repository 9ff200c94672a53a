import Verif.Router.Split

/-! Registration histories and the allowed-methods scan. -/

namespace Verif.Router
open Spec Verif.Utility Verif.Utility.Spec

variable {H : Type}

/-- The latest accepted registration (spec notion instantiated at `Reg`). -/
abbrev Registered (acc : List (Reg H)) (pat : List Seg) (m : Int) (h : H) : Prop :=
  Latest Reg.pattern Reg.method Reg.handler acc pat m h

theorem isSeg_det {s : Bytes} {a b : Seg} (h1 : IsSeg s a) (h2 : IsSeg s b) : a = b := by
  cases h1 <;> cases h2 <;> simp_all

theorem areSegs_det {ss : List Bytes} {p q : List Seg} (h1 : AreSegs ss p) (h2 : AreSegs ss q) : p = q := by
  induction h1 generalizing q with
  | nil => cases h2; rfl
  | cons h _ ih => cases h2 with | cons h' t => rw [isSeg_det h h', ih t]

theorem isPattern_det {str : Bytes} {p q : List Seg} (h1 : IsPattern str p) (h2 : IsPattern str q) : p = q := by
  obtain ⟨⟨s1, a1, b1⟩, _⟩ := h1
  obtain ⟨⟨s2, a2, b2⟩, _⟩ := h2
  rw [isSegments_iff] at a1 a2
  subst a1; subst a2
  exact areSegs_det b1 b2

theorem methodSlot_lt {m : Int} : methodSlot m < slotCount ↔ 0 ≤ m ∧ m < 64 := by
  unfold methodSlot slotCount
  split <;> omega

theorem methodSlot_inj {m m' : Int} (h : 0 ≤ m ∧ m < 64) (h' : 0 ≤ m' ∧ m' < 64) :
    methodSlot m = methodSlot m' ↔ m = m' := by
  unfold methodSlot slotCount
  rw [if_neg (by omega), if_neg (by omega)]
  omega

theorem methodSlot_val {m : Int} (h : 0 ≤ m ∧ m < 64) : methodSlot m = m.toNat := by
  unfold methodSlot slotCount
  rw [if_neg (by omega)]

/-- What one `add_route` call does to the stored handlers. -/
theorem addRoute_find (t : Node H) (r : Reg H) :
    ((addRoute t r.pattern r.method r.handler).2 = false ∧
      ∀ s q, find s (addRoute t r.pattern r.method r.handler).1 q = find s t q) ∨
    ((addRoute t r.pattern r.method r.handler).2 = true ∧ (0 ≤ r.method ∧ r.method < 64) ∧
      ∃ pat, IsPattern r.pattern pat ∧
        ∀ s q, find s (addRoute t r.pattern r.method r.handler).1 q =
          if s = methodSlot r.method ∧ q = pat then some r.handler else find s t q) := by
  unfold addRoute
  rw [splitPath_texts]
  rcases insert_find (methodSlot r.method) r.handler [] t (segsOf r.pattern) with h | ⟨h1, h2, pat, h3, h4, h5, _, h7⟩
  · exact .inl h
  · exact .inr ⟨h1, methodSlot_lt.1 h2, pat, ⟨⟨_, (isSegments_iff _ _).2 rfl, h3⟩, h4, h5⟩, h7⟩

theorem latest_snoc (acc : List (Reg H)) (r : Reg H) (pat : List Seg) (m : Int) (h : H) :
    Registered (acc ++ [r]) pat m h ↔
      (IsPattern r.pattern pat ∧ r.method = m ∧ r.handler = h) ∨
      (¬ (IsPattern r.pattern pat ∧ r.method = m) ∧ Registered acc pat m h) := by
  constructor
  · rintro ⟨l1, x, l2, e, h1, h2, h3, h4⟩
    rcases List.eq_nil_or_concat l2 with rfl | ⟨l2', y, rfl⟩
    · have e : acc ++ [r] = l1 ++ [x] := e
      obtain ⟨_, hx⟩ := List.append_inj' e rfl
      simp at hx; subst hx
      exact .inl ⟨h1, h2, h3⟩
    · have e : acc ++ [r] = (l1 ++ x :: l2') ++ [y] := by rw [e]; simp
      obtain ⟨ha, hx⟩ := List.append_inj' e rfl
      simp at hx; subst hx
      refine .inr ⟨fun hp => h4 r (by simp) hp.1 hp.2, l1, x, l2', ha, h1, h2, h3, ?_⟩
      intro r' hr'; exact h4 r' (by simp [hr'])
  · rintro (⟨h1, h2, h3⟩ | ⟨hn, l1, x, l2, e, h1, h2, h3, h4⟩)
    · exact ⟨acc, r, [], rfl, h1, h2, h3, by simp⟩
    · refine ⟨l1, x, l2 ++ [r], by rw [e]; simp, h1, h2, h3, ?_⟩
      intro r' hr' hp
      simp at hr'
      rcases hr' with hr' | rfl
      · exact h4 r' hr' hp
      · exact fun hm => hn ⟨hp, hm⟩

/-- The tree stores exactly the latest accepted registrations. -/
def Stores (t : Node H) (acc : List (Reg H)) : Prop :=
  ∀ m, 0 ≤ m ∧ m < 64 → ∀ pat h, find (methodSlot m) t pat = some h ↔ Registered acc pat m h

theorem stores_empty : Stores (.empty : Node H) [] := by
  intro m _ pat h
  rw [find_empty]
  constructor
  · intro h; simp at h
  · rintro ⟨l1, x, l2, e, _⟩; simp at e

theorem stores_step (t : Node H) (acc : List (Reg H)) (r : Reg H) (h : Stores t acc) :
    Stores (addRoute t r.pattern r.method r.handler).1
      (if (addRoute t r.pattern r.method r.handler).2 then acc ++ [r] else acc) := by
  rcases addRoute_find t r with ⟨h1, h2⟩ | ⟨h1, h2, pat, h3, h4⟩
  · rw [h1]; intro m hm q h'; rw [h2]; exact h m hm q h'
  · rw [h1]
    intro m hm q h'
    rw [h4, if_pos rfl, latest_snoc]
    simp only [methodSlot_inj hm h2]
    by_cases hc : m = r.method ∧ q = pat
    · obtain ⟨rfl, rfl⟩ := hc
      simp [h3]
    · rw [if_neg hc, h m hm]
      have hc' : ¬ (IsPattern r.pattern q ∧ r.method = m) := by
        rintro ⟨hp, rfl⟩
        exact hc ⟨rfl, isPattern_det hp h3⟩
      simp only [hc', not_false_iff, true_and]
      constructor
      · exact .inr
      · rintro (⟨a, b, _⟩ | h)
        · exact absurd ⟨a, b⟩ hc'
        · exact h

theorem stores_foldl (regs : List (Reg H)) (t : Node H) (acc : List (Reg H)) (h : Stores t acc) :
    Stores (regs.foldl (fun t r => (addRoute t r.pattern r.method r.handler).1) t)
      (acc ++ accepted t regs) := by
  induction regs generalizing t acc with
  | nil => simpa [accepted] using h
  | cons r rs ih =>
    rw [List.foldl_cons, accepted]
    have := ih _ _ (stores_step t acc r h)
    cases hb : (addRoute t r.pattern r.method r.handler).2 with
    | false => simpa [hb] using this
    | true => simpa [hb] using this

theorem stores_build (regs : List (Reg H)) : Stores (build regs) (accepted .empty regs) := by
  have := stores_foldl regs .empty [] stores_empty
  simpa [build] using this

theorem accepted_pattern (regs : List (Reg H)) (t : Node H) :
    ∀ r ∈ accepted t regs, (∃ pat, IsPattern r.pattern pat) ∧ 0 ≤ r.method ∧ r.method < 64 := by
  induction regs generalizing t with
  | nil => simp [accepted]
  | cons r rs ih =>
    rw [accepted]
    intro x hx
    cases hb : (addRoute t r.pattern r.method r.handler).2 with
    | false => simp [hb] at hx; exact ih _ x hx
    | true =>
      simp [hb] at hx
      rcases hx with rfl | hx
      · rcases addRoute_find t x with ⟨h1, _⟩ | ⟨_, h2, pat, h3, _⟩
        · rw [hb] at h1; simp at h1
        · exact ⟨⟨pat, h3⟩, h2⟩
      · exact ih _ x hx

/-! ### parameters -/

theorem params_set_get (ps : Params) (k v k' : Bytes) :
    (ps.set k v).get k' = if k' = k then some v else ps.get k' := by
  unfold Params.set Params.get
  induction ps with
  | nil => rw [List.filter_nil, List.nil_append, lookup_cons]
  | cons p ps ih =>
    obtain ⟨a, b⟩ := p
    rw [List.filter_cons, lookup_cons]
    by_cases ha : a = k
    · subst ha
      simp only [ne_eq, not_true_eq_false, decide_false, Bool.false_eq_true, if_false]
      rw [ih]
      by_cases h : k' = a <;> simp [h]
    · simp only [ne_eq, ha, not_false_eq_true, decide_true, if_true]
      rw [List.cons_append, lookup_cons, ih]
      by_cases h : k' = a
      · subst h; simp [ha]
      · simp [h]

theorem applyBs_get (bs : List (Bytes × Bytes)) (ps : Params) (hn : (bs.map Prod.fst).Nodup) (k v : Bytes) :
    (applyBs ps bs).get k = some v ↔ (k, v) ∈ bs ∨ (k ∉ bs.map Prod.fst ∧ ps.get k = some v) := by
  induction bs generalizing ps with
  | nil => simp [applyBs]
  | cons b bs ih =>
    obtain ⟨a, c⟩ := b
    simp only [List.map_cons, List.nodup_cons] at hn
    have := ih (ps.set a c) hn.2
    rw [show applyBs ps ((a, c) :: bs) = applyBs (ps.set a c) bs from rfl, this, params_set_get]
    simp only [List.mem_cons, List.map_cons, Prod.mk.injEq]
    constructor
    · rintro (h | ⟨h1, h2⟩)
      · exact .inl (.inr h)
      · by_cases h : k = a
        · subst h; simp at h2; exact .inl (.inl ⟨rfl, h2.symm⟩)
        · simp [h] at h2; exact .inr ⟨by simp [h]; simpa using h1, h2⟩
    · rintro ((⟨rfl, rfl⟩ | h) | ⟨h1, h2⟩)
      · right; exact ⟨hn.1, by simp⟩
      · exact .inl h
      · simp at h1
        right
        refine ⟨by simpa using h1.2, by simp [h1.1, h2]⟩

theorem pointMatch_names {p ss bs} (h : PointMatch p ss bs) : bs.map Prod.fst = p.filterMap Seg.name := by
  induction h with
  | nil => rfl
  | lit _ ih => rw [List.filterMap_cons]; exact ih
  | par _ ih => rw [List.filterMap_cons]; simp [Seg.name, ih]

theorem patMatch_names {path p bs} (h : PatMatch path p bs) : bs.map Prod.fst = p.filterMap Seg.name := by
  cases h with
  | exact _ h => exact pointMatch_names h
  | wildEmpty _ h => simp [pointMatch_names h, Seg.name]
  | wildRest _ _ h _ => simp [pointMatch_names h, Seg.name]

/-! ### allowed methods -/

theorem mem_uniq (l : List Nat) (x : Nat) : x ∈ uniq l ↔ x ∈ l := by
  fun_induction uniq l with
  | case1 => simp
  | case2 => simp
  | case3 l b ih => rw [ih]; simp
  | case4 a b l h ih => rw [List.mem_cons, ih, List.mem_cons (b := a)]

theorem uniq_sorted (l : List Nat) (h : l.Pairwise (· ≤ ·)) : (uniq l).Pairwise (· < ·) := by
  fun_induction uniq l with
  | case1 => simp
  | case2 => simp
  | case3 l b ih => exact ih (List.pairwise_cons.1 h).2
  | case4 a b l hne ih =>
    rw [List.pairwise_cons] at h ⊢
    refine ⟨?_, ih h.2⟩
    intro x hx
    rw [mem_uniq] at hx
    have h1 := h.1 b (by simp)
    have h2 := List.pairwise_cons.1 h.2
    rcases List.mem_cons.1 hx with rfl | hx
    · omega
    · have := h2.1 x hx; omega

theorem mem_insertNat (a x : Nat) (l : List Nat) : x ∈ insertNat a l ↔ x = a ∨ x ∈ l := by
  induction l with
  | nil => simp [insertNat]
  | cons b l ih =>
    rw [insertNat]; split
    · simp
    · simp only [List.mem_cons, ih]
      constructor
      · rintro (h | h | h) <;> simp [h]
      · rintro (h | h | h) <;> simp [h]

theorem mem_sortNat (x : Nat) (l : List Nat) : x ∈ sortNat l ↔ x ∈ l := by
  induction l with
  | nil => simp [sortNat]
  | cons b l ih => rw [sortNat, mem_insertNat, ih, List.mem_cons]

theorem insertNat_sorted (a : Nat) (l : List Nat) (h : l.Pairwise (· ≤ ·)) :
    (insertNat a l).Pairwise (· ≤ ·) := by
  induction l with
  | nil => simp [insertNat]
  | cons b l ih =>
    rw [insertNat]
    rw [List.pairwise_cons] at h
    split
    · rename_i hab
      rw [List.pairwise_cons]
      refine ⟨?_, List.pairwise_cons.2 h⟩
      intro x hx
      rcases List.mem_cons.1 hx with rfl | hx
      · exact hab
      · exact Nat.le_trans hab (h.1 x hx)
    · rename_i hab
      rw [List.pairwise_cons]
      refine ⟨?_, ih h.2⟩
      intro x hx
      rcases (mem_insertNat _ _ _).1 hx with rfl | hx
      · omega
      · exact h.1 x hx

theorem sortNat_sorted (l : List Nat) : (sortNat l).Pairwise (· ≤ ·) := by
  induction l with
  | nil => simp [sortNat]
  | cons b l ih => exact insertNat_sorted _ _ ih

theorem sortUniq_sorted (l : List Nat) : (sortUniq l).Pairwise (· < ·) := uniq_sorted _ (sortNat_sorted l)

theorem mem_sortUniq (l : List Nat) (x : Nat) : x ∈ sortUniq l ↔ x ∈ l := by
  unfold sortUniq; rw [mem_uniq, mem_sortNat]

/-- A method slot is listed in a result. -/
def Has (r : Option (Params × List Nat)) (s : Nat) : Prop := ∃ ps ms, r = some (ps, ms) ∧ s ∈ ms

/-- Listed methods are sorted, distinct and at least one. -/
def ResOk (r : Option (Params × List Nat)) : Prop :=
  ∀ ps ms, r = some (ps, ms) → ms ≠ [] ∧ ms.Pairwise (· < ·)

theorem has_some (ps : Params) (ms : List Nat) (s : Nat) : Has (some (ps, ms)) s ↔ s ∈ ms := by
  constructor
  · rintro ⟨_, _, h, hs⟩; simp at h; rw [h.2]; exact hs
  · intro h; exact ⟨_, _, rfl, h⟩

theorem has_none (s : Nat) : ¬ Has none s := by rintro ⟨_, _, h, _⟩; simp at h

theorem merge_has (a b : Option (Params × List Nat)) (s : Nat) :
    Has (mergeResult a b) s ↔ Has a s ∨ Has b s := by
  unfold mergeResult
  cases b with
  | none => simp [has_none]
  | some b =>
    obtain ⟨bp, bm⟩ := b
    by_cases hb : bm = []
    · subst hb; simp [has_some]
    · cases a with
      | none => simp [hb, has_some, has_none, mem_sortUniq]
      | some a => obtain ⟨ap, am⟩ := a; simp [hb, has_some, mem_sortUniq]

theorem sortUniq_ne_nil {l : List Nat} (h : l ≠ []) : sortUniq l ≠ [] := by
  obtain ⟨x, xs, rfl⟩ := List.exists_cons_of_ne_nil h
  have := (mem_sortUniq (x :: xs) x).2 (by simp)
  intro e; rw [e] at this; simp at this

theorem merge_ok (a b : Option (Params × List Nat)) (ha : ResOk a) : ResOk (mergeResult a b) := by
  unfold mergeResult
  cases b with
  | none => exact ha
  | some b =>
    obtain ⟨bp, bm⟩ := b
    by_cases hb : bm = []
    · subst hb; simpa using ha
    · cases a with
      | none =>
        simp only [hb, if_false]
        rintro ps ms h; simp at h; obtain ⟨rfl, rfl⟩ := h
        exact ⟨sortUniq_ne_nil hb, sortUniq_sorted _⟩
      | some a =>
        obtain ⟨ap, am⟩ := a
        simp only [hb, if_false]
        rintro ps ms h; simp at h; obtain ⟨rfl, rfl⟩ := h
        exact ⟨sortUniq_ne_nil (by simp [hb]), sortUniq_sorted _⟩

theorem resOk_none : ResOk none := by rintro ps ms h; simp at h

theorem has_collect (n : Node H) (ps : Params) (s : Nat) :
    Has (some (ps, collect n)) s ↔ s < slotCount ∧ n.handlers s ≠ none := by
  rw [has_some]; unfold collect
  simp [Option.isSome_iff_ne_none]

theorem hasAny_iff (n : Node H) : hasAny n = true ↔ ∃ s, s < slotCount ∧ n.handlers s ≠ none := by
  unfold hasAny
  simp [Option.isSome_iff_ne_none]

theorem allowedRec_ok (path : Bytes) (n : Node H) (segs : List View) (ps : Params) :
    ResOk (allowedRec path n segs ps) ∧
    ∀ s, Has (allowedRec path n segs ps) s ↔
      s < slotCount ∧ ∃ q bs, SegMatch path q segs bs ∧ find s n q ≠ none := by
  induction segs generalizing n ps with
  | nil =>
    rw [allowedRec]
    generalize hr0 : (if hasAny n = true then mergeResult none (some (ps, collect n)) else none) = r0
    have ok0 : ResOk r0 := by
      subst hr0; split
      · exact merge_ok _ _ resOk_none
      · exact resOk_none
    have has0 : ∀ s, Has r0 s ↔ s < slotCount ∧ n.handlers s ≠ none := by
      intro s; subst hr0; split
      · rw [merge_has, has_collect]; simp [has_none]
      · rename_i h
        rw [hasAny_iff] at h
        simp only [Has, reduceCtorEq, false_and, exists_false, false_iff]
        exact fun hs => h ⟨s, hs⟩
    have hq : ∀ s, (∃ q bs, SegMatch path q [] bs ∧ find s n q ≠ none) ↔
        n.handlers s ≠ none ∨ ∃ nm c, n.wild = some (nm, c) ∧ c.handlers s ≠ none := by
      intro s
      constructor
      · rintro ⟨q, bs, h1, h2⟩
        cases h1 with
        | nil => rw [find_nil] at h2; exact .inl h2
        | wildEmpty =>
          rw [find] at h2
          split at h2
          · rename_i nm c hw
            split at h2
            · exact .inr ⟨nm, c, hw, h2⟩
            · exact absurd rfl h2
          · exact absurd rfl h2
      · rintro (h | ⟨nm, c, hw, h⟩)
        · exact ⟨[], [], .nil, by rw [find_nil]; exact h⟩
        · exact ⟨[.wild nm], _, .wildEmpty, by rw [find, hw]; simpa using h⟩
    split
    · rename_i nm c hw
      split
      · rename_i hc
        refine ⟨merge_ok _ _ ok0, fun s => ?_⟩
        rw [merge_has, has0, has_collect, hq, hw]
        constructor
        · rintro (⟨h1, h2⟩ | ⟨h1, h2⟩)
          · exact ⟨h1, .inl h2⟩
          · exact ⟨h1, .inr ⟨nm, c, rfl, h2⟩⟩
        · rintro ⟨h1, h2 | ⟨nm', c', he, h2⟩⟩
          · exact .inl ⟨h1, h2⟩
          · simp at he; obtain ⟨rfl, rfl⟩ := he; exact .inr ⟨h1, h2⟩
      · rename_i hc
        refine ⟨ok0, fun s => ?_⟩
        rw [has0, hq, hw]
        constructor
        · rintro ⟨h1, h2⟩; exact ⟨h1, .inl h2⟩
        · rintro ⟨h1, h2 | ⟨nm', c', he, h2⟩⟩
          · exact ⟨h1, h2⟩
          · simp at he; obtain ⟨rfl, rfl⟩ := he
            exact absurd ((hasAny_iff _).2 ⟨s, h1, h2⟩) hc
    · rename_i hw
      refine ⟨ok0, fun s => ?_⟩
      rw [has0, hq, hw]
      simp
  | cons v vs ih =>
    rw [allowedRec]
    have hq : ∀ s, (∃ q bs, SegMatch path q (v :: vs) bs ∧ find s n q ≠ none) ↔
        (∃ c, n.statics.lookup (v.text path) = some c ∧ ∃ q bs, SegMatch path q vs bs ∧ find s c q ≠ none) ∨
        (∃ nm c, n.param = some (nm, c) ∧ ∃ q bs, SegMatch path q vs bs ∧ find s c q ≠ none) ∨
        ∃ nm c, n.wild = some (nm, c) ∧ c.handlers s ≠ none := by
      intro s
      constructor
      · rintro ⟨q, bs, h1, h2⟩
        cases h1 with
        | lit h1 =>
          rw [find] at h2
          split at h2
          · rename_i c hc; exact .inl ⟨c, hc, _, _, h1, h2⟩
          · exact absurd rfl h2
        | par h1 =>
          rw [find] at h2
          split at h2
          · rename_i nm c hc
            split at h2
            · exact .inr (.inl ⟨nm, c, hc, _, _, h1, h2⟩)
            · exact absurd rfl h2
          · exact absurd rfl h2
        | wildRest =>
          rw [find] at h2
          split at h2
          · rename_i nm c hc
            split at h2
            · exact .inr (.inr ⟨nm, c, hc, h2⟩)
            · exact absurd rfl h2
          · exact absurd rfl h2
      · rintro (⟨c, hc, q, bs, h1, h2⟩ | ⟨nm, c, hc, q, bs, h1, h2⟩ | ⟨nm, c, hc, h2⟩)
        · exact ⟨_, _, .lit h1, by rw [find, hc]; exact h2⟩
        · exact ⟨.par nm :: q, _, .par h1, by rw [find, hc]; simpa using h2⟩
        · exact ⟨[.wild nm], _, .wildRest, by rw [find, hc]; simpa using h2⟩
    -- static branch
    have s1 : ∀ r1, r1 = (match n.statics.lookup (v.text path) with
        | some c => mergeResult none (allowedRec path c vs ps) | none => none) →
        ResOk r1 ∧ ∀ s, Has r1 s ↔ s < slotCount ∧
          ∃ c, n.statics.lookup (v.text path) = some c ∧ ∃ q bs, SegMatch path q vs bs ∧ find s c q ≠ none := by
      rintro r1 rfl
      cases hl : n.statics.lookup (v.text path) with
      | none => exact ⟨resOk_none, fun s => by simp [has_none]⟩
      | some c =>
        refine ⟨merge_ok _ _ resOk_none, fun s => ?_⟩
        dsimp only
        rw [merge_has, (ih c ps).2]
        simp [has_none]
    -- parameter branch
    have s2 : ∀ r1 r2, ResOk r1 → r2 = (match n.param with
        | some (nm, c) => mergeResult r1 (allowedRec path c vs (ps.set nm (v.text path))) | none => r1) →
        ResOk r2 ∧ ∀ s, Has r2 s ↔ Has r1 s ∨ s < slotCount ∧
          ∃ nm c, n.param = some (nm, c) ∧ ∃ q bs, SegMatch path q vs bs ∧ find s c q ≠ none := by
      rintro r1 r2 hr rfl
      cases hl : n.param with
      | none => exact ⟨hr, fun s => by simp⟩
      | some p =>
        obtain ⟨nm, c⟩ := p
        refine ⟨merge_ok _ _ hr, fun s => ?_⟩
        dsimp only
        rw [merge_has, (ih c _).2]
        constructor
        · rintro (h | ⟨h1, h2⟩)
          · exact .inl h
          · exact .inr ⟨h1, nm, c, rfl, h2⟩
        · rintro (h | ⟨h1, nm', c', he, h2⟩)
          · exact .inl h
          · simp at he; obtain ⟨rfl, rfl⟩ := he; exact .inr ⟨h1, h2⟩
    obtain ⟨ok1, has1⟩ := s1 _ rfl
    obtain ⟨ok2, has2⟩ := s2 _ _ ok1 rfl
    split
    · rename_i nm c hw
      split
      · rename_i hc
        refine ⟨merge_ok _ _ ok2, fun s => ?_⟩
        rw [merge_has, has_collect, hq]
        refine Iff.trans (or_congr (has2 s) Iff.rfl) ?_
        rw [has1 s, hw]
        constructor
        · rintro ((⟨h1, h2⟩ | ⟨h1, h2⟩) | ⟨h1, h2⟩)
          · exact ⟨h1, .inl h2⟩
          · exact ⟨h1, .inr (.inl h2)⟩
          · exact ⟨h1, .inr (.inr ⟨_, _, rfl, h2⟩)⟩
        · rintro ⟨h1, h2 | h2 | ⟨nm', c', he, h2⟩⟩
          · exact .inl (.inl ⟨h1, h2⟩)
          · exact .inl (.inr ⟨h1, h2⟩)
          · simp at he; obtain ⟨rfl, rfl⟩ := he; exact .inr ⟨h1, h2⟩
      · rename_i hc
        refine ⟨ok2, fun s => ?_⟩
        rw [hq]
        refine Iff.trans (has2 s) ?_
        rw [has1 s, hw]
        constructor
        · rintro (⟨h1, h2⟩ | ⟨h1, h2⟩)
          · exact ⟨h1, .inl h2⟩
          · exact ⟨h1, .inr (.inl h2)⟩
        · rintro ⟨h1, h2 | h2 | ⟨nm', c', he, h2⟩⟩
          · exact .inl ⟨h1, h2⟩
          · exact .inr ⟨h1, h2⟩
          · simp at he; obtain ⟨rfl, rfl⟩ := he
            exact absurd ((hasAny_iff _).2 ⟨s, h1, h2⟩) hc
    · rename_i hw
      refine ⟨ok2, fun s => ?_⟩
      rw [hq]
      refine Iff.trans (has2 s) ?_
      rw [has1 s, hw]
      constructor
      · rintro (⟨h1, h2⟩ | ⟨h1, h2⟩)
        · exact ⟨h1, .inl h2⟩
        · exact ⟨h1, .inr (.inl h2)⟩
      · rintro ⟨h1, h2 | h2 | ⟨nm', c', he, h2⟩⟩
        · exact .inl ⟨h1, h2⟩
        · exact .inr ⟨h1, h2⟩
        · simp at he

end Verif.Router
