import Verif.Hpack.TableSpec

namespace Verif.Hpack
open Spec

/-! ## The abstract list -/

theorem fit_of_total_le (l : List Field) : ∀ b, total l ≤ b → fit b l = l := by
  induction l with
  | nil => intro b _; rfl
  | cons f l ih =>
    intro b h
    simp only [total] at h
    rw [fit, if_pos (by omega), ih _ (by omega)]

theorem fit_dropLast (l : List Field) : ∀ b, b < total l → fit b l.dropLast = fit b l := by
  induction l with
  | nil => intro b h; rfl
  | cons f l ih =>
    intro b h
    simp only [total] at h
    cases l with
    | nil =>
      simp only [total] at h
      simp only [List.dropLast_singleton, fit]
      rw [if_neg (by omega)]
    | cons g l =>
      rw [List.dropLast_cons_of_ne_nil (by simp)]
      simp only [fit]
      split
      · have := ih (b - fieldSize f) (by omega)
        simp only [fit] at this
        rw [this]
      · rfl

theorem total_fit (l : List Field) : ∀ b, total (fit b l) ≤ b := by
  induction l with
  | nil => intro b; simp [fit, total]
  | cons f l ih =>
    intro b
    rw [fit]
    split
    · have := ih (b - fieldSize f)
      simp only [total]; omega
    · simp [total]

theorem fit_prefix (l : List Field) : ∀ b, fit b l <+: l := by
  induction l with
  | nil => intro b; exact List.prefix_rfl
  | cons f l ih =>
    intro b
    rw [fit]
    split
    · exact List.cons_prefix_cons.mpr ⟨rfl, ih _⟩
    · exact List.nil_prefix

/-- `fit` is the longest prefix within the budget -/
theorem fit_longest (l : List Field) : ∀ b p, p <+: l → total p ≤ b → p <+: fit b l := by
  induction l with
  | nil => intro b p h _; simpa [fit] using h
  | cons f l ih =>
    intro b p h ht
    cases p with
    | nil => exact List.nil_prefix
    | cons g p =>
      obtain ⟨rfl, hp⟩ := List.cons_prefix_cons.mp h
      simp only [total] at ht
      rw [fit, if_pos (by omega)]
      exact List.cons_prefix_cons.mpr ⟨rfl, ih _ _ hp (by omega)⟩

theorem total_ge (l : List Field) : 32 * l.length ≤ total l := by
  induction l with
  | nil => simp
  | cons f l ih => simp only [total, fieldSize, List.length_cons]; omega

theorem total_append (a b : List Field) : total (a ++ b) = total a + total b := by
  induction a with
  | nil => simp [total]
  | cons f a ih => simp only [List.cons_append, total, ih]; omega

/-! ## The ring -/

/-- live entries, newest first -/
def Ring.live (r : Ring) : List Entry := (List.range r.count).map r.get

/-- the table as users see it -/
def Ring.fields (r : Ring) : List Field := r.live.map fun e => (e.name, e.value)

/-- shape of the storage: not yet allocated, or a power-of-two ring -/
def Ring.Shape (r : Ring) : Prop :=
  (r.storage = [] ∧ r.head = 0 ∧ r.count = 0 ∧ r.mask = 0) ∨
  ∃ k, k ≤ 28 ∧ r.storage.length = 2 ^ k ∧ r.mask = 2 ^ k - 1 ∧ r.head < 2 ^ k ∧ r.count ≤ 2 ^ k

structure Ring.Inv0 (r : Ring) : Prop where
  shape : r.Shape
  sizes : ∀ e ∈ r.live, e.size = e.name.length + e.value.length + 32
  bytesEq : r.bytes = (r.live.map (·.size)).sum
  max32 : r.max < 2 ^ 32

structure Ring.Inv (r : Ring) : Prop extends Ring.Inv0 r where
  le : r.bytes ≤ r.max

theorem fields_length (r : Ring) : r.fields.length = r.count := by
  simp [Ring.fields, Ring.live]

theorem live_length (r : Ring) : r.live.length = r.count := by simp [Ring.live]

theorem total_fields {r : Ring} (h : r.Inv0) : total r.fields = r.bytes := by
  rw [h.bytesEq, Ring.fields]
  have := h.sizes
  revert this
  generalize r.live = l
  intro hs
  induction l with
  | nil => rfl
  | cons e l ih =>
    simp only [List.map_cons, total, List.sum_cons, fieldSize]
    rw [ih (fun e he => hs e (List.mem_cons_of_mem _ he)), hs e List.mem_cons_self]

theorem mod_slot {h i m : Nat} (hh : h < m) (hi : i ≤ m) :
    (h + i) % m = if h + i < m then h + i else h + i - m := by
  split
  · exact Nat.mod_eq_of_lt (by assumption)
  · rw [Nat.mod_eq_sub_mod (by omega), Nat.mod_eq_of_lt (by omega)]

theorem pow_bound {k : Nat} (hk : k ≤ 28) : 2 ^ k ≤ 268435456 ∧ 1 ≤ 2 ^ k :=
  ⟨by have := Nat.pow_le_pow_right (n := 2) (by omega) hk; simpa using this, Nat.two_pow_pos k⟩

theorem slotOf_eq {r : Ring} {k : Nat} (hk : k ≤ 28) (hm : r.mask = 2 ^ k - 1) (hh : r.head < 2 ^ k)
    {i : Nat} (hi : i ≤ 2 ^ k) :
    r.slotOf i = if r.head + i < 2 ^ k then r.head + i else r.head + i - 2 ^ k := by
  obtain ⟨hb, hb1⟩ := pow_bound hk
  unfold Ring.slotOf
  rw [hm, Nat.and_two_pow_sub_one_eq_mod, Nat.mod_eq_of_lt (a := r.head + i) (by omega)]
  exact mod_slot hh hi

theorem evictOldest_spec {r : Ring} (h : r.Inv0) (hc : 0 < r.count) :
    r.evictOldest.Inv0 ∧ r.evictOldest.live = r.live.dropLast ∧ r.evictOldest.max = r.max ∧
    r.evictOldest.count = r.count - 1 := by
  obtain ⟨hs, hsz, hby, hmx⟩ := h
  rcases hs with ⟨-, -, h0, -⟩ | ⟨k, hk, hl, hm, hh, hct⟩
  · omega
  · obtain ⟨hb, hb1⟩ := pow_bound hk
    have hslot := fun {i} hi => slotOf_eq (r := r) hk hm hh (i := i) hi
    have hlive : r.evictOldest.live = r.live.dropLast := by
      apply List.ext_getElem
      · simp [Ring.live, Ring.evictOldest]
      · intro i h1 h2
        simp only [Ring.live, Ring.evictOldest, List.length_map, List.length_range] at h1
        simp only [Ring.live, List.getElem_map, List.getElem_range, List.getElem_dropLast]
        simp only [Ring.get, Ring.evictOldest]
        show (r.storage.set (r.slotOf (r.count - 1)) {}).getD (r.slotOf i) {} = r.storage.getD (r.slotOf i) {}
        have hne : r.slotOf (r.count - 1) ≠ r.slotOf i := by
          rw [hslot (by omega), hslot (by omega)]
          split <;> split <;> omega
        simp only [List.getD_eq_getElem?_getD]
        rw [List.getElem?_set_ne hne]
    refine ⟨⟨?_, ?_, ?_, hmx⟩, hlive, rfl, rfl⟩
    · exact Or.inr ⟨k, hk, by simp [Ring.evictOldest, hl], hm, hh, by simp [Ring.evictOldest]; omega⟩
    · intro e he
      rw [hlive] at he
      exact hsz e (List.dropLast_subset _ he)
    · rw [hlive]
      have hne : r.live ≠ [] := by
        intro h0; have := live_length r; rw [h0] at this; simp at this; omega
      have hlast : r.live.getLast hne = r.get (r.count - 1) := by
        rw [List.getLast_eq_getElem]
        simp [Ring.live]
      have hsum : (r.live.map (·.size)).sum = (r.live.dropLast.map (·.size)).sum + (r.get (r.count - 1)).size := by
        conv => lhs; rw [← List.dropLast_concat_getLast hne, hlast]
        simp
      show r.bytes - (r.get (r.count - 1)).size = _
      rw [hby, hsum]; omega

theorem fields_evict {r : Ring} (h : r.Inv0) (hc : 0 < r.count) :
    r.evictOldest.fields = r.fields.dropLast := by
  unfold Ring.fields
  rw [(evictOldest_spec h hc).2.1, List.map_dropLast]

theorem evictLoop_spec (need : Nat) (f : Nat) : ∀ r : Ring, r.Inv0 → f = r.count → need ≤ r.max →
    (r.evictLoop need f).1.Inv0 ∧ (r.evictLoop need f).1.max = r.max ∧
    (r.evictLoop need f).1.fields = fit (r.max - need) r.fields ∧
    (r.evictLoop need f).2 + (r.evictLoop need f).1.count = r.count ∧
    (r.evictLoop need f).1.bytes + need ≤ r.max := by
  induction f with
  | zero =>
    intro r h hf hn
    have h0 : r.fields = [] := List.length_eq_zero_iff.mp (by rw [fields_length]; omega)
    have hb := total_fields h
    rw [h0] at hb; simp only [total] at hb
    refine ⟨h, rfl, ?_, by simp [Ring.evictLoop], by simp only [Ring.evictLoop]; omega⟩
    simp [Ring.evictLoop, h0, fit]
  | succ f ih =>
    intro r h hf hn
    simp only [Ring.evictLoop]
    split
    · rename_i hc
      obtain ⟨e1, e2, e3, e4⟩ := evictOldest_spec h hc.2
      obtain ⟨i1, i2, i3, i4, i5⟩ := ih r.evictOldest e1 (by omega) (by rw [e3]; exact hn)
      refine ⟨i1, by rw [i2, e3], ?_, by dsimp only; omega, by rw [← e3]; exact i5⟩
      rw [i3, e3, fields_evict h hc.2]
      exact fit_dropLast _ _ (by rw [total_fields h]; omega)
    · rename_i hc
      have : r.bytes + need ≤ r.max := by omega
      exact ⟨h, rfl, (fit_of_total_le _ _ (by rw [total_fields h]; omega)).symm, by simp, this⟩

theorem getD_append_left {α} (a b : List α) (i : Nat) (d : α) (h : i < a.length) :
    (a ++ b).getD i d = a.getD i d := by
  simp [List.getD, List.getElem?_append_left h]

theorem ensureCapacity_spec {r : Ring} (h : r.Inv0) (hb : r.count < 2 ^ 27) :
    r.ensureCapacity.Inv0 ∧ r.ensureCapacity.live = r.live ∧ r.ensureCapacity.max = r.max ∧
    r.ensureCapacity.bytes = r.bytes ∧ r.ensureCapacity.count = r.count ∧
    ∃ k, k ≤ 28 ∧ r.ensureCapacity.storage.length = 2 ^ k ∧ r.ensureCapacity.mask = 2 ^ k - 1 ∧
      r.ensureCapacity.head < 2 ^ k ∧ r.ensureCapacity.count + 1 ≤ 2 ^ k := by
  have key : ∀ r' : Ring, r'.live = r.live → r'.max = r.max → r'.bytes = r.bytes → r'.count = r.count →
      (∃ k, k ≤ 28 ∧ r'.storage.length = 2 ^ k ∧ r'.mask = 2 ^ k - 1 ∧ r'.head < 2 ^ k ∧
        r'.count + 1 ≤ 2 ^ k) →
      r'.Inv0 ∧ r'.live = r.live ∧ r'.max = r.max ∧ r'.bytes = r.bytes ∧ r'.count = r.count ∧
      ∃ k, k ≤ 28 ∧ r'.storage.length = 2 ^ k ∧ r'.mask = 2 ^ k - 1 ∧ r'.head < 2 ^ k ∧
        r'.count + 1 ≤ 2 ^ k := by
    intro r' h1 h2 h3 h4 h5
    obtain ⟨k, hk, a, b, c, d⟩ := h5
    exact ⟨⟨Or.inr ⟨k, hk, a, b, c, by omega⟩, by rw [h1]; exact h.sizes, by rw [h1, h3]; exact h.bytesEq,
      by rw [h2]; exact h.max32⟩, h1, h2, h3, h4, ⟨k, hk, a, b, c, d⟩⟩
  unfold Ring.ensureCapacity
  rcases h.shape with ⟨hst, hhd, hct, hm⟩ | ⟨k, hk, hl, hm, hh, hct⟩
  · rw [if_pos (by simp [hst])]
    apply key
    · simp [Ring.live, hct]
    · rfl
    · rfl
    · rfl
    · exact ⟨7, by omega, by simp, by simp, by simp [hhd], by simp [hct]⟩
  · obtain ⟨hb2, hb1⟩ := pow_bound hk
    rw [if_neg (by intro h0; simp at h0; simp [h0] at hl; omega)]
    split
    · rename_i hle
      exact key r rfl rfl rfl rfl ⟨k, hk, hl, hm, hh, by omega⟩
    · rename_i hle
      have hcnt : r.count = 2 ^ k := by omega
      have hk27 : k < 27 := by
        have : 2 ^ k < 2 ^ 27 := by omega
        exact (Nat.pow_lt_pow_iff_right (by omega)).mp this
      have hcap : r.storage.length * 2 = 2 ^ (k + 1) := by rw [hl, Nat.pow_succ]
      apply key
      · apply List.ext_getElem
        · simp [Ring.live]
        · intro i h1 h2
          simp only [Ring.live, List.length_map, List.length_range] at h1
          simp only [Ring.live, List.getElem_map, List.getElem_range]
          conv => lhs; unfold Ring.get
          rw [slotOf_eq (k := k + 1) (by omega) (by simp [hcap]) (Nat.two_pow_pos (k + 1)) (by rw [← hcap]; omega)]
          have hlt : i < 2 ^ (k + 1) := by rw [← hcap]; omega
          simp only [Nat.zero_add, if_pos hlt]
          rw [getD_append_left _ _ _ _ (by simpa using h1)]
          simp [List.getD, List.getElem?_map, List.getElem?_range h1, Ring.get]
      · rfl
      · rfl
      · rfl
      · refine ⟨k + 1, by omega, ?_, by simp [hcap], Nat.two_pow_pos (k + 1), ?_⟩
        · simp only [List.length_append, List.length_map, List.length_range, List.length_replicate]
          omega
        · simp only; rw [← hcap]; omega

theorem prevSlot {h k : Nat} (hk : k ≤ 28) (hh : h < 2 ^ k) :
    ((h + (2 ^ 64 - 1)) % 2 ^ 64) &&& (2 ^ k - 1) = if h = 0 then 2 ^ k - 1 else h - 1 := by
  obtain ⟨hb2, hb1⟩ := pow_bound hk
  rw [Nat.and_two_pow_sub_one_eq_mod]
  generalize hW : (2 : Nat) ^ 64 = W at *
  have hdvd : W = 2 ^ k * 2 ^ (64 - k) := by rw [← hW, ← Nat.pow_add]; congr 1; omega
  have hp := Nat.two_pow_pos (64 - k)
  have hWk : 2 ^ k ≤ W := by rw [hdvd]; exact Nat.le_mul_of_pos_right _ hp
  split
  · rename_i h0
    rw [h0, Nat.zero_add, Nat.mod_eq_of_lt (a := W - 1) (by omega)]
    have : W - 1 = (2 ^ k - 1) + 2 ^ k * (2 ^ (64 - k) - 1) := by
      rw [Nat.mul_sub, ← hdvd, Nat.mul_one]; omega
    rw [this, Nat.add_mul_mod_self_left, Nat.mod_eq_of_lt (by omega)]
  · rename_i h0
    have : h + (W - 1) = (h - 1) + W := by omega
    rw [this, Nat.add_mod_right, Nat.mod_eq_of_lt (a := h - 1) (by omega), Nat.mod_eq_of_lt (by omega)]

/-- pushing one entry in front of a ring with a free slot -/
theorem push_spec {r : Ring} (h : r.Inv0) {k : Nat} (hk : k ≤ 28) (hl : r.storage.length = 2 ^ k)
    (hm : r.mask = 2 ^ k - 1) (hh : r.head < 2 ^ k) (hc : r.count + 1 ≤ 2 ^ k) (n v : Bytes) (hd : Nat)
    (hhd : hd = if r.head = 0 then 2 ^ k - 1 else r.head - 1) (r' : Ring)
    (hr' : r' = { r with head := hd, storage := r.storage.set hd (mkEntry n v), count := r.count + 1,
                         bytes := r.bytes + (mkEntry n v).size }) :
    r'.Inv0 ∧ r'.live = mkEntry n v :: r.live := by
  obtain ⟨hb2, hb1⟩ := pow_bound hk
  have rs : r'.storage = r.storage.set hd (mkEntry n v) := by rw [hr']
  have rc : r'.count = r.count + 1 := by rw [hr']
  have rh : r'.head = hd := by rw [hr']
  have rm : r'.mask = 2 ^ k - 1 := by rw [hr']; exact hm
  have rb : r'.bytes = r.bytes + (mkEntry n v).size := by rw [hr']
  have rx : r'.max = r.max := by rw [hr']
  clear hr'
  have hhdlt : hd < 2 ^ k := by rw [hhd]; split <;> omega
  have hlive : r'.live = mkEntry n v :: r.live := by
    apply List.ext_getElem
    · simp [Ring.live, rc]
    · intro i h1 h2
      have hi : i < r.count + 1 := by simpa [Ring.live, rc] using h1
      have hsl := slotOf_eq (r := r') hk rm (by omega) (i := i) (by omega)
      cases i with
      | zero =>
        have : r'.slotOf 0 = hd := by rw [hsl]; simp [rh, hhdlt]
        simp only [Ring.live, List.getElem_map, List.getElem_range, List.getElem_cons_zero]
        rw [Ring.get, this, rs]
        simp [List.getD, hl, hhdlt]
      | succ i =>
        simp only [Ring.live, List.getElem_map, List.getElem_range, List.getElem_cons_succ]
        have hsr := slotOf_eq (r := r) hk hm hh (i := i) (by omega)
        have he : r'.slotOf (i + 1) = r.slotOf i := by
          rw [hsl, hsr, rh, hhd]
          split <;> split <;> split <;> omega
        have hne : hd ≠ r.slotOf i := by
          rw [hsr, hhd]; split <;> split <;> omega
        rw [Ring.get, he, Ring.get, rs]
        simp only [List.getD_eq_getElem?_getD]
        rw [List.getElem?_set_ne hne]
  refine ⟨⟨Or.inr ⟨k, hk, by simp [rs, hl], rm, by omega, by omega⟩, ?_, ?_, by rw [rx]; exact h.max32⟩, hlive⟩
  · intro e he
    rw [hlive] at he
    rcases List.mem_cons.mp he with rfl | he
    · rfl
    · exact h.sizes e he
  · rw [hlive, rb, h.bytesEq]; simp; omega

theorem clear_spec {r : Ring} (h : r.Inv) : r.clear.Inv ∧ r.clear.fields = [] ∧ r.clear.max = r.max := by
  have hlive : r.clear.live = [] := by simp [Ring.live, Ring.clear]
  have hlen : ∀ (l : List Nat) (st : List Entry),
      (l.foldl (fun st i => st.set (r.slotOf i) {}) st).length = st.length := by
    intro l
    induction l with
    | nil => intro st; rfl
    | cons i l ih => intro st; rw [List.foldl_cons, ih]; simp
  refine ⟨⟨⟨?_, ?_, ?_, h.max32⟩, Nat.zero_le _⟩, by simp [Ring.fields, hlive], rfl⟩
  · rcases h.shape with ⟨hst, hhd, hct, hm⟩ | ⟨k, hk, hl, hm, hh, hct⟩
    · left; exact ⟨by simp [Ring.clear, hct, hst], rfl, rfl, hm⟩
    · right; exact ⟨k, hk, by simp only [Ring.clear]; rw [hlen, hl], hm, Nat.two_pow_pos k, Nat.zero_le _⟩
  · rw [hlive]; intro e he; cases he
  · rw [hlive]; rfl

theorem add_spec {r : Ring} (h : r.Inv) (n v : Bytes) :
    (r.add n v).1.Inv ∧ (r.add n v).1.max = r.max ∧
    (r.add n v).1.fields = fit r.max ((n, v) :: r.fields) ∧
    (r.add n v).2.1 = decide (fieldSize (n, v) ≤ r.max) ∧
    (r.add n v).2.2 = r.fields.length + (if fieldSize (n, v) ≤ r.max then 1 else 0)
      - (fit r.max ((n, v) :: r.fields)).length := by
  have hsz : (mkEntry n v).size = fieldSize (n, v) := rfl
  unfold Ring.add
  dsimp only
  rw [hsz]
  by_cases hbig : fieldSize (n, v) > r.max
  · rw [if_pos hbig]
    obtain ⟨c1, c2, c3⟩ := clear_spec h
    refine ⟨c1, c3, ?_, ?_, ?_⟩
    · rw [c2, fit, if_neg (by omega)]
    · simp; omega
    · rw [fields_length, fit, if_neg (by omega), if_neg (by omega)]; simp
  · rw [if_neg hbig]
    dsimp only
    obtain ⟨e1, e2, e3, e4, e5⟩ := evictLoop_spec (fieldSize (n, v)) r.count r h.toInv0 rfl (by omega)
    generalize hp : r.evictLoop (fieldSize (n, v)) r.count = p at *
    have htot := total_fields e1
    have h32 := total_ge p.1.fields
    have hmx := h.max32
    rw [fields_length] at h32
    obtain ⟨g1, g2, g3, g4, g5, k, hk, hl, hm, hh, hc⟩ := ensureCapacity_spec e1 (by omega)
    have hpv : ((p.1.ensureCapacity.head + (2 ^ 64 - 1)) % 2 ^ 64) &&& p.1.ensureCapacity.mask =
        if p.1.ensureCapacity.head = 0 then 2 ^ k - 1 else p.1.ensureCapacity.head - 1 := by
      rw [hm]; exact prevSlot hk hh
    obtain ⟨q1, q2⟩ := push_spec g1 hk hl hm hh hc n v _ hpv _ rfl
    have hf : fit r.max ((n, v) :: r.fields) = (n, v) :: p.1.fields := by
      rw [fit, if_pos (by omega), e3]
    rw [hsz] at q1 q2
    refine ⟨⟨q1, ?_⟩, by rw [g3, e2], ?_, ?_, ?_⟩
    · simp only; rw [g4, g3, e2]
      exact e5
    · rw [hf, Ring.fields, q2, List.map_cons, g2]; rfl
    · simp; omega
    · rw [hf, if_pos (by omega), fields_length, List.length_cons, fields_length]; omega

theorem setMax_spec {r : Ring} (h : r.Inv) (m : Nat) (hm32 : m < 2 ^ 32) :
    (r.setMax m).1.Inv ∧ (r.setMax m).1.max = m ∧ (r.setMax m).1.fields = fit m r.fields ∧
    (r.setMax m).2 = r.fields.length - (fit m r.fields).length := by
  have h0 : ({ r with max := m } : Ring).Inv0 := ⟨h.shape, h.sizes, h.bytesEq, hm32⟩
  obtain ⟨e1, e2, e3, e4, e5⟩ := evictLoop_spec 0 r.count ({ r with max := m } : Ring) h0 rfl (by simp)
  unfold Ring.setMax
  dsimp only
  generalize hp : ({ r with max := m } : Ring).evictLoop 0 r.count = p at *
  have hff : ({ r with max := m } : Ring).fields = r.fields := rfl
  rw [hff] at e3
  simp only [Nat.sub_zero] at e3 e2 e4 e5
  have hcount : p.1.count = 0 → p.1.bytes = 0 := by
    intro hz
    have := total_fields e1
    have h0 : p.1.fields = [] := List.length_eq_zero_iff.mp (by rw [fields_length]; exact hz)
    rw [h0] at this; exact this.symm
  have hsame : (if p.1.count = 0 then { p.1 with bytes := 0 } else p.1) = p.1 := by
    split
    · rename_i hz; rw [← hcount hz]
    · rfl
  rw [hsame]
  refine ⟨⟨e1, by rw [e2]; omega⟩, e2, e3, ?_⟩
  rw [← e3, fields_length, fields_length]; omega

theorem init_inv : ({} : Ring).Inv := by
  refine ⟨⟨Or.inl ⟨rfl, rfl, rfl, rfl⟩, ?_, rfl, by decide⟩, by decide⟩
  intro e he; cases he

/-- the ring refines the abstract table -/
def Ring.Refines (r : Ring) (t : Table) : Prop := r.Inv ∧ r.max = t.max ∧ r.fields = t.entries

theorem step_refines {r : Ring} {t : Table} (h : r.Refines t) (op : TOp)
    (hop : ∀ m, op = .setMax m → m < 2 ^ 32) :
    (r.step op).1.Refines (t.step op).1 ∧ (r.step op).2 = (t.step op).2 := by
  obtain ⟨h1, h2, h3⟩ := h
  cases op with
  | add n v =>
    obtain ⟨a1, a2, a3, a4, a5⟩ := add_spec h1 n v
    refine ⟨⟨a1, a2.trans h2, ?_⟩, ?_⟩
    · simp only [Table.step, Ring.step]; rw [a3, h2, h3]
    · simp only [Table.step, Ring.step]; rw [a4, a5, h2, h3]; simp
  | setMax m =>
    obtain ⟨a1, a2, a3, a4⟩ := setMax_spec h1 m (hop m rfl)
    refine ⟨⟨a1, a2, ?_⟩, ?_⟩
    · simp only [Table.step, Ring.step]; rw [a3, h3]
    · simp only [Table.step, Ring.step]; rw [a4, h3]
  | clear =>
    obtain ⟨a1, a2, a3⟩ := clear_spec h1
    exact ⟨⟨a1, a3.trans h2, a2⟩, rfl⟩

theorem run_refines (ops : List TOp) : ∀ {r : Ring} {t : Table}, r.Refines t → Budget32 ops →
    (r.run ops).1.Refines (t.run ops).1 ∧ (r.run ops).2 = (t.run ops).2 := by
  induction ops with
  | nil => intro r t h _; exact ⟨h, rfl⟩
  | cons op ops ih =>
    intro r t h hb
    obtain ⟨s1, s2⟩ := step_refines h op (fun m hm => hb m (by rw [hm]; exact List.mem_cons_self))
    obtain ⟨i1, i2⟩ := ih s1 (fun m hm => hb m (List.mem_cons_of_mem _ hm))
    exact ⟨i1, by simp only [Ring.run, Table.run]; rw [s2, i2]⟩

theorem init_refines : ({} : Ring).Refines {} := ⟨init_inv, rfl, rfl⟩

theorem get_field {r : Ring} {i : Nat} (hi : i < r.count) :
    r.fields[i]? = some ((r.get i).name, (r.get i).value) := by
  simp [Ring.fields, Ring.live, List.getElem?_map, List.getElem?_range hi]

end Verif.Hpack
