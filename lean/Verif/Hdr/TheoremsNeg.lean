import Verif.Hdr.TheoremsAttr
import Verif.Hdr.SpecNeg

/-! # C109: the encoding a response gets; C110: `content_encoding` -/

namespace Verif.Hdr
open Verif.Utility Verif.Utility.Spec

theorem same_iff (a b : Bytes) : iequals a b = true ↔ SameName a b := C04_iequals_exact a b

/-! ## Qualities -/

theorem dig_iff (c : UInt8) : (c < 48 || c > 57) = false ↔ Dig c := by
  unfold Dig
  simp [UInt8.lt_iff_toNat_lt, UInt8.le_iff_toNat_le]

theorem milli_digit {c : UInt8} (h : Dig c) (s : Bytes) (m p : Nat) :
    milliLoop m p (c :: s) = if p > 0 then milliLoop (m + (c.toNat - 48) * p) (p / 10) s else none := by
  rw [milliLoop, (dig_iff c).mpr h]; simp

theorem milli_not {c : UInt8} (h : ¬ Dig c) (s : Bytes) (m p : Nat) : milliLoop m p (c :: s) = none := by
  rw [milliLoop, if_pos]
  rw [← dig_iff] at h
  cases hb : (decide (c < 48) || decide (c > 57)) with
  | true => rfl
  | false => exact absurd hb h

theorem milli_exact (ds : Bytes) (v : Nat) (hne : ds ≠ []) :
    milliLoop 0 100 ds = some v ↔ ds.length ≤ 3 ∧ (∀ d ∈ ds, Dig d) ∧ v = num ds * 10 ^ (3 - ds.length) := by
  cases ds with
  | nil => exact absurd rfl hne
  | cons a s =>
  by_cases ha : Dig a
  rotate_left
  · rw [milli_not ha]; constructor
    · intro h; cases h
    · intro h; exact absurd (h.2.1 a (by simp)) ha
  rw [milli_digit ha, if_pos (by decide)]
  show milliLoop _ 10 s = _ ↔ _
  cases s with
  | nil => 
    simp [milliLoop, num, ha]
    omega
  | cons b s =>
  by_cases hb : Dig b
  rotate_left
  · rw [milli_not hb]; constructor
    · intro h; cases h
    · intro h; exact absurd (h.2.1 b (by simp)) hb
  rw [milli_digit hb, if_pos (by decide)]
  show milliLoop _ 1 s = _ ↔ _
  cases s with
  | nil =>
    simp [milliLoop, num, ha, hb]
    omega
  | cons c s =>
  by_cases hc : Dig c
  rotate_left
  · rw [milli_not hc]; constructor
    · intro h; cases h
    · intro h; exact absurd (h.2.1 c (by simp)) hc
  rw [milli_digit hc, if_pos (by decide)]
  show milliLoop _ 0 s = _ ↔ _
  cases s with
  | nil =>
    simp [milliLoop, num, ha, hb, hc]
    omega
  | cons d s =>
    have : milliLoop ((0 + (a.toNat - 48) * 100 + (b.toNat - 48) * 10) + (c.toNat - 48) * 1) 0 (d :: s) = none := by
      by_cases hd : Dig d
      · rw [milli_digit hd]; rfl
      · exact milli_not hd s _ _
    rw [this]
    constructor
    · intro h; cases h
    · intro h; have := h.1; simp at this

/-- C109: a quality is read exactly as `0`, `1`, `0.ddd`, `1.000` with one to three digits say. -/
theorem C109_quality (raw : Bytes) (v : Nat) : qvalue raw = some v ↔ ∃ x, IsTrim raw x ∧ QValue x v := by
  have key : ∀ q, trimWs raw = q → (qvalue raw = some v ↔ QValue q v) := by
    intro q hq
    unfold qvalue
    rw [hq]
    simp only []
    cases q with
    | nil => 
      simp
      intro h; generalize hx : ([] : Bytes) = x at h
      cases h <;> simp at hx
    | cons a s =>
    rw [if_neg (by simp)]
    by_cases h1 : ((a :: s) == b!"1" || (a :: s) == b!"1.0" || (a :: s) == b!"1.00" || (a :: s) == b!"1.000") = true
    · rw [if_pos h1]
      simp only [Bool.or_eq_true, beq_iff_eq] at h1
      constructor
      · intro h
        injection h with h
        subst h
        rcases h1 with ((h1 | h1) | h1) | h1 <;> rw [h1]
        · exact .one
        · exact .ones (ds := b!"0") (by decide) (by decide) (by decide)
        · exact .ones (ds := b!"00") (by decide) (by decide) (by decide)
        · exact .ones (ds := b!"000") (by decide) (by decide) (by decide)
      · intro h
        have h49 : a = 49 := by
          rcases h1 with ((h1 | h1) | h1) | h1 <;> (injection h1)
        subst h49
        generalize hx : (49 :: s : Bytes) = x at h
        cases h with
        | zero => simp at hx
        | one => rfl
        | frac => simp at hx
        | ones => rfl
    rw [if_neg h1]
    by_cases h0 : a = 48
    rotate_left
    · rw [if_pos (by simpa using h0)]
      constructor
      · intro h; cases h
      · intro h
        exfalso
        generalize hx : (a :: s : Bytes) = x at h
        cases h with
        | zero => simp at hx; exact h0 hx.1
        | one => rw [hx] at h1; simp at h1
        | frac => simp at hx; exact h0 hx.1
        | @ones ds l1 l2 hz =>
          rw [hx] at h1
          simp only [Bool.or_eq_true, beq_iff_eq] at h1
          apply h1
          match ds, l1, l2, hz with
          | [x], _, _, hz => rw [hz x (by simp)]; decide
          | [x, y], _, _, hz => rw [hz x (by simp), hz y (by simp)]; decide
          | [x, y, z], _, _, hz => rw [hz x (by simp), hz y (by simp), hz z (by simp)]; decide
    subst h0
    rw [if_neg (by simp)]
    cases s with
    | nil =>
      simp
      constructor
      · intro h; subst h; exact .zero
      · intro h
        generalize hx : ([48] : Bytes) = x at h
        cases h with
        | zero => rfl
        | one => simp at hx
        | frac => simp at hx
        | ones => simp at hx
    | cons p s =>
    rw [if_neg (by simp)]
    by_cases hp : (decide ((48 :: p :: s).length < 3) || (48 :: p :: s).getD 1 0 != 46) = true
    · rw [if_pos hp]
      constructor
      · intro h; cases h
      · intro h
        exfalso
        generalize hx : (48 :: p :: s : Bytes) = x at h
        simp only [Bool.or_eq_true, decide_eq_true_eq, bne_iff_ne, ne_eq, List.getD_cons_succ, List.getD_cons_zero] at hp
        cases h with
        | zero => simp at hx
        | one => simp at hx
        | @frac ds l1 =>
          simp at hx
          rcases hp with hp | hp
          · rw [hx.2] at hp; simp at hp; omega
          · exact hp hx.1
        | ones => simp at hx
    rw [if_neg hp]
    simp only [Bool.or_eq_true, decide_eq_true_eq, bne_iff_ne, ne_eq, List.getD_cons_succ, List.getD_cons_zero, not_or, Decidable.not_not] at hp
    obtain ⟨hl, hp⟩ := hp
    subst hp
    have hs : s ≠ [] := by intro h; subst h; simp at hl
    show milliLoop 0 100 s = some v ↔ _
    rw [milli_exact s v hs]
    constructor
    · rintro ⟨x1, x2, x3⟩
      subst x3
      exact QValue.frac (List.length_pos_iff.mpr hs) x1 x2
    · intro h
      generalize hx : (48 :: 46 :: s : Bytes) = x at h
      cases h with
      | zero => simp at hx
      | one => simp at hx
      | @frac ds l1 l2 l3 => 
        simp at hx
        subst hx
        exact ⟨l2, l3, rfl⟩
      | ones => simp at hx
  rw [key _ rfl]
  constructor
  · intro h; exact ⟨_, trimWs_spec raw, h⟩
  · rintro ⟨x, hx, h⟩; rw [trimWs_eq hx]; exact h

theorem qvalue_le {x : Bytes} {v : Nat} (h : QValue x v) : v ≤ 1000 := by
  cases h with
  | zero => omega
  | one => omega
  | ones => omega
  | @frac ds l1 l2 l3 =>
    match ds, l1, l2, l3 with
    | [x], _, _, h => have := h x (by simp); unfold Dig at this; simp [num]; omega
    | [x, y], _, _, h => have := h x (by simp); have := h y (by simp); unfold Dig at *; simp [num]; omega
    | [x, y, z], _, _, h => have := h x (by simp); have := h y (by simp); have := h z (by simp); unfold Dig at *; simp [num]; omega

/-! ## Parameters, elements, lists -/

theorem trim_idem (s : Bytes) : trimWs (trimWs s) = trimWs s := by
  obtain ⟨_, _, _, _, _, h1, h2⟩ := trimWs_spec s
  exact trimWs_of_clean h1 h2

theorem trim_split (a b : Bytes) (d : UInt8) (hd : ¬ Ows d) :
    ∃ a' b', trimWs (a ++ d :: b) = a' ++ d :: b' ∧ trimWs a' = trimWs a ∧ trimWs b' = trimWs b ∧ (d ∉ a → d ∉ a') := by
  obtain ⟨p, q, e, hp, hq, hh, hl⟩ := trimWs_spec a
  obtain ⟨p2, q2, e2, hp2, hq2, hh2, hl2⟩ := trimWs_spec b
  -- drop the blanks before `a` and behind `b`
  refine ⟨trimWs a ++ (if trimWs a = [] then [] else q), (if trimWs b = [] then [] else p2) ++ trimWs b, ?_, ?_, ?_, ?_⟩
  · apply trimWs_eq
    refine ⟨if trimWs a = [] then p ++ q else p, if trimWs b = [] then p2 ++ q2 else q2, ?_, ?_, ?_, ?_, ?_⟩
    · generalize trimWs a = ta at *
      generalize trimWs b = tb at *
      subst e e2
      by_cases h1 : ta = [] <;> by_cases h2 : tb = [] <;> simp [h1, h2]
    · intro c hc
      split at hc
      · rcases List.mem_append.mp hc with h | h
        · exact hp c h
        · exact hq c h
      · exact hp c hc
    · intro c hc
      split at hc
      · rcases List.mem_append.mp hc with h | h
        · exact hp2 c h
        · exact hq2 c h
      · exact hq2 c hc
    · intro c hc
      by_cases h1 : trimWs a = []
      · simp [h1] at hc; subst hc; exact hd
      · rw [if_neg h1] at hc
        apply hh c
        cases ht : trimWs a with
        | nil => exact absurd ht h1
        | cons x y => rw [ht] at hc; simpa using hc
    · intro c hc
      by_cases h1 : trimWs b = []
      · simp [h1] at hc; subst hc; exact hd
      · rw [if_neg h1] at hc
        apply hl2 c
        rw [← hc]
        simp [List.getLast?_append, List.getLast?_cons]
        cases ht : (trimWs b).getLast? with
        | none => simp at ht; exact absurd ht h1
        | some x => simp
  · apply trimWs_eq
    by_cases h1 : trimWs a = []
    · simp [h1]; exact ⟨[], [], by simp, by simp, by simp, by simp, by simp⟩
    · rw [if_neg h1]
      exact ⟨[], q, by simp, by simp, hq, hh, hl⟩
  · apply trimWs_eq
    by_cases h1 : trimWs b = []
    · simp [h1]; exact ⟨[], [], by simp, by simp, by simp, by simp, by simp⟩
    · rw [if_neg h1]
      exact ⟨p2, [], by simp, hp2, by simp, hh2, hl2⟩
  · intro h hx
    apply h
    rw [e]
    rcases List.mem_append.mp hx with h' | h'
    · simp [h']
    · split at h'
      · simp at h'
      · simp [h']

theorem not_ows_eq : ¬ Ows c!"=" := by unfold Ows; decide
theorem not_ows_semi : ¬ Ows c!";" := by unfold Ows; decide

theorem mem_trim {c : UInt8} {s : Bytes} (h : c ∈ trimWs s) : c ∈ s := by
  obtain ⟨p, q, e, _⟩ := trimWs_spec s
  rw [e]; simp [h]

theorem mem_of_trim {c : UInt8} {s : Bytes} (h : c ∈ s) (hc : ¬ Ows c) : c ∈ trimWs s := by
  obtain ⟨p, q, e, hp, hq, _⟩ := trimWs_spec s
  rw [e] at h
  simp at h
  rcases h with h | h | h
  · exact absurd (hp c h) hc
  · exact h
  · exact absurd (hq c h) hc

theorem qParam_exact (p : Bytes) (m : Nat) : qParam p = some m ↔ QParam p m := by
  unfold qParam
  by_cases h : c!"=" ∈ p
  · cases hf : findChar c!"=" p with
    | none => exact absurd h (findChar_none.mp hf)
    | some kv =>
    obtain ⟨k, v⟩ := kv
    obtain ⟨e, hk⟩ := findChar_some.mp hf
    obtain ⟨k', v', e', hk', hv', hn⟩ := trim_split k v c!"=" not_ows_eq
    have : findChar c!"=" (trimWs p) = some (k', v') := findChar_some.mpr ⟨by rw [e]; exact e', hn hk⟩
    rw [this]
    simp only []
    rw [hk', hv']
    have hq : qvalue (trimWs v) = qvalue v := by unfold qvalue; rw [trim_idem]
    rw [hq]
    have hex : (qvalue v).getD 0 = m ↔ (QValue (trimWs v) m ∨ (m = 0 ∧ ∀ n, ¬ QValue (trimWs v) n)) := by
      have hx : ∀ n, qvalue v = some n ↔ QValue (trimWs v) n := by
        intro n
        rw [C109_quality]
        constructor
        · rintro ⟨x, hx, h⟩; rw [trimWs_eq hx]; exact h
        · intro h; exact ⟨_, trimWs_spec v, h⟩
      cases hq : qvalue v with
      | none =>
        have hno : ∀ n, ¬ QValue (trimWs v) n := by intro n h; rw [← hx, hq] at h; cases h
        constructor
        · intro h; right; exact ⟨h.symm, hno⟩
        · rintro (h | h)
          · exact absurd h (hno m)
          · exact h.1.symm
      | some n =>
        have hy := (hx n).mp hq
        constructor
        · intro h; left; rw [← h]; exact hy
        · rintro (h | h)
          · rw [← hx, hq] at h; injection h
          · exact absurd hy (h.2 n)
    by_cases hkq : iequals (trimWs k) b!"q" = true
    · rw [if_pos hkq]
      constructor
      · intro hm
        injection hm with hm
        exact ⟨k, v, trimWs k, trimWs v, e, hk, trimWs_spec k, (same_iff _ _).mp hkq, trimWs_spec v, hex.mp hm⟩
      · rintro ⟨k2, v2, key, x, e2, hk2, hkey, hs, hx, hv⟩
        have := findChar_some.mpr ⟨e2, hk2⟩
        rw [hf] at this
        injection this with this
        injection this with h1 h2
        subst h1 h2
        rw [← trimWs_eq hx] at hv
        exact congrArg some (hex.mpr hv)
    · rw [if_neg hkq]
      constructor
      · intro h; cases h
      · rintro ⟨k2, v2, key, x, e2, hk2, hkey, hs, hx, hv⟩
        have := findChar_some.mpr ⟨e2, hk2⟩
        rw [hf] at this
        injection this with this
        injection this with h1 h2
        subst h1 h2
        rw [trimWs_eq hkey] at hkq
        exact absurd ((same_iff _ _).mpr hs) hkq
  · have : findChar c!"=" (trimWs p) = none := findChar_none.mpr (fun hm => h (mem_trim hm))
    rw [this]
    constructor
    · intro h; cases h
    · rintro ⟨k2, v2, key, x, e2, _⟩
      exact absurd (by rw [e2]; simp) h

theorem firstQ_exact (ps : List Bytes) (m : Nat) : firstQ ps = m ↔ Params ps m := by
  induction ps with
  | nil =>
    constructor
    · intro h; subst h; exact .none
    · intro h; cases h; rfl
  | cons p ps ih =>
    rw [firstQ]
    cases hp : qParam p with
    | some q =>
      simp only []
      constructor
      · intro h; subst h; exact .q ((qParam_exact _ _).mp hp)
      · intro h
        cases h with
        | q h => rw [← qParam_exact, hp] at h; injection h
        | skip h _ => exact absurd ((qParam_exact _ _).mp hp) (h q)
    | none =>
      simp only []
      rw [ih]
      have hno : ∀ n, ¬ QParam p n := by intro n h; rw [← qParam_exact, hp] at h; cases h
      constructor
      · intro h; exact .skip hno h
      · intro h
        cases h with
        | q h => exact absurd h (hno _)
        | skip _ h => exact h

theorem not_qparam_nil (n : Nat) : ¬ QParam [] n := by
  rintro ⟨k, v, key, x, e, _⟩; simp at e

theorem firstQ_filter (ps : List Bytes) : firstQ (ps.filter (· ≠ [])) = firstQ ps := by
  induction ps with
  | nil => rfl
  | cons p ps ih =>
    by_cases hp : p = []
    · subst hp
      have : qParam [] = none := by
        cases h : qParam [] with
        | none => rfl
        | some m => exact absurd ((qParam_exact _ _).mp h) (not_qparam_nil m)
      rw [firstQ, this]
      simpa using ih
    · rw [List.filter_cons_of_pos (by simpa using hp), firstQ, firstQ, ih]

theorem fieldsP_unique {p : UInt8 → Prop} {s : Bytes} {fs gs : List Bytes} (h : IsFieldsP p s fs) (h' : IsFieldsP p s gs) : fs = gs := by
  induction h generalizing gs with
  | last hs =>
    cases h' with
    | last => rfl
    | more hf hd => exact absurd hd (hs _ (by simp))
  | @more f d s fs hf hd _ ih =>
    generalize hx : f ++ d :: s = x at h'
    cases h' with
    | last hs => subst hx; exact absurd hd (hs d (by simp))
    | @more f' d' s' gs' hf' hd' h2 =>
      have : f = f' ∧ s = s' := by
        clear ih h2
        induction f generalizing f' with
        | nil =>
          cases f' with
          | nil => simp at hx; exact ⟨rfl, hx.2⟩
          | cons c f' => simp at hx; exact absurd (hx.1 ▸ hd) (hf' c (by simp))
        | cons c f ih =>
          cases f' with
          | nil => simp at hx; exact absurd (hx.1 ▸ hd') (hf c (by simp))
          | cons c' f' =>
            simp at hx
            have := ih (fun x hm => hf x (List.mem_cons_of_mem _ hm)) (fun x hm => hf' x (List.mem_cons_of_mem _ hm)) hx.2
            exact ⟨by rw [hx.1, this.1], this.2⟩
      obtain ⟨e1, e2⟩ := this
      subst e1 e2
      rw [ih h2]

theorem mem_singleton_eq (d : UInt8) : (fun c => c ∈ [d]) = (fun c => c = d) := by funext c; simp

theorem split_fields (s : Bytes) (d : UInt8) : ∃ fs, IsFieldsP (· = d) s fs ∧ splitString s [d] = fs.filter (· ≠ []) := by
  obtain ⟨fs, h1, h2⟩ := C06_split_string_exact s [d]
  rw [mem_singleton_eq] at h1
  exact ⟨fs, h1, h2⟩

theorem fieldsP_ne_nil {p : UInt8 → Prop} {s : Bytes} {fs : List Bytes} (h : IsFieldsP p s fs) : fs ≠ [] := by cases h <;> simp

/-- Every element has a name and a quality. -/
theorem element_total (t : Bytes) : ∃ n q, Element t n q := by
  obtain ⟨fs, h1, _⟩ := split_fields t c!";"
  cases fs with
  | nil => exact absurd rfl (fieldsP_ne_nil h1)
  | cons a ps => exact ⟨trimWs a, firstQ ps, a, ps, h1, trimWs_spec a, (firstQ_exact _ _).mp rfl⟩

theorem element_unique {t n n' : Bytes} {q q' : Nat} (h : Element t n q) (h' : Element t n' q') : n = n' ∧ q = q' := by
  obtain ⟨a, ps, h1, h2, h3⟩ := h
  obtain ⟨a', ps', h1', h2', h3'⟩ := h'
  have := fieldsP_unique h1 h1'
  injection this with e1 e2
  subst e1 e2
  exact ⟨by rw [← trimWs_eq h2, ← trimWs_eq h2'], by rw [← (firstQ_exact _ _).mpr h3, ← (firstQ_exact _ _).mpr h3']⟩

theorem fields_head {t a : Bytes} {ps : List Bytes} {d : UInt8} (h : IsFieldsP (· = d) t (a :: ps)) :
    (d ∉ a) ∧ ((ps = [] ∧ t = a) ∨ ∃ r, t = a ++ d :: r ∧ IsFieldsP (· = d) r ps) := by
  cases h with
  | last hs => exact ⟨fun hm => hs d hm rfl, .inl ⟨rfl, rfl⟩⟩
  | more hf hd h2 => exact ⟨fun hm => hf d hm rfl, .inr ⟨_, by rw [hd], h2⟩⟩

theorem tokenName_exact {t n : Bytes} {q : Nat} (h : Element t n q) : tokenName t = n := by
  obtain ⟨a, ps, h1, h2, h3⟩ := h
  obtain ⟨ha, h | ⟨r, h, _⟩⟩ := fields_head h1
  · obtain ⟨_, rfl⟩ := h
    unfold tokenName
    have : findChar c!";" (trimWs t) = none := findChar_none.mpr (fun hm => ha (mem_trim hm))
    simp only []
    rw [this]
    exact trimWs_eq h2
  · obtain ⟨a', r', e, hk, _, hn⟩ := trim_split a r c!";" not_ows_semi
    unfold tokenName
    have : findChar c!";" (trimWs t) = some (a', r') := findChar_some.mpr ⟨by rw [h]; exact e, hn ha⟩
    simp only []
    rw [this]
    simp only []
    rw [hk]
    exact trimWs_eq h2

theorem tokenQ_exact {t n : Bytes} {q : Nat} (h : Element t n q) (hn : n ≠ []) : tokenQ t = q := by
  obtain ⟨a, ps, h1, h2, h3⟩ := h
  obtain ⟨fs, h1', e⟩ := split_fields t c!";"
  have := fieldsP_unique h1' h1
  subst this
  unfold tokenQ
  have ha : a ≠ [] := by
    intro h0; subst h0
    exact hn (trimWs_eq h2).symm
  show firstQ ((splitString t [c!";"]).drop 1) = q
  rw [e, List.filter_cons_of_pos (by simpa using ha)]
  simp only [List.drop_succ_cons, List.drop_zero]
  rw [firstQ_filter]
  exact (firstQ_exact _ _).mpr h3

/-- What the loop makes of one token. -/
def entry (t : Bytes) : Option (Bytes × Nat) := if (tokenName t).isEmpty then none else some (tokenName t, tokenQ t)

theorem entries_exact (ts : List Bytes) (l : List (Bytes × Nat)) : ts.filterMap entry = l ↔ Elements ts l := by
  induction ts generalizing l with
  | nil =>
    constructor
    · intro h; subst h; exact .nil
    · intro h; cases h; rfl
  | cons t ts ih =>
    obtain ⟨n, q, he⟩ := element_total t
    have hn := tokenName_exact he
    rw [List.filterMap_cons]
    by_cases h0 : n = []
    · subst h0
      have : entry t = none := by unfold entry; rw [hn]; rfl
      rw [this]
      simp only []
      rw [ih]
      constructor
      · intro h; exact .blank he h
      · intro h
        cases h with
        | blank _ h => exact h
        | named h' h'' _ => exact absurd (element_unique h' he).1 h''
    · have hq := tokenQ_exact he h0
      have : entry t = some (n, q) := by unfold entry; rw [hn, hq, if_neg (by simpa using h0)]
      rw [this]
      simp only []
      constructor
      · intro h; subst h; exact .named he h0 ((ih _).mp rfl)
      · intro h
        cases h with
        | blank h' h => exact absurd (element_unique h' he).1.symm h0
        | named h' h'' h3 =>
          obtain ⟨e1, e2⟩ := element_unique h' he
          rw [e1, e2, (ih _).mpr h3]

theorem entry_nil : entry [] = none := by decide

theorem filterMap_filter_nil (ts : List Bytes) : (ts.filter (· ≠ [])).filterMap entry = ts.filterMap entry := by
  induction ts with
  | nil => rfl
  | cons t ts ih =>
    by_cases h : t = []
    · subst h
      rw [List.filter_cons_of_neg (by simp), List.filterMap_cons, entry_nil]; exact ih
    · rw [List.filter_cons_of_pos (by simpa using h), List.filterMap_cons, List.filterMap_cons, ih]

/-- C109: every `Accept-Encoding` header lists exactly one sequence of names with qualities, and that is the one the server reads. -/
theorem C109_listed (header : Bytes) (l : List (Bytes × Nat)) : accepted header = l ↔ Listed header l := by
  obtain ⟨fs, h1, e⟩ := split_fields header c!","
  have : accepted header = fs.filterMap entry := by
    unfold accepted
    show (splitString header [c!","]).filterMap entry = _
    rw [e, filterMap_filter_nil]
  rw [this, entries_exact]
  constructor
  · intro h; exact ⟨fs, h1, h⟩
  · rintro ⟨ts, h2, h3⟩; rw [fieldsP_unique h1 h2]; exact h3

/-! ## The choice -/

theorem quality_spec (e : Bytes) (l : List (Bytes × Nat)) (w : Option Nat) (q : Nat) :
    quality e l w = some q ↔ (Weight l e q ∨ ((∀ m ∈ l, ¬ SameName m.1 e ∧ m.1 ≠ b!"*") ∧ w = some q)) := by
  induction l generalizing w with
  | nil => simp [quality, Weight]
  | cons m l ih =>
    obtain ⟨n, p⟩ := m
    rw [quality]
    by_cases h1 : iequals n e = true
    · rw [if_pos h1]
      have hs := (same_iff _ _).mp h1
      constructor
      · intro h; injection h with h; subst h
        left; left; exact ⟨[], n, l, rfl, hs, by simp⟩
      · rintro (h | h)
        · rcases h with ⟨l1, n', l2, e1, hs', hno⟩ | ⟨hno, _⟩
          · cases l1 with
            | nil => injection e1 with e1; injection e1 with _ e1; rw [e1]
            | cons x l1 => injection e1 with e1 _; exact absurd hs (by have := hno x (by simp); rw [← e1] at this; exact this)
          · exact absurd hs (hno (n, p) (by simp))
        · exact absurd hs (h.1 (n, p) (by simp)).1
    · rw [if_neg h1]
      have hs : ¬ SameName n e := fun h => h1 ((same_iff _ _).mpr h)
      have wcons : Weight ((n, p) :: l) e q ↔ (Weight l e q ∨ (n = b!"*" ∧ p = q ∧ ∀ m ∈ l, ¬ SameName m.1 e ∧ m.1 ≠ b!"*")) := by
        constructor
        · rintro (⟨l1, n', l2, e1, hs', hno⟩ | ⟨hno, l1, l2, e1, hl⟩)
          · cases l1 with
            | nil => injection e1 with e1; injection e1 with e1 _; exact absurd (e1 ▸ hs') hs
            | cons x l1 =>
              injection e1 with _ e1
              left; left; exact ⟨l1, n', l2, e1, hs', fun m hm => hno m (by simp [hm])⟩
          · cases l1 with
            | nil =>
              injection e1 with e1 e2
              injection e1 with e1 e3
              right
              exact ⟨e1, e3, fun m hm => ⟨hno m (by simp [hm]), hl m (e2 ▸ hm)⟩⟩
            | cons x l1 =>
              injection e1 with _ e1
              left; right
              exact ⟨fun m hm => hno m (by simp [hm]), l1, l2, e1, hl⟩
        · rintro (h | ⟨h2, h3, h4⟩)
          · rcases h with ⟨l1, n', l2, e1, hs', hno⟩ | ⟨hno, l1, l2, e1, hl⟩
            · left
              refine ⟨(n, p) :: l1, n', l2, by rw [e1]; rfl, hs', ?_⟩
              intro m hm
              simp at hm
              rcases hm with rfl | hm
              · exact hs
              · exact hno m hm
            · right
              refine ⟨?_, (n, p) :: l1, l2, by rw [e1]; rfl, hl⟩
              intro m hm
              simp at hm
              rcases hm with rfl | hm
              · exact hs
              · exact hno m hm
          · right
            subst h2 h3
            refine ⟨?_, [], l, rfl, fun m hm => (h4 m hm).2⟩
            intro m hm
            simp at hm
            rcases hm with rfl | hm
            · exact hs
            · exact (h4 m hm).1
      by_cases h2 : n = b!"*"
      · rw [if_pos (by simpa using h2), ih, wcons]
        constructor
        · rintro (h | ⟨h, e1⟩)
          · exact .inl (.inl h)
          · injection e1 with e1; exact .inl (.inr ⟨h2, e1, h⟩)
        · rintro ((h | ⟨_, h3, h4⟩) | ⟨h, _⟩)
          · exact .inl h
          · exact .inr ⟨h4, by rw [h3]⟩
          · exact absurd h2 (h (n, p) (by simp)).2
      · rw [if_neg (by simpa using h2), ih, wcons]
        constructor
        · rintro (h | ⟨h, e1⟩)
          · exact .inl (.inl h)
          · right
            refine ⟨?_, e1⟩
            intro m hm
            simp at hm
            rcases hm with rfl | hm
            · exact ⟨hs, h2⟩
            · exact h m hm
        · rintro ((h | ⟨h3, _⟩) | ⟨h, e1⟩)
          · exact .inl h
          · exact absurd h3 h2
          · exact .inr ⟨fun m hm => h m (by simp [hm]), e1⟩

theorem quality_iff (e : Bytes) (l : List (Bytes × Nat)) (q : Nat) : quality e l none = some q ↔ Weight l e q := by
  rw [quality_spec]; simp

/-- The result of the scan: the best before stays, or one of the list with a higher quality, the earliest of equals. -/
theorem bestOf_spec (l : List (Bytes × Nat)) (ps : List Bytes) (b : Bytes) (q : Nat) :
    (bestOf l ps b q = (b, q) ∧ ∀ p ∈ ps, ∀ r, Weight l p r → r ≤ q) ∨
    (∃ p₁ e p₂ r, ps = p₁ ++ e :: p₂ ∧ bestOf l ps b q = (e, r) ∧ Weight l e r ∧ q < r ∧ (∀ p ∈ p₁, ∀ s, Weight l p s → s < r) ∧
      (∀ p ∈ p₂, ∀ s, Weight l p s → s ≤ r)) := by
  induction ps generalizing b q with
  | nil => left; exact ⟨rfl, by simp⟩
  | cons e ps ih =>
    rw [bestOf]
    have keep : (∀ r, Weight l e r → r ≤ q) → bestOf l (e :: ps) b q = bestOf l ps b q → 
        (bestOf l ps b q = (b, q) ∧ ∀ p ∈ e :: ps, ∀ r, Weight l p r → r ≤ q) ∨
        (∃ p₁ e' p₂ r, e :: ps = p₁ ++ e' :: p₂ ∧ bestOf l ps b q = (e', r) ∧ Weight l e' r ∧ q < r ∧ (∀ p ∈ p₁, ∀ s, Weight l p s → s < r) ∧
      (∀ p ∈ p₂, ∀ s, Weight l p s → s ≤ r)) := by
      intro hle _
      rcases ih b q with ⟨h1, h2⟩ | ⟨p1, e', p2, r, h1, h2, h3, h4, h5, h6⟩
      · left
        refine ⟨h1, ?_⟩
        intro p hp r hr
        rcases List.mem_cons.mp hp with rfl | hp
        · exact hle r hr
        · exact h2 p hp r hr
      · right
        refine ⟨e :: p1, e', p2, r, by rw [h1]; rfl, h2, h3, h4, ?_, h6⟩
        intro p hp s hs
        rcases List.mem_cons.mp hp with rfl | hp
        · have := hle s hs; omega
        · exact h5 p hp s hs
    cases hq : quality e l none with
    | none =>
      simp only []
      apply keep
      · intro r hr; rw [← quality_iff, hq] at hr; cases hr
      · rw [bestOf, hq]
    | some c =>
      simp only []
      have hc := (quality_iff _ _ _).mp hq
      have huniq : ∀ r, Weight l e r → r = c := by intro r hr; rw [← quality_iff, hq] at hr; injection hr with hr; exact hr.symm
      by_cases hgt : c > q
      · rw [if_pos hgt]
        right
        rcases ih e c with ⟨h1, h2⟩ | ⟨p1, e', p2, r, h1, h2, h3, h4, h5, h6⟩
        · exact ⟨[], e, ps, c, rfl, h1, hc, hgt, by simp, h2⟩
        · refine ⟨e :: p1, e', p2, r, by rw [h1]; rfl, h2, h3, by omega, ?_, h6⟩
          intro p hp s hs
          rcases List.mem_cons.mp hp with rfl | hp
          · rw [huniq s hs]; exact h4
          · exact h5 p hp s hs
      · rw [if_neg hgt]
        apply keep
        · intro r hr; rw [huniq r hr]; omega
        · rw [bestOf, hq]; simp only []; rw [if_neg hgt]

theorem weight_unique {l : List (Bytes × Nat)} {e : Bytes} {q r : Nat} (h : Weight l e q) (h' : Weight l e r) : q = r := by
  rw [← quality_iff] at h h'
  rw [h] at h'; injection h'

theorem chosen_unique {l : List (Bytes × Nat)} {ps : List Bytes} {e e' : Bytes} (h : Chosen l ps e) (h' : Chosen l ps e') : e = e' := by
  rcases h with ⟨h0, h1⟩ | ⟨p1, p2, q, e1, h1, h2, h3, h4⟩
  · rcases h' with ⟨h0', _⟩ | ⟨p1', p2', q', e1', h1', h2', _⟩
    · rw [h0, h0']
    · have := h1 e' (by rw [e1']; simp) q' h1'; omega
  · rcases h' with ⟨h0', h1'⟩ | ⟨p1', p2', q', e1', h1', h2', h3', h4'⟩
    · have := h1' e (by rw [e1]; simp) q h1; omega
    · rw [e1] at e1'
      rcases List.append_eq_append_iff.mp e1' with ⟨a, ha, hb⟩ | ⟨a, ha, hb⟩
      · cases a with
        | nil => simp at hb; exact hb.1
        | cons x a =>
          simp at hb
          have x1 := h3' e (by rw [ha]; simp [hb.1]) q h1
          have x2 := h4 e' (by rw [hb.2]; simp) q' h1'
          omega
      · cases a with
        | nil => simp at hb; exact hb.1.symm
        | cons x a =>
          simp at hb
          have x1 := h3 e' (by rw [ha]; simp [hb.1]) q' h1'
          have x2 := h4' e (by rw [hb.2]; simp) q h1
          omega

/-- C109: the encoding the middleware selects is the server's encoding of highest non-zero quality for the client, the first preferred among
equals; none is selected exactly if the client accepts none. -/
theorem C109_chosen (header : Bytes) (prefs : List Bytes) (e : Bytes) :
    selectEncoding header prefs = e ↔ ∃ l, Listed header l ∧ Chosen l prefs e := by
  have hsel : Chosen (accepted header) prefs (selectEncoding header prefs) := by
    unfold selectEncoding
    by_cases h0 : header.isEmpty = true
    · rw [if_pos h0]
      left
      refine ⟨rfl, ?_⟩
      have : header = [] := by simpa using h0
      subst this
      intro p _ q hq
      have : accepted [] = [] := by decide +kernel
      rw [this] at hq
      simp [Weight] at hq
    · rw [if_neg h0]
      simp only []
      rcases bestOf_spec (accepted header) prefs [] 0 with ⟨h1, h2⟩ | ⟨p1, e', p2, r, h1, h2, h3, h4, h5, h6⟩
      · rw [h1]
        left
        exact ⟨rfl, fun p hp q hq => Nat.le_zero.mp (h2 p hp q hq)⟩
      · rw [h2]
        simp only []
        rw [if_pos h4]
        right
        exact ⟨p1, p2, r, h1, h3, h4, h5, h6⟩
  constructor
  · intro h; subst h; exact ⟨_, (C109_listed _ _).mp rfl, hsel⟩
  · rintro ⟨l, hl, hc⟩
    rw [← (C109_listed _ _).mpr hl] at hc
    exact chosen_unique hsel hc

/-- C109: what is selected is acceptable to the client. -/
theorem C109_acceptable (header : Bytes) (prefs : List Bytes) (h : selectEncoding header prefs ≠ []) :
    selectEncoding header prefs ∈ prefs ∧ ∃ l q, Listed header l ∧ Weight l (selectEncoding header prefs) q ∧ 0 < q := by
  obtain ⟨l, hl, hc⟩ := (C109_chosen header prefs _).mp rfl
  rcases hc with ⟨h0, _⟩ | ⟨p1, p2, q, e1, h1, h2, _⟩
  · exact absurd h0 h
  · have hm : ∀ x, x = selectEncoding header prefs → x ∈ p1 ++ x :: p2 := by intro x _; simp
    have := hm _ rfl
    rw [← e1] at this
    exact ⟨this, l, q, hl, h1, h2⟩

example : selectEncoding b!"deflate;q=0.5, gzip ; q = 0.501" [b!"gzip", b!"deflate"] = b!"gzip" := by decide +kernel
example : selectEncoding b!"*;q=0.2, gzip;q=0" [b!"gzip", b!"deflate"] = b!"deflate" := by decide +kernel
example : selectEncoding b!"gzip;q=0, *;q=0" [b!"gzip", b!"deflate"] = [] := by decide +kernel

/-- A quality as RFC 9110 12.4.2 writes it: up to three digits behind the point, also none. -/
inductive RfcQ : Bytes → Nat → Prop
  | zero : RfcQ b!"0" 0
  | one : RfcQ b!"1" 1000
  | frac {ds} : ds.length ≤ 3 → (∀ d ∈ ds, Dig d) → RfcQ (b!"0." ++ ds) (num ds * 10 ^ (3 - ds.length))
  | ones {ds} : ds.length ≤ 3 → (∀ d ∈ ds, d = c!"0") → RfcQ (b!"1." ++ ds) 1000

/-- C109, refuted for `1.`: a valid quality of 1 written with a bare point is read as a refusal, so the client's only encoding is not used. -/
theorem C109_bare_point_refuted : RfcQ b!"1." 1000 ∧ qvalue b!"1." = none ∧ selectEncoding b!"gzip;q=1." [b!"gzip", b!"deflate"] = [] :=
  ⟨.ones (ds := []) (by decide) (by decide), by decide, by decide +kernel⟩

/-! ## `content_encoding` -/

theorem paramsQ_exact (r : Bytes) (ps : List Bytes) (h : IsFieldsP (· = c!";") r ps) : paramsQ r = firstQ ps := by
  generalize hp : (fun x : UInt8 => x = c!";") = p at h
  induction h with
  | @last s hs =>
    subst hp
    rw [paramsQ.eq_def]
    by_cases h0 : s = []
    · subst h0; decide
    · rw [if_neg (by simpa using h0)]
      have : findChar c!";" s = none := findChar_none.mpr (fun hm => hs _ hm rfl)
      split
      · rw [firstQ, firstQ]; cases qParam s <;> rfl
      · next hx => rw [this] at hx; cases hx
  | @more f d s fs hf hd h2 ih =>
    subst hp
    subst hd
    rw [paramsQ.eq_def, if_neg (by simp)]
    have : findChar c!";" (f ++ c!";" :: s) = some (f, s) := findChar_some.mpr ⟨rfl, fun hm => hf _ hm rfl⟩
    split
    · next hx => rw [this] at hx; cases hx
    · next p' rest hx =>
      rw [this] at hx
      injection hx with hx
      injection hx with e1 e2
      subst e1 e2
      rw [firstQ, ih]

theorem firstQ_congr_last (ps : List Bytes) (a b : Bytes) (h : qParam a = qParam b) : firstQ (ps ++ [a]) = firstQ (ps ++ [b]) := by
  induction ps with
  | nil => simp [firstQ, h]
  | cons p ps ih => simp [firstQ, ih]

theorem qParam_trimRight (a a' : Bytes) (h : trimWs a = trimWs a') : qParam a = qParam a' := by unfold qParam; rw [h]

theorem fieldsP_total (d : UInt8) (s : Bytes) : ∃ fs, IsFieldsP (· = d) s fs := ⟨_, (split_fields s d).choose_spec.1⟩

theorem paramsQ_blank (r q : Bytes) (hq : ∀ c ∈ q, Ows c) : paramsQ (r ++ q) = paramsQ r := by
  have key : ∀ ps, IsFieldsP (· = c!";") r ps → ∃ xs a, ps = xs ++ [a] ∧ IsFieldsP (· = c!";") (r ++ q) (xs ++ [a ++ q]) := by
    intro ps h
    generalize hp : (fun x : UInt8 => x = c!";") = p at h
    induction h with
    | @last s hs =>
      subst hp
      refine ⟨[], s, rfl, ?_⟩
      exact .last (by
        intro c hc
        rcases List.mem_append.mp hc with hc | hc
        · exact hs c hc
        · intro h; subst h; exact not_ows_semi (hq _ hc))
    | @more f d s fs hf hd h2 ih =>
      obtain ⟨xs, a, e, h3⟩ := ih
      refine ⟨f :: xs, a, by rw [e]; rfl, ?_⟩
      rw [List.append_assoc, List.cons_append]
      exact .more hf hd h3
  obtain ⟨ps, h⟩ := fieldsP_total c!";" r
  obtain ⟨xs, a, e, h3⟩ := key ps h
  rw [paramsQ_exact _ _ h3, paramsQ_exact _ _ h, e]
  apply firstQ_congr_last
  apply qParam_trimRight
  obtain ⟨p, z, e, hp, hz, hh, hl⟩ := trimWs_spec a
  apply trimWs_eq
  refine ⟨p, z ++ q, ?_, hp, ?_, hh, hl⟩
  · conv => lhs; rw [e]
    simp
  · intro c hc
    rcases List.mem_append.mp hc with hc | hc
    · exact hz c hc
    · exact hq c hc

/-- What the loop of `content_encoding` reads in a token. -/
theorem content_token {t n : Bytes} {q : Nat} (h : Element t n q) :
    acceptQ (trimWs t) = q ∧ tokenName t = n := by
  refine ⟨?_, tokenName_exact h⟩
  obtain ⟨a, ps, h1, h2, h3⟩ := h
  have hq := (firstQ_exact _ _).mpr h3
  obtain ⟨ha, h | ⟨r, h, hr⟩⟩ := fields_head h1
  · obtain ⟨e0, rfl⟩ := h
    unfold acceptQ
    have : findChar c!";" (trimWs t) = none := findChar_none.mpr (fun hm => ha (mem_trim hm))
    rw [this, ← hq, e0]; rfl
  · -- the blanks behind the parameters do not count
    obtain ⟨p, z, e, hp, hz, hh, hl⟩ := trimWs_spec t
    have hmem : c!";" ∈ trimWs t := mem_of_trim (by rw [h]; simp) not_ows_semi
    unfold acceptQ
    cases hf : findChar c!";" (trimWs t) with
    | none => exact absurd hmem (findChar_none.mp hf)
    | some xy =>
      obtain ⟨x, y⟩ := xy
      obtain ⟨e1, hx⟩ := findChar_some.mp hf
      simp only []
      have e2 : a ++ c!";" :: r = (p ++ x) ++ c!";" :: (y ++ z) := by rw [← h, e, e1]; simp
      have hpx : c!";" ∉ p ++ x := by
        intro hm
        rcases List.mem_append.mp hm with hm | hm
        · exact not_ows_semi (hp _ hm)
        · exact hx hm
      have f1 := findChar_some.mpr ⟨e2, hpx⟩
      have f2 := findChar_some.mpr ⟨(rfl : a ++ c!";" :: r = a ++ c!";" :: r), ha⟩
      rw [f2] at f1
      injection f1 with f1
      injection f1 with _ f1
      rw [← paramsQ_blank y z hz, ← f1, paramsQ_exact _ _ hr]
      exact hq

/-- The loop over the elements. -/
def pick (algos : List Bytes) : List (Bytes × Nat) → List Bytes → Bytes
  | [], _ => []
  | (n, q) :: l, dis =>
    if q = 0 then pick algos l (if n ≠ b!"*" then dis ++ [n] else dis)
    else if n = b!"*" then
      match algos.find? (fun a => !dis.any (fun n => iequals n a)) with
      | some a => a
      | none => pick algos l dis
    else match algos.find? (fun a => iequals a n) with
      | some a => a
      | none => pick algos l dis

theorem contentLoop_pick (algos : List Bytes) (ts : List Bytes) (l : List (Bytes × Nat)) (h : Elements ts l) (dis : List Bytes) :
    contentLoop algos ts dis = pick algos l dis := by
  induction h generalizing dis with
  | nil => rfl
  | @blank t ts q l he _ ih =>
    rw [contentLoop]
    obtain ⟨e1, e2⟩ := content_token he
    rw [e1, e2]
    by_cases hq : q = 0
    · rw [if_pos (by simpa using hq), if_neg (by simp)]; exact ih dis
    · rw [if_neg (by simpa using hq), if_pos (by rfl)]; exact ih dis
  | @named t ts n q l he hn _ ih =>
    rw [contentLoop, pick]
    obtain ⟨e1, e2⟩ := content_token he
    rw [e1, e2]
    by_cases hq : q = 0
    · rw [if_pos (by simpa using hq), if_pos hq, ih]
      by_cases hs : n = b!"*"
      · rw [if_neg (by simp [hs]), if_neg (by simp [hs])]
      · rw [if_pos (by simp [hs, hn]), if_pos hs]
    · rw [if_neg (by simpa using hq), if_neg hq, if_neg (by simpa using hn)]
      by_cases hs : n = b!"*"
      · rw [if_pos (by simpa using hs), if_pos hs]
        cases algos.find? (fun a => !dis.any (fun n => iequals n a)) with
        | some a => rfl
        | none => exact ih dis
      · rw [if_neg (by simpa using hs), if_neg hs]
        cases algos.find? (fun a => iequals a n) with
        | some a => rfl
        | none => exact ih dis

theorem find_first {α : Type} (p : α → Bool) (l : List α) (a : α) : l.find? p = some a → ∃ x y, l = x ++ a :: y ∧ p a = true ∧ ∀ b ∈ x, p b = false := by
  intro h
  rw [List.find?_eq_some_iff_append] at h
  obtain ⟨h1, x, y, e, h2⟩ := h
  exact ⟨x, y, e, h1, fun b hb => by simpa using h2 b hb⟩

/-- The result of the loop behind the elements `pre`. -/
theorem pick_spec (algos : List Bytes) (l pre : List (Bytes × Nat)) (dis : List Bytes) (hd : ∀ a, dis.any (fun n => iequals n a) = true ↔ Refused pre a) :
    (pick algos l dis = [] ∧ ∀ l₁ e l₂, l = l₁ ++ e :: l₂ → ∀ b, ¬ Serves algos (pre ++ l₁) e b) ∨
    (∃ l₁ e l₂, l = l₁ ++ e :: l₂ ∧ Serves algos (pre ++ l₁) e (pick algos l dis) ∧
      ∀ m₁ m m₂, l₁ = m₁ ++ m :: m₂ → ∀ b, ¬ Serves algos (pre ++ m₁) m b) := by
  induction l generalizing pre dis with
  | nil => left; exact ⟨rfl, by intro l1 e l2 h; simp at h⟩
  | cons m l ih =>
    obtain ⟨n, q⟩ := m
    have keep : ∀ dis', pick algos ((n, q) :: l) dis = pick algos l dis' → (∀ b, ¬ Serves algos pre (n, q) b) →
        (∀ a, dis'.any (fun n => iequals n a) = true ↔ Refused (pre ++ [(n, q)]) a) →
        ((pick algos ((n, q) :: l) dis = [] ∧ ∀ l₁ e l₂, (n, q) :: l = l₁ ++ e :: l₂ → ∀ b, ¬ Serves algos (pre ++ l₁) e b) ∨
        (∃ l₁ e l₂, (n, q) :: l = l₁ ++ e :: l₂ ∧ Serves algos (pre ++ l₁) e (pick algos ((n, q) :: l) dis) ∧
          ∀ m₁ m m₂, l₁ = m₁ ++ m :: m₂ → ∀ b, ¬ Serves algos (pre ++ m₁) m b)) := by
      intro dis' e1 hno hd'
      rw [e1]
      rcases ih (pre ++ [(n, q)]) dis' hd' with ⟨h1, h2⟩ | ⟨l1, e, l2, h1, h2, h3⟩
      · left
        refine ⟨h1, ?_⟩
        intro l1 e l2 he b
        cases l1 with
        | nil => injection he with he _; rw [← he]; simpa using hno b
        | cons x l1 =>
          injection he with he he'
          have := h2 l1 e l2 he' b
          rw [he] at this
          simpa using this
      · right
        refine ⟨(n, q) :: l1, e, l2, by rw [h1]; rfl, by simpa using h2, ?_⟩
        intro m1 m m2 he b
        cases m1 with
        | nil => injection he with he _; rw [← he]; simpa using hno b
        | cons x m1 =>
          injection he with he he'
          have := h3 m1 m m2 he' b
          rw [he] at this
          simpa using this
    have refused_snoc : ∀ a, Refused (pre ++ [(n, q)]) a ↔ Refused pre a ∨ (q = 0 ∧ n ≠ b!"*" ∧ SameName n a) := by
      intro a
      constructor
      · rintro ⟨m, hm, h1, h2, h3⟩
        rcases List.mem_append.mp hm with hm | hm
        · exact .inl ⟨m, hm, h1, h2, h3⟩
        · simp at hm; subst hm; exact .inr ⟨h1, h2, h3⟩
      · rintro (⟨m, hm, h⟩ | h)
        · exact ⟨m, by simp [hm], h⟩
        · exact ⟨(n, q), by simp, h⟩
    have here : ∀ a, Serves algos pre (n, q) a → pick algos ((n, q) :: l) dis = a → 
       (∃ l₁ e l₂, (n, q) :: l = l₁ ++ e :: l₂ ∧ Serves algos (pre ++ l₁) e (pick algos ((n, q) :: l) dis) ∧
          ∀ m₁ m m₂, l₁ = m₁ ++ m :: m₂ → ∀ b, ¬ Serves algos (pre ++ m₁) m b) := by
      intro a hs e
      refine ⟨[], (n, q), l, rfl, by rw [e]; simpa using hs, ?_⟩
      intro m1 m m2 he; simp at he
    by_cases hq : q = 0
    · apply keep (if n ≠ b!"*" then dis ++ [n] else dis)
      · rw [pick, if_pos hq]
      · rintro b ⟨h, _⟩; simp at h; omega
      · intro a
        rw [refused_snoc, ← hd]
        by_cases hs : n = b!"*"
        · rw [if_neg (by simpa using hs)]; simp [hs]
        · rw [if_pos hs]; simp [hs, hq, same_iff]
    · have hpos : 0 < q := by omega
      have hd' : ∀ a, dis.any (fun n => iequals n a) = true ↔ Refused (pre ++ [(n, q)]) a := by
        intro a; rw [refused_snoc, hd]; simp [hq]
      by_cases hs : n = b!"*"
      · cases hf : algos.find? (fun a => !dis.any (fun n => iequals n a)) with
        | some a =>
          right
          apply here a
          · obtain ⟨x, y, e, h1, h2⟩ := find_first _ _ _ hf
            refine ⟨hpos, x, y, e, .inl ⟨hs, ?_, ?_⟩⟩
            · intro hr; rw [(hd a).mpr hr] at h1; simp at h1
            · intro b hb; have := h2 b hb; exact (hd b).mp (by simpa using this)
          · rw [pick, if_neg hq, if_pos hs, hf]
        | none =>
          apply keep dis
          · rw [pick, if_neg hq, if_pos hs, hf]
          · rintro b ⟨_, x, y, e, h | h⟩
            · rw [List.find?_eq_none] at hf
              have := hf b (by rw [e]; simp)
              exact h.2.1 ((hd b).mp (by simpa using this))
            · exact h.1 hs
          · exact hd'
      · cases hf : algos.find? (fun a => iequals a n) with
        | some a =>
          right
          apply here a
          · obtain ⟨x, y, e, h1, h2⟩ := find_first _ _ _ hf
            refine ⟨hpos, x, y, e, .inr ⟨hs, (same_iff _ _).mp h1, ?_⟩⟩
            intro b hb h; have := h2 b hb; rw [(same_iff _ _).mpr h] at this; cases this
          · rw [pick, if_neg hq, if_neg hs, hf]
        | none =>
          apply keep dis
          · rw [pick, if_neg hq, if_neg hs, hf]
          · rintro b ⟨_, x, y, e, h | h⟩
            · exact hs h.1
            · rw [List.find?_eq_none] at hf
              exact hf b (by rw [e]; simp) ((same_iff _ _).mpr h.2.1)
          · exact hd'

/-- C110: `content_encoding` answers with the first element of the list that names an algorithm of the server with a non-zero quality, where `*`
names the first algorithm not refused before it; with nothing exactly if no element does. -/
theorem C110_first_usable (algos : List Bytes) (header : Bytes) : ∃ l, Listed header l ∧
    ((contentEncoding algos header = [] ∧ ∀ l₁ e l₂, l = l₁ ++ e :: l₂ → ∀ b, ¬ Serves algos l₁ e b) ∨
    (∃ l₁ e l₂, l = l₁ ++ e :: l₂ ∧ Serves algos l₁ e (contentEncoding algos header) ∧
      ∀ m₁ m m₂, l₁ = m₁ ++ m :: m₂ → ∀ b, ¬ Serves algos m₁ m b)) := by
  obtain ⟨ts, h1, e⟩ := split_fields header c!","
  obtain ⟨l, hl⟩ : ∃ l, Elements ts l := ⟨_, (entries_exact _ _).mp rfl⟩
  have hl' : Elements (ts.filter (· ≠ [])) l := by rw [← entries_exact, filterMap_filter_nil]; exact (entries_exact _ _).mpr hl
  refine ⟨l, ⟨ts, h1, hl⟩, ?_⟩
  have : contentEncoding algos header = pick algos l [] := by
    unfold contentEncoding
    show contentLoop algos (splitString header [c!","]) [] = _
    rw [e, contentLoop_pick _ _ _ hl']
  rw [this]
  have := pick_spec algos l [] [] (by intro a; simp [Refused])
  simpa using this

/-- C110: what `content_encoding` answers with is an algorithm of the server that the client listed, by name or by `*`, with a non-zero quality. -/
theorem C110_sound (algos : List Bytes) (header : Bytes) (h : contentEncoding algos header ≠ []) :
    contentEncoding algos header ∈ algos ∧ ∃ l m, Listed header l ∧ m ∈ l ∧ 0 < m.2 ∧ (SameName m.1 (contentEncoding algos header) ∨ m.1 = b!"*") := by
  obtain ⟨l, hl, ⟨h0, _⟩ | ⟨l1, e, l2, h1, h2, _⟩⟩ := C110_first_usable algos header
  · exact absurd h0 h
  · obtain ⟨hp, x, y, e1, h3⟩ := h2
    have hm : ∀ z, z = contentEncoding algos header → z ∈ x ++ z :: y := by intro z _; simp
    have := hm _ rfl
    rw [← e1] at this
    refine ⟨this, l, e, hl, by rw [h1]; simp, hp, ?_⟩
    rcases h3 with h3 | h3
    · exact .inr h3.1
    · exact .inl h3.2.1.symm

example : contentEncoding [b!"gzip", b!"deflate"] b!"br, gzip;q=0, *" = b!"deflate" := by decide +kernel

/-- C110, refuted: a refusal written behind `*` is ignored. -/
theorem C110_late_refusal_refuted : contentEncoding [b!"gzip", b!"deflate"] b!"*, gzip;q=0" = b!"gzip" ∧
    ∃ l, Listed b!"*, gzip;q=0" l ∧ Weight l b!"gzip" 0 := by
  refine ⟨by decide +kernel, _, (C109_listed _ _).mp rfl, ?_⟩
  rw [← quality_iff]; decide +kernel

/-- C110, refuted: the qualities are not compared. -/
theorem C110_order_refuted : contentEncoding [b!"gzip", b!"deflate"] b!"deflate;q=0.1, gzip" = b!"deflate" ∧
    ∃ l, Listed b!"deflate;q=0.1, gzip" l ∧ Weight l b!"gzip" 1000 ∧ Weight l b!"deflate" 100 := by
  refine ⟨by decide +kernel, _, (C109_listed _ _).mp rfl, ?_, ?_⟩ <;> (rw [← quality_iff]; decide +kernel)

end Verif.Hdr
