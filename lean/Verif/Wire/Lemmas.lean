import Verif.Wire.Model
import Verif.Wire.Spec
import Verif.Utility.Extra

namespace Verif.Wire
open Utility Utility.Spec Spec

theorem ieq {a b : Bytes} : iequals a b = true ↔ SameName a b := C04_iequals_exact a b

theorem isHeaderNameChar_iff : ∀ c, isHeaderNameChar c = true ↔ TChar c := by
  have : ∀ c : UInt8, isHeaderNameChar c = decide (c ∈ b!"!#$%&'*+-.^_`|~0123456789ABCDEFGHIJKLMNOPQRSTUVWXYZabcdefghijklmnopqrstuvwxyz") :=
    forall_byte (by decide +kernel)
  intro c
  rw [this, decide_eq_true_eq]; rfl

theorem nameValid_iff (n : Bytes) : headerNameIsValid n = true ↔ FieldName n ∧ n.length ≤ 1024 := by
  unfold headerNameIsValid FieldName MAX_HEADER_NAME_LENGTH
  have : n.all isHeaderNameChar = true ↔ ∀ c ∈ n, TChar c := by
    rw [List.all_eq_true]
    exact ⟨fun h c hc => (isHeaderNameChar_iff c).1 (h c hc), fun h c hc => (isHeaderNameChar_iff c).2 (h c hc)⟩
  rw [← this]
  by_cases h0 : n = []
  · simp [h0]
  · by_cases h1 : n.length > 1024
    · simp [h0, h1]
    · rw [if_neg (by simp [h0]; omega)]
      constructor
      · intro h; exact ⟨⟨h0, h⟩, by omega⟩
      · exact fun h => h.1.2

theorem valueValid_iff (v : Bytes) : headerValueIsValid v = true ↔ FieldValue v ∧ v.length ≤ 8192 := by
  unfold headerValueIsValid FieldValue MAX_HEADER_VALUE_LENGTH
  have hb : ∀ c : UInt8, (c == 9 || (c ≥ 0x20 && c != 0x7f)) = true ↔ (c = 9 ∨ (32 ≤ c.toNat ∧ c.toNat ≠ 127)) :=
    forall_byte (by decide +kernel)
  have : (v.all fun c => c == 9 || (c ≥ 0x20 && c != 0x7f)) = true ↔ ∀ c ∈ v, c = 9 ∨ (32 ≤ c.toNat ∧ c.toNat ≠ 127) := by
    rw [List.all_eq_true]
    exact ⟨fun h c hc => (hb c).1 (h c hc), fun h c hc => (hb c).2 (h c hc)⟩
  rw [← this]
  by_cases h1 : v.length > 8192
  · rw [if_pos h1]; simp; omega
  · rw [if_neg h1]
    exact ⟨fun h => ⟨h, by omega⟩, fun h => h.1⟩

/-! ### decimal and hexadecimal -/

theorem digit_ofNat {d : Nat} (h : d < 10) : DigitIs (UInt8.ofNat (48 + d)) d := by
  refine ⟨h, ?_⟩
  rw [UInt8.toNat_ofNat_of_lt']; show 48 + d < 256; omega

theorem decNat_decimal (n : Nat) : Decimal (Date.decNat n) n := by
  induction n using Nat.strongRecOn with
  | _ n ih =>
    rw [Date.decNat]
    split
    · exact .one (digit_ofNat (by omega))
    · have h := Decimal.snoc (ih (n / 10) (by omega)) (digit_ofNat (show n % 10 < 10 by omega))
      rw [show 10 * (n / 10) + n % 10 = n by omega] at h
      exact h

theorem hexVal_getD {d : Nat} (h : d < 16) : HexVal (b!"0123456789abcdef".getD d 0) d := by
  refine ⟨h, Or.inl ?_⟩
  have : ∀ d : Fin 16, (b!"0123456789abcdef")[d.1]? = some ((b!"0123456789abcdef").getD d.1 0) := by decide
  exact this ⟨d, h⟩

theorem hexNat_hex (n : Nat) : Hexadecimal (hexNat n) n := by
  induction n using Nat.strongRecOn with
  | _ n ih =>
    rw [hexNat]
    split
    · exact .one (hexVal_getD (by omega))
    · have h := Hexadecimal.snoc (ih (n / 16) (by omega)) (hexVal_getD (show n % 16 < 16 by omega))
      rw [show 16 * (n / 16) + n % 16 = n by omega] at h
      exact h

theorem Spec.Decimal.ne {s : Bytes} {n : Nat} (h : Decimal s n) : s ≠ [] := by cases h <;> simp
theorem Spec.Hexadecimal.ne {s : Bytes} {n : Nat} (h : Hexadecimal s n) : s ≠ [] := by cases h <;> simp

theorem Spec.Decimal.digits {s : Bytes} {n : Nat} (h : Decimal s n) : ∀ c ∈ s, 48 ≤ c.toNat ∧ c.toNat ≤ 57 := by
  induction h with
  | one h => intro c hc; simp at hc; subst hc; have := h.1; have := h.2; omega
  | snoc _ h ih =>
    intro c hc
    simp only [List.mem_append, List.mem_singleton] at hc
    rcases hc with hc | rfl
    · exact ih c hc
    · have := h.1; have := h.2; omega

theorem Spec.Decimal.unique {s : Bytes} {n m : Nat} (h : Decimal s n) (h' : Decimal s m) : n = m := by
  induction h generalizing m with
  | @one c d hd =>
    generalize hs : [c] = s at h'
    cases h' with
    | @one c' d' hd' => simp at hs; subst hs; have := hd.2; have := hd'.2; omega
    | @snoc s' n' c' d' h1 _ =>
      have := h1.ne
      cases s' with
      | nil => exact absurd rfl this
      | cons a t => simp at hs
  | @snoc s n c d h1 hd ih =>
    generalize hs : s ++ [c] = t at h'
    cases h' with
    | @one c' d' hd' =>
      have := h1.ne
      cases s with
      | nil => exact absurd rfl this
      | cons a t => simp at hs
    | @snoc s' n' c' d' h1' hd' =>
      obtain ⟨rfl, e⟩ := List.append_inj' hs rfl
      simp at e; subst e
      have := ih h1'
      have := hd.2; have := hd'.2; omega

theorem hexVal_unique : ∀ {c : UInt8} {a b : Nat}, HexVal c a → HexVal c b → a = b := by
  have key : ∀ (i j : Fin 16), ((b!"0123456789abcdef")[i.1]? = (b!"0123456789abcdef")[j.1]? → i = j) ∧
      ((b!"0123456789ABCDEF")[i.1]? = (b!"0123456789ABCDEF")[j.1]? → i = j) ∧
      ((b!"0123456789abcdef")[i.1]? = (b!"0123456789ABCDEF")[j.1]? → i = j) := by decide +kernel
  intro c a b ha hb
  have k1 := key ⟨a, ha.1⟩ ⟨b, hb.1⟩
  have k2 := key ⟨b, hb.1⟩ ⟨a, ha.1⟩
  rcases ha.2 with h1 | h1 <;> rcases hb.2 with h2 | h2
  · exact congrArg Fin.val (k1.1 (h1.trans h2.symm))
  · exact congrArg Fin.val (k1.2.2 (h1.trans h2.symm))
  · exact (congrArg Fin.val (k2.2.2 (h2.trans h1.symm))).symm
  · exact congrArg Fin.val (k1.2.1 (h1.trans h2.symm))

theorem hexVal_ne_cr {c : UInt8} {a : Nat} (h : HexVal c a) : c ≠ 13 ∧ c ≠ 10 := by
  have : ∀ i : Fin 16, (b!"0123456789abcdef")[i.1]? ≠ some 13 ∧ (b!"0123456789abcdef")[i.1]? ≠ some 10 ∧
      (b!"0123456789ABCDEF")[i.1]? ≠ some 13 ∧ (b!"0123456789ABCDEF")[i.1]? ≠ some 10 := by decide +kernel
  have t := this ⟨a, h.1⟩
  constructor
  · rintro rfl
    rcases h.2 with h | h
    · exact t.1 h
    · exact t.2.2.1 h
  · rintro rfl
    rcases h.2 with h | h
    · exact t.2.1 h
    · exact t.2.2.2 h

theorem Spec.Hexadecimal.clean {s : Bytes} {n : Nat} (h : Hexadecimal s n) : ∀ c ∈ s, c ≠ 13 ∧ c ≠ 10 := by
  induction h with
  | one h => intro c hc; simp at hc; subst hc; exact hexVal_ne_cr h
  | snoc _ h ih =>
    intro c hc
    simp only [List.mem_append, List.mem_singleton] at hc
    rcases hc with hc | rfl
    · exact ih c hc
    · exact hexVal_ne_cr h

theorem Spec.Hexadecimal.unique {s : Bytes} {n m : Nat} (h : Hexadecimal s n) (h' : Hexadecimal s m) : n = m := by
  induction h generalizing m with
  | @one c d hd =>
    generalize hs : [c] = s at h'
    cases h' with
    | @one c' d' hd' => simp at hs; subst hs; exact hexVal_unique hd hd'
    | @snoc s' n' c' d' h1 _ =>
      have := h1.ne
      cases s' with
      | nil => exact absurd rfl this
      | cons a t => simp at hs
  | @snoc s n c d h1 hd ih =>
    generalize hs : s ++ [c] = t at h'
    cases h' with
    | @one c' d' hd' =>
      have := h1.ne
      cases s with
      | nil => exact absurd rfl this
      | cons a t => simp at hs
    | @snoc s' n' c' d' h1' hd' =>
      obtain ⟨rfl, e⟩ := List.append_inj' hs rfl
      simp at e; subst e
      rw [ih h1', hexVal_unique hd hd']

theorem digitsValue_snoc (s : Bytes) (c : UInt8) : digitsValue (s ++ [c]) = 10 * digitsValue s + (c.toNat - 48) := by
  simp [digitsValue]

theorem isDigit_iff (c : UInt8) : isDigit c = true ↔ 48 ≤ c.toNat ∧ c.toNat ≤ 57 := by
  simp [isDigit, UInt8.le_iff_toNat_le]

theorem digits_decimal {s : Bytes} (h0 : s ≠ []) (h : s.all isDigit = true) : Decimal s (digitsValue s) := by
  generalize hn : s.length = n
  induction n generalizing s with
  | zero => exact absurd (List.length_eq_zero_iff.1 hn) h0
  | succ n ih =>
    rcases List.eq_nil_or_concat s with rfl | ⟨t, c, rfl⟩
    · simp at hn
    · rw [List.concat_eq_append] at *
      simp only [List.all_append, List.all_cons, List.all_nil, Bool.and_true, Bool.and_eq_true] at h
      have hc := (isDigit_iff c).1 h.2
      have hd : DigitIs c (c.toNat - 48) := ⟨by omega, by omega⟩
      by_cases ht : t = []
      · subst ht
        have : digitsValue ([] ++ [c]) = c.toNat - 48 := by simp [digitsValue]
        rw [this]; exact .one hd
      · rw [digitsValue_snoc]
        exact .snoc (ih ht h.1 (by simpa using hn)) hd

theorem contentLength_iff (v : Bytes) (n : Nat) :
    parseContentLength v = some n ↔ n < 2 ^ 64 ∧ ∃ u, IsTrim v u ∧ Decimal u n := by
  unfold parseContentLength
  simp only []
  constructor
  · intro h
    by_cases h0 : trimWs v = []
    · simp [h0] at h
    · rw [if_neg (by simpa using h0)] at h
      by_cases h1 : (trimWs v).all isDigit = true
      · rw [if_neg (by simp [h1])] at h
        by_cases h2 : digitsValue (trimWs v) ≥ 2 ^ 64
        · rw [if_pos h2] at h; simp at h
        · rw [if_neg h2] at h
          simp only [Option.some.injEq] at h
          exact ⟨by omega, trimWs v, trimWs_iff.1 rfl, h ▸ digits_decimal h0 h1⟩
      · rw [if_pos (by simpa using h1)] at h; simp at h
  · rintro ⟨hn, u, hu, hd⟩
    rw [trimWs_iff.2 hu]
    have hall : u.all isDigit = true := by
      rw [List.all_eq_true]
      exact fun c hc => (isDigit_iff c).2 (hd.digits c hc)
    have := (digits_decimal hd.ne hall).unique hd
    rw [if_neg (by simpa using hd.ne), if_neg (by simp [hall]), this, if_neg (by omega)]

/-! ### headers -/

/-- The field lines of a header map. -/
def flat (h : Headers) : List (Bytes × Bytes) := h.flatMap fun e => e.2.map (e.1, ·)

/-- No two keys of the map are the same up to case. -/
def Distinct (h : Headers) : Prop := h.Pairwise fun a b => ¬ SameName a.1 b.1

theorem putHeaders_eq (h : Headers) : putHeaders h = (flat h).flatMap fieldLine := by
  unfold putHeaders flat
  rw [List.flatMap_assoc]
  congr 1
  funext e
  rw [List.flatMap_map]
  rfl

theorem headersSize_iff (h : Headers) (k : Nat) : headersSize h = some k ↔
    (∀ e ∈ h, (FieldName e.1 ∧ e.1.length ≤ 1024) ∧ ∀ v ∈ e.2, FieldValue v ∧ v.length ≤ 8192) ∧
    k = (h.map fun e => e.1.length + 2 + (e.2.map fun v => v.length + 2).sum).sum := by
  induction h generalizing k with
  | nil => simp [headersSize, eq_comm]
  | cons e h ih =>
    obtain ⟨n, vs⟩ := e
    rw [headersSize]
    by_cases h1 : headerNameIsValid n = true
    · rw [if_neg (by simp [h1])]
      by_cases h2 : vs.all headerValueIsValid = true
      · rw [if_neg (by simp [h2])]
        have h2' : ∀ v ∈ vs, FieldValue v ∧ v.length ≤ 8192 := by
          intro v hv
          exact (valueValid_iff v).1 (List.all_eq_true.1 h2 v hv)
        have h1' := (nameValid_iff n).1 h1
        rw [Option.map_eq_some_iff]
        constructor
        · rintro ⟨k', hk, rfl⟩
          obtain ⟨i1, i2⟩ := (ih k').1 hk
          refine ⟨?_, by simp [i2]⟩
          intro e he
          rcases List.mem_cons.1 he with rfl | he
          · exact ⟨h1', h2'⟩
          · exact i1 e he
        · rintro ⟨g1, g2⟩
          refine ⟨_, (ih _).2 ⟨fun e he => g1 e (by simp [he]), rfl⟩, by simp [g2]⟩
      · rw [if_pos (by simpa using h2)]
        simp only [reduceCtorEq, false_iff, not_and]
        intro hx
        exfalso; apply h2
        rw [List.all_eq_true]
        exact fun v hv => (valueValid_iff v).2 ((hx (n, vs) (by simp)).2 v hv)
    · rw [if_pos (by simpa using h1)]
      simp only [reduceCtorEq, false_iff, not_and]
      intro hx
      exact absurd ((nameValid_iff n).2 (hx (n, vs) (by simp)).1) h1

theorem find_none {h : Headers} {name : Bytes} (e : find h name = none) : NoField name (flat h) := by
  unfold find at e
  simp only [Option.map_eq_none_iff, List.find?_eq_none] at e
  intro f hf hs
  unfold flat at hf
  obtain ⟨x, hx, hf⟩ := List.mem_flatMap.1 hf
  obtain ⟨v, _, rfl⟩ := List.mem_map.1 hf
  exact e x hx (ieq.2 hs)

theorem valuesOf_app {name : Bytes} {a b : List (Bytes × Bytes)} {u v : List Bytes}
    (ha : ValuesOf name a u) (hb : ValuesOf name b v) : ValuesOf name (a ++ b) (u ++ v) := by
  induction ha with
  | nil => exact hb
  | hit h _ ih => exact .hit h ih
  | miss h _ ih => exact .miss h ih

theorem valuesOf_none {name : Bytes} {a : List (Bytes × Bytes)} (h : NoField name a) : ValuesOf name a [] := by
  induction a with
  | nil => exact .nil
  | cons f a ih => exact .miss (h f (by simp)) (ih fun g hg => h g (by simp [hg]))

theorem valuesOf_map {name n : Bytes} (h : SameName n name) (vs : List Bytes) : ValuesOf name (vs.map (n, ·)) vs := by
  induction vs with
  | nil => exact .nil
  | cons v vs ih => exact .hit h ih

theorem valuesOf_noField {name : Bytes} {a : List (Bytes × Bytes)} (h : ValuesOf name a []) : NoField name a := by
  generalize hv : ([] : List Bytes) = vs at h
  induction h with
  | nil => intro f hf; simp at hf
  | hit _ _ _ => simp at hv
  | miss h0 _ ih =>
    intro f hf
    rcases List.mem_cons.1 hf with rfl | hf
    · exact h0
    · exact ih hv f hf

theorem valuesOf_unique {name : Bytes} {a : List (Bytes × Bytes)} {u v : List Bytes}
    (hu : ValuesOf name a u) (hv : ValuesOf name a v) : u = v := by
  induction hu generalizing v with
  | nil => cases hv; rfl
  | hit h _ ih =>
    cases hv with
    | hit _ h2 => rw [ih h2]
    | miss h2 _ => exact absurd h h2
  | miss h _ ih =>
    cases hv with
    | hit h2 _ => exact absurd h2 h
    | miss _ h2 => exact ih h2

theorem find_some {h : Headers} (hd : Distinct h) {name : Bytes} {vs : List Bytes} (e : find h name = some vs) :
    ValuesOf name (flat h) vs := by
  induction h with
  | nil => simp [find] at e
  | cons x h ih =>
    unfold Distinct at hd
    rw [List.pairwise_cons] at hd
    unfold flat
    rw [List.flatMap_cons]
    unfold find at e
    by_cases hx : iequals x.1 name = true
    · rw [List.find?_cons_of_pos (by simpa using hx)] at e
      simp only [Option.map_some, Option.some.injEq] at e
      subst e
      rw [← List.append_nil x.2]
      simp only [List.append_nil x.2, List.map_append, List.map_nil, List.append_nil]
      have hn : ValuesOf name (h.flatMap fun e => e.2.map (e.1, ·)) [] := by
        apply valuesOf_none
        intro f hf hs
        obtain ⟨y, hy, hf⟩ := List.mem_flatMap.1 hf
        obtain ⟨v, _, rfl⟩ := List.mem_map.1 hf
        exact hd.1 y hy ((ieq.1 hx).trans (Eq.symm hs))
      have := valuesOf_app (valuesOf_map (ieq.1 hx) x.2) hn
      simpa using this
    · rw [List.find?_cons_of_neg (by simpa using hx)] at e
      have i := ih hd.2 e
      have hm : ValuesOf name (x.2.map (x.1, ·)) [] := by
        apply valuesOf_none
        intro f hf hs
        obtain ⟨v, _, rfl⟩ := List.mem_map.1 hf
        exact hx (ieq.2 hs)
      exact valuesOf_app hm i

theorem declaredLoop_some {acc : Option Nat} {vs : List Bytes} {r : Option Nat} (h : declaredLoop acc vs = some r) :
    (∀ n, acc = some n → r = some n) ∧ (vs ≠ [] → ∃ n, r = some n) ∧ (vs = [] → r = acc) ∧
    ∀ n, r = some n → ∀ v ∈ vs, parseContentLength v = some n := by
  induction vs generalizing acc with
  | nil =>
    simp only [declaredLoop, Option.some.injEq] at h
    subst h; simp
  | cons v vs ih =>
    rw [declaredLoop] at h
    cases hp : parseContentLength v with
    | none => rw [hp] at h; simp at h
    | some m =>
      rw [hp] at h
      simp only at h
      split at h
      · simp at h
      · rename_i hc
        obtain ⟨i1, i2, i3, i4⟩ := ih h
        have hr := i1 m rfl
        refine ⟨?_, fun _ => ⟨m, hr⟩, by simp, ?_⟩
        · intro n hn
          subst hn
          simp at hc
          rw [hr, hc]
        · intro n hn x hx
          rcases List.mem_cons.1 hx with rfl | hx
          · rw [hr] at hn; rw [hp]; exact hn
          · exact i4 n hn x hx

theorem declared_none {h : Headers} (hd : Distinct h) (e : declaredContentLength h = some none) :
    NoField b!"Content-Length" (flat h) := by
  unfold declaredContentLength at e
  cases hf : find h b!"Content-Length" with
  | none => exact find_none hf
  | some vs =>
    rw [hf] at e
    simp only at e
    obtain ⟨_, h2, _, _⟩ := declaredLoop_some e
    by_cases hv : vs = []
    · subst hv; exact valuesOf_noField (find_some hd hf)
    · obtain ⟨n, hn⟩ := h2 hv; simp at hn

theorem declared_some {h : Headers} (hd : Distinct h) {n : Nat} (e : declaredContentLength h = some (some n)) :
    DeclaresLength (flat h) n ∧ n < 2 ^ 64 := by
  unfold declaredContentLength at e
  cases hf : find h b!"Content-Length" with
  | none => rw [hf] at e; simp at e
  | some vs =>
    rw [hf] at e
    simp only at e
    obtain ⟨_, _, h3, h4⟩ := declaredLoop_some e
    have hv : vs ≠ [] := by
      intro hv; have := h3 hv; simp at this
    refine ⟨⟨vs, find_some hd hf, hv, fun v hm => ((contentLength_iff v n).1 (h4 n rfl v hm)).2⟩, ?_⟩
    cases vs with
    | nil => exact absurd rfl hv
    | cons v vs => exact ((contentLength_iff v n).1 (h4 n rfl v (by simp))).1

theorem isFieldsP_isFields {d : UInt8} {s : Bytes} {fs : List Bytes} (h : IsFieldsP (· ∈ [d]) s fs) : IsFields d s fs := by
  induction h with
  | last h =>
    refine ⟨by simp, ?_, by simp⟩
    intro f hf
    simp only [List.mem_singleton] at hf; subst hf
    intro hm; exact h d hm (by simp)
  | @more f x s fs hf hx _ ih =>
    simp only [List.mem_singleton] at hx; subst hx
    obtain ⟨h1, h2, h3⟩ := ih
    refine ⟨by simp, ?_, ?_⟩
    · intro g hg
      rcases List.mem_cons.1 hg with rfl | hg
      · intro hm; exact hf x hm (by simp)
      · exact h2 g hg
    · cases fs with
      | nil => exact absurd rfl h1
      | cons g gs => rw [List.intercalate_cons_cons, ← h3]; simp

theorem elements_model (v : Bytes) : Elements v (((splitString v b!",").map trimWs).filter (fun t => !t.isEmpty)) := by
  obtain ⟨fields, h1, h2⟩ := C06_split_string_exact v b!","
  refine ⟨fields, fields.map trimWs, isFieldsP_isFields h1, ?_, ?_⟩
  · clear h1 h2
    induction fields with
    | nil => exact .nil
    | cons f fs ih => exact .cons (trimWs_spec f) ih
  · rw [h2]
    clear h1 h2
    induction fields with
    | nil => rfl
    | cons f fs ih =>
      by_cases hf : f = []
      · subst hf
        have : trimWs [] = [] := rfl
        simp [this] at ih ⊢
        exact ih
      · by_cases ht : trimWs f = []
        · simp [hf, ht] at ih ⊢; exact ih
        · simp [hf, ht] at ih ⊢; exact ih

theorem te_none {h : Headers} (e : transferEncoding h = some false) : NoField b!"Transfer-Encoding" (flat h) := by
  unfold transferEncoding at e
  cases hf : find h b!"Transfer-Encoding" with
  | none => exact find_none hf
  | some vs =>
    rw [hf] at e
    simp only at e
    split at e
    · split at e <;> simp at e
    · simp at e

theorem te_some {h : Headers} (hd : Distinct h) (e : transferEncoding h = some true) : DeclaresChunked (flat h) := by
  unfold transferEncoding at e
  cases hf : find h b!"Transfer-Encoding" with
  | none => rw [hf] at e; simp at e
  | some vs =>
    rw [hf] at e
    simp only at e
    split at e
    · rename_i t ht
      split at e
      · rename_i hi
        refine ⟨vs, vs.map fun v => ((splitString v b!",").map trimWs).filter (fun t => !t.isEmpty), t,
          find_some hd hf, ?_, ?_, ieq.1 hi⟩
        · clear ht hf e
          induction vs with
          | nil => exact .nil
          | cons v vs ih => exact .cons (elements_model v) ih
        · rw [← ht]; unfold teTokens; rw [List.flatMap_def]
      · simp at e
    · simp at e

/-! ### chunks -/

theorem putChunk_body (d : Bytes) (h : d ≠ []) : Chunked (putChunk d ++ putChunk []) d := by
  have e : putChunk d ++ putChunk [] = hexNat d.length ++ CRLF ++ d ++ CRLF ++ (b!"0" ++ CRLF ++ CRLF) := by
    unfold putChunk endl CRLF
    rw [if_pos (by simpa using h)]
    simp
  rw [e]
  have hz : Hexadecimal b!"0" 0 := .one ⟨by omega, Or.inl rfl⟩
  have := Chunked.chunk (hexNat_hex d.length) h (Chunked.last hz)
  simpa using this

theorem framed_extra {h : Headers} (hte : NoField b!"Transfer-Encoding" (flat h))
    (hcl : NoField b!"Content-Length" (flat h)) (body : Bytes) :
    Framed (flat h ++ [(b!"content-length", Date.decNat body.length)]) body body := by
  refine .length ?_ ?_
  · intro f hf
    rcases List.mem_append.1 hf with hf | hf
    · exact hte f hf
    · simp only [List.mem_singleton] at hf; subst hf
      intro hs
      have h2 : iequals b!"content-length" b!"Transfer-Encoding" = true := ieq.2 hs
      revert h2; decide
  · refine ⟨[Date.decNat body.length], ?_, by simp, ?_⟩
    · have h1 := valuesOf_app (valuesOf_none hcl)
        (ValuesOf.hit (f := (b!"content-length", Date.decNat body.length)) (show SameName b!"content-length" b!"Content-Length" from ieq.1 (by decide)) ValuesOf.nil)
      simpa using h1
    · intro v hv
      simp only [List.mem_singleton] at hv; subst hv
      have hdec := decNat_decimal body.length
      refine ⟨_, ⟨[], [], by simp, by simp, by simp, ?_, ?_⟩, hdec⟩
      · intro c hc
        have := hdec.digits c (List.mem_of_mem_head? (by simp [hc]))
        rintro (rfl | rfl) <;> simp at this
      · intro c hc
        have := hdec.digits c (List.mem_of_getLast? hc)
        rintro (rfl | rfl) <;> simp at this

theorem decNat_fieldValue (n : Nat) : FieldValue (Date.decNat n) := by
  intro c hc
  have := (decNat_decimal n).digits c hc
  exact Or.inr ⟨by omega, by omega⟩

theorem decNat_nocr (n : Nat) : ∀ c ∈ Date.decNat n, c ≠ 13 ∧ c ≠ 10 := by
  intro c hc
  have := (decNat_decimal n).digits c hc
  constructor <;> (rintro rfl; simp at this)

end Verif.Wire
