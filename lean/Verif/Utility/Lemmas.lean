import Verif.Utility.Model
import Verif.Utility.Spec

/-! Helper lemmas for the utility theorems. -/

namespace Verif.Utility
open Spec

/-! ### per-byte facts, checked for all 256 bytes -/

theorem unreserved_iff (c : UInt8) : isUnreserved c = true ↔ Unreserved c := by
  revert c; unfold Unreserved; apply forall_byte; decide +kernel

theorem encoded_hex (c : UInt8) :
    upperHexDigit (c >>> 4) ∈ b!"0123456789ABCDEF" ∧ upperHexDigit (c &&& 0xF) ∈ b!"0123456789ABCDEF" := by
  revert c; apply forall_byte; decide +kernel

theorem encoded_back (c : UInt8) :
    isHexDigit (upperHexDigit (c >>> 4)) = true ∧ isHexDigit (upperHexDigit (c &&& 0xF)) = true ∧
    (hexValue (upperHexDigit (c >>> 4)) <<< 4) ||| hexValue (upperHexDigit (c &&& 0xF)) = c := by
  revert c; apply forall_byte; decide +kernel

theorem unreserved_ne_percent (c : UInt8) : isUnreserved c = true → c ≠ 37 := by
  revert c; apply forall_byte; decide +kernel

theorem lower_eq (c : UInt8) : asciiToLower c = lower c := by
  revert c; apply forall_byte; decide +kernel

theorem lower_vals (c : UInt8) :
    (lower c).toNat = if 65 ≤ c.toNat ∧ c.toNat ≤ 90 then c.toNat + 32 else c.toNat := by
  revert c; apply forall_byte; decide +kernel

theorem flip_lower (x : UInt8) :
    (97 ≤ (x ||| 0x20) ∧ (x ||| 0x20) ≤ 122) → lower x = lower (x ^^^ 0x20) := by
  revert x; apply forall_byte; decide +kernel

theorem upper_flip (x : UInt8) : 65 ≤ x.toNat ∧ x.toNat ≤ 90 →
    (x ^^^ 0x20).toNat = x.toNat + 32 ∧ 97 ≤ (x ||| 0x20) ∧ (x ||| 0x20) ≤ 122 ∧
    97 ≤ ((x ^^^ 0x20) ||| 0x20) ∧ ((x ^^^ 0x20) ||| 0x20) ≤ 122 := by
  revert x; apply forall_byte; decide +kernel

theorem iequalsByte_iff' (x y : UInt8) : iequalsByte x y = true ↔
    (x = y ∨ (x ^^^ y = 0x20 ∧ 97 ≤ (x ||| 0x20) ∧ (x ||| 0x20) ≤ 122)) := by
  unfold iequalsByte
  by_cases h : x = y
  · simp [h]
  · simp [h, bne_iff_ne, and_assoc]

theorem iequalsByte_iff (x y : UInt8) : iequalsByte x y = true ↔ lower x = lower y := by
  rw [iequalsByte_iff']
  constructor
  · rintro (rfl | ⟨h1, h2⟩)
    · rfl
    · have : y = x ^^^ 0x20 := by rw [← h1, ← UInt8.xor_assoc]; simp
      rw [this]; exact flip_lower x h2
  · intro h
    have hv := congrArg UInt8.toNat h
    rw [lower_vals, lower_vals] at hv
    by_cases hx : 65 ≤ x.toNat ∧ x.toNat ≤ 90
    · by_cases hy : 65 ≤ y.toNat ∧ y.toNat ≤ 90
      · left; apply UInt8.toNat_inj.1; simp [hx, hy] at hv; exact hv
      · right
        obtain ⟨f1, f2, f3, _⟩ := upper_flip x hx
        simp [hx, hy] at hv
        have : y = x ^^^ 0x20 := UInt8.toNat_inj.1 (by omega)
        refine ⟨?_, f2, f3⟩
        rw [this, ← UInt8.xor_assoc]; simp
    · by_cases hy : 65 ≤ y.toNat ∧ y.toNat ≤ 90
      · right
        obtain ⟨f1, _, _, f2, f3⟩ := upper_flip y hy
        simp [hx, hy] at hv
        have : x = y ^^^ 0x20 := UInt8.toNat_inj.1 (by omega)
        subst this
        refine ⟨?_, f2, f3⟩
        rw [UInt8.xor_comm, ← UInt8.xor_assoc]; simp
      · left; apply UInt8.toNat_inj.1; simp [hx, hy] at hv; exact hv

/-! ### hex digits -/

/-- Executable form of the spec's digit value. -/
def specHex (c : UInt8) : Option Nat :=
  (List.range 16).find? fun n =>
    (b!"0123456789abcdef")[n]? == some c || (b!"0123456789ABCDEF")[n]? == some c

theorem hexVal_dec (c : UInt8) :
    ∀ n, n < 16 →
      (((b!"0123456789abcdef")[n]? = some c ∨ (b!"0123456789ABCDEF")[n]? = some c) ↔
        (isHexDigit c = true ∧ (hexValue c).toNat = n)) := by
  revert c; apply forall_byte; decide +kernel

theorem hexValue_lt (c : UInt8) : (hexValue c).toNat < 16 := by
  revert c; apply forall_byte; decide +kernel

theorem hexVal_iff (c : UInt8) (n : Nat) :
    HexVal c n ↔ (isHexDigit c = true ∧ (hexValue c).toNat = n) := by
  unfold HexVal
  constructor
  · rintro ⟨h1, h2⟩; exact (hexVal_dec c n h1).1 h2
  · rintro ⟨h1, h2⟩
    have hn : n < 16 := h2 ▸ hexValue_lt c
    exact ⟨hn, (hexVal_dec c n hn).2 ⟨h1, h2⟩⟩

theorem shl_or (a b : UInt8) (ha : a.toNat < 16) (hb : b.toNat < 16) :
    (a <<< 4) ||| b = UInt8.ofNat (16 * a.toNat + b.toNat) := by
  have h : ∀ x y : Fin 16, ((UInt8.ofNat x.val <<< 4) ||| UInt8.ofNat y.val)
      = UInt8.ofNat (16 * x.val + y.val) := by decide +kernel
  have := h ⟨a.toNat, ha⟩ ⟨b.toNat, hb⟩
  simpa using this

theorem startsEscape_iff (c h l : UInt8) (tl : Bytes) :
    StartsEscape (c :: h :: l :: tl) ↔ (c == 37 && isHexDigit h && isHexDigit l) = true := by
  unfold StartsEscape
  simp only [hexVal_iff, Bool.and_eq_true, beq_iff_eq]
  constructor
  · rintro ⟨h', l', tl', a, b, he, h1, h2⟩
    simp at he
    obtain ⟨rfl, rfl, rfl, rfl⟩ := he
    exact ⟨⟨rfl, h1.1⟩, h2.1⟩
  · rintro ⟨⟨rfl, h1⟩, h2⟩
    exact ⟨h, l, tl, _, _, rfl, ⟨h1, rfl⟩, ⟨h2, rfl⟩⟩

theorem not_startsEscape_short (s : Bytes) (h : s.length < 3) : ¬ StartsEscape s := by
  rintro ⟨a, b, tl, _, _, rfl, _⟩
  simp at h
  omega

theorem decodePath_spec (s : Bytes) : Decodes s (decodePath s) := by
  fun_induction decodePath s with
  | case1 => exact .nil
  | case2 c h l tl hc ih =>
    simp at hc
    obtain ⟨⟨rfl, hh⟩, hl⟩ := hc
    rw [shl_or _ _ (hexValue_lt h) (hexValue_lt l)]
    exact .escape ((hexVal_iff _ _).2 ⟨hh, rfl⟩) ((hexVal_iff _ _).2 ⟨hl, rfl⟩) ih
  | case3 c h l tl hc ih => exact .plain (by rw [startsEscape_iff]; exact hc) ih
  | case4 c h ih => exact .plain (not_startsEscape_short _ (by simp)) ih
  | case5 c ih => exact .plain (not_startsEscape_short _ (by simp)) ih

theorem decodes_det {s t u : Bytes} (h1 : Decodes s t) (h2 : Decodes s u) : t = u := by
  induction h1 generalizing u with
  | nil => cases h2; rfl
  | @escape h l s t a b ha hb _ ih =>
    cases h2 with
    | escape ha' hb' h' =>
      rw [hexVal_iff] at ha hb ha' hb'
      rw [ih h', ← ha.2, ← hb.2, ← ha'.2, ← hb'.2]
    | plain hn _ => exact absurd ⟨_, _, _, _, _, rfl, ha, hb⟩ hn
  | plain hn _ ih =>
    cases h2 with
    | escape ha hb _ => exact absurd ⟨_, _, _, _, _, rfl, ha, hb⟩ hn
    | plain _ h' => rw [ih h']

theorem decodePath_cons_ne (c : UInt8) (s : Bytes) (h : c ≠ 37) :
    decodePath (c :: s) = c :: decodePath s := by
  have hp : ¬ StartsEscape (c :: s) := by
    rintro ⟨_, _, _, _, _, he, _⟩
    simp at he; exact h he.1
  exact decodes_det (decodePath_spec _) (.plain hp (decodePath_spec s))

/-! ### trimming -/

theorem isWs_iff (c : UInt8) : isWs c = true ↔ Ows c := by simp [isWs, Ows]

theorem trimWs_spec (t : Bytes) : IsTrim t (trimWs t) := by
  let d := t.dropWhile isWs
  refine ⟨t.takeWhile isWs, (d.reverse.takeWhile isWs).reverse, ?_, ?_, ?_, ?_, ?_⟩
  · have h1 : t = t.takeWhile isWs ++ d := (List.takeWhile_append_dropWhile).symm
    have h2 : d = trimWs t ++ (d.reverse.takeWhile isWs).reverse := by
      have : d.reverse = d.reverse.takeWhile isWs ++ d.reverse.dropWhile isWs :=
        (List.takeWhile_append_dropWhile).symm
      have := congrArg List.reverse this
      rw [List.reverse_reverse, List.reverse_append] at this
      exact this
    calc t = t.takeWhile isWs ++ d := h1
      _ = t.takeWhile isWs ++ (trimWs t ++ (d.reverse.takeWhile isWs).reverse) := by rw [← h2]
      _ = _ := by rw [List.append_assoc]
  · intro c hc
    rw [← isWs_iff]
    have := List.all_takeWhile (p := isWs) (l := t)
    rw [List.all_eq_true] at this
    exact this c hc
  · intro c hc
    rw [← isWs_iff]
    have := List.all_takeWhile (p := isWs) (l := d.reverse)
    rw [List.all_eq_true] at this
    exact this c (by simpa using hc)
  · intro c hc hw
    rw [← isWs_iff] at hw
    -- the head of the trimmed string is the head of `d`
    have hd : d.head? = some c := by
      have hpre : trimWs t <+: d := by
        have := List.dropWhile_suffix isWs (l := d.reverse)
        have := List.reverse_prefix.2 this
        simpa [trimWs, d] using this
      obtain ⟨r, hr⟩ := hpre
      rw [← hr]
      cases htr : trimWs t with
      | nil => simp [htr] at hc
      | cons x xs => simp [htr] at hc; simp [hc]
    have hne : d ≠ [] := by intro h; simp [h] at hd
    have := List.head_dropWhile_not isWs (l := t) (w := hne)
    have hc' : d.head hne = c := by
      rw [List.head?_eq_some_head hne] at hd; simpa using hd
    simp only [d] at hc'
    rw [hc', hw] at this
    exact Bool.noConfusion this
  · intro c hc hw
    rw [← isWs_iff] at hw
    simp only [trimWs, List.getLast?_reverse] at hc
    have hne : d.reverse.dropWhile isWs ≠ [] := by
      intro h; simp only [d] at h; simp [h] at hc
    have := List.head_dropWhile_not isWs (l := d.reverse) (w := hne)
    rw [List.head?_eq_some_head hne] at hc
    simp at hc
    rw [hc, hw] at this
    exact Bool.noConfusion this

/-! ### splitting at a byte -/

theorem findChar_some {d : UInt8} {s p q : Bytes} (h : findChar d s = some (p, q)) :
    s = p ++ d :: q ∧ d ∉ p := by
  induction s generalizing p with
  | nil => simp [findChar] at h
  | cons c rest ih =>
    rw [findChar] at h
    split at h
    · rename_i hc
      simp at h hc
      simp [h.1, h.2, hc]
    · rename_i hc
      split at h
      · rename_i p' q' heq
        simp at h hc
        obtain ⟨rfl, rfl⟩ := h
        obtain ⟨h1, h2⟩ := ih heq
        subst h1
        simp [h2]
        exact fun e => hc e.symm
      · simp at h

theorem findChar_none {d : UInt8} {s : Bytes} (h : findChar d s = none) : d ∉ s := by
  induction s with
  | nil => simp
  | cons c rest ih =>
    rw [findChar] at h
    split at h
    · simp at h
    · rename_i hc
      split at h
      · simp at h
      · rename_i heq
        simp at hc
        simp [ih heq]
        exact fun e => hc e.symm

theorem isFields_single {d : UInt8} {s : Bytes} (h : d ∉ s) : IsFields d s [s] := by
  refine ⟨by simp, by simpa using h, by simp [List.intercalate]⟩

theorem isFields_cons {d : UInt8} {p q : Bytes} {fs : List Bytes} (hp : d ∉ p)
    (h : IsFields d q fs) : IsFields d (p ++ d :: q) (p :: fs) := by
  obtain ⟨h1, h2, h3⟩ := h
  refine ⟨by simp, ?_, ?_⟩
  · intro f hf
    simp at hf
    rcases hf with rfl | hf
    · exact hp
    · exact h2 f hf
  · cases fs with
    | nil => exact absurd rfl h1
    | cons f fs => simp [List.intercalate, List.intersperse] at h3 ⊢; rw [h3]

theorem splitView_spec (s : Bytes) (d : UInt8) : IsFields d s (splitView s d) := by
  fun_induction splitView s d with
  | case1 s h => exact isFields_single (findChar_none h)
  | case2 s p q h ih =>
    obtain ⟨h1, h2⟩ := findChar_some h
    have := isFields_cons h2 ih
    rw [← h1] at this
    exact this

theorem splitAndTrim_eq (s : Bytes) (d : UInt8) :
    splitAndTrim s d = ((splitView s d).map trimWs).filter (fun t => !t.isEmpty) := by
  fun_induction splitAndTrim s d with
  | case1 s tok rest h t ht ih =>
    rw [splitView]
    split
    · rename_i h'; simp [h] at h'
    · rename_i p q h'
      rw [h] at h'; simp at h'; obtain ⟨rfl, rfl⟩ := h'
      simp [t] at ht
      simp [ih, ht]
  | case2 s tok rest h t ht ih =>
    rw [splitView]
    split
    · rename_i h'; simp [h] at h'
    · rename_i p q h'
      rw [h] at h'; simp at h'; obtain ⟨rfl, rfl⟩ := h'
      simp [t] at ht
      simp [ih, ht, t]
  | case3 s h t ht =>
    rw [splitView]
    split
    · simp [t] at ht; simp [ht]
    · rename_i p q h'; simp [h] at h'
  | case4 s h t ht =>
    rw [splitView]
    split
    · simp [t] at ht; simp [ht, t]
    · rename_i p q h'; simp [h] at h'

/-- Fields are unique. -/
theorem isFields_unique {d : UInt8} : ∀ {fs gs : List Bytes} {s : Bytes},
    IsFields d s fs → IsFields d s gs → fs = gs
  | [], _, _, h, _ => absurd rfl h.1
  | _, [], _, _, h => absurd rfl h.1
  | [f], [g], s, ⟨_, _, h1⟩, ⟨_, _, h2⟩ => by
      simp [List.intercalate] at h1 h2; rw [← h1, ← h2]
  | [f], g :: g' :: gs, s, ⟨_, hf, h1⟩, ⟨_, _, h2⟩ => by
      simp [List.intercalate, List.intersperse] at h1 h2
      exact absurd (show d ∈ f by rw [← h1, h2]; simp) (hf f (by simp))
  | f :: f' :: fs, [g], s, ⟨_, _, h1⟩, ⟨_, hg, h2⟩ => by
      simp [List.intercalate, List.intersperse] at h1 h2
      exact absurd (show d ∈ g by rw [← h2, h1]; simp) (hg g (by simp))
  | f :: f' :: fs, g :: g' :: gs, s, ⟨_, hf, h1⟩, ⟨_, hg, h2⟩ => by
      have e1 : s = f ++ d :: [d].intercalate (f' :: fs) := by
        rw [h1]; simp [List.intercalate, List.intersperse]
      have e2 : s = g ++ d :: [d].intercalate (g' :: gs) := by
        rw [h2]; simp [List.intercalate, List.intersperse]
      have hfd := hf f (by simp)
      have hgd := hg g (by simp)
      have key : ∀ (f g x y : Bytes), d ∉ f → d ∉ g → f ++ d :: x = g ++ d :: y → f = g ∧ x = y := by
        intro f
        induction f with
        | nil =>
          intro g x y _ hg h
          cases g with
          | nil => simpa using h
          | cons a g => simp at h; simp [← h.1] at hg
        | cons a f ih =>
          intro g x y hf hg h
          cases g with
          | nil => simp at h; simp [h.1] at hf
          | cons b g =>
            simp at h hf hg
            have := ih g x y hf.2 hg.2 h.2
            simp [h.1, this]
      obtain ⟨rfl, hrest⟩ := key _ _ _ _ hfd hgd (e1.symm.trans e2)
      have := isFields_unique (fs := f' :: fs) (gs := g' :: gs) (s := [d].intercalate (f' :: fs))
        ⟨by simp, fun x hx => hf x (List.mem_cons_of_mem _ hx), rfl⟩
        ⟨by simp, fun x hx => hg x (List.mem_cons_of_mem _ hx), hrest⟩
      rw [this]

/-! ### splitting at a predicate -/

theorem findIf_some {p : UInt8 → Bool} {s tok rest : Bytes} (h : findIf p s = (tok, some rest)) :
    ∃ d, s = tok ++ d :: rest ∧ p d = true ∧ ∀ c ∈ tok, ¬ p c = true := by
  induction s generalizing tok with
  | nil => simp [findIf] at h
  | cons c tl ih =>
    rw [findIf] at h
    split at h
    · rename_i hc
      simp at h
      refine ⟨c, by simp [h.1, h.2], hc, by simp [h.1]⟩
    · rename_i hc
      simp at h
      obtain ⟨d, h1, h2, h3⟩ := ih (tok := (findIf p tl).1) (by rw [← h.2])
      rw [← h.1]
      refine ⟨d, by simp; exact h1, h2, ?_⟩
      intro x hx
      simp at hx
      rcases hx with rfl | hx
      · exact hc
      · exact h3 x hx

theorem findIf_none {p : UInt8 → Bool} {s tok : Bytes} (h : findIf p s = (tok, none)) :
    tok = s ∧ ∀ c ∈ s, ¬ p c = true := by
  induction s generalizing tok with
  | nil => simp [findIf] at h; simp [h]
  | cons c tl ih =>
    rw [findIf] at h
    split at h
    · simp at h
    · rename_i hc
      simp at h
      obtain ⟨h1, h2⟩ := ih (tok := (findIf p tl).1) (by rw [← h.2])
      refine ⟨by rw [← h.1, h1], ?_⟩
      intro x hx
      simp at hx
      rcases hx with rfl | hx
      · exact hc
      · exact h2 x hx

theorem splitIf_spec (p : UInt8 → Bool) (s : Bytes) :
    ∃ fields, IsFieldsP (fun c => p c = true) s fields ∧
      splitIf p s = fields.filter (fun t => !t.isEmpty) := by
  fun_induction splitIf p s with
  | case1 => exact ⟨[[]], .last (by simp), by simp⟩
  | case2 c tl tok h he =>
    obtain ⟨h1, h2⟩ := findIf_none h
    refine ⟨[tok], h1 ▸ .last (h1 ▸ h2), by simp at he; simp [he]⟩
  | case3 c tl tok h he =>
    obtain ⟨h1, h2⟩ := findIf_none h
    refine ⟨[tok], h1 ▸ .last (h1 ▸ h2), by simp at he; simp [he]⟩
  | case4 c tl tok rest h he ih =>
    obtain ⟨d, h1, h2, h3⟩ := findIf_some h
    obtain ⟨fs, h4, h5⟩ := ih
    refine ⟨tok :: fs, ?_, by simp at he; simp [he, h5]⟩
    rw [h1]; exact .more h3 h2 h4
  | case5 c tl tok rest h he ih =>
    obtain ⟨d, h1, h2, h3⟩ := findIf_some h
    obtain ⟨fs, h4, h5⟩ := ih
    refine ⟨tok :: fs, ?_, by simp at he; simp [he, h5]⟩
    rw [h1]; exact .more h3 h2 h4

/-! ### splitting at a boundary -/

theorem findSub_none {b s : Bytes} (h : findSub b s = none) : ¬ b <:+: s := by
  induction s with
  | nil =>
    rw [findSub] at h
    split at h
    · simp at h
    · rename_i hn
      intro hi
      have : b = [] := by simpa using hi
      subst this; simp at hn
  | cons c rest ih =>
    rw [findSub] at h
    split at h
    · simp at h
    · rename_i hn
      split at h
      · simp at h
      · rename_i heq
        rw [List.infix_cons_iff]
        rintro (hp | hi)
        · exact hn (List.isPrefixOf_iff_prefix.2 hp)
        · exact ih heq hi

theorem findSub_first {b s p q : Bytes} (h : findSub b s = some (p, q)) :
    ∀ k, k < p.length → ¬ b <+: s.drop k := by
  induction s generalizing p with
  | nil =>
    rw [findSub] at h
    split at h
    · simp at h; simp [h.1]
    · simp at h
  | cons c rest ih =>
    rw [findSub] at h
    split at h
    · simp at h; simp [h.1]
    · rename_i hn
      split at h
      · rename_i p' q' heq
        simp at h
        obtain ⟨rfl, rfl⟩ := h
        intro k hk
        cases k with
        | zero => simpa [List.isPrefixOf_iff_prefix] using hn
        | succ k => simpa using ih heq k (by simpa using hk)
      · simp at h

theorem splitBy_spec (s b : Bytes) (hb : b ≠ []) : IsSplitBy b s (splitBy s b) := by
  fun_induction splitBy s b with
  | case1 s hb' => exact absurd hb' hb
  | case2 s hb' => exact absurd hb' hb
  | case3 s _ h => exact .last (findSub_none h)
  | case4 s _ p q h ih =>
    have h1 := findSub_eq h
    have h2 := findSub_first h
    rw [h1] at h2 ⊢
    exact .more h2 ih

theorem join_foldl (ps : List Bytes) (d : Bytes) (p : Bytes) :
    ps.foldl (fun acc x => acc ++ d ++ x) p = p ++ (ps.map (fun x => d ++ x)).flatten := by
  induction ps generalizing p with
  | nil => simp
  | cons x xs ih => simp [ih]

theorem join_eq (parts : List Bytes) (d : Bytes) : join parts d = d.intercalate parts := by
  cases parts with
  | nil => simp [join, List.intercalate]
  | cons p ps =>
    simp only [join, join_foldl]
    induction ps generalizing p with
    | nil => simp [List.intercalate]
    | cons x xs ih =>
      have := ih x
      simp [List.intercalate, List.intersperse] at this ⊢
      exact this

theorem isSplitBy_ne_nil {b s : Bytes} {ps} (h : IsSplitBy b s ps) : ps ≠ [] := by
  cases h <;> simp

theorem isSplitBy_join_eq {b s : Bytes} {ps} (h : IsSplitBy b s ps) :
    b.intercalate ps = s := by
  induction h with
  | last _ => simp [List.intercalate]
  | @more p s ps _ h' ih =>
    cases ps with
    | nil => exact absurd rfl (isSplitBy_ne_nil h')
    | cons x xs => simp [List.intercalate, List.intersperse] at ih ⊢; rw [ih]

/-- A part before a first occurrence does not contain the boundary. -/
theorem isSplitBy_part {b s : Bytes} {ps} (h : IsSplitBy b s ps) :
    ∀ p ∈ ps, ¬ b <:+: p ∨ b = [] := by
  induction h with
  | last h => intro p hp; simp at hp; subst hp; exact Or.inl h
  | @more p s ps h1 _ ih =>
    intro x hx
    simp at hx
    rcases hx with rfl | hx
    · by_cases hb : b = []
      · exact Or.inr hb
      · left
        rintro ⟨u, v, huv⟩
        have hl := congrArg List.length huv
        have : 0 < b.length := List.length_pos_iff.2 hb
        simp at hl
        apply h1 u.length (by omega)
        rw [← huv]
        simp
    · exact ih x hx

/-! ### HTML -/

theorem escapeByte_cases (c : UInt8) :
    escapeHtmlByte c ∈ entities ∨
      (escapeHtmlByte c = [c] ∧ c ∉ b!"<>\"&" ∧ c ≠ 39) := by
  revert c; unfold entities; apply forall_byte; decide +kernel

theorem escapeByte_special (c d : UInt8) (hc : c = 38 ∨ c = 34 ∨ c = 39 ∨ c = 60 ∨ c = 62) :
    (escapeHtmlByte c).isPrefixOf (escapeHtmlByte d) = true → c = d := by
  rcases hc with rfl | rfl | rfl | rfl | rfl <;> (revert d; apply forall_byte; decide +kernel)

theorem escapeByte_head (d : UInt8) :
    (escapeHtmlByte d).head? = some 38 ∨ escapeHtmlByte d = [d] := by
  revert d; apply forall_byte; decide +kernel

theorem escapeByte_plain (c : UInt8) : (c = 38 ∨ c = 34 ∨ c = 39 ∨ c = 60 ∨ c = 62) ∨
    (c ≠ 38 ∧ escapeHtmlByte c = [c]) := by
  revert c; apply forall_byte; decide +kernel

/-- The replacement strings are prefix-free. -/
theorem escapeByte_prefix (c d : UInt8) :
    (escapeHtmlByte c).isPrefixOf (escapeHtmlByte d) = true → c = d := by
  intro hp
  rcases escapeByte_plain c with h | ⟨h1, h2⟩
  · exact escapeByte_special c d h hp
  · rw [h2, List.isPrefixOf_iff_prefix] at hp
    obtain ⟨t, ht⟩ := hp
    rcases escapeByte_head d with h3 | h3
    · rw [← ht] at h3; simp at h3; exact absurd h3 h1
    · rw [h3] at ht; simp at ht; exact ht.1

theorem escapeByte_ne_nil (c : UInt8) : escapeHtmlByte c ≠ [] := by
  revert c; apply forall_byte; decide +kernel

end Verif.Utility
