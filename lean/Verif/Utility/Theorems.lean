import Verif.Utility.Lemmas

/-! Property theorems C01–C06 about `utility.h` / `utility.cpp`. -/

namespace Verif.Utility
open Spec

/-! ## C01 -/

/-- C01: path decoding inverts URI component encoding, for every byte string. -/
theorem C01_decode_encode (s : Bytes) : decodePath (uriEncode s) = s := by
  induction s with
  | nil => rfl
  | cons c s ih =>
    have e : uriEncode (c :: s) = uriEncodeByte c ++ uriEncode s := by simp [uriEncode]
    rw [e]; unfold uriEncodeByte
    split
    · rename_i h
      rw [List.singleton_append, decodePath_cons_ne _ _ (unreserved_ne_percent c h), ih]
    · obtain ⟨h1, h2, h3⟩ := encoded_back c
      simp [decodePath, h1, h2, h3, ih]

/-- C01: the encoded form contains only unreserved characters and upper-case `%XX` escapes. -/
theorem C01_encode_safe (s : Bytes) : UriSafe (uriEncode s) := by
  induction s with
  | nil => exact .nil
  | cons c s ih =>
    have e : uriEncode (c :: s) = uriEncodeByte c ++ uriEncode s := by simp [uriEncode]
    rw [e]; unfold uriEncodeByte
    split
    · rename_i h; exact .plain ((unreserved_iff c).1 h) ih
    · exact .escape (encoded_hex c).1 (encoded_hex c).2 ih

/-- C01: unreserved strings are not changed by encoding. -/
theorem C01_encode_unreserved (s : Bytes) (h : ∀ c ∈ s, Unreserved c) : uriEncode s = s := by
  induction s with
  | nil => rfl
  | cons c s ih =>
    have e : uriEncode (c :: s) = uriEncodeByte c ++ uriEncode s := by simp [uriEncode]
    rw [e, ih (fun x hx => h x (by simp [hx]))]
    simp [uriEncodeByte, (unreserved_iff c).2 (h c (by simp))]

example : uriEncode b!"a b%" = b!"a%20b%25" := by decide
example : ∀ c ∈ b!"az-9", Unreserved c := by unfold Unreserved; decide

/-! ## C02 -/

/-- C02: decoding computes exactly the left-to-right percent-decoding relation. -/
theorem C02_decode_exact (s t : Bytes) : decodePath s = t ↔ Decodes s t :=
  ⟨fun h => h ▸ decodePath_spec s, fun h => decodes_det (decodePath_spec s) h⟩

/-- C02: decoding never grows its input. -/
theorem C02_decode_length (s : Bytes) : (decodePath s).length ≤ s.length := by
  have h := decodePath_spec s
  generalize decodePath s = t at h
  induction h with
  | nil => simp
  | escape _ _ _ ih => simp; omega
  | plain _ _ ih => simp; omega

/-- C02: strings without `%` are unchanged (in particular `+` stays `+`). -/
theorem C02_decode_no_percent (s : Bytes) (h : c!"%" ∉ s) : decodePath s = s := by
  induction s with
  | nil => rfl
  | cons c s ih =>
    simp at h
    rw [decodePath_cons_ne _ _ (fun e => h.1 e.symm), ih h.2]

/-- C02: a `%` that does not begin a complete escape is kept and decoding resumes right after it. -/
theorem C02_decode_incomplete (s : Bytes) (h : ¬ StartsEscape (c!"%" :: s)) :
    decodePath (c!"%" :: s) = c!"%" :: decodePath s :=
  decodes_det (decodePath_spec _) (.plain h (decodePath_spec s))

/-- C02: `+` is literal wherever decoding reaches it. -/
theorem C02_decode_plus (s : Bytes) : decodePath (c!"+" :: s) = c!"+" :: decodePath s :=
  decodePath_cons_ne _ _ (by decide)

example : decodePath b!"a%2Fb%zz+%4" = b!"a/b%zz+%4" := by decide
example : ¬ StartsEscape (c!"%" :: b!"4") := not_startsEscape_short _ (by decide)
example : c!"%" ∉ b!"a+b" := by decide

/-! ## C03 -/

/-- C03: escaped text contains no raw markup character and `&` only as the start of an entity. -/
theorem C03_escape_safe (s : Bytes) : HtmlSafe (escapeHtml s) := by
  induction s with
  | nil => exact .nil
  | cons c s ih =>
    have e : escapeHtml (c :: s) = escapeHtmlByte c ++ escapeHtml s := by simp [escapeHtml]
    rw [e]
    rcases escapeByte_cases c with h | ⟨h1, h2, h3⟩
    · exact .entity h ih
    · rw [h1]; exact .plain h2 h3 ih

/-- C03: none of the four markup bytes occurs in escaped text. -/
theorem C03_escape_no_markup (s : Bytes) :
    ∀ c ∈ escapeHtml s, c ≠ c!"<" ∧ c ≠ c!">" ∧ c ≠ c!"\"" ∧ c ≠ 39 := by
  have h := C03_escape_safe s
  generalize escapeHtml s = t at h
  induction h with
  | nil => simp
  | @plain c s h1 h2 _ ih =>
    intro x hx
    simp at hx h1
    rcases hx with rfl | hx
    · exact ⟨h1.1, h1.2.1, h1.2.2.1, h2⟩
    · exact ih x hx
  | @entity e s he _ ih =>
    intro x hx
    rw [List.mem_append] at hx
    rcases hx with hx | hx
    · revert x
      have : ∀ e ∈ entities, ∀ x ∈ e, x ≠ c!"<" ∧ x ≠ c!">" ∧ x ≠ c!"\"" ∧ x ≠ 39 := by
        unfold entities; decide
      exact this e he
    · exact ih x hx

/-- C03: escaping is injective. -/
theorem C03_escape_injective (s t : Bytes) (h : escapeHtml s = escapeHtml t) : s = t := by
  induction s generalizing t with
  | nil =>
    cases t with
    | nil => rfl
    | cons d t =>
      simp [escapeHtml] at h
      exact absurd h.1 (escapeByte_ne_nil d)
  | cons c s ih =>
    cases t with
    | nil =>
      simp [escapeHtml] at h
      exact absurd h.1 (escapeByte_ne_nil c)
    | cons d t =>
      have e1 : escapeHtml (c :: s) = escapeHtmlByte c ++ escapeHtml s := by simp [escapeHtml]
      have e2 : escapeHtml (d :: t) = escapeHtmlByte d ++ escapeHtml t := by simp [escapeHtml]
      rw [e1, e2] at h
      have hcd : c = d := by
        rcases Nat.le_total (escapeHtmlByte c).length (escapeHtmlByte d).length with hl | hl
        · apply escapeByte_prefix
          rw [List.isPrefixOf_iff_prefix]
          exact List.prefix_of_prefix_length_le (h ▸ List.prefix_append _ _)
            (List.prefix_append (escapeHtmlByte d) (escapeHtml t)) hl
        · symm; apply escapeByte_prefix
          rw [List.isPrefixOf_iff_prefix]
          exact List.prefix_of_prefix_length_le (h.symm ▸ List.prefix_append _ _)
            (List.prefix_append (escapeHtmlByte c) (escapeHtml s)) hl
      subst hcd
      rw [ih t (List.append_cancel_left h)]

example : escapeHtml b!"a<b>&\"" = b!"a&lt;b&gt;&amp;&quot;" := by decide

/-! ## C04 -/

/-- C04: `iequals` is byte-wise equality after mapping only `A`–`Z` to `a`–`z`. -/
theorem C04_iequals_exact (a b : Bytes) : iequals a b = true ↔ a.map lower = b.map lower := by
  unfold iequals
  induction a generalizing b with
  | nil => cases b <;> simp
  | cons x a ih =>
    cases b with
    | nil => simp
    | cons y b =>
      have := ih b
      by_cases hl : a.length = b.length
      · simp [hl] at this
        simp [hl, this]
        simp [iequalsByte_iff]
      · simp [hl] at this
        simp [hl]
        intro _; exact this

/-- C04: `iequals` agrees with comparing `ascii_to_lower` images. -/
theorem C04_iequals_lower (a b : Bytes) :
    iequals a b = true ↔ a.map asciiToLower = b.map asciiToLower := by
  have : asciiToLower = lower := funext lower_eq
  rw [this]; exact C04_iequals_exact a b

/-- C04: `iequals` is an equivalence relation. -/
theorem C04_iequals_equivalence : Equivalence (fun a b => iequals a b = true) where
  refl a := (C04_iequals_exact a a).2 rfl
  symm h := (C04_iequals_exact _ _).2 ((C04_iequals_exact _ _).1 h).symm
  trans h1 h2 := (C04_iequals_exact _ _).2
    (((C04_iequals_exact _ _).1 h1).trans ((C04_iequals_exact _ _).1 h2))

/-- C04: `ascii_to_lower` changes only `A`–`Z`. -/
theorem C04_lower_exact (c : UInt8) : (asciiToLower c).toNat =
    if 65 ≤ c.toNat ∧ c.toNat ≤ 90 then c.toNat + 32 else c.toNat := by
  rw [lower_eq]; exact lower_vals c

example : iequals b!"Content-TYPE" b!"content-type" = true := by decide
example : iequals b!"@" b!"`" = false := by decide

/-! ## C05 -/

/-- C05: the result is the list of `d`-separated fields of the input, each stripped of optional
white space, with the empty ones dropped — and the fields are determined by the input. -/
theorem C05_split_trim_exact (s : Bytes) (d : UInt8) :
    ∃ fields trimmed : List Bytes, IsFields d s fields ∧ (∀ gs, IsFields d s gs → gs = fields) ∧
      trimmed.length = fields.length ∧
      (∀ (i : Nat) f t, fields[i]? = some f → trimmed[i]? = some t → IsTrim f t) ∧
      splitAndTrim s d = trimmed.filter (· ≠ []) := by
  refine ⟨splitView s d, (splitView s d).map trimWs, splitView_spec s d,
    fun gs h => isFields_unique h (splitView_spec s d), by simp, ?_, ?_⟩
  · intro i f t h1 h2
    simp [h1] at h2
    subst h2; exact trimWs_spec f
  · rw [splitAndTrim_eq]
    apply List.filter_congr
    intro x _
    cases x <;> simp

/-- C05: `trim_http_whitespace` strips exactly the surrounding SP/HTAB. -/
theorem C05_trim_exact (t : Bytes) : IsTrim t (trimWs t) := trimWs_spec t

/-- C05: `split_view` produces exactly the `d`-separated fields (empty ones included). -/
theorem C05_split_view_exact (s : Bytes) (d : UInt8) : IsFields d s (splitView s d) :=
  splitView_spec s d

example : splitAndTrim b!" gzip ,, br\t" c!"," = [b!"gzip", b!"br"] := by decide +kernel

/-! ## C06 -/

/-- C06: for a non-empty boundary the parts are the left-to-right split at its occurrences. -/
theorem C06_split_by_exact (s b : Bytes) (hb : b ≠ []) : IsSplitBy b s (splitBy s b) :=
  splitBy_spec s b hb

/-- C06: joining the parts with the boundary restores the input. -/
theorem C06_split_by_join (s b : Bytes) (hb : b ≠ []) : join (splitBy s b) b = s := by
  rw [join_eq]; exact isSplitBy_join_eq (splitBy_spec s b hb)

/-- C06: no part contains the boundary. -/
theorem C06_split_by_parts (s b : Bytes) (hb : b ≠ []) :
    ∀ p ∈ splitBy s b, ¬ b <:+: p := by
  intro p hp
  rcases isSplitBy_part (splitBy_spec s b hb) p hp with h | h
  · exact h
  · exact absurd h hb

/-- C06: `split_string` yields the non-empty maximal runs without delimiter, in order. -/
theorem C06_split_string_exact (s delims : Bytes) :
    ∃ fields, IsFieldsP (· ∈ delims) s fields ∧
      splitString s delims = fields.filter (· ≠ []) := by
  obtain ⟨fs, h1, h2⟩ := splitIf_spec (fun c => delims.contains c) s
  refine ⟨fs, ?_, ?_⟩
  · have : (fun c => delims.contains c = true) = (· ∈ delims) := by funext c; simp
    rw [this] at h1; exact h1
  · unfold splitString
    rw [h2]
    apply List.filter_congr
    intro x _
    cases x <;> simp

/-- C06: the predicate overload likewise. -/
theorem C06_split_string_pred (p : UInt8 → Bool) (s : Bytes) :
    ∃ fields, IsFieldsP (p · = true) s fields ∧ splitIf p s = fields.filter (· ≠ []) := by
  obtain ⟨fs, h1, h2⟩ := splitIf_spec p s
  refine ⟨fs, h1, ?_⟩
  rw [h2]
  apply List.filter_congr
  intro x _
  cases x <;> simp

/-- C06: the separated fields are unique, so the two statements above determine the result. -/
theorem C06_fields_unique (p : UInt8 → Prop) (s : Bytes) (fs gs : List Bytes)
    (h1 : IsFieldsP p s fs) (h2 : IsFieldsP p s gs) : fs = gs := by
  induction h1 generalizing gs with
  | last h =>
    cases h2 with
    | last _ => rfl
    | more _ hd _ => exact absurd hd (h _ (by simp))
  | @more f d s fs hf hd _ ih =>
    generalize hw : f ++ d :: s = w at h2
    cases h2 with
    | last h => exact absurd hd (h d (by rw [← hw]; simp))
    | @more g e t gs hg he h' =>
      have key : ∀ (f g : Bytes), (∀ c ∈ f, ¬ p c) → (∀ c ∈ g, ¬ p c) →
          f ++ d :: s = g ++ e :: t → f = g ∧ s = t := by
        intro f
        induction f with
        | nil =>
          intro g _ hg h
          cases g with
          | nil => simp at h; exact ⟨rfl, h.2⟩
          | cons a g => simp at h; exact absurd (h.1 ▸ hd) (hg a (by simp))
        | cons a f ih =>
          intro g hf hg h
          cases g with
          | nil => simp at h; exact absurd (h.1 ▸ he) (hf a (by simp))
          | cons b g =>
            simp at h
            have := ih g (fun c hc => hf c (by simp [hc])) (fun c hc => hg c (by simp [hc])) h.2
            simp [h.1, this]
      obtain ⟨rfl, rfl⟩ := key f g hf hg hw
      rw [ih gs h']

example : splitBy b!"a--b----c" b!"--" = [b!"a", b!"b", [], b!"c"] := by decide +kernel
example : splitString b!"/a//b/" b!"/" = [b!"a", b!"b"] := by decide +kernel

end Verif.Utility
