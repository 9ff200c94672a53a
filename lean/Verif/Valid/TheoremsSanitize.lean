import Verif.Valid.ModelSanitize
import Verif.Valid.SpecSanitize

/-! C146 to C149: the predefined sanitizers. -/

namespace Verif.Valid

theorem space_iff (c : Byte) : isSpace c = true ↔ White c := by
  unfold isSpace White
  simp only [Bool.or_eq_true, beq_iff_eq, List.mem_cons, List.not_mem_nil, or_false]
  constructor
  · rintro (((((h | h) | h) | h) | h) | h) <;> simp [h]
  · rintro (h | h | h | h | h | h) <;> simp [h]

theorem alnum_iff (c : Byte) : isAlnum c = true ↔ LetterOrDigit c := by
  unfold isAlnum LetterOrDigit
  simp only [Bool.or_eq_true, Bool.and_eq_true, decide_eq_true_eq, UInt8.le_iff_toNat_le]
  simp only [UInt8.reduceToNat]
  constructor
  · rintro ((h | h) | h)
    · exact .inl h
    · exact .inr (.inl h)
    · exact .inr (.inr h)
  · rintro (h | h | h)
    · exact .inl (.inl h)
    · exact .inl (.inr h)
    · exact .inr h

/-! ### C146: escape_html -/

theorem unescape_other (c : Byte) (rest : Bytes) (h : c ≠ 38) : unescape (c :: rest) = c :: unescape rest := by
  rw [unescape] <;> (intros; rename_i h' _; exact absurd h' h)

theorem unescape_byte (c : Byte) (rest : Bytes) : unescape (escapeByte c ++ rest) = c :: unescape rest := by
  unfold escapeByte
  repeat' split
  case isFalse.isFalse.isFalse.isFalse.isFalse h1 _ _ _ _ => exact unescape_other c rest h1
  all_goals (subst_vars; simp only [List.cons_append, List.nil_append]; rw [unescape])

/-- C146: reading the escaped text as HTML gives the text back ... -/
theorem C146_round_trip (s : Bytes) : unescape (escapeHtml s) = s := by
  induction s with
  | nil => rfl
  | cons c cs ih => simp only [escapeHtml, List.flatMap_cons] at ih ⊢; rw [unescape_byte, ih]

theorem escapeByte_cases (c : Byte) : (escapeByte c ∈ [b!"&amp;", b!"&lt;", b!"&gt;", b!"&quot;", b!"&#39;"]) ∨
    (escapeByte c = [c] ∧ c ≠ 38 ∧ c ≠ 60 ∧ c ≠ 62 ∧ c ≠ 34 ∧ c ≠ 39) := by
  unfold escapeByte
  repeat' split
  all_goals first
    | (left; simp; done)
    | (right; exact ⟨rfl, by assumption, by assumption, by assumption, by assumption, by assumption⟩)

/-- ... it has no `<`, `>` or quote ... -/
theorem C146_no_markup (s : Bytes) (c : Byte) (h : c ∈ escapeHtml s) : c ≠ c!"<" ∧ c ≠ c!">" ∧ c ≠ 34 ∧ c ≠ 39 := by
  unfold escapeHtml at h
  obtain ⟨x, -, hc⟩ := List.mem_flatMap.1 h
  rcases escapeByte_cases x with hx | ⟨hx, h1, h2, h3, h4, h5⟩
  · simp only [List.mem_cons, List.not_mem_nil, or_false] at hx
    clear h
    rcases hx with hx | hx | hx | hx | hx <;> rw [hx] at hc <;> clear hx <;> revert c <;> decide
  · rw [hx, List.mem_singleton] at hc; subst hc; exact ⟨h2, h3, h4, h5⟩

/-- ... and every `&` in it begins one of the five references. -/
theorem C146_references (s l r : Bytes) (h : escapeHtml s = l ++ c!"&" :: r) :
    ∃ e r', e ∈ [b!"amp;", b!"lt;", b!"gt;", b!"quot;", b!"#39;"] ∧ r = e ++ r' := by
  induction s generalizing l with
  | nil => simp [escapeHtml] at h
  | cons c cs ih =>
    simp only [escapeHtml, List.flatMap_cons] at h ih
    rcases escapeByte_cases c with hx | ⟨hx, h1, -⟩
    · have key : ∀ t, escapeByte c = 38 :: t → (∀ x ∈ t, x ≠ 38) → t ∈ [b!"amp;", b!"lt;", b!"gt;", b!"quot;", b!"#39;"] →
          ∃ e r', e ∈ [b!"amp;", b!"lt;", b!"gt;", b!"quot;", b!"#39;"] ∧ r = e ++ r' := by
        intro t he ht hm
        rw [he, List.cons_append] at h
        rcases List.append_eq_append_iff.1 (show (38 :: t) ++ cs.flatMap escapeByte = l ++ 38 :: r from h) with ⟨a, e1, e2⟩ | ⟨a, e1, e2⟩
        · exact ih a e2
        · cases l with
          | nil => simp only [List.nil_append] at e1; cases a with
            | nil => cases e1
            | cons x a => cases e1; simp only [List.cons_append] at e2; cases e2; exact ⟨t, _, hm, rfl⟩
          | cons x l =>
            cases a with
            | nil => exact ih [] (by simpa using e2.symm)
            | cons y a =>
              simp only [List.cons_append] at e1 e2
              cases e1; cases e2
              exact absurd rfl (ht 38 (by simp))
      simp only [List.mem_cons, List.not_mem_nil, or_false] at hx
      rcases hx with hx | hx | hx | hx | hx <;> exact key _ hx (by decide) (by decide)
    · rw [hx] at h
      cases l with
      | nil => exact absurd (List.cons.inj h).1 h1
      | cons x l => exact ih l (List.cons.inj h).2

theorem C146_example : escapeHtml b!"<a href='x'>&</a>" = b!"&lt;a href=&#39;x&#39;&gt;&amp;&lt;/a&gt;" := by rfl

/-! ### C147: white space, case, letters and digits -/

theorem takeWhile_all {α : Type} (p : α → Bool) (s : List α) : ∀ c ∈ s.takeWhile p, p c = true := by
  induction s with
  | nil => simp
  | cons a as ih =>
    rw [List.takeWhile_cons]
    split
    · intro c hc
      rcases List.mem_cons.1 hc with rfl | hc
      · assumption
      · exact ih c hc
    · simp

theorem dropWhile_head {α : Type} (p : α → Bool) (s : List α) (c : α) (h : (s.dropWhile p).head? = some c) : p c = false := by
  induction s with
  | nil => simp at h
  | cons a as ih =>
    rw [List.dropWhile_cons] at h
    split at h
    · exact ih h
    · cases h; simpa using ‹¬ p _ = true›

theorem trim_eq (s : Bytes) : trim s = ((s.dropWhile isSpace).reverse.dropWhile isSpace).reverse := by
  unfold trim
  simp only
  split
  · rename_i h; rw [h]; rfl
  · rfl

/-- C147: `trim` removes the white space at both ends and nothing else. -/
theorem C147_trim (s : Bytes) : ∃ l r, s = l ++ trim s ++ r ∧ (∀ c ∈ l ++ r, White c) ∧
    (∀ c, (trim s).head? = some c → ¬ White c) ∧ (∀ c, (trim s).getLast? = some c → ¬ White c) := by
  have e1 := List.takeWhile_append_dropWhile (p := isSpace) (l := s)
  have e2 := List.takeWhile_append_dropWhile (p := isSpace) (l := (s.dropWhile isSpace).reverse)
  have e3 : s.dropWhile isSpace = trim s ++ ((s.dropWhile isSpace).reverse.takeWhile isSpace).reverse := by
    rw [trim_eq, ← List.reverse_append, e2, List.reverse_reverse]
  refine ⟨s.takeWhile isSpace, ((s.dropWhile isSpace).reverse.takeWhile isSpace).reverse, ?_, ?_, ?_, ?_⟩
  · rw [List.append_assoc, ← e3, e1]
  · intro c hc
    rw [← space_iff]
    rcases List.mem_append.1 hc with h | h
    · exact takeWhile_all _ _ _ h
    · exact takeWhile_all _ _ _ (List.mem_reverse.1 h)
  · intro c hc
    rw [← space_iff]
    have : (s.dropWhile isSpace).head? = some c := by
      rw [e3]
      cases ht : trim s with
      | nil => rw [ht] at hc; cases hc
      | cons a as => rw [ht] at hc; exact hc
    simp [dropWhile_head _ _ _ this]
  · intro c hc
    rw [← space_iff]
    rw [trim_eq, List.getLast?_reverse] at hc
    simp [dropWhile_head _ _ _ hc]

theorem wordsFrom_ne (cur t : Bytes) (h : cur ≠ [] ∨ ∃ c ∈ t, ¬ White c) : wordsFrom cur t ≠ [] := by
  induction t generalizing cur with
  | nil => rcases h with h | ⟨c, h, _⟩
           · simp [wordsFrom, h]
           · cases h
  | cons c cs ih =>
    simp only [wordsFrom]
    split
    · rename_i hw
      rcases h with h | ⟨d, hd, hn⟩
      · simp [h]
      · rcases List.mem_cons.1 hd with rfl | hd
        · exact absurd hw hn
        · have := ih [] (.inr ⟨d, hd, hn⟩)
          simp [this]
    · exact ih _ (.inl (by simp))

/-- The last byte is not white space, if there is one. -/
def EndsIn (t : Bytes) : Prop := ∀ c, t.getLast? = some c → ¬ White c

theorem EndsIn.tail {c : Byte} {cs : Bytes} (h : EndsIn (c :: cs)) : EndsIn cs := by
  intro d hd
  cases cs with
  | nil => cases hd
  | cons a as => exact h d (by rw [List.getLast?_cons_cons]; exact hd)

theorem EndsIn.nonwhite {t : Bytes} (h : EndsIn t) (hn : t ≠ []) : ∃ c ∈ t, ¬ White c :=
  ⟨t.getLast hn, List.getLast_mem hn, h _ (List.getLast?_eq_some_getLast hn)⟩

theorem squeeze_words (t : Bytes) (h : EndsIn t) :
    (∀ cur, cur ≠ [] → List.intercalate [32] (wordsFrom cur t) = cur ++ squeeze false t) ∧
    List.intercalate [32] (wordsFrom [] t) = squeeze true t := by
  induction t with
  | nil =>
    refine ⟨fun cur hc => ?_, ?_⟩
    · simp [wordsFrom, hc, squeeze, List.intercalate]
    · simp [wordsFrom, squeeze, List.intercalate]
  | cons c cs ih =>
    obtain ⟨i1, i2⟩ := ih h.tail
    by_cases hw : White c
    · have hs : isSpace c = true := (space_iff c).2 hw
      have hcs : cs ≠ [] := by
        rintro rfl
        exact h c rfl hw
      have hne := wordsFrom_ne [] cs (.inr (h.tail.nonwhite hcs))
      refine ⟨fun cur hc => ?_, ?_⟩
      · simp only [wordsFrom, squeeze, if_pos hw, if_neg hc, if_pos hs, Bool.false_eq_true, if_false]
        rw [← i2]
        cases hwf : wordsFrom [] cs with
        | nil => exact absurd hwf hne
        | cons a as => simp [List.intercalate]
      · simp only [wordsFrom, squeeze, if_pos hw, if_pos hs, if_true, List.nil_append]
        exact i2
    · have hs : ¬ isSpace c = true := fun h => hw ((space_iff c).1 h)
      refine ⟨fun cur hc => ?_, ?_⟩
      · simp only [wordsFrom, squeeze, if_neg hw, if_neg hs]
        rw [i1 _ (by simp)]; simp
      · simp only [wordsFrom, squeeze, if_neg hw, if_neg hs]
        rw [List.nil_append, i1 _ (by simp)]; simp

theorem words_left (l t : Bytes) (h : ∀ c ∈ l, White c) : wordsFrom [] (l ++ t) = wordsFrom [] t := by
  induction l with
  | nil => rfl
  | cons c cs ih =>
    simp only [List.cons_append, wordsFrom, if_pos (h c List.mem_cons_self), if_true, List.nil_append]
    exact ih fun d hd => h d (List.mem_cons_of_mem _ hd)

theorem words_right (cur t r : Bytes) (h : ∀ c ∈ r, White c) : wordsFrom cur (t ++ r) = wordsFrom cur t := by
  induction t generalizing cur with
  | nil =>
    cases r with
    | nil => rfl
    | cons c cs =>
      have := words_left cs [] (fun d hd => h d (List.mem_cons_of_mem _ hd))
      rw [List.append_nil] at this
      simp only [List.nil_append, wordsFrom, if_pos (h c List.mem_cons_self), this]
      simp
  | cons c cs ih =>
    simp only [List.cons_append, wordsFrom]
    split
    · rw [ih]
    · rw [ih]

/-- C147: `normalize_whitespace` gives the words of the text with single spaces between them. -/
theorem C147_normalize (s : Bytes) : normalizeWhitespace s = List.intercalate [32] (words s) := by
  obtain ⟨l, r, e, hlr, hh, hl⟩ := C147_trim s
  have hw : words s = wordsFrom [] (trim s) := by
    unfold words
    rw [e, words_right [] _ r (fun c hc => hlr c (List.mem_append_right _ hc)), words_left l _ (fun c hc => hlr c (List.mem_append_left _ hc)), ← e]
  rw [hw, (squeeze_words (trim s) hl).2]
  unfold normalizeWhitespace
  simp only
  split
  · rename_i h; rw [h]; rfl
  · rename_i h
    cases ht : trim s with
    | nil => exact absurd ht h
    | cons c cs =>
      have hs : ¬ isSpace c = true := fun h' => hh c (by rw [ht]; rfl) ((space_iff c).1 h')
      simp only [squeeze, if_neg hs]

/-- C147: `alphanumeric_only` keeps the letters and digits, in their order, and nothing else. -/
theorem C147_alphanumeric (s : Bytes) : (alphanumericOnly s).Sublist s ∧ (∀ c ∈ alphanumericOnly s, LetterOrDigit c) ∧
    ∀ t : Bytes, t.Sublist s → (∀ c ∈ t, LetterOrDigit c) → t.Sublist (alphanumericOnly s) := by
  refine ⟨List.filter_sublist, fun c hc => (alnum_iff c).1 (List.mem_filter.1 hc).2, fun t ht h => ?_⟩
  have h2 : t.filter isAlnum = t := List.filter_eq_self.2 fun c hc => (alnum_iff c).2 (h c hc)
  have h3 := ht.filter isAlnum
  rw [h2] at h3; exact h3

set_option maxRecDepth 4000 in
theorem lower_byte : ∀ c : Byte, (if 65 ≤ c ∧ c ≤ 90 then c + 32 else c).toNat = if 65 ≤ c.toNat ∧ c.toNat ≤ 90 then c.toNat + 32 else c.toNat :=
  forall_byte (by decide)

set_option maxRecDepth 4000 in
theorem upper_byte : ∀ c : Byte, (if 97 ≤ c ∧ c ≤ 122 then c - 32 else c).toNat = if 97 ≤ c.toNat ∧ c.toNat ≤ 122 then c.toNat - 32 else c.toNat :=
  forall_byte (by decide)

/-- C147: the case sanitizers change the ASCII letters of the other case and nothing else, byte by byte. -/
theorem C147_case (s : Bytes) : (toLower s).length = s.length ∧ (toUpper s).length = s.length ∧
    ∀ (i : Nat) c, s[i]? = some c →
      (∃ d, (toLower s)[i]? = some d ∧ d.toNat = if 65 ≤ c.toNat ∧ c.toNat ≤ 90 then c.toNat + 32 else c.toNat) ∧
      (∃ d, (toUpper s)[i]? = some d ∧ d.toNat = if 97 ≤ c.toNat ∧ c.toNat ≤ 122 then c.toNat - 32 else c.toNat) := by
  refine ⟨by simp [toLower], by simp [toUpper], fun i c h => ⟨⟨_, by simp [toLower, h]; rfl, ?_⟩, ⟨_, by simp [toUpper, h]; rfl, ?_⟩⟩⟩
  · exact lower_byte c
  · exact upper_byte c

theorem C147_example : normalizeWhitespace [32, 97, 9, 10, 98, 99, 32] = b!"a bc" ∧ trim [32, 97, 9, 10, 98, 99, 32] = [97, 9, 10, 98, 99] := by
  constructor <;> rfl

/-! ### C148: strip_html_tags -/

/-- C148: the result is what is left of the text after taking bytes away. -/
theorem strip_sublist (st : TagState) (s : Bytes) : (strip st s).Sublist (if st = .tagStart then c!"<" :: s else s) := by
  induction st, s using strip.induct with
  | case1 st => split <;> simp [strip]
  | case2 cs ih => rw [strip]; simp at ih ⊢; exact ih
  | case3 c cs h ih => rw [strip]; simp [h] at ih ⊢; exact ih
  | case4 cs ih => rw [strip]; simp at ih ⊢; exact ((ih.cons _).cons _).cons _ |>.cons _
  | case5 c cs h1 h2 ih => 
    rw [strip, if_pos h2]
    · simp at ih ⊢; exact (ih.cons _).cons _
    · exact h1
  | case6 c cs h1 h2 ih =>
    rw [strip, if_neg h2]
    · simp at ih ⊢; exact ih
    · exact h1
  | case7 c cs h ih => rw [strip, if_pos h]; simp at ih ⊢; exact ih.cons _
  | case8 cs h ih => rw [strip, if_neg h, if_pos rfl]; simp at ih ⊢; exact ih.cons _
  | case9 c cs h1 h2 ih => rw [strip, if_neg h1, if_neg h2]; simp at ih ⊢; exact ih.cons _
  | case10 cs q ih => rw [strip, if_pos rfl]; simp at ih ⊢; exact ih.cons _
  | case11 q c cs h ih => rw [strip, if_neg h]; simp at ih ⊢; exact ih.cons _
  | case12 cs ih => rw [strip]; simp at ih ⊢; exact (ih.cons _).cons _
  | case13 c cs h ih => rw [strip]; simp at ih ⊢; exact ih.cons _; exact h
  | case14 cs ih => rw [strip, if_pos rfl]; simp at ih ⊢; exact ih.cons _
  | case15 c cs h1 h2 ih => rw [strip, if_neg h1, if_pos h2]; simp at ih ⊢; exact ih.cons _
  | case16 c cs h1 h2 ih => rw [strip, if_neg h1, if_neg h2]; simp at ih ⊢; exact ih.cons _

end Verif.Valid
