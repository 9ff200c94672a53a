import Verif.Valid.TheoremsSanitize

/-! C148: strip_html_tags, and C149: escape_sql_like. -/

namespace Verif.Valid

/-! ### C148 -/

/-- C148: the result is what is left of the text after taking bytes away. -/
theorem C148_sublist (s : Bytes) : (stripHtmlTags s).Sublist s := by
  have := strip_sublist .text s
  simpa [stripHtmlTags] using this

/-- C148: text without `<` is not changed, and what comes before the first `<` is kept. -/
theorem C148_text (s t : Bytes) (h : c!"<" ∉ s) : stripHtmlTags (s ++ t) = s ++ stripHtmlTags t := by
  unfold stripHtmlTags
  induction s with
  | nil => rfl
  | cons c cs ih =>
    simp only [List.mem_cons, not_or] at h
    rw [List.cons_append, strip, if_neg (fun e => h.1 e.symm), ih h.2]; rfl

theorem strip_inTag (body rest : Bytes) (h : ∀ c ∈ body, c ≠ c!">" ∧ c ≠ 34 ∧ c ≠ 39) :
    strip .inTag (body ++ rest) = strip .inTag rest := by
  induction body with
  | nil => rfl
  | cons c cs ih =>
    have hc := h c List.mem_cons_self
    rw [List.cons_append, strip, if_neg (by simp [hc.2.1, hc.2.2]), if_neg hc.1, ih fun d hd => h d (List.mem_cons_of_mem _ hd)]

theorem strip_quoted (q : Byte) (val rest : Bytes) (h : q ∉ val) : strip (.quoted q) (val ++ q :: rest) = strip .inTag rest := by
  induction val with
  | nil => rw [List.nil_append, strip, if_pos rfl]
  | cons c cs ih =>
    simp only [List.mem_cons, not_or] at h
    rw [List.cons_append, strip, if_neg (fun e => h.1 e.symm), ih h.2]

/-- A piece of a tag: bytes that are not `>` or a quote, or a quoted value. -/
inductive Piece where
  | plain (b : Bytes) (h : ∀ c ∈ b, c ≠ c!">" ∧ c ≠ 34 ∧ c ≠ 39)
  | quoted (q : Byte) (val : Bytes) (hq : q = 34 ∨ q = 39) (h : q ∉ val)

def Piece.bytes : Piece → Bytes
  | .plain b _ => b
  | .quoted q val _ _ => q :: (val ++ [q])

theorem strip_pieces (ps : List Piece) (rest : Bytes) : strip .inTag (ps.flatMap Piece.bytes ++ rest) = strip .inTag rest := by
  induction ps with
  | nil => rfl
  | cons p ps ih =>
    rw [List.flatMap_cons, List.append_assoc]
    cases p with
    | plain b h => simp only [Piece.bytes]; rw [strip_inTag _ _ h, ih]
    | quoted q val hq h =>
      simp only [Piece.bytes, List.cons_append, List.append_assoc, List.nil_append]
      rw [strip, if_pos hq, strip_quoted _ _ _ h, ih]

theorem strip_name (c : Byte) (cs : Bytes) (h : c = c!"/" ∨ LetterOrDigit c) : strip .tagStart (c :: cs) = strip .inTag cs := by
  have h33 : c ≠ 33 := by
    rintro rfl
    rcases h with h | h
    · exact absurd h (by decide)
    · rcases h with h | h | h <;> revert h <;> decide
  rw [strip, if_pos (h.imp id (fun h => (alnum_iff c).2 h) |> Or.inr)]
  intro cs' e; exact absurd e h33

/-- C148: a tag is removed, whatever its attributes, even with `>` in quoted values ... -/
theorem C148_tag (c : Byte) (ps : List Piece) (rest : Bytes) (h : c = c!"/" ∨ LetterOrDigit c) :
    stripHtmlTags (c!"<" :: c :: (ps.flatMap Piece.bytes ++ c!">" :: rest)) = stripHtmlTags rest := by
  unfold stripHtmlTags
  rw [strip, if_pos rfl, strip_name _ _ h, strip_pieces, strip, if_neg (by decide), if_pos rfl]

/-- ... and so is one that the text ends in. -/
theorem C148_unterminated (c : Byte) (ps : List Piece) (h : c = c!"/" ∨ LetterOrDigit c) :
    stripHtmlTags (c!"<" :: c :: ps.flatMap Piece.bytes) = [] := by
  unfold stripHtmlTags
  have := strip_pieces ps []
  rw [List.append_nil] at this
  rw [strip, if_pos rfl, strip_name _ _ h, this, strip]

theorem strip_comment (body rest : Bytes) (h : (45 : Byte) ∉ body) : strip .comment (body ++ 45 :: 45 :: 62 :: rest) = strip .text rest := by
  induction body with
  | nil => rw [List.nil_append, strip, strip, if_pos rfl]
  | cons c cs ih =>
    simp only [List.mem_cons, not_or] at h
    rw [List.cons_append, strip, ih h.2]
    intro cs' e; exact absurd e.symm h.1

/-- C148: a comment is removed, whatever tags are in it. -/
theorem C148_comment (body rest : Bytes) (h : (45 : Byte) ∉ body) :
    stripHtmlTags (b!"<!--" ++ body ++ b!"-->" ++ rest) = stripHtmlTags rest := by
  unfold stripHtmlTags
  simp only [List.cons_append, List.nil_append, List.append_assoc]
  rw [strip, if_pos rfl, strip, strip_comment _ _ h]

/-- Every `<` is followed by a byte that cannot begin a tag. -/
def NoTag (t : Bytes) : Prop := ∀ l r, t = l ++ c!"<" :: r → ∃ d r', r = d :: r' ∧ d ≠ c!"/" ∧ d ≠ c!"!" ∧ ¬ LetterOrDigit d

/-- No two `<` in a row. -/
def NoDouble (s : Bytes) : Prop := ∀ l r, s ≠ l ++ c!"<" :: c!"<" :: r

theorem NoDouble.tail {c : Byte} {s : Bytes} (h : NoDouble (c :: s)) : NoDouble s := fun l r e => h (c :: l) r (by rw [e]; rfl)

theorem NoDouble.cons {c : Byte} {s : Bytes} (h : NoDouble s) (hc : c ≠ c!"<") : NoDouble (c :: s) := by
  intro l r e
  cases l with
  | nil => exact hc (List.cons.inj e).1
  | cons x l => exact h l r (List.cons.inj e).2

theorem NoTag.cons {c : Byte} {s : Bytes} (h : NoTag s) (hc : c ≠ c!"<") : NoTag (c :: s) := by
  intro l r e
  cases l with
  | nil => exact absurd (List.cons.inj e).1 hc
  | cons x l => exact h l r (List.cons.inj e).2

theorem strip_noTag (st : TagState) (s : Bytes) (h : NoDouble (if st = .tagStart then c!"<" :: s else s)) : NoTag (strip st s) := by
  have nil : NoTag [] := fun l r e => by simp at e
  induction st, s using strip.induct with
  | case1 st => rw [strip]; exact nil
  | case2 cs ih => rw [strip, if_pos rfl]; exact ih (by simpa using h)
  | case3 c cs hc ih => rw [strip, if_neg hc]; exact (ih (by simpa using NoDouble.tail (by simpa using h))).cons hc
  | case4 cs ih => rw [strip]; exact ih (by simp at h ⊢; exact h.tail.tail.tail.tail)
  | case5 c cs h1 h2 ih =>
    rw [strip, if_pos h2]
    · exact ih (by simp at h ⊢; exact h.tail.tail)
    · exact h1
  | case6 c cs h1 h2 ih =>
    rw [strip, if_neg h2]
    · simp only [not_or] at h2
      have hc : c ≠ c!"<" := by
        rintro rfl
        exact h [] cs (by simp)
      have hr := ih (by simp at h ⊢; exact h.tail.tail)
      intro l r e
      cases l with
      | nil =>
        cases e
        exact ⟨c, _, rfl, h2.2.1, h2.1, fun hl => h2.2.2 ((alnum_iff c).2 hl)⟩
      | cons x l => exact hr.cons hc l r (List.cons.inj e).2
    · exact h1
  | case7 c cs hc ih => rw [strip, if_pos hc]; exact ih (by simp at h ⊢; exact h.tail)
  | case8 cs hc ih => rw [strip, if_neg hc, if_pos rfl]; exact ih (by simp at h ⊢; exact h.tail)
  | case9 c cs h1 h2 ih => rw [strip, if_neg h1, if_neg h2]; exact ih (by simp at h ⊢; exact h.tail)
  | case10 cs q ih => rw [strip, if_pos rfl]; exact ih (by simp at h ⊢; exact h.tail)
  | case11 q c cs hc ih => rw [strip, if_neg hc]; exact ih (by simp at h ⊢; exact h.tail)
  | case12 cs ih => rw [strip]; exact ih (by simp at h ⊢; exact h.tail.tail)
  | case13 c cs hc ih => rw [strip]; exact ih (by simp at h ⊢; exact h.tail); exact hc
  | case14 cs ih => rw [strip, if_pos rfl]; exact ih (by simp at h ⊢; exact h.tail)
  | case15 c cs h1 h2 ih => rw [strip, if_neg h1, if_pos h2]; exact ih (by simp at h ⊢; exact h.tail)
  | case16 c cs h1 h2 ih => rw [strip, if_neg h1, if_neg h2]; exact ih (by simp at h ⊢; exact h.tail)

/-- C148, in part: no tag is left, if the text has no `<<`. -/
theorem C148_no_tag_partial (s : Bytes) (h : NoDouble s) : NoTag (stripHtmlTags s) := strip_noTag .text s (by simpa using h)

/-- The full claim is false: the second `<` of `<<` is taken for text with what follows it. -/
theorem C148_full_is_false : stripHtmlTags b!"<<img src=x onerror=alert(1)>" = b!"<<img src=x onerror=alert(1)>" := by rfl

def checkDouble : Bytes → Bool
  | 60 :: 60 :: _ => false
  | _ :: s => checkDouble s
  | [] => true

theorem noDouble_of (s : Bytes) (h : checkDouble s = true) : NoDouble s := by
  intro l r e
  subst e
  induction l with
  | nil => cases h
  | cons c l ih =>
    refine ih ?_
    rw [List.cons_append, checkDouble] at h
    · exact h
    · rintro s rfl e
      rw [e] at h
      cases h

theorem C148_example : stripHtmlTags b!"a < b <b class='>'>c</b> <!-- <i> -->d <" = b!"a < b c d " ∧ NoDouble b!"a < b <b class='>'>c</b> <!-- <i> -->d <" := by
  exact ⟨by rfl, noDouble_of _ (by rfl)⟩

/-! ### C149 -/

def wild (s : Bytes) : Bytes := s.flatMap fun c => if c = c!"%" ∨ c = c!"_" then [92, c] else [c]

theorem unquote_double (p : Bytes) : unquote (p.flatMap fun c => if c = 39 then [39, 39] else [c]) = some p := by
  induction p with
  | nil => rfl
  | cons c cs ih =>
    rw [List.flatMap_cons]
    by_cases hc : c = 39
    · subst hc
      rw [if_pos rfl]
      simp only [List.cons_append, List.nil_append]
      rw [unquote, ih]; rfl
    · rw [if_neg hc]
      simp only [List.cons_append, List.nil_append]
      rw [unquote, ih]
      · rfl
      · intro cs' e; exact absurd e hc
      · intro e; exact absurd e hc

/-- C149: put between quotes, the escaped text is one complete SQL string literal, whatever the text. -/
theorem C149_literal (s : Bytes) : ∃ p, unquote (escapeSqlLike s) = some p := ⟨wild s, unquote_double _⟩

theorem like_esc (c : Byte) (p t : Bytes) : Like (92 :: c :: p) t ↔ ∃ t', t = c :: t' ∧ Like p t' := by
  constructor
  · intro hl
    cases hl with
    | esc _ _ t hl => exact ⟨t, rfl, hl⟩
    | lit _ _ t h1 h2 h3 hl => exact absurd rfl h3
  · rintro ⟨t', rfl, h⟩; exact .esc _ _ _ h

theorem like_lit (c : Byte) (p t : Bytes) (h1 : c ≠ 37) (h2 : c ≠ 95) (h3 : c ≠ 92) : Like (c :: p) t ↔ ∃ t', t = c :: t' ∧ Like p t' := by
  constructor
  · intro hl
    generalize hq : c :: p = q at hl
    cases hl with
    | nil => cases hq
    | any => exact absurd (List.cons.inj hq).1 h1
    | one => exact absurd (List.cons.inj hq).1 h2
    | esc => exact absurd (List.cons.inj hq).1 h3
    | lit _ _ t _ _ _ hl => cases hq; exact ⟨t, rfl, hl⟩
  · rintro ⟨t', rfl, h⟩; exact .lit _ _ _ h1 h2 h3 h

theorem like_wild (s : Bytes) (h : (92 : Byte) ∉ s) (t : Bytes) : Like (wild s) t ↔ t = s := by
  induction s generalizing t with
  | nil =>
    constructor
    · intro h; cases h; rfl
    · rintro rfl; exact .nil
  | cons c cs ih =>
    simp only [List.mem_cons, not_or] at h
    have e : wild (c :: cs) = (if c = c!"%" ∨ c = c!"_" then [92, c] else [c]) ++ wild cs := by simp [wild]
    rw [e]
    have fin : (∃ t', t = c :: t' ∧ Like (wild cs) t') ↔ t = c :: cs := by
      constructor
      · rintro ⟨t', rfl, h'⟩; rw [(ih h.2 t').1 h']
      · rintro rfl; exact ⟨cs, rfl, (ih h.2 cs).2 rfl⟩
    by_cases hc : c = c!"%" ∨ c = c!"_"
    · rw [if_pos hc]
      simp only [List.cons_append, List.nil_append]
      rw [like_esc, fin]
    · rw [if_neg hc]
      simp only [not_or] at hc
      simp only [List.cons_append, List.nil_append]
      rw [like_lit _ _ _ hc.1 hc.2 (fun e => h.1 e.symm), fin]

/-- C149, in part: as a pattern of `LIKE` with the backslash as escape character, the literal matches the text
itself and nothing else, if the text has no backslash. -/
theorem C149_like_partial (s : Bytes) (h : (92 : Byte) ∉ s) :
    ∃ p, unquote (escapeSqlLike s) = some p ∧ ∀ t, Like p t ↔ t = s := ⟨wild s, unquote_double _, like_wild s h⟩

/-- The full claim is false: the backslash itself is not escaped, so `\%` becomes `\\%`, a backslash and then
anything. -/
theorem C149_full_is_false : unquote (escapeSqlLike [92, 37]) = some [92, 92, 37] ∧ ∀ t : Bytes, Like [92, 92, 37] (92 :: t) := by
  refine ⟨by rfl, fun t => .esc _ _ _ ?_⟩
  have := Like.any [] t [] .nil
  rwa [List.append_nil] at this

theorem C149_example : escapeSqlLike b!"50%_o'x" = b!"50\\%\\_o''x" := by rfl

end Verif.Valid
