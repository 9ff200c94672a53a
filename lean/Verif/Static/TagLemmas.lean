import Verif.Static.RangeLemmas

/-! Lemmas on entity-tag lists. -/

namespace Verif.Static
open Verif Verif.Utility

def WsOnly (w : Bytes) : Prop := ∀ c ∈ w, c = c!" " ∨ c = 9

theorem WsOnly.isWs {w : Bytes} (h : WsOnly w) : ∀ c ∈ w, isWs c = true := by
  intro c hc
  rcases h c hc with rfl | rfl <;> decide

theorem trimWs_pre {w : Bytes} (h : WsOnly w) (s : Bytes) : trimWs (w ++ s) = trimWs s := by
  unfold trimWs
  rw [List.dropWhile_append_of_pos h.isWs]

theorem dropWhile_all {p : Byte → Bool} {s : Bytes} (h : ∀ c ∈ s, p c = true) : s.dropWhile p = [] := by
  have := List.dropWhile_append_of_pos (l₂ := []) h
  simpa using this

theorem trimWs_post {w : Bytes} (h : WsOnly w) (s : Bytes) : trimWs (s ++ w) = trimWs s := by
  unfold trimWs
  rw [List.dropWhile_append]
  have hw := h.isWs
  split
  · rename_i he
    have he : s.dropWhile isWs = [] := by simpa using he
    rw [he, dropWhile_all hw]
  · rw [List.reverse_append, List.dropWhile_append_of_pos (by simpa using hw)]

/-- A string that starts and ends with something else than white space is its own trimming. -/
theorem trimWs_self {s : Bytes} (h1 : ∀ c, s.head? = some c → isWs c = false)
    (h2 : ∀ c, s.getLast? = some c → isWs c = false) : trimWs s = s := by
  unfold trimWs
  have hd : ∀ {x : Bytes}, (∀ c, x.head? = some c → isWs c = false) → x.dropWhile isWs = x := by
    intro x hx
    cases x with
    | nil => rfl
    | cons c x => rw [List.dropWhile_cons_of_neg (by simp [hx c rfl])]
  rw [hd h1, hd (by simpa [List.head?_reverse] using h2), List.reverse_reverse]

/-- Split at commas. -/
def splitC : Bytes → List Bytes
  | [] => [[]]
  | c :: s => if c = c!"," then [] :: splitC s else
    match splitC s with
    | [] => [[c]]
    | h :: t => (c :: h) :: t

theorem splitC_ne (s : Bytes) : splitC s ≠ [] := by
  induction s with
  | nil => simp [splitC]
  | cons c s _ => rw [splitC]; split <;> (try split) <;> simp

theorem splitC_pre {w : Bytes} (h : c!"," ∉ w) (s : Bytes) :
    splitC (w ++ s) = (w ++ (splitC s).headD []) :: (splitC s).tail := by
  induction w with
  | nil =>
    have := splitC_ne s
    cases hs : splitC s with
    | nil => exact absurd hs this
    | cons a b => simp [hs]
  | cons c w ih =>
    simp only [List.mem_cons, not_or] at h
    rw [List.cons_append, splitC, if_neg (fun e => h.1 e.symm), ih h.2]
    rfl

theorem splitC_free {w : Bytes} (h : c!"," ∉ w) : splitC w = [w] := by
  have := splitC_pre h []
  simpa [splitC] using this

theorem splitC_comma (a s : Bytes) : splitC (a ++ c!"," :: s) = splitC a ++ splitC s := by
  induction a with
  | nil => simp [splitC]
  | cons c a ih =>
    rw [List.cons_append, splitC]
    by_cases hc : c = c!","
    · rw [if_pos hc, ih, splitC, if_pos hc]; rfl
    · rw [if_neg hc, ih, splitC.eq_def (c :: a)]
      simp only [if_neg hc]
      have := splitC_ne a
      cases ha : splitC a with
      | nil => exact absurd ha this
      | cons x y => rfl

theorem splitC_mem_sub {s f : Bytes} (h : f ∈ splitC s) : f.Sublist s := by
  induction s generalizing f with
  | nil => simp [splitC] at h; simp [h]
  | cons c s ih =>
    rw [splitC] at h
    split at h
    · rcases List.mem_cons.1 h with rfl | h
      · exact List.nil_sublist _
      · exact (ih h).cons c
    · split at h
      · rename_i hs; exact absurd hs (splitC_ne s)
      · rename_i x y hs
        rcases List.mem_cons.1 h with rfl | h
        · exact (ih (by rw [hs]; simp)).cons_cons c
        · exact (ih (by rw [hs]; simp [h])).cons c

/-- One list element matches. -/
def hit (e f : Bytes) : Bool := trimWs f == b!"*" || stripWeak (trimWs f) == e

theorem inmLoop_iff {e : Bytes} (he : e ≠ []) (s : Bytes) : inmLoop e s = (splitC s).any (hit e) := by
  have hnil : hit e [] = false := by
    cases e with
    | nil => exact absurd rfl he
    | cons a b => simp [hit, trimWs, stripWeak]
  rw [inmLoop.eq_def]
  by_cases hs : s.isEmpty = true
  · rw [if_pos hs]
    have : s = [] := by simpa using hs
    subst this
    simp [splitC, hnil]
  · rw [if_neg hs]
    split
    · rename_i tok rest hf
      obtain ⟨rfl, hm⟩ := findChar_some hf
      rw [splitC_comma, splitC_free hm]
      rw [List.any_append, ← inmLoop_iff he rest]
      simp only [List.any_cons, List.any_nil, Bool.or_false, hit]
      by_cases h1 : trimWs tok == b!"*"
      · rw [if_pos h1, h1]; rfl
      · rw [if_neg h1]
        by_cases h2 : stripWeak (trimWs tok) == e
        · rw [if_pos h2, h2]; simp
        · rw [if_neg h2]
          simp only [Bool.not_eq_true] at h1 h2
          rw [h1, h2]; simp
    · rename_i hf
      rw [splitC_free (findChar_none hf)]
      simp only [List.any_cons, List.any_nil, Bool.or_false, hit]
      by_cases h1 : trimWs s == b!"*"
      · rw [if_pos h1, h1]; rfl
      · rw [if_neg h1]
        simp only [Bool.not_eq_true] at h1
        rw [h1]; simp
termination_by s.length

theorem WsOnly.nocomma {w : Bytes} (h : WsOnly w) : c!"," ∉ w := by
  intro hm
  rcases h _ hm with h | h <;> revert h <;> decide

theorem hit_pre {e w : Bytes} (h : WsOnly w) (f : Bytes) : hit e (w ++ f) = hit e f := by
  unfold hit; rw [trimWs_pre h]

theorem hit_post {e w : Bytes} (h : WsOnly w) (f : Bytes) : hit e (f ++ w) = hit e f := by
  unfold hit; rw [trimWs_post h]

theorem any_pre {e w : Bytes} (h : WsOnly w) (s : Bytes) :
    (splitC (w ++ s)).any (hit e) = (splitC s).any (hit e) := by
  rw [splitC_pre h.nocomma]
  have := splitC_ne s
  cases hs : splitC s with
  | nil => exact absurd hs this
  | cons a b => simp [hit_pre h]

theorem any_post {e w : Bytes} (h : WsOnly w) (s : Bytes) :
    (splitC (s ++ w)).any (hit e) = (splitC s).any (hit e) := by
  have key : ∀ s : Bytes, splitC (s ++ w) = (splitC s).dropLast ++ [(splitC s).getLast?.getD [] ++ w] := by
    intro s
    induction s with
    | nil => simp [splitC, splitC_free h.nocomma]
    | cons c s ih =>
      rw [List.cons_append, splitC, splitC, ih]
      have := splitC_ne s
      by_cases hc : c = c!","
      · rw [if_pos hc, if_pos hc]
        cases hs : splitC s with
        | nil => exact absurd hs this
        | cons a b => simp [List.dropLast, List.getLast?_cons_cons]
      · rw [if_neg hc, if_neg hc]
        cases hs : splitC s with
        | nil => exact absurd hs this
        | cons a b =>
          cases b with
          | nil => simp
          | cons x y => simp [List.dropLast, List.getLast?_cons_cons]
  rw [key]
  have hne := splitC_ne s
  have hl : splitC s = (splitC s).dropLast ++ [(splitC s).getLast?.getD []] := by
    rw [List.getLast?_eq_some_getLast hne]
    simp [List.dropLast_concat_getLast]
  rw [List.any_append, List.any_cons, hit_post h]
  conv => rhs; rw [hl, List.any_append, List.any_cons]

theorem ifNoneMatchContains_any {e inm etag : Bytes} (he : e ≠ []) (hs : stripWeak (trimWs etag) = e) :
    ifNoneMatchContains inm etag = (trimWs inm == b!"*" || (splitC inm).any (hit e)) := by
  unfold ifNoneMatchContains
  have hl : inmLoop e (trimWs inm) = (splitC inm).any (hit e) := by
    rw [inmLoop_iff he]
    obtain ⟨pre, post, h, hp, hq, -, -⟩ := trimWs_spec inm
    have hp' : WsOnly pre := by
      exact hp
    have hq' : WsOnly post := by
      exact hq
    conv => rhs; rw [h]
    rw [any_post hq', any_pre hp']
  by_cases h1 : trimWs inm == b!"*"
  · rw [if_pos h1, h1]; rfl
  · rw [if_neg h1, hs, hl]
    simp only [Bool.not_eq_true] at h1
    rw [h1, Bool.false_or]

/-- The entity tag around `o`. -/
def quoted (o : Bytes) : Bytes := b!"\"" ++ o ++ b!"\""

theorem quoted_self (o : Bytes) : stripWeak (trimWs (quoted o)) = quoted o := by
  rw [trimWs_self]
  · unfold stripWeak
    rw [if_neg]
    rintro ⟨-, h⟩
    unfold quoted at h
    cases o with
    | nil => revert h; decide
    | cons a b => simp at h
  · intro c h; simp [quoted] at h; subst h; decide
  · intro c h; rw [quoted, List.getLast?_concat] at h; cases h; decide

theorem text_trim (t : ETag) : trimWs t.text = t.text := by
  apply trimWs_self
  · intro c h
    unfold ETag.text at h
    cases ht : t.weak <;> simp [ht] at h <;> subst h <;> decide
  · intro c h
    rw [ETag.text, List.getLast?_concat] at h; cases h; decide

theorem text_strip (t : ETag) : stripWeak t.text = quoted t.opaq := by
  unfold stripWeak ETag.text quoted
  cases ht : t.weak
  · simp only [ht, Bool.false_eq_true, if_false, List.nil_append]
    rw [if_neg]
    rintro ⟨-, h⟩
    cases ho : t.opaq with
    | nil => rw [ho] at h; revert h; decide
    | cons a b => rw [ho] at h; simp at h
  · simp [ht]

theorem quoted_inj {a b : Bytes} : quoted a = quoted b ↔ a = b := by
  unfold quoted
  constructor
  · intro h
    rw [List.append_assoc, List.append_assoc] at h
    exact List.append_cancel_right (List.append_cancel_left h)
  · rintro rfl; rfl

/-- A tag the list reader can tell apart: no quote inside, and not both a comma and a star. -/
def ETag.Plain (t : ETag) : Prop := c!"\"" ∉ t.opaq ∧ (c!"," ∉ t.opaq ∨ c!"*" ∉ t.opaq)

theorem any_tag {u v : Bytes} {t : ETag} {o : Bytes} (hu : WsOnly u) (hv : WsOnly v) (ht : t.Plain) (ho : c!"," ∉ o) :
    (splitC (u ++ t.text ++ v)).any (hit (quoted o)) = decide (t.opaq = o) := by
  rw [any_post hv, any_pre hu]
  by_cases hc : c!"," ∈ t.opaq
  · have hne : t.opaq ≠ o := by rintro rfl; exact ho hc
    rw [decide_eq_false hne, List.any_eq_false]
    intro f hf
    have hex : ∃ o1 o2, t.opaq = o1 ++ c!"," :: o2 ∧ c!"," ∉ o1 := by
      cases hh : findChar c!"," t.opaq with
      | none => exact absurd hc (findChar_none hh)
      | some pq => exact ⟨pq.1, pq.2, findChar_some hh⟩
    obtain ⟨o1, o2, h12, ho1⟩ := hex
    have hq1 : c!"\"" ∉ o1 := fun h => ht.1 (by rw [h12]; simp [h])
    have hq2 : c!"\"" ∉ o2 := fun h => ht.1 (by rw [h12]; simp [h])
    have hstar : c!"*" ∉ f := by
      intro hm
      have h1 := (splitC_mem_sub hf).subset hm
      have h2 : c!"*" ∉ t.opaq := ht.2.resolve_left (fun h => h hc)
      unfold ETag.text at h1
      cases hw : t.weak <;> simp [hw, h2] at h1
    have hcount : f.count c!"\"" ≤ 1 := by
      have e : t.text = ((if t.weak then b!"W/" else []) ++ b!"\"" ++ o1) ++ c!"," :: (o2 ++ b!"\"") := by
        unfold ETag.text; rw [h12]; simp
      rw [e, splitC_comma, splitC_free (by cases t.weak <;> simp [ho1])] at hf
      rcases List.mem_append.1 hf with hf | hf
      · simp only [List.mem_singleton] at hf
        subst hf
        rw [List.count_append, List.count_append, List.count_eq_zero.2 hq1]
        cases t.weak <;> decide
      · have := (splitC_mem_sub hf).count_le c!"\""
        rw [List.count_append, List.count_eq_zero.2 hq2] at this
        exact Nat.le_trans this (by decide)
    unfold hit
    rw [Bool.or_eq_true]
    rintro (h | h)
    · simp only [beq_iff_eq] at h
      obtain ⟨pre, post, h', -⟩ := trimWs_spec f
      rw [h] at h'
      exact hstar (by rw [h']; simp)
    · simp only [beq_iff_eq] at h
      have h2 : 2 ≤ (quoted o).count c!"\"" := by
        unfold quoted; rw [List.count_append, List.count_append]
        have : (b!"\"").count c!"\"" = 1 := by decide
        omega
      have hsub : (stripWeak (trimWs f)).Sublist f := by
        have a : (trimWs f).Sublist f := by
          obtain ⟨pre, post, h', -⟩ := trimWs_spec f
          conv => rhs; rw [h']
          exact (List.sublist_append_right pre _).trans (List.sublist_append_left _ _)
        unfold stripWeak
        split
        · exact (List.drop_sublist _ _).trans a
        · exact a
      have := hsub.count_le c!"\""
      rw [h] at this; omega
  · have hfree : c!"," ∉ t.text := by
      unfold ETag.text
      cases t.weak <;> simp [hc]
    rw [splitC_free hfree]
    simp only [List.any_cons, List.any_nil, Bool.or_false]
    unfold hit
    rw [text_trim, text_strip]
    have hns : (t.text == b!"*") = false := by
      simp only [beq_eq_false_iff_ne]
      intro h
      have : c!"\"" ∈ t.text := by unfold ETag.text; simp
      rw [h] at this; revert this; decide
    rw [hns, Bool.false_or]
    by_cases he : t.opaq = o
    · simp [he]
    · rw [decide_eq_false he, beq_eq_false_iff_ne]
      exact fun h => he (quoted_inj.1 h)

theorem ifNoneMatch_tags {s : Bytes} {l : List ETag} {o : Bytes} (h : TagList s l) (hl : ∀ t ∈ l, t.Plain)
    (ho : c!"," ∉ o) : (splitC s).any (hit (quoted o)) = decide (∃ t ∈ l, t.opaq = o) ∧ trimWs s ≠ b!"*" := by
  have nostar : ∀ {x : Byte}, x ≠ c!" " → x ≠ 9 → x ≠ c!"*" → ∀ {s : Bytes}, x ∈ s → trimWs s ≠ b!"*" := by
    intro x h1 h2 h3 s hm e
    obtain ⟨pre, post, h', hp, hq, -⟩ := trimWs_spec s
    rw [e] at h'
    rw [h'] at hm
    simp only [List.append_assoc, List.mem_append, List.mem_singleton] at hm
    rcases hm with hm | hm | hm
    · rcases hp x hm with h | h
      · exact h1 h
      · exact h2 h
    · exact h3 hm
    · rcases hq x hm with h | h
      · exact h1 h
      · exact h2 h
  have wsnil : ∀ {u : Bytes}, WsOnly u → hit (quoted o) u = false := by
    intro u hu
    have := hit_pre (e := quoted o) hu []
    rw [List.append_nil] at this
    rw [this]
    simp [hit, trimWs, stripWeak, quoted]
  induction h with
  | last u v t hw =>
    have hu : WsOnly u := fun c hc => hw c (by simp [hc])
    have hv : WsOnly v := fun c hc => hw c (by simp [hc])
    refine ⟨?_, ?_⟩
    · rw [any_tag hu hv (hl t (by simp)) ho]; simp
    · apply nostar (x := c!"\"") (by decide) (by decide) (by decide)
      simp [ETag.text]
  | blank u hu =>
    refine ⟨?_, ?_⟩
    · rw [splitC_free (WsOnly.nocomma hu)]
      simp [wsnil hu]
    · have := trimWs_pre (w := u) hu []
      rw [List.append_nil] at this
      rw [this]; decide
  | cons u v rest t l hw _ ih =>
    have hu : WsOnly u := fun c hc => hw c (by simp [hc])
    have hv : WsOnly v := fun c hc => hw c (by simp [hc])
    have ih := (ih (fun t ht => hl t (by simp [ht]))).1
    refine ⟨?_, ?_⟩
    · rw [List.append_assoc, List.singleton_append, splitC_comma, List.any_append,
        any_tag hu hv (hl t (by simp)) ho, ih]
      simp
    · apply nostar (x := c!",") (by decide) (by decide) (by decide)
      simp
  | skip u rest l hu _ ih =>
    have ih := (ih hl).1
    refine ⟨?_, ?_⟩
    · rw [List.append_assoc, List.singleton_append, splitC_comma, List.any_append,
        splitC_free (WsOnly.nocomma hu), ih]
      simp [wsnil hu]
    · apply nostar (x := c!",") (by decide) (by decide) (by decide)
      simp

end Verif.Static
