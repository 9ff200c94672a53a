import Verif.Cookie.Theorems

/-! C68: `parse_set_cookie` on every header. -/

namespace Verif.Cookie
open Utility Utility.Spec Spec

theorem getLast?_quoted (x y : UInt8) (w : Bytes) : (x :: (w ++ [y])).getLast? = some y := by
  rw [← List.cons_append, List.getLast?_append]; rfl

theorem unquote_iff {t u : Bytes} : unquote t = u ↔ IsUnquote t u := by
  have key : ∀ w, unquote ([c!"\""] ++ w ++ [c!"\""]) = w := by
    intro w
    unfold unquote
    rw [if_pos (by simp [getLast?_quoted])]
    simp
  have ex : ∀ t : Bytes, (2 ≤ t.length ∧ t.head? = some c!"\"" ∧ t.getLast? = some c!"\"") →
      ∃ w, t = [c!"\""] ++ w ++ [c!"\""] := by
    rintro t ⟨h1, h2, h3⟩
    cases t with
    | nil => simp at h1
    | cons a t =>
      simp at h2; subst h2
      rcases List.eq_nil_or_concat t with rfl | ⟨w, b, rfl⟩
      · simp at h1
      · refine ⟨w, ?_⟩
        rw [List.concat_eq_append, getLast?_quoted] at h3
        simp at h3 ⊢
        exact h3
  by_cases h : 2 ≤ t.length ∧ t.head? = some c!"\"" ∧ t.getLast? = some c!"\""
  · obtain ⟨w, rfl⟩ := ex t h
    rw [key]
    unfold IsUnquote
    constructor
    · rintro rfl; exact Or.inl rfl
    · rintro (e | ⟨_, e⟩)
      · simpa using e
      · exact absurd rfl (e w)
  · have hu : unquote t = t := by
      unfold unquote
      rw [if_neg]
      intro h'
      simp only [Bool.and_eq_true, decide_eq_true_eq, beq_iff_eq, ge_iff_le] at h'
      exact h ⟨h'.1.1, h'.1.2, h'.2⟩
    have hn : ∀ w, t ≠ [c!"\""] ++ w ++ [c!"\""] := by
      rintro w rfl
      apply h; simp [getLast?_quoted]
    rw [hu]
    unfold IsUnquote
    constructor
    · rintro rfl; exact Or.inr ⟨rfl, hn⟩
    · rintro (e | ⟨e, _⟩)
      · exact absurd e (hn u)
      · exact e.symm

theorem attr_iff {seg n v : Bytes} :
    (trimWs seg ≠ [] ∧ attrPair (trimWs seg) = (n, v)) ↔ IsAttr seg n v := by
  unfold IsAttr
  constructor
  · rintro ⟨h1, h2⟩
    refine ⟨trimWs seg, trimWs_iff.1 rfl, h1, ?_⟩
    unfold attrPair at h2
    cases hf : findChar c!"=" (trimWs seg) with
    | none =>
      rw [hf] at h2
      simp only [Prod.mk.injEq] at h2
      exact Or.inl ⟨findChar_none_iff.1 hf, h2.1.symm, h2.2.symm⟩
    | some ab =>
      obtain ⟨a, b⟩ := ab
      rw [hf] at h2
      simp only [Prod.mk.injEq] at h2
      obtain ⟨e, ha⟩ := findChar_some_iff.1 hf
      exact Or.inr ⟨a, b, trimWs b, by simpa using e, ha, trimWs_iff.1 h2.1, trimWs_iff.1 rfl, unquote_iff.1 h2.2⟩
  · rintro ⟨u, hu, hne, h⟩
    have e := trimWs_iff.2 hu
    rw [e]
    refine ⟨hne, ?_⟩
    unfold attrPair
    rcases h with ⟨h1, rfl, rfl⟩ | ⟨a, b, w, rfl, ha, hn, hw, huq⟩
    · rw [findChar_none_iff.2 h1]
    · rw [show a ++ [c!"="] ++ b = a ++ c!"=" :: b by simp, findChar_app ha]
      simp only []
      rw [trimWs_iff.2 hn, trimWs_iff.2 hw, unquote_iff.2 huq]

/-- The value the last attribute with that effect gives. -/
theorem foldl_last {α} (toInt : Bytes → Option Int) (π : Cookie → α) (m : Bytes → Option α)
    (P : Bytes → α → Prop) (hm : ∀ c s, π (applySegment toInt c s) = (m s).getD (π c))
    (hP : ∀ s y, m s = some y ↔ P s y) (segs : List Bytes) (c : Cookie) :
    LastOf P segs (π c) (π (segs.foldl (applySegment toInt) c)) := by
  induction segs generalizing c with
  | nil => exact Or.inl ⟨rfl, by simp⟩
  | cons s segs ih =>
    rw [List.foldl_cons]
    rcases ih (applySegment toInt c s) with ⟨e, h⟩ | ⟨l, t, r, e, h1, h2⟩
    · rw [hm] at e
      cases hs : m s with
      | none =>
        rw [hs] at e
        refine Or.inl ⟨e, ?_⟩
        intro t ht y
        rcases List.mem_cons.1 ht with rfl | ht
        · rw [← hP, hs]; simp
        · exact h t ht y
      | some y =>
        rw [hs] at e
        refine Or.inr ⟨[], s, segs, rfl, ?_, h⟩
        rw [e]; exact (hP s y).1 hs
    · exact Or.inr ⟨s :: l, t, r, by rw [e]; rfl, h1, h2⟩

/-- The labels are told apart by `iequals`. -/
theorem label_ne {n : Bytes} {a b : Bytes} (h : iequals n a = true) (hab : iequals a b = false) : iequals n b = false := by
  rw [iequals_congr h]; exact hab

/-- What a segment says under a given label. -/
def said (label seg : Bytes) : Option Bytes :=
  if trimWs seg = [] then none
  else if iequals (attrPair (trimWs seg)).1 label then some (attrPair (trimWs seg)).2 else none

theorem said_iff {label seg v : Bytes} : said label seg = some v ↔ Named label seg v := by
  unfold said Named
  constructor
  · intro h
    by_cases h0 : trimWs seg = []
    · rw [if_pos h0] at h; simp at h
    · rw [if_neg h0] at h
      by_cases h1 : iequals (attrPair (trimWs seg)).1 label = true
      · rw [if_pos h1] at h
        simp only [Option.some.injEq] at h
        exact ⟨_, attr_iff.1 ⟨h0, by rw [← h]⟩, (C04_iequals_exact _ _).1 h1⟩
      · rw [if_neg h1] at h; simp at h
  · rintro ⟨n, ha, hs⟩
    obtain ⟨h0, h1⟩ := attr_iff.2 ha
    rw [if_neg h0, h1, if_pos ((C04_iequals_exact _ _).2 hs)]

/-- `applySegment` by label. -/
theorem applySegment_eq (toInt : Bytes → Option Int) (c : Cookie) (s : Bytes) :
    (applySegment toInt c s).name = c.name ∧ (applySegment toInt c s).value = c.value ∧
    (applySegment toInt c s).expires =
      (((said b!"Expires" s).bind fun v => (Date.parseHttpDate v).map fun t => some (t * 1000000000)).getD c.expires) ∧
    (applySegment toInt c s).maxAge =
      (((said b!"Max-Age" s).bind fun v => if v = [] then none else (toInt v).map some).getD c.maxAge) ∧
    (applySegment toInt c s).domain = (said b!"Domain" s).getD c.domain ∧
    (applySegment toInt c s).path = (said b!"Path" s).getD c.path ∧
    (applySegment toInt c s).secure = ((said b!"Secure" s).map fun _ => true).getD c.secure ∧
    (applySegment toInt c s).httpOnly = ((said b!"HttpOnly" s).map fun _ => true).getD c.httpOnly ∧
    (applySegment toInt c s).sameSite =
      (((said b!"SameSite" s).bind fun v => if iequals v b!"Strict" then some (some SameSite.strict)
        else if iequals v b!"Lax" then some (some .lax) else if iequals v b!"None" then some (some .none)
        else none).getD c.sameSite) := by
  unfold applySegment said
  by_cases h0 : trimWs s = []
  · simp [h0]
  · rw [if_neg (by simpa using h0)]
    simp only [if_neg h0]
    generalize attrPair (trimWs s) = nv
    obtain ⟨n, v⟩ := nv
    unfold applyAttr
    simp only []
    by_cases h1 : iequals n b!"Expires" = true
    · simp only [h1, label_ne (b := b!"Max-Age") h1 rfl, label_ne (b := b!"Domain") h1 rfl, label_ne (b := b!"Path") h1 rfl,
        label_ne (b := b!"Secure") h1 rfl, label_ne (b := b!"HttpOnly") h1 rfl, label_ne (b := b!"SameSite") h1 rfl]
      cases hd : Date.parseHttpDate v <;> simp [hd]
    simp only [Bool.not_eq_true] at h1
    by_cases h2 : iequals n b!"Max-Age" = true
    · simp only [h1, h2, label_ne (b := b!"Domain") h2 rfl, label_ne (b := b!"Path") h2 rfl,
        label_ne (b := b!"Secure") h2 rfl, label_ne (b := b!"HttpOnly") h2 rfl, label_ne (b := b!"SameSite") h2 rfl]
      by_cases hv : v = []
      · subst hv; simp
      · cases ht : toInt v <;> simp [hv, ht]
    simp only [Bool.not_eq_true] at h2
    by_cases h3 : iequals n b!"Domain" = true
    · simp [h1, h2, h3, label_ne (b := b!"Path") h3 rfl,
        label_ne (b := b!"Secure") h3 rfl, label_ne (b := b!"HttpOnly") h3 rfl, label_ne (b := b!"SameSite") h3 rfl]
    simp only [Bool.not_eq_true] at h3
    by_cases h4 : iequals n b!"Path" = true
    · simp [h1, h2, h3, h4,
        label_ne (b := b!"Secure") h4 rfl, label_ne (b := b!"HttpOnly") h4 rfl, label_ne (b := b!"SameSite") h4 rfl]
    simp only [Bool.not_eq_true] at h4
    by_cases h5 : iequals n b!"Secure" = true
    · simp [h1, h2, h3, h4, h5, label_ne (b := b!"HttpOnly") h5 rfl, label_ne (b := b!"SameSite") h5 rfl]
    simp only [Bool.not_eq_true] at h5
    by_cases h6 : iequals n b!"HttpOnly" = true
    · simp [h1, h2, h3, h4, h5, h6, label_ne (b := b!"SameSite") h6 rfl]
    simp only [Bool.not_eq_true] at h6
    by_cases h7 : iequals n b!"SameSite" = true
    · simp only [h1, h2, h3, h4, h5, h6, h7]
      cases hs : iequals v b!"Strict" <;> cases hl : iequals v b!"Lax" <;> cases hn : iequals v b!"None" <;> simp [hs, hl, hn]
    simp only [Bool.not_eq_true] at h7
    simp [h1, h2, h3, h4, h5, h6, h7]

/-- The first field and the others. -/
theorem parse_cases (toInt : Bytes → Option Int) (h first : Bytes) (rest : List Bytes)
    (hf : IsFields c!";" h (first :: rest)) :
    parseSetCookie toInt h = (match findChar c!"=" (trimWs first) with
      | none => none
      | some (n, v) => if n.isEmpty then none
          else some (rest.foldl (applySegment toInt) { name := n, value := unquote v })) := by
  have hs := segments_fields hf
  unfold parseSetCookie
  by_cases he : h = []
  · subst he
    have : segments [] = [[]] := rfl
    rw [this] at hs
    simp only [List.cons.injEq] at hs
    obtain ⟨rfl, rfl⟩ := hs
    rfl
  · rw [if_neg (by simpa using he), hs]
    first
      | done
      | (simp only []
         cases findChar c!"=" (trimWs first) with
         | none => rfl
         | some ab => rfl)

/-- C68: a Set-Cookie header is refused exactly when the text before its first semicolon, trimmed, has no
`=` or begins with it. -/
theorem C68_refused_iff (toInt : Bytes → Option Int) (h first : Bytes) (rest : List Bytes)
    (hf : IsFields c!";" h (first :: rest)) (u : Bytes) (hu : IsTrim first u) :
    parseSetCookie toInt h = none ↔ c!"=" ∉ u ∨ u.head? = some c!"=" := by
  rw [parse_cases toInt h first rest hf, trimWs_iff.2 hu]
  cases hc : findChar c!"=" u with
  | none => simp [findChar_none_iff.1 hc]
  | some ab =>
    obtain ⟨a, b⟩ := ab
    obtain ⟨rfl, ha⟩ := findChar_some_iff.1 hc
    cases a with
    | nil => simp
    | cons x a =>
      simp only [List.mem_cons, not_or] at ha
      simp
      exact fun e => ha.1 e.symm

/-- C68: the name and value of an accepted header come from its first field: the name is the text before
the first `=`, the value what follows, without surrounding double quotes. -/
theorem C68_name_value (toInt : Bytes → Option Int) (h first : Bytes) (rest : List Bytes)
    (hf : IsFields c!";" h (first :: rest)) (u : Bytes) (hu : IsTrim first u) (c : Cookie)
    (hc : parseSetCookie toInt h = some c) :
    c.name ≠ [] ∧ c!"=" ∉ c.name ∧ ∃ v, u = c.name ++ [c!"="] ++ v ∧ IsUnquote v c.value := by
  rw [parse_cases toInt h first rest hf, trimWs_iff.2 hu] at hc
  cases hfc : findChar c!"=" u with
  | none => rw [hfc] at hc; simp at hc
  | some ab =>
    obtain ⟨a, b⟩ := ab
    rw [hfc] at hc
    obtain ⟨e, ha⟩ := findChar_some_iff.1 hfc
    by_cases h0 : a = []
    · simp [h0] at hc
    · simp only [if_neg (show ¬ a.isEmpty = true by simpa using h0), Option.some.injEq] at hc
      have hnv : ∀ (l : List Bytes) (d : Cookie), (l.foldl (applySegment toInt) d).name = d.name ∧
          (l.foldl (applySegment toInt) d).value = d.value := by
        intro l
        induction l with
        | nil => intro d; exact ⟨rfl, rfl⟩
        | cons s l ih =>
          intro d
          rw [List.foldl_cons]
          obtain ⟨i1, i2⟩ := ih (applySegment toInt d s)
          obtain ⟨j1, j2, _⟩ := applySegment_eq toInt d s
          exact ⟨i1.trans j1, i2.trans j2⟩
      have h1 := (hnv rest { name := a, value := unquote b }).1
      have h2 := (hnv rest { name := a, value := unquote b }).2
      rw [hc] at h1 h2
      simp only at h1 h2
      rw [h1, h2]
      exact ⟨h0, ha, b, by simpa using e, unquote_iff.1 rfl⟩

/-- C68: every attribute of an accepted header takes effect as the standard says: `Secure` and `HttpOnly`
are set exactly if the header has such an attribute, and `Expires`, `Max-Age`, `Domain`, `Path` and
`SameSite` have the value of the last attribute of that name (up to case) with a readable value, or the
default. -/
theorem C68_attributes (toInt : Bytes → Option Int) (h first : Bytes) (rest : List Bytes)
    (hf : IsFields c!";" h (first :: rest)) (c : Cookie) (hc : parseSetCookie toInt h = some c) :
    LastOf (Named b!"Domain") rest [] c.domain ∧
    LastOf (Named b!"Path") rest b!"/" c.path ∧
    (c.secure = true ↔ ∃ s ∈ rest, ∃ v, Named b!"Secure" s v) ∧
    (c.httpOnly = true ↔ ∃ s ∈ rest, ∃ v, Named b!"HttpOnly" s v) ∧
    LastOf (fun s x => ∃ v, Named b!"Expires" s v ∧ ∃ t, Date.parseHttpDate v = some t ∧ x = some (t * 1000000000))
      rest none c.expires ∧
    LastOf (fun s x => ∃ v, Named b!"Max-Age" s v ∧ v ≠ [] ∧ ∃ n, toInt v = some n ∧ x = some n) rest none c.maxAge ∧
    LastOf (fun s x => ∃ v, Named b!"SameSite" s v ∧
      ((SameName v b!"Strict" ∧ x = some .strict) ∨ (SameName v b!"Lax" ∧ x = some .lax) ∨
       (SameName v b!"None" ∧ x = some .none))) rest none c.sameSite := by
  rw [parse_cases toInt h first rest hf] at hc
  cases hfc : findChar c!"=" (trimWs first) with
  | none => rw [hfc] at hc; simp at hc
  | some ab =>
    obtain ⟨a, b⟩ := ab
    rw [hfc] at hc
    by_cases h0 : a = []
    · simp [h0] at hc
    · simp only [if_neg (show ¬ a.isEmpty = true by simpa using h0), Option.some.injEq] at hc
      subst hc
      have fl : ∀ (π : Cookie → Bool) (label : Bytes)
          (hm : ∀ c s, π (applySegment toInt c s) = ((said label s).map fun _ => true).getD (π c))
          (d : Cookie), π d = false →
          (π (rest.foldl (applySegment toInt) d) = true ↔ ∃ s ∈ rest, ∃ v, Named label s v) := by
        intro π label hm d hd
        have := foldl_last toInt π (fun s => (said label s).map fun _ => true)
          (fun s y => (∃ v, Named label s v) ∧ y = true) hm (by
            intro s y
            constructor
            · intro h
              cases hs : said label s with
              | none => simp [hs] at h
              | some v => simp [hs] at h; exact ⟨⟨v, said_iff.1 hs⟩, h⟩
            · rintro ⟨⟨v, hv⟩, rfl⟩
              simp [said_iff.2 hv]) rest d
        rcases this with ⟨e, hn⟩ | ⟨l, s, r, e, h1, _⟩
        · rw [e, hd]
          simp only [Bool.false_eq_true, false_iff]
          rintro ⟨s, hs, v, hv⟩
          exact hn s hs true ⟨⟨v, hv⟩, rfl⟩
        · rw [h1.2]
          simp only [true_iff]
          exact ⟨s, by rw [e]; simp, h1.1⟩
      refine ⟨?_, ?_, ?_, ?_, ?_, ?_, ?_⟩
      · exact foldl_last toInt (·.domain) _ _ (fun c s => (applySegment_eq toInt c s).2.2.2.2.1) (fun s y => said_iff) rest _
      · exact foldl_last toInt (·.path) _ _ (fun c s => (applySegment_eq toInt c s).2.2.2.2.2.1) (fun s y => said_iff) rest _
      · exact fl (·.secure) _ (fun c s => (applySegment_eq toInt c s).2.2.2.2.2.2.1) _ rfl
      · exact fl (·.httpOnly) _ (fun c s => (applySegment_eq toInt c s).2.2.2.2.2.2.2.1) _ rfl
      · refine foldl_last toInt (·.expires) _ _ (fun c s => (applySegment_eq toInt c s).2.2.1) (fun s y => ?_) rest _
        rw [Option.bind_eq_some_iff]
        constructor
        · rintro ⟨v, hv, h⟩
          cases hd : Date.parseHttpDate v with
          | none => simp [hd] at h
          | some t => simp [hd] at h; exact ⟨v, said_iff.1 hv, t, hd, h.symm⟩
        · rintro ⟨v, hv, t, ht, rfl⟩
          exact ⟨v, said_iff.2 hv, by simp [ht]⟩
      · refine foldl_last toInt (·.maxAge) _ _ (fun c s => (applySegment_eq toInt c s).2.2.2.1) (fun s y => ?_) rest _
        rw [Option.bind_eq_some_iff]
        constructor
        · rintro ⟨v, hv, h⟩
          by_cases hv0 : v = []
          · simp [hv0] at h
          · rw [if_neg hv0] at h
            cases hd : toInt v with
            | none => simp [hd] at h
            | some t => simp [hd] at h; exact ⟨v, said_iff.1 hv, hv0, t, hd, h.symm⟩
        · rintro ⟨v, hv, hv0, t, ht, rfl⟩
          exact ⟨v, said_iff.2 hv, by simp [ht, hv0]⟩
      · refine foldl_last toInt (·.sameSite) _ _ (fun c s => (applySegment_eq toInt c s).2.2.2.2.2.2.2.2) (fun s y => ?_) rest _
        rw [Option.bind_eq_some_iff]
        constructor
        · rintro ⟨v, hv, h⟩
          refine ⟨v, said_iff.1 hv, ?_⟩
          by_cases h1 : iequals v b!"Strict" = true
          · simp [h1] at h; exact Or.inl ⟨(C04_iequals_exact _ _).1 h1, h.symm⟩
          · rw [if_neg h1] at h
            by_cases h2 : iequals v b!"Lax" = true
            · simp [h2] at h; exact Or.inr (Or.inl ⟨(C04_iequals_exact _ _).1 h2, h.symm⟩)
            · rw [if_neg h2] at h
              by_cases h3 : iequals v b!"None" = true
              · simp [h3] at h; exact Or.inr (Or.inr ⟨(C04_iequals_exact _ _).1 h3, h.symm⟩)
              · rw [if_neg h3] at h; simp at h
        · rintro ⟨v, hv, h⟩
          refine ⟨v, said_iff.2 hv, ?_⟩
          rcases h with ⟨h, rfl⟩ | ⟨h, rfl⟩ | ⟨h, rfl⟩
          · rw [if_pos ((C04_iequals_exact _ _).2 h)]
          · have := (C04_iequals_exact _ _).2 h
            rw [if_neg (by rw [label_ne this rfl]; simp), if_pos this]
          · have := (C04_iequals_exact _ _).2 h
            rw [if_neg (by rw [label_ne this rfl]; simp), if_neg (by rw [label_ne this rfl]; simp), if_pos this]

/-- The default expiry, age and SameSite policy are unset; both flags are off; see `C68_attributes`. -/
example : parseSetCookie (fun _ => none) b!" a=\"b=c\" ; DOMAIN=x ; path ; Domain = \"y\" ;; secure=1; samesite=lax; SameSite=bad" =
    some { name := b!"a", value := b!"b=c", domain := b!"y", path := [], secure := true, sameSite := some .lax } := by
  decide +kernel
example : parseSetCookie (fun _ => none) b!"=v; Path=/" = none := by decide +kernel

end Verif.Cookie
