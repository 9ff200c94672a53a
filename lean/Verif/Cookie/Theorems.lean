import Verif.Cookie.Lemmas

/-! C66–C68: Set-Cookie headers. -/

namespace Verif.Cookie
open Utility Utility.Spec Spec

/-! ## C66 -/

/-- C66: serialization succeeds exactly for a token name and a value, domain and path free of semicolons
and control characters. -/
theorem C66_serializable_iff (c : Cookie) : (∃ h, toHeader c = some h) ↔
    (c.name ≠ [] ∧ ∀ x ∈ c.name, TChar x) ∧ Clean c.value ∧ Clean c.domain ∧ Clean c.path := by
  rw [← valid_iff]
  constructor
  · rintro ⟨h, e⟩
    unfold toHeader at e
    cases hv : validForSerialization c with
    | true => rfl
    | false => simp [hv] at e
  · intro h; exact ⟨_, toHeader_eq c h⟩

/-- C66: the header is exactly the `name=value` pair followed by the attributes that are set, separated by
`; `; the semicolon-separated fields of the produced text are those and no others, so no part of the
cookie can add an attribute; and it contains no control character, so no part can end the header. -/
theorem C66_header_exact (c : Cookie) (h : Bytes) (e : toHeader c = some h) :
    IsFields c!";" h ((c.name ++ b!"=" ++ c.value) :: (attributes (c.expires.map Date.formatHttpDate)
      (c.maxAge.map Date.dec) c.domain c.path c.secure c.httpOnly (c.sameSite.map sameSiteName)).map (b!" " ++ ·)) ∧
    ∀ x ∈ h, ¬ Ctl x := by
  have hv : validForSerialization c = true := (valid_iff c).2 ((C66_serializable_iff c).1 ⟨h, e⟩)
  have e2 := toHeader_eq c hv
  rw [e2] at e
  simp only [Option.some.injEq] at e
  have hcl := fields_clean c hv
  refine ⟨⟨by simp, ?_, e.symm⟩, ?_⟩
  · intro f hf
    exact fun hm => (hcl f hf _ hm).1 rfl
  · intro x hx
    rw [← e] at hx
    rcases mem_intercalate hx with rfl | ⟨f, hf, hxf⟩
    · unfold Ctl; decide
    · exact (hcl f hf x hxf).2

example : toHeader { name := b!"sid", value := b!"abc", maxAge := some 60, secure := true, sameSite := some .lax } =
    some b!"sid=abc; Max-Age=60; Path=/; Secure; SameSite=Lax" := by
  simp [toHeader, validForSerialization, isNameChar, isValueChar, isControl, sameSiteName, Date.dec, Date.decNat]
example : toHeader { name := b!"sid", value := b!"a; Domain=evil" } = none := by decide
example : toHeader { name := b!"sid", value := b!"a", path := [47, 13, 10] } = none := by decide

/-! ## C67 round trip -/

theorem attrPair_eq {n v : Bytes} (hn : c!"=" ∉ n) (h1 : ∀ c, n.head? = some c → ¬ Ows c)
    (h2 : ∀ c, n.getLast? = some c → ¬ Ows c) (hv : Plain v) : attrPair (n ++ c!"=" :: v) = (n, v) := by
  unfold attrPair
  rw [findChar_app hn]
  simp only []
  rw [trimWs_of_clean h1 h2, trimWs_of_clean hv.1 hv.2.1]
  congr 1
  unfold unquote
  rw [if_neg]
  intro h
  simp only [Bool.and_eq_true, decide_eq_true_eq, beq_iff_eq, ge_iff_le] at h
  exact hv.2.2 ⟨h.1.1, h.1.2, h.2⟩

theorem segment_eq (toInt : Bytes → Option Int) (c : Cookie) {n v : Bytes} (hne : n ≠ []) (hn : c!"=" ∉ n)
    (h1 : ∀ c, n.head? = some c → ¬ Ows c) (h2 : ∀ c, n.getLast? = some c → ¬ Ows c) (hv : Plain v) :
    applySegment toInt c (32 :: (n ++ c!"=" :: v)) = applyAttr toInt c (n, v) := by
  have ht : trimWs (32 :: (n ++ c!"=" :: v)) = n ++ c!"=" :: v := by
    apply trimWs_cons_space
    · intro x hx
      cases n with
      | nil => exact absurd rfl hne
      | cons a n => exact h1 x (by simpa using hx)
    · intro x hx
      rw [List.getLast?_append, List.getLast?_cons] at hx
      cases hvl : v.getLast? with
      | none => rw [hvl] at hx; simp at hx; subst hx; simp [Ows]
      | some y => rw [hvl] at hx; simp at hx; subst hx; exact hv.2.1 y hvl
  unfold applySegment
  rw [ht, if_neg (by simp), attrPair_eq hn h1 h2 hv]

theorem segment_flag (toInt : Bytes → Option Int) (c : Cookie) {n : Bytes} (hne : n ≠ []) (hn : c!"=" ∉ n)
    (h1 : ∀ c, n.head? = some c → ¬ Ows c) (h2 : ∀ c, n.getLast? = some c → ¬ Ows c) :
    applySegment toInt c (32 :: n) = applyAttr toInt c (n, []) := by
  unfold applySegment
  rw [trimWs_cons_space h1 h2, if_neg (by simpa using hne)]
  unfold attrPair
  rw [findChar_none_iff.2 hn]

/-- Text of which every character is a digit, a letter, a colon, a comma, a space or a sign, with proper
ends, is plain. -/
theorem plain_of {s : Bytes} (h1 : ∀ c, s.head? = some c → ¬ Ows c ∧ c ≠ c!"\"")
    (h2 : ∀ c, s.getLast? = some c → ¬ Ows c) : Plain s :=
  ⟨fun c hc => (h1 c hc).1, h2, fun ⟨_, h, _⟩ => (h1 _ h).2 rfl⟩

theorem dec_plain (n : Int) : Plain (Date.dec n) := by
  apply plain_of
  · intro c hc
    have := (dec_chars n c (List.mem_of_mem_head? (by simp [hc]))).clean
    exact ⟨this.2.2.1, this.2.2.2.1⟩
  · intro c hc
    exact (dec_chars n c (List.mem_of_getLast? hc)).clean.2.2.1

theorem gmtime_wday (t : Int) : ∃ k : Fin 7, (Date.gmtime t).wday.toNat = k := by
  refine ⟨⟨(Date.gmtime t).wday.toNat, ?_⟩, rfl⟩
  show ((t / 86400 + 4) % 7).toNat < 7
  omega

theorem date_plain (ns : Int) : Plain (Date.formatHttpDate ns) := by
  unfold Date.formatHttpDate
  simp only []
  obtain ⟨k, hk⟩ := gmtime_wday (Date.toTimeT ns)
  rw [hk]
  apply plain_of
  · intro c hc
    have hd : ∀ k : Fin 7, ∃ a b, Date.DAYS.getD k [] = a :: b ∧ ¬ Ows a ∧ a ≠ c!"\"" := by
      intro k
      have : ∀ k : Fin 7, Date.DAYS.getD k [] = (Date.DAYS.getD k []).headD 0 :: (Date.DAYS.getD k []).tail ∧
          ¬ ((Date.DAYS.getD k []).headD 0 = 32 ∨ (Date.DAYS.getD k []).headD 0 = 9) ∧
          (Date.DAYS.getD k []).headD 0 ≠ 34 := by decide +kernel
      exact ⟨_, _, this k⟩
    obtain ⟨a, b, e, h1, h2⟩ := hd k
    rw [e] at hc
    simp only [List.cons_append, List.head?_cons, Option.some.injEq] at hc
    subst hc; exact ⟨h1, h2⟩
  · intro c hc
    rw [List.getLast?_append] at hc
    simp at hc; subst hc; simp [Ows]

theorem kExpires (toInt : Bytes → Option Int) {f : Int → Date.Civil} (hf : Date.Calendar f) : ∀ (d : Cookie) (ns : Int), 1000 ≤ (f (Int.tdiv ns 1000000000 / 86400)).year →
      (f (Int.tdiv ns 1000000000 / 86400)).year ≤ 9999 →
      applySegment toInt d (b!" " ++ (b!"Expires=" ++ Date.formatHttpDate ns)) =
        { d with expires := some (Int.tdiv ns 1000000000 * 1000000000) } := by
  intro d ns h1 h2
  have := segment_eq toInt d (n := b!"Expires") (v := Date.formatHttpDate ns) (by decide) (by decide) (by simp [Ows])
    (by simp [Ows]) (date_plain ns)
  simp only [List.cons_append, List.nil_append] at this ⊢
  rw [this]
  unfold applyAttr
  simp only []
  rw [if_pos (by rfl)]
  rw [Date.C58_roundtrip hf ns h1 h2]

theorem kMax (toInt : Bytes → Option Int) : ∀ (d : Cookie) (n : Int), toInt (Date.dec n) = some n →
      applySegment toInt d (b!" " ++ (b!"Max-Age=" ++ Date.dec n)) = { d with maxAge := some n } := by
  intro d n hi
  have := segment_eq toInt d (n := b!"Max-Age") (v := Date.dec n) (by decide) (by decide) (by simp [Ows])
    (by simp [Ows]) (dec_plain n)
  simp only [List.cons_append, List.nil_append] at this ⊢
  rw [this]
  unfold applyAttr
  simp only []
  rw [if_neg (by decide), if_pos (by rfl), if_neg (by simpa using dec_ne n)]
  rw [hi]

theorem kDom (toInt : Bytes → Option Int) : ∀ (d : Cookie) (v : Bytes), Plain v →
      applySegment toInt d (b!" " ++ (b!"Domain=" ++ v)) = { d with domain := v } := by
  intro d v hv
  have := segment_eq toInt d (n := b!"Domain") (v := v) (by decide) (by decide) (by simp [Ows])
    (by simp [Ows]) hv
  simp only [List.cons_append, List.nil_append] at this ⊢
  rw [this]
  unfold applyAttr
  simp only []
  rw [if_neg (by decide), if_neg (by decide), if_pos (by rfl)]

theorem kPath (toInt : Bytes → Option Int) : ∀ (d : Cookie) (v : Bytes), Plain v →
      applySegment toInt d (b!" " ++ (b!"Path=" ++ v)) = { d with path := v } := by
  intro d v hv
  have := segment_eq toInt d (n := b!"Path") (v := v) (by decide) (by decide) (by simp [Ows])
    (by simp [Ows]) hv
  simp only [List.cons_append, List.nil_append] at this ⊢
  rw [this]
  unfold applyAttr
  simp only []
  rw [if_neg (by decide), if_neg (by decide), if_neg (by decide), if_pos (by rfl)]

theorem kSec (toInt : Bytes → Option Int) : ∀ (d : Cookie), applySegment toInt d (b!" " ++ b!"Secure") = { d with secure := true } := by
  intro d
  have := segment_flag toInt d (n := b!"Secure") (by decide) (by decide) (by simp [Ows]) (by simp [Ows])
  simp only [List.cons_append, List.nil_append] at this ⊢
  rw [this]; rfl

theorem kHttp (toInt : Bytes → Option Int) : ∀ (d : Cookie), applySegment toInt d (b!" " ++ b!"HttpOnly") = { d with httpOnly := true } := by
  intro d
  have := segment_flag toInt d (n := b!"HttpOnly") (by decide) (by decide) (by simp [Ows]) (by simp [Ows])
  simp only [List.cons_append, List.nil_append] at this ⊢
  rw [this]; rfl

theorem kSame (toInt : Bytes → Option Int) : ∀ (d : Cookie) (v : SameSite),
      applySegment toInt d (b!" " ++ (b!"SameSite=" ++ sameSiteName v)) = { d with sameSite := some v } := by
  intro d v
  have hp : Plain (sameSiteName v) := by
    cases v <;> exact ⟨by simp [sameSiteName, Ows], by simp [sameSiteName, Ows], by simp [sameSiteName]⟩
  have := segment_eq toInt d (n := b!"SameSite") (v := sameSiteName v) (by decide) (by decide) (by simp [Ows])
    (by simp [Ows]) hp
  simp only [List.cons_append, List.nil_append] at this ⊢
  rw [this]; cases v <;> rfl

/-- C67 (partial): a serialized cookie parses back to the same cookie, its expiry truncated to whole
seconds. The hypotheses exclude what the text format cannot carry: a value, domain or path with outer
spaces or surrounding double quotes, an empty path (read back as `/`) and an expiry before year 1000 or
after 9999. `toInt` (`qb::to_number<int>`) only has to read back the decimal text of the number. -/
theorem C67_roundtrip_partial (toInt : Bytes → Option Int) (c : Cookie) (h : Bytes) (e : toHeader c = some h)
    (hval : Plain c.value) (hdom : Plain c.domain) (hpath : Plain c.path) (hpne : c.path ≠ [])
    (hint : ∀ n, c.maxAge = some n → toInt (Date.dec n) = some n)
    {f : Int → Date.Civil} (hf : Date.Calendar f)
    (hexp : ∀ ns, c.expires = some ns → 1000 ≤ (f (Int.tdiv ns 1000000000 / 86400)).year ∧
      (f (Int.tdiv ns 1000000000 / 86400)).year ≤ 9999) :
    parseSetCookie toInt h =
      some { c with expires := c.expires.map fun ns => Int.tdiv ns 1000000000 * 1000000000 } := by
  have hv : validForSerialization c = true := (valid_iff c).2 ((C66_serializable_iff c).1 ⟨h, e⟩)
  obtain ⟨⟨hn0, hn⟩, _, _, _⟩ := (valid_iff c).1 hv
  have hseg := segments_fields (C66_header_exact c h e).1
  have hnc : ∀ x ∈ c.name, x ≠ c!"=" ∧ ¬ Ows x := by
    have : ∀ x : UInt8, isNameChar x = true → x ≠ c!"=" ∧ ¬ (x = 32 ∨ x = 9) := forall_byte (by decide +kernel)
    intro x hx
    exact this x ((isNameChar_iff x).2 (hn x hx))
  have hne : h ≠ [] := by
    intro hh; subst hh
    have : segments [] = [[]] := rfl
    rw [this] at hseg
    simp at hseg
  unfold parseSetCookie
  rw [if_neg (by simpa using hne), hseg]
  simp only []
  have hpair : c.name ++ b!"=" ++ c.value = c.name ++ c!"=" :: c.value := by simp
  have htrim : trimWs (c.name ++ b!"=" ++ c.value) = c.name ++ c!"=" :: c.value := by
    rw [hpair]
    apply trimWs_of_clean
    · intro x hx
      cases hnm : c.name with
      | nil => exact absurd hnm hn0
      | cons a t =>
        rw [hnm] at hx; simp at hx; subst hx
        exact (hnc a (by simp [hnm])).2
    · intro x hx
      rw [List.getLast?_append, List.getLast?_cons] at hx
      cases hvl : c.value.getLast? with
      | none => rw [hvl] at hx; simp at hx; subst hx; simp [Ows]
      | some y => rw [hvl] at hx; simp at hx; subst hx; exact hval.2.1 y hvl
  rw [htrim, findChar_app (fun hm => (hnc _ hm).1 rfl)]
  simp only []
  rw [if_neg (by simpa using hn0)]
  have huq : unquote c.value = c.value := by
    unfold unquote
    rw [if_neg]
    intro h
    simp only [Bool.and_eq_true, decide_eq_true_eq, beq_iff_eq, ge_iff_le] at h
    exact hval.2.2 ⟨h.1.1, h.1.2, h.2⟩
  rw [huq]
  congr 1
  unfold attributes
  simp only [List.map_append, List.foldl_append]
  rw [if_neg hpne]
  obtain ⟨nm, vl, ex, ma, dm, pt, sc, ho, ss⟩ := c
  simp only at hexp hint hdom hpath ⊢
  have fE : ∀ d : Cookie, d.expires = none → List.foldl (applySegment toInt) d
      (List.map (b!" " ++ ·) (optAttr b!"Expires=" (ex.map Date.formatHttpDate))) =
      { d with expires := ex.map fun ns => Int.tdiv ns 1000000000 * 1000000000 } := by
    intro d hd
    cases ex with
    | none => cases d; simp_all [optAttr]
    | some ns =>
      simp only [optAttr, Option.map_some, List.map_cons, List.map_nil, List.foldl_cons, List.foldl_nil]
      exact kExpires toInt hf d ns (hexp ns rfl).1 (hexp ns rfl).2
  have fM : ∀ d : Cookie, d.maxAge = none → List.foldl (applySegment toInt) d
      (List.map (b!" " ++ ·) (optAttr b!"Max-Age=" (ma.map Date.dec))) =
      { d with maxAge := ma } := by
    intro d hd
    cases ma with
    | none => cases d; simp_all [optAttr]
    | some n =>
      simp only [optAttr, Option.map_some, List.map_cons, List.map_nil, List.foldl_cons, List.foldl_nil]
      exact kMax toInt d n (hint n rfl)
  have fD : ∀ d : Cookie, d.domain = [] → List.foldl (applySegment toInt) d
      (List.map (b!" " ++ ·) (if dm = [] then [] else [b!"Domain=" ++ dm])) = { d with domain := dm } := by
    intro d hd
    by_cases h0 : dm = []
    · subst h0; cases d; simp_all
    · rw [if_neg h0]
      simp only [List.map_cons, List.map_nil, List.foldl_cons, List.foldl_nil]
      exact kDom toInt d dm hdom
  have fS : ∀ d : Cookie, d.secure = false → List.foldl (applySegment toInt) d
      (List.map (b!" " ++ ·) (if sc = true then [b!"Secure"] else [])) = { d with secure := sc } := by
    intro d hd
    cases sc with
    | false => cases d; simp_all
    | true =>
      simp only [if_true, List.map_cons, List.map_nil, List.foldl_cons, List.foldl_nil]
      exact kSec toInt d
  have fH : ∀ d : Cookie, d.httpOnly = false → List.foldl (applySegment toInt) d
      (List.map (b!" " ++ ·) (if ho = true then [b!"HttpOnly"] else [])) = { d with httpOnly := ho } := by
    intro d hd
    cases ho with
    | false => cases d; simp_all
    | true =>
      simp only [if_true, List.map_cons, List.map_nil, List.foldl_cons, List.foldl_nil]
      exact kHttp toInt d
  have fX : ∀ d : Cookie, d.sameSite = none → List.foldl (applySegment toInt) d
      (List.map (b!" " ++ ·) (optAttr b!"SameSite=" (ss.map sameSiteName))) =
      { d with sameSite := ss } := by
    intro d hd
    cases ss with
    | none => cases d; simp_all [optAttr]
    | some n =>
      simp only [optAttr, Option.map_some, List.map_cons, List.map_nil, List.foldl_cons, List.foldl_nil]
      exact kSame toInt d n
  have fP : ∀ d : Cookie, List.foldl (applySegment toInt) d (List.map (b!" " ++ ·) [b!"Path=" ++ pt]) =
      { d with path := pt } := fun d => kPath toInt d pt hpath
  rw [fE _ rfl, fM _ rfl, fD _ rfl, fP, fS _ rfl, fH _ rfl, fX _ rfl]

/-- Reading decimal integers, as an example of `toInt`. -/
example : Plain b!"abc" ∧ Plain b!"/" ∧ Plain [] := by
  refine ⟨⟨?_, ?_, ?_⟩, ⟨?_, ?_, ?_⟩, ⟨?_, ?_, ?_⟩⟩ <;> simp [Ows]
example : parseSetCookie (fun s => if s = b!"60" then some 60 else none)
    b!"sid=abc; Max-Age=60; Path=/; Secure; SameSite=Lax" =
    some { name := b!"sid", value := b!"abc", maxAge := some 60, secure := true, sameSite := some .lax } := by
  decide +kernel

/-- C67 is FALSE without the hypotheses: quotes around a value are lost, and so is an empty path. -/
theorem C67_false_lossy :
    toHeader { name := b!"a", value := b!"\"x\"" } = some b!"a=\"x\"; Path=/" ∧
    parseSetCookie (fun _ => none) b!"a=\"x\"; Path=/" = some { name := b!"a", value := b!"x" } ∧
    toHeader { name := b!"a", value := b!"x", path := [] } = some b!"a=x" ∧
    parseSetCookie (fun _ => none) b!"a=x" = some { name := b!"a", value := b!"x", path := b!"/" } := by
  decide +kernel

end Verif.Cookie
