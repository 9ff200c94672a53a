import Verif.Wire.Theorems

/-! Converses: when the framing checks of the serializer succeed. -/

namespace Verif.Wire
open Utility Utility.Spec Spec

/-- No key of the map has an empty list of values. -/
def NonEmptyEntries (h : Headers) : Prop := ∀ e ∈ h, e.2 ≠ []

theorem pairs_trim_unique {fs a b : List Bytes} (ha : Pairs IsTrim fs a) (hb : Pairs IsTrim fs b) : a = b := by
  induction ha generalizing b with
  | nil => cases hb; rfl
  | cons h _ ih => cases hb with | cons h' t => rw [isTrim_unique h h', ih t]

theorem elements_unique {v : Bytes} {a b : List Bytes} (ha : Elements v a) (hb : Elements v b) : a = b := by
  obtain ⟨f, t, h1, h2, rfl⟩ := ha
  obtain ⟨f', t', h1', h2', rfl⟩ := hb
  have := isFields_unique h1 h1'
  subst this
  rw [pairs_trim_unique h2 h2']

theorem find_noField {h : Headers} (hn : NonEmptyEntries h) {name : Bytes} (e : NoField name (flat h)) : find h name = none := by
  unfold find
  simp only [Option.map_eq_none_iff, List.find?_eq_none]
  intro x hx hi
  cases hv : x.2 with
  | nil => exact hn x hx hv
  | cons v vs =>
    refine e (x.1, v) ?_ (ieq.1 hi)
    exact List.mem_flatMap.2 ⟨x, hx, by rw [hv]; simp⟩

theorem te_of_none {h : Headers} (hn : NonEmptyEntries h) (e : NoField b!"Transfer-Encoding" (flat h)) :
    transferEncoding h = some false := by
  unfold transferEncoding; rw [find_noField hn e]

theorem te_of_some {h : Headers} (hd : Distinct h) (e : DeclaresChunked (flat h)) : transferEncoding h = some true := by
  obtain ⟨vs, tss, t, h1, h2, h3, h4⟩ := e
  unfold transferEncoding
  cases hf : find h b!"Transfer-Encoding" with
  | none =>
    have := valuesOf_unique h1 (valuesOf_none (find_none hf))
    subst this
    cases h2; simp at h3
  | some vs' =>
    have := valuesOf_unique h1 (find_some hd hf)
    subst this
    have : tss.flatten = teTokens vs := by
      clear h1 h3 hf
      unfold teTokens
      induction h2 with
      | nil => rfl
      | cons h _ ih => rw [List.flatten_cons, List.flatMap_cons, ih, elements_unique h (elements_model _)]
    rw [h3] at this
    simp only []
    rw [← this]
    simp only []
    rw [if_pos (ieq.2 h4)]

theorem declaredLoop_of {vs : List Bytes} {n : Nat} {acc : Option Nat} (ha : acc = none ∨ acc = some n)
    (h : ∀ v ∈ vs, parseContentLength v = some n) : declaredLoop acc vs = some (if vs = [] then acc else some n) := by
  induction vs generalizing acc with
  | nil => rfl
  | cons v vs ih =>
    unfold declaredLoop
    rw [h v (by simp)]
    simp only []
    rw [if_neg (by rcases ha with rfl | rfl <;> simp), ih (Or.inr rfl) (fun w hw => h w (by simp [hw]))]
    by_cases hv : vs = [] <;> simp [hv]

theorem declared_of_none {h : Headers} (hn : NonEmptyEntries h) (e : NoField b!"Content-Length" (flat h)) :
    declaredContentLength h = some none := by
  unfold declaredContentLength; rw [find_noField hn e]

theorem declared_of_some {h : Headers} (hd : Distinct h) {n : Nat} (hn : n < 2 ^ 64) (e : DeclaresLength (flat h) n) :
    declaredContentLength h = some (some n) := by
  obtain ⟨vs, h1, h2, h3⟩ := e
  unfold declaredContentLength
  cases hf : find h b!"Content-Length" with
  | none => exact absurd (valuesOf_unique h1 (valuesOf_none (find_none hf))) h2
  | some vs' =>
    have := valuesOf_unique h1 (find_some hd hf)
    subst this
    simp only []
    rw [declaredLoop_of (n := n) (Or.inl rfl) (fun v hv => (contentLength_iff v n).2 ⟨hn, h3 v hv⟩), if_neg h2]

/-- The two framing checks together. -/
theorem framing_iff {h : Headers} (hd : Distinct h) (hn : NonEmptyEntries h) (chunked : Bool) (cl : Option Nat) :
    (transferEncoding h = some chunked ∧ declaredContentLength h = some cl) ↔
    (if chunked then DeclaresChunked (flat h) else NoField b!"Transfer-Encoding" (flat h)) ∧
    (match cl with | none => NoField b!"Content-Length" (flat h) | some n => DeclaresLength (flat h) n ∧ n < 2 ^ 64) := by
  constructor
  · rintro ⟨h1, h2⟩
    constructor
    · cases chunked
      · exact te_none h1
      · exact te_some hd h1
    · cases cl
      · exact declared_none hd h2
      · exact declared_some hd h2
  · rintro ⟨h1, h2⟩
    constructor
    · cases chunked
      · exact te_of_none hn h1
      · exact te_of_some hd h1
    · cases cl
      · exact declared_of_none hn h2
      · exact declared_of_some hd h2.2 h2.1

/-- The header part of the size estimate: names plus two, and each value plus two. -/
def headerBytes (h : Headers) : Nat := (h.map fun e => e.1.length + 2 + (e.2.map fun v => v.length + 2).sum).sum

/-- Every name is a token of at most 1024 octets, every value a field value of at most 8192. -/
def CleanHeaders (h : Headers) : Prop :=
  ∀ e ∈ h, (FieldName e.1 ∧ e.1.length ≤ 1024) ∧ ∀ v ∈ e.2, FieldValue v ∧ v.length ≤ 8192

theorem headersSize_clean {h : Headers} (c : CleanHeaders h) : headersSize h = some (headerBytes h) :=
  (headersSize_iff h _).2 ⟨c, rfl⟩

theorem headersSize_elim {h : Headers} {k : Nat} (e : headersSize h = some k) : CleanHeaders h ∧ k = headerBytes h :=
  (headersSize_iff h k).1 e

/-- C72: exactly which requests are serialized: short enough target and body, clean header fields, a
coherent framing (chunked alone, or the body's own length, or neither), and a total within the cap; all
others throw and write nothing. -/
theorem C72_accepted (r : Request) (hd : Distinct r.headers) (hn : NonEmptyEntries r.headers) :
    (∃ out, putRequest r = some out) ↔
      r.path.length + r.query.length ≤ 8192 ∧ r.body.length ≤ 104857600 ∧ CleanHeaders r.headers ∧
      ((DeclaresChunked (flat r.headers) ∧ NoField b!"Content-Length" (flat r.headers)) ∨
       (NoField b!"Transfer-Encoding" (flat r.headers) ∧
         (NoField b!"Content-Length" (flat r.headers) ∨ DeclaresLength (flat r.headers) r.body.length))) ∧
      r.path.length + r.query.length + headerBytes r.headers + r.body.length + 67 ≤ 115343360 := by
  constructor
  · rintro ⟨out, e⟩
    unfold putRequest MAX_URL_LENGTH MAX_BODY_SIZE MAX_SERIALIZED_SIZE at e
    split at e
    · simp at e
    split at e
    · simp at e
    cases hte : transferEncoding r.headers with
    | none => rw [hte] at e; simp at e
    | some chunked =>
    rw [hte] at e
    simp only at e
    cases hcl : declaredContentLength r.headers with
    | none => rw [hcl] at e; simp at e
    | some cl =>
    rw [hcl] at e
    simp only at e
    split at e
    · simp at e
    rename_i hbad
    split at e
    · simp at e
    rename_i hlen
    cases hhs : headersSize r.headers with
    | none => rw [hhs] at e; simp at e
    | some hs =>
    rw [hhs] at e
    simp only at e
    split at e
    · simp at e
    obtain ⟨hc, rfl⟩ := headersSize_elim hhs
    obtain ⟨f1, f2⟩ := (framing_iff hd hn chunked cl).1 ⟨hte, hcl⟩
    refine ⟨by omega, by omega, hc, ?_, by omega⟩
    cases chunked with
    | true =>
      cases cl with
      | none => exact Or.inl ⟨f1, f2⟩
      | some n => simp at hbad
    | false =>
      cases cl with
      | none => exact Or.inr ⟨f1, Or.inl f2⟩
      | some n =>
        simp at hlen
        exact Or.inr ⟨f1, Or.inr (hlen ▸ f2.1)⟩
  · rintro ⟨h1, h2, hc, hf, h5⟩
    have hs := headersSize_clean hc
    have h64 : r.body.length < 2 ^ 64 := by omega
    unfold putRequest MAX_URL_LENGTH MAX_BODY_SIZE MAX_SERIALIZED_SIZE
    rw [if_neg (by omega), if_neg (by omega)]
    rcases hf with ⟨f1, f2⟩ | ⟨f1, f2 | f2⟩
    · obtain ⟨e1, e2⟩ := (framing_iff hd hn true none).2 ⟨f1, f2⟩
      rw [e1, e2]
      simp only [hs]
      rw [if_neg (by simp), if_neg (by simp), if_neg (by omega)]
      exact ⟨_, rfl⟩
    · obtain ⟨e1, e2⟩ := (framing_iff hd hn false none).2 ⟨f1, f2⟩
      rw [e1, e2]
      simp only [hs]
      rw [if_neg (by simp), if_neg (by simp), if_neg (by omega)]
      exact ⟨_, rfl⟩
    · obtain ⟨e1, e2⟩ := (framing_iff hd hn false (some r.body.length)).2 ⟨f1, f2, h64⟩
      rw [e1, e2]
      simp only [hs]
      rw [if_neg (by simp), if_neg (by simp), if_neg (by omega)]
      exact ⟨_, rfl⟩

end Verif.Wire
