import Verif.Wire.Lemmas

/-! C71–C73: HTTP/1.1 serialization. -/

namespace Verif.Wire
open Utility Utility.Spec Spec

/-! ## C71 unambiguous wire format (facts about the specification) -/

theorem crlf_split {a b x y : Bytes} (ha : ∀ c ∈ a, c ≠ 13 ∧ c ≠ 10) (hb : ∀ c ∈ b, c ≠ 13 ∧ c ≠ 10)
    (e : a ++ 13 :: x = b ++ 13 :: y) : a = b ∧ x = y := by
  induction a generalizing b with
  | nil =>
    cases b with
    | nil => simpa using e
    | cons d b =>
      simp only [List.nil_append, List.cons_append, List.cons.injEq] at e
      exact absurd e.1.symm (hb d (by simp)).1
  | cons c a ih =>
    cases b with
    | nil =>
      simp only [List.nil_append, List.cons_append, List.cons.injEq] at e
      exact absurd e.1 (ha c (by simp)).1
    | cons d b =>
      simp only [List.cons_append, List.cons.injEq] at e
      obtain ⟨rfl, e⟩ := e
      obtain ⟨rfl, h⟩ := ih (fun x hx => ha x (by simp [hx])) (fun x hx => hb x (by simp [hx])) e
      exact ⟨rfl, h⟩

theorem tchar_props {c : UInt8} (h : TChar c) : c ≠ 13 ∧ c ≠ 10 ∧ c ≠ c!":" := by
  have : ∀ c : UInt8, isHeaderNameChar c = true → c ≠ 13 ∧ c ≠ 10 ∧ c ≠ c!":" := forall_byte (by decide +kernel)
  exact this c ((isHeaderNameChar_iff c).2 h)

theorem fieldValue_nocr {v : Bytes} (h : FieldValue v) : ∀ c ∈ v, c ≠ 13 ∧ c ≠ 10 := by
  intro c hc
  rcases h c hc with rfl | ⟨h1, _⟩
  · decide
  · constructor <;> (rintro rfl; simp at h1)

theorem colon_split {a b x y : Bytes} (ha : ∀ c ∈ a, c ≠ c!":") (hb : ∀ c ∈ b, c ≠ c!":")
    (e : a ++ c!":" :: x = b ++ c!":" :: y) : a = b ∧ x = y := by
  induction a generalizing b with
  | nil =>
    cases b with
    | nil => simpa using e
    | cons d b =>
      simp only [List.nil_append, List.cons_append, List.cons.injEq] at e
      exact absurd e.1.symm (hb d (by simp))
  | cons c a ih =>
    cases b with
    | nil =>
      simp only [List.nil_append, List.cons_append, List.cons.injEq] at e
      exact absurd e.1 (ha c (by simp))
    | cons d b =>
      simp only [List.cons_append, List.cons.injEq] at e
      obtain ⟨rfl, e⟩ := e
      obtain ⟨rfl, h⟩ := ih (fun x hx => ha x (by simp [hx])) (fun x hx => hb x (by simp [hx])) e
      exact ⟨rfl, h⟩

theorem fields_unique {f g : List (Bytes × Bytes)} {p q : Bytes} (hf : ∀ x ∈ f, FieldName x.1 ∧ FieldValue x.2)
    (hg : ∀ x ∈ g, FieldName x.1 ∧ FieldValue x.2)
    (e : f.flatMap fieldLine ++ CRLF ++ p = g.flatMap fieldLine ++ CRLF ++ q) : f = g ∧ p = q := by
  induction f generalizing g with
  | nil =>
    cases g with
    | nil => simpa using e
    | cons y g =>
      exfalso
      have hn := (hg y (by simp)).1
      obtain ⟨n, v⟩ := y
      cases n with
      | nil => exact hn.1 rfl
      | cons c n =>
        simp [CRLF, fieldLine] at e
        exact (tchar_props (hn.2 c (by simp))).1 e.1.symm
  | cons x f ih =>
    cases g with
    | nil =>
      exfalso
      have hn := (hf x (by simp)).1
      obtain ⟨n, v⟩ := x
      cases n with
      | nil => exact hn.1 rfl
      | cons c n =>
        simp [CRLF, fieldLine] at e
        exact (tchar_props (hn.2 c (by simp))).1 e.1
    | cons y g =>
      obtain ⟨hx1, hx2⟩ := hf x (by simp)
      obtain ⟨hy1, hy2⟩ := hg y (by simp)
      have e1 : (x.1 ++ b!": " ++ x.2) ++ 13 :: (10 :: (f.flatMap fieldLine ++ CRLF ++ p)) =
          (y.1 ++ b!": " ++ y.2) ++ 13 :: (10 :: (g.flatMap fieldLine ++ CRLF ++ q)) := by
        simpa [fieldLine, CRLF] using e
      have nocr : ∀ z : Bytes × Bytes, FieldName z.1 → FieldValue z.2 → ∀ c ∈ z.1 ++ b!": " ++ z.2, c ≠ 13 ∧ c ≠ 10 := by
        intro z h1 h2 c hc
        simp only [List.mem_append] at hc
        rcases hc with (hc | hc) | hc
        · exact ⟨(tchar_props (h1.2 c hc)).1, (tchar_props (h1.2 c hc)).2.1⟩
        · revert c; decide
        · exact fieldValue_nocr h2 c hc
      obtain ⟨e2, e3⟩ := crlf_split (nocr x hx1 hx2) (nocr y hy1 hy2) e1
      have e4 : x.1 ++ c!":" :: (32 :: x.2) = y.1 ++ c!":" :: (32 :: y.2) := by simpa using e2
      obtain ⟨e5, e6⟩ := colon_split (fun c hc => (tchar_props (hx1.2 c hc)).2.2) (fun c hc => (tchar_props (hy1.2 c hc)).2.2) e4
      simp only [List.cons.injEq, true_and] at e6 e3
      obtain ⟨rfl, rfl⟩ := ih (fun z hz => hf z (by simp [hz])) (fun z hz => hg z (by simp [hz])) e3
      exact ⟨by rw [show x = y from Prod.ext e5 e6], rfl⟩

/-- C71: a byte string is a message in at most one way: start line, fields and rest are determined. -/
theorem C71_unique (out s s' p p' : Bytes) (f f' : List (Bytes × Bytes)) (h : IsMessage out s f p)
    (h' : IsMessage out s' f' p') : s = s' ∧ f = f' ∧ p = p' := by
  obtain ⟨e, hs, hf⟩ := h
  obtain ⟨e', hs', hf'⟩ := h'
  rw [e] at e'
  have e1 : s ++ 13 :: (10 :: (f.flatMap fieldLine ++ CRLF ++ p)) = s' ++ 13 :: (10 :: (f'.flatMap fieldLine ++ CRLF ++ p')) := by
    simpa [CRLF] using e'
  obtain ⟨rfl, e2⟩ := crlf_split hs hs' e1
  simp only [List.cons.injEq, true_and] at e2
  obtain ⟨rfl, rfl⟩ := fields_unique hf hf' e2
  exact ⟨rfl, rfl, rfl⟩

theorem chunked_unique {p q b c x y : Bytes} (hp : Chunked p b) (hq : Chunked q c) (e : p ++ x = q ++ y) :
    b = c ∧ x = y := by
  induction hp generalizing q c with
  | @last z hz =>
    cases hq with
    | @last z' hz' =>
      have e1 : z ++ 13 :: (10 :: 13 :: 10 :: x) = z' ++ 13 :: (10 :: 13 :: 10 :: y) := by simpa [CRLF] using e
      obtain ⟨rfl, e2⟩ := crlf_split hz.clean hz'.clean e1
      simpa using e2
    | @chunk s data rest body hs hd _ =>
      have e1 : z ++ 13 :: (10 :: 13 :: 10 :: x) = s ++ 13 :: (10 :: (data ++ CRLF ++ rest ++ y)) := by simpa [CRLF] using e
      obtain ⟨rfl, _⟩ := crlf_split hz.clean hs.clean e1
      have := hz.unique hs
      exact absurd (List.length_eq_zero_iff.1 this.symm) hd
  | @chunk s data rest body hs hd _ ih =>
    cases hq with
    | @last z' hz' =>
      have e1 : s ++ 13 :: (10 :: (data ++ CRLF ++ rest ++ x)) = z' ++ 13 :: (10 :: 13 :: 10 :: y) := by simpa [CRLF] using e
      obtain ⟨rfl, _⟩ := crlf_split hs.clean hz'.clean e1
      have := hs.unique hz'
      exact absurd (List.length_eq_zero_iff.1 this) hd
    | @chunk s' data' rest' body' hs' hd' hr' =>
      have e1 : s ++ 13 :: (10 :: (data ++ (CRLF ++ (rest ++ x)))) = s' ++ 13 :: (10 :: (data' ++ (CRLF ++ (rest' ++ y)))) := by
        simpa [CRLF] using e
      obtain ⟨rfl, e2⟩ := crlf_split hs.clean hs'.clean e1
      simp only [List.cons.injEq, true_and] at e2
      obtain ⟨rfl, e3⟩ := List.append_inj e2 (hs.unique hs')
      obtain ⟨_, e4⟩ := List.append_inj e3 rfl
      obtain ⟨rfl, rfl⟩ := ih hr' e4
      exact ⟨rfl, rfl⟩

theorem isTrim_unique {t u v : Bytes} (h : IsTrim t u) (h' : IsTrim t v) : u = v :=
  (trimWs_iff.2 h).symm.trans (trimWs_iff.2 h')

theorem length_unique {f : List (Bytes × Bytes)} {n m : Nat} (h : DeclaresLength f n) (h' : DeclaresLength f m) : n = m := by
  obtain ⟨vs, h1, h2, h3⟩ := h
  obtain ⟨vs', h1', _, h3'⟩ := h'
  have := valuesOf_unique h1 h1'
  subst this
  cases vs with
  | nil => exact absurd rfl h2
  | cons v vs =>
    obtain ⟨u, t, d⟩ := h3 v (by simp)
    obtain ⟨u', t', d'⟩ := h3' v (by simp)
    have := isTrim_unique t t'
    subst this
    exact d.unique d'

theorem length_field {f : List (Bytes × Bytes)} {n : Nat} (h : DeclaresLength f n) : ¬ NoField b!"Content-Length" f := by
  obtain ⟨vs, h1, h2, _⟩ := h
  exact fun hn => h2 (valuesOf_unique h1 (valuesOf_none hn))

theorem chunked_field {f : List (Bytes × Bytes)} (h : DeclaresChunked f) : ¬ NoField b!"Transfer-Encoding" f := by
  obtain ⟨vs, tss, t, h1, h2, h3, _⟩ := h
  intro hn
  have := valuesOf_unique h1 (valuesOf_none hn)
  subst this
  cases h2
  simp at h3

/-- What a recipient takes from a byte stream: a start line, fields, a body, and what is left. -/
def Reads (stream start : Bytes) (fields : List (Bytes × Bytes)) (body rest : Bytes) : Prop :=
  ∃ payload, IsMessage stream start fields (payload ++ rest) ∧ Framed fields payload body

/-- C71: a recipient can take a message from a stream in at most one way: no byte string can be read as two
different messages, or as messages with different boundaries. -/
theorem C71_unambiguous (stream s s' b b' r r' : Bytes) (f f' : List (Bytes × Bytes)) (h : Reads stream s f b r)
    (h' : Reads stream s' f' b' r') : s = s' ∧ f = f' ∧ b = b' ∧ r = r' := by
  obtain ⟨p, h1, h2⟩ := h
  obtain ⟨p', h1', h2'⟩ := h'
  obtain ⟨rfl, rfl, e⟩ := C71_unique _ _ _ _ _ _ _ h1 h1'
  refine ⟨rfl, rfl, ?_⟩
  cases h2 with
  | chunked g1 g2 g3 =>
    cases h2' with
    | chunked _ _ k3 => exact chunked_unique g3 k3 e
    | length k1 _ => exact absurd k1 (chunked_field g1)
    | none k1 _ => exact absurd k1 (chunked_field g1)
  | length g1 g2 =>
    cases h2' with
    | chunked k1 _ _ => exact absurd g1 (chunked_field k1)
    | length _ k2 => exact List.append_inj e (length_unique g2 k2)
    | none _ k2 => exact absurd k2 (length_field g2)
  | none g1 g2 =>
    cases h2' with
    | chunked k1 _ _ => exact absurd g1 (chunked_field k1)
    | length _ k2 => exact absurd g2 (length_field k2)
    | none _ _ => exact ⟨rfl, by simpa using e⟩

/-! ## C72 requests -/

/-- The request line. -/
def requestLine (method path query : Bytes) (major minor : Nat) : Bytes :=
  method ++ b!" " ++ path ++ (if query = [] then [] else b!"?" ++ query) ++ b!" HTTP/" ++ Date.decNat major ++ b!"." ++
    Date.decNat minor

theorem flat_valid {h : Headers} {k : Nat} (hs : headersSize h = some k) : ∀ f ∈ flat h, FieldName f.1 ∧ FieldValue f.2 := by
  obtain ⟨h1, _⟩ := (headersSize_iff h k).1 hs
  intro f hf
  obtain ⟨e, he, hf⟩ := List.mem_flatMap.1 hf
  obtain ⟨v, hv, rfl⟩ := List.mem_map.1 hf
  exact ⟨(h1 e he).1.1, ((h1 e he).2 v hv).1⟩

theorem clFieldName : FieldName b!"content-length" := by
  refine ⟨by decide, ?_⟩
  intro c hc
  exact (isHeaderNameChar_iff c).1 ((show ∀ c ∈ b!"content-length", isHeaderNameChar c = true by decide) c hc)

/-- C72: a request that is serialized is, on the wire, its request line, exactly its own header fields (and
a content-length if it has a body and declares no length) and a payload; and a recipient reading those
fields takes exactly the request's body. So no header name or value can add a field or end the header
section, and declared and actual framing agree. Missing from the code: a chunked request with an empty
body (`C72_false_empty_chunked`), hence the hypothesis. -/
theorem C72_request_partial (r : Request) (out : Bytes) (hd : Distinct r.headers) (e : putRequest r = some out)
    (hline : ∀ c ∈ requestLine r.method r.path r.query r.major r.minor, c ≠ 13 ∧ c ≠ 10)
    (hb : r.body ≠ [] ∨ ¬ DeclaresChunked (flat r.headers)) (rest : Bytes) :
    ∃ extra, (extra = [] ∨ (extra = [(b!"content-length", Date.decNat r.body.length)] ∧ r.body ≠ [] ∧
        NoField b!"Content-Length" (flat r.headers))) ∧
      Reads (out ++ rest) (requestLine r.method r.path r.query r.major r.minor) (flat r.headers ++ extra) r.body rest := by
  unfold putRequest at e
  split at e
  · simp at e
  split at e
  · simp at e
  cases hte : transferEncoding r.headers with
  | none => rw [hte] at e; simp at e
  | some chunked =>
  rw [hte] at e
  simp only at e
  cases hcl : declaredContentLength r.headers with
  | none => rw [hcl] at e; simp at e
  | some cl =>
  rw [hcl] at e
  simp only at e
  split at e
  · simp at e
  rename_i hbad
  split at e
  · simp at e
  rename_i hlen
  cases hhs : headersSize r.headers with
  | none => rw [hhs] at e; simp at e
  | some hs =>
  rw [hhs] at e
  simp only at e
  split at e
  · simp at e
  have hfl := flat_valid hhs
  simp only [Option.some.injEq] at e
  have hq : (if (!r.query.isEmpty) = true then b!"?" ++ r.query else []) = (if r.query = [] then [] else b!"?" ++ r.query) := by
    by_cases hq0 : r.query = [] <;> simp [hq0]
  rw [hq, putHeaders_eq] at e
  have key : ∀ (extra : List (Bytes × Bytes)) (payload : Bytes),
      (∀ f ∈ extra, FieldName f.1 ∧ FieldValue f.2) →
      out = requestLine r.method r.path r.query r.major r.minor ++ CRLF ++ (flat r.headers).flatMap fieldLine ++
        extra.flatMap fieldLine ++ CRLF ++ payload →
      Framed (flat r.headers ++ extra) payload r.body →
      Reads (out ++ rest) (requestLine r.method r.path r.query r.major r.minor) (flat r.headers ++ extra) r.body rest := by
    intro extra payload hx ho hfr
    refine ⟨payload, ⟨?_, hline, ?_⟩, hfr⟩
    · rw [ho]; simp
    · intro f hf
      rcases List.mem_append.1 hf with hf | hf
      · exact hfl f hf
      · exact hx f hf
  have line : ∀ t : Bytes, r.method ++ b!" " ++ r.path ++ (if r.query = [] then [] else b!"?" ++ r.query) ++ b!" " ++ b!"HTTP/" ++
      Date.decNat r.major ++ b!"." ++ Date.decNat r.minor ++ endl ++ t =
      requestLine r.method r.path r.query r.major r.minor ++ CRLF ++ t := by
    intro t; simp [requestLine, endl, CRLF]
  rw [List.append_assoc, line] at e
  by_cases hb0 : r.body = []
  · rw [if_neg (by simp [hb0])] at e
    refine ⟨[], Or.inl rfl, key [] [] (by simp) (by rw [← e]; simp [endl, CRLF]) ?_⟩
    rw [List.append_nil, hb0]
    cases chunked with
    | true => exact absurd (te_some hd hte) (hb.resolve_left (by simp [hb0]))
    | false =>
      cases cl with
      | none => exact .none (te_none hte) (declared_none hd hcl)
      | some n =>
        simp [hb0] at hlen
        subst hlen
        exact .length (te_none hte) (declared_some hd hcl).1
  · rw [if_pos (by simpa using hb0)] at e
    cases chunked with
    | true =>
      simp only [if_true] at e
      refine ⟨[], Or.inl rfl, key [] (putChunk r.body ++ putChunk []) (by simp) (by rw [← e]; simp [endl, CRLF]) ?_⟩
      rw [List.append_nil]
      have : cl = none := by cases cl <;> simp_all
      subst this
      exact .chunked (te_some hd hte) (declared_none hd hcl) (putChunk_body _ hb0)
    | false =>
      simp only [Bool.false_eq_true, if_false] at e
      cases cl with
      | some n =>
        refine ⟨[], Or.inl rfl, key [] r.body (by simp) (by rw [← e]; simp [endl, CRLF]) ?_⟩
        rw [List.append_nil]
        simp at hlen
        have := (declared_some hd hcl).1
        rw [hlen] at this
        exact .length (te_none hte) this
      | none =>
        refine ⟨[(b!"content-length", Date.decNat r.body.length)], Or.inr ⟨rfl, hb0, declared_none hd hcl⟩,
          key _ r.body ?_ (by rw [← e]; simp [endl, CRLF, fieldLine]) (framed_extra (te_none hte) (declared_none hd hcl) r.body)⟩
        intro f hf
        simp only [List.mem_singleton] at hf; subst hf
        exact ⟨clFieldName, decNat_fieldValue _⟩

/-- C72 is FALSE for a chunked request without a body: the terminating chunk is not written, so a recipient
waits for it (and would take the next request's bytes for it). -/
theorem C72_false_empty_chunked :
    putRequest { method := b!"GET", path := b!"/", query := [], headers := [(b!"Transfer-Encoding", [b!"chunked"])], body := [] } =
      some (b!"GET / HTTP/1.1" ++ CRLF ++ b!"Transfer-Encoding: chunked" ++ CRLF ++ CRLF) ∧
    ¬ ∃ s f b, Reads (b!"GET / HTTP/1.1" ++ CRLF ++ b!"Transfer-Encoding: chunked" ++ CRLF ++ CRLF) s f b [] := by
  constructor
  · simp [putRequest, transferEncoding, declaredContentLength, find, teTokens, splitString, splitIf, findIf, trimWs, isWs,
      iequals, iequalsByte, headersSize, headerNameIsValid, headerValueIsValid, isHeaderNameChar, MAX_URL_LENGTH,
      MAX_BODY_SIZE, MAX_HEADER_NAME_LENGTH, MAX_HEADER_VALUE_LENGTH, MAX_SERIALIZED_SIZE, putHeaders, endl, CRLF, Date.decNat]
  · rintro ⟨s, f, b, p, h1, h2⟩
    have h0 : IsMessage (b!"GET / HTTP/1.1" ++ CRLF ++ b!"Transfer-Encoding: chunked" ++ CRLF ++ CRLF) b!"GET / HTTP/1.1"
        [(b!"Transfer-Encoding", b!"chunked")] [] := by
      refine ⟨by simp [fieldLine, CRLF], by decide, ?_⟩
      intro g hg
      simp only [List.mem_singleton] at hg; subst hg
      exact ⟨((nameValid_iff _).1 (by decide)).1, ((valueValid_iff _).1 (by decide)).1⟩
    obtain ⟨rfl, rfl, e⟩ := C71_unique _ _ _ _ _ _ _ h1 h0
    simp only [List.append_nil] at e
    subst e
    cases h2 with
    | chunked _ _ h => generalize hp : ([] : Bytes) = p at h; cases h <;> simp [CRLF] at hp
    | length h _ => exact h (b!"Transfer-Encoding", b!"chunked") (by simp) rfl
    | none h _ => exact h (b!"Transfer-Encoding", b!"chunked") (by simp) rfl

end Verif.Wire
