import Verif.Wire.TheoremsAccept

/-! C73: HTTP/1.1 responses; C74: several messages on one connection. -/

namespace Verif.Wire
open Utility Utility.Spec Spec

/-! ## C73 responses -/

/-- The status line. -/
def statusLine (major minor status : Nat) (reason : Bytes) : Bytes :=
  b!"HTTP/" ++ Date.decNat major ++ b!"." ++ Date.decNat minor ++ b!" " ++ Date.decNat status ++ b!" " ++ reason

/-- Statuses whose responses end with the header section (RFC 9112, 6.3). -/
def Bodiless (s : Nat) : Prop := (100 ≤ s ∧ s < 200) ∨ s = 204 ∨ s = 304

instance (s : Nat) : Decidable (Bodiless s) := by unfold Bodiless; infer_instance

theorem mustNot_iff (s : Nat) : mustNotCarryBody s = true ↔ Bodiless s := by
  unfold mustNotCarryBody Bodiless
  simp only [Bool.or_eq_true, Bool.and_eq_true, decide_eq_true_eq, beq_iff_eq, ge_iff_le, or_assoc]

theorem forbids_iff (s : Nat) : forbidsNonzeroLength s = true ↔ (100 ≤ s ∧ s < 200) ∨ s = 204 := by
  unfold forbidsNonzeroLength
  simp only [Bool.or_eq_true, Bool.and_eq_true, decide_eq_true_eq, beq_iff_eq, ge_iff_le]

theorem statusLine_clean {major minor status : Nat} {reason : Bytes} (hline : ∀ c ∈ reason, c ≠ 13 ∧ c ≠ 10) :
    ∀ c ∈ statusLine major minor status reason, c ≠ 13 ∧ c ≠ 10 := by
  have h1 : ∀ c ∈ b!"HTTP/", c ≠ 13 ∧ c ≠ 10 := by decide
  have h2 : ∀ c ∈ b!".", c ≠ 13 ∧ c ≠ 10 := by decide
  have h3 : ∀ c ∈ b!" ", c ≠ 13 ∧ c ≠ 10 := by decide
  intro c hx
  simp only [statusLine, List.mem_append] at hx
  rcases hx with ((((((hx | hx) | hx) | hx) | hx) | hx) | hx) | hx
  · exact h1 c hx
  · exact decNat_nocr _ c hx
  · exact h2 c hx
  · exact decNat_nocr _ c hx
  · exact h3 c hx
  · exact decNat_nocr _ c hx
  · exact h3 c hx
  · exact hline c hx

theorem clean_flat {h : Headers} (hc : CleanHeaders h) : ∀ f ∈ flat h, FieldName f.1 ∧ FieldValue f.2 := by
  intro f hf
  obtain ⟨x, hx, hf⟩ := List.mem_flatMap.1 hf
  obtain ⟨v, hv, rfl⟩ := List.mem_map.1 hf
  exact ⟨(hc x hx).1.1, ((hc x hx).2 v hv).1⟩

/-- All checks a serialized response has passed. -/
theorem putResponse_inv {r : Response} {out : Bytes} (e : putResponse r = some out) :
    ∃ chunked cl, transferEncoding r.headers = some chunked ∧ declaredContentLength r.headers = some cl ∧
      r.body.length ≤ 104857600 ∧ (r.body ≠ [] → ¬ Bodiless r.status) ∧ (chunked = true → ¬ Bodiless r.status) ∧
      (chunked = true → cl = none) ∧ (forbidsNonzeroLength r.status = true → cl = none ∨ cl = some 0) ∧
      (r.body ≠ [] → chunked = false → cl = none ∨ cl = some r.body.length) ∧ CleanHeaders r.headers ∧
      (Date.decNat r.status).length + headerBytes r.headers + r.body.length + 66 ≤ 115343360 ∧
      out = statusLine r.major r.minor r.status r.reason ++ CRLF ++ (flat r.headers).flatMap fieldLine ++
        (if r.body ≠ [] then
          if chunked then CRLF ++ putChunk r.body ++ putChunk []
          else (if cl = none then fieldLine (b!"content-length", Date.decNat r.body.length) else []) ++ CRLF ++ r.body
        else (if chunked = false ∧ cl = none ∧ ¬ Bodiless r.status then fieldLine (b!"content-length", b!"0") else []) ++ CRLF) := by
  unfold putResponse MAX_BODY_SIZE MAX_SERIALIZED_SIZE at e
  split at e
  · simp at e
  split at e
  · simp at e
  rename_i hmb
  cases hte : transferEncoding r.headers with
  | none => rw [hte] at e; simp at e
  | some chunked =>
  rw [hte] at e
  simp only at e
  split at e
  · simp at e
  rename_i hmc
  cases hcl : declaredContentLength r.headers with
  | none => rw [hcl] at e; simp at e
  | some cl =>
  rw [hcl] at e
  simp only at e
  split at e
  · simp at e
  rename_i hbad
  split at e
  · simp at e
  rename_i hforb
  split at e
  · simp at e
  rename_i hlen
  cases hhs : headersSize r.headers with
  | none => rw [hhs] at e; simp at e
  | some hs =>
  rw [hhs] at e
  simp only at e
  split at e
  · simp at e
  obtain ⟨hc, rfl⟩ := headersSize_elim hhs
  refine ⟨chunked, cl, rfl, rfl, by omega, ?_, ?_, ?_, ?_, ?_, hc, by omega, ?_⟩
  · intro h1 h2; exact hmb (by rw [(mustNot_iff _).2 h2]; simpa using h1)
  · intro h1 h2; exact hmc (by rw [(mustNot_iff _).2 h2, h1]; rfl)
  · intro h1; cases cl <;> simp_all
  · intro h1
    cases cl with
    | none => simp
    | some n => rw [h1] at hforb; simp at hforb; exact Or.inr (by rw [hforb])
  · intro h1 h2
    cases cl with
    | none => simp
    | some n => subst h2; simp [h1] at hlen; exact Or.inr (by rw [hlen])
  · simp only [Option.some.injEq] at e
    rw [← e, putHeaders_eq]
    by_cases hb : r.body = []
    · rw [if_neg (show ¬ (r.body.length != 0) = true by simp [hb]), if_neg (show ¬ r.body ≠ [] by simp [hb])]
      have : (!chunked && cl.isNone && !mustNotCarryBody r.status) = true ↔ (chunked = false ∧ cl = none ∧ ¬ Bodiless r.status) := by
        rw [← mustNot_iff]
        cases chunked <;> cases cl <;> simp
      by_cases h1 : (chunked = false ∧ cl = none ∧ ¬ Bodiless r.status)
      · rw [if_pos (this.2 h1), if_pos h1]; simp [statusLine, endl, CRLF, fieldLine]
      · rw [if_neg (fun h => h1 (this.1 h)), if_neg h1]; simp [statusLine, endl, CRLF]
    · rw [if_pos (show (r.body.length != 0) = true by simp [hb]), if_pos (show r.body ≠ [] from hb)]
      cases chunked with
      | true => simp [statusLine, endl, CRLF]
      | false =>
        cases cl with
        | none => simp [statusLine, endl, CRLF, fieldLine]
        | some n => simp [statusLine, endl, CRLF]

/-- C73: a response with status 1xx, 204 or 304 that is serialized is its status line, its own fields and
the empty line, and nothing after: it declares no transfer coding, and with 1xx and 204 no length other
than 0. -/
theorem C73_bodiless (r : Response) (out : Bytes) (hd : Distinct r.headers) (e : putResponse r = some out)
    (hline : ∀ c ∈ r.reason, c ≠ 13 ∧ c ≠ 10) (hs : Bodiless r.status) (rest : Bytes) :
    r.body = [] ∧
    IsMessage (out ++ rest) (statusLine r.major r.minor r.status r.reason) (flat r.headers) rest ∧
    NoField b!"Transfer-Encoding" (flat r.headers) ∧
    (r.status ≠ 304 → ∀ n, DeclaresLength (flat r.headers) n → n = 0) := by
  obtain ⟨chunked, cl, hte, hcl, _, h1, h2, _, h4, _, hc, _, ho⟩ := putResponse_inv e
  have hb : r.body = [] := by
    by_cases h : r.body = []
    · exact h
    · exact absurd hs (h1 h)
  have hch : chunked = false := by cases chunked; rfl; exact absurd hs (h2 rfl)
  subst hch
  rw [if_neg (by simp [hb]), if_neg (by simp [hs])] at ho
  refine ⟨hb, ⟨by rw [ho]; simp, ?_, ?_⟩, te_none hte, ?_⟩
  · exact statusLine_clean hline
  · exact clean_flat hc
  · intro h304 n hn
    have hforb : forbidsNonzeroLength r.status = true := by
      rw [forbids_iff]; rcases hs with h | h | h
      · exact Or.inl h
      · exact Or.inr h
      · exact absurd h h304
    rcases h4 hforb with rfl | rfl
    · exact absurd (declared_none hd hcl) (length_field hn)
    · exact length_unique hn (declared_some hd hcl).1

/-- C73: any other response that is serialized is its status line, exactly its own fields (and a
content-length if it declares neither a length nor a coding) and a payload from which a recipient takes
exactly the body; the end of the message is always declared, never left to the closing of the connection.
Missing from the code: with an empty body, a declared non-zero length or the chunked coding is written as it
is (`C73_false_declared_length`, `C73_false_empty_chunked`), hence the hypothesis. -/
theorem C73_response_partial (r : Response) (out : Bytes) (hd : Distinct r.headers) (e : putResponse r = some out)
    (hline : ∀ c ∈ r.reason, c ≠ 13 ∧ c ≠ 10) (hs : ¬ Bodiless r.status)
    (hb : r.body ≠ [] ∨ (¬ DeclaresChunked (flat r.headers) ∧ ∀ n, DeclaresLength (flat r.headers) n → n = 0)) (rest : Bytes) :
    ∃ extra, (extra = [] ∨ (extra = [(b!"content-length", Date.decNat r.body.length)] ∧
        NoField b!"Content-Length" (flat r.headers) ∧ NoField b!"Transfer-Encoding" (flat r.headers))) ∧
      Reads (out ++ rest) (statusLine r.major r.minor r.status r.reason) (flat r.headers ++ extra) r.body rest ∧
      (DeclaresChunked (flat r.headers ++ extra) ∨ DeclaresLength (flat r.headers ++ extra) r.body.length) := by
  obtain ⟨chunked, cl, hte, hcl, _, _, _, h3, _, h5, hc, _, ho⟩ := putResponse_inv e
  have key : ∀ (extra : List (Bytes × Bytes)) (payload : Bytes),
      (∀ f ∈ extra, FieldName f.1 ∧ FieldValue f.2) →
      out = statusLine r.major r.minor r.status r.reason ++ CRLF ++ (flat r.headers).flatMap fieldLine ++
        (extra.flatMap fieldLine ++ CRLF ++ payload) →
      Framed (flat r.headers ++ extra) payload r.body →
      (DeclaresChunked (flat r.headers ++ extra) ∨ DeclaresLength (flat r.headers ++ extra) r.body.length) →
      Reads (out ++ rest) (statusLine r.major r.minor r.status r.reason) (flat r.headers ++ extra) r.body rest ∧
      (DeclaresChunked (flat r.headers ++ extra) ∨ DeclaresLength (flat r.headers ++ extra) r.body.length) := by
    intro extra payload hx ho hfr hdec
    refine ⟨⟨payload, ⟨by rw [ho]; simp, statusLine_clean hline, ?_⟩, hfr⟩, hdec⟩
    intro f hf
    rcases List.mem_append.1 hf with hf | hf
    · exact clean_flat hc f hf
    · exact hx f hf
  have xtra : ∀ f ∈ [(b!"content-length", Date.decNat r.body.length)], FieldName f.1 ∧ FieldValue f.2 := by
    intro f hf
    simp only [List.mem_singleton] at hf; subst hf
    exact ⟨clFieldName, decNat_fieldValue _⟩
  have extraLen : NoField b!"Transfer-Encoding" (flat r.headers) → NoField b!"Content-Length" (flat r.headers) →
      DeclaresLength (flat r.headers ++ [(b!"content-length", Date.decNat r.body.length)]) r.body.length := by
    intro t1 t2
    have := framed_extra t1 t2 r.body
    generalize hp : r.body = p at this
    cases this with
    | chunked g _ _ => exact absurd (by
        intro f hf
        rcases List.mem_append.1 hf with hf | hf
        · exact t1 f hf
        · simp only [List.mem_singleton] at hf; subst hf
          exact fun h => by simp [SameName, lower] at h) (chunked_field g)
    | length _ g => exact g
    | none _ g => exact absurd rfl (g (b!"content-length", Date.decNat ([] : Bytes).length) (by simp))
  by_cases hb0 : r.body = []
  · rw [if_neg (by simp [hb0])] at ho
    obtain ⟨hb1, hb2⟩ := hb.resolve_left (by simp [hb0])
    cases chunked with
    | true => exact absurd (te_some hd hte) hb1
    | false =>
      cases cl with
      | none =>
        rw [if_pos ⟨rfl, rfl, hs⟩] at ho
        refine ⟨[(b!"content-length", Date.decNat r.body.length)], Or.inr ⟨rfl, declared_none hd hcl, te_none hte⟩,
          key _ [] xtra ?_ ?_ (Or.inr (extraLen (te_none hte) (declared_none hd hcl)))⟩
        · rw [ho, hb0]; simp [Date.decNat]
        · have := framed_extra (te_none hte) (declared_none hd hcl) r.body
          rwa [hb0] at this ⊢
      | some n =>
        rw [if_neg (by simp)] at ho
        have hn := (declared_some hd hcl).1
        have : n = 0 := hb2 n hn
        subst this
        refine ⟨[], Or.inl rfl, key [] [] (by simp) (by rw [ho]; simp) ?_ ?_⟩
        · rw [List.append_nil, hb0]; exact .length (te_none hte) hn
        · rw [List.append_nil, hb0]; exact Or.inr hn
  · rw [if_pos hb0] at ho
    cases chunked with
    | true =>
      rw [if_pos rfl] at ho
      have : cl = none := h3 rfl
      subst this
      refine ⟨[], Or.inl rfl, key [] (putChunk r.body ++ putChunk []) (by simp) (by rw [ho]; simp) ?_ ?_⟩
      · rw [List.append_nil]; exact .chunked (te_some hd hte) (declared_none hd hcl) (putChunk_body _ hb0)
      · rw [List.append_nil]; exact Or.inl (te_some hd hte)
    | false =>
      rw [if_neg (by simp)] at ho
      rcases h5 hb0 rfl with rfl | rfl
      · rw [if_pos rfl] at ho
        exact ⟨[(b!"content-length", Date.decNat r.body.length)], Or.inr ⟨rfl, declared_none hd hcl, te_none hte⟩,
          key _ r.body xtra (by rw [ho]; simp) (framed_extra (te_none hte) (declared_none hd hcl) _)
            (Or.inr (extraLen (te_none hte) (declared_none hd hcl)))⟩
      · rw [if_neg (by simp)] at ho
        have hn := (declared_some hd hcl).1
        refine ⟨[], Or.inl rfl, key [] r.body (by simp) (by rw [ho]; simp) ?_ ?_⟩
        · rw [List.append_nil]; exact .length (te_none hte) hn
        · rw [List.append_nil]; exact Or.inr hn

/-- C73: exactly which responses are serialized; all others throw and write nothing. -/
theorem C73_accepted (r : Response) (hd : Distinct r.headers) (hn : NonEmptyEntries r.headers) :
    (∃ out, putResponse r = some out) ↔
      r.body.length ≤ 104857600 ∧ CleanHeaders r.headers ∧ (Bodiless r.status → r.body = []) ∧
      ((DeclaresChunked (flat r.headers) ∧ NoField b!"Content-Length" (flat r.headers) ∧ ¬ Bodiless r.status) ∨
       (NoField b!"Transfer-Encoding" (flat r.headers) ∧
         (NoField b!"Content-Length" (flat r.headers) ∨ ∃ n, DeclaresLength (flat r.headers) n ∧ n < 2 ^ 64 ∧
            (r.body ≠ [] → n = r.body.length) ∧ (Bodiless r.status → r.status ≠ 304 → n = 0)))) ∧
      (Date.decNat r.status).length + headerBytes r.headers + r.body.length + 66 ≤ 115343360 := by
  have forb : forbidsNonzeroLength r.status = true ↔ Bodiless r.status ∧ r.status ≠ 304 := by
    rw [forbids_iff]; unfold Bodiless; omega
  constructor
  · rintro ⟨out, e⟩
    obtain ⟨chunked, cl, hte, hcl, h0, h1, h2, h3, h4, h5, hc, h6, _⟩ := putResponse_inv e
    obtain ⟨f1, f2⟩ := (framing_iff hd hn chunked cl).1 ⟨hte, hcl⟩
    refine ⟨h0, hc, ?_, ?_, h6⟩
    · intro hs
      by_cases h : r.body = []
      · exact h
      · exact absurd hs (h1 h)
    · cases chunked with
      | true =>
        have : cl = none := h3 rfl
        subst this
        exact Or.inl ⟨f1, f2, h2 rfl⟩
      | false =>
        refine Or.inr ⟨f1, ?_⟩
        cases cl with
        | none => exact Or.inl f2
        | some n =>
          refine Or.inr ⟨n, f2.1, f2.2, ?_, ?_⟩
          · intro hb; simpa using h5 hb rfl
          · intro hs h304; simpa using h4 (forb.2 ⟨hs, h304⟩)
  · rintro ⟨h0, hc, h1, hf, h6⟩
    have hs := headersSize_clean hc
    have hb1 : ¬ (r.body.length != 0 && mustNotCarryBody r.status) = true := by
      intro h
      simp only [Bool.and_eq_true, mustNot_iff] at h
      rw [h1 h.2] at h; simp at h
    unfold putResponse MAX_BODY_SIZE MAX_SERIALIZED_SIZE
    rw [if_neg (by omega), if_neg hb1]
    rcases hf with ⟨f1, f2, f3⟩ | ⟨f1, f2 | ⟨n, f2, f3, f4, f5⟩⟩
    · obtain ⟨e1, e2⟩ := (framing_iff hd hn true none).2 ⟨f1, f2⟩
      rw [e1, e2]
      simp only [hs]
      rw [if_neg (by simpa [mustNot_iff] using f3), if_neg (by simp), if_neg (by simp), if_neg (by simp), if_neg (by omega)]
      exact ⟨_, rfl⟩
    · obtain ⟨e1, e2⟩ := (framing_iff hd hn false none).2 ⟨f1, f2⟩
      rw [e1, e2]
      simp only [hs]
      rw [if_neg (by simp), if_neg (by simp), if_neg (by simp), if_neg (by simp), if_neg (by omega)]
      exact ⟨_, rfl⟩
    · obtain ⟨e1, e2⟩ := (framing_iff hd hn false (some n)).2 ⟨f1, f2, f3⟩
      rw [e1, e2]
      simp only [hs]
      have g1 : ¬ (forbidsNonzeroLength r.status && (some n : Option Nat).isSome && (some n : Option Nat) != some 0) = true := by
        intro h
        simp only [Bool.and_eq_true, forb] at h
        have := f5 h.1.1.1 h.1.1.2
        subst this; simp at h
      have g2 : ¬ (r.body.length != 0 && !false && (some n : Option Nat).isSome && (some n : Option Nat) != some r.body.length) = true := by
        intro h
        by_cases hb : r.body = []
        · simp [hb] at h
        · rw [f4 hb] at h; simp at h
      rw [if_neg (by simp), if_neg (by simp), if_neg g1, if_neg g2, if_neg (by omega)]
      exact ⟨_, rfl⟩

/-- C73 is FALSE with an empty body and a declared length: the message is written although it is incomplete
unless it answers HEAD (which the serializer does not know). -/
theorem C73_false_declared_length :
    putResponse { status := 200, reason := b!"OK", headers := [(b!"Content-Length", [b!"5"])], body := [] } =
      some (b!"HTTP/1.1 200 OK" ++ CRLF ++ b!"Content-Length: 5" ++ CRLF ++ CRLF) ∧
    ¬ ∃ s f b, Reads (b!"HTTP/1.1 200 OK" ++ CRLF ++ b!"Content-Length: 5" ++ CRLF ++ CRLF) s f b [] := by
  constructor
  · simp [putResponse, transferEncoding, declaredContentLength, find, declaredLoop, parseContentLength, digitsValue, isDigit, trimWs, isWs,
      iequals, iequalsByte, headersSize, headerNameIsValid, headerValueIsValid, isHeaderNameChar, MAX_BODY_SIZE, mustNotCarryBody,
      forbidsNonzeroLength, MAX_HEADER_NAME_LENGTH, MAX_HEADER_VALUE_LENGTH, MAX_SERIALIZED_SIZE, putHeaders, endl, CRLF, Date.decNat]
  · rintro ⟨s, f, b, p, h1, h2⟩
    have h0 : IsMessage (b!"HTTP/1.1 200 OK" ++ CRLF ++ b!"Content-Length: 5" ++ CRLF ++ CRLF) b!"HTTP/1.1 200 OK"
        [(b!"Content-Length", b!"5")] [] := by
      refine ⟨by simp [fieldLine, CRLF], by decide, ?_⟩
      intro g hg
      simp only [List.mem_singleton] at hg; subst hg
      exact ⟨((nameValid_iff _).1 (by decide)).1, ((valueValid_iff _).1 (by decide)).1⟩
    obtain ⟨rfl, rfl, e⟩ := C71_unique _ _ _ _ _ _ _ h1 h0
    simp only [List.append_nil] at e
    subst e
    cases h2 with
    | chunked _ h _ => exact h (b!"Content-Length", b!"5") (by simp) rfl
    | length _ h =>
      have : DeclaresLength [(b!"Content-Length", b!"5")] 5 := by
        refine ⟨[b!"5"], .hit rfl .nil, by simp, ?_⟩
        intro v hv
        simp only [List.mem_singleton] at hv; subst hv
        exact ⟨b!"5", trimWs_iff.1 (by decide), .one ⟨by decide, rfl⟩⟩
      exact absurd (length_unique h this) (by decide)
    | none _ h => exact h (b!"Content-Length", b!"5") (by simp) rfl

/-- C73 is FALSE for a chunked response with an empty body: no terminating chunk is written. -/
theorem C73_false_empty_chunked :
    putResponse { status := 200, reason := b!"OK", headers := [(b!"Transfer-Encoding", [b!"chunked"])], body := [] } =
      some (b!"HTTP/1.1 200 OK" ++ CRLF ++ b!"Transfer-Encoding: chunked" ++ CRLF ++ CRLF) := by
  simp [putResponse, transferEncoding, declaredContentLength, find, teTokens, splitString, splitIf, findIf, trimWs, isWs,
      iequals, iequalsByte, headersSize, headerNameIsValid, headerValueIsValid, isHeaderNameChar, MAX_BODY_SIZE, mustNotCarryBody,
      forbidsNonzeroLength, MAX_HEADER_NAME_LENGTH, MAX_HEADER_VALUE_LENGTH, MAX_SERIALIZED_SIZE, putHeaders, endl, CRLF, Date.decNat]

end Verif.Wire
