import Verif.Wire.TheoremsResponse

/-! C74: several messages on one connection, and concrete cases for C71–C73. -/

namespace Verif.Wire
open Utility Utility.Spec Spec

/-- A recipient reads the whole stream as these messages, one after the other. -/
inductive ReadsAll : Bytes → List (Bytes × List (Bytes × Bytes) × Bytes) → Prop
  | nil : ReadsAll [] []
  | cons {s st f b rest ms} : Reads s st f b rest → ReadsAll rest ms → ReadsAll s ((st, f, b) :: ms)

/-- Everything a request must satisfy for C72 besides being serialized. -/
structure Plain (r : Request) : Prop where
  distinct : Distinct r.headers
  line : ∀ c ∈ requestLine r.method r.path r.query r.major r.minor, c ≠ 13 ∧ c ≠ 10
  framing : r.body ≠ [] ∨ ¬ DeclaresChunked (flat r.headers)

/-- `m` is what a recipient must see of `r`: its request line and body, its own fields and at most an added
content-length. -/
def Shows (r : Request) (m : Bytes × List (Bytes × Bytes) × Bytes) : Prop :=
  m.1 = requestLine r.method r.path r.query r.major r.minor ∧ m.2.2 = r.body ∧
  (m.2.1 = flat r.headers ∨ m.2.1 = flat r.headers ++ [(b!"content-length", Date.decNat r.body.length)])

theorem reads_ne {s st b rest : Bytes} {f : List (Bytes × Bytes)} (h : Reads s st f b rest) : s ≠ [] := by
  obtain ⟨p, ⟨e, _⟩, _⟩ := h
  rintro rfl
  simp [CRLF] at e

/-- C74: requests written one after the other on a connection are read back as exactly those requests, in
order, and in no other way: no request can be taken for two, merged with its neighbour or hide another. -/
theorem C74_pipeline (rs : List Request) (outs : List Bytes) (hp : ∀ r ∈ rs, Plain r)
    (hw : Pairs (fun r out => putRequest r = some out) rs outs) :
    (∃ ms, ReadsAll outs.flatten ms ∧ Pairs Shows rs ms) ∧
    (∀ ms, ReadsAll outs.flatten ms → Pairs Shows rs ms) := by
  have ex : ∃ ms, ReadsAll outs.flatten ms ∧ Pairs Shows rs ms := by
    induction hw with
    | nil => exact ⟨[], .nil, .nil⟩
    | @cons r out rs outs h1 _ ih =>
      obtain ⟨ms, h2, h3⟩ := ih fun r hr => hp r (by simp [hr])
      have hr := hp r (by simp)
      obtain ⟨extra, hx, hread⟩ := C72_request_partial r out hr.distinct h1 hr.line hr.framing outs.flatten
      refine ⟨(_, _, _) :: ms, .cons hread h2, .cons ⟨rfl, rfl, ?_⟩ h3⟩
      rcases hx with rfl | ⟨rfl, _⟩
      · exact Or.inl (by simp)
      · exact Or.inr rfl
  refine ⟨ex, ?_⟩
  obtain ⟨ms, h1, h2⟩ := ex
  have uniq : ∀ {s : Bytes} {a b : List (Bytes × List (Bytes × Bytes) × Bytes)}, ReadsAll s a → ReadsAll s b → a = b := by
    intro s a b ha
    induction ha generalizing b with
    | nil => intro hb; cases hb with | nil => rfl | cons h _ => exact absurd rfl (reads_ne h)
    | cons h t ih =>
      intro hb
      cases hb with
      | nil => exact absurd rfl (reads_ne h)
      | cons h' t' =>
        obtain ⟨rfl, rfl, rfl, rfl⟩ := C71_unambiguous _ _ _ _ _ _ _ _ _ h h'
        rw [ih t']
  intro ms' h'
  rwa [uniq h' h1]

/-! ## concrete cases -/

/-- A POST with two fields and a body. -/
def exPost : Request :=
  { method := b!"POST", path := b!"/a", query := b!"q=1", headers := [(b!"Host", [b!"h"]), (b!"X-A", [b!"1", b!"2"])], body := b!"xyz" }

theorem exPost_ok : putRequest exPost = some (b!"POST /a?q=1 HTTP/1.1" ++ CRLF ++ b!"Host: h" ++ CRLF ++ b!"X-A: 1" ++ CRLF ++
    b!"X-A: 2" ++ CRLF ++ b!"content-length: 3" ++ CRLF ++ CRLF ++ b!"xyz") := by
  simp [exPost, putRequest, transferEncoding, declaredContentLength, find, MAX_URL_LENGTH, isWs,
      iequals, iequalsByte, headersSize, headerNameIsValid, headerValueIsValid, isHeaderNameChar, MAX_BODY_SIZE,
      MAX_HEADER_NAME_LENGTH, MAX_HEADER_VALUE_LENGTH, MAX_SERIALIZED_SIZE, putHeaders, endl, CRLF, Date.decNat]

theorem exPost_plain : Plain exPost := by
  refine ⟨?_, ?_, Or.inl (by decide)⟩
  · simp [Distinct, exPost, SameName, lower]
  · simp [requestLine, exPost, Date.decNat]

example : ∃ out, putRequest exPost = some out ∧ ∃ ms, ReadsAll ([out, out].flatten) ms ∧ Pairs Shows [exPost, exPost] ms :=
  ⟨_, exPost_ok,
  (C74_pipeline [exPost, exPost] _ (by
    intro r hr
    simp only [List.mem_cons, List.not_mem_nil, or_false, or_self] at hr
    subst hr; exact exPost_plain) (.cons exPost_ok (.cons exPost_ok .nil))).1⟩

/-- A chunked response with a body, and a 204. -/
def exChunked : Response :=
  { status := 200, reason := b!"OK", headers := [(b!"Transfer-Encoding", [b!" chunked"])], body := b!"hello, hello, hello!" }

example : putResponse exChunked = some (b!"HTTP/1.1 200 OK" ++ CRLF ++ b!"Transfer-Encoding:  chunked" ++ CRLF ++ CRLF ++
    b!"14" ++ CRLF ++ b!"hello, hello, hello!" ++ CRLF ++ b!"0" ++ CRLF ++ CRLF) := by
  simp [exChunked, putResponse, transferEncoding, declaredContentLength, find, teTokens, splitString, splitIf, findIf, trimWs, isWs,
      iequals, iequalsByte, headersSize, headerNameIsValid, headerValueIsValid, isHeaderNameChar, MAX_BODY_SIZE, mustNotCarryBody,
      forbidsNonzeroLength, MAX_HEADER_NAME_LENGTH, MAX_HEADER_VALUE_LENGTH, MAX_SERIALIZED_SIZE, putHeaders, endl, CRLF, Date.decNat,
      putChunk, hexNat]

example : putResponse { status := 204, reason := b!"No Content", headers := [], body := [] } =
    some (b!"HTTP/1.1 204 No Content" ++ CRLF ++ CRLF) := by
  simp [putResponse, transferEncoding, declaredContentLength, find, headersSize, MAX_BODY_SIZE, mustNotCarryBody,
      forbidsNonzeroLength, MAX_SERIALIZED_SIZE, putHeaders, endl, CRLF, Date.decNat]

/-- The hypothesis of C72 and C74 on the request line is needed: the serializer writes path and query as
they are, so a line break in them adds a field. -/
theorem C72_false_line_break :
    ∃ out, putRequest { method := b!"GET", path := b!"/ HTTP/1.1" ++ CRLF ++ b!"X-Admin: 1", query := [], headers := [], body := [] } = some out ∧
      Reads out b!"GET / HTTP/1.1" [(b!"X-Admin", b!"1 HTTP/1.1")] [] [] := by
  refine ⟨b!"GET / HTTP/1.1" ++ CRLF ++ b!"X-Admin: 1 HTTP/1.1" ++ CRLF ++ CRLF, ?_, [], ⟨by simp [CRLF, fieldLine], by decide, ?_⟩, .none ?_ ?_⟩
  · simp [putRequest, transferEncoding, declaredContentLength, find, headersSize, MAX_BODY_SIZE, MAX_URL_LENGTH, MAX_SERIALIZED_SIZE,
      putHeaders, endl, CRLF, Date.decNat]
  · intro g hg
    simp only [List.mem_singleton] at hg; subst hg
    exact ⟨((nameValid_iff _).1 (by decide)).1, ((valueValid_iff _).1 (by decide)).1⟩
  · intro g hg
    simp only [List.mem_singleton] at hg; subst hg
    simp [SameName, lower]
  · intro g hg
    simp only [List.mem_singleton] at hg; subst hg
    simp [SameName, lower]

end Verif.Wire
