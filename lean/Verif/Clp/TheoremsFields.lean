import Verif.Clp.Model
import Verif.Srv.Model
import Verif.Stream.Theorems
import Verif.Wire.Lemmas

/-! C173: the fields of a request, and what a server of this library makes of them. -/

namespace Verif.Clp
open Verif.Stream
open Verif.Stream.Spec
open Verif.Wire (Headers)

/-! ### Specification -/

/-- The fields of the application, in order, with names in lower case. -/
def offered (hs : Headers) : List Field := hs.flatMap fun h => h.2.map fun v => (h.1.map Utility.asciiToLower, v)

/-- Fields that belong to one connection, and those that HTTP/2 says in another way. -/
def connectionFields : List Bytes :=
  [b!"connection", b!"proxy-connection", b!"keep-alive", b!"transfer-encoding", b!"upgrade", b!"host", b!"content-length"]

/-- A field that is passed on. -/
def Passed (f : Field) : Prop :=
  f.1 ∉ connectionFields ∧ (f.1 = b!"te" → isValidTe f.2 = true) ∧ f.1 ≠ [] ∧ (∀ c ∈ f.1, c ∈ nameAlphabet) ∧ ∀ c ∈ f.2, FieldValueByte c

instance (f : Field) : Decidable (Passed f) := by unfold Passed FieldValueByte; infer_instance

def pathOf (q : Req) : Bytes := (if q.path = [] then b!"/" else q.path) ++ (if q.query = [] then [] else c!"?" :: q.query)

/-! ### Lemmas -/

theorem passed_iff (n v : Bytes) : (!skipped n v && isValidHeaderField n v) = true ↔ Passed (n, v) := by
  rw [Bool.and_eq_true, C47_header_field_exact]
  unfold Passed connectionFields skipped
  by_cases ht : n = b!"te"
  · subst ht; simp
  · rw [if_neg (by simpa using ht)]
    simp [ht]

theorem regular_eq (hs : Headers) : regular hs = (offered hs).filter (fun f => decide (Passed f)) := by
  induction hs with
  | nil => rfl
  | cons h hs ih =>
    obtain ⟨n, vs⟩ := h
    unfold regular offered
    rw [List.flatMap_cons, List.filter_append, ih]
    congr 1
    induction vs with
    | nil => rfl
    | cons v vs ihv =>
      simp only [List.map_cons, List.filter_cons, List.filterMap_cons]
      show _ = if decide (Passed (lowerName n, v)) = true then _ else _
      by_cases h : Passed (lowerName n, v)
      · rw [if_pos ((passed_iff _ _).2 h), if_pos (decide_eq_true h)]
        dsimp only; rw [ihv]; rfl
      · rw [if_neg (fun h' => h ((passed_iff _ _).1 h')), if_neg (by simpa using h), ihv]

theorem decimal_digits {s : Bytes} {n : Nat} (h : Wire.Spec.Decimal s n) : (∀ c ∈ s, Digit c) ∧ Stream.Spec.decimal s = n := by
  induction h with
  | one h =>
    obtain ⟨h1, h2⟩ := h
    refine ⟨fun c hc => ?_, ?_⟩
    · simp only [List.mem_singleton] at hc; subst hc; unfold Digit; omega
    · simp [Stream.Spec.decimal]; omega
  | snoc _ h ih =>
    obtain ⟨h1, h2⟩ := h
    refine ⟨fun c hc => ?_, ?_⟩
    · simp only [List.mem_append, List.mem_singleton] at hc
      rcases hc with hc | rfl
      · exact ih.1 c hc
      · unfold Digit; omega
    · have := ih.2
      simp only [Stream.Spec.decimal, List.foldl_append, List.foldl_cons, List.foldl_nil] at this ⊢
      rw [this]; omega

theorem parse_decimal (n : Nat) (hn : n < 2 ^ 64) : parseContentLength (decimal n) = some (UInt64.ofNat n) := by
  rw [C30_content_length_exact, UInt64.toNat_ofNat_of_lt' hn]
  have h := Wire.decNat_decimal n
  have hd := decimal_digits h
  refine ⟨[], decimal n, [], by simp, by simp, by simp, h.ne, hd.1, hd.2⟩

/-- C173. The HEADERS of a request have `:method`, `:scheme`, `:authority` (if there is any) and `:path`, each once and first; then, in order, the fields of the
application that may be passed on, with names in lower case; then the length of the body, unless there is none or trailers are announced. -/
theorem C173_fields (q : Req) :
    requestFields q =
      [(b!":method", q.method), (b!":scheme", if q.scheme = [] then b!"https" else q.scheme)] ++ (if authority q = [] then [] else [(b!":authority", authority q)]) ++ [(b!":path", pathOf q)]
      ++ (offered q.headers).filter (fun f => decide (Passed f))
      ++ (if q.body ≠ [] ∧ announces q.headers = false then [(b!"content-length", Date.decNat q.body.length)] else []) := by
  unfold requestFields pathOf
  rw [regular_eq]
  simp [decimal]

/-- C173. No field that the application adds can be a pseudo-header, a connection field or a second length, nor can it break the line. -/
theorem C173_clean (q : Req) : ∀ f ∈ (requestFields q).drop (if authority q = [] then 3 else 4),
    ¬ Pseudo f.1 ∧ f.1 ∉ [b!"connection", b!"proxy-connection", b!"keep-alive", b!"transfer-encoding", b!"upgrade", b!"host"] ∧ 13 ∉ f.1 ∧ 10 ∉ f.1 ∧ 13 ∉ f.2 ∧ 10 ∉ f.2 ∧
    (f.1 = b!"content-length" → f.2 = Date.decNat q.body.length) := by
  intro f hf
  rw [C173_fields] at hf
  have hf : f ∈ (offered q.headers).filter (fun f => decide (Passed f)) ++ (if q.body ≠ [] ∧ announces q.headers = false then [(b!"content-length", Date.decNat q.body.length)] else []) := by
    by_cases h : authority q = []
    · simpa [h] using hf
    · simpa [h] using hf
  rw [List.mem_append] at hf
  rcases hf with hf | hf
  · rw [List.mem_filter] at hf
    have hp := of_decide_eq_true hf.2
    have hv := C47_no_injection f.1 f.2 ((C47_header_field_exact _ _).2 hp.2.2)
    have h1 := hp.1
    unfold connectionFields at h1
    simp only [List.mem_cons, not_or, List.not_mem_nil, not_false_eq_true, and_true] at h1 ⊢
    exact ⟨hv.1.2.2.2, ⟨h1.1, h1.2.1, h1.2.2.1, h1.2.2.2.1, h1.2.2.2.2.1, h1.2.2.2.2.2.1⟩, hv.1.1, hv.1.2.1, hv.2.1, hv.2.2.1, fun h => absurd h h1.2.2.2.2.2.2⟩
  · split at hf
    · simp only [List.mem_singleton] at hf
      subst hf
      have hd := (decimal_digits (Wire.decNat_decimal q.body.length)).1
      refine ⟨?_, (by decide : b!"content-length" ∉ _), (by decide : 13 ∉ b!"content-length"), (by decide : 10 ∉ b!"content-length"), fun h => absurd (hd _ h) (by unfold Digit; decide), fun h => absurd (hd _ h) (by unfold Digit; decide), fun _ => rfl⟩
      rintro ⟨t, ht⟩
      revert ht; simp
    · cases hf

/-! ### The server side -/

theorem server_field (h : Srv.Head) (n v : Bytes) (hp : Passed (n, v)) (hs : n ≠ b!"http2-settings") :
    Srv.headField h n v = .ok { h with regular := true, headers := Parse.push h.headers n v } := by
  have hf := (C47_header_field_exact n v).2 hp.2.2
  have hn := (C47_no_injection n v hf).1.2.2.2
  have hc := hp.1
  have hte := hp.2.1
  unfold connectionFields at hc
  simp only [List.mem_cons, not_or, List.not_mem_nil, not_false_eq_true, and_true] at hc
  have fb : isForbiddenHeader n = false := by
    cases h : isForbiddenHeader n with
    | false => rfl
    | true =>
      have := (C47_forbidden_exact n).1.1 h
      simp only [List.mem_cons, List.not_mem_nil, or_false] at this
      rcases this with h | h | h | h | h | h | h
      · exact absurd h hc.1
      · exact absurd h hc.2.2.2.2.1
      · exact absurd h hs
      · exact absurd h hc.2.2.2.1
      · exact absurd h hc.2.1
      · exact absurd h hc.2.2.1
      · exact absurd h hc.2.2.2.2.2.1
  unfold Srv.headField
  rw [if_neg (by simpa using hp.2.2.1), if_neg, if_neg (by simp [hf]), if_neg, if_neg (by simpa using hc.2.2.2.2.2.2)]
  · rw [fb]
    by_cases ht : n = b!"te"
    · rw [hte ht]; simp
    · simp [ht]
  · intro h
    apply hn
    cases n with
    | nil => simp at h
    | cons a t => simp at h; exact ⟨t, by rw [h]⟩

theorem server_fields (fs rest : List Field) (h : Srv.Head) (hp : ∀ f ∈ fs, Passed f) (hs : ∀ f ∈ fs, f.1 ≠ b!"http2-settings") :
    Srv.headLoop (fs ++ rest) h = Srv.headLoop rest { h with regular := h.regular || !fs.isEmpty, headers := fs.foldl (fun m f => Parse.push m f.1 f.2) h.headers } := by
  induction fs generalizing h with
  | nil => simp
  | cons f fs ih =>
    obtain ⟨n, v⟩ := f
    rw [List.cons_append, Srv.headLoop, server_field h n v (hp _ List.mem_cons_self) (hs _ List.mem_cons_self)]
    dsimp only
    rw [ih _ (fun f hf => hp f (List.mem_cons_of_mem _ hf)) (fun f hf => hs f (List.mem_cons_of_mem _ hf))]
    simp

/-- C173. A server of this library takes every request of this client for what it is, if the server knows the method, there is an authority, the parts of the URI have no control
characters, the body is not too long, and the application does not add `http2-settings` (which the client passes on and the server refuses). -/
theorem C173_server_takes (q : Req) (known : Bytes → Bool) (hm : known q.method = true) (ha : authority q ≠ []) (hb : q.body.length ≤ 104857600)
    (hv : ∀ p ∈ [q.method, q.scheme, authority q, q.path, q.query], ∀ c ∈ p, FieldValueByte c) (hs : ∀ h ∈ q.headers, h.1.map Utility.asciiToLower ≠ b!"http2-settings") :
    ∃ hs, Srv.requestHead known (requestFields q) =
        .ok ({ method := q.method, scheme := if q.scheme = [] then b!"https" else q.scheme, authority := authority q, path := pathOf q, headers := hs },
             if q.body ≠ [] ∧ announces q.headers = false then some q.body.length else none) ∧
      hs = ((requestFields q).drop 4).foldl (fun m f => Parse.push m f.1 f.2) [] := by
  have vok : ∀ p : Bytes, (∀ c ∈ p, FieldValueByte c) → isValidHeaderValue p = true := by
    intro p hp
    unfold isValidHeaderValue
    rw [List.all_eq_true]
    intro c hc
    exact (valueByteOk_iff c).2 (hp c hc)
  have v1 := vok _ (hv q.method (by simp))
  have v2 : isValidHeaderValue (if q.scheme = [] then b!"https" else q.scheme) = true := by
    split
    · decide
    · exact vok _ (hv q.scheme (by simp))
  have v3 := vok _ (hv (authority q) (by simp))
  have v4 : isValidHeaderValue (pathOf q) = true := by
    apply vok
    intro c hc
    unfold pathOf at hc
    rw [List.mem_append] at hc
    rcases hc with hc | hc
    · split at hc
      · simp at hc; subst hc; unfold FieldValueByte; decide
      · exact hv q.path (by simp) c hc
    · split at hc
      · cases hc
      · rcases List.mem_cons.1 hc with rfl | hc
        · unfold FieldValueByte; decide
        · exact hv q.query (by simp) c hc
  have hpne : pathOf q ≠ [] := by
    unfold pathOf
    split <;> simp_all
  generalize hreg : (offered q.headers).filter (fun f => decide (Passed f)) = reg
  have hpass : ∀ f ∈ reg, Passed f := by
    intro f hf; rw [← hreg, List.mem_filter] at hf; exact of_decide_eq_true hf.2
  have hset : ∀ f ∈ reg, f.1 ≠ b!"http2-settings" := by
    intro f hf
    rw [← hreg, List.mem_filter] at hf
    have := hf.1
    unfold offered at this
    rw [List.mem_flatMap] at this
    obtain ⟨h, h1, h2⟩ := this
    rw [List.mem_map] at h2
    obtain ⟨v, _, rfl⟩ := h2
    exact hs h h1
  have e := C173_fields q
  rw [hreg, if_neg ha] at e
  refine ⟨_, ?_, rfl⟩
  rw [e]
  simp only [List.cons_append, List.nil_append, List.append_assoc, List.drop_succ_cons, List.drop_zero]
  unfold Srv.requestHead
  have p4 : ∀ rest, Srv.headLoop ((b!":method", q.method) :: (b!":scheme", if q.scheme = [] then b!"https" else q.scheme) :: (b!":authority", authority q) :: (b!":path", pathOf q) :: rest) {} =
      Srv.headLoop rest { method := some q.method, scheme := some (if q.scheme = [] then b!"https" else q.scheme), authority := some (authority q), path := some (pathOf q) } := by
    intro rest
    simp [Srv.headLoop, Srv.headField, v1, v2, v3, v4]
  rw [p4, server_fields _ _ _ hpass hset]
  by_cases hl : q.body ≠ [] ∧ announces q.headers = false
  · simp only [hl, if_pos, and_self, ne_eq, not_false_eq_true]
    have hcl : Srv.headField { method := some q.method, scheme := some (if q.scheme = [] then b!"https" else q.scheme), authority := some (authority q), path := some (pathOf q), regular := false || !reg.isEmpty, headers := reg.foldl (fun m f => Parse.push m f.1 f.2) [] } b!"content-length" (Date.decNat q.body.length)
        = .ok { method := some q.method, scheme := some (if q.scheme = [] then b!"https" else q.scheme), authority := some (authority q), path := some (pathOf q), regular := true, cl := some q.body.length, headers := Parse.push (reg.foldl (fun m f => Parse.push m f.1 f.2) []) b!"content-length" (Date.decNat q.body.length) } := by
      have hpd := parse_decimal q.body.length (by omega)
      have hdig := (decimal_digits (Wire.decNat_decimal q.body.length)).1
      have hff : isValidHeaderField b!"content-length" (Date.decNat q.body.length) = true := by
        rw [C47_header_field_exact]
        refine ⟨by decide, by decide, fun c hc => ?_⟩
        have := hdig c hc
        unfold Digit at this; unfold FieldValueByte
        omega
      unfold Srv.headField
      rw [if_neg (by decide), if_neg (by decide), if_neg (by simp [hff]), if_neg (by rw [show isForbiddenHeader b!"content-length" = false by decide]; simp), if_pos (by decide)]
      unfold decimal at hpd
      rw [hpd]
      dsimp only
      rw [if_neg (by simp), if_neg]
      · rw [UInt64.toNat_ofNat_of_lt' (show q.body.length < 2 ^ 64 by omega)]
      · rw [UInt64.toNat_ofNat_of_lt' (show q.body.length < 2 ^ 64 by omega)]
        unfold Srv.MAX_BODY_SIZE; omega
    simp only [Srv.headLoop, hcl]
    unfold Srv.headCheck
    simp [hm, ha, hpne, List.foldl_append]
  · rw [if_neg hl]
    simp only [Srv.headLoop, List.append_nil]
    unfold Srv.headCheck
    simp [hm, ha, hpne, hl]

/-- C173. The authority of a request: the host, in brackets if it has a colon and no brackets of its own, with the port if there is one; without a host, the first `Host` of the application. -/
theorem C173_authority (q : Req) :
    (∀ h, q.host = c!"[" :: (h ++ [c!"]"]) → authority q = q.host ++ (if q.port = [] then [] else c!":" :: q.port)) ∧
    (q.host ≠ [] → c!":" ∉ q.host → authority q = q.host ++ (if q.port = [] then [] else c!":" :: q.port)) ∧
    (c!":" ∈ q.host → (∀ h, q.host ≠ c!"[" :: (h ++ [c!"]"])) → authority q = c!"[" :: q.host ++ c!"]" :: (if q.port = [] then [] else c!":" :: q.port)) ∧
    (q.host = [] → authority q = match Wire.find q.headers b!"host" with | some (v :: _) => v | _ => []) := by
  have port : ∀ h : Bytes, (if !q.port.isEmpty then h ++ c!":" :: q.port else h) = h ++ (if q.port = [] then [] else c!":" :: q.port) := by
    intro h; cases q.port <;> simp
  refine ⟨?_, ?_, ?_, ?_⟩
  · intro h hh
    unfold authority
    dsimp only
    rw [if_pos (by rw [hh]; rfl), port]
    congr 1
    rw [if_neg]
    rw [hh]
    simp [List.getLast?_cons]
  · intro h1 h2
    unfold authority
    dsimp only
    rw [if_pos (by cases h : q.host with | nil => exact absurd h h1 | cons => rfl), port]
    congr 1
    rw [if_neg]
    simp [h2]
  · intro h1 h2
    unfold authority
    dsimp only
    have hne : q.host ≠ [] := by intro h; rw [h] at h1; cases h1
    rw [if_pos (by cases h : q.host with | nil => exact absurd h hne | cons => rfl), port, if_pos]
    · simp
    · simp only [Bool.and_eq_true, Bool.not_eq_true', List.contains_iff_mem, h1, and_true]
      rw [← Bool.not_eq_true]
      intro hb
      simp only [Bool.and_eq_true, decide_eq_true_eq, beq_iff_eq] at hb
      obtain ⟨⟨hl, hf⟩, hg⟩ := hb
      cases h : q.host with
      | nil => exact hne h
      | cons a l =>
        rw [h] at hf hg hl
        simp only [List.head?_cons, Option.some.injEq] at hf
        subst hf
        cases l with
        | nil => simp at hl
        | cons b l =>
          rw [List.getLast?_cons_cons] at hg
          refine h2 ((b :: l).dropLast) ?_
          rw [h]
          congr 1
          have : (b :: l).getLast (by simp) = c!"]" := by
            rw [List.getLast?_eq_some_getLast (by simp)] at hg
            exact Option.some.inj hg
          rw [← this, List.dropLast_concat_getLast]
  · intro h
    unfold authority
    rw [if_neg (by rw [h]; simp)]
    rfl

example : authority { host := b!"fe80::1", port := b!"443" } = b!"[fe80::1]:443" :=
  (C173_authority { host := b!"fe80::1", port := b!"443" }).2.2.1 (by decide) (fun h e => by cases e)

/-- A request whose hop-by-hop fields are dropped, whose `TE` is kept, and whose length is announced. -/
def exampleReq : Req :=
  { method := b!"POST", host := b!"::1", port := b!"8443", path := b!"/a", query := b!"b=c", headers := [(b!"Connection", [b!"close"]), (b!"TE", [b!"trailers", b!"gzip"]), (b!"X-A", [b!"1", b!"2\n"]), (b!"Content-Length", [b!"99"])], body := b!"0123456789" }

example : requestFields exampleReq = [(b!":method", b!"POST"), (b!":scheme", b!"https"), (b!":authority", b!"[::1]:8443"), (b!":path", b!"/a?b=c"), (b!"te", b!"trailers"), (b!"x-a", b!"1"), (b!"content-length", b!"10")] := by
  rw [C173_fields]; decide +kernel

example : ∃ hs, Srv.requestHead (fun m => m == b!"POST") (requestFields exampleReq) = .ok ({ method := b!"POST", scheme := b!"https", authority := b!"[::1]:8443", path := b!"/a?b=c", headers := hs }, some 10) := by
  obtain ⟨hs, h, _⟩ := C173_server_takes exampleReq (fun m => m == b!"POST") (by decide) (by decide) (by decide) (by unfold FieldValueByte; decide) (by decide)
  exact ⟨hs, h⟩

/-- `http2-settings` is passed on by the client and refused by the server. -/
example : Srv.requestHead (fun _ => true) (requestFields { exampleReq with headers := [(b!"HTTP2-Settings", [b!"AAMAAABk"])] }) = .error 1 := by
  rw [C173_fields]; decide +kernel

end Verif.Clp
