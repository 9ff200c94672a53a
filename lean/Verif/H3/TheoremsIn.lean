import Verif.H3.LemmasIn

/-! C154-C155: the requests an HTTP/3 server delivers and the responses a client delivers. -/

namespace Verif.H3
open Verif.Utility Verif.Wire Verif.Parse Verif.Mid
open Verif.Utility.Spec Verif.Wire.Spec Verif.H3.Spec

theorem incoming_regular {f : Field} (h : Incoming f) (hp : ¬ Pseudo f.1) : Regular f := by
  obtain ⟨h1, h2, h3⟩ := h
  rcases h1 with h1 | ⟨t, _, ht⟩
  · exact ⟨h1, h2, h3⟩
  · exact absurd ⟨t, ht⟩ hp

theorem regular_incoming {f : Field} (h : Regular f) : Incoming f := ⟨.inl h.1, h.2⟩

theorem regular_not_pseudo {f : Field} (h : Regular f) : ¬ Pseudo f.1 := fun ⟨t, ht⟩ => colon_not_token t (ht ▸ h.1)

theorem trailer_ok (ts : List Field) : (ts.length ≤ 100 ∧ (∀ f ∈ ts, validIncoming f = true) ∧ (∀ f ∈ ts, isForbiddenTrailer f.1 = false)) ↔
    TrailerSection ts := by
  have key : ∀ f : Field, (validIncoming f = true ∧ isForbiddenTrailer f.1 = false) ↔
      (Regular f ∧ ¬ ConnectionField f.1 ∧ ¬ SameName f.1 b!"content-length" ∧ ¬ SameName f.1 b!"trailer") := by
    intro f
    rw [validIncoming_iff, ← Bool.not_eq_true, isForbiddenTrailer_iff]
    constructor
    · rintro ⟨h1, h2⟩
      simp only [not_or] at h2
      exact ⟨incoming_regular h1 h2.2.1, h2.2.2.2.2, h2.2.2.1, h2.2.2.2.1⟩
    · rintro ⟨h1, h2, h3, h4⟩
      refine ⟨regular_incoming h1, ?_⟩
      rintro (h | h | h | h | h)
      · exact h1.1.1 h
      · exact regular_not_pseudo h1 h
      · exact h3 h
      · exact h4 h
      · exact h2 h
  constructor
  · rintro ⟨h1, h2, h3⟩
    exact ⟨fun f hf => (key f).1 ⟨h2 f hf, h3 f hf⟩, h1⟩
  · rintro ⟨h1, h2⟩
    exact ⟨h2, fun f hf => ((key f).2 (h1 f hf)).1, fun f hf => ((key f).2 (h1 f hf)).2⟩

/-- The state after the trailers. -/
def withTrailers (st : St) : Option (List Field) → St
  | none => st
  | some ts => { st with block := ts, count := ts.length, headers := ts.foldl (fun h f => push h f.1 f.2) st.headers }

theorem run_end (S : Setup) (st st' : St) (ts : Option (List Field)) (hs : st.seen = true) :
    S.run st (trailerEvents ts ++ [.endStream]) = .deliver st' ↔
      (∀ t, ts = some t → TrailerSection t) ∧ lengthMatches S.headMethod S.role (withTrailers st ts) = true ∧ st' = withTrailers st ts := by
  have base : ∀ st, S.run st [.endStream] = .deliver st' ↔ lengthMatches S.headMethod S.role st = true ∧ st' = st := by
    intro st
    rw [Setup.run, Setup.step]
    by_cases h : lengthMatches S.headMethod S.role st = true
    · rw [if_pos h]; simp [h, eq_comm]
    · rw [if_neg h]; simp [h]
  cases ts with
  | none => simpa [trailerEvents, withTrailers] using base st
  | some ts =>
    rw [run_trailers S ts st _ hs]
    by_cases hc : ts.length ≤ 100 ∧ (∀ f ∈ ts, validIncoming f = true) ∧ (∀ f ∈ ts, isForbiddenTrailer f.1 = false)
    · rw [if_pos hc, base]
      simp [withTrailers, (trailer_ok ts).1 hc]
    · rw [if_neg hc]
      have : ¬ TrailerSection ts := fun h => hc ((trailer_ok ts).2 h)
      simp [this]

theorem run_tail (S : Setup) (st st' : St) (ds : List Bytes) (ts : Option (List Field)) (hs : st.seen = true) (hb : st.body = [])
    (hr : S.role = .server ∨ st.method ≠ some S.headMethod) :
    S.run st (ds.map .data ++ (trailerEvents ts ++ [.endStream])) = .deliver st' ↔
      (S.limit = 0 ∨ ds.flatten.length ≤ S.limit) ∧ (∀ t, ts = some t → TrailerSection t) ∧
      lengthMatches S.headMethod S.role (withTrailers { st with body := ds.flatten } ts) = true ∧ st' = withTrailers { st with body := ds.flatten } ts := by
  obtain ⟨h1, h2⟩ := run_data S ds st (trailerEvents ts ++ [.endStream]) hr (by simp [hb])
  simp only [hb, List.length_nil, Nat.zero_add, List.nil_append] at h1 h2
  by_cases hc : S.limit = 0 ∨ ds.flatten.length ≤ S.limit
  · rw [h1 hc, run_end S { st with body := ds.flatten } st' ts hs]
    simp only [hc, true_and]
  · rw [h2 hc]
    simp only [hc, false_and, reduceCtorEq]

theorem withTrailers_fields (st : St) (ts : Option (List Field)) : (withTrailers st ts).expected = st.expected ∧ (withTrailers st ts).body = st.body ∧
    (withTrailers st ts).method = st.method ∧ (withTrailers st ts).uri = st.uri ∧ (withTrailers st ts).status = st.status ∧
    ∀ n, (find (withTrailers st ts).headers n).getD [] = (find st.headers n).getD [] ++ values (ts.getD []) n := by
  cases ts with
  | none => simp [withTrailers, values]
  | some ts => refine ⟨rfl, rfl, rfl, rfl, rfl, fun n => ?_⟩; simp only [withTrailers, Option.getD_some]; exact find_fold _ _ _

theorem says_iff (rs : List Field) (n : Nat) (h : ∀ f ∈ rs, LowerToken f.1) : SaysLength rs n ↔
    ∃ l, lengthLoop none (lengthsOf rs) = some l ∧ (l = none ∨ l = some n) := by
  unfold SaysLength
  rw [lengthsOf_eq rs h]
  constructor
  · intro hv
    by_cases he : values rs b!"content-length" = []
    · exact ⟨none, (lengthLoop_iff _ _ _).2 (.inl ⟨he, rfl⟩), .inl rfl⟩
    · exact ⟨some n, (lengthLoop_iff _ _ _).2 (.inr ⟨he, n, rfl, .inl rfl, fun v h => (parseLength_iff v n).2 (hv v h)⟩), .inr rfl⟩
  · rintro ⟨l, hl, h2⟩ v hv
    rcases (lengthLoop_iff _ _ _).1 hl with ⟨h3, _⟩ | ⟨_, m, rfl, _, h3⟩
    · rw [h3] at hv; cases hv
    · rcases h2 with h2 | h2
      · cases h2
      · cases h2; exact (parseLength_iff v n).1 (h3 v hv)

theorem agree_iff (rs : List Field) (h : ∀ f ∈ rs, LowerToken f.1) : Agree rs ↔ ∃ l, lengthLoop none (lengthsOf rs) = some l := by
  constructor
  · rintro ⟨n, hn⟩
    obtain ⟨l, hl, _⟩ := (says_iff rs n h).1 hn
    exact ⟨l, hl⟩
  · rintro ⟨l, hl⟩
    cases l with
    | none => exact ⟨0, (says_iff rs 0 h).2 ⟨none, hl, .inl rfl⟩⟩
    | some n => exact ⟨n, (says_iff rs n h).2 ⟨some n, hl, .inr rfl⟩⟩

/-- What a section of a request does to a server's stream. -/
theorem server_section (methodOf : Bytes → Option Nat) (fs : List Field) (st' : St) :
    (fs.length ≤ 100 ∧ (∀ f ∈ fs, validIncoming f = true) ∧ materialize methodOf .server { block := fs, count := fs.length } = some st') ↔
    ∃ m s a p rs M l, RequestSection fs m s a p rs ∧ methodOf m = some M ∧ lengthLoop none (lengthsOf rs) = some l ∧
      st' = { block := fs, count := fs.length, headers := rs.foldl (fun h f => push h f.1 f.2) [], expected := l, method := some M, uri := s ++ b!"://" ++ a ++ p } := by
  rw [materialize_server]
  constructor
  · rintro ⟨h1, h2, m, s, a, p, ps, rs, M, l, hb, hp, n1, n2, n3, n4, hrs, hl, hM, rfl⟩
    simp only at hb
    refine ⟨m, s, a, p, rs, M, l, ⟨ps, hb, hp, n1, n2, n3, n4, fun f hf => ?_, fun f hf => ?_, h1⟩, hM, hl, rfl⟩
    · exact ⟨incoming_regular ((validIncoming_iff f).1 (h2 f (by rw [hb]; simp [hf]))) (hrs f hf).1, (hrs f hf).2⟩
    · exact ((validIncoming_iff f).1 (h2 f (by rw [hb]; simp [hf]))).2.2
  · rintro ⟨m, s, a, p, rs, M, l, ⟨ps, hb, hp, n1, n2, n3, n4, hrs, hps, hlen⟩, hM, hl, rfl⟩
    refine ⟨hlen, fun f hf => ?_, m, s, a, p, ps, rs, M, l, hb, hp, n1, n2, n3, n4, fun f hf => ⟨regular_not_pseudo (hrs f hf).1, (hrs f hf).2⟩, hl, hM, rfl⟩
    rw [validIncoming_iff]
    rw [hb] at hf
    rcases List.mem_append.1 hf with hf | hf
    · have h4 := (perm_four hp).1 f hf
      refine ⟨.inr ?_, ?_, hps f hf⟩
      · simp only [four, List.mem_cons, List.not_mem_nil, or_false] at h4
        rcases h4 with h | h | h | h <;> rw [h] <;> refine ⟨_, ?_, rfl⟩ <;> refine ⟨by simp, ?_⟩ <;> decide
      · simp only [four, List.mem_cons, List.not_mem_nil, or_false] at h4
        rcases h4 with h | h | h | h <;> rw [h] <;> decide
    · exact regular_incoming (hrs f hf).1

/-- C154. A server delivers a message, reported as one section of fields, any number of pieces of data, at most one trailer
section and the end, just if it is a request: the four pseudo header fields once each, in any order, before the regular
fields; none of them empty; a method that is known; names that are lower case tokens, values without control
characters, no field that concerns the connection, at most 100 fields; every content length equal to the size of
the data; a body within the limit; and trailers that are fields other than `content-length` and `trailer`. -/
theorem C154_request_delivered (methodOf : Bytes → Option Nat) (headMethod limit : Nat) (fs : List Field) (ds : List Bytes) (ts : Option (List Field)) :
    (∃ st, Setup.run ⟨methodOf, headMethod, .server, limit⟩ {} (messageEvents [fs] ds ts) = .deliver st) ↔
      ∃ method scheme authority path regular, RequestSection fs method scheme authority path regular ∧ (∃ M, methodOf method = some M) ∧
        SaysLength regular ds.flatten.length ∧ (limit = 0 ∨ ds.flatten.length ≤ limit) ∧ ∀ t, ts = some t → TrailerSection t := by
  have e : messageEvents [fs] ds ts = sectionEvents fs ++ (ds.map .data ++ (trailerEvents ts ++ [.endStream])) := by
    simp [messageEvents]
  rw [e]
  simp only [run_section]
  have hsec := server_section methodOf fs
  constructor
  · rintro ⟨st, h⟩
    split at h
    · next hc =>
      split at h
      · cases h
      next st1 h1 =>
      obtain ⟨m, s, a, p, rs, M, l, hreq, hM, hl, rfl⟩ := (hsec st1).1 ⟨hc.1, hc.2, h1⟩
      rw [run_tail _ _ _ _ _ rfl rfl (.inl rfl)] at h
      obtain ⟨k1, k2, k3, _⟩ := h
      refine ⟨m, s, a, p, rs, hreq, ⟨M, hM⟩, ?_, k1, k2⟩
      obtain ⟨ps, -, -, -, -, -, -, hrs, -⟩ := hreq
      refine (says_iff rs _ fun f hf => (hrs f hf).1.1).2 ⟨l, hl, ?_⟩
      unfold lengthMatches at k3
      rw [(withTrailers_fields _ _).1, (withTrailers_fields _ _).2.1] at k3
      cases l with
      | none => exact .inl rfl
      | some n => right; simp only [Bool.false_and, show (Role.server == Role.client) = false from rfl, Bool.false_eq_true, if_false, beq_iff_eq] at k3; rw [k3]
    · cases h
  · rintro ⟨m, s, a, p, rs, hreq, ⟨M, hM⟩, hsay, hlim, hts⟩
    obtain ⟨l, hl, hn⟩ := (says_iff rs _ (fun f hf => by obtain ⟨ps, -, -, -, -, -, -, hrs, -⟩ := hreq; exact (hrs f hf).1.1)).1 hsay
    obtain ⟨c1, c2, c3⟩ := (hsec _).2 ⟨m, s, a, p, rs, M, l, hreq, hM, hl, rfl⟩
    rw [if_pos ⟨c1, c2⟩]
    simp only [c3]
    refine ⟨_, (run_tail _ _ _ _ _ rfl rfl (.inl rfl)).2 ⟨hlim, hts, ?_, rfl⟩⟩
    unfold lengthMatches
    rw [(withTrailers_fields _ _).1, (withTrailers_fields _ _).2.1]
    rcases hn with rfl | rfl <;> simp

/-- C154. The request delivered is the one that came: its method, its address, every field of the section and of the
trailers, in order under its name, and the data. -/
theorem C154_request_content (methodOf : Bytes → Option Nat) (headMethod limit : Nat) (fs : List Field) (ds : List Bytes) (ts : Option (List Field))
    (method scheme authority path : Bytes) (regular : List Field) (st : St) (hr : RequestSection fs method scheme authority path regular)
    (h : Setup.run ⟨methodOf, headMethod, .server, limit⟩ {} (messageEvents [fs] ds ts) = .deliver st) :
    (∃ M, methodOf method = some M ∧ st.method = some M) ∧ st.uri = scheme ++ b!"://" ++ authority ++ path ∧ st.body = ds.flatten ∧
      ∀ n, (find st.headers n).getD [] = values (regular ++ ts.getD []) n := by
  have e : messageEvents [fs] ds ts = sectionEvents fs ++ (ds.map .data ++ (trailerEvents ts ++ [.endStream])) := by
    simp [messageEvents]
  rw [e, run_section] at h
  split at h
  · next hc =>
    split at h
    · cases h
    next st1 h1 =>
    obtain ⟨m, s, a, p, rs, M, l, hreq, hM, hl, rfl⟩ := (server_section methodOf fs st1).1 ⟨hc.1, hc.2, h1⟩
    rw [run_tail _ _ _ _ _ rfl rfl (.inl rfl)] at h
    obtain ⟨-, -, -, rfl⟩ := h
    obtain ⟨w1, w2, w3, w4, w5, w6⟩ := withTrailers_fields { block := fs, count := fs.length, headers := rs.foldl (fun h f => push h f.1 f.2) [], expected := l, method := some M, uri := s ++ b!"://" ++ a ++ p, seen := true, body := ds.flatten } ts
    have hsame : m = method ∧ s = scheme ∧ a = authority ∧ p = path ∧ rs = regular := by
      obtain ⟨ps, e1, p1, -, -, -, -, r1, -, -⟩ := hreq
      obtain ⟨ps', e2, p2, -, -, -, -, r2, -, -⟩ := hr
      have hl : ps.length = ps'.length := by rw [p1.length_eq, p2.length_eq]; rfl
      rw [e1] at e2
      obtain ⟨rfl, rfl⟩ := List.append_inj e2 hl
      obtain ⟨i1, i2, i3, i4⟩ := perm_four_inj (p1.symm.trans p2)
      exact ⟨i1, i2, i3, i4, rfl⟩
    obtain ⟨rfl, rfl, rfl, rfl, rfl⟩ := hsame
    refine ⟨⟨M, hM, w3⟩, w4, w2, fun n => ?_⟩
    refine (w6 n).trans ?_
    rw [find_fold]
    simp [values, find]
  · cases h

/-- A method constructor for the examples. -/
def someMethods (m : Bytes) : Option Nat := if m = b!"GET" then some 1 else if m = b!"HEAD" then some 2 else if m = b!"POST" then some 3 else none

/-- A request with a body in two pieces and a trailer; `:path` comes first. -/
example : ∃ st, Setup.run ⟨someMethods, 2, .server, 10⟩ {} (messageEvents
      [[(b!":path", b!"/x?y=1"), (b!":method", b!"POST"), (b!":scheme", b!"https"), (b!":authority", b!"a.b:44"), (b!"x-a", b!"1"), (b!"content-length", b!"5"), (b!"x-a", b!"2")]]
      [b!"he", b!"llo"] (some [(b!"x-sum", b!"9")])) = .deliver st ∧ st.uri = b!"https://a.b:44/x?y=1" ∧ st.body = b!"hello" ∧
      find st.headers b!"X-A" = some [b!"1", b!"2"] ∧ find st.headers b!"X-Sum" = some [b!"9"] := by
  refine ⟨_, rfl, ?_, ?_, ?_, ?_⟩ <;> decide +kernel

/-- Without its last byte it is refused. -/
example : Setup.run ⟨someMethods, 2, .server, 10⟩ {} (messageEvents
      [[(b!":path", b!"/x?y=1"), (b!":method", b!"POST"), (b!":scheme", b!"https"), (b!":authority", b!"a.b:44"), (b!"content-length", b!"5")]]
      [b!"he", b!"ll"] none) = .failed := by decide +kernel

/-- The data among the events. -/
def dataOf (es : List Ev) : List Bytes := es.filterMap fun e => match e with
  | .data d => some d
  | _ => none

theorem materialize_body {methodOf : Bytes → Option Nat} {role : Role} {st st' : St} (h : materialize methodOf role st = some st') :
    st'.body = st.body := by
  cases role with
  | server => obtain ⟨m, s, a, p, ps, rs, M, l, -, -, -, -, -, -, -, -, -, rfl⟩ := (materialize_server methodOf st st').1 h; rfl
  | client => obtain ⟨v, n, rs, l, -, -, -, -, rfl⟩ := (materialize_client methodOf st st').1 h; rfl

theorem step_any (methodOf : Bytes → Option Nat) (headMethod limit : Nat) (e : Ev) (st : St) (h0 : limit = 0 ∨ st.body.length ≤ limit) :
    (∀ st', Setup.step ⟨methodOf, headMethod, .server, limit⟩ st e = .go st' →
      (limit = 0 ∨ st'.body.length ≤ limit) ∧ st'.body = st.body ++ (dataOf [e]).flatten) ∧
    (∀ st', Setup.step ⟨methodOf, headMethod, .server, limit⟩ st e = .deliver st' → e = .endStream ∧ st' = st) := by
  cases e with
  | beginHeaders => exact ⟨fun st' h => (by cases h; exact ⟨h0, by simp [dataOf]⟩), fun st' h => (by cases h)⟩
  | beginTrailers => exact ⟨fun st' h => (by cases h; exact ⟨h0, by simp [dataOf]⟩), fun st' h => (by cases h)⟩
  | field f =>
    simp only [Setup.step]
    split
    · exact ⟨fun st' h => (by cases h), fun st' h => (by cases h)⟩
    · exact ⟨fun st' h => (by cases h; exact ⟨h0, by simp [dataOf]⟩), fun st' h => (by cases h)⟩
  | endHeaders =>
    simp only [Setup.step]
    cases hm : materialize methodOf .server st with
    | none => exact ⟨fun st' h => (by cases h), fun st' h => (by cases h)⟩
    | some st1 =>
      refine ⟨fun st' h => ?_, fun st' h => (by cases h)⟩
      cases h
      simp only [materialize_body hm]
      exact ⟨h0, by simp [dataOf]⟩
  | endTrailers =>
    simp only [Setup.step]
    cases hm : materializeTrailers st with
    | none => exact ⟨fun st' h => (by cases h), fun st' h => (by cases h)⟩
    | some st1 =>
      refine ⟨fun st' h => ?_, fun st' h => (by cases h)⟩
      cases h
      unfold materializeTrailers at hm
      split at hm
      · cases hm
      split at hm
      · cases hm
      cases hm
      exact ⟨h0, by simp [dataOf]⟩
  | data d =>
    simp only [Setup.step, beq_self_eq_true, Bool.true_or, if_true]
    by_cases hc : (limit != 0 && st.body.length + d.length > limit) = true
    · rw [if_pos hc]; exact ⟨fun st' h => (by cases h), fun st' h => (by cases h)⟩
    · rw [if_neg hc]
      refine ⟨fun st' h => ?_, fun st' h => (by cases h)⟩
      cases h
      refine ⟨?_, by simp [dataOf]⟩
      simp only [Bool.and_eq_true, bne_iff_ne, ne_eq, decide_eq_true_eq, not_and, Nat.not_lt] at hc
      by_cases hl : limit = 0
      · exact .inl hl
      · right; simpa using hc hl
  | endStream =>
    simp only [Setup.step]
    split
    · exact ⟨fun st' h => (by cases h), fun st' h => (by cases h; simp)⟩
    · exact ⟨fun st' h => (by cases h), fun st' h => (by cases h)⟩

theorem run_any (methodOf : Bytes → Option Nat) (headMethod limit : Nat) (es : List Ev) (st st' : St) (h0 : limit = 0 ∨ st.body.length ≤ limit)
    (h : Setup.run ⟨methodOf, headMethod, .server, limit⟩ st es = .deliver st') :
    (limit = 0 ∨ st'.body.length ≤ limit) ∧ ∃ es' rest, es = es' ++ .endStream :: rest ∧ st'.body = st.body ++ (dataOf es').flatten := by
  induction es generalizing st with
  | nil => cases h
  | cons e es ih =>
    obtain ⟨k1, k2⟩ := step_any methodOf headMethod limit e st h0
    rw [Setup.run] at h
    cases hs : Setup.step ⟨methodOf, headMethod, .server, limit⟩ st e with
    | failed => rw [hs] at h; cases h
    | deliver st1 =>
      rw [hs] at h; cases h
      obtain ⟨rfl, rfl⟩ := k2 _ hs
      exact ⟨h0, [], es, rfl, by simp [dataOf]⟩
    | go st1 =>
      rw [hs] at h
      obtain ⟨h1, h3⟩ := k1 _ hs
      obtain ⟨a, es', rest, b, c⟩ := ih st1 h1 h
      refine ⟨a, e :: es', rest, by rw [b]; rfl, ?_⟩
      rw [c, h3]
      cases e <;> simp [dataOf]

/-- C154. Whatever `nghttp3` reports, in whatever order: a request that is delivered has the data that came before the end of
the stream, all of it and in order, and is within the limit. -/
theorem C154_body_any_order (methodOf : Bytes → Option Nat) (headMethod limit : Nat) (es : List Ev) (st : St)
    (h : Setup.run ⟨methodOf, headMethod, .server, limit⟩ {} es = .deliver st) :
    (limit = 0 ∨ st.body.length ≤ limit) ∧ ∃ before after, es = before ++ .endStream :: after ∧ st.body = (dataOf before).flatten := by
  obtain ⟨a, b, c, d, e⟩ := run_any methodOf headMethod limit es {} st (by simp) h
  exact ⟨a, b, c, d, by simpa using e⟩

/-! ### Responses -/

theorem client_section (methodOf : Bytes → Option Nat) (fs : List Field) (st st' : St) :
    (fs.length ≤ 100 ∧ (∀ f ∈ fs, validIncoming f = true) ∧ materialize methodOf .client { st with block := fs, count := fs.length } = some st') ↔
    ∃ n rs l, ResponseSection fs n rs ∧ lengthLoop none (lengthsOf rs) = some l ∧
      st' = { st with block := fs, count := fs.length, headers := rs.foldl (fun h f => push h f.1 f.2) st.headers, expected := l, status := n } := by
  rw [materialize_client]
  constructor
  · rintro ⟨h1, h2, v, n, rs, l, hb, hv, hrs, hl, rfl⟩
    simp only at hb
    obtain ⟨d1, d2, d3⟩ := (parseStatus_iff v n).1 hv
    have hin : ∀ f ∈ fs, Incoming f := fun f hf => (validIncoming_iff f).1 (h2 f hf)
    refine ⟨n, rs, l, ⟨v, hb, d1, d2, d3, ?_, fun f hf => ?_, h1⟩, hl, rfl⟩
    · exact (hin (b!":status", v) (by rw [hb]; simp)).2.2
    · exact ⟨incoming_regular (hin f (by rw [hb]; simp [hf])) (hrs f hf).1, (hrs f hf).2⟩
  · rintro ⟨n, rs, l, ⟨v, hb, d1, d2, d3, hv, hrs, hlen⟩, hl, rfl⟩
    refine ⟨hlen, fun f hf => ?_, v, n, rs, l, hb, (parseStatus_iff v n).2 ⟨d1, d2, d3⟩,
      fun f hf => ⟨regular_not_pseudo (hrs f hf).1, (hrs f hf).2⟩, hl, rfl⟩
    rw [validIncoming_iff]
    rw [hb] at hf
    rcases List.mem_cons.1 hf with rfl | hf
    · refine ⟨.inr ⟨b!"status", ⟨by simp, by decide⟩, rfl⟩, (by decide : (b!":status").length ≤ 1024), hv⟩
    · exact regular_incoming (hrs f hf).1

theorem response_unique {fs : List Field} {n m : Nat} {rs rs' : List Field} (h : ResponseSection fs n rs) (h' : ResponseSection fs m rs') :
    n = m ∧ rs = rs' := by
  obtain ⟨v, e, d, a, b, -⟩ := h
  obtain ⟨v', e', d', a', b', -⟩ := h'
  rw [e] at e'
  cases e'
  have h1 := (parseStatus_iff v n).2 ⟨d, a, b⟩
  have h2 := (parseStatus_iff v m).2 ⟨d', a', b'⟩
  rw [h1] at h2
  cases h2
  exact ⟨rfl, rfl⟩

theorem client_matches (headMethod M : Nat) (st : St) (hm : st.method = some M) : lengthMatches headMethod .client st = true ↔
    ∀ n, st.expected = some n → M = headMethod ∨ NoContent st.status ∨ st.body.length = n := by
  unfold lengthMatches NoContent
  cases st.expected with
  | none => simp
  | some n =>
    simp only [hm, Option.some.injEq, forall_eq']
    by_cases h1 : M = headMethod
    · simp [h1]
    · rw [if_neg (by simp [h1])]
      by_cases h2 : (100 ≤ st.status ∧ st.status < 200) ∨ st.status = 204 ∨ st.status = 304
      · rw [if_pos (by simpa [or_assoc] using h2)]; simp [h2]
      · rw [if_neg (by simpa [or_assoc] using h2)]; simp [h1, h2]

/-- What is kept of the pieces of a body: nothing if the request was a HEAD. -/
def kept (head : Bool) (ds : List Bytes) : Bytes := if head then [] else ds.flatten

theorem client_tail (methodOf : Bytes → Option Nat) (headMethod limit M : Nat) (st st' : St) (ds : List Bytes) (ts : Option (List Field))
    (hs : st.seen = true) (hb : st.body = []) (hm : st.method = some M) :
    Setup.run ⟨methodOf, headMethod, .client, limit⟩ st (ds.map .data ++ (trailerEvents ts ++ [.endStream])) = .deliver st' ↔
      Within limit (M == headMethod) ds ∧ (∀ t, ts = some t → TrailerSection t) ∧
      (∀ n, st.expected = some n → M = headMethod ∨ NoContent st.status ∨ (kept (M == headMethod) ds).length = n) ∧
      st' = withTrailers { st with body := kept (M == headMethod) ds } ts := by
  by_cases hM : M = headMethod
  · subst hM
    obtain ⟨h1, h2⟩ := run_head_data ⟨methodOf, M, .client, limit⟩ ds st (trailerEvents ts ++ [.endStream]) rfl hm
    have hw : Within limit (M == M) ds ↔ ∀ d ∈ ds, limit = 0 ∨ st.body.length + d.length ≤ limit := by
      unfold Within
      simp only [beq_self_eq_true, if_true, hb, List.length_nil, Nat.zero_add]
      by_cases h0 : limit = 0 <;> simp [h0]
    have hk : kept (M == M) ds = st.body := by simp [kept, hb]
    by_cases hc : ∀ d ∈ ds, limit = 0 ∨ st.body.length + d.length ≤ limit
    · rw [h1 hc, run_end _ _ _ _ hs, hk]
      have := client_matches M M (withTrailers st ts) ((withTrailers_fields st ts).2.2.1.trans hm)
      obtain ⟨w1, w2, w3, w4, w5, w6⟩ := withTrailers_fields st ts
      rw [w1, w2, w5] at this
      rw [this, hw]
      exact ⟨fun ⟨a, b, c⟩ => ⟨hc, a, b, c⟩, fun ⟨_, a, b, c⟩ => ⟨a, b, c⟩⟩
    · rw [h2 hc, hw]
      exact ⟨fun h => (by cases h), fun h => absurd h.1 hc⟩
  · rw [run_tail _ _ _ _ _ hs hb (.inr (by simp [hm, hM]))]
    have hw : Within limit (M == headMethod) ds ↔ (limit = 0 ∨ ds.flatten.length ≤ limit) := by simp [Within, hM]
    have hk : kept (M == headMethod) ds = ds.flatten := by simp [kept, hM]
    rw [hk, hw]
    obtain ⟨w1, w2, w3, w4, w5, w6⟩ := withTrailers_fields { st with body := ds.flatten } ts
    rw [client_matches headMethod M _ (w3.trans hm), w1, w2, w5]

/-- C155. A client that has sent a request with the method `M` delivers a message, reported as one section of fields, any number
of pieces of data, at most one trailer section and the end, just if it is a response: one status of 100 to 999 before the
regular fields, names that are lower case tokens, values without control characters, no field that concerns the connection,
at most 100 fields, content lengths that agree, and that are the size of the data unless the request was a HEAD or the status
has no content; a body within the limit; and trailers that are fields other than `content-length` and `trailer`. -/
theorem C155_response_delivered (methodOf : Bytes → Option Nat) (headMethod limit M : Nat) (fs : List Field) (ds : List Bytes) (ts : Option (List Field)) :
    (∃ st, Setup.run ⟨methodOf, headMethod, .client, limit⟩ { method := some M } (messageEvents [fs] ds ts) = .deliver st) ↔
      ∃ status regular, ResponseSection fs status regular ∧ Agree regular ∧
        (M = headMethod ∨ NoContent status ∨ SaysLength regular ds.flatten.length) ∧
        Within limit (M == headMethod) ds ∧ ∀ t, ts = some t → TrailerSection t := by
  have e : messageEvents [fs] ds ts = sectionEvents fs ++ (ds.map .data ++ (trailerEvents ts ++ [.endStream])) := by
    simp [messageEvents]
  rw [e]
  simp only [run_section]
  have hsec := client_section methodOf fs { method := some M }
  constructor
  · rintro ⟨st, h⟩
    split at h
    · next hc =>
      split at h
      · cases h
      next st1 h1 =>
      obtain ⟨n, rs, l, hres, hl, rfl⟩ := (hsec st1).1 ⟨hc.1, hc.2, h1⟩
      rw [client_tail methodOf headMethod limit M _ _ _ _ rfl rfl rfl] at h
      obtain ⟨k1, k2, k3, _⟩ := h
      have hlow : ∀ f ∈ rs, LowerToken f.1 := by obtain ⟨v, -, -, -, -, -, hrs, -⟩ := hres; exact fun f hf => (hrs f hf).1.1
      refine ⟨n, rs, hres, (agree_iff rs hlow).2 ⟨l, hl⟩, ?_, k1, k2⟩
      by_cases hM : M = headMethod
      · exact .inl hM
      simp only [hM, false_or] at k3 ⊢
      by_cases hN : NoContent n
      · exact .inl hN
      right
      refine (says_iff rs _ hlow).2 ⟨l, hl, ?_⟩
      cases l with
      | none => exact .inl rfl
      | some k =>
        right
        have := k3 k rfl
        simp only [hN, false_or, kept, hM, beq_iff_eq, if_false] at this
        rw [this]
    · cases h
  · rintro ⟨n, rs, hres, hag, hsay, hlim, hts⟩
    have hlow : ∀ f ∈ rs, LowerToken f.1 := by obtain ⟨v, -, -, -, -, -, hrs, -⟩ := hres; exact fun f hf => (hrs f hf).1.1
    obtain ⟨l, hl⟩ := (agree_iff rs hlow).1 hag
    obtain ⟨c1, c2, c3⟩ := (hsec _).2 ⟨n, rs, l, hres, hl, rfl⟩
    rw [if_pos ⟨c1, c2⟩]
    simp only [c3]
    refine ⟨_, (client_tail methodOf headMethod limit M _ _ _ _ rfl rfl rfl).2 ⟨hlim, hts, ?_, rfl⟩⟩
    intro k hk
    simp only at hk
    by_cases hM : M = headMethod
    · exact .inl hM
    by_cases hN : NoContent n
    · exact .inr (.inl hN)
    right; right
    simp only [hM, hN, false_or] at hsay
    obtain ⟨l', hl', hn⟩ := (says_iff rs _ hlow).1 hsay
    rw [hl] at hl'
    cases hl'
    rw [hk] at hn
    rcases hn with hn | hn
    · cases hn
    · cases hn; simp [kept, hM]

theorem run_interim (methodOf : Bytes → Option Nat) (headMethod limit : Nat) (interim : List (List Field)) (st st' : St) (rest : List Ev)
    (h : Setup.run ⟨methodOf, headMethod, .client, limit⟩ st (interim.flatMap sectionEvents ++ rest) = .deliver st')
    (regs : List (List Field)) (hr : Pairs (fun fs rs => ∃ n, ResponseSection fs n rs) interim regs) :
    ∃ st1, Setup.run ⟨methodOf, headMethod, .client, limit⟩ st1 rest = .deliver st' ∧ st1.method = st.method ∧ st1.body = st.body ∧
      st1.headers = regs.flatten.foldl (fun h f => push h f.1 f.2) st.headers := by
  induction hr generalizing st with
  | nil => exact ⟨st, h, rfl, rfl, rfl⟩
  | @cons fs rs interim regs hfs _ ih =>
    obtain ⟨n, hres⟩ := hfs
    rw [List.flatMap_cons, List.append_assoc, run_section] at h
    split at h
    · next hc =>
      split at h
      · cases h
      next st1 h1 =>
      obtain ⟨m, rs', l, hres', hl, rfl⟩ := (client_section methodOf fs st st1).1 ⟨hc.1, hc.2, h1⟩
      obtain ⟨rfl, rfl⟩ := response_unique hres hres'
      obtain ⟨st2, k1, k2, k3, k4⟩ := ih _ h
      refine ⟨st2, k1, k2, k3, ?_⟩
      rw [k4, List.flatten_cons, List.foldl_append]
    · cases h

/-- C155. The response delivered is the one that came: its status, its data, and every field of the section and of the trailers, in
order under its name. The fields of interim responses (103, say) that came before come with them: the property asks for
those of the final response alone, so this is a part of it (`C155_interim_fields_leak_partial` shows a case). -/
theorem C155_response_content_partial (methodOf : Bytes → Option Nat) (headMethod limit M : Nat) (interim regs : List (List Field)) (fs : List Field)
    (ds : List Bytes) (ts : Option (List Field)) (status : Nat) (regular : List Field) (st : St)
    (hi : Pairs (fun fs rs => ∃ n, ResponseSection fs n rs) interim regs) (hr : ResponseSection fs status regular)
    (h : Setup.run ⟨methodOf, headMethod, .client, limit⟩ { method := some M } (messageEvents (interim ++ [fs]) ds ts) = .deliver st) :
    st.status = status ∧ st.body = (if M = headMethod then [] else ds.flatten) ∧
      ∀ n, (find st.headers n).getD [] = values (regs.flatten ++ (regular ++ ts.getD [])) n := by
  have e : messageEvents (interim ++ [fs]) ds ts = interim.flatMap sectionEvents ++ (sectionEvents fs ++ (ds.map .data ++ (trailerEvents ts ++ [.endStream]))) := by
    simp [messageEvents]
  rw [e] at h
  obtain ⟨st0, h, i1, i2, i3⟩ := run_interim methodOf headMethod limit interim _ st _ h regs hi
  rw [run_section] at h
  split at h
  · next hc =>
    split at h
    · cases h
    next st1 h1 =>
    obtain ⟨n, rs, l, hres, hl, rfl⟩ := (client_section methodOf fs st0 st1).1 ⟨hc.1, hc.2, h1⟩
    obtain ⟨-, -, -, rfl⟩ := (client_tail methodOf headMethod limit M { st0 with block := fs, count := fs.length, headers := rs.foldl (fun h f => push h f.1 f.2) st0.headers, expected := l, status := n, seen := true } st ds ts rfl i2 i1).1 h
    obtain ⟨rfl, rfl⟩ := response_unique hr hres
    obtain ⟨w1, w2, w3, w4, w5, w6⟩ := withTrailers_fields { st0 with block := fs, count := fs.length, headers := regular.foldl (fun h f => push h f.1 f.2) st0.headers, expected := l, status := status, seen := true, body := kept (M == headMethod) ds } ts
    refine ⟨w5, w2.trans (by simp [kept]), fun n => ?_⟩
    refine (w6 n).trans ?_
    simp only [find_fold, i3]
    simp [values, find]
  · cases h

/-- A response to a GET with a body of one piece. -/
example : ∃ st, Setup.run ⟨someMethods, 2, .client, 0⟩ { method := some 1 } (messageEvents [[(b!":status", b!"200"), (b!"x-a", b!"1"), (b!"content-length", b!"2")]]
      [b!"hi"] none) = .deliver st ∧ st.status = 200 ∧ st.body = b!"hi" := by
  refine ⟨_, rfl, ?_, ?_⟩ <;> decide +kernel

/-- C155. Found in the code, against the property: the fields of a 103 that comes before a 200 are in the headers of the response
that is delivered. -/
theorem C155_interim_fields_leak_partial : ∃ st, Setup.run ⟨someMethods, 2, .client, 0⟩ { method := some 1 }
      (messageEvents [[(b!":status", b!"103"), (b!"link", b!"</a.css>")], [(b!":status", b!"200"), (b!"x-a", b!"1")]] [b!"hi"] none) = .deliver st ∧
      st.status = 200 ∧ find st.headers b!"link" = some [b!"</a.css>"] := by
  refine ⟨_, rfl, ?_, ?_⟩ <;> decide +kernel

end Verif.H3
