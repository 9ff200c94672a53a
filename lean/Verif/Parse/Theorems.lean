import Verif.Parse.Lemmas
import Verif.Wire.TheoremsResponse

/-! C75–C77: assembling an HTTP/1.1 message from what llhttp reports. -/

namespace Verif.Parse
open Utility Utility.Spec Wire Wire.Spec

/-! ## the events of a message head -/

/-- A header line as reported: the pieces of its name, the pieces of its value. -/
abbrev Pieces := List Bytes × List Bytes

def join (f : Pieces) : Bytes × Bytes := (f.1.flatten, f.2.flatten)

def fieldEvents (f : Pieces) : List Ev := f.1.map Ev.field ++ f.2.map Ev.value

def headEvents (us : List Bytes) (fs : List Pieces) (major minor : Nat) (cl : Option Nat) : List Ev :=
  us.map Ev.url ++ (fs.flatMap fieldEvents ++ [Ev.headersComplete major minor cl])

/-- The length of the body when the head is complete: `reported` is what llhttp found in Content-Length.
A request without length or coding has none, a response with a status that forbids a body has none. -/
def BodyLength (status : Option Nat) (fields : List (Bytes × Bytes)) (reported l : Option Nat) : Prop :=
  (status = none ∧ reported = none ∧ NoField b!"Transfer-Encoding" fields → l = some 0) ∧
  (status = none ∧ ¬ (reported = none ∧ NoField b!"Transfer-Encoding" fields) → l = reported) ∧
  ∀ s, status = some s → (Bodiless s → l = some 0) ∧ (¬ Bodiless s → l = reported)

/-- The heads that are accepted. -/
structure Acceptable (status : Option Nat) (url : Bytes) (fields : List (Bytes × Bytes)) (reported : Option Nat) : Prop where
  url : url.length ≤ 8192
  count : fields.length ≤ 100
  sizes : ∀ f ∈ fields, f.1.length ≤ 1024 ∧ f.2.length ≤ 8192
  framing : NoField b!"Transfer-Encoding" fields ∨ (NoField b!"Content-Length" fields ∧ DeclaresChunked fields)
  body : ∀ n, BodyLength status fields reported (some n) → n ≤ 104857600

/-! ### pieces -/

theorem run_cons (p : P) (e : Ev) (es : List Ev) : run p (e :: es) = (step p e).bind fun q => run q es := rfl

theorem run_url (p : P) (us : List Bytes) (hs : p.status = none) (hb : p.urlBuffer.length = p.urlSeen)
    (hl : p.urlSeen ≤ 8192) :
    run p (us.map Ev.url) = if (p.urlBuffer ++ us.flatten).length > 8192 then none
      else some (if us = [] then p else
        { p with urlBuffer := p.urlBuffer ++ us.flatten, urlSeen := (p.urlBuffer ++ us.flatten).length, uri := p.urlBuffer ++ us.flatten }) := by
  induction us generalizing p with
  | nil =>
    simp only [List.map_nil, List.flatten_nil, List.append_nil]
    rw [if_neg (by omega), if_pos trivial]; rfl
  | cons u us ih =>
    rw [List.map_cons, run_cons]
    show (onUrl p u).bind _ = _
    unfold onUrl MAX_URL_LENGTH
    rw [if_neg (by simp [hs])]
    by_cases hu : p.urlSeen + u.length > 8192
    · rw [if_pos hu, if_pos (by simp only [List.flatten_cons, List.length_append]; omega)]; rfl
    · rw [if_neg hu]
      have hbuf : (if p.urlSeen == 0 then [] else p.urlBuffer) = p.urlBuffer := by
        by_cases h0 : p.urlSeen = 0
        · rw [if_pos (by simp [h0])]; exact (List.length_eq_zero_iff.1 (hb.trans h0)).symm
        · rw [if_neg (by simp [h0])]
      simp only [hbuf, Option.bind_some]
      rw [ih _ (by exact hs) (by simp [hb]) (show p.urlSeen + u.length ≤ 8192 by omega)]
      simp only [List.flatten_cons, List.append_assoc]
      by_cases hbig : (p.urlBuffer ++ (u ++ us.flatten)).length > 8192
      · rw [if_pos hbig, if_pos hbig]
      · rw [if_neg hbig, if_neg hbig, if_neg (show ¬ u :: us = [] by simp)]
        by_cases hn : us = []
        · subst hn
          simp [hb]
        · rw [if_neg hn]

theorem flush_field {p : P} (h : p.tok = .field) : flush p = some p := by
  unfold flush; rw [if_neg (by simp [h])]

theorem run_field_more (p : P) (ns : List Bytes) (ht : p.tok = .field) (hk : p.key.length ≤ 1024) :
    run p (ns.map Ev.field) = if (p.key ++ ns.flatten).length > 1024 then none else some { p with key := p.key ++ ns.flatten } := by
  induction ns generalizing p with
  | nil =>
    simp only [List.map_nil, List.flatten_nil, List.append_nil]
    rw [if_neg (by omega)]; rfl
  | cons n ns ih =>
    rw [List.map_cons, run_cons]
    show (onField p n).bind _ = _
    unfold onField
    rw [flush_field ht]
    simp only [Option.bind_some]
    unfold onFieldKey MAX_HEADER_NAME_LENGTH
    rw [if_neg (by simp [ht])]
    by_cases hn : (p.key ++ n).length > 1024
    · rw [if_pos hn, if_pos (by simp only [List.flatten_cons, List.length_append] at hn ⊢; omega)]; rfl
    · rw [if_neg hn]
      simp only [Option.bind_some]
      rw [ih _ (by rfl) (by simp only [List.length_append] at hn ⊢; omega)]
      simp only [List.flatten_cons, List.append_assoc, ht]

theorem run_field (p : P) (ns : List Bytes) (ht : p.tok ≠ .field) (hn : ns ≠ []) :
    run p (ns.map Ev.field) = (flush p).bind fun q =>
      if q.pairs + 1 > 100 ∨ ns.flatten.length > 1024 then none
      else some { q with pairs := q.pairs + 1, key := ns.flatten, tok := .field } := by
  cases ns with
  | nil => exact absurd rfl hn
  | cons n ns =>
    rw [List.map_cons, run_cons]
    show (onField p n).bind _ = _
    unfold onField
    have hq : ∀ q, flush p = some q → q.tok ≠ .field := by
      intro q hq
      unfold flush at hq
      split at hq
      · split at hq
        · simp at hq
        · simp only [Option.some.injEq] at hq; subst hq; exact ht
      · simp only [Option.some.injEq] at hq; subst hq; exact ht
    cases hf : flush p with
    | none => rfl
    | some q =>
      simp only [Option.bind_some]
      unfold onFieldKey MAX_HEADERS_COUNT MAX_HEADER_NAME_LENGTH
      rw [if_pos (by simpa using hq q hf)]
      by_cases h1 : q.pairs + 1 > 100
      · rw [if_pos h1, if_pos (Or.inl h1)]; rfl
      · rw [if_neg h1]
        by_cases h2 : n.length > 1024
        · rw [if_pos h2, if_pos (Or.inr (by simp only [List.flatten_cons, List.length_append]; omega))]; rfl
        · rw [if_neg h2]
          simp only [Option.bind_some]
          rw [run_field_more _ ns rfl (by simp only []; omega)]
          by_cases h3 : (n ++ ns.flatten).length > 1024
          · rw [if_pos h3, if_pos (show q.pairs + 1 > 100 ∨ (n :: ns).flatten.length > 1024 from Or.inr h3)]
          · rw [if_neg h3, if_neg (by simp only [List.flatten_cons]; omega)]; rfl

theorem run_value_more (p : P) (vs : List Bytes) (ht : p.tok = .value) (hk : p.value.length ≤ 8192) :
    run p (vs.map Ev.value) = if (p.value ++ vs.flatten).length > 8192 then none else some { p with value := p.value ++ vs.flatten } := by
  induction vs generalizing p with
  | nil =>
    simp only [List.map_nil, List.flatten_nil, List.append_nil]
    rw [if_neg (by omega)]; rfl
  | cons n ns ih =>
    rw [List.map_cons, run_cons]
    show (onValue p n).bind _ = _
    unfold onValue MAX_HEADER_VALUE_LENGTH
    simp only [ht]
    rw [if_neg (show ¬ (Tok.value != Tok.value) = true by decide)]
    by_cases hn : (p.value ++ n).length > 8192
    · rw [if_pos hn, if_pos (by simp only [List.flatten_cons, List.length_append] at hn ⊢; omega)]; rfl
    · rw [if_neg hn]
      simp only [Option.bind_some]
      rw [ih _ (by rfl) (by simp only [List.length_append] at hn ⊢; omega)]
      simp only [List.flatten_cons, List.append_assoc, ht]

theorem run_value (p : P) (vs : List Bytes) (ht : p.tok ≠ .value) (hn : vs ≠ []) :
    run p (vs.map Ev.value) = if vs.flatten.length > 8192 then none else some { p with value := vs.flatten, tok := .value } := by
  cases vs with
  | nil => exact absurd rfl hn
  | cons n ns =>
    rw [List.map_cons, run_cons]
    show (onValue p n).bind _ = _
    unfold onValue MAX_HEADER_VALUE_LENGTH
    simp only []
    rw [if_pos (show (p.tok != Tok.value) = true by simpa using ht)]
    by_cases h2 : n.length > 8192
    · rw [if_pos (by simpa using h2), if_pos (by simp only [List.flatten_cons, List.length_append]; omega)]; rfl
    · rw [if_neg (by simpa using h2)]
      simp only [Option.bind_some, List.nil_append]
      rw [run_value_more _ ns rfl (by simp only []; omega)]
      simp only [List.flatten_cons]

theorem run_one (p : P) (f : Pieces) (ht : p.tok ≠ .field) (h1 : f.1 ≠ []) (h2 : f.2 ≠ []) :
    run p (fieldEvents f) = (flush p).bind fun q =>
      if q.pairs + 1 > 100 ∨ (join f).1.length > 1024 ∨ (join f).2.length > 8192 then none
      else some { q with pairs := q.pairs + 1, key := (join f).1, value := (join f).2, tok := .value } := by
  unfold fieldEvents
  rw [run_append, run_field p f.1 ht h1]
  cases hf : flush p with
  | none => rfl
  | some q =>
    simp only [Option.bind_some]
    by_cases h : q.pairs + 1 > 100 ∨ f.1.flatten.length > 1024
    · rw [if_pos h, if_pos (by rcases h with h | h; exact Or.inl h; exact Or.inr (Or.inl h))]; rfl
    · rw [if_neg h]
      simp only [Option.bind_some]
      rw [run_value _ f.2 (by simp) h2]
      by_cases h3 : f.2.flatten.length > 8192
      · rw [if_pos h3, if_pos (show q.pairs + 1 > 100 ∨ (join f).1.length > 1024 ∨ (join f).2.length > 8192 from Or.inr (Or.inr h3))]
      · rw [if_neg h3, if_neg (by simp only [join]; omega)]; rfl

/-! ### all header lines -/

/-- The map after these fields. -/
def build (fields : List (Bytes × Bytes)) : Headers := fields.foldl (fun h f => push h f.1 f.2) []

theorem build_snoc (fields : List (Bytes × Bytes)) (f : Bytes × Bytes) : build (fields ++ [f]) = push (build fields) f.1 f.2 := by
  simp [build]

theorem snoc_induction {α} {motive : List α → Prop} (nil : motive []) (snoc : ∀ l a, motive l → motive (l ++ [a])) :
    ∀ l, motive l := by
  intro l
  have : ∀ n (l : List α), l.length = n → motive l := by
    intro n
    induction n with
    | zero => intro l hl; rw [List.length_eq_zero_iff.1 hl]; exact nil
    | succ n ih =>
      intro l hl
      have hne : l ≠ [] := by intro h; simp [h] at hl
      rw [← List.dropLast_concat_getLast hne]
      exact snoc _ _ (ih _ (by simp [hl]))
  exact this _ l rfl

theorem build_ok : ∀ fields, Distinct (build fields) ∧ NonEmptyEntries (build fields) ∧ Holds (build fields) fields := by
  refine snoc_induction ?_ ?_
  · refine ⟨by simp [build, Distinct], by intro e he; simp [build] at he, ?_⟩
    intro name vs; rfl
  · intro l a ⟨h1, h2, h3⟩
    rw [build_snoc]
    exact ⟨push_distinct h1 _ _, push_nonEmpty h2 _ _, holds_push h1 h3 _ _⟩

/-- The state between header lines: flushing yields the fields read so far. -/
structure Good (p0 p : P) (fields : List (Bytes × Bytes)) : Prop where
  tok : p.tok ≠ .field
  flushed : ∃ q, flush p = some q ∧ q.headers = build fields ∧ q.pairs = fields.length ∧ q.status = p0.status ∧
    q.uri = p0.uri ∧ q.bodySeen = p0.bodySeen ∧ q.chunked = p0.chunked ∧ q.body = p0.body

theorem flush_value {p : P} (ht : p.tok = .value) (hk : p.key ≠ []) (hv : p.value.length ≤ 8192) :
    flush p = some { p with headers := push p.headers p.key p.value, key := [], value := [] } := by
  unfold flush MAX_HEADER_VALUE_LENGTH
  rw [if_pos (by simp [ht, hk]), if_neg (by omega)]

theorem good_step {p0 p : P} {fields : List (Bytes × Bytes)} (g : Good p0 p fields) (f : Pieces) (h1 : (join f).1 ≠ [])
    (h2 : f.2 ≠ []) :
    (fields.length + 1 ≤ 100 ∧ (join f).1.length ≤ 1024 ∧ (join f).2.length ≤ 8192 →
      ∃ p', run p (fieldEvents f) = some p' ∧ Good p0 p' (fields ++ [join f])) ∧
    (¬ (fields.length + 1 ≤ 100 ∧ (join f).1.length ≤ 1024 ∧ (join f).2.length ≤ 8192) → run p (fieldEvents f) = none) := by
  obtain ⟨ht, q, hq, g1, g2, g3, g4, g5, g6, g7⟩ := g
  have hne : f.1 ≠ [] := by intro h; apply h1; simp [join, h]
  rw [run_one p f ht hne h2, hq]
  simp only [Option.bind_some]
  constructor
  · rintro ⟨l1, l2, l3⟩
    rw [if_neg (by omega)]
    refine ⟨_, rfl, by simp, _, flush_value rfl h1 l3, ?_, ?_, g3, g4, g5, g6, g7⟩
    · show push q.headers _ _ = _; rw [g1, build_snoc]
    · simp [g2]
  · intro h
    rw [if_pos (by omega)]

theorem good_run {p0 : P} (fs : List Pieces) : ∀ {p : P} {fields : List (Bytes × Bytes)}, Good p0 p fields →
    (∀ f ∈ fs, (join f).1 ≠ [] ∧ f.2 ≠ []) →
    ((fields ++ fs.map join).length ≤ 100 ∧ (∀ f ∈ fs.map join, f.1.length ≤ 1024 ∧ f.2.length ≤ 8192) →
      ∃ p', run p (fs.flatMap fieldEvents) = some p' ∧ Good p0 p' (fields ++ fs.map join)) ∧
    (¬ ((fields ++ fs.map join).length ≤ 100 ∧ (∀ f ∈ fs.map join, f.1.length ≤ 1024 ∧ f.2.length ≤ 8192)) →
      fields.length ≤ 100 → run p (fs.flatMap fieldEvents) = none) := by
  induction fs with
  | nil =>
    intro p fields g _
    refine ⟨fun _ => ⟨p, rfl, by simpa using g⟩, fun h h' => absurd ⟨by simpa using h', by simp⟩ h⟩
  | cons f fs ih =>
    intro p fields g hf
    obtain ⟨s1, s2⟩ := good_step g f (hf f (by simp)).1 (hf f (by simp)).2
    have hf' : ∀ f ∈ fs, (join f).1 ≠ [] ∧ f.2 ≠ [] := fun x hx => hf x (by simp [hx])
    rw [List.flatMap_cons, run_append]
    have e : fields ++ (f :: fs).map join = (fields ++ [join f]) ++ fs.map join := by simp
    by_cases hl : fields.length + 1 ≤ 100 ∧ (join f).1.length ≤ 1024 ∧ (join f).2.length ≤ 8192
    · obtain ⟨p', r1, g'⟩ := s1 hl
      rw [r1]
      simp only [Option.bind_some]
      obtain ⟨i1, i2⟩ := ih g' hf'
      rw [e]
      constructor
      · rintro ⟨a, b⟩
        exact i1 ⟨a, fun x hx => b x (by simp only [List.map_cons, List.mem_cons]; exact Or.inr hx)⟩
      · intro h h'
        refine i2 ?_ (by simp only [List.length_append, List.length_singleton]; omega)
        rintro ⟨a, b⟩
        refine h ⟨a, ?_⟩
        intro x hx
        simp only [List.map_cons, List.mem_cons] at hx
        rcases hx with rfl | hx
        · exact hl.2
        · exact b x hx
    · rw [s2 hl]
      constructor
      · rintro ⟨a, b⟩
        refine absurd ⟨?_, b (join f) (by simp)⟩ hl
        simp only [List.length_append, List.length_map, List.length_cons] at a
        omega
      · intro _ _; rfl

/-! ### the end of the head -/

theorem find_isSome {h : Headers} {fields : List (Bytes × Bytes)} (hn : NonEmptyEntries h) (hh : Holds h fields) (name : Bytes) :
    (find h name).isSome = true ↔ ¬ NoField name fields := by
  rw [← holds_noField hh]
  constructor
  · intro h1 h2; rw [find_noField hn h2] at h1; simp at h1
  · intro h1
    cases hf : find h name with
    | none => exact absurd (find_none hf) h1
    | some _ => rfl

theorem framingOk_iff {h : Headers} {fields : List (Bytes × Bytes)} (hd : Distinct h) (hn : NonEmptyEntries h) (hh : Holds h fields) :
    framingOk h = true ↔ NoField b!"Transfer-Encoding" fields ∨ (NoField b!"Content-Length" fields ∧ DeclaresChunked fields) := by
  unfold framingOk
  by_cases ht : NoField b!"Transfer-Encoding" fields
  · rw [if_neg (fun h => (find_isSome hn hh _).1 h ht)]; simp [ht]
  · rw [if_pos ((find_isSome hn hh _).2 ht)]
    simp only [Bool.and_eq_true, Bool.not_eq_true', beq_iff_eq, ht, false_or]
    constructor
    · rintro ⟨h1, h2⟩
      refine ⟨?_, (holds_chunked hh).1 (te_some hd h2)⟩
      apply (holds_noField hh _).1
      exact find_none (by cases hf : find h b!"Content-Length" with | none => rfl | some _ => rw [hf] at h1; simp at h1)
    · rintro ⟨h1, h2⟩
      refine ⟨?_, te_of_some hd ((holds_chunked hh).2 h2)⟩
      rw [find_noField hn ((holds_noField hh _).2 h1)]; rfl

theorem bodyLength_iff (status : Option Nat) {h : Headers} {fields : List (Bytes × Bytes)} (hn : NonEmptyEntries h) (hh : Holds h fields)
    (cl l : Option Nat) :
    BodyLength status fields cl l ↔ l = effectiveLength status (find h b!"Transfer-Encoding").isSome cl := by
  have hte := find_isSome hn hh b!"Transfer-Encoding"
  unfold BodyLength effectiveLength
  cases status with
  | none =>
    simp only [true_and, reduceCtorEq, false_implies, implies_true, and_true]
    by_cases ht : NoField b!"Transfer-Encoding" fields
    · have : (find h b!"Transfer-Encoding").isSome = false := by
        cases hf : (find h b!"Transfer-Encoding").isSome with
        | false => rfl
        | true => exact absurd ht (hte.1 hf)
      rw [this]
      cases cl <;> simp [ht]
    · rw [hte.2 ht]; simp [ht]
  | some s =>
    have hb : ((decide (s ≥ 100) && decide (s < 200)) || s == 204 || s == 304) = true ↔ Bodiless s := mustNot_iff s
    simp only [reduceCtorEq, false_and, false_implies, true_and, Option.some.injEq]
    constructor
    · intro hall
      obtain ⟨h1, h2⟩ := hall s rfl
      by_cases hs : Bodiless s
      · rw [if_pos (hb.2 hs)]; exact h1 hs
      · rw [if_neg (fun h => hs (hb.1 h))]; exact h2 hs
    · rintro rfl t rfl
      by_cases hs : Bodiless s
      · rw [if_pos (hb.2 hs)]; exact ⟨fun _ => rfl, fun h => absurd hs h⟩
      · rw [if_neg (fun h => hs (hb.1 h))]; exact ⟨fun h => absurd h hs, fun _ => rfl⟩

theorem complete_ok {p0 p : P} {fields : List (Bytes × Bytes)} (g : Good p0 p fields) (major minor : Nat) (cl : Option Nat) :
    ((NoField b!"Transfer-Encoding" fields ∨ (NoField b!"Content-Length" fields ∧ DeclaresChunked fields)) ∧
      (∀ n, BodyLength p0.status fields cl (some n) → n ≤ 104857600) →
      ∃ s, onHeadersComplete p major minor cl = some s ∧ s.headers = build fields ∧ s.version = (major, minor) ∧
        BodyLength p0.status fields cl s.contentLength ∧ s.uri = p0.uri ∧ s.bodySeen = p0.bodySeen ∧
        s.chunked = p0.chunked ∧ s.body = p0.body ∧ s.done = true ∧ s.tok = .none) ∧
    (¬ ((NoField b!"Transfer-Encoding" fields ∨ (NoField b!"Content-Length" fields ∧ DeclaresChunked fields)) ∧
      (∀ n, BodyLength p0.status fields cl (some n) → n ≤ 104857600)) → onHeadersComplete p major minor cl = none) := by
  obtain ⟨_, q, hq, g1, g2, g3, g4, g5, g6, g7⟩ := g
  obtain ⟨b1, b2, b3⟩ := build_ok fields
  unfold onHeadersComplete
  rw [hq]
  simp only [Option.bind_some]
  have hf := framingOk_iff b1 b2 b3
  rw [← g1] at hf
  have hl := fun l => bodyLength_iff p0.status b2 b3 cl l
  rw [← g1] at hl
  rw [← g3] at hl ⊢
  have hmax : ((effectiveLength q.status (find q.headers b!"Transfer-Encoding").isSome cl).any fun n => decide (n > MAX_BODY_SIZE)) = true ↔
      ¬ ∀ n, BodyLength q.status fields cl (some n) → n ≤ 104857600 := by
    cases he : effectiveLength q.status (find q.headers b!"Transfer-Encoding").isSome cl with
    | none =>
      constructor
      · intro h; simp at h
      · intro h
        refine absurd ?_ h
        intro n hn
        have := (hl _).1 hn
        rw [he] at this; simp at this
    | some m =>
      have hmx : MAX_BODY_SIZE = 104857600 := rfl
      rw [Option.any_some, decide_eq_true_eq, hmx]
      constructor
      · intro h hall
        have := hall m ((hl _).2 he.symm)
        omega
      · intro h
        apply Classical.byContradiction
        intro h'
        apply h
        intro n hn
        have := (hl _).1 hn
        rw [he] at this
        simp only [Option.some.injEq] at this
        omega
  constructor
  · rintro ⟨h1, h2⟩
    rw [if_neg (by simpa using hf.2 h1), if_neg (fun h => hmax.1 h h2)]
    refine ⟨_, rfl, g1, rfl, (hl _).2 rfl, g4, g5, g6, g7, rfl, rfl⟩
  · intro h
    by_cases h1 : framingOk q.headers = true
    · rw [if_neg (by simpa using h1), if_pos (hmax.2 fun h2 => h ⟨hf.1 h1, h2⟩)]
    · rw [if_pos (by simpa using h1)]

/-! ## C75 -/

theorem head_full (status : Option Nat) (us : List Bytes) (fs : List Pieces) (major minor : Nat) (cl : Option Nat)
    (hu : status ≠ none → us = []) (hf : ∀ f ∈ fs, (join f).1 ≠ [] ∧ f.2 ≠ []) :
    (Acceptable status us.flatten (fs.map join) cl →
      ∃ s, run (init status) (headEvents us fs major minor cl) = some s ∧ s.uri = us.flatten ∧
        s.headers = build (fs.map join) ∧ s.version = (major, minor) ∧ BodyLength status (fs.map join) cl s.contentLength ∧
        s.done = true ∧ s.bodySeen = 0 ∧ s.chunked = []) ∧
    (¬ Acceptable status us.flatten (fs.map join) cl → run (init status) (headEvents us fs major minor cl) = none) := by
  unfold headEvents
  rw [run_append]
  -- the target
  have hurl : ∃ p1, Good p1 p1 [] ∧ p1.status = status ∧ p1.uri = us.flatten ∧ p1.bodySeen = 0 ∧ p1.chunked = [] ∧
      run (init status) (us.map Ev.url) = if us.flatten.length > 8192 then none else some p1 := by
    cases status with
    | some s =>
      have : us = [] := hu (by simp)
      subst this
      refine ⟨init (some s), ⟨by simp [init], _, by unfold flush; rw [if_neg (by simp [init])], ?_⟩, rfl, rfl, rfl, rfl, ?_⟩
      · simp [init, build]
      · rw [if_neg (by simp)]; rfl
    | none =>
      have h := run_url (init none) us rfl rfl (by simp [init])
      refine ⟨_, ?_, ?_, ?_, ?_, ?_, h⟩
      · by_cases hn : us = []
        · rw [if_pos hn]
          exact ⟨by simp [init], _, by unfold flush; rw [if_neg (by simp [init])], by simp [init, build]⟩
        · rw [if_neg hn]
          exact ⟨by simp [init], _, by unfold flush; rw [if_neg (by simp [init])], by simp [init, build]⟩
      · by_cases hn : us = [] <;> simp [hn, init]
      · by_cases hn : us = [] <;> simp [hn, init]
      · by_cases hn : us = [] <;> simp [hn, init]
      · by_cases hn : us = [] <;> simp [hn, init]
  obtain ⟨p1, g1, hst, hur, hbs, hch, hrun⟩ := hurl
  obtain ⟨r1, r2⟩ := good_run fs g1 hf
  simp only [List.nil_append] at r1 r2
  rw [hrun]
  by_cases hbig : us.flatten.length > 8192
  · rw [if_pos hbig]
    exact ⟨fun h => absurd h.url (by omega), fun _ => rfl⟩
  · rw [if_neg hbig]
    simp only [Option.bind_some]
    rw [run_append]
    by_cases hlim : (fs.map join).length ≤ 100 ∧ (∀ f ∈ fs.map join, f.1.length ≤ 1024 ∧ f.2.length ≤ 8192)
    · obtain ⟨p2, e2, g2⟩ := r1 hlim
      obtain ⟨c1, c2⟩ := complete_ok g2 major minor cl
      rw [e2]
      simp only [Option.bind_some]
      rw [hst] at c1 c2
      constructor
      · intro ha
        obtain ⟨s, hs, h1, h2, h3, h4, h6, h7, _, h5, _⟩ := c1 ⟨ha.framing, ha.body⟩
        refine ⟨s, ?_, h4.trans hur, h1, h2, h3, h5, h6.trans hbs, h7.trans hch⟩
        · rw [run_cons]; show (onHeadersComplete p2 major minor cl).bind _ = _; rw [hs]; rfl
      · intro ha
        rw [run_cons]; show (onHeadersComplete p2 major minor cl).bind _ = _
        rw [c2 fun h => ha ⟨by omega, hlim.1, hlim.2, h.1, h.2⟩]; rfl
    · rw [r2 hlim (by simp)]
      exact ⟨fun h => absurd ⟨h.count, h.sizes⟩ hlim, fun _ => rfl⟩

/-- C75: however llhttp fragments the request target, the header names and the header values, the head of
the message is refused exactly when it breaks a limit or the framing rules, and otherwise the message has
exactly that target, those fields (same values under each name, in order) and that body length. -/
theorem C75_head (status : Option Nat) (us : List Bytes) (fs : List Pieces) (major minor : Nat) (cl : Option Nat)
    (hu : status ≠ none → us = []) (hf : ∀ f ∈ fs, (join f).1 ≠ [] ∧ f.2 ≠ []) :
    (Acceptable status us.flatten (fs.map join) cl →
      ∃ s, run (init status) (headEvents us fs major minor cl) = some s ∧ s.uri = us.flatten ∧
        Holds s.headers (fs.map join) ∧ s.version = (major, minor) ∧ BodyLength status (fs.map join) cl s.contentLength ∧
        s.done = true) ∧
    (¬ Acceptable status us.flatten (fs.map join) cl → run (init status) (headEvents us fs major minor cl) = none) := by
  obtain ⟨h1, h2⟩ := head_full status us fs major minor cl hu hf
  refine ⟨fun ha => ?_, h2⟩
  obtain ⟨s, e, g1, g2, g3, g4, g5, _⟩ := h1 ha
  exact ⟨s, e, g1, g2 ▸ (build_ok _).2.2, g3, g4, g5⟩

theorem head_state (status : Option Nat) (us : List Bytes) (fs : List Pieces) (major minor : Nat) (cl : Option Nat)
    (hu : status ≠ none → us = []) (hf : ∀ f ∈ fs, (join f).1 ≠ [] ∧ f.2 ≠ []) (ha : Acceptable status us.flatten (fs.map join) cl) :
    ∃ s, run (init status) (headEvents us fs major minor cl) = some s ∧ s.uri = us.flatten ∧ s.headers = build (fs.map join) ∧
      s.bodySeen = 0 ∧ s.chunked = [] := by
  obtain ⟨s, e, g1, g2, g3, g4, g5, g6, g7⟩ := (head_full status us fs major minor cl hu hf).1 ha
  exact ⟨s, e, g1, g2, g6, g7⟩

theorem head_more (status : Option Nat) (us : List Bytes) (fs : List Pieces) (major minor : Nat) (cl : Option Nat)
    (hu : status ≠ none → us = []) (hf : ∀ f ∈ fs, (join f).1 ≠ [] ∧ f.2 ≠ []) {s : P}
    (e : run (init status) (headEvents us fs major minor cl) = some s) :
    Acceptable status us.flatten (fs.map join) cl ∧ s.version = (major, minor) ∧ s.done = true ∧
    s.contentLength = effectiveLength status (find (build (fs.map join)) b!"Transfer-Encoding").isSome cl := by
  obtain ⟨h1, h2⟩ := head_full status us fs major minor cl hu hf
  by_cases ha : Acceptable status us.flatten (fs.map join) cl
  · obtain ⟨s', e', g1, g2, g3, g4, g5, g6, g7⟩ := h1 ha
    rw [e] at e'
    simp only [Option.some.injEq] at e'
    subst e'
    obtain ⟨_, b2, b3⟩ := build_ok (fs.map join)
    exact ⟨ha, g3, g5, (bodyLength_iff status b2 b3 cl _).1 g4⟩
  · rw [h2 ha] at e; simp at e

end Verif.Parse
