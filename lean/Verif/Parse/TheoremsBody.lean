import Verif.Parse.Theorems

/-! C76, C77: bodies reported in pieces, and trailers. -/

namespace Verif.Parse
open Utility Utility.Spec Wire Wire.Spec

theorem run_body (p : P) (bs : List Bytes) (h0 : p.bodySeen ≤ 104857600) :
    ((∀ b ∈ bs, b.length ≤ 16777216) ∧ p.bodySeen + bs.flatten.length ≤ 104857600 →
      run p (bs.map Ev.body) = some { p with chunked := p.chunked ++ bs.flatten, bodySeen := p.bodySeen + bs.flatten.length }) ∧
    (¬ ((∀ b ∈ bs, b.length ≤ 16777216) ∧ p.bodySeen + bs.flatten.length ≤ 104857600) → run p (bs.map Ev.body) = none) := by
  induction bs generalizing p with
  | nil =>
    refine ⟨fun _ => by simp [run], fun h => absurd ⟨by simp, by simpa using h0⟩ h⟩
  | cons b bs ih =>
    have hc : MAX_CHUNK_SIZE = 16777216 := rfl
    have hm : MAX_BODY_SIZE = 104857600 := rfl
    have e : run p ((b :: bs).map Ev.body) = (onBody p b).bind fun q => run q (bs.map Ev.body) := rfl
    rw [e]
    unfold onBody
    rw [hc, hm]
    by_cases h1 : b.length > 16777216
    · rw [if_pos h1]
      exact ⟨fun h => absurd (h.1 b (by simp)) (by omega), fun _ => rfl⟩
    · rw [if_neg h1]
      by_cases h2 : p.bodySeen + b.length > 104857600
      · rw [if_pos h2]
        refine ⟨fun h => absurd h.2 (by simp only [List.flatten_cons, List.length_append]; omega), fun _ => rfl⟩
      · rw [if_neg h2]
        simp only [Option.bind_some]
        obtain ⟨i1, i2⟩ := ih { p with chunked := p.chunked ++ b, bodySeen := p.bodySeen + b.length } (show p.bodySeen + b.length ≤ 104857600 by omega)
        constructor
        · rintro ⟨a1, a2⟩
          rw [i1 ⟨fun x hx => a1 x (by simp [hx]), by
            show p.bodySeen + b.length + _ ≤ _
            simp only [List.flatten_cons, List.length_append] at a2; omega⟩]
          simp [Nat.add_assoc]
        · intro h
          refine i2 ?_
          rintro ⟨a1, a2⟩
          refine h ⟨?_, ?_⟩
          · intro x hx
            simp only [List.mem_cons] at hx
            rcases hx with rfl | hx
            · omega
            · exact a1 x hx
          · have : p.bodySeen + b.length + bs.flatten.length ≤ 104857600 := a2
            simp only [List.flatten_cons, List.length_append]; omega

/-! ### the content type -/

theorem setHeader_values {h : Headers} (hd : Distinct h) (k v : Bytes) :
    ValuesOf k (flat (setHeader h k v)) [v] ∧
    ∀ name, ¬ SameName k name → ∀ vs, ValuesOf name (flat h) vs → ValuesOf name (flat (setHeader h k v)) vs := by
  have hflat : ∀ (e : Bytes × List Bytes) (t : Headers), flat (e :: t) = e.2.map (e.1, ·) ++ flat t := by
    intro e t; simp [flat]
  induction h with
  | nil =>
    refine ⟨.hit rfl .nil, ?_⟩
    intro name hn vs hv
    have : vs = [] := valuesOf_unique hv .nil
    subst this
    exact .miss hn .nil
  | cons x h ih =>
    unfold Distinct at hd
    rw [List.pairwise_cons] at hd
    obtain ⟨i1, i2⟩ := ih hd.2
    unfold setHeader
    by_cases hx : iequals x.1 k = true
    · rw [if_pos hx]
      have hxk := same_of.1 hx
      constructor
      · rw [hflat]
        have htail : NoField k (flat h) := by
          intro f hf hs
          obtain ⟨e, he, hf⟩ := List.mem_flatMap.1 hf
          obtain ⟨w, _, rfl⟩ := List.mem_map.1 hf
          exact hd.1 e he (sameName_trans hxk (sameName_symm hs))
        simpa using valuesOf_app (valuesOf_map hxk [v]) (valuesOf_none htail)
      · intro name hn vs hv
        have hxn : ¬ SameName x.1 name := fun h => hn (sameName_trans (sameName_symm hxk) h)
        have hmiss : ∀ l : List Bytes, ValuesOf name (l.map (x.1, ·)) [] := by
          intro l
          refine valuesOf_none ?_
          intro f hf
          obtain ⟨w, _, rfl⟩ := List.mem_map.1 hf
          exact hxn
        obtain ⟨us, hu⟩ := valuesOf_exists name (flat h)
        rw [hflat] at hv ⊢
        have : vs = us := by simpa using valuesOf_unique hv (valuesOf_app (hmiss x.2) hu)
        subst this
        simpa using valuesOf_app (hmiss [v]) hu
    · rw [if_neg hx]
      constructor
      · rw [hflat]
        have : ValuesOf k (x.2.map (x.1, ·)) [] := by
          refine valuesOf_none ?_
          intro f hf
          obtain ⟨w, _, rfl⟩ := List.mem_map.1 hf
          exact fun h => hx (same_of.2 h)
        simpa using valuesOf_app this i1
      · intro name hn vs hv
        obtain ⟨us, hu⟩ := valuesOf_exists name (x.2.map (x.1, ·))
        obtain ⟨ws, hw⟩ := valuesOf_exists name (flat h)
        rw [hflat] at hv ⊢
        have := valuesOf_unique hv (valuesOf_app hu hw)
        subst this
        exact valuesOf_app hu (i2 name hn ws hw)

theorem header_values {h : Headers} (hd : Distinct h) {name : Bytes} {vs : List Bytes} (hv : ValuesOf name (flat h) vs) :
    header h name = vs.headD [] := by
  unfold header
  cases hf : find h name with
  | none =>
    have := valuesOf_unique hv (valuesOf_none (find_none hf))
    subst this; rfl
  | some ws =>
    have := valuesOf_unique hv (find_some hd hf)
    subst this; rfl

/-! ## C76 -/

/-- A whole message without trailers, as reported. -/
def messageEvents (us : List Bytes) (fs : List Pieces) (major minor : Nat) (cl : Option Nat) (bs : List Bytes) : List Ev :=
  headEvents us fs major minor cl ++ (bs.map Ev.body ++ [Ev.messageComplete])

/-- C76: a message whose body is reported in pieces has as its body exactly the concatenation of the pieces,
and its target and fields are those of its head, except that the content type is reduced to its first value
(empty if there is none); it is refused exactly when the head is, when a piece exceeds 16 MiB, or when the
whole exceeds 100 MiB. -/
theorem C76_message (status : Option Nat) (us : List Bytes) (fs : List Pieces) (major minor : Nat) (cl : Option Nat)
    (bs : List Bytes) (hu : status ≠ none → us = []) (hf : ∀ f ∈ fs, (join f).1 ≠ [] ∧ f.2 ≠ []) :
    (Acceptable status us.flatten (fs.map join) cl ∧ (∀ b ∈ bs, b.length ≤ 16777216) ∧ bs.flatten.length ≤ 104857600 →
      ∃ s, run (init status) (messageEvents us fs major minor cl bs) = some s ∧ s.uri = us.flatten ∧ s.body = bs.flatten ∧
        (∀ name, ¬ SameName b!"Content-Type" name → ∀ vs, ValuesOf name (flat s.headers) vs ↔ ValuesOf name (fs.map join) vs) ∧
        (∀ vs, ValuesOf b!"Content-Type" (fs.map join) vs → ValuesOf b!"Content-Type" (flat s.headers) [vs.headD []])) ∧
    (¬ (Acceptable status us.flatten (fs.map join) cl ∧ (∀ b ∈ bs, b.length ≤ 16777216) ∧ bs.flatten.length ≤ 104857600) →
      run (init status) (messageEvents us fs major minor cl bs) = none) := by
  unfold messageEvents
  rw [run_append]
  by_cases ha : Acceptable status us.flatten (fs.map join) cl
  · obtain ⟨s, e, g1, g2, g3, g4⟩ := head_state status us fs major minor cl hu hf ha
    rw [e]
    simp only [Option.bind_some]
    rw [run_append]
    obtain ⟨r1, r2⟩ := run_body s bs (by omega)
    rw [g3] at r1 r2
    simp only [Nat.zero_add] at r1 r2
    constructor
    · rintro ⟨_, h1, h2⟩
      rw [r1 ⟨h1, h2⟩]
      simp only [Option.bind_some]
      obtain ⟨b1, b2, b3⟩ := build_ok (fs.map join)
      refine ⟨_, rfl, g1, ?_, ?_, ?_⟩
      · show s.chunked ++ bs.flatten = _; rw [g4]; rfl
      · intro name hn vs
        show ValuesOf name (flat (setHeader s.headers _ _)) vs ↔ _
        rw [g2, ← b3 name vs]
        obtain ⟨us', hu'⟩ := valuesOf_exists name (flat (build (fs.map join)))
        have := (setHeader_values b1 b!"Content-Type" (header (build (fs.map join)) b!"Content-Type")).2 name hn us' hu'
        constructor
        · intro h; rw [valuesOf_unique h this]; exact hu'
        · intro h; rw [valuesOf_unique h hu']; exact this
      · intro vs hv
        show ValuesOf _ (flat (setHeader s.headers _ (header s.headers _))) _
        rw [g2, ← header_values b1 ((b3 _ _).2 hv)]
        exact (setHeader_values b1 _ _).1
    · intro h
      rw [r2 fun h' => h ⟨ha, h'⟩]; rfl
  · rw [(C75_head status us fs major minor cl hu hf).2 ha]
    exact ⟨fun h => absurd h.1 ha, fun _ => rfl⟩

/-- C76, the part about fragmentation: the pieces in which target, names, values and body arrive do not show
in the message, as long as no piece of the body exceeds 16 MiB. -/
theorem C76_fragmentation (status : Option Nat) (us us' : List Bytes) (fs fs' : List Pieces) (major minor : Nat) (cl : Option Nat)
    (bs bs' : List Bytes) (hu : status ≠ none → us = []) (hf : ∀ f ∈ fs, (join f).1 ≠ [] ∧ f.2 ≠ [])
    (hu' : status ≠ none → us' = []) (hf' : ∀ f ∈ fs', (join f).1 ≠ [] ∧ f.2 ≠ [])
    (e1 : us.flatten = us'.flatten) (e2 : fs.map join = fs'.map join) (e3 : bs.flatten = bs'.flatten)
    (hb : ∀ b ∈ bs ++ bs', b.length ≤ 16777216) :
    (run (init status) (messageEvents us fs major minor cl bs)).map (fun s => (s.uri, s.headers, s.body, s.version, s.contentLength)) =
    (run (init status) (messageEvents us' fs' major minor cl bs')).map (fun s => (s.uri, s.headers, s.body, s.version, s.contentLength)) := by
  have h1 : ∀ b ∈ bs, b.length ≤ 16777216 := fun b h => hb b (by simp [h])
  have h2 : ∀ b ∈ bs', b.length ≤ 16777216 := fun b h => hb b (by simp [h])
  by_cases ha : Acceptable status us.flatten (fs.map join) cl ∧ bs.flatten.length ≤ 104857600
  · obtain ⟨s, x0, x1, x2, x3, x4⟩ := head_state status us fs major minor cl hu hf ha.1
    obtain ⟨s', y0, y1, y2, y3, y4⟩ := head_state status us' fs' major minor cl hu' hf' (e1 ▸ e2 ▸ ha.1)
    obtain ⟨_, x5, _, x6⟩ := head_more status us fs major minor cl hu hf x0
    obtain ⟨_, y5, _, y6⟩ := head_more status us' fs' major minor cl hu' hf' y0
    unfold messageEvents
    rw [run_append, run_append, x0, y0]
    simp only [Option.bind_some]
    rw [run_append, run_append, (run_body s bs (by omega)).1 ⟨h1, by rw [x3]; simpa using ha.2⟩,
      (run_body s' bs' (by omega)).1 ⟨h2, by rw [y3, ← e3]; simpa using ha.2⟩]
    simp only [Option.bind_some, run, step, Option.map_some, onMessageComplete]
    rw [x1, y1, x2, y2, x4, y4, e1, e2, e3, x5, y5]
    have : s.contentLength = s'.contentLength := by
      rw [x6, y6, e2]
    rw [this]
  · rw [(C76_message status us fs major minor cl bs hu hf).2 (fun h => ha ⟨h.1, h.2.2⟩),
      (C76_message status us' fs' major minor cl bs' hu' hf').2 (fun h => ha ⟨e1 ▸ e2 ▸ h.1, e3 ▸ h.2.2⟩)]

/-- C76 is FALSE without the bound on pieces: the same body is refused in one piece and accepted in two. -/
theorem C76_false_piece (big : Bytes) (hl : big.length = 16777217) :
    run (init none) (messageEvents [b!"/"] [] 1 1 none [big]) = none ∧
    ∃ s, run (init none) (messageEvents [b!"/"] [] 1 1 none [big.take 16777216, big.drop 16777216]) = some s ∧ s.body = big := by
  have ha : Acceptable none [b!"/"].flatten (([] : List Pieces).map join) none := by
    refine ⟨by simp, by simp, by simp, Or.inl (by intro f hf; simp at hf), ?_⟩
    intro n hn
    have := hn.1 ⟨rfl, rfl, by intro f hf; simp at hf⟩
    simp at this; omega
  constructor
  · refine (C76_message none _ _ _ _ _ _ (by simp) (by simp)).2 ?_
    rintro ⟨_, h, _⟩
    have := h big (by simp)
    omega
  · obtain ⟨s, h1, _, h2, _⟩ := (C76_message none [b!"/"] [] 1 1 none [big.take 16777216, big.drop 16777216] (by simp) (by simp)).1
      ⟨ha, by intro b hb; simp at hb; rcases hb with rfl | rfl <;> simp [hl], by simp [hl]⟩
    exact ⟨s, h1, by simpa using h2⟩

def exPieces : List Pieces := [([b!"Transfer-", b!"Encoding"], [b!"chun", b!"ked"]), ([b!"x"], [b!"1"]), ([b!"X"], [b!"2"])]

/-- A concrete case for C75 and C76: a chunked POST whose parts arrive in pieces. -/
example : ∃ s, run (init none) (messageEvents [b!"/a", b!"bc"] exPieces 1 1 none [b!"he", b!"llo"]) = some s ∧ s.uri = b!"/abc" ∧ s.body = b!"hello" ∧ ValuesOf b!"X" (flat s.headers) [b!"1", b!"2"] := by
  have hc : DeclaresChunked (exPieces.map join) := by
    refine ⟨[b!"chunked"], [[b!"chunked"]], b!"chunked", ?_, .cons ?_ .nil, rfl, rfl⟩
    · exact .hit rfl (.miss (by simp [join, SameName, lower]) (.miss (by simp [join, SameName, lower]) .nil))
    · have := elements_model b!"chunked"
      simpa [splitString, splitIf, findIf, trimWs, isWs] using this
  have ha : Acceptable none [b!"/a", b!"bc"].flatten (exPieces.map join) none := by
    refine ⟨by simp, by simp [exPieces], by simp [exPieces, join], Or.inr ⟨by simp [exPieces, NoField, join, SameName, lower], hc⟩, ?_⟩
    intro n hn
    have := hn.2.1 ⟨rfl, fun h => chunked_field hc h.2⟩
    simp at this
  obtain ⟨s, h1, h2, h3, h4, _⟩ := (C76_message none [b!"/a", b!"bc"] exPieces 1 1 none [b!"he", b!"llo"] (by simp) (by simp [exPieces, join])).1
    ⟨ha, by simp, by simp⟩
  refine ⟨s, h1, h2, h3, (h4 b!"X" (by simp [SameName, lower]) _).2 ?_⟩
  exact .miss (by simp [join, SameName, lower]) (.hit (by simp [join, SameName, lower]) (.hit (by simp [join, SameName]) .nil))

/-! ## C77 -/

/-- C77, what holds: a message without trailers has under every name (but the content type) exactly the
values of its head. Missing: messages with trailers (`C77_false_trailers`). -/
theorem C77_no_trailers_partial (status : Option Nat) (us : List Bytes) (fs : List Pieces) (major minor : Nat) (cl : Option Nat)
    (bs : List Bytes) (hu : status ≠ none → us = []) (hf : ∀ f ∈ fs, (join f).1 ≠ [] ∧ f.2 ≠ []) (s : P)
    (e : run (init status) (messageEvents us fs major minor cl bs) = some s) (name : Bytes) (hn : ¬ SameName b!"Content-Type" name)
    (vs : List Bytes) : ValuesOf name (flat s.headers) vs ↔ ValuesOf name (fs.map join) vs := by
  obtain ⟨h1, h2⟩ := C76_message status us fs major minor cl bs hu hf
  by_cases ha : Acceptable status us.flatten (fs.map join) cl ∧ (∀ b ∈ bs, b.length ≤ 16777216) ∧ bs.flatten.length ≤ 104857600
  · obtain ⟨s', e', _, _, h3, _⟩ := h1 ha
    rw [e] at e'
    simp only [Option.some.injEq] at e'
    subst e'
    exact h3 name hn vs
  · rw [h2 ha] at e; simp at e

/-- The events of a trailer section between the last chunk and the end of the message. -/
def trailerMessage : List Ev :=
  headEvents [b!"/"] [([b!"Transfer-Encoding"], [b!"chunked"]), ([b!"Host"], [b!"a"])] 1 1 none ++
  [.body b!"x", .field b!"Host", .value b!"evil", .field b!"Authorization", .value b!"root", .field b!"X-Last", .value b!"1", .messageComplete]

/-- C77 (a message's header fields are those of its head) is FALSE: trailer fields that follow the body are
added to the header map, after the checks on the head have been made, all but the last. -/
theorem C77_false_trailers :
    (run (init none) trailerMessage).map (fun s => s.headers) =
      some [(b!"Transfer-Encoding", [b!"chunked"]), (b!"Host", [b!"a", b!"evil"]), (b!"Authorization", [b!"root"]), (b!"Content-Type", [[]])] := by
  simp [trailerMessage, headEvents, fieldEvents, run, step, init, onUrl, onField, onFieldKey, flush, onValue, onHeadersComplete, framingOk, find,
    transferEncoding, teTokens, splitString, splitIf, findIf, trimWs, isWs, iequals, iequalsByte, effectiveLength, onBody, onMessageComplete, setHeader, header, push,
    MAX_URL_LENGTH, MAX_HEADERS_COUNT, MAX_HEADER_NAME_LENGTH, MAX_HEADER_VALUE_LENGTH, MAX_CHUNK_SIZE, MAX_BODY_SIZE]

end Verif.Parse
