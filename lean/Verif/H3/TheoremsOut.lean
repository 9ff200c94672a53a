import Verif.H3.LemmasOut
import Verif.H3.SpecOut
import Verif.H3.TheoremsIn

/-! C156-C157: the messages that are sent, and that they arrive. -/

namespace Verif.H3
open Verif.Utility Verif.Wire Verif.Parse Verif.Mid
open Verif.Utility.Spec Verif.Wire.Spec Verif.H3.Spec
open scoped Classical

theorem values_flat (h : Headers) (hd : Distinct h) (n : Bytes) : values (flat h) n = (find h n).getD [] := by
  have h1 := values_lowerFlat h hd (fun _ => true) true n (fun _ _ => rfl)
  rw [List.filter_eq_self.2 (by simp)] at h1
  rw [if_pos rfl] at h1
  rw [← h1]
  unfold values lowerFlat flat
  clear h1 hd
  induction h with
  | nil => rfl
  | cons e h ih =>
    simp only [List.flatMap_cons, List.filter_append, List.map_append]
    rw [ih]
    congr 1
    rw [List.filter_map, List.filter_map, List.map_map, List.map_map]
    simp only [Function.comp_def, lowerName_eq, lower_idem]

theorem lowerFlat_filter (h : Headers) (p : Bytes × List Bytes → Bool) (q : Field → Bool) (hpq : ∀ e v, p e = q (e.1, v)) :
    lowerFlat (h.filter p) = ((flat h).filter q).map lowered := by
  unfold lowerFlat flat
  induction h with
  | nil => rfl
  | cons e h ih =>
    rw [List.flatMap_cons, List.filter_append, List.map_append, ← ih]
    by_cases hp : p e = true
    · rw [List.filter_cons_of_pos hp, List.flatMap_cons, List.filter_eq_self (l := e.2.map (e.1, ·)) |>.2]
      · rw [List.map_map]; congr 1
        apply List.map_congr_left
        intro v _
        simp [lowered, lowerName_eq]
      · intro f hf
        obtain ⟨v, -, rfl⟩ := List.mem_map.1 hf
        rw [← hpq]; exact hp
    · rw [List.filter_cons_of_neg hp, List.filter_eq_nil_iff (l := e.2.map (e.1, ·)) |>.2]
      · rfl
      · intro f hf
        obtain ⟨v, -, rfl⟩ := List.mem_map.1 hf
        rw [← hpq]; exact hp

theorem announced_mem (h : Headers) (hd : Distinct h) (n : Bytes) : lowerName n ∈ announced h ↔ Announced (values (flat h) b!"trailer") n := by
  rw [lowerName_eq, announced_iff, values_flat h hd]

theorem keeps_eq (h : Headers) (hd : Distinct h) : lowerFlat (h.filter (keeps (announced h))) = sectionOf (flat h) := by
  apply lowerFlat_filter
  intro e v
  have h1 : (lowerName e.1 == b!"host") = true ↔ SameName e.1 b!"host" := by
    rw [beq_iff_eq, lowerName_eq]; unfold SameName; rw [show (b!"host").map lower = b!"host" by decide]
  have h2 : (lowerName e.1 == b!"trailer") = true ↔ SameName e.1 b!"trailer" := by
    rw [beq_iff_eq, lowerName_eq]; unfold SameName; rw [show (b!"trailer").map lower = b!"trailer" by decide]
  have h3 : (announced h).contains (lowerName e.1) = true ↔ Announced (values (flat h) b!"trailer") e.1 := by
    rw [List.contains_iff_mem, announced_mem h hd]
  rw [Bool.eq_iff_iff]
  unfold keeps InSection
  simp only [Bool.and_eq_true, Bool.not_eq_true', decide_eq_true_eq, bne]
  rw [← Bool.not_eq_true, h1, Bool.and_eq_false_iff, ← h2, ← h3]
  constructor
  · rintro ⟨a, b⟩
    refine ⟨a, fun c => ?_⟩
    rcases b with b | b
    · simpa using b
    · rw [c] at b; cases b
  · rintro ⟨a, b⟩
    refine ⟨a, ?_⟩
    cases hc : (announced h).contains (lowerName e.1) with
    | false => exact .inr rfl
    | true => left; rw [b hc]; rfl

theorem trails_eq (h : Headers) (hd : Distinct h) : lowerFlat (h.filter (trails (announced h))) = trailersOf (flat h) := by
  apply lowerFlat_filter
  intro e v
  rw [Bool.eq_iff_iff]
  unfold trails
  rw [List.contains_iff_mem, announced_mem h hd, decide_eq_true_eq]

theorem mem_flat {h : Headers} (hn : NonEmptyEntries h) (P : Bytes → Prop) : (∀ e ∈ h, P e.1) ↔ ∀ f ∈ flat h, P f.1 := by
  unfold flat
  constructor
  · intro hp f hf
    obtain ⟨e, he, hf⟩ := List.mem_flatMap.1 hf
    obtain ⟨v, -, rfl⟩ := List.mem_map.1 hf
    exact hp e he
  · intro hp e he
    have := hn e he
    cases hv : e.2 with
    | nil => exact absurd hv this
    | cons v vs => exact hp (e.1, v) (List.mem_flatMap.2 ⟨e, he, by rw [hv]; simp⟩)

theorem find_isNone_iff {h : Headers} (hd : Distinct h) (hn : NonEmptyEntries h) (n : Bytes) : find h n = none ↔ values (flat h) n = [] := by
  rw [values_flat h hd]
  cases hf : find h n with
  | none => simp
  | some vs =>
    simp only [reduceCtorEq, Option.getD_some, false_iff]
    unfold find at hf
    obtain ⟨e, he, rfl⟩ := Option.map_eq_some_iff.1 hf
    exact hn e (List.mem_of_find?_eq_some he)

theorem makeTrailers_iff {h : Headers} (hd : Distinct h) (hn : NonEmptyEntries h) (ts : List Field) : makeTrailers h = some ts ↔
    ts = trailersOf (flat h) ∧ ts ≠ [] ∧ TrailerSection ts := by
  have hforb : ∀ n, isForbiddenTrailer (lowerName n) = isForbiddenTrailer n := by
    intro n
    have : lowerName (lowerName n) = lowerName n := by rw [lowerName_eq, lowerName_eq, lower_idem]
    rw [isForbiddenTrailer, isForbiddenTrailer, this]
  have hsec : ((∀ e ∈ h, trails (announced h) e = true → isForbiddenTrailer e.1 = false) ∧
      (∀ f ∈ trailersOf (flat h), Regular f) ∧ 0 + (trailersOf (flat h)).length ≤ 100) ↔ TrailerSection (trailersOf (flat h)) := by
    rw [← trailer_ok]
    have h1 : (∀ e ∈ h, trails (announced h) e = true → isForbiddenTrailer e.1 = false) ↔ ∀ f ∈ trailersOf (flat h), isForbiddenTrailer f.1 = false := by
      have := mem_flat hn fun n => (announced h).contains (lowerName n) = true → isForbiddenTrailer n = false
      unfold trails
      rw [this]
      unfold trailersOf
      simp only [List.mem_map, List.mem_filter, decide_eq_true_eq, List.contains_iff_mem, announced_mem h hd]
      constructor
      · rintro hp f ⟨g, ⟨hg, ha⟩, rfl⟩
        rw [show (lowered g).1 = lowerName g.1 by simp [lowered, lowerName_eq], hforb]
        exact hp g hg ha
      · intro hp g hg ha
        have := hp _ ⟨g, ⟨hg, ha⟩, rfl⟩
        rwa [show (lowered g).1 = lowerName g.1 by simp [lowered, lowerName_eq], hforb] at this
    rw [h1, Nat.zero_add]
    constructor
    · rintro ⟨a, b, c⟩
      exact ⟨c, fun f hf => (validIncoming_iff f).2 (regular_incoming (b f hf)), a⟩
    · rintro ⟨a, b, c⟩
      have := (trailer_ok _).1 ⟨a, b, c⟩
      exact ⟨c, fun f hf => (this.1 f hf).1, a⟩
  have hloop := trailerLoop_iff (announced h) h 0 []
  simp only [trails_eq h hd, hsec, List.nil_append] at hloop
  unfold makeTrailers
  by_cases ha : (announced h).isEmpty = true
  · rw [if_pos ha]
    refine ⟨fun h => (by cases h), ?_⟩
    rintro ⟨rfl, h1, -⟩
    exfalso; apply h1
    rw [← trails_eq h hd]
    have : h.filter (trails (announced h)) = [] := by
      rw [List.filter_eq_nil_iff]
      intro e _
      unfold trails
      rw [List.isEmpty_iff.1 ha]; simp
    rw [this]; rfl
  · rw [if_neg ha]
    cases hx : trailerLoop (announced h) h 0 [] with
    | none =>
      refine ⟨fun h => (by cases h), ?_⟩
      rintro ⟨rfl, -, h2⟩
      rw [(hloop _ (by omega)).2 ⟨h2, rfl⟩] at hx
      cases hx
    | some y =>
      obtain ⟨h1, rfl⟩ := (hloop y (by omega)).1 hx
      simp only
      by_cases he : (trailersOf (flat h)).isEmpty = true
      · rw [if_pos he]
        refine ⟨fun h => (by cases h), ?_⟩
        rintro ⟨rfl, h2, -⟩
        exact absurd (List.isEmpty_iff.1 he) h2
      · rw [if_neg he, Option.some.injEq]
        constructor
        · rintro rfl
          exact ⟨rfl, fun h => he (List.isEmpty_iff.2 h), h1⟩
        · rintro ⟨rfl, -⟩; rfl

theorem makeFields_iff {h : Headers} (hd : Distinct h) (hn : NonEmptyEntries h) (body : Bytes) (n : Nat) (pseudo block : List Field) (h0 : n ≤ 100) :
    (∃ x, addRegular (announced h) h n pseudo = some x ∧ addLength h body x.1 x.2 = some block) ↔
    (∀ f ∈ flat h, f.1 ≠ [] ∧ ¬ Pseudo f.1 ∧ ¬ ConnectionField f.1) ∧ (∀ f ∈ sectionOf (flat h), Regular f) ∧
      n + (sectionOf (flat h)).length + (lengthField (flat h) body []).length ≤ 100 ∧
      block = pseudo ++ sectionOf (flat h) ++ lengthField (flat h) body (Date.decNat body.length) := by
  have hreg := fun x => addRegular_iff (announced h) h n pseudo x h0
  simp only [keeps_eq h hd, mem_flat hn fun n => n ≠ [] ∧ ¬ Pseudo n ∧ ¬ ConnectionField n] at hreg
  have hadd : ∀ m b, m ≤ 100 → (addLength h body m b = some block ↔ m + (lengthField (flat h) body []).length ≤ 100 ∧
      block = b ++ lengthField (flat h) body (Date.decNat body.length)) := by
    intro m b hm
    unfold addLength lengthField
    have hc : (!body.isEmpty && (find h b!"content-length").isNone) = true ↔ body ≠ [] ∧ values (flat h) b!"content-length" = [] := by
      rw [← find_isNone_iff hd hn, Bool.and_eq_true, Bool.not_eq_true', ← Bool.not_eq_true, List.isEmpty_iff, Option.isNone_iff_eq_none]
    by_cases hcc : body ≠ [] ∧ values (flat h) b!"content-length" = []
    · rw [if_pos (hc.2 hcc), if_pos hcc, if_pos hcc]
      unfold maxFields
      by_cases hm : m + 1 > 100
      · rw [if_pos hm]
        simp only [reduceCtorEq, List.length_singleton, false_iff, not_and]
        omega
      · rw [if_neg hm, Option.some.injEq]
        simp only [List.length_singleton]
        exact ⟨fun h => ⟨by omega, h.symm⟩, fun h => h.2.symm⟩
    · rw [if_neg (fun h => hcc (hc.1 h)), if_neg hcc, if_neg hcc, Option.some.injEq]
      simp only [List.length_nil, Nat.add_zero, List.append_nil]
      exact ⟨fun h => ⟨hm, h.symm⟩, fun h => h.2.symm⟩
  constructor
  · rintro ⟨x, h1, h2⟩
    obtain ⟨⟨a, b, c⟩, rfl⟩ := (hreg x).1 h1
    obtain ⟨d, e⟩ := (hadd _ _ c).1 h2
    exact ⟨a, b, d, e⟩
  · rintro ⟨a, b, c, d⟩
    exact ⟨_, (hreg _).2 ⟨⟨a, b, by omega⟩, rfl⟩, (hadd _ _ (by simp only; omega)).2 ⟨c, d⟩⟩

theorem declared_iff {h : Headers} (hd : Distinct h) (hn : NonEmptyEntries h) (n : Nat) :
    (∃ d, declaredLength h = some d ∧ (d = none ∨ d = some n)) ↔ SaysLength (flat h) n := by
  unfold declaredLength SaysLength
  rw [values_flat h hd]
  cases hf : find h b!"content-length" with
  | none => simp
  | some vs =>
    simp only [Option.getD_some]
    have hne : vs ≠ [] := by
      intro e
      have := (find_isNone_iff hd hn b!"content-length").2 (by rw [values_flat h hd, hf]; exact e)
      rw [hf] at this; cases this
    constructor
    · rintro ⟨d, h1, h2⟩ v hv
      rcases (lengthLoop_iff _ _ _).1 h1 with ⟨h3, -⟩ | ⟨-, m, rfl, -, h3⟩
      · exact absurd h3 hne
      · rcases h2 with h2 | h2 <;> cases h2
        exact (parseLength_iff v n).1 (h3 v hv)
    · intro hv
      exact ⟨some n, (lengthLoop_iff _ _ _).2 (.inr ⟨hne, n, rfl, .inl rfl, fun v h => (parseLength_iff v n).2 (hv v h)⟩), .inr rfl⟩

theorem agree_declared {h : Headers} (hd : Distinct h) (hn : NonEmptyEntries h) : (∃ d, declaredLength h = some d) ↔ Agree (flat h) := by
  constructor
  · rintro ⟨d, hdl⟩
    cases d with
    | none => exact ⟨0, (declared_iff hd hn 0).1 ⟨none, hdl, .inl rfl⟩⟩
    | some n => exact ⟨n, (declared_iff hd hn n).1 ⟨some n, hdl, .inr rfl⟩⟩
  · rintro ⟨n, hs⟩
    obtain ⟨d, h1, -⟩ := (declared_iff hd hn n).2 hs
    exact ⟨d, h1⟩

theorem submitWith_iff {h : Headers} (hd : Distinct h) (hn : NonEmptyEntries h) (block : Option (List Field)) (body : Bytes) (s : Sent) :
    submitWith block h body = (true, some s) ↔ ∃ b, block = some b ∧
      (values (flat h) b!"trailer" = [] ∧ s = ⟨b, body, none⟩ ∨
        trailersOf (flat h) ≠ [] ∧ TrailerSection (trailersOf (flat h)) ∧ s = ⟨b, body, some (trailersOf (flat h))⟩) := by
  have hempty : values (flat h) b!"trailer" = [] → trailersOf (flat h) = [] := by
    intro e
    unfold trailersOf
    rw [e, List.filter_eq_nil_iff.2]
    · rfl
    · intro f _
      simp [Announced]
  have hmk := makeTrailers_iff hd hn
  cases block with
  | none => simp [submitWith]
  | some b =>
    simp only [submitWith, Option.some.injEq, exists_eq_left']
    cases hm : makeTrailers h with
    | some ts =>
      obtain ⟨rfl, h1, h2⟩ := (hmk ts).1 hm
      simp only [Prod.mk.injEq, true_and, Option.some.injEq]
      constructor
      · rintro rfl; exact .inr ⟨h1, h2, rfl⟩
      · rintro (⟨e, -⟩ | ⟨-, -, rfl⟩)
        · exact absurd (hempty e) h1
        · rfl
    | none =>
      simp only [Prod.mk.injEq, Option.some.injEq, Option.isNone_iff_eq_none, find_isNone_iff hd hn]
      constructor
      · rintro ⟨e, rfl⟩; exact .inl ⟨e, rfl⟩
      · rintro (⟨e, rfl⟩ | ⟨h1, h2, -⟩)
        · exact ⟨e, rfl⟩
        · rw [(hmk _).2 ⟨rfl, h1, h2⟩] at hm; cases hm

/-- What a message with these lines is: the section of fields, the body and the trailers. -/
noncomputable def wanted (pseudo lines : List Field) (body : Bytes) : Sent :=
  ⟨pseudo ++ sectionOf lines ++ lengthField lines body (Date.decNat body.length), body,
    if values lines b!"trailer" = [] then none else some (trailersOf lines)⟩

theorem submit_lines {h : Headers} (hd : Distinct h) (hn : NonEmptyEntries h) (body : Bytes) (n : Nat) (pseudo : List Field) (h0 : n ≤ 100) (mk : Option (List Field))
    (hmk : ∀ b, mk = some b ↔ ∃ x, addRegular (announced h) h n pseudo = some x ∧ addLength h body x.1 x.2 = some b) (s : Sent) :
    submitWith mk h body = (true, some s) ↔ Sendable n (flat h) body ∧ s = wanted pseudo (flat h) body := by
  have hempty : values (flat h) b!"trailer" = [] → trailersOf (flat h) = [] := by
    intro e
    unfold trailersOf
    rw [e, List.filter_eq_nil_iff.2]
    · rfl
    · intro f _
      simp [Announced]
  rw [submitWith_iff hd hn]
  simp only [hmk, makeFields_iff hd hn body n pseudo _ h0]
  unfold Sendable wanted
  constructor
  · rintro ⟨b, ⟨h1, h2, h3, rfl⟩, (⟨e, rfl⟩ | ⟨e1, e2, rfl⟩)⟩
    · exact ⟨⟨h1, h2, h3, .inl e⟩, by rw [if_pos e]⟩
    · exact ⟨⟨h1, h2, h3, .inr ⟨e1, e2⟩⟩, by rw [if_neg (fun e => e1 (hempty e))]⟩
  · rintro ⟨⟨h1, h2, h3, h4⟩, rfl⟩
    refine ⟨_, ⟨h1, h2, h3, rfl⟩, ?_⟩
    by_cases e : values (flat h) b!"trailer" = []
    · exact .inl ⟨e, by rw [if_pos e]⟩
    · rw [if_neg e]
      rcases h4 with h4 | h4
      · exact absurd h4 e
      · exact .inr ⟨h4.1, h4.2, rfl⟩

theorem authority_eq (h p : Bytes) : authority h p = hostPort h p := by
  unfold authority hostPort; cases p <;> simp

theorem target_eq (p q : Bytes) : target p q = pathQuery p q := by
  unfold target pathQuery; cases p <;> cases q <;> simp

/-- C156. A request is sent just if its target has at most 8192 bytes, its content lengths say the size of the body, and its
lines can be sent; and what is sent is: the four pseudo header fields, the lines other than `Host` and those `Trailer`
announces with lower case names, a content length if there is a body and none was given, the body, and the
announced lines as trailers. -/
theorem C156_request_sent (r : OutReq) (hd : Distinct r.headers) (hn : NonEmptyEntries r.headers) (s : Sent) :
    submitRequest r = (true, some s) ↔ (pathQuery r.path r.query).length ≤ 8192 ∧ SaysLength (flat r.headers) r.body.length ∧
      Sendable 4 (flat r.headers) r.body ∧ s = wanted (requestPseudo r) (flat r.headers) r.body := by
  unfold submitRequest
  by_cases h1 : (pathQuery r.path r.query).length ≤ 8192 ∧ SaysLength (flat r.headers) r.body.length
  · obtain ⟨d, hdl, hdd⟩ := (declared_iff hd hn _).2 h1.2
    rw [submit_lines hd hn r.body 4 (requestPseudo r) (by omega) _ ?_ s]
    · simp only [h1, true_and]
    · intro b
      unfold makeRequest maxUrl
      rw [target_eq, if_neg (by omega), hdl]
      simp only
      rw [if_neg (by rcases hdd with rfl | rfl <;> simp)]
      cases hx : addRegular (announced r.headers) r.headers 4 (requestPseudo r) with
      | none => simp
      | some x => obtain ⟨n, bl⟩ := x; simp
  · have : makeRequest r = none := by
      unfold makeRequest maxUrl
      rw [target_eq]
      by_cases h2 : (pathQuery r.path r.query).length > 8192
      · rw [if_pos h2]
      · rw [if_neg h2]
        cases hdl : declaredLength r.headers with
        | none => rfl
        | some d =>
          simp only
          rw [if_pos]
          cases d with
          | none => exact absurd ⟨by omega, (declared_iff hd hn _).1 ⟨none, hdl, .inl rfl⟩⟩ h1
          | some n =>
            simp only [Option.isSome_some, Bool.true_and, bne_iff_ne, ne_eq]
            intro e
            exact h1 ⟨by omega, (declared_iff hd hn _).1 ⟨_, hdl, .inr e⟩⟩
    rw [this]
    simp only [submitWith, Prod.mk.injEq, Bool.false_eq_true, reduceCtorEq, and_self, false_iff]
    exact fun h => h1 ⟨h.1, h.2.1⟩

/-- C156. A response is sent just if its content lengths agree, and say the size of the body unless the request was a HEAD or the
status has no content, and its lines can be sent; and what is sent is as for a request, after the status. -/
theorem C156_response_sent (status : Nat) (h : Headers) (body : Bytes) (head : Bool) (hd : Distinct h) (hn : NonEmptyEntries h) (s : Sent) :
    submitResponse status h body head = (true, some s) ↔ Agree (flat h) ∧ (head = true ∨ NoContent status ∨ SaysLength (flat h) body.length) ∧
      Sendable 1 (flat h) body ∧ s = wanted [(b!":status", Date.decNat status)] (flat h) body := by
  unfold submitResponse
  have hmm : mustMatch status head = true ↔ ¬ (head = true ∨ NoContent status) := by
    unfold mustMatch NoContent
    cases head with
    | true => simp
    | false => simp; omega
  cases hdl : declaredLength h with
  | none =>
    simp only [Prod.mk.injEq, Bool.false_eq_true, reduceCtorEq, and_self, false_iff]
    intro h1
    obtain ⟨d, h2⟩ := (agree_declared hd hn).2 h1.1
    rw [hdl] at h2; cases h2
  | some d =>
    have hag : Agree (flat h) := (agree_declared hd hn).1 ⟨d, hdl⟩
    have hsay : SaysLength (flat h) body.length ↔ (d = none ∨ d = some body.length) := by
      rw [← declared_iff hd hn, hdl]
      simp
    simp only
    by_cases hc : (d.isSome && mustMatch status head && d != some body.length) = true
    · rw [if_pos hc]
      simp only [Prod.mk.injEq, Bool.false_eq_true, reduceCtorEq, and_self, false_iff]
      rintro ⟨-, h1, -⟩
      simp only [Bool.and_eq_true, bne_iff_ne, ne_eq, hmm] at hc
      rw [hsay] at h1
      rcases h1 with h1 | h1 | h1 | h1
      · exact hc.1.2 (.inl h1)
      · exact hc.1.2 (.inr h1)
      · rw [h1] at hc; simp at hc
      · exact hc.2 h1
    · rw [if_neg hc, submit_lines hd hn body 1 [(b!":status", Date.decNat status)] (by omega) _ ?_ s]
      · have : head = true ∨ NoContent status ∨ SaysLength (flat h) body.length := by
          rw [hsay, ← or_assoc]
          by_cases hh : head = true ∨ NoContent status
          · exact .inl hh
          · right
            simp only [Bool.and_eq_true, bne_iff_ne, ne_eq, hmm, hh, not_false_eq_true, and_true, not_and, Decidable.not_not] at hc
            cases d with
            | none => exact .inl rfl
            | some n => exact .inr (hc rfl)
        simp only [hag, this, true_and]
      · intro b
        unfold makeResponse
        cases hx : addRegular (announced h) h 1 [(b!":status", Date.decNat status)] with
        | none => simp
        | some x => obtain ⟨n, bl⟩ := x; simp

/-! ### What is sent is well formed, and arrives -/

theorem announced_same {tr : List Bytes} {n m : Bytes} (h : SameName n m) (ha : Announced tr n) : Announced tr m := by
  obtain ⟨v, hv, ts, hts, t, ht, e⟩ := ha
  exact ⟨v, hv, ts, hts, t, ht, e.trans h⟩

theorem values_append (a b : List Field) (n : Bytes) : values (a ++ b) n = values a n ++ values b n := by simp [values]

theorem values_filter (P : Bytes → Prop) (hP : ∀ a b, SameName a b → (P a ↔ P b)) (q : Field → Bool) (hq : ∀ f, q f = true ↔ P f.1) (lines : List Field) (n : Bytes) :
    (P n → values ((lines.filter q).map lowered) n = values lines n) ∧ (¬ P n → values ((lines.filter q).map lowered) n = []) := by
  induction lines with
  | nil => exact ⟨fun _ => rfl, fun _ => rfl⟩
  | cons f lines ih =>
    have low : (lowered f).1.map lower = f.1.map lower := by simp only [lowered, lower_idem]
    have hv : ∀ (g : Field) (l : List Field), values (g :: l) n = if g.1.map lower = n.map lower then g.2 :: values l n else values l n := by
      intro g l
      unfold values
      by_cases h : g.1.map lower = n.map lower
      · rw [List.filter_cons_of_pos (by simpa using h), if_pos h]; rfl
      · rw [List.filter_cons_of_neg (by simpa using h), if_neg h]
    by_cases hp : q f = true
    · rw [List.filter_cons_of_pos hp, List.map_cons, hv, hv, low]
      by_cases hs : f.1.map lower = n.map lower
      · rw [if_pos hs, if_pos hs]
        have := (hP _ _ hs).1 ((hq f).1 hp)
        exact ⟨fun h => (by rw [ih.1 h]; rfl), fun h => absurd this h⟩
      · rw [if_neg hs, if_neg hs]; exact ih
    · rw [List.filter_cons_of_neg hp, hv]
      by_cases hs : f.1.map lower = n.map lower
      · have : ¬ P n := fun h => hp ((hq f).2 ((hP _ _ hs).2 h))
        exact ⟨fun h => absurd h this, ih.2⟩
      · rw [if_neg hs]; exact ih

theorem values_section (lines : List Field) (n : Bytes) :
    (¬ SameName n b!"host" ∧ (Announced (values lines b!"trailer") n → SameName n b!"trailer") → values (sectionOf lines) n = values lines n) ∧
    (¬ (¬ SameName n b!"host" ∧ (Announced (values lines b!"trailer") n → SameName n b!"trailer")) → values (sectionOf lines) n = []) := by
  refine values_filter (fun n => ¬ SameName n b!"host" ∧ (Announced (values lines b!"trailer") n → SameName n b!"trailer")) ?_ _
    (fun f => by rw [decide_eq_true_eq]; rfl) lines n
  intro a b h
  have h1 : ∀ m, SameName a m ↔ SameName b m := fun m => ⟨fun e => h.symm.trans e, fun e => h.trans e⟩
  have h2 : Announced (values lines b!"trailer") a ↔ Announced (values lines b!"trailer") b := ⟨announced_same h, announced_same h.symm⟩
  simp only [h1, h2]

theorem values_trailers (lines : List Field) (n : Bytes) :
    (Announced (values lines b!"trailer") n → values (trailersOf lines) n = values lines n) ∧
    (¬ Announced (values lines b!"trailer") n → values (trailersOf lines) n = []) :=
  values_filter (Announced (values lines b!"trailer")) (fun _ _ h => ⟨announced_same h, announced_same h.symm⟩) _
    (fun f => by rw [decide_eq_true_eq]) lines n

theorem decNat_length (n k : Nat) (hk : 1 ≤ k) (h : n < 10 ^ k) : (Date.decNat n).length ≤ k := by
  induction k generalizing n with
  | zero => omega
  | succ k ih =>
    rw [Date.decNat]
    split
    · simp
    · next hn =>
      have hk1 : 1 ≤ k := by
        cases k with
        | zero => simp at h; omega
        | succ => omega
      have := ih (n / 10) hk1 (by rw [Nat.pow_succ] at h; omega)
      simp only [List.length_append, List.length_singleton]
      omega

theorem decNat_value (n : Nat) (h : n < 2 ^ 64) : Value (Date.decNat n) :=
  ⟨decNat_fieldValue n, by have := decNat_length n 20 (by omega) (by omega); omega⟩

/-- The regular fields that are sent. -/
noncomputable def regularOf (lines : List Field) (body : Bytes) : List Field := sectionOf lines ++ lengthField lines body (Date.decNat body.length)

theorem lengthField_mem {lines : List Field} {body w : Bytes} {f : Field} (h : f ∈ lengthField lines body w) : f = (b!"content-length", w) := by
  unfold lengthField at h
  split at h
  · simpa using h
  · cases h

theorem lengthField_length (lines : List Field) (body w : Bytes) : (lengthField lines body w).length = (lengthField lines body []).length := by
  unfold lengthField; split <;> rfl

theorem regularOf_ok {n : Nat} {lines : List Field} {body : Bytes} (hb : body.length < 2 ^ 64) (hs : Sendable n lines body) :
    (∀ f ∈ regularOf lines body, Regular f ∧ ¬ ConnectionField f.1) ∧ n + (regularOf lines body).length ≤ 100 := by
  obtain ⟨h1, h2, h3, -⟩ := hs
  unfold regularOf
  constructor
  · intro f hf
    rcases List.mem_append.1 hf with hf | hf
    · refine ⟨h2 f hf, ?_⟩
      unfold sectionOf at hf
      obtain ⟨g, hg, rfl⟩ := List.mem_map.1 hf
      have := (h1 g (List.mem_filter.1 hg).1).2.2
      rintro ⟨m, hm, e⟩
      exact this ⟨m, hm, by unfold SameName at e ⊢; rw [← e]; exact (lower_idem g.1).symm⟩
    · rw [lengthField_mem hf]
      have hlt : LowerToken b!"content-length" := ⟨by simp, by decide⟩
      have hcf : ¬ ConnectionField b!"content-length" := by rw [← isForbidden_iff]; decide +kernel
      exact ⟨⟨hlt, (by decide : (b!"content-length").length ≤ 1024), decNat_value _ hb⟩, hcf⟩
  · rw [List.length_append, lengthField_length]; omega

theorem values_length (lines : List Field) (body : Bytes) (n : Bytes) (hn : ¬ SameName n b!"content-length") (w : Bytes) : values (lengthField lines body w) n = [] := by
  unfold lengthField
  split
  · unfold values
    rw [List.filter_cons_of_neg]
    · rfl
    · simp only [decide_eq_true_eq]; exact fun e => hn e.symm
  · rfl

theorem says_regular {lines : List Field} {body : Bytes} (hb : body.length < 2 ^ 64) : SaysLength lines body.length → SaysLength (regularOf lines body) body.length := by
  intro h v hv
  unfold regularOf at hv
  rw [values_append] at hv
  rcases List.mem_append.1 hv with hv | hv
  · have hvs := values_section lines b!"content-length"
    by_cases hc : ¬ SameName b!"content-length" b!"host" ∧ (Announced (values lines b!"trailer") b!"content-length" → SameName b!"content-length" b!"trailer")
    · rw [hvs.1 hc] at hv; exact h v hv
    · rw [hvs.2 hc] at hv; cases hv
  · unfold values at hv
    obtain ⟨f, hf, rfl⟩ := List.mem_map.1 hv
    rw [lengthField_mem (List.mem_filter.1 hf).1]
    exact ⟨decNat_decimal _, hb⟩

theorem agree_regular {lines : List Field} {body : Bytes} (hb : body.length < 2 ^ 64) (h : Agree lines) : Agree (regularOf lines body) := by
  by_cases he : values lines b!"content-length" = []
  · exact ⟨_, says_regular hb fun v hv => by rw [he] at hv; cases hv⟩
  · obtain ⟨n, hn⟩ := h
    refine ⟨n, fun v hv => ?_⟩
    unfold regularOf at hv
    rw [values_append] at hv
    have : lengthField lines body (Date.decNat body.length) = [] := by unfold lengthField; rw [if_neg (fun h => he h.2)]
    rw [this, show values [] b!"content-length" = [] from rfl, List.append_nil] at hv
    have hvs := values_section lines b!"content-length"
    by_cases hc : ¬ SameName b!"content-length" b!"host" ∧ (Announced (values lines b!"trailer") b!"content-length" → SameName b!"content-length" b!"trailer")
    · rw [hvs.1 hc] at hv; exact hn v hv
    · rw [hvs.2 hc] at hv; cases hv

/-- What arrives of the lines that are sent: all of them, but for `Host` if it is not announced. -/
theorem arrives {k : Nat} {lines : List Field} {body : Bytes} (hs : Sendable k lines body) (n : Bytes) (hc : ¬ SameName n b!"content-length")
    (hh : ¬ SameName n b!"host") :
    values (regularOf lines body ++ (if values lines b!"trailer" = [] then none else some (trailersOf lines)).getD []) n = values lines n := by
  rw [values_append, regularOf, values_append, values_length lines body n hc, List.append_nil]
  have hempty : ∀ m, values lines b!"trailer" = [] → ¬ Announced (values lines b!"trailer") m := by
    intro m e ha
    obtain ⟨v, hv, -⟩ := ha
    rw [e] at hv; cases hv
  have ht : values ((if values lines b!"trailer" = [] then none else some (trailersOf lines)).getD []) n = values (trailersOf lines) n := by
    by_cases e : values lines b!"trailer" = []
    · rw [if_pos e, (values_trailers lines n).2 (hempty n e)]; rfl
    · rw [if_neg e]; rfl
  rw [ht]
  have hsec := values_section lines n
  have htr := values_trailers lines n
  by_cases ha : Announced (values lines b!"trailer") n
  · by_cases hst : SameName n b!"trailer"
    · rw [hsec.1 ⟨hh, fun _ => hst⟩]
      have : values (trailersOf lines) n = [] := by
        rcases hs.2.2.2 with h | h
        · exact absurd ha (hempty n h)
        · unfold values
          rw [List.filter_eq_nil_iff.2]
          · rfl
          · intro f hf
            simp only [decide_eq_true_eq]
            intro e
            exact (h.2.1 f hf).2.2.2 (Eq.trans e hst)
      rw [this, List.append_nil]
    · rw [hsec.2 (fun h => hst (h.2 ha)), htr.1 ha]; rfl
  · rw [hsec.1 ⟨hh, fun h => absurd h ha⟩, htr.2 ha, List.append_nil]

/-- The address of a request. -/
def addressOf (r : OutReq) : Bytes := (if r.scheme = [] then b!"https" else r.scheme) ++ b!"://" ++ hostPort r.host r.port ++ pathQuery r.path r.query

/-- The pseudo header fields of a request can be sent: a method, an authority, and no control characters. -/
def CleanPseudo (r : OutReq) : Prop := r.method ≠ [] ∧ hostPort r.host r.port ≠ [] ∧ Value r.method ∧ Value r.scheme ∧ Value (hostPort r.host r.port) ∧
  Value (pathQuery r.path r.query)

theorem request_section {r : OutReq} (hb : r.body.length < 2 ^ 64) (hs : Sendable 4 (flat r.headers) r.body) (hp : CleanPseudo r) :
    RequestSection (wanted (requestPseudo r) (flat r.headers) r.body).fields r.method (if r.scheme = [] then b!"https" else r.scheme)
      (hostPort r.host r.port) (pathQuery r.path r.query) (regularOf (flat r.headers) r.body) := by
  obtain ⟨p1, p2, p3, p4, p5, p6⟩ := hp
  obtain ⟨k1, k2⟩ := regularOf_ok hb hs
  have hsch : (if r.scheme.isEmpty = true then b!"https" else r.scheme) = if r.scheme = [] then b!"https" else r.scheme := by simp
  have hval : Value (if r.scheme = [] then b!"https" else r.scheme) := by
    split
    · exact ⟨by unfold FieldValue; decide, by decide⟩
    · exact p4
  refine ⟨requestPseudo r, ?_, ?_, p1, ?_, p2, ?_, k1, ?_, ?_⟩
  · unfold wanted regularOf; rw [List.append_assoc]
  · unfold requestPseudo; rw [hsch, authority_eq, target_eq]
  · split
    · simp
    · assumption
  · unfold pathQuery
    by_cases hpe : r.path = []
    · simp [hpe]
    · simp [hpe]
  · intro f hf
    unfold requestPseudo at hf
    rw [hsch, authority_eq, target_eq] at hf
    simp only [List.mem_cons, List.not_mem_nil, or_false] at hf
    rcases hf with rfl | rfl | rfl | rfl
    · exact p3
    · exact hval
    · exact p5
    · exact p6
  · unfold wanted; rw [List.append_assoc, List.length_append]; unfold regularOf at k2; simp only [requestPseudo, List.length_cons, List.length_nil]; omega

/-- C156. The section of fields of a request that is sent is well formed: the pseudo header fields first, then regular fields
with lower case names, no field that concerns the connection, at most 100; every content length is the size of the
body. (The pseudo header fields have to be clean: the code does not look at them, see `C156_dirty_path_partial`.) -/
theorem C156_request_wellformed (r : OutReq) (hd : Distinct r.headers) (hn : NonEmptyEntries r.headers) (hb : r.body.length < 2 ^ 64) (s : Sent)
    (h : submitRequest r = (true, some s)) (hp : CleanPseudo r) :
    ∃ regular, RequestSection s.fields r.method (if r.scheme = [] then b!"https" else r.scheme) (hostPort r.host r.port) (pathQuery r.path r.query) regular ∧
      SaysLength regular r.body.length ∧ (r.body ≠ [] → values regular b!"content-length" ≠ []) ∧ ∀ t, s.trailers = some t → TrailerSection t := by
  obtain ⟨h1, h2, h3, rfl⟩ := (C156_request_sent r hd hn s).1 h
  refine ⟨_, request_section hb h3 hp, says_regular hb h2, ?_, ?_⟩
  · intro hne
    unfold regularOf
    rw [values_append]
    by_cases he : values (flat r.headers) b!"content-length" = []
    · unfold lengthField
      rw [if_pos ⟨hne, he⟩]
      intro e
      have := (List.append_eq_nil_iff.1 e).2
      unfold values at this
      rw [List.filter_cons_of_pos (by simp)] at this
      cases this
    · rw [(values_section _ _).1]
      · intro e; exact he (List.append_eq_nil_iff.1 e).1
      · refine ⟨by unfold SameName; decide, fun ha => ?_⟩
        exfalso
        rcases h3.2.2.2 with h4 | h4
        · obtain ⟨v, hv, -⟩ := ha; rw [h4] at hv; cases hv
        · apply he
          rw [← (values_trailers _ _).1 ha]
          unfold values
          rw [List.filter_eq_nil_iff.2]
          · rfl
          · intro f hf
            simp only [decide_eq_true_eq]
            intro e
            exact (h4.2.1 f hf).2.2.1 e
  · intro t ht
    simp only [wanted] at ht
    split at ht
    · cases ht
    · cases ht
      rcases h3.2.2.2 with h4 | h4
      · contradiction
      · exact h4.2

/-- C157. A request that is sent arrives: a server that gets the fields, the body in any pieces and the trailers delivers
a request with the same method, address and body, and the same values of every header but `Host` and `Content-Length`. -/
theorem C157_request_arrives (methodOf : Bytes → Option Nat) (headMethod limit M : Nat) (r : OutReq) (hd : Distinct r.headers) (hn : NonEmptyEntries r.headers)
    (hb : r.body.length < 2 ^ 64) (s : Sent) (h : submitRequest r = (true, some s)) (hp : CleanPseudo r) (hM : methodOf r.method = some M)
    (hl : limit = 0 ∨ r.body.length ≤ limit) (ds : List Bytes) (hds : ds.flatten = s.body) :
    ∃ st, Setup.run ⟨methodOf, headMethod, .server, limit⟩ {} (messageEvents [s.fields] ds s.trailers) = .deliver st ∧
      st.method = some M ∧ st.uri = addressOf r ∧ st.body = r.body ∧
      ∀ n, ¬ SameName n b!"host" → ¬ SameName n b!"content-length" → (find st.headers n).getD [] = (find r.headers n).getD [] := by
  obtain ⟨h1, h2, h3, rfl⟩ := (C156_request_sent r hd hn s).1 h
  obtain ⟨regular, w1, w2, -, w4⟩ := C156_request_wellformed r hd hn hb _ h hp
  have hbody : ds.flatten = r.body := hds
  obtain ⟨st, hst⟩ := (C154_request_delivered methodOf headMethod limit _ ds _).2
    ⟨_, _, _, _, regular, w1, ⟨M, hM⟩, by rw [hbody]; exact w2, by rw [hbody]; exact hl, w4⟩
  obtain ⟨⟨M', e1, e2⟩, e3, e4, e5⟩ := C154_request_content methodOf headMethod limit _ ds _ _ _ _ _ _ st (request_section hb h3 hp) hst
  refine ⟨st, hst, ?_, e3, e4.trans hbody, fun n n1 n2 => ?_⟩
  · rw [e2, ← e1, hM]
  · rw [e5, ← values_flat r.headers hd]
    exact arrives h3 n n2 n1

/-- C157. A response that is sent arrives: a client that has sent a request with the method `M` and gets the fields, the body in
any pieces and the trailers delivers a response with the same status, the same body (none for a HEAD), and the same
values of every header but `Host` and `Content-Length`. -/
theorem C157_response_arrives (methodOf : Bytes → Option Nat) (headMethod limit M status : Nat) (h : Headers) (body : Bytes) (hd : Distinct h) (hn : NonEmptyEntries h)
    (hb : body.length < 2 ^ 64) (h1 : 100 ≤ status) (h2 : status ≤ 999) (s : Sent)
    (hs : submitResponse status h body (M == headMethod) = (true, some s))
    (hl : limit = 0 ∨ body.length ≤ limit) (ds : List Bytes) (hds : ds.flatten = s.body) :
    ∃ st, Setup.run ⟨methodOf, headMethod, .client, limit⟩ { method := some M } (messageEvents [s.fields] ds s.trailers) = .deliver st ∧
      st.status = status ∧ st.body = (if M = headMethod then [] else body) ∧
      ∀ n, ¬ SameName n b!"host" → ¬ SameName n b!"content-length" → (find st.headers n).getD [] = (find h n).getD [] := by
  obtain ⟨g1, g2, g3, rfl⟩ := (C156_response_sent status h body _ hd hn s).1 hs
  have hbody : ds.flatten = body := hds
  obtain ⟨k1, k2⟩ := regularOf_ok hb g3
  have hsec : ResponseSection (wanted [(b!":status", Date.decNat status)] (flat h) body).fields status (regularOf (flat h) body) := by
    refine ⟨Date.decNat status, ?_, decNat_decimal _, h1, h2, decNat_value _ (by omega), k1, ?_⟩
    · unfold wanted regularOf; simp
    · unfold wanted; rw [List.append_assoc, List.length_append]; unfold regularOf at k2; simp only [List.length_cons, List.length_nil]; omega
  have hts : ∀ t, (wanted [(b!":status", Date.decNat status)] (flat h) body).trailers = some t → TrailerSection t := by
    intro t ht
    simp only [wanted] at ht
    split at ht
    · cases ht
    · cases ht
      rcases g3.2.2.2 with h4 | h4
      · contradiction
      · exact h4.2
  have hin : Within limit (M == headMethod) ds := by
    rcases hl with hl | hl
    · exact .inl hl
    · right
      split
      · intro d hd
        have : d.length ≤ ds.flatten.length := List.Sublist.length_le (List.sublist_flatten_of_mem hd)
        rw [hbody] at this; omega
      · rw [hbody]; exact hl
  obtain ⟨st, hst⟩ := (C155_response_delivered methodOf headMethod limit M _ ds _).2
    ⟨status, _, hsec, agree_regular hb g1, by
      rw [hbody]
      rcases g2 with g2 | g2 | g2
      · exact .inl (by simpa using g2)
      · exact .inr (.inl g2)
      · exact .inr (.inr (says_regular hb g2)), hin, hts⟩
  obtain ⟨e1, e2, e3⟩ := C155_response_content_partial methodOf headMethod limit M [] [] _ ds _ status _ st .nil hsec hst
  refine ⟨st, hst, e1, by rw [e2, hbody], fun n n1 n2 => ?_⟩
  rw [e3, ← values_flat h hd]
  exact arrives g3 n n2 n1

/-! ### Examples, and what the code gets wrong -/

/-- A request with a body, an announced trailer and `Host`. -/
def demoReq : OutReq := ⟨b!"POST", [], b!"a.b", b!"44", [], b!"y=1", [(b!"Host", [b!"a.b"]), (b!"X-A", [b!"1", b!"2"]), (b!"Trailer", [b!"X-Sum"]), (b!"X-Sum", [b!"9"])], b!"hello"⟩

/-- It is sent as it should be. -/
example : submitRequest demoReq = (true, some ⟨[(b!":method", b!"POST"), (b!":scheme", b!"https"), (b!":authority", b!"a.b:44"), (b!":path", b!"/?y=1"),
    (b!"x-a", b!"1"), (b!"x-a", b!"2"), (b!"trailer", b!"X-Sum"), (b!"content-length", b!"5")], b!"hello", some [(b!"x-sum", b!"9")]⟩) := by decide +kernel

/-- It meets what the theorems ask for. -/
example : Distinct demoReq.headers ∧ NonEmptyEntries demoReq.headers ∧ CleanPseudo demoReq := by
  refine ⟨?_, ?_, ?_⟩
  · simp [Distinct, demoReq, SameName, lower]
  · simp [NonEmptyEntries, demoReq]
  · refine ⟨by decide, by decide, ?_, ?_, ?_, ?_⟩ <;> exact ⟨by unfold FieldValue; decide, by decide⟩

/-- C156. Found in the code, against the property: a path with a line break is sent as it is; only the regular fields are looked at. -/
theorem C156_dirty_path_partial : ∃ s, submitRequest ⟨b!"GET", [], b!"a", [], b!"/x" ++ [13, 10] ++ b!"y", [], [], []⟩ = (true, some s) ∧
    (b!":path", b!"/x" ++ [13, 10] ++ b!"y") ∈ s.fields := by
  refine ⟨_, rfl, ?_⟩; decide +kernel

/-- C156. Found in the code, against the property: a response that announces a trailer it may not have is refused only after its fields
and its body have been given to `nghttp3`. -/
theorem C156_late_refusal_partial : ∃ s, submitResponse 200 [(b!"Trailer", [b!"Content-Length"]), (b!"Content-Length", [b!"2"])] b!"hi" false = (false, some s) ∧
    s.body = b!"hi" := by
  refine ⟨⟨[(b!":status", b!"200"), (b!"trailer", b!"Content-Length")], b!"hi", none⟩, ?_, ?_⟩ <;> decide +kernel

end Verif.H3
