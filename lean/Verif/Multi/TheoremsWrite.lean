import Verif.Multi.TheoremsRead
import Verif.Hdr.TheoremsAttr
import Verif.Cookie.Lemmas

/-! # C114: writing a multipart body; C118: boundaries; C119: forms -/

namespace Verif.Multi
open Verif.Utility Verif.Utility.Spec Verif.Wire Verif.Parse Verif.Mid Verif.Hdr

/-! ## What may be written -/

/-- A character of a boundary (RFC 2046, `bchars`). -/
def bchar (c : UInt8) : Bool := b!"abcdefghijklmnopqrstuvwxyzABCDEFGHIJKLMNOPQRSTUVWXYZ0123456789'()+_,-./:=? ".contains c

/-- A boundary that may be written: 1 to 70 such characters, the last not a space. -/
def Writable (b : Bytes) : Prop := b ≠ [] ∧ b.length ≤ 70 ∧ (∀ c ∈ b, bchar c = true) ∧ b.getLast? ≠ some 32

/-- A header value that may be written: no control character but tabs. -/
def Text (v : Bytes) : Prop := v.length ≤ 8192 ∧ ∀ c ∈ v, c = 9 ∨ (32 ≤ c.toNat ∧ c.toNat ≠ 127)

/-- A header name that may be written. -/
def Token (n : Bytes) : Prop := n ≠ [] ∧ n.length ≤ 1024 ∧ ∀ c ∈ n, tok c = true

theorem bchar_eq (c : UInt8) : isBoundaryChar c = bchar c := by
  revert c
  apply forall_byte
  decide +kernel

theorem validBoundary_iff (b : Bytes) : validBoundary b = true ↔ Writable b := by
  unfold validBoundary Writable MAX_BOUNDARY_LENGTH
  have hl : b ≠ [] → ((b.getLastD 0 != 32) = true ↔ b.getLast? ≠ some 32) := by
    intro hb
    rw [List.getLastD_eq_getLast?, List.getLast?_eq_some_getLast hb]
    simp
  simp only [Bool.and_eq_true, Bool.not_eq_true', List.isEmpty_eq_false_iff, decide_eq_true_eq, List.all_eq_true, bchar_eq]
  constructor
  · rintro ⟨⟨⟨h1, h2⟩, h3⟩, h4⟩; exact ⟨h1, h2, h4, (hl h1).mp h3⟩
  · rintro ⟨h1, h2, h3, h4⟩; exact ⟨⟨⟨h1, h2⟩, (hl h1).mpr h4⟩, h3⟩

theorem validName_iff (n : Bytes) : validName n = true ↔ Token n := by
  unfold validName Token MAX_HEADER_NAME_LENGTH
  simp only [Bool.and_eq_true, Bool.not_eq_true', List.isEmpty_eq_false_iff, decide_eq_true_eq, List.all_eq_true, tok_eq, and_assoc]

theorem validValue_iff (v : Bytes) : validValue v = true ↔ Text v := by
  unfold validValue Text MAX_HEADER_VALUE_LENGTH
  have hc : ∀ c : UInt8, (c == 9 || (decide (32 ≤ c) && c != 127)) = true ↔ (c = 9 ∨ (32 ≤ c.toNat ∧ c.toNat ≠ 127)) := by
    intro c
    simp only [Bool.or_eq_true, Bool.and_eq_true, beq_iff_eq, bne_iff_ne, decide_eq_true_eq, UInt8.le_iff_toNat_le]
    have : c ≠ 127 ↔ c.toNat ≠ 127 := by rw [ne_eq, ← UInt8.toNat_inj]; rfl
    rw [this]; rfl
  simp only [Bool.and_eq_true, decide_eq_true_eq, List.all_eq_true, hc]

/-- **C114.** A multipart body is written exactly if its boundary is one that may be written, every header name is a token and no header
value contains a control character other than a tab: no part header can inject lines. -/
theorem C114_written_iff (m : Mp) : (write m).isSome = true ↔
    Writable m.boundary ∧ ∀ p ∈ m.parts, ∀ h ∈ p.headers, Token h.1 ∧ ∀ v ∈ h.2, Text v := by
  have : (write m).isSome = true ↔ validate m = true := by
    unfold write
    by_cases h : validate m = true
    · rw [if_pos h]; simp [h]
    · rw [if_neg h]; simp [h]
  rw [this]
  unfold validate
  simp only [Bool.and_eq_true, List.all_eq_true, validBoundary_iff, validName_iff, validValue_iff]

/-- **C114.** `content_length` is the number of octets written. -/
theorem C114_content_length (m : Mp) (t : Bytes) (h : write m = some t) : t.length = contentLength m := by
  unfold write at h
  split at h
  · cases h
    have hl : ∀ hs : Headers, (headerLines hs).length = (hs.map (fun e => (e.2.map (fun v => e.1.length + v.length + 4)).sum)).sum := by
      intro hs
      induction hs with
      | nil => rfl
      | cons e hs ih =>
        have he : (e.2.flatMap (fun v => e.1 ++ b!": " ++ v ++ b!"\r\n")).length = (e.2.map (fun v => e.1.length + v.length + 4)).sum := by
          induction e.2 with
          | nil => rfl
          | cons v vs ih => simp only [List.flatMap_cons, List.length_append, List.map_cons, List.sum_cons, ih]; simp; omega
        have : headerLines (e :: hs) = (e.2.flatMap (fun v => e.1 ++ b!": " ++ v ++ b!"\r\n")) ++ headerLines hs := rfl
        rw [this, List.length_append, ih, he]; simp
    have hp : ∀ ps : List Part, (ps.flatMap (writePart m.boundary)).length = (ps.map (fun p => m.boundary.length + p.size + 4)).sum := by
      intro ps
      induction ps with
      | nil => rfl
      | cons p ps ih =>
        have : (writePart m.boundary p).length = m.boundary.length + p.size + 4 := by
          unfold writePart Part.size
          simp only [List.length_append, hl]
          simp; omega
        rw [List.flatMap_cons, List.length_append, ih, this]; simp
    unfold contentLength
    simp only [List.length_append, hp]
    simp; omega
  · cases h

/-! ## The round trip -/

/-- The header lines of a part. -/
def linesOf (h : Headers) : List (Bytes × Bytes) := h.flatMap (fun e => e.2.map (fun v => (e.1, v)))

/-- The names of the headers differ, letters compared without case (the headers are a map with such keys). -/
def Distinct (h : Headers) : Prop := h.Pairwise (fun a b => a.1.map lower ≠ b.1.map lower)

/-- The same part for a user: the data, and under every name the same values (for `Content-Type`, the first). -/
def Same (p q : Part) : Prop :=
  q.body = p.body ∧ ∀ k, (find q.headers k).getD [] =
    if k.map lower = (b!"Content-Type").map lower then ((find p.headers k).getD []).take 1 else (find p.headers k).getD []

theorem hlines_append {s t : Bytes} {l m : List (Bytes × Bytes)} (h : HLines s l) (k : HLines t m) : HLines (s ++ t) (l ++ m) := by
  induction h with
  | nil => exact k
  | cons h _ ih =>
    rw [List.append_assoc, List.cons_append]
    exact .cons h ih

theorem lines_text (h : Headers) (ht : ∀ e ∈ h, Token e.1 ∧ ∀ v ∈ e.2, Text v) (hs : ∀ e ∈ h, ∀ v ∈ e.2, v.head? ≠ some 32) :
    HLines (headerLines h) (linesOf h) := by
  induction h with
  | nil => exact .nil
  | cons e h ih =>
    refine hlines_append (s := e.2.flatMap (fun v => e.1 ++ b!": " ++ v ++ b!"\r\n")) (l := e.2.map (fun v => (e.1, v))) ?_
      (ih (fun x hx => ht x (by simp [hx])) (fun x hx => hs x (by simp [hx])))
    obtain ⟨h1, h2⟩ := ht e (by simp)
    have h3 := hs e (by simp)
    generalize e.2 = vs at *
    induction vs with
    | nil => exact .nil
    | cons v vs ih =>
      refine .cons (s := e.1 ++ b!": " ++ v ++ b!"\r\n") ?_ (ih (fun x hx => h2 x (by simp [hx])) (fun x hx => h3 x (by simp [hx])))
      have : e.1 ++ b!": " ++ v ++ b!"\r\n" = e.1 ++ c!":" :: (List.replicate 1 32 ++ v) ++ b!"\r\n" := by simp
      rw [this]
      refine .mk h1.1 h1.2.2 (fun c hc => ?_) (h3 v (by simp))
      rcases (h2 v (by simp)).2 c hc with h | h
      · rw [h]; decide
      · rintro rfl; exact absurd h.1 (by decide)

theorem parts_text (b : Bytes) (ps : List Part) (hne : ps ≠ []) (ht : ∀ p ∈ ps, ∀ e ∈ p.headers, Token e.1 ∧ ∀ v ∈ e.2, Text v)
    (hs : ∀ p ∈ ps, ∀ e ∈ p.headers, ∀ v ∈ e.2, v.head? ≠ some 32) (hd : ∀ p ∈ ps, ¬ delim b <:+: p.body) :
    Message b (ps.flatMap (writePart b) ++ b!"--" ++ b ++ b!"--") (ps.map (fun p => (linesOf p.headers, p.body))) := by
  induction ps with
  | nil => exact absurd rfl hne
  | cons p ps ih =>
    have hp : PartText b (headerLines p.headers ++ b!"\r\n" ++ p.body) (linesOf p.headers, p.body) :=
      .mk (lines_text _ (ht p (by simp)) (hs p (by simp))) (hd p (by simp))
    cases ps with
    | nil =>
      refine ⟨headerLines p.headers ++ b!"\r\n" ++ p.body ++ delim b ++ b!"--" ++ [], ?_, .last hp⟩
      simp [writePart, firstLine, delim]
    | cons q ps =>
      obtain ⟨t, h1, h2⟩ := ih (by simp) (fun x hx => ht x (by simp [hx])) (fun x hx => hs x (by simp [hx])) (fun x hx => hd x (by simp [hx]))
      refine ⟨headerLines p.headers ++ b!"\r\n" ++ p.body ++ delim b ++ b!"\r\n" ++ t, ?_, .more hp h2⟩
      rw [List.flatMap_cons, List.append_assoc, List.append_assoc, List.append_assoc]
      rw [List.append_assoc, List.append_assoc] at h1
      rw [h1]
      simp [writePart, firstLine, delim]

theorem values_lines (h : Headers) (hd : Distinct h) (k : Bytes) : valuesOf (linesOf h) k = (find h k).getD [] := by
  induction h with
  | nil => rfl
  | cons e h ih =>
    obtain ⟨h1, h2⟩ := List.pairwise_cons.mp hd
    have hv : valuesOf (linesOf (e :: h)) k = valuesOf (e.2.map (fun v => (e.1, v))) k ++ valuesOf (linesOf h) k := by
      unfold valuesOf linesOf
      rw [List.flatMap_cons, List.filter_append, List.map_append]
    rw [hv, ih h2]
    by_cases hk : e.1.map lower = k.map lower
    · have e1 : valuesOf (e.2.map (fun v => (e.1, v))) k = e.2 := by
        unfold valuesOf
        induction e.2 with
        | nil => rfl
        | cons v vs ih => simp [hk] at ih ⊢; exact ih
      have e2 : find h k = none := by
        unfold find
        rw [Option.map_eq_none_iff, List.find?_eq_none]
        intro x hx hi
        rw [iequals_iff] at hi
        exact h1 x hx (hk.trans hi.symm)
      have e3 : find (e :: h) k = some e.2 := by
        unfold find
        rw [List.find?_cons_of_pos (by rw [iequals_iff]; exact hk)]; rfl
      rw [e1, e2, e3]; simp
    · have e1 : valuesOf (e.2.map (fun v => (e.1, v))) k = [] := by
        unfold valuesOf
        induction e.2 with
        | nil => rfl
        | cons v vs ih => simp [hk] at ih ⊢
      have e3 : find (e :: h) k = find h k := by
        unfold find
        rw [List.find?_cons_of_neg (by rw [iequals_iff]; exact hk)]
      rw [e1, e3]; rfl

theorem writable_boundary {b : Bytes} (h : Writable b) : Boundary b := by
  refine ⟨h.1, h.2.1, fun c hc => ?_⟩
  have := h.2.2.1 c hc
  revert this
  revert c
  suffices ∀ c : UInt8, bchar c = true → 32 ≤ c.toNat ∧ c.toNat ≠ 127 from fun c _ => this c
  apply forall_byte
  decide +kernel

/-- **C114.** What is written is read back: the boundary, the number and order of the parts, their data octet for octet and the values
of every header. The conditions: there is a part, no data contains the delimiter, no header value starts with a space, and the limits
on the number of parts and on the size. -/
theorem C114_round_trip (m : Mp) (t : Bytes) (h : write m = some t) (hne : m.parts ≠ [])
    (hk : ∀ p ∈ m.parts, Distinct p.headers) (hd : ∀ p ∈ m.parts, ¬ delim m.boundary <:+: p.body)
    (hs : ∀ p ∈ m.parts, ∀ e ∈ p.headers, ∀ v ∈ e.2, v.head? ≠ some 32)
    (hc : m.parts.length ≤ 1000) (hz : (m.parts.map (fun p => p.body.length)).sum ≤ 104857600) :
    ∃ qs, asMultipart t = .ok { boundary := m.boundary, parts := qs } ∧ Each Same m.parts qs := by
  obtain ⟨w1, w2⟩ := (C114_written_iff m).mp (by rw [h]; rfl)
  have ht : t = m.parts.flatMap (writePart m.boundary) ++ b!"--" ++ m.boundary ++ b!"--" := by
    unfold write at h
    split at h
    · cases h; rfl
    · cases h
  have hmsg := parts_text m.boundary m.parts hne w2 hs hd
  rw [← ht] at hmsg
  have hlim : Limits (m.parts.map (fun p => (linesOf p.headers, p.body))) := by
    refine ⟨by simpa using hc, by rw [List.map_map]; exact hz, ?_⟩
    intro x hx y hy
    obtain ⟨p, hp, rfl⟩ := List.mem_map.mp hx
    obtain ⟨e, he, hy⟩ := List.mem_flatMap.mp hy
    obtain ⟨v, hv, rfl⟩ := List.mem_map.mp hy
    exact ⟨(w2 p hp e he).1.2.1, ((w2 p hp e he).2 v hv).1⟩
  obtain ⟨qs, h1, h2⟩ := (C113_read m.boundary t _ (writable_boundary w1) hmsg).1 hlim
  refine ⟨qs, h1, ?_⟩
  have : ∀ (ps : List Part) (qs : List Part), (∀ p ∈ ps, Distinct p.headers) →
      Each Shows (ps.map (fun p => (linesOf p.headers, p.body))) qs → Each Same ps qs := by
    intro ps
    induction ps with
    | nil => intro qs _ h; cases h; exact .nil
    | cons p ps ih =>
      intro qs hk h
      cases h with
      | cons a b =>
        refine .cons ⟨a.1, fun k => ?_⟩ (ih _ (fun x hx => hk x (by simp [hx])) b)
        rw [a.2 k, values_lines _ (hk p (by simp))]
  exact this _ _ hk h2

/-- A concrete message that meets the conditions, and what is read back. -/
example : ∃ m t, write m = some t ∧ m.parts.length = 2 ∧ (∀ p ∈ m.parts, Distinct p.headers) ∧ (∀ p ∈ m.parts, ¬ delim m.boundary <:+: p.body) ∧
    (∀ p ∈ m.parts, ∀ e ∈ p.headers, ∀ v ∈ e.2, v.head? ≠ some 32) ∧ asMultipart t = .ok m := by
  refine ⟨{ boundary := b!"b", parts := [{ headers := [(b!"K", [b!"v", b!"w"]), (b!"A", [b!"1"])], body := b!"\r\n--x" }, { headers := [], body := [] }] },
    _, rfl, rfl, ?_, by decide, by decide, by decide +kernel⟩
  intro p hp
  unfold Distinct
  simp only [List.mem_cons, List.not_mem_nil, or_false] at hp
  rcases hp with rfl | rfl <;> decide

/-- The conditions are needed: nothing but the closing delimiter is not read. -/
theorem C114_no_parts : write { boundary := b!"b" } = some b!"--b--" ∧ asMultipart b!"--b--" = .throws := by decide +kernel

/-- Leading spaces of a header value are lost. -/
theorem C114_leading_space : ∃ t, write { boundary := b!"b", parts := [{ headers := [(b!"K", [b!" v"])], body := [] }] } = some t ∧
    asMultipart t = .ok { boundary := b!"b", parts := [{ headers := [(b!"K", [b!"v"])], body := [] }] } := by
  refine ⟨_, rfl, ?_⟩
  decide +kernel

/-- Data with the delimiter is written without an error and read as several parts. -/
theorem C114_delimiter_in_data : ∃ t, write { boundary := b!"b", parts := [{ headers := [], body := b!"x\r\n--b\r\nA: 1\r\n\r\ny" }] } = some t ∧
    asMultipart t = .ok { boundary := b!"b", parts := [{ headers := [], body := b!"x" }, { headers := [(b!"A", [b!"1"])], body := b!"y" }] } := by
  refine ⟨_, rfl, ?_⟩
  decide +kernel

/-! ## C118 -/

/-- The text before the first `;`. -/
def Before (s m : Bytes) : Prop := c!";" ∉ m ∧ (s = m ∨ ∃ r, s = m ++ c!";" :: r)

/-- The media type of a `Content-Type` value is `multipart/form-data`, letters compared without case. -/
def FormData (s : Bytes) : Prop := ∃ m t, Before s m ∧ IsTrim m t ∧ t.map lower = (b!"multipart/form-data").map lower

/-- The media type as the code computes it. -/
def mediaOf (s : Bytes) : Bytes := match findChar c!";" s with
  | none => trimWs s
  | some (m, _) => trimWs m

theorem formData_iff (s : Bytes) : iequals (mediaOf s) b!"multipart/form-data" = true ↔ FormData s := by
  rw [iequals_iff]
  unfold mediaOf
  cases hf : findChar c!";" s with
  | none =>
    have hs := findChar_none_iff.mp hf
    constructor
    · intro h; exact ⟨s, _, ⟨hs, .inl rfl⟩, trimWs_spec s, h⟩
    · rintro ⟨m, t, ⟨_, h2⟩, ht, he⟩
      rcases h2 with rfl | ⟨r, rfl⟩
      · simp only []; rw [trimWs_eq ht]; exact he
      · exact absurd (by simp) hs
  | some ab =>
    obtain ⟨a, r⟩ := ab
    obtain ⟨e, ha⟩ := findChar_some_iff.mp hf
    constructor
    · intro h; exact ⟨a, _, ⟨ha, .inr ⟨r, e⟩⟩, trimWs_spec a, h⟩
    · rintro ⟨m, t, ⟨h1, h2⟩, ht, he⟩
      simp only []
      rcases h2 with rfl | ⟨r', e'⟩
      · exact absurd (by rw [e]; simp) h1
      · have : findChar c!";" s = some (m, r') := findChar_some_iff.mpr ⟨e', h1⟩
        rw [hf] at this
        cases this
        rw [trimWs_eq ht]; exact he

theorem parseBoundary_eq (s : Bytes) : parseBoundary s =
    if !iequals (mediaOf s) b!"multipart/form-data" then some []
    else match attributes s with
      | none => none
      | some l => match attr l b!"boundary" with
        | none => some []
        | some v => if v.isEmpty then some [] else if validBoundary v then some v else none := by
  unfold parseBoundary mediaOf
  rfl

/-- **C118.** A boundary is found exactly if the media type is `multipart/form-data`, the attributes are well-formed, and the first
attribute named `boundary` has a value that may be written as a boundary: it is that value. -/
theorem C118_found_iff (s v : Bytes) (hv : v ≠ []) : parseBoundary s = some v ↔
    FormData s ∧ s.length ≤ 65536 ∧ ∃ l, Attrs s l ∧ First l b!"boundary" v ∧ Writable v := by
  rw [parseBoundary_eq]
  by_cases hm : iequals (mediaOf s) b!"multipart/form-data" = true
  · rw [if_neg (by simp [hm])]
    have hf := (formData_iff s).mp hm
    cases ha : attributes s with
    | none =>
      simp only []
      constructor
      · intro h; cases h
      · rintro ⟨_, h2, l, h3, _⟩
        rw [(C107_attributes_exact s l).mpr ⟨h2, h3⟩] at ha; cases ha
    | some l =>
      obtain ⟨h1, h2⟩ := (C107_attributes_exact s l).mp ha
      have huniq : ∀ l', Attrs s l' → l' = l := fun l' h => C107_unambiguous s l' l h h2
      simp only []
      cases hb : attr l b!"boundary" with
      | none =>
        simp only []
        constructor
        · intro h; cases h; exact absurd rfl hv
        · rintro ⟨_, _, l', h3, h4, _⟩
          rw [huniq l' h3] at h4
          rw [(C107_first_counts _ _ _).mpr h4] at hb; cases hb
      | some w =>
        simp only []
        constructor
        · intro h
          split at h
          · cases h; exact absurd rfl hv
          · split at h
            · rename_i hw
              cases h
              exact ⟨hf, h1, l, h2, (C107_first_counts _ _ _).mp hb, (validBoundary_iff v).mp hw⟩
            · cases h
        · rintro ⟨_, _, l', h3, h4, h5⟩
          rw [huniq l' h3] at h4
          rw [(C107_first_counts _ _ _).mpr h4] at hb
          cases hb
          rw [if_neg (by simpa using hv), if_pos ((validBoundary_iff v).mpr h5)]
  · rw [if_pos (by simp [hm])]
    constructor
    · intro h; cases h; exact absurd rfl hv
    · rintro ⟨h, _⟩; exact absurd ((formData_iff s).mpr h) hm

/-- **C118.** An exception is thrown exactly if the media type is `multipart/form-data` and the attributes are malformed or too long or
the first `boundary` has a value, and not one that may be written. -/
theorem C118_throws_iff (s : Bytes) : parseBoundary s = none ↔
    FormData s ∧ ((¬ ∃ l, s.length ≤ 65536 ∧ Attrs s l) ∨ ∃ l v, Attrs s l ∧ First l b!"boundary" v ∧ v ≠ [] ∧ ¬ Writable v) := by
  rw [parseBoundary_eq]
  by_cases hm : iequals (mediaOf s) b!"multipart/form-data" = true
  · rw [if_neg (by simp [hm])]
    have hf := (formData_iff s).mp hm
    cases ha : attributes s with
    | none =>
      simp only [true_iff]
      refine ⟨hf, .inl ?_⟩
      rintro ⟨l, h⟩
      rw [(C107_attributes_exact s l).mpr h] at ha; cases ha
    | some l =>
      obtain ⟨h1, h2⟩ := (C107_attributes_exact s l).mp ha
      have huniq : ∀ l', Attrs s l' → l' = l := fun l' h => C107_unambiguous s l' l h h2
      simp only []
      cases hb : attr l b!"boundary" with
      | none =>
        simp only []
        constructor
        · intro h; cases h
        · rintro ⟨_, h | ⟨l', v, h3, h4, _⟩⟩
          · exact absurd ⟨l, h1, h2⟩ h
          · rw [huniq l' h3] at h4
            rw [(C107_first_counts _ _ _).mpr h4] at hb; cases hb
      | some w =>
        simp only []
        constructor
        · intro h
          split at h
          · cases h
          · rename_i he
            split at h
            · cases h
            · rename_i hw
              exact ⟨hf, .inr ⟨l, w, h2, (C107_first_counts _ _ _).mp hb, by simpa using he, fun k => hw ((validBoundary_iff w).mpr k)⟩⟩
        · rintro ⟨_, h | ⟨l', v, h3, h4, h5, h6⟩⟩
          · exact absurd ⟨l, h1, h2⟩ h
          · rw [huniq l' h3] at h4
            rw [(C107_first_counts _ _ _).mpr h4] at hb
            cases hb
            rw [if_neg (by simpa using h5), if_neg (fun k => h6 ((validBoundary_iff _).mp k))]
  · rw [if_pos (by simp [hm])]
    constructor
    · intro h; cases h
    · rintro ⟨h, _⟩; exact absurd ((formData_iff s).mpr h) hm

/-- **C118.** A generated boundary may be written, whatever 32 letters and digits were drawn. -/
theorem C118_generated (random : Bytes) (hl : random.length = 32)
    (hr : ∀ c ∈ random, c ∈ b!"abcdefghijklmnopqrstuvwxyzABCDEFGHIJKLMNOPQRSTUVWXYZ0123456789") :
    Writable (generateBoundary random) ∧ (generateBoundary random).length = 62 := by
  have hlen : (generateBoundary random).length = 62 := by unfold generateBoundary; rw [List.length_append, hl]; rfl
  have hc : ∀ c : UInt8, c ∈ b!"abcdefghijklmnopqrstuvwxyzABCDEFGHIJKLMNOPQRSTUVWXYZ0123456789" → bchar c = true ∧ c ≠ 32 := by
    apply forall_byte
    decide +kernel
  refine ⟨⟨?_, by omega, ?_, ?_⟩, hlen⟩
  · intro h; rw [h] at hlen; cases hlen
  · intro c h
    unfold generateBoundary at h
    rcases List.mem_append.mp h with h | h
    · exact (by decide : ∀ c ∈ b!"----------------------------qb", bchar c = true) c h
    · exact (hc c (hr c h)).1
  · have hne : random ≠ [] := by intro h; rw [h] at hl; cases hl
    unfold generateBoundary
    rw [List.getLast?_append, List.getLast?_eq_some_getLast hne]
    simp only [Option.some_or]
    intro h
    exact (hc _ (hr _ (List.getLast_mem hne))).2 (Option.some.inj h)

/-- Concrete values. -/
example : parseBoundary b!"Multipart/Form-Data; charset=x; boundary=\"a b\"" = some b!"a b" ∧ parseBoundary b!"text/plain; boundary=x" = some [] ∧
    parseBoundary b!"multipart/form-data; boundary=\"a \"" = none := by decide +kernel

/-! ## C119 -/

/-- Texts joined by `&`. -/
def joined (l : List Bytes) : Bytes := (List.intersperse [c!"&"] l).flatten

/-- A pair of a form: `name=value` up to the first `=`, or a name alone. -/
inductive Pair (u : Uri) : Bytes → Bytes × Bytes → Prop
  | eq {a b : Bytes} : c!"=" ∉ a → Pair u (a ++ c!"=" :: b) (u.decode a, u.decode b)
  | name {s : Bytes} : c!"=" ∉ s → Pair u s (u.decode s, [])

theorem getField_cons (e : Bytes × List Bytes) (f : Fields) (k : Bytes) : getField (e :: f) k = if e.1 = k then e.2 else getField f k := by
  unfold getField
  by_cases h : e.1 = k
  · rw [List.find?_cons_of_pos (by simpa using h), if_pos h]; rfl
  · rw [List.find?_cons_of_neg (by simpa using h), if_neg h]

theorem getField_add (f : Fields) (n v k : Bytes) : getField (addField f n v) k = if n = k then getField f k ++ [v] else getField f k := by
  induction f with
  | nil =>
    rw [addField, getField_cons]
    have : getField [] k = [] := rfl
    rw [this]; rfl
  | cons e f ih =>
    rw [addField]
    by_cases he : e.1 = n
    · rw [if_pos (by simpa using he), getField_cons, getField_cons]
      simp only [he]
      by_cases hn : n = k
      · simp only [if_pos hn]
      · simp only [if_neg hn]
    · rw [if_neg (by simpa using he), getField_cons, getField_cons, ih]
      by_cases hn : n = k
      · have hx : ¬ e.1 = k := fun h => he (h.trans hn.symm)
        simp only [if_pos hn, if_neg hx]
      · simp only [if_neg hn]

theorem readPair_eq {u : Uri} {s : Bytes} {p : Bytes × Bytes} (h : Pair u s p) (f : Fields) :
    readPair u f s = if p.1.isEmpty then f else addField f p.1 p.2 := by
  unfold readPair
  cases h with
  | eq ha => rw [findChar_app ha]
  | name hs => rw [findChar_none_iff.mpr hs]

theorem joined_cons (a b : Bytes) (l : List Bytes) : joined (a :: b :: l) = a ++ c!"&" :: joined (b :: l) := by
  simp [joined, List.intersperse]

theorem readPairs_eq (u : Uri) (hd : u.decode [] = []) (l : List Bytes) (hl : ∀ s ∈ l, c!"&" ∉ s) (n : Nat) (hn : (joined l).length ≤ n) (f : Fields) :
    readPairs u n f (joined l) = l.foldl (readPair u) f := by
  have hnil : ∀ f, readPair u f [] = f := by
    intro f
    rw [readPair_eq (.name (by simp))]
    simp [hd]
  induction l generalizing n f with
  | nil =>
    cases n with
    | zero => rfl
    | succ n => rfl
  | cons a l ih =>
    cases l with
    | nil =>
      have e : joined [a] = a := by simp [joined, List.intersperse]
      rw [e] at hn ⊢
      cases n with
      | zero =>
        have : a = [] := List.length_eq_zero_iff.mp (by omega)
        subst this
        rw [readPairs]; exact (hnil f).symm
      | succ n =>
        rw [readPairs]
        by_cases ha : a = []
        · subst ha
          rw [if_pos (by rfl)]; exact (hnil f).symm
        · rw [if_neg (by simpa using ha), findChar_none_iff.mpr (hl a (by simp))]; rfl
    | cons b l =>
      rw [joined_cons] at hn ⊢
      cases n with
      | zero => simp at hn
      | succ n =>
        rw [readPairs, if_neg (by simp), findChar_app (hl a (by simp))]
        simp only []
        rw [ih (fun s hs => hl s (by simp [hs])) n (by simp at hn; omega)]
        rfl

theorem foldl_get (u : Uri) (l : List Bytes) (ps : List (Bytes × Bytes)) (h : Each (Pair u) l ps) (f : Fields) (k : Bytes) :
    getField (l.foldl (readPair u) f) k = getField f k ++ if k = [] then [] else (ps.filter (fun p => decide (p.1 = k))).map (·.2) := by
  induction h generalizing f with
  | nil => simp
  | @cons a p l m h _ ih =>
    rw [List.foldl_cons, ih, readPair_eq h]
    by_cases hk : k = []
    · rw [if_pos hk, if_pos hk]
      subst hk
      by_cases hp : p.1 = []
      · rw [if_pos (by simpa using hp)]
      · rw [if_neg (by simpa using hp), getField_add, if_neg hp]
    · rw [if_neg hk, if_neg hk]
      by_cases hp : p.1 = []
      · rw [if_pos (by simpa using hp), List.filter_cons_of_neg (by simp [hp]; exact hk)]
      · rw [if_neg (by simpa using hp), getField_add]
        by_cases he : p.1 = k
        · rw [if_pos he, List.filter_cons_of_pos (by simpa using he)]; simp
        · rw [if_neg he, List.filter_cons_of_neg (by simpa using he)]

/-- **C119.** A form body gives under every non-empty name the values of the pairs with that name, in order, and nothing under the empty
name. -/
theorem C119_read (u : Uri) (hd : u.decode [] = []) (l : List Bytes) (ps : List (Bytes × Bytes)) (hl : ∀ s ∈ l, c!"&" ∉ s)
    (h : Each (Pair u) l ps) (k : Bytes) :
    getField (asForm u (joined l)) k = if k = [] then [] else (ps.filter (fun p => decide (p.1 = k))).map (·.2) := by
  unfold asForm
  rw [readPairs_eq u hd l hl _ (Nat.le_refl _), foldl_get u l ps h]
  rfl

/-- Every body is such a list of texts. -/
theorem C119_every_body (u : Uri) (s : Bytes) : ∃ l ps, s = joined l ∧ (∀ t ∈ l, c!"&" ∉ t) ∧ Each (Pair u) l ps := by
  have hpair : ∀ t, ∃ p, Pair u t p := by
    intro t
    cases h : findChar c!"=" t with
    | none => exact ⟨_, .name (findChar_none_iff.mp h)⟩
    | some ab =>
      obtain ⟨a, b⟩ := ab
      obtain ⟨e, ha⟩ := findChar_some_iff.mp h
      exact ⟨_, e ▸ Pair.eq ha⟩
  suffices h : ∃ l, s = joined l ∧ l ≠ [] ∧ ∀ t ∈ l, c!"&" ∉ t by
    obtain ⟨l, e, _, hl⟩ := h
    have : ∀ l : List Bytes, ∃ ps, Each (Pair u) l ps := by
      intro l
      induction l with
      | nil => exact ⟨[], .nil⟩
      | cons t l ih =>
        obtain ⟨ps, h⟩ := ih
        obtain ⟨p, hp⟩ := hpair t
        exact ⟨p :: ps, .cons hp h⟩
    obtain ⟨ps, h⟩ := this l
    exact ⟨l, ps, e, hl, h⟩
  induction hn : s.length using Nat.strongRecOn generalizing s with
  | ind n ih =>
    cases h : findChar c!"&" s with
    | none => exact ⟨[s], by simp [joined, List.intersperse], by simp, by simpa using findChar_none_iff.mp h⟩
    | some ab =>
      obtain ⟨a, b⟩ := ab
      obtain ⟨e, ha⟩ := findChar_some_iff.mp h
      obtain ⟨l, h1, h2, h3⟩ := ih b.length (by rw [← hn, e]; simp; omega) b rfl
      cases l with
      | nil => exact absurd rfl h2
      | cons c l =>
        refine ⟨a :: c :: l, by rw [joined_cons, ← h1]; exact e, by simp, ?_⟩
        intro t ht
        rcases List.mem_cons.mp ht with rfl | ht
        · exact ha
        · exact h3 t ht

/-- **C119.** A form that is written to a body is read back, except for what is under the empty name. The conditions are on the percent
coding: it is invertible, and what it writes contains neither `&` nor `=`. -/
theorem C119_round_trip (u : Uri) (hu : ∀ x, u.decode (u.encode x) = x) (he : ∀ x, c!"&" ∉ u.encode x ∧ c!"=" ∉ u.encode x)
    (h0 : u.decode [] = []) (f : Fields) (hf : f.Pairwise (fun a b => a.1 ≠ b.1)) (k : Bytes) (hk : k ≠ []) :
    getField (asForm u (writeForm u f)) k = getField f k := by
  have hw : writeForm u f = joined (f.flatMap (fun e => e.2.map (fun v => u.encode e.1 ++ c!"=" :: u.encode v))) := rfl
  have hE : Each (Pair u) (f.flatMap (fun e => e.2.map (fun v => u.encode e.1 ++ c!"=" :: u.encode v))) (f.flatMap (fun e => e.2.map (fun v => (e.1, v)))) := by
    have happ : ∀ {a b : List Bytes} {c d : List (Bytes × Bytes)}, Each (Pair u) a c → Each (Pair u) b d → Each (Pair u) (a ++ b) (c ++ d) := by
      intro a b c d h k
      induction h with
      | nil => exact k
      | cons h _ ih => exact .cons h ih
    clear hw hf
    induction f with
    | nil => exact .nil
    | cons e f ih =>
      rw [List.flatMap_cons, List.flatMap_cons]
      refine happ ?_ ih
      induction e.2 with
      | nil => exact .nil
      | cons v vs ih =>
        refine .cons ?_ ih
        have := Pair.eq (u := u) (a := u.encode e.1) (b := u.encode v) (he e.1).2
        rw [hu, hu] at this
        exact this
  rw [hw, C119_read u h0 _ _ ?_ hE, if_neg hk]
  · clear hE hw
    induction f with
    | nil => rfl
    | cons e f ih =>
      obtain ⟨h1, h2⟩ := List.pairwise_cons.mp hf
      rw [List.flatMap_cons, List.filter_append, List.map_append, ih h2, getField_cons]
      by_cases hk' : e.1 = k
      · rw [if_pos hk']
        have e1 : ((e.2.map (fun v => (e.1, v))).filter (fun p => decide (p.1 = k))).map (·.2) = e.2 := by
          induction e.2 with
          | nil => rfl
          | cons v vs ih => simp [hk'] at ih ⊢; exact ih
        have e2 : getField f k = [] := by
          unfold getField
          rw [List.find?_eq_none.mpr]
          · rfl
          · intro x hx h
            exact h1 x hx (hk'.trans (by simpa using (beq_iff_eq.mp h).symm))
        rw [e1, e2]; simp
      · rw [if_neg hk']
        have e1 : ((e.2.map (fun v => (e.1, v))).filter (fun p => decide (p.1 = k))).map (·.2) = [] := by
          induction e.2 with
          | nil => rfl
          | cons v vs ih => simp [hk'] at ih ⊢
        rw [e1]; rfl
  · intro s hs
    obtain ⟨e, _, hs⟩ := List.mem_flatMap.mp hs
    obtain ⟨v, _, rfl⟩ := List.mem_map.mp hs
    simp only [List.mem_append, List.mem_cons, not_or]
    exact ⟨(he _).1, by decide, (he _).1⟩

/-- A coding of octets by two letters each: the conditions can be met. -/
example : ∃ u : Uri, (∀ x, u.decode (u.encode x) = x) ∧ (∀ x, c!"&" ∉ u.encode x ∧ c!"=" ∉ u.encode x) ∧ u.decode [] = [] ∧
    getField (asForm u (writeForm u [(b!"a&", [b!"1", b!"="]), (b!"b", [[]])])) b!"a&" = [b!"1", b!"="] := by
  let dec : Bytes → Bytes := fun l => (List.range (l.length / 2)).map (fun i => (l.getD (2 * i) 0 - 65) * 16 + (l.getD (2 * i + 1) 0 - 65))
  let enc : Bytes → Bytes := fun l => l.flatMap (fun c => [c / 16 + 65, c % 16 + 65])
  refine ⟨{ encode := enc, decode := dec }, ?_, ?_, ?_, ?_⟩
  · intro x
    show (List.range ((x.flatMap (fun c => [c / 16 + 65, c % 16 + 65])).length / 2)).map _ = x
    have hlen : ∀ x : Bytes, (x.flatMap (fun c => [c / 16 + 65, c % 16 + 65])).length = 2 * x.length := by
      intro x
      induction x with
      | nil => rfl
      | cons c x ih => rw [List.flatMap_cons, List.length_append, ih]; simp; omega
    have hget : ∀ (x : Bytes) i, i < x.length → (x.flatMap (fun c => [c / 16 + 65, c % 16 + 65])).getD (2 * i) 0 = x.getD i 0 / 16 + 65 ∧
        (x.flatMap (fun c => [c / 16 + 65, c % 16 + 65])).getD (2 * i + 1) 0 = x.getD i 0 % 16 + 65 := by
      intro x
      induction x with
      | nil => intro i h; simp at h
      | cons c x ih =>
        intro i hi
        cases i with
        | zero => exact ⟨rfl, rfl⟩
        | succ i =>
          have := ih i (by simp at hi; omega)
          rw [List.flatMap_cons]
          exact this
    have hc : ∀ c : UInt8, (c / 16 + 65 - 65) * 16 + (c % 16 + 65 - 65) = c := by
      apply forall_byte
      decide +kernel
    apply List.ext_getElem
    · simp [hlen]
    · intro i h1 h2
      obtain ⟨g1, g2⟩ := hget x i h2
      rw [List.getElem_map, List.getElem_range, g1, g2, hc, getD_lt h2]
  · intro x
    have hc : ∀ c : UInt8, c / 16 + 65 ≠ c!"&" ∧ c / 16 + 65 ≠ c!"=" ∧ c % 16 + 65 ≠ c!"&" ∧ c % 16 + 65 ≠ c!"=" := by
      apply forall_byte
      decide +kernel
    constructor
    · intro h
      obtain ⟨c, _, h⟩ := List.mem_flatMap.mp h
      have := hc c
      simp only [List.mem_cons, List.not_mem_nil, or_false] at h
      rcases h with h | h
      · exact this.1 h.symm
      · exact this.2.2.1 h.symm
    · intro h
      obtain ⟨c, _, h⟩ := List.mem_flatMap.mp h
      have := hc c
      simp only [List.mem_cons, List.not_mem_nil, or_false] at h
      rcases h with h | h
      · exact this.2.1 h.symm
      · exact this.2.2.2 h.symm
  · rfl
  · decide +kernel

end Verif.Multi
