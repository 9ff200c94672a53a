import Verif.Multi.Order

/-! # What the reader does with the callbacks -/

namespace Verif.Multi
open Verif.Utility Verif.Wire Verif.Parse Verif.Mid

/-! ## The reference reader on a message -/

theorem run_first (b w : Bytes) (h : w ≠ []) : refRun b (.first w) w = ([.partBegin], .line) := by
  induction w with
  | nil => exact absurd rfl h
  | cons x r ih =>
    cases r with
    | nil => simp [refRun, refStep]
    | cons y r =>
      rw [refRun_cons]
      have : refStep b (.first (x :: y :: r)) x = ([], .first (y :: r)) := by simp [refStep]
      rw [this]
      simp only [List.nil_append]
      exact ih (by simp)

theorem tok_facts (c : UInt8) (h : tok c = true) : c ≠ 13 ∧ c ≠ c!":" := by
  constructor <;> (rintro rfl; revert h; decide)

theorem run_name (b n : Bytes) (h : ∀ c ∈ n, tok c = true) : refRun b .name n = (n.map (fun c => Ev.field [c]), .name) := by
  induction n with
  | nil => rfl
  | cons c n ih =>
    obtain ⟨h1, h2⟩ := tok_facts c (h c (by simp))
    rw [refRun_cons]
    have : refStep b .name c = ([.field [c]], .name) := by simp [refStep, h1, h2, h c (by simp)]
    rw [this, ih (fun d hd => h d (by simp [hd]))]
    rfl

theorem run_spaces (b : Bytes) (k : Nat) : refRun b .colon (List.replicate k 32) = ([], .colon) := by
  induction k with
  | zero => rfl
  | succ k ih =>
    rw [List.replicate_succ, refRun_cons]
    have : refStep b .colon 32 = ([], .colon) := by simp [refStep]
    rw [this, ih]; rfl

theorem run_text (b v : Bytes) (h : ∀ c ∈ v, c ≠ 13) : refRun b .text v = (v.map (fun c => Ev.value [c]), .text) := by
  induction v with
  | nil => rfl
  | cons c v ih =>
    rw [refRun_cons]
    have : refStep b .text c = ([.value [c]], .text) := by simp [refStep, h c (by simp)]
    rw [this, ih (fun d hd => h d (by simp [hd]))]
    rfl

theorem run_crlf (b : Bytes) (s : St) (h : s = .colon ∨ s = .text) : refRun b s b!"\r\n" = ([.headerEnd], .line) := by
  rcases h with rfl | rfl <;> simp [refRun, refStep]

theorem run_hline {b s : Bytes} {h : Bytes × Bytes} (hl : HLine s h) :
    refRun b .line s = (octets [.field h.1, .value h.2, .headerEnd], .line) := by
  obtain ⟨hn, ht, hv, hs⟩ := hl
  rename_i n v k
  cases n with
  | nil => exact absurd rfl hn
  | cons c n =>
    obtain ⟨h1, h2⟩ := tok_facts c (ht c (by simp))
    have e1 : refStep b .line c = ([.field [c]], .name) := by simp [refStep, h1, h2, ht c (by simp)]
    have e2 : refStep b .name c!":" = ([], .colon) := by simp [refStep]
    rw [List.append_assoc, List.cons_append, refRun_cons, e1, refRun_append, run_name b n (fun d hd => ht d (by simp [hd]))]
    simp only []
    have e4 : c!":" :: (List.replicate k 32 ++ v) ++ b!"\r\n" = c!":" :: (List.replicate k 32 ++ v ++ b!"\r\n") := rfl
    rw [e4, refRun_cons, e2]
    simp only []
    rw [List.append_assoc, refRun_append, run_spaces]
    simp only []
    cases v with
    | nil =>
      have e5 : [] ++ b!"\r\n" = b!"\r\n" := rfl
      rw [e5, run_crlf _ _ (.inl rfl)]
      simp [octets]
    | cons d v =>
      have hd : d ≠ 32 := by intro e; apply hs; simp [e]
      have e3 : refStep b .colon d = ([.value [d]], .text) := by simp [refStep, hd, hv d (by simp)]
      have e5 : d :: v ++ b!"\r\n" = d :: (v ++ b!"\r\n") := rfl
      rw [e5, refRun_cons, e3, refRun_append, run_text b v (fun x hx => hv x (by simp [hx]))]
      simp only []
      rw [run_crlf _ _ (.inr rfl)]
      simp [octets]

/-- The callbacks of a list of header lines. -/
def evHeads (l : List (Bytes × Bytes)) : List Ev := l.flatMap (fun h => [.field h.1, .value h.2, .headerEnd])

theorem run_hlines {b s : Bytes} {l : List (Bytes × Bytes)} (h : HLines s l) : refRun b .line s = (octets (evHeads l), .line) := by
  induction h with
  | nil => rfl
  | cons h _ ih =>
    rw [refRun_append, run_hline h]
    simp only []
    rw [ih, ← octets_append]; rfl

/-- Data without the delimiter, read from nothing. -/
theorem run_data {b : Bytes} (hb : Boundary b) (pb : Bool) (d : Bytes) (hd : ¬ delim b <:+: d) :
    ∃ e m, refRun b (.body [] pb) d = (e.map (fun x => Ev.data [x]), .body m pb) ∧ e ++ m = d ∧ m.length < (delim b).length ∧
      m = (delim b).take m.length := by
  have hpos : 0 < (delim b).length := by rw [delim_length]; omega
  induction ht : d.length generalizing d with
  | zero =>
    have : d = [] := List.length_eq_zero_iff.mp ht
    subst this
    exact ⟨[], [], rfl, rfl, hpos, by simp⟩
  | succ n ih =>
    obtain ⟨u, c, rfl⟩ : ∃ u c, d = u ++ [c] := by
      rcases List.eq_nil_or_concat d with h | ⟨u, c, h⟩
      · subst h; simp at ht
      · exact ⟨u, c, by simpa using h⟩
    simp only [List.length_append, List.length_cons, List.length_nil] at ht
    obtain ⟨e, m, h1, h2, h3, h4⟩ := ih u (fun h => hd (h.trans ⟨[], [c], by simp⟩)) (by omega)
    rw [refRun_append, h1]
    simp only [refRun, List.append_nil]
    by_cases hc : (delim b).getD m.length 0 = c
    · have hm : m ++ [c] = (delim b).take (m.length + 1) := by rw [take_succ_getD h3, hc, ← h4]
      refine ⟨e, m ++ [c], ?_, by rw [← h2]; simp, ?_, ?_⟩
      · rw [body_fit h3 hc]; simp
      · rw [List.length_append, List.length_singleton]
        by_cases hl : m.length + 1 < (delim b).length
        · exact hl
        · exfalso
          apply hd
          rw [List.take_of_length_le (by omega)] at hm
          exact ⟨e, [], by rw [List.append_nil, ← hm, ← h2]; simp⟩
      · rw [List.length_append, List.length_singleton]; exact hm
    · rw [bodyStep_again (fun _ => hc) (fun h => by omega) (fun h => by omega)]
      rw [body_nil]
      by_cases hcr : c = 13
      · refine ⟨e ++ m, [c], ?_, (by rw [← h2]), ?_, ?_⟩
        · simp [hcr]
        · rw [delim_length]; simp
        · rw [hcr]; rfl
      · refine ⟨e ++ m ++ [c], [], ?_, by rw [← h2]; simp, hpos, by simp⟩
        rw [if_neg hcr]; simp

/-- The rest of the delimiter, after the octets `m` of it. -/
theorem run_fit {b : Bytes} (pb : Bool) (n : Nat) (m : Bytes) (hm : m = (delim b).take m.length) (hn : m.length + n = (delim b).length) :
    refRun b (.body m pb) ((delim b).drop m.length) = ([], .body (delim b) pb) := by
  induction n generalizing m with
  | zero =>
    rw [List.drop_of_length_le (by omega)]
    rw [List.take_of_length_le (by omega)] at hm
    rw [hm]; rfl
  | succ n ih =>
    have hlt : m.length < (delim b).length := by omega
    rw [drop_getD hlt, refRun_cons, body_fit hlt rfl]
    simp only []
    have hm' : m ++ [(delim b).getD m.length 0] = (delim b).take (m.length + 1) := by rw [take_succ_getD hlt, ← hm]
    have := ih (m ++ [(delim b).getD m.length 0]) (by rw [List.length_append, List.length_singleton]; exact hm')
      (by rw [List.length_append, List.length_singleton]; omega)
    rw [List.length_append, List.length_singleton] at this
    rw [this]; rfl

/-- Data without the delimiter, then the delimiter. -/
theorem run_delim {b : Bytes} (hb : Boundary b) (pb : Bool) (d : Bytes) (hd : ¬ delim b <:+: d) :
    refRun b (.body [] pb) (d ++ delim b) = (octets [.data d], .body (delim b) pb) := by
  have hpos : 0 < (delim b).length := by rw [delim_length]; omega
  obtain ⟨e, m, h1, h2, h3, h4⟩ := run_data hb pb d hd
  have hcut : delim b = 13 :: (delim b).drop 1 := rfl
  have hrest : refRun b (.body [13] pb) ((delim b).drop 1) = ([], .body (delim b) pb) :=
    run_fit pb ((delim b).length - 1) [13] rfl (by simp; omega)
  have hone : refStep b (.body m pb) 13 = (m.map (fun x => Ev.data [x]), .body [13] pb) := by
    by_cases hm : m = []
    · subst hm; rw [body_nil]; rfl
    · have : 0 < m.length := List.length_pos_iff.mpr hm
      rw [bodyStep_again (fun h => delim_tail hb this h) (fun h => by omega) (fun h => by omega), body_nil]
      simp
  rw [refRun_append, h1]
  simp only []
  rw [hcut, refRun_cons, hone]
  simp only []
  rw [hrest, ← hcut, ← h2]
  simp [octets]

theorem run_next (b : Bytes) : refRun b (.body (delim b) false) b!"\r\n" = ([.partEnd, .partBegin], .line) := by
  have : ¬ (delim b).length + 1 < (delim b).length := by omega
  simp [refRun, refStep, bodyStep, this]

theorem run_close (b : Bytes) : refRun b (.body (delim b) false) b!"--" = ([.partEnd, .finish], .over) := by
  have : ¬ (delim b).length + 1 < (delim b).length := by omega
  simp [refRun, refStep, bodyStep, this]

theorem run_over (b z : Bytes) : (refRun b .over z).1 = [] ∧ ((refRun b .over z).2 = .over ∨ (refRun b .over z).2 = .past) := by
  cases z with
  | nil => exact ⟨rfl, .inl rfl⟩
  | cons c z =>
    rw [refRun_cons]
    have : refStep b .over c = ([], .past) := rfl
    rw [this, refRun_past]
    exact ⟨rfl, .inr rfl⟩

/-- The callbacks of a part, after its beginning. -/
def evPart (p : List (Bytes × Bytes) × Bytes) : List Ev := evHeads p.1 ++ [.headersEnd, .data p.2, .partEnd]

/-- The callbacks of a message. -/
def evs (l : List (List (Bytes × Bytes) × Bytes)) : List Ev := l.flatMap (fun p => .partBegin :: evPart p) ++ [.finish]

theorem run_part {b s : Bytes} (hb : Boundary b) {p : List (Bytes × Bytes) × Bytes} (h : PartText b s p) (u : Bytes) :
    refRun b .line (s ++ delim b ++ u) = (octets (evHeads p.1 ++ [.headersEnd, .data p.2]) ++ (refRun b (.body (delim b) false) u).1,
      (refRun b (.body (delim b) false) u).2) := by
  obtain ⟨hl, hd⟩ := h
  rename_i s l d
  have e : s ++ b!"\r\n" ++ d ++ delim b ++ u = s ++ (b!"\r\n" ++ ((d ++ delim b) ++ u)) := by simp only [List.append_assoc]
  have hbl : refRun b .line b!"\r\n" = ([.headersEnd], .body [] false) := by simp [refRun, refStep]
  rw [e, refRun_append, run_hlines hl]
  simp only []
  rw [refRun_append, hbl]
  simp only []
  rw [refRun_append, run_delim hb false d hd]
  simp only [octets_append]
  simp [octets]

theorem run_parts {b t : Bytes} (hb : Boundary b) {l : List (List (Bytes × Bytes) × Bytes)} (h : PartsText b t l) :
    Ev.partBegin :: (refRun b .line t).1 = octets (evs l) ∧ ((refRun b .line t).2 = .over ∨ (refRun b .line t).2 = .past) := by
  induction h with
  | last hp =>
    rename_i s p z
    rw [List.append_assoc, run_part hb hp, refRun_append, run_close]
    obtain ⟨h1, h2⟩ := run_over b z
    simp only [h1]
    refine ⟨?_, h2⟩
    simp only [evs, evPart, octets_append, List.flatMap_cons, List.flatMap_nil, List.append_nil]
    simp [octets]
  | @more s p t l hp _ ih =>
    rw [List.append_assoc, run_part hb hp, refRun_append, run_next]
    simp only []
    refine ⟨?_, ih.2⟩
    have : octets (evs (p :: l)) = octets (.partBegin :: evPart p) ++ octets (evs l) := by
      rw [← octets_append]; simp [evs]
    rw [this, ← ih.1]
    simp only [evPart, octets_append]
    simp [octets]

theorem run_message {b s : Bytes} (hb : Boundary b) {l : List (List (Bytes × Bytes) × Bytes)} (h : Message b s l) :
    (refRun b (.init b) s).1 = octets (evs l) ∧ ((refRun b (.init b) s).2 = .over ∨ (refRun b (.init b) s).2 = .past) := by
  obtain ⟨t, rfl, ht⟩ := h
  rw [refRun_append]
  have : refRun b (.init b) (firstLine b) = ([.partBegin], .line) := run_first b _ (by simp [firstLine])
  rw [this]
  exact run_parts hb ht

/-! ## A reader that appends -/

/-- The reader with `append` for `assign`. -/
def handle2 (r : Rd) : Ev → Out Rd
  | .field b => if (r.name ++ b).length > MAX_HEADER_NAME_LENGTH then .throws else .ok { r with name := r.name ++ b }
  | .value b => if (r.value ++ b).length > MAX_HEADER_VALUE_LENGTH then .throws else .ok { r with value := r.value ++ b }
  | .data b =>
    if r.total + b.length > MAX_TOTAL_SIZE then .throws
    else match r.parts.getLast? with
      | none => if b = [] then .ok r else .ub
      | some q => .ok { r with total := r.total + b.length, parts := r.parts.dropLast ++ [{ q with body := q.body ++ b }] }
  | e => handle r e

/-- The callbacks in order. -/
def handles2 (r : Rd) : List Ev → Out Rd
  | [] => .ok r
  | e :: l => match handle2 r e with
    | .ok q => handles2 q l
    | .throws => .throws
    | .ub => .ub

/-- What holds of the reader at each place. -/
def RdOk (st : Bool) (ph : Ph) (r : Rd) : Prop :=
  (st = true → r.parts ≠ []) ∧ (ph = .head → r.name = [] ∧ r.value = []) ∧ (ph = .named → r.value = [])

theorem getLast?_ne {α : Type} {l : List α} (h : l ≠ []) : ∃ q, l.getLast? = some q := by
  cases hx : l.getLast? with
  | some q => exact ⟨q, rfl⟩
  | none => exact absurd (List.getLast?_eq_none_iff.mp hx) h

theorem handle_eq (e : Ev) (l : List Ev) (st : Bool) (ph : Ph) (r : Rd) (h : RdOk st ph r) (hg : Gr st ph (e :: l)) :
    handle r e = handle2 r e ∧ handle r e ≠ .ub ∧ ∀ q, handle r e = .ok q → ∃ st' ph', RdOk st' ph' q ∧ Gr st' ph' l := by
  obtain ⟨h1, h2, h3⟩ := h
  cases e with
  | partBegin =>
    refine ⟨rfl, ?_⟩
    simp only [handle]
    split
    · exact ⟨by simp, (fun q h => by cases h)⟩
    · exact ⟨by simp, (fun q h => by cases h; exact ⟨st, .head, ⟨h1, (fun _ => ⟨rfl, rfl⟩), (fun h => by cases h)⟩, hg.2⟩)⟩
  | field b =>
    obtain ⟨rfl, hg⟩ := hg
    simp only [handle2, handle, (h2 rfl).1, List.nil_append]
    refine ⟨trivial, ?_⟩
    split
    · exact ⟨by simp, (fun q h => by cases h)⟩
    · exact ⟨by simp, (fun q h => by cases h; exact ⟨st, .named, ⟨h1, (fun h => by cases h), (fun _ => (h2 rfl).2)⟩, hg⟩)⟩
  | value b =>
    obtain ⟨hph, hg⟩ := hg
    have hv : r.value = [] := by
      rcases hph with h | h
      · exact (h2 h).2
      · exact h3 h
    simp only [handle2, handle, hv, List.nil_append]
    refine ⟨trivial, ?_⟩
    split
    · exact ⟨by simp, (fun q h => by cases h)⟩
    · exact ⟨by simp, (fun q h => by cases h; exact ⟨st, .valued, ⟨h1, (fun h => by cases h), (fun h => by cases h)⟩, hg⟩)⟩
  | headerEnd =>
    exact ⟨rfl, by simp [handle], (fun q h => by cases h; exact ⟨st, .head, ⟨h1, (fun _ => ⟨rfl, rfl⟩), (fun h => by cases h)⟩, hg.2⟩)⟩
  | headersEnd =>
    exact ⟨rfl, by simp [handle], (fun q h => by cases h; exact ⟨true, .body, ⟨(fun _ => by simp), (fun h => by cases h), (fun h => by cases h)⟩, hg.2⟩)⟩
  | data b =>
    obtain ⟨rfl, hb, hg⟩ := hg
    obtain ⟨q, hq⟩ := getLast?_ne (h1 rfl)
    simp only [handle2, handle, hq]
    refine ⟨trivial, ?_⟩
    split
    · exact ⟨by simp, (fun q h => by cases h)⟩
    · exact ⟨by simp, (fun q h => by cases h; exact ⟨true, ph, ⟨(fun _ => by simp), h2, h3⟩, hg⟩)⟩
  | partEnd =>
    obtain ⟨rfl, hg⟩ := hg
    exact ⟨rfl, by simp [handle], (fun q h => by cases h; exact ⟨st, .body, ⟨h1, h2, h3⟩, hg⟩)⟩
  | finish =>
    obtain ⟨rfl, hg⟩ := hg
    exact ⟨rfl, by simp [handle], (fun q h => by cases h; exact ⟨st, .body, ⟨h1, h2, h3⟩, hg⟩)⟩

theorem handles_eq (l : List Ev) (st : Bool) (ph : Ph) (r : Rd) (h : RdOk st ph r) (hg : Gr st ph l) :
    handles r l = handles2 r l ∧ handles r l ≠ .ub := by
  induction l generalizing st ph r with
  | nil => exact ⟨rfl, by simp [handles]⟩
  | cons e l ih =>
    obtain ⟨h1, h2, h3⟩ := handle_eq e l st ph r h hg
    rw [handles, handles2, ← h1]
    cases hr : handle r e with
    | ok q =>
      obtain ⟨st', ph', a, c⟩ := h3 q hr
      exact ih st' ph' q a c
    | throws => exact ⟨rfl, by simp⟩
    | ub => exact absurd hr h2

theorem handles2_append (l m : List Ev) (r : Rd) : handles2 r (l ++ m) = match handles2 r l with
    | .ok q => handles2 q m
    | .throws => .throws
    | .ub => .ub := by
  induction l generalizing r with
  | nil => rfl
  | cons e l ih =>
    rw [List.cons_append, handles2, handles2]
    cases handle2 r e with
    | ok q => exact ih q
    | throws => rfl
    | ub => rfl

/-- The limits are kept. -/
def Within (r : Rd) : Prop := r.name.length ≤ MAX_HEADER_NAME_LENGTH ∧ r.value.length ≤ MAX_HEADER_VALUE_LENGTH ∧ r.total ≤ MAX_TOTAL_SIZE

theorem handle2_within {r q : Rd} {e : Ev} (h : Within r) (hq : handle2 r e = .ok q) : Within q := by
  obtain ⟨h1, h2, h3⟩ := h
  cases e with
  | partBegin =>
    simp only [handle2, handle] at hq
    split at hq
    · cases hq
    · cases hq; exact ⟨by simp, by simp, h3⟩
  | field b =>
    simp only [handle2] at hq
    split at hq
    · cases hq
    · cases hq; exact ⟨by simp only []; omega, h2, h3⟩
  | value b =>
    simp only [handle2] at hq
    split at hq
    · cases hq
    · cases hq; exact ⟨h1, by simp only []; omega, h3⟩
  | headerEnd => cases hq; exact ⟨by simp, by simp, h3⟩
  | headersEnd => cases hq; exact ⟨by simp, by simp, h3⟩
  | data b =>
    simp only [handle2] at hq
    split at hq
    · cases hq
    · split at hq
      · split at hq
        · cases hq; exact ⟨h1, h2, h3⟩
        · cases hq
      · cases hq; exact ⟨h1, h2, by simp only []; omega⟩
  | partEnd => cases hq; exact ⟨h1, h2, h3⟩
  | finish => cases hq; exact ⟨h1, h2, h3⟩

theorem octets_of_field (r : Rd) (h : Within r) (b : Bytes) : handles2 r (b.map (fun c => Ev.field [c])) = handle2 r (.field b) := by
  induction b generalizing r with
  | nil =>
    simp only [List.map_nil, handles2, handle2, List.append_nil]
    rw [if_neg (by have := h.1; omega)]
  | cons c b ih =>
    rw [List.map_cons, handles2]
    by_cases hc : (r.name ++ [c]).length > MAX_HEADER_NAME_LENGTH
    · have : handle2 r (.field [c]) = .throws := by simp only [handle2]; rw [if_pos hc]
      rw [this]
      simp only [handle2]
      rw [if_pos (by simp only [List.length_append, List.length_cons, List.length_nil] at hc ⊢; omega)]
    · have e : handle2 r (.field [c]) = .ok { r with name := r.name ++ [c] } := by simp only [handle2]; rw [if_neg hc]
      rw [e]
      simp only []
      rw [ih _ (handle2_within h e)]
      simp only [handle2, List.append_assoc, List.singleton_append]

theorem octets_of_value (r : Rd) (h : Within r) (b : Bytes) : handles2 r (b.map (fun c => Ev.value [c])) = handle2 r (.value b) := by
  induction b generalizing r with
  | nil =>
    simp only [List.map_nil, handles2, handle2, List.append_nil]
    rw [if_neg (by have := h.2.1; omega)]
  | cons c b ih =>
    rw [List.map_cons, handles2]
    by_cases hc : (r.value ++ [c]).length > MAX_HEADER_VALUE_LENGTH
    · have : handle2 r (.value [c]) = .throws := by simp only [handle2]; rw [if_pos hc]
      rw [this]
      simp only [handle2]
      rw [if_pos (by simp only [List.length_append, List.length_cons, List.length_nil] at hc ⊢; omega)]
    · have e : handle2 r (.value [c]) = .ok { r with value := r.value ++ [c] } := by simp only [handle2]; rw [if_neg hc]
      rw [e]
      simp only []
      rw [ih _ (handle2_within h e)]
      simp only [handle2, List.append_assoc, List.singleton_append]

theorem octets_of_data (r : Rd) (h : Within r) (hp : r.parts ≠ []) (b : Bytes) :
    handles2 r (b.map (fun c => Ev.data [c])) = handle2 r (.data b) := by
  induction b generalizing r with
  | nil =>
    obtain ⟨q, hq⟩ := getLast?_ne hp
    simp only [List.map_nil, handles2, handle2, hq, List.append_nil, List.length_nil, Nat.add_zero]
    rw [if_neg (by have := h.2.2; omega)]
    have : r.parts.dropLast ++ [q] = r.parts := by
      rw [List.getLast?_eq_some_getLast hp] at hq
      cases hq
      exact List.dropLast_concat_getLast hp
    rw [this]
  | cons c b ih =>
    obtain ⟨q, hq⟩ := getLast?_ne hp
    rw [List.map_cons, handles2]
    by_cases hc : r.total + [c].length > MAX_TOTAL_SIZE
    · have : handle2 r (.data [c]) = .throws := by simp only [handle2]; rw [if_pos hc]
      rw [this]
      simp only [handle2]
      rw [if_pos (by simp only [List.length_cons, List.length_nil] at hc ⊢; omega)]
    · have e : handle2 r (.data [c]) = .ok { r with total := r.total + [c].length, parts := r.parts.dropLast ++ [{ q with body := q.body ++ [c] }] } := by
        simp only [handle2, hq]; rw [if_neg hc]
      rw [e]
      simp only []
      rw [ih _ (handle2_within h e) (by simp)]
      simp only [handle2, hq, List.getLast?_append, List.getLast?_singleton, Option.some_or, List.length_cons, List.length_nil,
        List.append_assoc, List.singleton_append, List.dropLast_append_of_ne_nil (by simp : [({ q with body := q.body ++ [c] } : Part)] ≠ []),
        List.dropLast_singleton, List.append_nil, Nat.zero_add, Nat.add_assoc, Nat.add_comm 1, Option.getD_some]

theorem handle2_parts {r q : Rd} {e : Ev} (h : r.parts ≠ []) (hq : handle2 r e = .ok q) : q.parts ≠ [] := by
  cases e with
  | partBegin =>
    simp only [handle2, handle] at hq
    split at hq
    · cases hq
    · cases hq; exact h
  | field b =>
    simp only [handle2] at hq
    split at hq
    · cases hq
    · cases hq; exact h
  | value b =>
    simp only [handle2] at hq
    split at hq
    · cases hq
    · cases hq; exact h
  | headerEnd => cases hq; exact h
  | headersEnd => cases hq; simp
  | data b =>
    simp only [handle2] at hq
    split at hq
    · cases hq
    · split at hq
      · split at hq
        · cases hq; exact h
        · cases hq
      · cases hq; simp
  | partEnd => cases hq; exact h
  | finish => cases hq; exact h

/-- Data comes after the headers of some part. -/
def DataOk : Bool → List Ev → Prop
  | _, [] => True
  | _, .headersEnd :: l => DataOk true l
  | st, .data _ :: l => st = true ∧ DataOk st l
  | st, _ :: l => DataOk st l

theorem gr_dataOk (l : List Ev) (st : Bool) (ph : Ph) (h : Gr st ph l) : DataOk st l := by
  induction l generalizing st ph with
  | nil => trivial
  | cons e l ih =>
    cases e with
    | data b => exact ⟨h.1, ih _ _ h.2.2⟩
    | _ => exact ih _ _ h.2

theorem handles2_octets (l : List Ev) (st : Bool) (r : Rd) (h : Within r) (hs : st = true → r.parts ≠ []) (hd : DataOk st l) :
    handles2 r (octets l) = handles2 r l := by
  induction l generalizing st r with
  | nil => rfl
  | cons e l ih =>
    have hcut : octets (e :: l) = octets [e] ++ octets l := octets_append [e] l
    have key : handles2 r (octets [e]) = handle2 r e := by
      have one : ∀ e, handles2 r [e] = handle2 r e := by
        intro e
        simp only [handles2]
        cases handle2 r e <;> rfl
      cases e with
      | field b => simpa [octets] using octets_of_field r h b
      | value b => simpa [octets] using octets_of_value r h b
      | data b => simpa [octets] using octets_of_data r h (hs hd.1) b
      | _ => exact one _
    rw [hcut, handles2_append, key, handles2]
    cases hr : handle2 r e with
    | throws => rfl
    | ub => rfl
    | ok q =>
      have hw := handle2_within h hr
      simp only []
      cases e with
      | headersEnd => exact ih true q hw (fun _ => by cases hr; simp) hd
      | data b => exact ih st q hw (fun h => handle2_parts (hs h) hr) hd.2
      | _ => exact ih st q hw (fun h => handle2_parts (hs h) hr) hd

end Verif.Multi
