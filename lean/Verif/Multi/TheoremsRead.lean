import Verif.Multi.Read

/-! # C113: reading a multipart body; C115: the limits; C117: the reader -/

namespace Verif.Multi
open Verif.Utility Verif.Utility.Spec Verif.Wire Verif.Parse Verif.Mid

/-! ## The parts of a message -/

/-- The headers of a part as the reader collects them. -/
def collect (h : Headers) (l : List (Bytes × Bytes)) : Headers := l.foldl (fun h x => push h x.1 x.2) h

/-- Header lines within the limits. -/
def Fits (l : List (Bytes × Bytes)) : Prop := ∀ h ∈ l, h.1.length ≤ 1024 ∧ h.2.length ≤ 8192

theorem heads_ok (l : List (Bytes × Bytes)) (hl : Fits l) (r : Rd) (hn : r.name = []) (hv : r.value = []) :
    handles2 r (evHeads l) = .ok { r with headers := collect r.headers l } := by
  induction l generalizing r with
  | nil => rfl
  | cons h l ih =>
    have h1 := hl h (by simp)
    have e : evHeads (h :: l) = .field h.1 :: .value h.2 :: .headerEnd :: evHeads l := rfl
    have e1 : handle2 r (.field h.1) = .ok { r with name := h.1 } := by
      simp only [handle2, hn, List.nil_append]
      rw [if_neg (by unfold MAX_HEADER_NAME_LENGTH; omega)]
    have e2 : handle2 { r with name := h.1 } (.value h.2) = .ok { r with name := h.1, value := h.2 } := by
      simp only [handle2, hv, List.nil_append]
      rw [if_neg (by unfold MAX_HEADER_VALUE_LENGTH; omega)]
    rw [e, handles2, e1]
    simp only []
    rw [handles2, e2]
    simp only []
    rw [handles2]
    simp only [handle2, handle]
    rw [ih (fun x hx => hl x (by simp [hx])) _ rfl rfl]
    obtain ⟨c, t, n, v, hd, ps⟩ := r
    simp only at hn hv
    subst hn hv
    rfl

theorem heads_throw (l : List (Bytes × Bytes)) (hl : ¬ Fits l) (r : Rd) (hn : r.name = []) (hv : r.value = []) :
    handles2 r (evHeads l) = .throws := by
  induction l generalizing r with
  | nil => exact absurd (fun h hh => by simp at hh) hl
  | cons h l ih =>
    have e : evHeads (h :: l) = .field h.1 :: .value h.2 :: .headerEnd :: evHeads l := rfl
    rw [e, handles2]
    by_cases a : h.1.length > 1024
    · have : handle2 r (.field h.1) = .throws := by simp only [handle2, hn, List.nil_append]; exact if_pos a
      rw [this]
    · have e1 : handle2 r (.field h.1) = .ok { r with name := h.1 } := by simp only [handle2, hn, List.nil_append]; exact if_neg a
      rw [e1]
      simp only []
      rw [handles2]
      by_cases a2 : h.2.length > 8192
      · have : handle2 { r with name := h.1 } (.value h.2) = .throws := by simp only [handle2, hv, List.nil_append]; exact if_pos a2
        rw [this]
      · have e2 : handle2 { r with name := h.1 } (.value h.2) = .ok { r with name := h.1, value := h.2 } := by
          simp only [handle2, hv, List.nil_append]; exact if_neg a2
        rw [e2]
        simp only []
        rw [handles2]
        simp only [handle2, handle]
        apply ih _ _ rfl rfl
        intro hf
        apply hl
        intro x hx
        rcases List.mem_cons.mp hx with rfl | hx
        · exact ⟨by omega, by omega⟩
        · exact hf x hx

/-- The part the reader makes. -/
def built (p : List (Bytes × Bytes) × Bytes) : Part := { headers := settle (collect [] p.1), body := p.2 }

theorem part_ok (p : List (Bytes × Bytes) × Bytes) (r : Rd) (hc : r.count + 1 ≤ 1000) (hl : Fits p.1) (ht : r.total + p.2.length ≤ 104857600) :
    handles2 r (.partBegin :: evPart p) =
      .ok { count := r.count + 1, total := r.total + p.2.length, name := [], value := [], headers := [], parts := r.parts ++ [built p] } := by
  rw [handles2]
  simp only [handle2, handle]
  rw [if_neg (by unfold MAX_PARTS_COUNT; omega)]
  simp only []
  rw [evPart, handles2_append, heads_ok _ hl _ rfl rfl]
  simp only [handles2, handle2, handle, List.getLast?_append, List.getLast?_singleton, Option.some_or, List.nil_append]
  rw [if_neg (by unfold MAX_TOTAL_SIZE; omega)]
  simp only [List.dropLast_concat]
  rfl

theorem part_throw (p : List (Bytes × Bytes) × Bytes) (r : Rd) (h : ¬ (r.count + 1 ≤ 1000 ∧ Fits p.1 ∧ r.total + p.2.length ≤ 104857600)) :
    handles2 r (.partBegin :: evPart p) = .throws := by
  rw [handles2]
  simp only [handle2, handle]
  by_cases a : r.count + 1 > MAX_PARTS_COUNT
  · rw [if_pos a]
  · rw [if_neg a]
    simp only []
    rw [evPart, handles2_append]
    by_cases hl : Fits p.1
    · rw [heads_ok _ hl _ rfl rfl]
      simp only [handles2, handle2, handle, List.getLast?_append, List.getLast?_singleton, Option.some_or, List.nil_append]
      rw [if_pos]
      unfold MAX_PARTS_COUNT at a
      unfold MAX_TOTAL_SIZE
      have := fun h1 h2 => h ⟨h1, hl, h2⟩
      by_cases h2 : r.total + p.2.length ≤ 104857600
      · exact absurd h2 (this (by omega))
      · omega
    · rw [heads_throw _ hl _ rfl rfl]

/-- What the reader makes of the parts. -/
theorem parts_run (l : List (List (Bytes × Bytes) × Bytes)) (r : Rd) (hc : r.count ≤ 1000) (ht : r.total ≤ 104857600)
    (hn : r.name = []) (hv : r.value = []) (hh : r.headers = []) :
    (r.count + l.length ≤ 1000 ∧ r.total + (l.map (fun p => p.2.length)).sum ≤ 104857600 ∧ (∀ p ∈ l, Fits p.1) →
      ∃ q, handles2 r (evs l) = .ok q ∧ q.parts = r.parts ++ l.map built) ∧
    (¬ (r.count + l.length ≤ 1000 ∧ r.total + (l.map (fun p => p.2.length)).sum ≤ 104857600 ∧ (∀ p ∈ l, Fits p.1)) →
      handles2 r (evs l) = .throws) := by
  induction l generalizing r with
  | nil =>
    refine ⟨fun _ => ⟨r, rfl, by simp⟩, fun h => ?_⟩
    exact absurd ⟨by simpa using hc, by simpa using ht, by simp⟩ h
  | cons p l ih =>
    have e : evs (p :: l) = (.partBegin :: evPart p) ++ evs l := by simp [evs]
    rw [e, handles2_append]
    simp only [List.length_cons, List.map_cons, List.sum_cons, List.forall_mem_cons]
    by_cases h : r.count + 1 ≤ 1000 ∧ Fits p.1 ∧ r.total + p.2.length ≤ 104857600
    · rw [part_ok p r h.1 h.2.1 h.2.2]
      simp only []
      obtain ⟨i1, i2⟩ := ih { count := r.count + 1, total := r.total + p.2.length, name := [], value := [], headers := [], parts := r.parts ++ [built p] }
        h.1 h.2.2 rfl rfl rfl
      simp only at i1 i2
      constructor
      · rintro ⟨a, b, c⟩
        obtain ⟨q, h1, h2⟩ := i1 ⟨by omega, by omega, c.2⟩
        exact ⟨q, h1, by rw [h2]; simp⟩
      · intro hx
        exact i2 (fun ⟨a, b, c⟩ => hx ⟨by omega, by omega, h.2.1, c⟩)
    · rw [part_throw p r h]
      exact ⟨fun ⟨a, b, c⟩ => absurd ⟨by omega, c.1, by omega⟩ h, fun _ => rfl⟩

theorem iequals_iff (a b : Bytes) : iequals a b = true ↔ a.map lower = b.map lower := C04_iequals_exact a b

theorem find_collect (l : List (Bytes × Bytes)) (h : Headers) (k : Bytes) :
    (find (collect h l) k).getD [] = (find h k).getD [] ++ valuesOf l k := by
  induction l generalizing h with
  | nil => simp [collect, valuesOf]
  | cons x l ih =>
    have : collect h (x :: l) = collect (push h x.1 x.2) l := rfl
    rw [this, ih, find_push]
    by_cases hx : iequals x.1 k = true
    · have hm := (iequals_iff _ _).mp hx
      rw [if_pos hx]
      have : valuesOf (x :: l) k = x.2 :: valuesOf l k := by
        unfold valuesOf
        rw [List.filter_cons_of_pos (by simpa using hm)]; rfl
      rw [this]; simp
    · have hm : ¬ x.1.map lower = k.map lower := fun h => hx ((iequals_iff _ _).mpr h)
      rw [if_neg hx]
      have : valuesOf (x :: l) k = valuesOf l k := by
        unfold valuesOf
        rw [List.filter_cons_of_neg (by simpa using hm)]
      rw [this]

/-- What is kept under a name is never empty. -/
theorem find_collect_ne (l : List (Bytes × Bytes)) (h : Headers) (k : Bytes) (hh : find h k ≠ some []) : find (collect h l) k ≠ some [] := by
  induction l generalizing h with
  | nil => exact hh
  | cons x l ih =>
    have : collect h (x :: l) = collect (push h x.1 x.2) l := rfl
    rw [this]
    apply ih
    rw [find_push]
    split
    · simp
    · exact hh

theorem built_shows (p : List (Bytes × Bytes) × Bytes) : Shows p (built p) := by
  refine ⟨rfl, fun k => ?_⟩
  have hf := fun k => find_collect p.1 [] k
  have hempty : ∀ k, find ([] : Headers) k = none := fun _ => rfl
  simp only [hempty, Option.getD_none, List.nil_append] at hf
  have hne := find_collect_ne p.1 [] b!"Content-Type" (by simp [hempty])
  unfold built settle
  simp only []
  by_cases hs : (find (collect [] p.1) b!"Content-Type").isSome = true
  · rw [if_pos hs, find_setHeader]
    by_cases hk : iequals b!"Content-Type" k = true
    · rw [if_pos hk, if_pos ((iequals_iff _ _).mp hk).symm]
      have hv : valuesOf p.1 k = valuesOf p.1 b!"Content-Type" := by
        unfold valuesOf
        rw [(iequals_iff _ _).mp hk]
      rw [hv, ← hf]
      unfold header
      obtain ⟨l, hl⟩ := Option.isSome_iff_exists.mp hs
      rw [hl] at hne ⊢
      cases l with
      | nil => exact absurd rfl hne
      | cons a l => rfl
    · rw [if_neg hk, if_neg (fun h => hk ((iequals_iff _ _).mpr h.symm)), hf]
  · rw [if_neg hs, hf]
    split
    · rename_i hk
      have hv : valuesOf p.1 k = valuesOf p.1 b!"Content-Type" := by
        unfold valuesOf
        rw [hk]
      rw [hv, ← hf]
      cases hx : find (collect [] p.1) b!"Content-Type" with
      | none => rfl
      | some l => rw [hx] at hs; exact absurd rfl hs
    · rfl

/-! ## C113 -/

/-- Two lists of the same length, element by element. -/
inductive Each {α β : Type} (R : α → β → Prop) : List α → List β → Prop
  | nil : Each R [] []
  | cons {a b l m} : R a b → Each R l m → Each R (a :: l) (b :: m)

theorem each_map {α β : Type} {R : α → β → Prop} (f : α → β) (h : ∀ a, R a (f a)) (l : List α) : Each R l (l.map f) := by
  induction l with
  | nil => exact .nil
  | cons a l ih => exact .cons (h a) ih

theorem lineEnd_skip (u v : Bytes) (h : ∀ c ∈ u, c ≠ 13 ∧ c ≠ 10) : lineEnd (u ++ v) = (lineEnd v).map (· + u.length) := by
  induction u with
  | nil => simp
  | cons c u ih =>
    obtain ⟨h1, h2⟩ := h c (by simp)
    rw [List.cons_append, lineEnd, if_neg (by simp [h1, h2]), ih (fun d hd => h d (by simp [hd]))]
    cases lineEnd v with
    | none => rfl
    | some n => simp; omega

theorem lineEnd_first {b : Bytes} (hb : Boundary b) (t : Bytes) : lineEnd (firstLine b ++ t) = some (b.length + 2) := by
  have e : firstLine b ++ t = (b!"--" ++ b) ++ (b!"\r\n" ++ t) := by simp [firstLine]
  rw [e, lineEnd_skip]
  · simp [lineEnd]
  · intro c hc
    have : 32 ≤ c.toNat ∨ c = c!"-" := by
      rcases List.mem_append.mp hc with h | h
      · right; simpa using h
      · exact .inl (hb.2.2 c h).1
    rcases this with h | h
    · refine ⟨?_, ?_⟩ <;> (rintro rfl; exact absurd h (by decide))
    · subst h; decide

theorem feed_handles (b s : Bytes) : handles {} (feed (setBoundary b) s).2.1 ≠ .ub ∧
    handles {} (feed (setBoundary b) s).2.1 = handles2 {} (octets (feed (setBoundary b) s).2.1) := by
  have hg := feed_gr b s
  have hw : Within {} := by unfold Within; decide
  obtain ⟨h1, h2⟩ := handles_eq _ false .idle {} ⟨(fun h => by cases h), (fun h => by cases h), (fun h => by cases h)⟩ hg
  refine ⟨h2, ?_⟩
  rw [h1, handles2_octets _ false {} hw (fun h => by cases h) (gr_dataOk _ _ _ hg)]

/-- **C113.** A multipart body (without a preamble) is read as its parts: the data octet for octet, and under every name the values of the
header lines of that name, in order (for `Content-Type` the first). It is refused exactly if it exceeds the limits. -/
theorem C113_read (b s : Bytes) (l : List (List (Bytes × Bytes) × Bytes)) (hb : Boundary b) (h : Message b s l) :
    (Limits l → ∃ qs, asMultipart s = .ok { boundary := b, parts := qs } ∧ Each Shows l qs) ∧
    (¬ Limits l → asMultipart s = .throws) := by
  obtain ⟨r1, r2⟩ := run_message hb h
  have hbad : (refRun b (.init b) s).2 ≠ .bad ∧ (refRun b (.init b) s).2 ≠ .stray := by
    rcases r2 with h | h <;> rw [h] <;> simp
  obtain ⟨ha, ho⟩ := feed_sim hb (rel_init hb) s
  have ho := ho hbad.2 hbad.1
  obtain ⟨_, hh⟩ := feed_handles b s
  rw [ho, r1] at hh
  have hev : handles2 {} (octets (evs l)) = handles2 {} (evs l) := by
    apply handles2_octets _ false {} (by unfold Within; decide) (fun h => by cases h)
    have hheads : ∀ st (l : List (Bytes × Bytes)) m, DataOk st m → DataOk st (evHeads l ++ m) := by
      intro st l m hm
      induction l with
      | nil => exact hm
      | cons h l ih => exact ih
    have hgen : ∀ (l : List (List (Bytes × Bytes) × Bytes)) st, DataOk st (evs l) := by
      intro l
      induction l with
      | nil => intro st; trivial
      | cons p l ih =>
        intro st
        have e : evs (p :: l) = .partBegin :: (evHeads p.1 ++ (.headersEnd :: .data p.2 :: .partEnd :: evs l)) := by simp [evs, evPart]
        rw [e]
        show DataOk st (evHeads p.1 ++ _)
        apply hheads
        exact ⟨rfl, ih true⟩
    exact hgen l false
  rw [hev] at hh
  have hst : (feed (setBoundary b) s).1.state ≠ .error ∧ ((feed (setBoundary b) s).2.2 = .done ∨ (feed (setBoundary b) s).2.2 = .early) := by
    rcases r2 with h | h <;> rw [h] at ha
    · exact ⟨rel_ok ha.2, .inl ha.1⟩
    · refine ⟨?_, .inr ha.1⟩
      rw [ha.2]
      exact rel_ok (rel_init hb)
  have hline : lineEnd s = some (b.length + 2) := by
    obtain ⟨t, rfl, _⟩ := h
    exact lineEnd_first hb t
  have hslice : slice s 2 (b.length + 2) = b := by
    obtain ⟨t, rfl, _⟩ := h
    simp [slice, firstLine]
  obtain ⟨p1, p2⟩ := parts_run l {} (by simp) (by simp) rfl rfl rfl
  have hlim : Limits l ↔ (({} : Rd).count + l.length ≤ 1000 ∧ ({} : Rd).total + (l.map (fun p => p.2.length)).sum ≤ 104857600 ∧ (∀ p ∈ l, Fits p.1)) := by
    simp [Limits, Fits]
  have hb0 : 0 < b.length := List.length_pos_iff.mpr hb.1
  unfold asMultipart
  rw [hline]
  simp only []
  rw [if_neg (by omega), hslice]
  generalize feed (setBoundary b) s = f at *
  obtain ⟨p, e, o⟩ := f
  simp only at hh hst ⊢
  rw [hh]
  constructor
  · intro hL
    obtain ⟨q, h1, h2⟩ := p1 (hlim.mp hL)
    rw [h1]
    simp only []
    refine ⟨l.map built, ?_, each_map built built_shows l⟩
    rw [if_neg (by rcases hst.2 with h | h <;> rw [h] <;> simp), if_neg (by rcases hst.2 with h | h <;> simp [h, hst.1]), h2]
    rfl
  · intro hL
    rw [p2 (fun h => hL (hlim.mpr h))]

/-! ## C117, the reader -/

/-- **C117.** Whatever the body, reading it as a multipart body never touches memory outside the buffers nor the last of no parts. -/
theorem C117_reader (s : Bytes) : asMultipart s ≠ .ub := by
  unfold asMultipart
  split
  · simp
  · rename_i pos _
    split
    · simp
    · have h1 := (feed_handles (slice s 2 pos) s).1
      have h2 := C117_in_bounds (slice s 2 pos) [s]
      have h3 : (feed (setBoundary (slice s 2 pos)) s).2.2 ≠ .ub := by
        intro hx
        apply h2
        rw [feeds]
        generalize feed (setBoundary (slice s 2 pos)) s = f at *
        obtain ⟨p, e, o⟩ := f
        simp only at hx
        subst hx; rfl
      simp only []
      generalize feed (setBoundary (slice s 2 pos)) s = f at *
      obtain ⟨p, e, o⟩ := f
      simp only at h1 h3 ⊢
      cases hh : handles {} e with
      | ub => exact absurd hh h1
      | throws => simp
      | ok r =>
        simp only []
        rw [if_neg (by simpa using h3)]
        split <;> simp

/-! ## C115 -/

/-- A part within the limits. -/
def PartFits (h : Headers) : Prop := ∀ e ∈ h, e.1.length ≤ 1024 ∧ ∀ v ∈ e.2, v.length ≤ 8192

/-- What the reader keeps. -/
def Kept (ph : Ph) (r : Rd) : Prop :=
  r.count ≤ 1000 ∧ r.parts.length + (if ph = .head ∨ ph = .named ∨ ph = .valued then 1 else 0) ≤ r.count ∧
  r.total = (r.parts.map (fun q => q.body.length)).sum ∧ r.total ≤ 104857600 ∧ r.name.length ≤ 1024 ∧ r.value.length ≤ 8192 ∧
  PartFits r.headers ∧ ∀ q ∈ r.parts, PartFits q.headers

theorem push_fits {h : Headers} {k v : Bytes} (hh : PartFits h) (hk : k.length ≤ 1024) (hv : v.length ≤ 8192) : PartFits (push h k v) := by
  induction h with
  | nil => simp [push, PartFits, hk, hv]
  | cons e h ih =>
    have he := hh e (by simp)
    have ht : PartFits h := fun x hx => hh x (by simp [hx])
    rw [push]
    split
    · intro x hx
      rcases List.mem_cons.mp hx with rfl | hx
      · refine ⟨he.1, fun w hw => ?_⟩
        rcases List.mem_append.mp hw with hw | hw
        · exact he.2 w hw
        · rw [List.mem_singleton.mp hw]; exact hv
      · exact ht x hx
    · intro x hx
      rcases List.mem_cons.mp hx with rfl | hx
      · exact he
      · exact ih ht x hx

theorem setHeader_fits {h : Headers} {k v : Bytes} (hh : PartFits h) (hk : k.length ≤ 1024) (hv : v.length ≤ 8192) : PartFits (setHeader h k v) := by
  induction h with
  | nil => simp [setHeader, PartFits, hk, hv]
  | cons e h ih =>
    have he := hh e (by simp)
    have ht : PartFits h := fun x hx => hh x (by simp [hx])
    rw [setHeader]
    split
    · intro x hx
      rcases List.mem_cons.mp hx with rfl | hx
      · refine ⟨he.1, fun w hw => ?_⟩
        rw [List.mem_singleton.mp hw]; exact hv
      · exact ht x hx
    · intro x hx
      rcases List.mem_cons.mp hx with rfl | hx
      · exact he
      · exact ih ht x hx

theorem find_fits {h : Headers} (hh : PartFits h) (k : Bytes) : ∀ v ∈ (find h k).getD [], v.length ≤ 8192 := by
  unfold find
  cases hf : h.find? (fun e => iequals e.1 k) with
  | none => simp
  | some e => exact (hh e (List.mem_of_find?_eq_some hf)).2

theorem settle_fits {h : Headers} (hh : PartFits h) : PartFits (settle h) := by
  unfold settle
  split
  · apply setHeader_fits hh (by decide)
    unfold header
    have := find_fits hh b!"Content-Type"
    generalize (find h b!"Content-Type").getD [] = l at this
    cases l with
    | nil => simp
    | cons a l => exact this a (by simp)
  · exact hh

theorem sum_last {ps : List Part} {q : Part} (b : Bytes) (h : ps.getLast? = some q) :
    ((ps.dropLast ++ [({ q with body := q.body ++ b } : Part)]).map (fun q => q.body.length)).sum = (ps.map (fun q => q.body.length)).sum + b.length ∧
    (ps.dropLast ++ [({ q with body := q.body ++ b } : Part)]).length = ps.length ∧ q ∈ ps := by
  have hne : ps ≠ [] := by rintro rfl; simp at h
  rw [List.getLast?_eq_some_getLast hne] at h
  cases h
  have e := List.dropLast_concat_getLast hne
  refine ⟨?_, ?_, List.getLast_mem hne⟩
  · conv => rhs; rw [← e]
    simp [Nat.add_assoc]
  · have := List.length_pos_iff.mpr hne
    simp; omega

theorem handle_kept (e : Ev) (l : List Ev) (st : Bool) (ph : Ph) (r q : Rd) (h : Kept ph r) (hg : Gr st ph (e :: l)) (hr : handle r e = .ok q) :
    ∃ st' ph', Kept ph' q ∧ Gr st' ph' l := by
  obtain ⟨h1, h2, h3, h4, h5, h6, h7, h8⟩ := h
  have hnil : PartFits [] := fun x hx => by simp at hx
  cases e with
  | partBegin =>
    simp only [handle] at hr
    split at hr
    · cases hr
    · rename_i hc
      unfold MAX_PARTS_COUNT at hc
      cases hr
      refine ⟨st, .head, ⟨by simp only []; omega, ?_, h3, h4, by simp, by simp, hnil, h8⟩, hg.2⟩
      simp only [true_or, if_true]
      split at h2 <;> omega
  | field b =>
    obtain ⟨rfl, hg⟩ := hg
    simp only [handle] at hr
    split at hr
    · cases hr
    · rename_i hc
      unfold MAX_HEADER_NAME_LENGTH at hc
      cases hr
      exact ⟨st, .named, ⟨h1, by simpa using h2, h3, h4, by simp only []; omega, h6, h7, h8⟩, hg⟩
  | value b =>
    obtain ⟨hph, hg⟩ := hg
    simp only [handle] at hr
    split at hr
    · cases hr
    · rename_i hc
      unfold MAX_HEADER_VALUE_LENGTH at hc
      cases hr
      refine ⟨st, .valued, ⟨h1, ?_, h3, h4, h5, by simp only []; omega, h7, h8⟩, hg⟩
      rcases hph with rfl | rfl <;> simpa using h2
  | headerEnd =>
    obtain ⟨hph, hg⟩ := hg
    cases hr
    refine ⟨st, .head, ⟨h1, ?_, h3, h4, by simp, by simp, push_fits h7 h5 h6, h8⟩, hg⟩
    rcases hph with rfl | rfl | rfl <;> simpa using h2
  | headersEnd =>
    obtain ⟨rfl, hg⟩ := hg
    cases hr
    refine ⟨true, .body, ⟨h1, ?_, ?_, h4, by simp, by simp, hnil, ?_⟩, hg⟩
    · simpa using h2
    · simpa using h3
    · intro q hq
      rcases List.mem_append.mp hq with hq | hq
      · exact h8 q hq
      · rw [List.mem_singleton.mp hq]; exact settle_fits h7
  | data b =>
    obtain ⟨rfl, hb, hg⟩ := hg
    simp only [handle] at hr
    split at hr
    · cases hr
    · rename_i hc
      unfold MAX_TOTAL_SIZE at hc
      split at hr
      · cases hr
      · rename_i q' hq
        obtain ⟨s1, s2, s3⟩ := sum_last b hq
        cases hr
        refine ⟨true, ph, ⟨h1, by simp only [s2]; exact h2, by simp only [s1, h3], by simp only []; omega, h5, h6, h7, ?_⟩, hg⟩
        intro x hx
        rcases List.mem_append.mp hx with hx | hx
        · exact h8 x (List.dropLast_subset _ hx)
        · rw [List.mem_singleton.mp hx]; exact h8 q' s3
  | partEnd => cases hr; obtain ⟨rfl, hg⟩ := hg; exact ⟨st, .body, ⟨h1, h2, h3, h4, h5, h6, h7, h8⟩, hg⟩
  | finish => cases hr; obtain ⟨rfl, hg⟩ := hg; exact ⟨st, .body, ⟨h1, h2, h3, h4, h5, h6, h7, h8⟩, hg⟩

theorem handles_kept (l : List Ev) (st : Bool) (ph : Ph) (r q : Rd) (h : Kept ph r) (hg : Gr st ph l) (hr : handles r l = .ok q) :
    ∃ ph', Kept ph' q := by
  induction l generalizing st ph r with
  | nil => cases hr; exact ⟨ph, h⟩
  | cons e l ih =>
    rw [handles] at hr
    cases he : handle r e with
    | ok r' =>
      rw [he] at hr
      obtain ⟨st', ph', a, c⟩ := handle_kept e l st ph r r' h hg he
      exact ih st' ph' r' a c hr
    | throws => rw [he] at hr; cases hr
    | ub => rw [he] at hr; cases hr

/-- **C115.** Whatever the body, what is read from it has at most 1000 parts, at most 100 MiB of data, header names of at most 1024 and
values of at most 8192 octets, and a boundary of 1 to 70 characters without control characters. -/
theorem C115_limits (s : Bytes) (m : Mp) (h : asMultipart s = .ok m) :
    m.parts.length ≤ 1000 ∧ (m.parts.map (fun q => q.body.length)).sum ≤ 104857600 ∧
    (∀ q ∈ m.parts, ∀ e ∈ q.headers, e.1.length ≤ 1024 ∧ ∀ v ∈ e.2, v.length ≤ 8192) ∧ Boundary m.boundary := by
  unfold asMultipart at h
  split at h
  · cases h
  · rename_i pos _
    split at h
    · cases h
    · have hg := feed_gr (slice s 2 pos) s
      have hbd : (feed (setBoundary (slice s 2 pos)) s).1.state ≠ .error → Boundary (slice s 2 pos) := by
        intro hst
        rcases setBoundary_cases (slice s 2 pos) with ⟨h, _⟩ | ⟨_, e⟩
        · exact h
        · exfalso
          apply hst
          rw [e]
          unfold feed
          rw [if_pos (by rfl)]; rfl
      simp only at h
      generalize feed (setBoundary (slice s 2 pos)) s = f at *
      obtain ⟨p, e, o⟩ := f
      simp only at h hg hbd
      cases hh : handles {} e with
      | ub => rw [hh] at h; cases h
      | throws => rw [hh] at h; cases h
      | ok r =>
        rw [hh] at h
        simp only at h
        split at h
        · cases h
        · split at h
          · cases h
          · rename_i hst
            simp only [Bool.or_eq_true, beq_iff_eq, not_or] at hst
            cases h
            obtain ⟨ph, k⟩ := handles_kept e false .idle {} r
              ⟨by simp, by simp, by simp, by simp, by simp, by simp, (fun x hx => by simp at hx), (fun x hx => by simp at hx)⟩ hg hh
            obtain ⟨k1, k2, k3, k4, _, _, _, k8⟩ := k
            exact ⟨by simp only []; omega, by simp only [← k3]; exact k4, k8, hbd hst.2⟩

/-! ## What is accepted besides -/

/-- A body cut off inside the data of a part is read, without an error. -/
theorem C113_truncated : asMultipart b!"--b\r\nK: v\r\n\r\nabc" = .ok { boundary := b!"b", parts := [{ headers := [(b!"K", [b!"v"])], body := b!"abc" }] } := by
  decide +kernel

/-- A delimiter followed by CR and something else than LF hides the closing delimiter: it becomes data. -/
theorem C113_hidden_close : asMultipart b!"--b\r\n\r\nx\r\n--b\ry\r\n--b--" =
    .ok { boundary := b!"b", parts := [{ headers := [], body := b!"x\r\n--b\ry\r\n--b--" }] } := by decide +kernel

/-- A preamble is not supported. -/
theorem C113_preamble : asMultipart b!"hello\r\n--b\r\n\r\nx\r\n--b--" = .throws := by decide +kernel

/-- A concrete message. -/
example : Message b!"b" b!"--b\r\nK:  v\r\nk: w\r\n\r\nx\r\n--b\r\n\r\n\r\n--b--\r\n" [([(b!"K", b!"v"), (b!"k", b!"w")], b!"x"), ([], [])] ∧
    Boundary b!"b" ∧ Limits [([(b!"K", b!"v"), (b!"k", b!"w")], b!"x"), ([], [])] := by
  refine ⟨⟨b!"K:  v\r\nk: w\r\n\r\nx\r\n--b\r\n\r\n\r\n--b--\r\n", rfl, ?_⟩, by unfold Boundary; decide, ?_⟩
  · refine PartsText.more (s := b!"K:  v\r\nk: w\r\n" ++ b!"\r\n" ++ b!"x") (p := ([(b!"K", b!"v"), (b!"k", b!"w")], b!"x"))
      (t := b!"\r\n\r\n--b--\r\n") (.mk (.cons (s := b!"K:  v\r\n") (h := (b!"K", b!"v")) (t := b!"k: w\r\n") ?_ (.cons (s := b!"k: w\r\n") (t := []) ?_ .nil)) (by decide)) ?_
    · exact HLine.mk (n := b!"K") (v := b!"v") (k := 2) (by decide) (by decide) (by decide) (by decide)
    · exact HLine.mk (n := b!"k") (v := b!"w") (k := 1) (by decide) (by decide) (by decide) (by decide)
    · exact PartsText.last (s := [] ++ b!"\r\n" ++ []) (p := ([], [])) (z := b!"\r\n") (.mk .nil (by decide))
  · unfold Limits; decide

end Verif.Multi
