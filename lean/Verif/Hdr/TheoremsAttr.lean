import Verif.Hdr.Spec
import Verif.Utility.Extra
import Verif.Utility.Theorems

/-! # C107: attributes in header values; C108: content type -/

namespace Verif.Hdr
open Verif.Utility Verif.Utility.Spec

theorem ctl_iff (c : UInt8) : (isControl c = true ∧ c ≠ 9) ↔ Ctl c := by
  unfold Ctl isControl
  have : (c ≤ 31) ↔ c.toNat < 32 := by
    rw [UInt8.le_iff_toNat_le]; show c.toNat ≤ 31 ↔ _; omega
  have h2 : c = 127 ↔ c.toNat = 127 := by
    constructor
    · intro h; subst h; rfl
    · intro h; exact UInt8.toNat_inj.mp h
  simp [this, h2]

theorem ws_iff (c : UInt8) : isWs c = true ↔ Ows c := by simp [isWs, Ows]

theorem run_append (a : A) (s t : Bytes) : run a (s ++ t) = (run a s).bind (fun b => run b t) := by
  induction s generalizing a with
  | nil => rfl
  | cons c s ih =>
    rw [List.cons_append, run, run]
    cases step a c with
    | none => rfl
    | some b => exact ih b

theorem noBlank_append (a b : Bytes) : noBlank (a ++ b) = noBlank a ++ noBlank b := by simp [noBlank]

theorem noBlank_clean (t : Bytes) : ∀ c ∈ noBlank t, ¬ Ows c := by
  intro c hc
  unfold noBlank at hc
  rw [List.mem_filter] at hc
  have := hc.2
  intro h
  rcases h with h | h <;> subst h <;> simp at this

theorem trim_noBlank (t : Bytes) : trimWs (noBlank t) = noBlank t := by
  apply trimWs_of_clean
  · intro c hc; exact noBlank_clean t c (List.mem_of_head? hc)
  · intro c hc; exact noBlank_clean t c (List.mem_of_getLast? hc)

theorem sep_iff (c : UInt8) : (c == 59 || c == 44) = true ↔ Sep c := by simp [Sep]

/-! ## From the grammar to the parser -/

theorem run_name (t m : Bytes) (o : List (Bytes × Bytes)) (h : ∀ c ∈ t, c ≠ c!"=" ∧ ¬ Sep c ∧ ¬ Ctl c) (hl : m.length + (noBlank t).length ≤ 1024) :
    run { name := m, out := o } t = some { name := m ++ noBlank t, out := o } := by
  induction t generalizing m with
  | nil => simp [run, noBlank]
  | cons c t ih =>
    obtain ⟨h1, h2, h3⟩ := h c (List.mem_cons_self ..)
    have ht : ∀ d ∈ t, d ≠ c!"=" ∧ ¬ Sep d ∧ ¬ Ctl d := fun d hd => h d (List.mem_cons_of_mem _ hd)
    rw [run]
    show (match stepName { name := m, out := o } c with | some b => run b t | none => none) = _
    unfold stepName
    rw [if_neg (by simpa using h1), if_neg (by rw [sep_iff]; exact h2)]
    by_cases hw : isWs c = true
    · have hn : noBlank (c :: t) = noBlank t := by
        unfold noBlank; rw [List.filter_cons, if_neg]; have hw' : (c == 32 || c == 9) = true := hw; rw [hw']; decide
      rw [if_neg (by simp [hw])]
      rw [hn] at hl ⊢
      exact ih m ht hl
    · have hn : noBlank (c :: t) = c :: noBlank t := by
        unfold noBlank; rw [List.filter_cons, if_pos]; simpa [isWs] using hw
      rw [hn] at hl ⊢
      simp only [List.length_cons] at hl
      rw [if_pos (by simp [hw]), if_neg]
      · simp only []
        rw [ih (m ++ [c]) ht (by simp; omega)]
        simp
      · simp only [Bool.or_eq_true, not_or]
        refine ⟨?_, fun k => by (have k := of_decide_eq_true k; simp only [ATTRIBUTE_NAME_MAX] at k; omega)⟩
        intro hc
        apply h3
        rw [← ctl_iff]
        exact ⟨hc, fun e => hw (by subst e; decide)⟩

/-- The state inside an unquoted value. -/
abbrev inPlain (n v : Bytes) (o : List (Bytes × Bytes)) : A := { mode := .value, name := n, val := v, out := o }

theorem step_plain (n v : Bytes) (o : List (Bytes × Bytes)) (c : UInt8) : step (inPlain n v o) c = stepPlain (inPlain n v o) c := rfl

theorem run_blank (n z : Bytes) (o : List (Bytes × Bytes)) (h : ∀ c ∈ z, Ows c) : run (inPlain n [] o) z = some (inPlain n [] o) := by
  induction z with
  | nil => rfl
  | cons c z ih =>
    have hc := h c (List.mem_cons_self ..)
    rw [run, step_plain]
    have : stepPlain (inPlain n [] o) c = some (inPlain n [] o) := by
      unfold stepPlain
      rcases hc with e | e <;> subst e <;> simp
    rw [this]
    exact ih (fun d hd => h d (List.mem_cons_of_mem _ hd))

theorem run_push (n v y : Bytes) (o : List (Bytes × Bytes)) (hv : v ≠ []) (h : ∀ c ∈ y, ¬ Sep c ∧ ¬ Ctl c) (hl : v.length + y.length ≤ 8192) :
    run (inPlain n v o) y = some (inPlain n (v ++ y) o) := by
  induction y generalizing v with
  | nil => simp [run]
  | cons c y ih =>
    obtain ⟨h2, h3⟩ := h c (List.mem_cons_self ..)
    simp only [List.length_cons] at hl
    have hve : v.isEmpty = false := by simpa using hv
    rw [run, step_plain]
    have : stepPlain (inPlain n v o) c = some (inPlain n (v ++ [c]) o) := by
      unfold stepPlain
      rw [if_neg (by rw [sep_iff]; exact h2), if_neg (by simp [hve])]
      by_cases hw : isWs c = true
      · have hw' : (c == 32 || c == 9) = true := hw
        rw [if_pos hw', if_pos (by simp [hve])]
      · have hw' : ¬ (c == 32 || c == 9) = true := hw
        rw [if_neg hw', if_neg]
        simp only [Bool.or_eq_true, not_or]
        refine ⟨?_, fun k => by (have k := of_decide_eq_true k; simp only [ATTRIBUTE_VALUE_MAX] at k; omega)⟩
        intro hc
        apply h3
        rw [← ctl_iff]
        exact ⟨hc, fun e => hw (by subst e; decide)⟩
    rw [this]
    simp only []
    rw [ih (v ++ [c]) (by simp) (fun d hd => h d (List.mem_cons_of_mem _ hd)) (by simp; omega)]
    simp

theorem run_trail (n v z : Bytes) (o : List (Bytes × Bytes)) (hv : v ≠ []) (h : ∀ c ∈ z, Ows c) :
    run (inPlain n v o) z = some (inPlain n (v ++ z) o) := by
  induction z generalizing v with
  | nil => simp [run]
  | cons c z ih =>
    have hc := h c (List.mem_cons_self ..)
    have hve : v.isEmpty = false := by simpa using hv
    rw [run, step_plain]
    have : stepPlain (inPlain n v o) c = some (inPlain n (v ++ [c]) o) := by
      unfold stepPlain
      rcases hc with e | e <;> subst e <;> simp [hve]
    rw [this]
    simp only []
    rw [ih (v ++ [c]) (by simp) (fun d hd => h d (List.mem_cons_of_mem _ hd))]
    simp

theorem run_value (n v w : Bytes) (o : List (Bytes × Bytes)) (h : ∀ c ∈ v, ¬ Sep c ∧ ¬ Ctl c) (hw : IsTrim v w)
    (hq : ∀ c, w.head? = some c → c ≠ 39 ∧ c ≠ 34) (hl : w.length ≤ 8192) :
    ∃ x, run (inPlain n [] o) v = some (inPlain n x o) ∧ trimWs x = w := by
  obtain ⟨pre, post, e, h1, h2, h3, h4⟩ := hw
  subst e
  cases w with
  | nil =>
    refine ⟨[], ?_, by decide⟩
    apply run_blank
    intro c hc
    simp only [List.append_nil, List.mem_append] at hc
    rcases hc with hc | hc
    · exact h1 c hc
    · exact h2 c hc
  | cons c w =>
    refine ⟨c :: w ++ post, ?_, trimWs_eq ⟨[], post, by simp, by simp, h2, h3, h4⟩⟩
    rw [List.append_assoc, run_append, run_blank n pre o h1]
    simp only [Option.bind_some]
    rw [List.cons_append, run, step_plain]
    obtain ⟨q1, q2⟩ := hq c rfl
    have hcw := h3 c rfl
    obtain ⟨c2, c3⟩ := h c (by simp)
    have hwc : ¬ isWs c = true := fun k => hcw ((ws_iff c).mp k)
    have : stepPlain (inPlain n [] o) c = some (inPlain n [c] o) := by
      unfold stepPlain
      have hwc' : ¬ (c == 32 || c == 9) = true := hwc
      rw [if_neg (by rw [sep_iff]; exact c2), if_neg (by simp [q1, q2]), if_neg hwc', if_neg]
      · rfl
      · simp only [Bool.or_eq_true, not_or]
        refine ⟨?_, by simp [ATTRIBUTE_VALUE_MAX]⟩
        intro hc
        apply c3
        rw [← ctl_iff]
        exact ⟨hc, fun e => hwc (by subst e; decide)⟩
    rw [this]
    simp only []
    rw [run_append, run_push n [c] w o (by simp) (fun d hd => h d (by simp [hd])) (by simp only [List.length_cons, List.length_nil] at *; omega)]
    simp only [Option.bind_some]
    rw [run_trail n _ post o (by simp) h2]
    simp

/-- The state inside quotes. -/
abbrev inQuotes (n v : Bytes) (q : UInt8) (o : List (Bytes × Bytes)) : A := { mode := .value, name := n, val := v, quote := q, out := o }

theorem step_quotes (n v : Bytes) (q c : UInt8) (e : Bool) (o : List (Bytes × Bytes)) (hq : q ≠ 0) :
    step { inQuotes n v q o with esc := e } c = stepQuoted { inQuotes n v q o with esc := e } c := by
  unfold step
  simp only []
  rw [if_neg (by simpa using hq)]

theorem run_quoted (n : Bytes) (q : UInt8) (b v u : Bytes) (o : List (Bytes × Bytes)) (hq : q ≠ 0) (hb : Quoted q b v) (hl : u.length + v.length ≤ 8192) :
    run (inQuotes n u q o) b = some (inQuotes n (u ++ v) q o) := by
  induction hb generalizing u with
  | nil => simp [run]
  | @char c b v h1 h2 h3 _ ih =>
    simp only [List.length_cons] at hl
    rw [run, step_quotes n u q c false o hq]
    have : stepQuoted (inQuotes n u q o) c = some (inQuotes n (u ++ [c]) q o) := by
      unfold stepQuoted
      rw [if_neg (by simp), if_neg (by simpa using h2), if_neg (by simpa using h1), if_neg (by simp only [ATTRIBUTE_VALUE_MAX]; omega), if_neg]
      rw [Bool.and_eq_true]
      rintro ⟨k1, k2⟩
      exact h3 ((ctl_iff c).mp ⟨k1, by simpa using k2⟩)
    rw [this]
    simp only []
    rw [ih (u ++ [c]) (by simp; omega)]
    simp
  | @pair c b v h1 _ ih =>
    simp only [List.length_cons] at hl
    rw [run, step_quotes n u q _ false o hq]
    have h1' : stepQuoted (inQuotes n u q o) c!"\\" = some { inQuotes n u q o with esc := true } := by
      unfold stepQuoted
      rw [if_neg (by simp), if_pos (by simp)]
    rw [h1']
    simp only []
    rw [run, step_quotes n u q c true o hq]
    have : stepQuoted { inQuotes n u q o with esc := true } c = some (inQuotes n (u ++ [c]) q o) := by
      unfold stepQuoted
      rw [if_pos rfl, if_neg, if_neg (by simp only [ATTRIBUTE_VALUE_MAX]; omega)]
      rw [Bool.and_eq_true]
      rintro ⟨k1, k2⟩
      exact h1 ((ctl_iff c).mp ⟨k1, by simpa using k2⟩)
    rw [this]
    simp only []
    rw [ih (u ++ [c]) (by simp; omega)]
    simp

/-- The state after a closing quote. -/
abbrev afterQuote (o : List (Bytes × Bytes)) : A := { mode := .after, out := o }

theorem run_after (z : Bytes) (o : List (Bytes × Bytes)) (h : ∀ c ∈ z, Ows c) : run (afterQuote o) z = some (afterQuote o) := by
  induction z with
  | nil => rfl
  | cons c z ih =>
    have hc := h c (List.mem_cons_self ..)
    rw [run]
    have : step (afterQuote o) c = some (afterQuote o) := by
      show stepAfter _ c = _
      unfold stepAfter
      rcases hc with e | e <;> subst e <;> simp
    rw [this]
    exact ih (fun d hd => h d (List.mem_cons_of_mem _ hd))

theorem run_equals (n : Bytes) (o : List (Bytes × Bytes)) (s : Bytes) (h : NameText n) (hn : noBlank n ≠ []) :
    run { out := o } (n ++ c!"=" :: s) = run (inPlain (noBlank n) [] o) s := by
  rw [run_append, run_name n [] o h.1 (by simpa using h.2)]
  simp only [Option.bind_some, List.nil_append]
  rw [run]
  have : step { name := noBlank n, out := o } c!"=" = some (inPlain (noBlank n) [] o) := by
    show stepName _ _ = _
    unfold stepName
    rw [if_pos (by decide), if_neg]
    simp only [trim_noBlank]
    simpa using hn
  rw [this]

/-- The result of one attribute: finishing there gives it, and going on after a separator keeps it. -/
theorem run_attr {s : Bytes} {l : List (Bytes × Bytes)} (o : List (Bytes × Bytes)) (h : Attr s l) :
    ∃ a, run { out := o } s = some a ∧ finish a = some (o ++ l) ∧ ∀ d, Sep d → step a d = some { out := o ++ l } := by
  cases h with
  | empty h1 h2 =>
    refine ⟨{ out := o }, ?_, ?_, ?_⟩
    · have := run_name s [] o h1.1 (by simpa using h1.2)
      rw [this, h2]; rfl
    · simp [finish]
    · rintro d hd
      show stepName _ d = _
      unfold stepName
      rw [if_neg (by rintro e; rcases hd with k | k <;> subst k <;> simp at e), if_pos ((sep_iff d).mpr hd)]
      simp
  | bare h1 h2 =>
    refine ⟨{ name := noBlank s, out := o }, ?_, ?_, ?_⟩
    · have := run_name s [] o h1.1 (by simpa using h1.2)
      rw [this]; rfl
    · unfold finish
      rw [if_pos (by simpa using h2)]
      simp only [trim_noBlank]
      simp [trimWs]
    · rintro d hd
      show stepName _ d = _
      unfold stepName
      rw [if_neg (by rintro e; rcases hd with k | k <;> subst k <;> simp at e), if_pos ((sep_iff d).mpr hd), if_pos (by simpa using h2)]
      simp only [trim_noBlank]
  | @plain n v w h1 h2 h3 h4 h5 h6 =>
    obtain ⟨x, hx, hw⟩ := run_value (noBlank n) v w o h3 h4 h5 h6
    refine ⟨inPlain (noBlank n) x o, ?_, ?_, ?_⟩
    · rw [run_equals n o v h1 h2, hx]
    · unfold finish
      rw [if_pos (by simpa using h2)]
      simp only [trim_noBlank, hw]
      simp
    · intro d hd
      rw [step_plain]
      unfold stepPlain
      rw [if_pos ((sep_iff d).mpr hd)]
      simp only [trim_noBlank, hw]
  | @quoted n a q b v z h1 h2 h3 h4 h5 h6 h7 =>
    have hq : q ≠ 0 := by rcases h4 with e | e <;> subst e <;> decide
    refine ⟨afterQuote (o ++ [(noBlank n, v)]), ?_, ?_, ?_⟩
    · rw [run_equals n o _ h1 h2, run_append, run_blank _ a o h3]
      simp only [Option.bind_some]
      rw [run, step_plain]
      have hs : stepPlain (inPlain (noBlank n) [] o) q = some (inQuotes (noBlank n) [] q o) := by
        unfold stepPlain
        rcases h4 with e | e <;> subst e <;> rfl
      rw [hs]
      simp only []
      rw [run_append, run_quoted (noBlank n) q b v [] o hq h5 (by simpa using h6)]
      simp only [Option.bind_some, List.nil_append]
      rw [run, step_quotes (noBlank n) v q q false o hq]
      have hs2 : stepQuoted (inQuotes (noBlank n) v q o) q = some (afterQuote (o ++ [(noBlank n, v)])) := by
        unfold stepQuoted
        rw [if_neg (by simp), if_neg (by rcases h4 with e | e <;> subst e <;> decide), if_pos (by simp)]
        simp only [trim_noBlank]
      rw [hs2]
      exact run_after z _ h7
    · simp [finish]
    · intro d hd
      show stepAfter _ d = _
      unfold stepAfter
      rw [if_pos ((sep_iff d).mpr hd)]

theorem run_attrs {s : Bytes} {l : List (Bytes × Bytes)} (h : Attrs s l) (o : List (Bytes × Bytes)) :
    (run { out := o } s).bind finish = some (o ++ l) := by
  induction h generalizing o with
  | last h =>
    obtain ⟨a, h1, h2, _⟩ := run_attr o h
    rw [h1]; exact h2
  | @more s l d t r h hd _ ih =>
    obtain ⟨a, h1, _, h2⟩ := run_attr o h
    rw [run_append, h1]
    simp only [Option.bind_some]
    rw [run, h2 d hd]
    simp only []
    rw [ih, List.append_assoc]

/-! ## From the parser to the grammar -/

theorem Quoted.snoc {q : UInt8} {b v : Bytes} (h : Quoted q b v) {c : UInt8} (h1 : c ≠ q) (h2 : c ≠ c!"\\") (h3 : ¬ Ctl c) :
    Quoted q (b ++ [c]) (v ++ [c]) := by
  induction h with
  | nil => exact .char h1 h2 h3 .nil
  | char a b c _ ih => exact .char a b c ih
  | pair a _ ih => exact .pair a ih

theorem Quoted.snoc2 {q : UInt8} {b v : Bytes} (h : Quoted q b v) {c : UInt8} (h3 : ¬ Ctl c) :
    Quoted q (b ++ [c!"\\", c]) (v ++ [c]) := by
  induction h with
  | nil => exact .pair h3 .nil
  | char a b c _ ih => exact .char a b c ih
  | pair a _ ih => exact .pair a ih

/-- The text of a value so far: the blanks before it, and what was kept. -/
def ValSoFar (v x : Bytes) : Prop :=
  (∀ c ∈ v, ¬ Sep c ∧ ¬ Ctl c) ∧ (∃ pre, v = pre ++ x ∧ ∀ c ∈ pre, Ows c) ∧ (∀ c, x.head? = some c → ¬ Ows c ∧ c ≠ 39 ∧ c ≠ 34) ∧
  (trimWs x).length ≤ 8192

/-- What the state says about the text since the last separator, given what was stored before it. -/
inductive Part (o : List (Bytes × Bytes)) : Bytes → A → Prop
  | name {t} : NameText t → Part o t { name := noBlank t, out := o }
  | plain {n v x} : NameText n → noBlank n ≠ [] → ValSoFar v x → Part o (n ++ c!"=" :: v) (inPlain (noBlank n) x o)
  | quoted {n a q b v} : NameText n → noBlank n ≠ [] → (∀ c ∈ a, Ows c) → (q = 39 ∨ q = 34) → Quoted q b v → v.length ≤ 8192 →
      Part o (n ++ c!"=" :: (a ++ q :: b)) (inQuotes (noBlank n) v q o)
  | escaped {n a q b v} : NameText n → noBlank n ≠ [] → (∀ c ∈ a, Ows c) → (q = 39 ∨ q = 34) → Quoted q b v → v.length ≤ 8192 →
      Part o (n ++ c!"=" :: (a ++ q :: (b ++ [c!"\\"]))) { inQuotes (noBlank n) v q o with esc := true }
  | after {n a q b v z} : NameText n → noBlank n ≠ [] → (∀ c ∈ a, Ows c) → (q = 39 ∨ q = 34) → Quoted q b v → v.length ≤ 8192 →
      (∀ c ∈ z, Ows c) → Part o (n ++ c!"=" :: (a ++ q :: (b ++ q :: z))) (afterQuote (o ++ [(noBlank n, v)]))

theorem valSoFar_attr {n v x : Bytes} (h1 : NameText n) (h2 : noBlank n ≠ []) (h : ValSoFar v x) : Attr (n ++ c!"=" :: v) [(noBlank n, trimWs x)] := by
  obtain ⟨a, ⟨pre, e, hp⟩, c, d⟩ := h
  refine .plain h1 h2 a ?_ ?_ d
  · obtain ⟨p, q, e', h3, h4, h5, h6⟩ := trimWs_spec x
    exact ⟨pre ++ p, q, by rw [e]; conv => lhs; rw [e']
                           simp, by intro z hz; rcases List.mem_append.mp hz with k | k; exact hp z k; exact h3 z k, h4, h5, h6⟩
  · intro z hz
    obtain ⟨p, q, e', h3, h4, h5, h6⟩ := trimWs_spec x
    cases p with
    | nil =>
      refine (c z ?_).2
      rw [e']
      cases ht : trimWs x with
      | nil => rw [ht] at hz; cases hz
      | cons f w => rw [ht] at hz; exact hz
    | cons f p =>
      have := (c f (by rw [e']; rfl)).1
      exact absurd (h3 f (List.mem_cons_self ..)) this

theorem noBlank_snoc_ws (t : Bytes) (c : UInt8) (h : isWs c = true) : noBlank (t ++ [c]) = noBlank t := by
  have h' : (c == 32 || c == 9) = true := h
  unfold noBlank
  rw [List.filter_append, List.filter_cons, if_neg (by rw [h']; simp)]
  simp

theorem noBlank_snoc (t : Bytes) (c : UInt8) (h : ¬ isWs c = true) : noBlank (t ++ [c]) = noBlank t ++ [c] := by
  have h' : ¬ (c == 32 || c == 9) = true := h
  unfold noBlank
  rw [List.filter_append, List.filter_cons, if_pos (by simpa using h')]
  simp

theorem nameText_nil : NameText [] := ⟨(fun c hc => by cases hc), by decide⟩

/-- One step of the parser keeps the description, or a separator ends the attribute. -/
theorem part_step {o : List (Bytes × Bytes)} {p : Bytes} {a b : A} {c : UInt8} (h : Part o p a) (hs : step a c = some b) :
    Part o (p ++ [c]) b ∨ (Sep c ∧ ∃ l, Attr p l ∧ b = { out := o ++ l }) := by
  cases h with
  | name ht =>
    change stepName _ c = some b at hs
    unfold stepName at hs
    split at hs
    · split at hs
      · cases hs
      · rename_i h1 h2
        have h1 : c = 61 := by simpa using h1
        subst h1
        simp only [trim_noBlank] at h2
        cases hs
        left
        exact Part.plain (v := []) ht (by simpa using h2) ⟨(fun c hc => by cases hc), ⟨[], rfl, fun c hc => by cases hc⟩, (fun c hc => by cases hc), by decide⟩
    rename_i h1
    split at hs
    · rename_i h2
      right
      refine ⟨(sep_iff c).mp h2, ?_⟩
      split at hs
      · rename_i h3
        cases hs
        refine ⟨_, .bare ht (by simpa using h3), ?_⟩
        simp only [trim_noBlank]
      · rename_i h3
        cases hs
        have h3 : noBlank p = [] := by simpa using h3
        refine ⟨[], .empty ht h3, ?_⟩
        rw [h3, List.append_nil]
    rename_i h2
    have hsep : ¬ Sep c := fun k => h2 ((sep_iff c).mpr k)
    have h1 : c ≠ c!"=" := by simpa using h1
    left
    split at hs
    · rename_i h3
      split at hs
      · cases hs
      · rename_i h4
        simp only [Bool.or_eq_true, not_or] at h4
        have h4b : ¬ (noBlank p).length ≥ ATTRIBUTE_NAME_MAX := fun k => h4.2 (decide_eq_true k)
        simp only [ATTRIBUTE_NAME_MAX] at h4b
        cases hs
        have hw : ¬ isWs c = true := by simpa using h3
        have := Part.name (o := o) (t := p ++ [c]) ⟨?_, ?_⟩
        · rw [noBlank_snoc p c hw] at this; exact this
        · intro d hd
          rcases List.mem_append.mp hd with k | k
          · exact ht.1 d k
          · simp at k; subst k
            exact ⟨h1, hsep, fun k => h4.1 ((ctl_iff d).mpr k).1⟩
        · rw [noBlank_snoc p c hw]; simp; omega
    · rename_i h3
      cases hs
      have hw : isWs c = true := by simpa using h3
      have := Part.name (o := o) (t := p ++ [c]) ⟨?_, ?_⟩
      · rw [noBlank_snoc_ws p c hw] at this; exact this
      · intro d hd
        rcases List.mem_append.mp hd with k | k
        · exact ht.1 d k
        · simp at k; subst k
          refine ⟨h1, hsep, fun k => ?_⟩
          rcases (ws_iff d).mp hw with e | e <;> subst e
          · exact absurd ((ctl_iff _).mpr k).1 (by decide)
          · exact k.2 rfl
      · rw [noBlank_snoc_ws p c hw]; exact ht.2
  | @plain n v x h1 h2 h3 =>
    rw [step_plain] at hs
    unfold stepPlain at hs
    split at hs
    · rename_i h4
      cases hs
      right
      refine ⟨(sep_iff c).mp h4, _, valSoFar_attr h1 h2 h3, ?_⟩
      simp only [trim_noBlank]
    rename_i h4
    have hsep : ¬ Sep c := fun k => h4 ((sep_iff c).mpr k)
    left
    obtain ⟨ha, ⟨pre, e, hp⟩, hx, hl⟩ := h3
    split at hs
    · rename_i h5
      rw [Bool.and_eq_true] at h5
      have hx0 : x = [] := by simpa using h5.1
      subst hx0
      cases hs
      have hv : ∀ c ∈ v, Ows c := by rw [e]; simpa using hp
      have := Part.quoted (o := o) (n := n) (a := v) (q := c) (b := []) (v := []) h1 h2 hv (by simpa using h5.2) .nil (by simp)
      simpa using this
    rename_i h5
    have happ : (n ++ c!"=" :: v) ++ [c] = n ++ c!"=" :: (v ++ [c]) := by simp
    split at hs
    · rename_i h6
      have hw : Ows c := (ws_iff c).mp h6
      have hc : ¬ Ctl c := by
        intro k
        rcases hw with e | e <;> subst e
        · exact absurd ((ctl_iff _).mpr k).1 (by decide)
        · exact k.2 rfl
      have hall : ∀ d ∈ v ++ [c], ¬ Sep d ∧ ¬ Ctl d := by
        intro d hd
        rcases List.mem_append.mp hd with k | k
        · exact ha d k
        · simp at k; subst k; exact ⟨hsep, hc⟩
      split at hs
      · rename_i h7
        have h7 : x ≠ [] := by simpa using h7
        cases hs
        rw [happ]
        refine .plain h1 h2 ⟨hall, ⟨pre, by rw [e]; simp, hp⟩, ?_, ?_⟩
        · intro d hd
          apply hx
          cases x with
          | nil => exact absurd rfl h7
          | cons f x => exact hd
        · have : trimWs (x ++ [c]) = trimWs x := by
            obtain ⟨p', q', e', t1, t2, t3, t4⟩ := trimWs_spec x
            exact trimWs_eq ⟨p', q' ++ [c], by conv => lhs; rw [e']
                                               simp, t1, by intro d hd; rcases List.mem_append.mp hd with k | k; exact t2 d k; simp at k; subst k; exact hw, t3, t4⟩
          rw [this]; exact hl
      · rename_i h7
        have h7 : x = [] := by simpa using h7
        subst h7
        cases hs
        rw [happ]
        refine .plain h1 h2 ⟨hall, ⟨v ++ [c], by simp, ?_⟩, (fun d hd => by cases hd), by decide⟩
        intro d hd
        rcases List.mem_append.mp hd with k | k
        · rw [e] at k; exact hp d (by simpa using k)
        · simp at k; subst k; exact hw
    · rename_i h6
      split at hs
      · cases hs
      · rename_i h7
        simp only [Bool.or_eq_true, not_or] at h7
        have h7b : ¬ x.length ≥ ATTRIBUTE_VALUE_MAX := fun k => h7.2 (decide_eq_true k)
        simp only [ATTRIBUTE_VALUE_MAX] at h7b
        cases hs
        have hw : ¬ Ows c := fun k => h6 ((ws_iff c).mpr k)
        rw [happ]
        refine .plain h1 h2 ⟨?_, ⟨pre, by rw [e]; simp, hp⟩, ?_, ?_⟩
        · intro d hd
          rcases List.mem_append.mp hd with k | k
          · exact ha d k
          · simp at k; subst k; exact ⟨hsep, fun k => h7.1 ((ctl_iff d).mpr k).1⟩
        · intro d hd
          cases x with
          | nil =>
            simp at hd; subst hd
            refine ⟨hw, ?_⟩
            simp only [List.isEmpty_nil, Bool.true_and, Bool.or_eq_true, not_or] at h5
            exact ⟨by simpa using h5.1, by simpa using h5.2⟩
          | cons f x => exact hx d hd
        · have : trimWs (x ++ [c]) = x ++ [c] := by
            apply trimWs_of_clean
            · intro d hd
              cases x with
              | nil => simp at hd; subst hd; exact hw
              | cons f x => exact (hx d hd).1
            · intro d hd
              simp at hd; subst hd; exact hw
          rw [this]; simp; omega
  | @quoted n a q b' v h1 h2 h3 h4 h5 h6 =>
    have hq : q ≠ 0 := by rcases h4 with e | e <;> subst e <;> decide
    rw [step_quotes (noBlank n) v q c false o hq] at hs
    have happ : (n ++ c!"=" :: (a ++ q :: b')) ++ [c] = n ++ c!"=" :: (a ++ q :: (b' ++ [c])) := by simp
    rw [happ]
    left
    unfold stepQuoted at hs
    rw [if_neg (by simp)] at hs
    split at hs
    · rename_i h7
      have h7 : c = c!"\\" := by simpa using h7
      subst h7
      cases hs
      exact .escaped h1 h2 h3 h4 h5 h6
    rename_i h7
    have h7 : c ≠ c!"\\" := by simpa using h7
    split at hs
    · rename_i h8
      have h8 : c = q := by simpa using h8
      subst h8
      cases hs
      simp only [trim_noBlank]
      exact .after (z := []) h1 h2 h3 h4 h5 h6 (fun c hc => by cases hc)
    rename_i h8
    have h8 : c ≠ q := by simpa using h8
    split at hs
    · cases hs
    rename_i h9
    simp only [ATTRIBUTE_VALUE_MAX] at h9
    split at hs
    · cases hs
    rename_i h10
    cases hs
    have hc : ¬ Ctl c := by
      intro k
      have := (ctl_iff c).mpr k
      apply h10
      rw [Bool.and_eq_true]
      exact ⟨this.1, by simpa using this.2⟩
    exact .quoted h1 h2 h3 h4 (h5.snoc h8 h7 hc) (by simp; omega)
  | @escaped n a q b' v h1 h2 h3 h4 h5 h6 =>
    have hq : q ≠ 0 := by rcases h4 with e | e <;> subst e <;> decide
    rw [step_quotes (noBlank n) v q c true o hq] at hs
    have happ : (n ++ c!"=" :: (a ++ q :: (b' ++ [c!"\\"]))) ++ [c] = n ++ c!"=" :: (a ++ q :: (b' ++ [c!"\\", c])) := by simp
    rw [happ]
    left
    unfold stepQuoted at hs
    rw [if_pos rfl] at hs
    split at hs
    · cases hs
    rename_i h10
    split at hs
    · cases hs
    rename_i h9
    simp only [ATTRIBUTE_VALUE_MAX] at h9
    cases hs
    have hc : ¬ Ctl c := by
      intro k
      have := (ctl_iff c).mpr k
      apply h10
      rw [Bool.and_eq_true]
      exact ⟨this.1, by simpa using this.2⟩
    exact .quoted h1 h2 h3 h4 (h5.snoc2 hc) (by simp; omega)
  | @after n a q b' v z h1 h2 h3 h4 h5 h6 h7 =>
    change stepAfter _ c = some b at hs
    unfold stepAfter at hs
    split at hs
    · rename_i h8
      cases hs
      right
      exact ⟨(sep_iff c).mp h8, _, .quoted h1 h2 h3 h4 h5 h6 h7, rfl⟩
    · split at hs
      · cases hs
      · rename_i h8
        cases hs
        left
        have hw : Ows c := by
          simp only [Bool.and_eq_true, bne_iff_ne, ne_eq, not_and, Decidable.not_not] at h8
          by_cases k : c = 32
          · exact .inl k
          · exact .inr (h8 k)
        have happ : (n ++ c!"=" :: (a ++ q :: (b' ++ q :: z))) ++ [c] = n ++ c!"=" :: (a ++ q :: (b' ++ q :: (z ++ [c]))) := by simp
        rw [happ]
        refine .after h1 h2 h3 h4 h5 h6 ?_
        intro d hd
        rcases List.mem_append.mp hd with k | k
        · exact h7 d k
        · simp at k; subst k; exact hw

theorem part_finish {o : List (Bytes × Bytes)} {p : Bytes} {a : A} {l : List (Bytes × Bytes)} (h : Part o p a) (hf : finish a = some l) :
    ∃ e, Attr p e ∧ l = o ++ e := by
  cases h with
  | name ht =>
    unfold finish at hf
    split at hf
    · rename_i h1
      simp only [trim_noBlank] at hf
      refine ⟨_, .bare ht (by simpa using h1), ?_⟩
      have hf : o ++ [(noBlank p, trimWs [])] = l := by simpa using hf
      exact hf.symm
    · rename_i h1
      have h1 : noBlank p = [] := by simpa using h1
      refine ⟨[], .empty ht h1, ?_⟩
      have hf : o = l := by simpa using hf
      simp [hf]
  | @plain n v x h1 h2 h3 =>
    unfold finish at hf
    rw [if_pos (by simpa using h2)] at hf
    simp only [trim_noBlank] at hf
    refine ⟨_, valSoFar_attr h1 h2 h3, ?_⟩
    have hf : o ++ [(noBlank n, trimWs x)] = l := by simpa using hf
    exact hf.symm
  | @quoted n a q b' v h1 h2 h3 h4 h5 h6 =>
    have hq : (q != 0) = true := by rcases h4 with e | e <;> subst e <;> decide
    unfold finish at hf
    rw [if_pos (by simpa using h2), if_pos (by simp [hq])] at hf
    cases hf
  | @escaped n a q b' v h1 h2 h3 h4 h5 h6 =>
    have hq : (q != 0) = true := by rcases h4 with e | e <;> subst e <;> decide
    unfold finish at hf
    rw [if_pos (by simpa using h2), if_pos (by simp [hq])] at hf
    cases hf
  | @after n a q b' v z h1 h2 h3 h4 h5 h6 h7 =>
    refine ⟨_, .quoted h1 h2 h3 h4 h5 h6 h7, ?_⟩
    have hf : o ++ [(noBlank n, v)] = l := by simpa [finish] using hf
    exact hf.symm

theorem run_part {o : List (Bytes × Bytes)} {p : Bytes} {a : A} {l : List (Bytes × Bytes)} (s : Bytes) (h : Part o p a)
    (hr : (run a s).bind finish = some l) : ∃ e, Attrs (p ++ s) e ∧ l = o ++ e := by
  induction s generalizing o p a with
  | nil =>
    obtain ⟨e, h1, h2⟩ := part_finish h hr
    exact ⟨e, .last (by simpa using h1), h2⟩
  | cons c s ih =>
    rw [run] at hr
    cases hs : step a c with
    | none => rw [hs] at hr; cases hr
    | some b =>
      rw [hs] at hr
      simp only [] at hr
      rcases part_step h hs with hp | ⟨hsep, l', h1, h2⟩
      · obtain ⟨e, he, hl⟩ := ih hp hr
        exact ⟨e, by simpa using he, hl⟩
      · subst h2
        obtain ⟨e, he, hl⟩ := ih (Part.name nameText_nil) hr
        exact ⟨l' ++ e, .more h1 hsep he, by rw [hl, List.append_assoc]⟩

/-- **C107.** A header value is read as attributes exactly as the grammar says; anything outside it, or longer than 64 KiB, is an
error. -/
theorem C107_attributes_exact (s : Bytes) (l : List (Bytes × Bytes)) : attributes s = some l ↔ s.length ≤ 65536 ∧ Attrs s l := by
  unfold attributes
  by_cases hl : s.length > MAX_HEADER_ATTRIBUTES_SIZE
  · rw [if_pos hl]
    simp only [MAX_HEADER_ATTRIBUTES_SIZE] at hl
    constructor
    · intro h; cases h
    · rintro ⟨h, _⟩; omega
  · rw [if_neg hl]
    simp only [MAX_HEADER_ATTRIBUTES_SIZE] at hl
    constructor
    · intro h
      obtain ⟨e, h1, h2⟩ := run_part s (Part.name (o := []) nameText_nil) h
      simp only [List.nil_append] at h1 h2
      subst h2
      exact ⟨by omega, h1⟩
    · rintro ⟨_, h⟩
      have := run_attrs h []
      simpa using this

/-- **C107.** The grammar is unambiguous. -/
theorem C107_unambiguous (s : Bytes) (l r : List (Bytes × Bytes)) (h : Attrs s l) (k : Attrs s r) : l = r := by
  have a := run_attrs h []
  have b := run_attrs k []
  rw [a] at b
  simpa using b

/-- No name and no value of an attribute contains a control character other than a tab. -/
theorem C107_no_control (s : Bytes) (l : List (Bytes × Bytes)) (h : attributes s = some l) :
    ∀ p ∈ l, (∀ c ∈ p.1, ¬ Ctl c ∧ ¬ Sep c ∧ ¬ Ows c ∧ c ≠ c!"=") ∧ ∀ c ∈ p.2, ¬ Ctl c := by
  have hn : ∀ n, NameText n → ∀ c ∈ noBlank n, ¬ Ctl c ∧ ¬ Sep c ∧ ¬ Ows c ∧ c ≠ c!"=" := by
    intro n hn c hc
    have hm : c ∈ n := (List.mem_filter.mp hc).1
    obtain ⟨a, b, d⟩ := hn.1 c hm
    exact ⟨d, b, noBlank_clean n c hc, a⟩
  have hq : ∀ q b v, Quoted q b v → ∀ c ∈ v, ¬ Ctl c := by
    intro q b v h
    induction h with
    | nil => intro c hc; cases hc
    | char _ _ h _ ih =>
      intro c hc
      rcases List.mem_cons.mp hc with e | e
      · subst e; exact h
      · exact ih c e
    | pair h _ ih =>
      intro c hc
      rcases List.mem_cons.mp hc with e | e
      · subst e; exact h
      · exact ih c e
  have ha : ∀ s l, Attr s l → ∀ p ∈ l, (∀ c ∈ p.1, ¬ Ctl c ∧ ¬ Sep c ∧ ¬ Ows c ∧ c ≠ c!"=") ∧ ∀ c ∈ p.2, ¬ Ctl c := by
    intro s l h
    cases h with
    | empty _ _ => intro p hp; cases hp
    | bare h1 _ =>
      intro p hp
      rw [List.mem_singleton] at hp; subst hp
      exact ⟨hn _ h1, fun c hc => by cases hc⟩
    | plain h1 _ h3 h4 _ _ =>
      intro p hp
      rw [List.mem_singleton] at hp; subst hp
      obtain ⟨a, b, e, _⟩ := h4
      exact ⟨hn _ h1, fun c hc => (h3 c (by rw [e]; simp [hc])).2⟩
    | quoted h1 _ _ _ h5 _ _ =>
      intro p hp
      rw [List.mem_singleton] at hp; subst hp
      exact ⟨hn _ h1, hq _ _ _ h5⟩
  have := ((C107_attributes_exact s l).mp h).2
  clear h
  induction this with
  | last h => exact ha _ _ h
  | more h _ _ ih =>
    intro p hp
    rcases List.mem_append.mp hp with k | k
    · exact ha _ _ h p k
    · exact ih p k

/-- The first attribute of a name counts, in any case. -/
theorem C107_first_counts (l : List (Bytes × Bytes)) (k v : Bytes) : attr l k = some v ↔ First l k v := by
  unfold attr First
  simp only [← C04_iequals_exact, ne_eq, Bool.not_eq_true]
  constructor
  · intro h
    obtain ⟨p, hp, e⟩ := Option.map_eq_some_iff.mp h
    subst e
    obtain ⟨h1, a, b, h2, h3⟩ := List.find?_eq_some_iff_append.mp hp
    exact ⟨a, p.1, b, h2, h1, fun q hq => by simpa using h3 q hq⟩
  · rintro ⟨a, n, b, e, h1, h2⟩
    have : l.find? (fun p => iequals p.1 k) = some (n, v) :=
      List.find?_eq_some_iff_append.mpr ⟨h1, a, b, e, fun q hq => by simp [h2 q hq]⟩
    rw [this]; rfl

/-- A concrete list: bare names, plain and quoted values, escapes, blanks, and an error. -/
example : attributes b!"form-data; name=\"a\\\"b\" ; file name = x y ;, Z" =
      some [(b!"form-data", []), (b!"name", b!"a\"b"), (b!"filename", b!"x y"), (b!"Z", [])] ∧
    attributes b!"a=\"open" = none ∧ attributes b!"=x" = none ∧ attributes b!"a=\"x\"y" = none := by decide +kernel

/-! ## C108 -/

/-- The media type of a `Content-Type` value: what stands before the first semicolon, without blanks around it. -/
def MediaType (s m : Bytes) (params : Option Bytes) : Prop :=
  (∃ t, (c!";" ∉ s) ∧ t = s ∧ IsTrim t m ∧ params = none) ∨ (∃ t r, s = t ++ c!";" :: r ∧ c!";" ∉ t ∧ IsTrim t m ∧ params = some r)

theorem findChar_none {d : UInt8} {s : Bytes} : findChar d s = none ↔ d ∉ s := by
  induction s with
  | nil => simp [findChar]
  | cons c s ih =>
    rw [findChar]
    by_cases h : c = d
    · subst h; simp
    · rw [if_neg (by simpa using h)]
      have hd : d ≠ c := fun e => h e.symm
      cases hf : findChar d s with
      | none => simp [hd, ih.mp hf]
      | some pq =>
        have : d ∈ s := by
          by_cases hm : d ∈ s
          · exact hm
          · rw [ih.mpr hm] at hf; cases hf
        simp [this]

theorem findChar_some {d : UInt8} {s p q : Bytes} : findChar d s = some (p, q) ↔ s = p ++ d :: q ∧ d ∉ p := by
  induction s generalizing p q with
  | nil => simp [findChar]
  | cons c s ih =>
    rw [findChar]
    by_cases h : c = d
    · subst h
      simp only [beq_self_eq_true, if_true, Option.some.injEq, Prod.mk.injEq]
      constructor
      · rintro ⟨e1, e2⟩; subst e1; subst e2; simp
      · rintro ⟨e, hm⟩
        cases p with
        | nil => simp at e; exact ⟨rfl, e⟩
        | cons f p => simp at e; exact absurd (by simp [e.1]) hm
    · rw [if_neg (by simpa using h)]
      cases hf : findChar d s with
      | none =>
        simp only []
        constructor
        · intro k; cases k
        · rintro ⟨e, hm⟩
          have : d ∉ s := findChar_none.mp hf
          cases p with
          | nil => simp at e; exact absurd e.1 h
          | cons f p => simp at e; exact absurd (by rw [e.2]; simp) this
      | some pq =>
        obtain ⟨p', q'⟩ := pq
        obtain ⟨e', hm'⟩ := ih.mp hf
        simp only [Option.some.injEq, Prod.mk.injEq]
        constructor
        · rintro ⟨e1, e2⟩
          subst e1; subst e2
          exact ⟨by rw [e']; rfl, by simp only [List.mem_cons, not_or]; exact ⟨fun e => h e.symm, hm'⟩⟩
        · rintro ⟨e, hm⟩
          cases p with
          | nil => simp at e; exact absurd e.1 h
          | cons f p =>
            simp at e
            have := ih.mpr ⟨e.2, fun k => hm (List.mem_cons_of_mem _ k)⟩
            rw [hf] at this
            simp at this
            exact ⟨by rw [e.1, this.1], this.2⟩

/-- The character set among the parameters: the first `charset`, if the parameters are well formed and it is not empty. -/
def Charset (params : Option Bytes) (v : Bytes) : Prop :=
  v ≠ [] ∧ ∃ r l, params = some r ∧ r.length ≤ 65536 ∧ Attrs r l ∧ First l b!"charset" v

/-- **C108.** Media type and character set of any `Content-Type` value. -/
theorem C108_content_type (s m : Bytes) (params : Option Bytes) (h : MediaType s m params) :
    (m = [] → contentType s = (b!"application/octet-stream", b!"utf-8")) ∧
    (m ≠ [] → (∀ v, Charset params v → contentType s = (m, v)) ∧ ((∀ v, ¬ Charset params v) → contentType s = (m, b!"utf-8"))) := by
  unfold contentType
  rcases h with ⟨t, h1, e, h2, h3⟩ | ⟨t, r, h1, h2, h3, h4⟩
  · subst e; subst h3
    rw [findChar_none.mpr h1]
    simp only []
    rw [trimWs_eq h2]
    constructor
    · intro k; subst k; rfl
    · intro k
      rw [if_neg (by simpa using k)]
      refine ⟨?_, fun _ => rfl⟩
      rintro v ⟨_, r, l, e, _⟩
      cases e
  · subst h4
    rw [findChar_some.mpr ⟨h1, h2⟩]
    simp only []
    rw [trimWs_eq h3]
    constructor
    · intro k; subst k; rfl
    · intro k
      rw [if_neg (by simpa using k)]
      constructor
      · rintro v ⟨hv, r', l, e, hl, ha, hc⟩
        cases e
        rw [(C107_attributes_exact r l).mpr ⟨hl, ha⟩]
        simp only []
        rw [(C107_first_counts _ _ _).mpr hc]
        simp only []
        rw [if_neg (by simpa using hv)]
      · intro hno
        cases ha : attributes r with
        | none => rfl
        | some l =>
          simp only []
          cases hc : attr l b!"charset" with
          | none => rfl
          | some v =>
            simp only []
            by_cases hv : v = []
            · rw [if_pos (by simpa using hv)]
            · obtain ⟨a, b⟩ := (C107_attributes_exact r l).mp ha
              exact absurd ⟨hv, r, l, rfl, a, b, (C107_first_counts _ _ _).mp hc⟩ (hno v)

/-- Every value has a media type in this sense. -/
theorem C108_total (s : Bytes) : ∃ m params, MediaType s m params := by
  cases h : findChar c!";" s with
  | none => exact ⟨_, none, .inl ⟨s, findChar_none.mp h, rfl, trimWs_spec s, rfl⟩⟩
  | some pq =>
    obtain ⟨p, q⟩ := pq
    obtain ⟨a, b⟩ := findChar_some.mp h
    exact ⟨_, some q, .inr ⟨p, q, a, b, trimWs_spec p, rfl⟩⟩

example : contentType b!" text/html ; Charset=\"iso-8859-1\"" = (b!"text/html", b!"iso-8859-1") ∧
    contentType b!"text/html; charset=\"x" = (b!"text/html", b!"utf-8") ∧ contentType b!"" = (b!"application/octet-stream", b!"utf-8") := by decide +kernel

end Verif.Hdr
