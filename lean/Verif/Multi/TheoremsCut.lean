import Verif.Multi.Sim

/-! # C116: feeding a multipart body in pieces; C117: no access outside the buffers -/

namespace Verif.Multi
open Verif.Utility Verif.Wire

/-! ## C117 -/

/-- What holds of the parser whatever it has read, unless it has failed. -/
def Safe (B : Bytes) (p : P) : Prop :=
  p.B = B ∧ p.look.length = B.length + 8 ∧ 5 ≤ B.length ∧ (p.state = .startBoundary → p.index < B.length)

/-- What an iteration may do. -/
def StepSafe (B : Bytes) (i : Nat) (p : P) : Res → Prop
  | .go q j _ => Safe B q ∧ (i < j ∨ (i = j ∧ 0 < p.index ∧ q.index = 0))
  | .stop => True
  | .fail _ => True
  | .throws q _ => q.state = .error
  | .ub => False

theorem skip_ge (B buf : Bytes) (f i : Nat) : i ≤ skip B buf f i := by
  induction f generalizing i with
  | zero => exact Nat.le_refl _
  | succ f ih =>
    rw [skip]
    split
    · split
      · exact Nat.le_refl _
      · have := ih (i + B.length); omega
    · exact Nat.le_refl _

theorem lookStep_safe {B : Bytes} {i prev : Nat} {c : UInt8} {p q : P} {e : List Ev} (hB : q.B = B) (hl : q.look.length = B.length + 8)
    (h5 : 5 ≤ B.length) (hs : q.state ≠ .startBoundary) (hp : prev = p.index) (h0 : q.index = 0 → prev ≤ B.length + 3) :
    StepSafe B i p (lookStep prev i c q e) := by
  unfold lookStep
  by_cases a : q.index > 0
  · rw [if_pos a]
    by_cases a2 : q.index - 1 ≥ q.look.length
    · rw [if_pos a2]; rfl
    · rw [if_neg a2]
      exact ⟨⟨hB, by simpa using hl, h5, fun h => absurd h hs⟩, .inl (by omega)⟩
  · rw [if_neg a]
    by_cases a2 : prev > 0
    · rw [if_pos a2, if_neg (by have := h0 (by omega); omega)]
      exact ⟨⟨hB, hl, h5, fun h => absurd h hs⟩, .inr ⟨rfl, by omega, by show q.index = 0; omega⟩⟩
    · rw [if_neg a2]
      exact ⟨⟨hB, hl, h5, fun h => absurd h hs⟩, .inl (by omega)⟩

theorem matchStep_safe (buf : Bytes) (i : Nat) (c : UInt8) (p : P) (hs : p.state ≠ .startBoundary) :
    (matchStep buf i c p).1.B = p.B ∧ (matchStep buf i c p).1.look = p.look ∧ (matchStep buf i c p).1.state ≠ .startBoundary ∧
    ((matchStep buf i c p).1.index = 0 → p.index ≤ p.B.length + 3) := by
  unfold matchStep
  simp only []
  repeat' split
  all_goals (refine ⟨rfl, rfl, ?_, ?_⟩ <;> first | exact hs | (simp; done) | (intro h; simp at h) | skip)
  all_goals try (intro _; omega)
  all_goals try (simp_all; done)
  all_goals (simp only [beq_iff_eq] at *; omega)

theorem partData_safe {B buf : Bytes} {i : Nat} {p p' : P} (hB : p.B = B) (hl : p.look.length = B.length + 8) (h5 : 5 ≤ B.length)
    (hs : p.state ≠ .startBoundary) (hp : p'.index = p.index) : StepSafe B i p' (partData buf i p) := by
  unfold partData
  simp only []
  have hj : i ≤ (if p.index == 0 then skip p.B buf buf.length i else i) := by
    split
    · exact skip_ge _ _ _ _
    · exact Nat.le_refl _
  have hji : 0 < p.index → (if p.index == 0 then skip p.B buf buf.length i else i) = i := by
    intro h
    rw [if_neg (by simp; omega)]
  generalize (if p.index == 0 then skip p.B buf buf.length i else i) = j at hj hji
  by_cases a : (p.index == 0 && j == buf.length) = true
  · rw [if_pos a]
    exact ⟨⟨hB, hl, h5, fun h => absurd h hs⟩, .inl (by omega)⟩
  · rw [if_neg a]
    obtain ⟨h1, h2, h3, h4⟩ := matchStep_safe buf j (buf.getD j 0) p hs
    have hsh : ∀ r, StepSafe B j p r → StepSafe B i p' r := by
      intro r h
      cases r with
      | go q l e =>
        refine ⟨h.1, ?_⟩
        rcases h.2 with h | ⟨h, k, g⟩
        · left; omega
        · right; exact ⟨by rw [← h, hji k], by omega, g⟩
      | _ => exact h
    apply hsh
    generalize matchStep buf j (buf.getD j 0) p = r at *
    obtain ⟨q, e, b⟩ := r
    simp only at h1 h2 h3 h4
    cases b with
    | true => exact ⟨⟨by rw [h1, hB], by rw [h2, hl], h5, fun h => absurd h h3⟩, .inl (by omega)⟩
    | false => exact lookStep_safe (by rw [h1, hB]) (by rw [h2, hl]) h5 h3 rfl (by rw [← hB]; exact h4)

theorem step_safe (B buf : Bytes) (i : Nat) (p : P) (h : Safe B p) : StepSafe B i p (step buf i p) := by
  unfold step
  obtain ⟨hB0, hl, h5, hx⟩ := h
  have hstart : ∀ (q p' : P), q.B = B → q.look = p.look → q.state = .startBoundary → q.index < B.length →
      StepSafe B i p' (startStep i (buf.getD i 0) q) := by
    intro q p' hB hL hs hi
    unfold startStep
    by_cases a : q.index = B.length - 2
    · rw [if_pos (by rw [hB]; simpa using a)]
      split
      · trivial
      · exact ⟨⟨hB, by simp only [hL]; exact hl, h5, fun _ => by simp only []; omega⟩, .inl (by omega)⟩
    · rw [if_neg (by rw [hB]; simpa using a)]
      by_cases a2 : q.index - 1 = B.length - 2
      · rw [if_pos (by rw [hB]; simpa using a2)]
        split
        · trivial
        · exact ⟨⟨hB, by simp only [hL]; exact hl, h5, fun _ => by simp only []; omega⟩, .inl (by omega)⟩
      · rw [if_neg (by rw [hB]; simpa using a2), if_neg (by rw [hB]; omega)]
        split
        · trivial
        · exact ⟨⟨hB, by simp only [hL]; exact hl, h5, fun _ => by simp only []; omega⟩, .inl (by omega)⟩
  have hfield : ∀ (q p' : P), q.B = B → q.look = p.look → q.state = .field → StepSafe B i p' (fieldStep buf i (buf.getD i 0) q) := by
    intro q p' hB hL hs
    unfold fieldStep
    have hS : ∀ st ix f, st ≠ .startBoundary → Safe B { q with state := st, index := ix, fm := f } := fun st ix f h =>
      ⟨hB, by simp only [hL]; exact hl, h5, fun k => absurd k h⟩
    repeat' split
    all_goals first | trivial | exact ⟨hS _ _ _ (by simp [hs]), .inl (by omega)⟩
  have hvalue : ∀ (q p' : P), q.B = B → q.look = p.look → q.state = .value → StepSafe B i p' (valueStep buf i (buf.getD i 0) q) := by
    intro q p' hB hL hs
    unfold valueStep
    have hS : ∀ st f, st ≠ .startBoundary → Safe B { q with state := st, vm := f } := fun st f h =>
      ⟨hB, by simp only [hL]; exact hl, h5, fun k => absurd k h⟩
    repeat' split
    all_goals first | trivial | exact ⟨hS _ _ (by simp [hs]), .inl (by omega)⟩
  have hS : ∀ st, st ≠ .startBoundary → Safe B { p with state := st } := fun st h => ⟨hB0, hl, h5, fun k => absurd k h⟩
  cases hst : p.state with
  | error => trivial
  | start => exact hstart _ _ hB0 rfl rfl (by simp only []; omega)
  | startBoundary => exact hstart _ _ hB0 rfl hst (hx hst)
  | fieldStart => exact hfield _ _ hB0 rfl rfl
  | field => exact hfield _ _ hB0 rfl hst
  | valueStart =>
    simp only []
    split
    · exact ⟨⟨hB0, hl, h5, hx⟩, .inl (by omega)⟩
    · exact hvalue _ _ hB0 rfl rfl
  | value => exact hvalue _ _ hB0 rfl hst
  | valueAlmost =>
    simp only []
    split
    · trivial
    · exact ⟨hS _ (by simp), .inl (by omega)⟩
  | headersAlmost =>
    simp only []
    split
    · trivial
    · exact ⟨hS _ (by simp), .inl (by omega)⟩
  | dataStart => exact partData_safe hB0 hl h5 (by simp) rfl
  | data => exact partData_safe hB0 hl h5 (by simp [hst]) rfl
  | fin => trivial

theorem loop_safe (B : Bytes) (p0 : P) (h0 : Safe B p0) (buf : Bytes) (f i : Nat) (p : P) (h : Safe B p)
    (hf : 2 * (buf.length - i) + (if 0 < p.index then 1 else 0) + 1 ≤ f) :
    (loop p0 buf f i p).2.2 ≠ .ub ∧ ((loop p0 buf f i p).1.state = .error ∨ Safe B (loop p0 buf f i p).1) := by
  induction f generalizing i p with
  | zero => omega
  | succ f ih =>
    rw [loop]
    by_cases hi : i < buf.length
    · rw [if_pos hi]
      have hs := step_safe B buf i p h
      cases hr : step buf i p with
      | go q j e =>
        rw [hr] at hs
        have hm : 2 * (buf.length - j) + (if 0 < q.index then 1 else 0) + 1 ≤ f := by
          rcases hs.2 with h4 | ⟨h4, h5, h6⟩
          · by_cases hq : 0 < q.index
            · rw [if_pos hq]; split at hf <;> omega
            · rw [if_neg hq]; split at hf <;> omega
          · rw [if_pos h5] at hf
            rw [if_neg (by omega)]
            omega
        exact ih j q hs.1 hm
      | stop => exact ⟨by simp, .inr ⟨h.1, h.2.1, h.2.2.1, h0.2.2.2⟩⟩
      | fail q => exact ⟨by simp, .inl rfl⟩
      | throws q e => rw [hr] at hs; exact ⟨by simp, .inl hs⟩
      | ub => rw [hr] at hs; exact hs.elim
    · rw [if_neg hi]
      exact ⟨by simp, .inr h⟩

theorem setBoundary_cases (b : Bytes) :
    (Boundary b ∧ setBoundary b = { B := delim b, look := List.replicate ((delim b).length + 8) 0, state := .start }) ∨
    (¬ Boundary b ∧ setBoundary b = reset) := by
  unfold setBoundary
  by_cases h1 : (b.isEmpty || decide (b.length > MAX_BOUNDARY_LENGTH)) = true
  · rw [if_pos h1]
    right
    refine ⟨fun h => ?_, rfl⟩
    rw [Bool.or_eq_true, List.isEmpty_iff, decide_eq_true_iff] at h1
    unfold MAX_BOUNDARY_LENGTH at h1
    rcases h1 with h1 | h1
    · exact h.1 h1
    · have := h.2.1; omega
  · rw [if_neg h1]
    rw [Bool.or_eq_true, List.isEmpty_iff, decide_eq_true_iff, not_or] at h1
    unfold MAX_BOUNDARY_LENGTH at h1
    by_cases h2 : b.any (fun c => c < 32 || c == 127) = true
    · rw [if_pos h2]
      right
      refine ⟨fun h => ?_, rfl⟩
      obtain ⟨c, hc, hx⟩ := List.any_eq_true.mp h2
      have := h.2.2 c hc
      simp only [Bool.or_eq_true, decide_eq_true_eq, beq_iff_eq] at hx
      rcases hx with hx | hx
      · rw [UInt8.lt_iff_toNat_lt] at hx
        have : (32 : UInt8).toNat = 32 := rfl
        omega
      · rw [hx] at this; exact this.2 rfl
    · rw [if_neg h2]
      left
      refine ⟨⟨h1.1, by omega, fun c hc => ?_⟩, rfl⟩
      have hx : ¬ (c < 32 || c == 127) = true := fun h => h2 (List.any_eq_true.mpr ⟨c, hc, h⟩)
      simp only [Bool.or_eq_true, decide_eq_true_eq, beq_iff_eq, not_or, UInt8.lt_iff_toNat_lt] at hx
      refine ⟨by have : (32 : UInt8).toNat = 32 := rfl; omega, fun h => hx.2 ?_⟩
      exact UInt8.toNat_inj.mp h

theorem feeds_safe (B : Bytes) (p : P) (h : p.state = .error ∨ Safe B p) (l : List Bytes) : (feeds p l).2.2 ≠ .ub := by
  induction l generalizing p with
  | nil => simp [feeds]
  | cons s l ih =>
    have hf : (feed p s).2.2 ≠ .ub ∧ ((feed p s).1.state = .error ∨ Safe B (feed p s).1) := by
      unfold feed
      by_cases hc : (p.state == .error || s.isEmpty) = true
      · rw [if_pos hc]; exact ⟨by simp, h⟩
      · rw [if_neg hc]
        simp only [Bool.or_eq_true, beq_iff_eq, not_or] at hc
        have hs := h.resolve_left hc.1
        exact loop_safe B p hs s _ _ p hs (by split <;> omega)
    rw [feeds]
    generalize feed p s = r at hf
    obtain ⟨q, e, o⟩ := r
    cases o with
    | throws => simp
    | ub => exact absurd rfl hf.1
    | _ => exact ih q hf.2

/-- **C117.** Whatever the boundary and whatever octets are fed, in whatever pieces, the parser never reads or writes outside its buffers
(and the loop of `feed` ends). -/
theorem C117_in_bounds (b : Bytes) (l : List Bytes) : (feeds (setBoundary b) l).2.2 ≠ .ub := by
  rcases setBoundary_cases b with ⟨h, e⟩ | ⟨h, e⟩
  · rw [e]
    refine feeds_safe (delim b) _ (.inr ⟨rfl, by simp, ?_, fun h => by cases h⟩) l
    have := List.length_pos_iff.mpr h.1
    rw [delim_length]; omega
  · rw [e]
    exact feeds_safe [] _ (.inl rfl) l

/-! ## C116 -/

theorem pend_zero {b buf : Bytes} {p : P} {s : St} (h : Rel b 0 p s) : Pend buf 0 p = [] := by
  have hf : ∀ mk (m : Option Nat), (∀ k, m = some k → k = 0) → flushTo mk m buf 0 false = [] := by
    intro mk m hm
    cases m with
    | none => rfl
    | some k => rw [hm k rfl]; simp [flushTo, call, slice]
  have : (∀ k, p.fm = some k → k = 0) ∧ (∀ k, p.vm = some k → k = 0) ∧ (∀ k, p.dm = some k → k = 0) := by
    obtain ⟨_, _, h⟩ := h
    have hn : NoMarks p → (∀ k, p.fm = some k → k = 0) ∧ (∀ k, p.vm = some k → k = 0) ∧ (∀ k, p.dm = some k → k = 0) := by
      rintro ⟨a, b, c⟩
      rw [a, b, c]
      exact ⟨(fun k h => by cases h), (fun k h => by cases h), (fun k h => by cases h)⟩
    cases hst : p.state <;> rw [hst] at h
    · exact h.elim
    · exact hn h.2.1
    · exact hn h.2.2.1
    · exact hn h.2.1
    · obtain ⟨_, _, ⟨k, hk, hf⟩, hv, hd, _⟩ := h
      rw [hf, hv, hd]
      exact ⟨(fun j h => by cases h; omega), (fun k h => by cases h), (fun k h => by cases h)⟩
    · exact hn h.2.1
    · obtain ⟨_, hf, ⟨k, hk, hv⟩, hd, _⟩ := h
      rw [hf, hv, hd]
      exact ⟨(fun k h => by cases h), (fun j h => by cases h; omega), (fun k h => by cases h)⟩
    · exact hn h.2.1
    · exact hn h.2.2.1
    · exact hn h.2.2.1
    · obtain ⟨m, _, _, _, _, hf, hv, h7, h8, _⟩ := h
      rw [hf, hv]
      refine ⟨(fun k h => by cases h), (fun k h => by cases h), fun k h => ?_⟩
      by_cases e : m = []
      · obtain ⟨j, hj, hd⟩ := h7 e
        rw [hd] at h; cases h; omega
      · rw [h8 e] at h; cases h
    · exact hn h.2
  obtain ⟨a, b, c⟩ := this
  unfold Pend
  rw [hf _ _ a, hf _ _ b, hf _ _ c]; rfl

theorem rel_ok {b : Bytes} {p : P} {s : St} (h : Rel b 0 p s) : p.state ≠ .error := by
  intro e
  obtain ⟨_, _, h⟩ := h
  rw [e] at h; exact h

theorem feed_sim {b : Bytes} (hb : Boundary b) {p : P} {s : St} (h : Rel b 0 p s) (buf : Bytes) :
    After b p (refRun b s buf).2 (feed p buf).2.2 (feed p buf).1 ∧
    ((refRun b s buf).2 ≠ .stray → (refRun b s buf).2 ≠ .bad → octets (feed p buf).2.1 = (refRun b s buf).1) := by
  unfold feed
  by_cases hc : (p.state == .error || buf.isEmpty) = true
  · rw [if_pos hc]
    simp only [Bool.or_eq_true, beq_iff_eq, List.isEmpty_iff] at hc
    have hbuf := hc.resolve_left (rel_ok h)
    subst hbuf
    exact ⟨after_done h, fun _ _ => rfl⟩
  · rw [if_neg hc]
    have := loop_sim hb p buf (2 * buf.length + 2) 0 p s h (by split <;> omega)
    rw [List.drop_zero, pend_zero h, List.nil_append] at this
    exact this

theorem feeds_error (p : P) (h : p.state = .error) (l : List Bytes) : feeds p l = (p, [], .done) := by
  induction l with
  | nil => rfl
  | cons s l ih =>
    have : feed p s = (p, [], .done) := by
      unfold feed
      rw [if_pos (by rw [h]; rfl)]
    rw [feeds, this]
    simp only [ih]; rfl

/-- What `feeds` does, against the reference reader. -/
theorem feeds_sim {b : Bytes} (hb : Boundary b) (l : List Bytes) {p : P} {s : St} (h : Rel b 0 p s)
    (h1 : (refRun b s l.flatten).2 ≠ .stray) (h2 : (refRun b s l.flatten).2 ≠ .past) :
    (feeds p l).2.2 = .done ∧ ((refRun b s l.flatten).2 = .bad → (feeds p l).1.state = .error) ∧
    ((refRun b s l.flatten).2 ≠ .bad → octets (feeds p l).2.1 = (refRun b s l.flatten).1 ∧ Rel b 0 (feeds p l).1 (refRun b s l.flatten).2) := by
  induction l generalizing p s with
  | nil =>
    refine ⟨rfl, fun hb' => ?_, fun _ => ⟨rfl, h⟩⟩
    have : s = .bad := hb'
    subst this
    exact absurd (after_done (p0 := p) h).1 (by simp)
  | cons x l ih =>
    rw [List.flatten_cons, refRun_append] at *
    simp only at h1 h2
    obtain ⟨ha, he⟩ := feed_sim hb h x
    rw [feeds]
    generalize feed p x = r at *
    obtain ⟨q, e, o⟩ := r
    simp only at ha he
    generalize refRun b s x = t at *
    obtain ⟨e1, s1⟩ := t
    simp only at ha he h1 h2 ⊢
    cases s1 with
    | stray => rw [refRun_stray] at h1; exact absurd rfl h1
    | past => rw [refRun_past] at h2; exact absurd rfl h2
    | bad =>
      obtain ⟨rfl, hq⟩ := ha
      rw [refRun_bad]
      simp only [feeds_error q hq]
      exact ⟨trivial, fun _ => hq, fun h => absurd rfl h⟩
    | _ =>
      obtain ⟨rfl, hq⟩ := ha
      obtain ⟨i1, i2, i3⟩ := ih hq h1 h2
      refine ⟨i1, i2, fun hbad => ?_⟩
      obtain ⟨i4, i5⟩ := i3 hbad
      refine ⟨?_, i5⟩
      rw [octets_append, he (by simp) (by simp), i4]

theorem rel_init {b : Bytes} (hb : Boundary b) : Rel b 0 (setBoundary b) (.init b) := by
  rcases setBoundary_cases b with ⟨h, e⟩ | ⟨h, e⟩
  · rw [e]
    exact ⟨rfl, by simp, rfl, ⟨rfl, rfl, rfl⟩, rfl⟩
  · exact absurd hb h

/-- **C116.** However a body is cut into pieces, the parser reports what the reference reader reports, and has succeeded exactly if the
reference reader stands after the closing delimiter: unless there is an error, a header line without a colon, or an octet after the
closing delimiter. -/
theorem C116_reference (b : Bytes) (hb : Boundary b) (l : List Bytes) (e : List Ev) (s : St) (h : refRun b (.init b) l.flatten = (e, s))
    (h1 : s ≠ .bad) (h2 : s ≠ .stray) (h3 : s ≠ .past) :
    (feeds (setBoundary b) l).2.2 = .done ∧ octets (feeds (setBoundary b) l).2.1 = e ∧ (feeds (setBoundary b) l).1.state ≠ .error ∧
      (succeeded (feeds (setBoundary b) l).1 = true ↔ s = .over) := by
  obtain ⟨a, _, c⟩ := feeds_sim hb l (rel_init hb) (by rw [h]; exact h2) (by rw [h]; exact h3)
  rw [h] at c
  obtain ⟨c1, c2⟩ := c h1
  refine ⟨a, c1, rel_ok c2, ?_⟩
  unfold succeeded
  rw [beq_iff_eq]
  obtain ⟨_, _, c2⟩ := c2
  constructor
  · intro hf; rw [hf] at c2; exact c2.1
  · rintro rfl
    cases hq : (feeds (setBoundary b) l).1.state <;> rw [hq] at c2 <;> simp [St.init] at c2 ⊢

/-- An error is found however the body is cut. -/
theorem C116_error (b : Bytes) (hb : Boundary b) (l : List Bytes) (h : (refRun b (.init b) l.flatten).2 = .bad) :
    (feeds (setBoundary b) l).2.2 = .done ∧ (feeds (setBoundary b) l).1.state = .error := by
  obtain ⟨a, c, _⟩ := feeds_sim hb l (rel_init hb) (by rw [h]; simp) (by rw [h]; simp)
  exact ⟨a, c h⟩

/-- Two ways of cutting the same body are reported the same. Missing: bodies with an octet after the closing delimiter or with a header
line without a colon. -/
theorem C116_cuts_partial (b : Bytes) (hb : Boundary b) (l l' : List Bytes) (h : l.flatten = l'.flatten)
    (h2 : (refRun b (.init b) l.flatten).2 ≠ .stray) (h3 : (refRun b (.init b) l.flatten).2 ≠ .past) :
    ((feeds (setBoundary b) l).1.state = .error ↔ (feeds (setBoundary b) l').1.state = .error) ∧
    (succeeded (feeds (setBoundary b) l).1 = succeeded (feeds (setBoundary b) l').1) ∧
    ((feeds (setBoundary b) l).1.state ≠ .error → octets (feeds (setBoundary b) l).2.1 = octets (feeds (setBoundary b) l').2.1) := by
  by_cases hbad : (refRun b (.init b) l.flatten).2 = .bad
  · have a := C116_error b hb l hbad
    have a' := C116_error b hb l' (by rw [← h]; exact hbad)
    unfold succeeded
    rw [a.2, a'.2]
    exact ⟨Iff.rfl, rfl, fun k => absurd rfl k⟩
  · obtain ⟨_, a1, a2, a3⟩ := C116_reference b hb l _ _ rfl hbad h2 h3
    obtain ⟨_, c1, c2, c3⟩ := C116_reference b hb l' _ _ rfl (by rw [← h]; exact hbad) (by rw [← h]; exact h2) (by rw [← h]; exact h3)
    refine ⟨⟨fun k => absurd k a2, fun k => absurd k c2⟩, ?_, fun _ => by rw [a1, c1, h]⟩
    rw [Bool.eq_iff_iff, a3, c3, h]

/-- The full claim. -/
def C116_full : Prop := ∀ b l l', Boundary b → l.flatten = l'.flatten →
  succeeded (feeds (setBoundary b) l).1 = succeeded (feeds (setBoundary b) l').1 ∧
  octets (feeds (setBoundary b) l).2.1 = octets (feeds (setBoundary b) l').2.1

/-- A line break after the closing delimiter, in the same piece: the parser has not succeeded. -/
theorem C116_refuted : ¬ C116_full := by
  intro h
  have := (h b!"b" [b!"--b\r\n\r\nx\r\n--b--\r\n"] [b!"--b\r\n\r\nx\r\n--b--", b!"\r\n"] (by unfold Boundary; decide) (by decide)).1
  revert this
  decide +kernel

/-- Without a header line without a colon and octets after the end, no exception is thrown. -/
theorem C117_no_exception_partial (b : Bytes) (l : List Bytes) (h2 : (refRun b (.init b) l.flatten).2 ≠ .stray)
    (h3 : (refRun b (.init b) l.flatten).2 ≠ .past) : (feeds (setBoundary b) l).2.2 = .done := by
  rcases setBoundary_cases b with ⟨hb, _⟩ | ⟨_, e⟩
  · exact (feeds_sim hb l (rel_init hb) h2 h3).1
  · rw [e, feeds_error _ rfl]

/-- The full claim: `feed` never throws. -/
def C117_full : Prop := ∀ b l, (feeds (setBoundary b) l).2.2 ≠ .throws

/-- A header line of fourteen characters without a colon: the data of the part makes the parser throw. -/
theorem C117_refuted : ¬ C117_full := by
  intro h
  apply h b!"b" [b!"--b\r\naaaaaaaaaaaaaa\r\nx"]
  decide +kernel

/-- A header line without a colon puts octets into the data that are not in the body; here five NULs. -/
theorem C117_phantom_data : (feeds (setBoundary b!"b") [b!"--b\r\nabcde\r\nx\r\n--b--"]).2.1 =
    [.partBegin, .headersEnd, .data [0, 0, 0, 0, 0], .data b!"x", .partEnd, .finish] := by decide +kernel

/-- A concrete body in one piece and octet by octet: two parts, data that looks like a delimiter. -/
example : (refRun b!"b" (.init b!"b") b!"--b\r\nK: v\r\n\r\n\r\n--\r\n--bx\r\n--b\r\n\r\n\r\n--b--").2 = .over ∧
    octets (feeds (setBoundary b!"b") [b!"--b\r\nK: v\r\n\r\n\r\n--\r\n--bx\r\n--b\r\n\r\n\r\n--b--"]).2.1 =
      octets [.partBegin, .field b!"K", .value b!"v", .headerEnd, .headersEnd, .data b!"\r\n--\r\n--bx", .partEnd, .partBegin, .headersEnd, .partEnd, .finish] ∧
    octets (feeds (setBoundary b!"b") (b!"--b\r\nK: v\r\n\r\n\r\n--\r\n--bx\r\n--b\r\n\r\n\r\n--b--".map (fun c => [c]))).2.1 =
      octets [.partBegin, .field b!"K", .value b!"v", .headerEnd, .headersEnd, .data b!"\r\n--\r\n--bx", .partEnd, .partBegin, .headersEnd, .partEnd, .finish] := by
  decide +kernel

end Verif.Multi
