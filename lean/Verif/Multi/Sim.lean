import Verif.Multi.Lemmas

/-! # One iteration of the parser and the reference reader -/

namespace Verif.Multi
open Verif.Utility Verif.Wire

/-- No range is marked. -/
def NoMarks (p : P) : Prop := p.fm = none ∧ p.vm = none ∧ p.dm = none

/-- The state of the parser at position `i` of a buffer and the state of the reference reader. -/
def Rel (b : Bytes) (i : Nat) (p : P) (s : St) : Prop :=
  p.B = delim b ∧ p.look.length = (delim b).length + 8 ∧
  match p.state with
  | .error => False
  | .start => s = .init b ∧ NoMarks p ∧ p.pb = false
  | .startBoundary => p.index < (delim b).length ∧ s = .first ((firstLine b).drop p.index) ∧ NoMarks p ∧ p.pb = false
  | .fieldStart => s = .line ∧ NoMarks p ∧ p.pb = false
  | .field => s = .name ∧ 0 < p.index ∧ (∃ k, k ≤ i ∧ p.fm = some k) ∧ p.vm = none ∧ p.dm = none ∧ p.pb = false
  | .valueStart => s = .colon ∧ NoMarks p ∧ p.pb = false
  | .value => s = .text ∧ p.fm = none ∧ (∃ k, k ≤ i ∧ p.vm = some k) ∧ p.dm = none ∧ p.pb = false
  | .valueAlmost => s = .cr ∧ NoMarks p ∧ p.pb = false
  | .headersAlmost => s = .blank ∧ p.index = 0 ∧ NoMarks p ∧ p.pb = false
  | .dataStart => s = .body [] false ∧ p.index = 0 ∧ NoMarks p ∧ p.pb = false
  | .data => ∃ m, s = .body m p.pb ∧ Held b m ∧ p.index = m.length ∧ p.look.take m.length = m ∧ p.fm = none ∧ p.vm = none ∧
      (m = [] → ∃ k, k ≤ i ∧ p.dm = some k) ∧ (m ≠ [] → p.dm = none) ∧ ((delim b).length < m.length → p.pb = false → p.lb = true)
  | .fin => s = .over ∧ NoMarks p

/-- The octets of the marked ranges up to position `i`. -/
def Pend (buf : Bytes) (i : Nat) (p : P) : List Ev :=
  octets (flushTo .field p.fm buf i false) ++ octets (flushTo .value p.vm buf i false) ++ octets (flushTo .data p.dm buf i false)

/-- An iteration agrees with the reference reader. -/
def Sim (b buf : Bytes) (i : Nat) (p : P) (s : St) (q : P) (j : Nat) (e : List Ev) : Prop :=
  ∃ s' e1, refRun b s (buf.drop i) = (e1 ++ (refRun b s' (buf.drop j)).1, (refRun b s' (buf.drop j)).2) ∧ Rel b j q s' ∧
    octets e ++ Pend buf j q = Pend buf i p ++ e1 ∧ (i < j ∨ (i = j ∧ 0 < p.index ∧ q.index = 0))

theorem sim_one {b buf : Bytes} {i : Nat} {p q : P} {s s' : St} {e e1 : List Ev} (hi : i < buf.length)
    (h : refStep b s (buf.getD i 0) = (e1, s')) (hr : Rel b (i + 1) q s') (hp : octets e ++ Pend buf (i + 1) q = Pend buf i p ++ e1) :
    Sim b buf i p s q (i + 1) e := by
  refine ⟨s', e1, ?_, hr, hp, .inl (by omega)⟩
  rw [drop_getD hi, refRun_cons, h]

theorem pend_none {buf : Bytes} {i : Nat} {p : P} (h : NoMarks p) : Pend buf i p = [] := by
  obtain ⟨a, b, c⟩ := h
  unfold Pend
  rw [a, b, c]; rfl

/-- What an iteration may do. -/
def StepOk (b buf : Bytes) (i : Nat) (p : P) (s : St) : Res → Prop
  | .go q j e => Sim b buf i p s q j e ∨ (refRun b s (buf.drop i)).2 = .stray
  | .stop => s = .over ∧ NoMarks p
  | .fail _ => (refRun b s (buf.drop i)).2 = .bad
  | .throws _ _ => False
  | .ub => False

theorem bad_of {b buf : Bytes} {i : Nat} {s : St} (hi : i < buf.length) (h : refStep b s (buf.getD i 0) = ([], .bad)) :
    (refRun b s (buf.drop i)).2 = .bad := by
  rw [drop_getD hi, refRun_cons, h]; simp only []; rw [refRun_bad]

/-! ## The first delimiter -/

theorem start_sim {b : Bytes} (hb : Boundary b) {buf : Bytes} {i : Nat} {p : P} {s : St} (hi : i < buf.length)
    (hB : p.B = delim b) (hL : p.look.length = (delim b).length + 8) (hs : p.state = .startBoundary) (h0 : p.index < (delim b).length)
    (h1 : s = .first ((firstLine b).drop p.index)) (h2 : NoMarks p) (h3 : p.pb = false) :
    StepOk b buf i p s (startStep i (buf.getD i 0) p) := by
  have hn := delim_length b
  have hlen : (firstLine b).length = (delim b).length := by simp [delim, firstLine]
  have hget : ∀ k, k < (delim b).length - 2 → (firstLine b).getD k 0 = (delim b).getD (k + 2) 0 := by
    intro k hk
    have : firstLine b = (delim b).drop 2 ++ b!"\r\n" := by simp [delim, firstLine]
    rw [this, getD_lt (by rw [← this, hlen]; omega), getD_lt (by omega), List.getElem_append_left (by simp; omega), List.getElem_drop]
    congr 1; omega
  have hcr : (firstLine b).getD ((delim b).length - 2) 0 = 13 := by
    rw [hn, getD_lt (by rw [hlen, hn]; omega)]
    unfold firstLine
    rw [List.getElem_append_right (by simp)]
    simp
  have hlf : (firstLine b).getD ((delim b).length - 1) 0 = 10 := by
    rw [hn, getD_lt (by rw [hlen, hn]; omega)]
    unfold firstLine
    rw [List.getElem_append_right (by simp)]
    simp
  have hcons : (firstLine b).drop p.index =
      (firstLine b).getD p.index 0 :: (firstLine b).drop (p.index + 1) := drop_getD (by rw [hlen]; exact h0)
  have hdl : ((firstLine b).drop (p.index + 1)).length = (delim b).length - (p.index + 1) := by rw [List.length_drop, hlen]
  unfold startStep
  by_cases a : p.index = (delim b).length - 2
  · rw [if_pos (by rw [hB]; simpa using a)]
    rw [a, hcr] at hcons
    obtain ⟨y, hy⟩ : ∃ y, (firstLine b).drop ((delim b).length - 2 + 1) = [y] := by
      rw [← a]; exact List.length_eq_one_iff.mp (by omega)
    by_cases hc : buf.getD i 0 = 13
    · rw [if_neg (by rw [hc]; decide)]
      refine .inl (sim_one hi (s' := .first ((firstLine b).drop (p.index + 1))) (e1 := []) ?_ ?_ ?_)
      · rw [h1, a, hcons, hy, hc]; rfl
      · refine ⟨hB, hL, ?_⟩
        simp only [hs]
        exact ⟨by omega, trivial, h2, h3⟩
      · rw [pend_none h2]; rw [pend_none (p := { p with index := p.index + 1 }) h2]; rfl
    · rw [if_pos (by simpa using hc)]
      apply bad_of hi
      rw [h1, a, hcons, hy]
      exact if_neg hc
  · rw [if_neg (by rw [hB]; simpa using a)]
    by_cases a2 : p.index - 1 = (delim b).length - 2
    · have a3 : p.index = (delim b).length - 1 := by omega
      rw [if_pos (by rw [hB]; simpa using a2)]
      rw [a3, hlf] at hcons
      have hy : (firstLine b).drop ((delim b).length - 1 + 1) = [] := by
        rw [← a3]; exact List.length_eq_zero_iff.mp (by omega)
      rw [hy] at hcons
      by_cases hc : buf.getD i 0 = 10
      · rw [if_neg (by rw [hc]; decide)]
        refine .inl (sim_one hi (s' := .line) (e1 := [.partBegin]) ?_ ?_ ?_)
        · rw [h1, a3, hcons, hc]; rfl
        · exact ⟨hB, hL, rfl, h2, h3⟩
        · rw [pend_none h2]; rw [pend_none (p := { p with index := 0, state := .fieldStart }) h2]; rfl
      · rw [if_pos (by simpa using hc)]
        apply bad_of hi
        rw [h1, a3, hcons]
        exact if_neg hc
    · rw [if_neg (by rw [hB]; simpa using a2)]
      have a3 : p.index < (delim b).length - 2 := by omega
      rw [if_neg (by rw [hB]; omega)]
      rw [hget _ a3] at hcons
      obtain ⟨y, r, hy⟩ : ∃ y r, (firstLine b).drop (p.index + 1) = y :: r := by
        cases hd : (firstLine b).drop (p.index + 1) with
        | nil => rw [hd] at hdl; simp at hdl; omega
        | cons y r => exact ⟨y, r, rfl⟩
      by_cases hc : buf.getD i 0 = (delim b).getD (p.index + 2) 0
      · rw [if_neg (by rw [hB, hc]; simp)]
        refine .inl (sim_one hi (s' := .first ((firstLine b).drop (p.index + 1))) (e1 := []) ?_ ?_ ?_)
        · rw [h1, hcons, hy, hc]
          exact if_pos rfl
        · refine ⟨hB, hL, ?_⟩
          simp only [hs]
          exact ⟨by omega, trivial, h2, h3⟩
        · rw [pend_none h2]; rw [pend_none (p := { p with index := p.index + 1 }) h2]; rfl
      · rw [if_pos (by rw [hB]; simpa using hc)]
        apply bad_of hi
        rw [h1, hcons, hy]
        exact if_neg hc

/-! ## Header lines -/

theorem flush_field_succ {buf : Bytes} {k i : Nat} (hk : k ≤ i) (hi : i < buf.length) :
    octets (flushTo .field (some k) buf (i + 1) false) = octets (flushTo .field (some k) buf i false) ++ [.field [buf.getD i 0]] := by
  simp only [flushTo, octets_field, slice_succ hk hi, List.map_append]; rfl

theorem flush_value_succ {buf : Bytes} {k i : Nat} (hk : k ≤ i) (hi : i < buf.length) :
    octets (flushTo .value (some k) buf (i + 1) false) = octets (flushTo .value (some k) buf i false) ++ [.value [buf.getD i 0]] := by
  simp only [flushTo, octets_value, slice_succ hk hi, List.map_append]; rfl

theorem flush_data_succ {buf : Bytes} {k i : Nat} (hk : k ≤ i) (hi : i < buf.length) :
    octets (flushTo .data (some k) buf (i + 1) false) = octets (flushTo .data (some k) buf i false) ++ [.data [buf.getD i 0]] := by
  simp only [flushTo, octets_data, slice_succ hk hi, List.map_append]; rfl

/-- `HEADER_FIELD` with the mark set. -/
theorem field_sim {b buf : Bytes} {i k : Nat} {p p' : P} {s : St} (hi : i < buf.length)
    (hB : p.B = delim b) (hL : p.look.length = (delim b).length + 8) (hst : p.state = .field)
    (hs : (p.index = 0 ∧ s = .line ∧ k = i) ∨ (0 < p.index ∧ s = .name)) (hk : k ≤ i) (hf : p.fm = some k) (hv : p.vm = none) (hd : p.dm = none)
    (h3 : p.pb = false) (hp : Pend buf i p' = octets (flushTo .field (some k) buf i false)) :
    StepOk b buf i p' s (fieldStep buf i (buf.getD i 0) p) := by
  unfold fieldStep
  generalize hc : buf.getD i 0 = c
  by_cases h13 : c = 13
  · rw [if_pos (by rw [h13]; rfl)]
    subst h13
    rcases hs with ⟨h0, rfl, rfl⟩ | ⟨h0, rfl⟩
    · refine .inl (sim_one hi (s' := .blank) (e1 := []) (by rw [hc]; rfl) ⟨hB, hL, rfl, h0, ⟨rfl, hv, hd⟩, h3⟩ ?_)
      rw [hp]
      unfold Pend
      simp [hv, hd, octets_nil, flushTo, octets_field, slice_self]
    · right
      rw [drop_getD hi, refRun_cons, hc]
      show (refRun b .stray _).2 = _
      rw [refRun_stray]
  · rw [if_neg (by simpa using h13)]
    by_cases hcol : c = c!":"
    · rw [if_pos (by simpa using hcol)]
      subst hcol
      rcases hs with ⟨h0, rfl, rfl⟩ | ⟨h0, rfl⟩
      · rw [if_pos (by rw [h0]; rfl)]
        apply bad_of hi
        rw [hc]; rfl
      · rw [if_neg (by simp; omega)]
        refine .inl (sim_one hi (s' := .colon) (e1 := []) (by rw [hc]; rfl) ⟨hB, hL, rfl, ⟨rfl, hv, hd⟩, h3⟩ ?_)
        rw [hp, hf]
        unfold Pend
        simp [hv, hd, octets_nil, flushTo]
    · rw [if_neg (by simpa using hcol)]
      cases ht : tok c with
      | false =>
        rw [if_pos (by rw [tok_eq, ht]; rfl)]
        apply bad_of hi
        rw [hc]
        rcases hs with ⟨h0, rfl, rfl⟩ | ⟨h0, rfl⟩ <;> simp [refStep, h13, hcol, ht]
      | true =>
        rw [if_neg (by rw [tok_eq, ht]; simp)]
        refine .inl (sim_one hi (s' := .name) (e1 := [.field [c]]) ?_ ?_ ?_)
        · rw [hc]
          rcases hs with ⟨h0, rfl, rfl⟩ | ⟨h0, rfl⟩ <;> simp [refStep, h13, hcol, ht]
        · refine ⟨hB, hL, ?_⟩
          simp only [hst]
          exact ⟨trivial, by omega, ⟨k, by omega, hf⟩, hv, hd, h3⟩
        · rw [hp]
          unfold Pend
          simp only [hf, hv, hd]
          rw [flush_field_succ hk hi, hc]
          simp [flushTo, octets_nil]

/-- `HEADER_VALUE` with the mark set. -/
theorem value_sim {b buf : Bytes} {i k : Nat} {p p' : P} {s : St} (hi : i < buf.length)
    (hB : p.B = delim b) (hL : p.look.length = (delim b).length + 8) (hst : p.state = .value)
    (hs : (s = .colon ∧ buf.getD i 0 ≠ 32) ∨ s = .text) (hk : k ≤ i) (hf : p.fm = none) (hv : p.vm = some k) (hd : p.dm = none)
    (h3 : p.pb = false) (hp : Pend buf i p' = octets (flushTo .value (some k) buf i false)) :
    StepOk b buf i p' s (valueStep buf i (buf.getD i 0) p) := by
  unfold valueStep
  generalize hc : buf.getD i 0 = c at *
  by_cases h13 : c = 13
  · rw [if_pos (by simpa using h13)]
    refine .inl (sim_one hi (s' := .cr) (e1 := [.headerEnd]) ?_ ⟨hB, hL, rfl, ⟨hf, rfl, hd⟩, h3⟩ ?_)
    · rw [hc]
      rcases hs with ⟨rfl, h⟩ | rfl <;> simp [refStep, h13]
    · rw [hp, hv, octets_append]
      unfold Pend
      simp [hf, hd, octets_nil, flushTo, octets_value]; rfl
  · rw [if_neg (by simpa using h13)]
    refine .inl (sim_one hi (s' := .text) (e1 := [.value [c]]) ?_ ?_ ?_)
    · rw [hc]
      rcases hs with ⟨rfl, h⟩ | rfl
      · simp [refStep, h13, h]
      · simp [refStep, h13]
    · refine ⟨hB, hL, ?_⟩
      simp only [hst]
      exact ⟨trivial, hf, ⟨k, by omega, hv⟩, hd, h3⟩
    · rw [hp]
      unfold Pend
      simp only [hf, hv, hd]
      rw [flush_value_succ hk hi, hc]
      simp [flushTo, octets_nil]

/-! ## Data -/

theorem pend_data {buf : Bytes} {i k : Nat} {p : P} (hf : p.fm = none) (hv : p.vm = none) (hd : p.dm = some k) :
    Pend buf i p = (slice buf k i).map (fun x => Ev.data [x]) := by
  unfold Pend
  rw [hf, hv, hd]
  simp [flushTo, octets_nil, octets_data]

/-- An octet that fits is stored. -/
theorem take_set {l : Bytes} {m : Nat} {c : UInt8} (h : m < l.length) : (l.set m c).take (m + 1) = l.take m ++ [c] := by
  rw [take_succ_getD (by simpa using h), getD_lt (by simpa using h)]
  simp [List.take_set_of_le]

/-- After a mismatch the octets held back are data and the octet is looked at again. -/
theorem data_again {b buf m : Bytes} {i : Nat} {p p' : P} (hi : i < buf.length)
    (hB : p.B = delim b) (hL : p.look.length = (delim b).length + 8) (hst : p.state = .data) (hx : p.index = m.length)
    (hl : p.look.take m.length = m) (hf : p.fm = none) (hv : p.vm = none) (hne : m ≠ []) (h1 : p.dm = none)
    (hp : Pend buf i p' = Pend buf i p) (hp' : p'.index = p.index)
    (h : refStep b (.body m p.pb) (buf.getD i 0) =
      (m.map (fun x => Ev.data [x]) ++ (refStep b (.body [] p.pb) (buf.getD i 0)).1, (refStep b (.body [] p.pb) (buf.getD i 0)).2)) :
    StepOk b buf i p' (.body m p.pb) (lookStep p.index i (buf.getD i 0) { p with index := 0 } []) := by
  have hpos : 0 < m.length := List.length_pos_iff.mpr hne
  unfold lookStep
  simp only [Nat.lt_irrefl, if_false, gt_iff_lt]
  have hle : m.length ≤ p.look.length := by
    have := congrArg List.length hl
    rw [List.length_take] at this
    omega
  rw [if_pos (by omega), if_neg (by omega)]
  refine .inl ⟨.body [] p.pb, m.map (fun x => Ev.data [x]), ?_, ⟨hB, hL, ?_⟩, ?_, .inr ⟨rfl, by omega, rfl⟩⟩
  · rw [drop_getD hi, refRun_cons, refRun_cons, h]
    simp only [List.append_assoc]
  · simp only [hst]
    exact ⟨[], rfl, .nil b, rfl, rfl, hf, hv, fun _ => ⟨i, Nat.le_refl _, rfl⟩, fun h => absurd rfl h, fun h => by simp at h⟩
  · rw [hp]
    unfold Pend
    simp only [hf, hv, h1, flushTo, octets_nil, List.nil_append, slice_self, octets_data, List.map_nil, List.append_nil]
    rw [hx, hl]
    simp [octets]

/-- An octet that fits is held back. -/
theorem data_store {b buf m : Bytes} {i : Nat} {p q p' : P} {e : List Ev} {c : UInt8} (hi : i < buf.length) (hc : buf.getD i 0 = c)
    (hqB : q.B = delim b) (hqL : q.look.length = (delim b).length + 8) (hst : q.state = .data) (hh : Held b (m ++ [c])) (hx : q.index = m.length + 1)
    (hl : q.look.take m.length = m) (hf : q.fm = none) (hv : q.vm = none) (hd : q.dm = none)
    (h2 : (delim b).length < m.length + 1 → q.pb = false → q.lb = true)
    (he : octets e = Pend buf i p') (h : refStep b (.body m p.pb) c = ([], .body (m ++ [c]) q.pb)) :
    StepOk b buf i p' (.body m p.pb) (lookStep p.index i c q e) := by
  have hm : m.length < q.look.length := by
    have := hh.le
    simp only [List.length_append, List.length_cons, List.length_nil] at this
    omega
  unfold lookStep
  rw [if_pos (by omega), if_neg (by omega)]
  refine .inl (sim_one hi (s' := .body (m ++ [c]) q.pb) (e1 := []) (by rw [hc]; exact h) ⟨hqB, by simpa using hqL, ?_⟩ ?_)
  · simp only [hst]
    refine ⟨m ++ [c], rfl, hh, by simpa using hx, ?_, hf, hv, fun h => by simp at h, fun _ => hd, fun h => h2 (by simpa using h)⟩
    rw [hx, Nat.add_sub_cancel, List.length_append]
    show (q.look.set m.length c).take (m.length + 1) = _
    rw [take_set hm, hl]
  · rw [he]
    unfold Pend
    simp [hf, hv, hd, flushTo, octets_nil]

/-- The comparison in terms of the octets held back: an octet that fits, and one that does not. -/
theorem data_one {b : Bytes} {buf m : Bytes} {i : Nat} {p p' : P} (hi : i < buf.length)
    (hB : p.B = delim b) (hL : p.look.length = (delim b).length + 8) (hst : p.state = .data) (hh : Held b m) (hx : p.index = m.length)
    (hl : p.look.take m.length = m) (hf : p.fm = none) (hv : p.vm = none) (h0 : m = [] → ∃ k, k ≤ i ∧ p.dm = some k)
    (h1 : m ≠ [] → p.dm = none) (h2 : (delim b).length < m.length → p.pb = false → p.lb = true)
    (hp : Pend buf i p' = Pend buf i p) (hp' : p'.index = p.index) :
    StepOk b buf i p' (.body m p.pb)
      (match matchStep buf i (buf.getD i 0) p with
       | (q, e, true) => .go q (i + 1) e
       | (q, e, false) => lookStep p.index i (buf.getD i 0) q e) := by
  have hpend : m ≠ [] → Pend buf i p' = [] := fun hne => by
    rw [hp]; unfold Pend; simp [hf, hv, h1 hne, flushTo, octets_nil]
  unfold matchStep
  simp only [hB, hx]
  by_cases a : m.length < (delim b).length
  · rw [if_pos a]
    have hm : m = (delim b).take m.length := by
      rcases hh with ⟨_, h⟩ | ⟨c, h, _⟩
      · exact h
      · rw [h] at a; simp at a; omega
    by_cases hc : (delim b).getD m.length 0 = buf.getD i 0
    · rw [if_pos (by simpa using hc)]
      have hh' : Held b (m ++ [buf.getD i 0]) := by
        left
        simp only [List.length_append, List.length_cons, List.length_nil]
        refine ⟨by omega, ?_⟩
        rw [take_succ_getD a, ← hm, hc]
      by_cases hm0 : m = []
      · subst hm0
        simp only [List.length_nil, beq_self_eq_true, if_true]
        obtain ⟨k, hk, hdk⟩ := h0 rfl
        rw [show (0 : Nat) = p.index from hx.symm]
        refine data_store hi rfl rfl hL hst hh' (by simp [hx]) rfl hf hv rfl (fun h => by have := delim_length b; simp only [List.length_nil] at h; omega) ?_ (body_fit a hc)
        rw [hp]; unfold Pend; simp [hf, hv, flushTo, octets_nil]
      · rw [if_neg (by simpa using hm0)]
        simp only []
        rw [← hx]
        exact data_store hi rfl rfl hL hst hh' (by simp [hx]) hl hf hv (h1 hm0) (fun h => by omega) (by rw [hpend hm0]; rfl) (body_fit a hc)
    · rw [if_neg (by simpa using hc)]
      simp only []
      by_cases hm0 : m = []
      · subst hm0
        obtain ⟨k, hk, hdk⟩ := h0 rfl
        unfold lookStep
        simp only [Nat.lt_irrefl, if_false, gt_iff_lt, List.length_nil]
        have hc13 : buf.getD i 0 ≠ 13 := fun h => hc (by rw [h]; rfl)
        refine .inl (sim_one hi (by rw [body_nil, if_neg hc13]) ⟨rfl, hL, ?_⟩ ?_)
        · simp only [hst]
          exact ⟨[], rfl, .nil b, rfl, rfl, hf, hv, fun _ => ⟨k, by omega, hdk⟩, fun h => absurd rfl h, fun h => by simp at h⟩
        · rw [hp]
          unfold Pend
          simp only [hf, hv, hdk]
          rw [flush_data_succ hk hi]
          simp [flushTo, octets_nil]
      · rw [← hx, ← hB]
        exact data_again hi hB hL hst hx hl hf hv hm0 (h1 hm0) hp hp' (bodyStep_again (fun _ => hc) (fun h => by omega) (fun h => by omega))
  · rw [if_neg a]
    have hm0 : m ≠ [] := by
      intro h; subst h; rw [delim_length] at a; simp at a
    by_cases a2 : m.length = (delim b).length
    · rw [if_pos (by simpa using a2)]
      have hm : m = delim b := by
        rcases hh with ⟨_, h⟩ | ⟨c, h, _⟩
        · rw [a2, List.take_length] at h; exact h
        · rw [h] at a2; simp at a2
      have hr : ∀ c, refStep b (.body m p.pb) c = if c = 13 then ([], .body (m ++ [c]) true) else if c = c!"-" then ([], .body (m ++ [c]) p.pb)
          else if c = 13 then (m.map (fun x => Ev.data [x]), St.body [c] p.pb) else (m.map (fun x => Ev.data [x]) ++ [.data [c]], St.body [] p.pb) := by
        intro c
        unfold refStep bodyStep
        simp only []
        rw [if_neg a, if_pos a2]
      by_cases hc : buf.getD i 0 = 13
      · rw [if_pos (by rw [hc]; rfl)]
        simp only []
        rw [← hx]
        refine data_store hi rfl rfl hL hst (.inr ⟨_, by rw [hm], .inl hc⟩) (by simp [hx]) hl hf hv (h1 hm0) (fun _ h => by simp at h)
          (by rw [hpend hm0]; rfl) ?_
        rw [hr, if_pos hc]
      · rw [if_neg (by simpa using hc)]
        by_cases hc2 : buf.getD i 0 = c!"-"
        · rw [if_pos (by rw [hc2]; rfl)]
          simp only []
          rw [← hx]
          refine data_store hi rfl rfl hL hst (.inr ⟨_, by rw [hm], .inr hc2⟩) (by simp [hx]) hl hf hv (h1 hm0) (fun _ _ => rfl)
            (by rw [hpend hm0]; rfl) ?_
          rw [hr, if_neg hc, if_pos hc2]
        · rw [if_neg (by simpa using hc2)]
          simp only []
          rw [← hx, ← hB]
          exact data_again hi hB hL hst hx hl hf hv hm0 (h1 hm0) hp hp' (bodyStep_again (fun h => by omega) (fun _ => ⟨hc, hc2⟩) (fun h => by omega))
    · rw [if_neg (by simpa using a2)]
      have hn : m.length = (delim b).length + 1 := by have := hh.le; omega
      rw [if_pos (by rw [hn]; simp)]
      cases hpb : p.pb with
      | true =>
        simp only [if_true]
        by_cases hc : buf.getD i 0 = 10
        · rw [if_pos (by rw [hc]; rfl)]
          simp only []
          refine .inl (sim_one hi (s' := .line) (e1 := [.partEnd, .partBegin]) ?_ ⟨rfl, hL, rfl, ⟨hf, hv, h1 hm0⟩, rfl⟩ ?_)
          · unfold refStep bodyStep
            simp only []
            rw [if_neg a, if_neg a2, if_pos trivial, if_pos hc]
          · rw [hpend hm0]; unfold Pend; simp [hf, hv, h1 hm0, flushTo, octets]
        · rw [if_neg (by simpa using hc)]
          simp only []
          rw [← hx, ← hB, ← hpb]
          exact data_again hi hB hL hst hx hl hf hv hm0 (h1 hm0) hp hp'
            (bodyStep_again (fun h => by omega) (fun h => by omega) (fun h => by rw [hpb, if_pos rfl]; exact hc))
      | false =>
        have hlb := h2 (by omega) hpb
        simp only [Bool.false_eq_true, if_false]
        rw [if_pos hlb]
        by_cases hc : buf.getD i 0 = c!"-"
        · rw [if_pos (by rw [hc]; rfl)]
          simp only []
          unfold lookStep
          simp only []
          rw [if_pos (by omega), if_neg (by omega)]
          refine .inl (sim_one hi (s' := .over) (e1 := [.partEnd, .finish]) ?_ ⟨rfl, by simpa using hL, rfl, ⟨hf, hv, h1 hm0⟩⟩ ?_)
          · unfold refStep bodyStep
            simp only []
            rw [if_neg a, if_neg a2, if_neg (by simp), if_pos hc]
          · rw [hpend hm0]; unfold Pend; simp [hf, hv, h1 hm0, flushTo, octets]
        · rw [if_neg (by simpa using hc)]
          simp only []
          rw [← hx, ← hB, ← hpb]
          exact data_again hi hB hL hst hx hl hf hv hm0 (h1 hm0) hp hp'
            (bodyStep_again (fun h => by omega) (fun h => by omega) (fun h => by rw [hpb, if_neg (by simp)]; exact hc))

theorem stepOk_shift {b buf : Bytes} {i j : Nat} {p p' : P} {pb : Bool} {E : List Ev} {r : Res} (hij : i ≤ j) (h0 : p.index = 0)
    (hrun : refRun b (.body [] pb) (buf.drop i) = (E ++ (refRun b (.body [] pb) (buf.drop j)).1, (refRun b (.body [] pb) (buf.drop j)).2))
    (hp : Pend buf j p = Pend buf i p' ++ E) (h : StepOk b buf j p (.body [] pb) r) : StepOk b buf i p' (.body [] pb) r := by
  cases r with
  | go q l e =>
    rcases h with ⟨s', e1, h1, h2, h3, h4⟩ | h
    · refine .inl ⟨s', E ++ e1, ?_, h2, ?_, .inl ?_⟩
      · rw [hrun, h1]; simp only [List.append_assoc]
      · rw [h3, hp, List.append_assoc]
      · omega
    · right; rw [hrun]; exact h
  | stop => cases h.1
  | fail q => show (refRun b _ _).2 = _; rw [hrun]; exact h
  | throws q e => exact h
  | ub => exact h

theorem part_sim {b : Bytes} (hb : Boundary b) {buf m : Bytes} {i : Nat} {p p' : P} (hi : i < buf.length)
    (hB : p.B = delim b) (hL : p.look.length = (delim b).length + 8) (hst : p.state = .data) (hh : Held b m) (hx : p.index = m.length)
    (hl : p.look.take m.length = m) (hf : p.fm = none) (hv : p.vm = none) (h0 : m = [] → ∃ k, k ≤ i ∧ p.dm = some k)
    (h1 : m ≠ [] → p.dm = none) (h2 : (delim b).length < m.length → p.pb = false → p.lb = true)
    (hp : Pend buf i p' = Pend buf i p) (hp' : p'.index = p.index) :
    StepOk b buf i p' (.body m p.pb) (partData buf i p) := by
  unfold partData
  by_cases hm : m = []
  · subst hm
    obtain ⟨k, hk, hd⟩ := h0 rfl
    have hx0 : p.index = 0 := hx
    obtain ⟨s1, s2, s3⟩ := skip_spec hb p.pb buf buf.length i (by omega)
    simp only [hx0, beq_self_eq_true, if_true, Bool.true_and]
    rw [hB]
    generalize skip (delim b) buf buf.length i = j at *
    have hpj : ∀ l, l ≤ buf.length → j ≤ l → Pend buf l p = Pend buf i p' ++ (slice buf i l).map (fun x => Ev.data [x]) := by
      intro l hl hjl
      rw [hp, pend_data hf hv hd, pend_data hf hv hd, slice_add hk (by omega) hl, List.map_append]
    by_cases hj : j = buf.length
    · rw [if_pos (by simpa using hj)]
      refine .inl ⟨.body [] p.pb, (slice buf i j).map (fun x => Ev.data [x]), ?_, ⟨hB, hL, ?_⟩, ?_, .inl (by omega)⟩
      · rw [s3]
        rw [show buf.drop (j + 1) = buf.drop j by rw [hj]; simp]
      · simp only [hst]
        exact ⟨[], rfl, .nil b, hx, rfl, hf, hv, fun _ => ⟨k, by omega, hd⟩, h1, h2⟩
      · have e : Pend buf (j + 1) p = Pend buf j p := by
          rw [pend_data hf hv hd, pend_data hf hv hd]
          unfold slice
          rw [List.take_of_length_le (by omega), List.take_of_length_le (by omega)]
        rw [e, octets_nil, List.nil_append, hpj j s2 (Nat.le_refl _)]
    · rw [if_neg (by simpa using hj)]
      have h := data_one (b := b) (buf := buf) (m := []) (i := j) (p := p) (p' := p) (by omega) hB hL hst hh hx hl hf hv
        (fun _ => ⟨k, by omega, hd⟩) h1 h2 rfl rfl
      rw [hx0] at h
      exact stepOk_shift s1 hx0 s3 (hpj j s2 (Nat.le_refl _)) h
  · have hx0 : p.index ≠ 0 := by
      rw [hx]; intro h; exact hm (List.length_eq_zero_iff.mp h)
    have hx1 : (p.index == 0) = false := by simpa using hx0
    simp only [hx1, Bool.false_and, Bool.false_eq_true, if_false]
    exact data_one hi hB hL hst hh hx hl hf hv h0 h1 h2 hp hp'

/-- One iteration agrees with the reference reader. -/
theorem step_sim {b : Bytes} (hb : Boundary b) {buf : Bytes} {i : Nat} {p : P} {s : St} (hi : i < buf.length) (h : Rel b i p s) :
    StepOk b buf i p s (step buf i p) := by
  obtain ⟨hB, hL, h⟩ := h
  unfold step
  cases hst : p.state with
  | error => rw [hst] at h; exact h.elim
  | start =>
    rw [hst] at h
    obtain ⟨h1, h2, h3⟩ := h
    have := start_sim hb (i := i) (p := { p with index := 0, state := .startBoundary }) (s := s) hi hB hL rfl
      (by rw [delim_length]; simp) (by rw [h1]; rfl) h2 h3
    simp only []
    revert this
    cases hr : startStep i (buf.getD i 0) { p with index := 0, state := .startBoundary } with
    | go q j e =>
      rintro (⟨s', e1, a1, a2, a3, a4⟩ | h)
      · refine .inl ⟨s', e1, a1, a2, ?_, .inl ?_⟩
        · rw [a3]; rfl
        · rcases a4 with a | ⟨_, a, _⟩
          · exact a
          · simp at a
      · exact .inr h
    | stop => exact fun h => ⟨h.1, h2⟩
    | fail q => exact id
    | throws q e => exact id
    | ub => exact id
  | startBoundary =>
    rw [hst] at h
    obtain ⟨h0, h1, h2, h3⟩ := h
    exact start_sim hb hi hB hL hst h0 h1 h2 h3
  | fieldStart =>
    rw [hst] at h
    obtain ⟨h1, h2, h3⟩ := h
    refine field_sim (k := i) hi hB hL rfl (.inl ⟨rfl, h1, rfl⟩) (Nat.le_refl _) rfl h2.2.1 h2.2.2 h3 ?_
    rw [pend_none h2]
    simp [flushTo, octets_field, slice_self]
  | field =>
    rw [hst] at h
    obtain ⟨h1, h2, ⟨k, hk, hf⟩, h4, h5, h6⟩ := h
    refine field_sim hi hB hL hst (.inr ⟨h2, h1⟩) hk hf h4 h5 h6 ?_
    unfold Pend
    simp [hf, h4, h5, flushTo, octets_nil]
  | valueStart =>
    rw [hst] at h
    obtain ⟨h1, h2, h3⟩ := h
    simp only []
    by_cases hc : buf.getD i 0 = 32
    · rw [if_pos (by rw [hc]; rfl)]
      refine .inl (sim_one hi (s' := .colon) (e1 := []) ?_ ⟨hB, hL, ?_⟩ ?_)
      · rw [h1, hc]; rfl
      · simp only [hst]; exact ⟨trivial, h2, h3⟩
      · rw [pend_none h2, pend_none h2]; rfl
    · rw [if_neg (by simpa using hc)]
      refine value_sim (k := i) hi hB hL rfl (.inl ⟨h1, hc⟩) (Nat.le_refl _) h2.1 rfl h2.2.2 h3 ?_
      rw [pend_none h2]
      simp [flushTo, octets_value, slice_self]
  | value =>
    rw [hst] at h
    obtain ⟨h1, h2, ⟨k, hk, hf⟩, h5, h6⟩ := h
    refine value_sim hi hB hL hst (.inr h1) hk h2 hf h5 h6 ?_
    unfold Pend
    simp [hf, h2, h5, flushTo, octets_nil]
  | valueAlmost =>
    rw [hst] at h
    obtain ⟨h1, h2, h3⟩ := h
    simp only []
    by_cases hc : buf.getD i 0 = 10
    · rw [if_neg (by rw [hc]; simp)]
      refine .inl (sim_one hi (s' := .line) (e1 := []) ?_ ⟨hB, hL, rfl, h2, h3⟩ ?_)
      · rw [h1, hc]; rfl
      · rw [pend_none h2, pend_none (p := { p with state := .fieldStart }) h2]; rfl
    · rw [if_pos (by simpa using hc)]
      apply bad_of hi
      rw [h1]
      exact if_neg hc
  | headersAlmost =>
    rw [hst] at h
    obtain ⟨h1, h0, h2, h3⟩ := h
    simp only []
    by_cases hc : buf.getD i 0 = 10
    · rw [if_neg (by rw [hc]; simp)]
      refine .inl (sim_one hi (s' := .body [] false) (e1 := [.headersEnd]) ?_ ⟨hB, hL, rfl, h0, h2, h3⟩ ?_)
      · rw [h1, hc]; rfl
      · rw [pend_none h2, pend_none (p := { p with state := .dataStart }) h2]; rfl
    · rw [if_pos (by simpa using hc)]
      apply bad_of hi
      rw [h1]
      exact if_neg hc
  | dataStart =>
    rw [hst] at h
    obtain ⟨h1, h0, h2, h3⟩ := h
    have := part_sim hb (m := []) (i := i) (p := { p with state := .data, dm := some i }) (p' := p) hi hB hL rfl (.nil b) h0 rfl h2.1 h2.2.1
      (fun _ => ⟨i, Nat.le_refl _, rfl⟩) (fun h => absurd rfl h) (fun h => by simp at h)
      (by rw [pend_none h2, pend_data (p := { p with state := .data, dm := some i }) h2.1 h2.2.1 rfl, slice_self]; rfl) rfl
    simp only [h3] at this
    rw [h1]
    simpa only [h3] using this
  | data =>
    rw [hst] at h
    obtain ⟨m, rfl, h2, h3, h4, h5, h6, h7, h8, h9⟩ := h
    exact part_sim hb hi hB hL hst h2 h3 h4 h5 h6 h7 h8 h9 rfl rfl
  | fin =>
    rw [hst] at h
    exact h

/-- How the state of the parser after a `feed` and the state of the reference reader agree. -/
def After (b : Bytes) (p0 : P) (s : St) (o : End) (q : P) : Prop :=
  match s with
  | .stray => True
  | .bad => o = .fail ∧ q.state = .error
  | .past => o = .early ∧ q.state = p0.state
  | s => o = .done ∧ Rel b 0 q s

theorem after_done {b : Bytes} {p0 q : P} {s : St} (h : Rel b 0 q s) : After b p0 s .done q := by
  unfold After
  cases s with
  | stray => trivial
  | bad => cases hq : q.state <;> simp [Rel, hq, St.init] at h
  | past => cases hq : q.state <;> simp [Rel, hq, St.init] at h
  | _ => exact ⟨rfl, h⟩

theorem rel_keep {b : Bytes} {i : Nat} {p : P} {s : St} (h : Rel b i p s) : Rel b 0 { p with fm := keep p.fm, vm := keep p.vm, dm := keep p.dm } s := by
  obtain ⟨hB, hL, h⟩ := h
  refine ⟨hB, hL, ?_⟩
  obtain ⟨B, look, state, pb, lb, index, fm, vm, dm⟩ := p
  have hn : ∀ f v d, NoMarks { B := B, look := look, state := state, pb := pb, lb := lb, index := index, fm := f, vm := v, dm := d } →
      NoMarks { B := B, look := look, state := state, pb := pb, lb := lb, index := index, fm := keep f, vm := keep v, dm := keep d } := by
    rintro f v d ⟨a, b, c⟩
    simp only at a b c
    subst a; subst b; subst c
    exact ⟨rfl, rfl, rfl⟩
  cases state with
  | error => exact h
  | start => exact ⟨h.1, hn _ _ _ h.2.1, h.2.2⟩
  | startBoundary => exact ⟨h.1, h.2.1, hn _ _ _ h.2.2.1, h.2.2.2⟩
  | fieldStart => exact ⟨h.1, hn _ _ _ h.2.1, h.2.2⟩
  | field =>
    obtain ⟨h1, h2, ⟨k, hk, hf⟩, h4, h5, h6⟩ := h
    simp only at hf h4 h5 h6
    subst hf; subst h4; subst h5
    exact ⟨h1, h2, ⟨0, by omega, rfl⟩, rfl, rfl, h6⟩
  | valueStart => exact ⟨h.1, hn _ _ _ h.2.1, h.2.2⟩
  | value =>
    obtain ⟨h1, h2, ⟨k, hk, hf⟩, h5, h6⟩ := h
    simp only at hf h2 h5 h6
    subst hf; subst h2; subst h5
    exact ⟨h1, rfl, ⟨0, by omega, rfl⟩, rfl, h6⟩
  | valueAlmost => exact ⟨h.1, hn _ _ _ h.2.1, h.2.2⟩
  | headersAlmost => exact ⟨h.1, h.2.1, hn _ _ _ h.2.2.1, h.2.2.2⟩
  | dataStart => exact ⟨h.1, h.2.1, hn _ _ _ h.2.2.1, h.2.2.2⟩
  | data =>
    obtain ⟨m, h1, h2, h3, h4, h5, h6, h7, h8, h9⟩ := h
    simp only at h5 h6 h7 h8
    subst h5; subst h6
    refine ⟨m, h1, h2, h3, h4, rfl, rfl, ?_, ?_, h9⟩
    · intro e
      obtain ⟨k, _, rfl⟩ := h7 e
      exact ⟨0, by omega, rfl⟩
    · intro e
      rw [h8 e]; rfl
  | fin => exact ⟨h.1, hn _ _ _ h.2⟩

/-- The loop. -/
theorem loop_sim {b : Bytes} (hb : Boundary b) (p0 : P) (buf : Bytes) (f i : Nat) (p : P) (s : St) (h : Rel b i p s)
    (hf : 2 * (buf.length - i) + (if 0 < p.index then 1 else 0) + 1 ≤ f) :
    After b p0 (refRun b s (buf.drop i)).2 (loop p0 buf f i p).2.2 (loop p0 buf f i p).1 ∧
    ((refRun b s (buf.drop i)).2 ≠ .stray → (refRun b s (buf.drop i)).2 ≠ .bad →
      octets (loop p0 buf f i p).2.1 = Pend buf i p ++ (refRun b s (buf.drop i)).1) := by
  induction f generalizing i p s with
  | zero => omega
  | succ f ih =>
    rw [loop]
    by_cases hi : i < buf.length
    · rw [if_pos hi]
      have hs := step_sim hb hi h
      cases hr : step buf i p with
      | go q j e =>
        rw [hr] at hs
        simp only []
        rcases hs with ⟨s', e1, h1, h2, h3, h4⟩ | hs
        · have hm : 2 * (buf.length - j) + (if 0 < q.index then 1 else 0) + 1 ≤ f := by
            rcases h4 with h4 | ⟨h4, h5, h6⟩
            · by_cases hq : 0 < q.index
              · rw [if_pos hq]; split at hf <;> omega
              · rw [if_neg hq]; split at hf <;> omega
            · rw [if_pos h5] at hf
              rw [if_neg (by omega)]
              omega
          obtain ⟨g1, g2⟩ := ih j q s' h2 hm
          rw [h1]
          refine ⟨g1, fun a c => ?_⟩
          rw [octets_append, g2 a c, ← List.append_assoc, h3, List.append_assoc]
        · rw [hs]
          exact ⟨trivial, fun a => absurd rfl a⟩
      | stop =>
        rw [hr] at hs
        obtain ⟨h1, h2⟩ := hs
        have : refRun b s (buf.drop i) = ([], .past) := by
          rw [drop_getD hi, refRun_cons, h1]
          show ([] ++ (refRun b .past _).1, (refRun b .past _).2) = _
          rw [refRun_past]; rfl
        rw [this]
        exact ⟨⟨rfl, rfl⟩, fun _ _ => by rw [pend_none h2]; rfl⟩
      | fail q =>
        rw [hr] at hs
        have hs' : (refRun b s (buf.drop i)).2 = .bad := hs
        rw [hs']
        exact ⟨⟨rfl, rfl⟩, fun _ a => absurd rfl a⟩
      | throws q e => rw [hr] at hs; exact hs.elim
      | ub => rw [hr] at hs; exact hs.elim
    · rw [if_neg hi]
      have hd : buf.drop i = [] := List.drop_eq_nil_of_le (by omega)
      rw [hd]
      refine ⟨after_done (rel_keep h), fun _ _ => ?_⟩
      simp only [refRun, List.append_nil, octets_append]
      unfold Pend
      have hx : ∀ (mk : Bytes → Ev) (m : Option Nat), flushTo mk m buf buf.length false = flushTo mk m buf i false := by
        intro mk m
        cases m with
        | none => rfl
        | some k =>
          unfold flushTo slice
          simp only []
          rw [List.take_of_length_le (Nat.le_refl _), List.take_of_length_le (by omega)]
      rw [hx, hx, hx]

end Verif.Multi
