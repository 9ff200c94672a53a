import Verif.Se2.Spec
set_option linter.unusedSimpArgs false

/-! C200: no request context of an HTTP/2 session is forgotten. C201: no iterator is used after its entry was erased. C202: what is sent. -/

namespace Verif.Se2

open Verif.Wire (find)

theorem mem_del {m : List (Nat × Nat)} {s : Nat} {e : Nat × Nat} : e ∈ del m s ↔ e ∈ m ∧ e.1 ≠ s := by
  simp [del]

theorem get_some {m : List (Nat × Nat)} {s x : Nat} (h : get m s = some x) : (s, x) ∈ m := by
  unfold get at h
  cases hf : m.find? (fun e => e.1 == s) with
  | none => rw [hf] at h; cases h
  | some e =>
    rw [hf] at h; cases h
    have h1 := List.mem_of_find?_eq_some hf
    have h2 := List.find?_some hf
    simp at h2; rw [← h2]; exact h1

theorem get_none {m : List (Nat × Nat)} {s : Nat} (h : get m s = none) : ∀ e ∈ m, e.1 ≠ s := by
  intro e he hs
  unfold get at h
  rw [Option.map_eq_none_iff, List.find?_eq_none] at h
  exact h e he (by simp [hs])

structure Inv (t : St) : Prop where
  st : ∀ x s, Ev.stored x s ∈ t.log → (s, x) ∈ t.table ∨ Settled x t.log
  er : ∀ e ∈ t.errs, Settled e.2 t.log
  bu : ∀ sw e es, t.work = some (.busy sw e es) → Settled e.2 t.log
  re : ∀ x, t.work = some (.replace x) → Settled x t.log ∧ t.h2 = some false
  lo : ∀ es, t.work = some (.loop false es) → ∀ e ∈ t.table, e ∈ es ∨ Settled e.2 t.log
  bl : ∀ e' es, t.work = some (.busy false e' es) → ∀ e ∈ t.table, e ∈ es ∨ Settled e.2 t.log
  fr : ∀ s x, t.work = some (.route s x) → (∀ e ∈ t.table, e.1 ≠ s) ∧ ((t.h2 = some false ∧ s = 0) ∨ (t.h2 = some true ∧ s ∈ t.seen))
  p1 : t.h2 = some false → ∀ e ∈ t.table, e.1 = 0
  p2 : t.h2 = some true → ∀ e ∈ t.table, e.1 ∈ t.seen
  p0 : t.h2 = none → t.table = []
  uq : ∀ e ∈ t.table, ∀ e' ∈ t.table, e.1 = e'.1 → e = e'

theorem inv_init : Inv {} := by constructor <;> simp

theorem idle_iff {t : St} : idle t = true ↔ t.work = none ∧ t.errs = [] := by
  simp [idle]

theorem h2_none {p : Option Bool} : p.isNone = true ↔ p = none := by cases p <;> simp

theorem h2_some {p : Option Bool} {b : Bool} : (p == some b) = true ↔ p = some b := by simp

theorem inv_erase {t : St} {e : Nat × Nat} (h : Inv t) (he : Settled e.2 t.log) (hb : (eraseIt t e).bad = false) : Inv (eraseIt t e) ∧ e ∈ t.table ∧ eraseIt t e = { t with table := del t.table e.1 } := by
  unfold eraseIt at hb ⊢
  by_cases hc : t.table.contains e = true
  · rw [if_pos hc] at hb ⊢
    have hm : e ∈ t.table := by simpa using hc
    obtain ⟨st, er, bu, re, lo, bl, fr, p1, p2, p0, uq⟩ := h
    refine ⟨⟨?_, er, bu, re, ?_, ?_, ?_, ?_, ?_, ?_, ?_⟩, hm, rfl⟩
    · intro x s hs
      rcases st x s hs with h1 | h1
      · by_cases h2 : s = e.1
        · have := uq _ h1 _ hm h2
          rw [← this] at he
          exact .inr he
        · exact .inl (mem_del.2 ⟨h1, h2⟩)
      · exact .inr h1
    · intro es h1 e' h2; exact lo es h1 e' (mem_del.1 h2).1
    · intro e1 es h1 e' h2; exact bl e1 es h1 e' (mem_del.1 h2).1
    · intro s x h1; exact ⟨fun e' h2 => (fr s x h1).1 e' (mem_del.1 h2).1, (fr s x h1).2⟩
    · intro h1 e' h2; exact p1 h1 e' (mem_del.1 h2).1
    · intro h1 e' h2; exact p2 h1 e' (mem_del.1 h2).1
    · intro h1; simp [p0 h1, del]
    · intro e1 h1 e2 h2 h3; exact uq e1 (mem_del.1 h1).1 e2 (mem_del.1 h2).1 h3
  · rw [if_neg hc] at hb; cases hb

theorem inv_ret {t : St} (h : Inv t) (hb : (step t .ret).bad = false) : Inv (step t .ret) := by
  simp only [step] at hb ⊢
  by_cases hbad : t.bad = true
  · rw [if_pos hbad] at hb ⊢; exact h
  rw [if_neg hbad] at hb ⊢
  cases he : t.errs with
  | cons e es =>
    simp only [he] at hb ⊢
    have h' : Inv { t with errs := es } := ⟨h.st, fun e' h1 => h.er e' (by rw [he]; exact .tail _ h1), h.bu, h.re, h.lo, h.bl, h.fr, h.p1, h.p2, h.p0, h.uq⟩
    exact (inv_erase h' (h.er e (by rw [he]; exact .head _)) hb).1
  | nil =>
    simp only [he] at hb ⊢
    cases hw : t.work with
    | none => simp only [hw] at hb ⊢; exact h
    | some w =>
      cases w with
      | route s x => simp only [hw] at hb ⊢; exact h
      | loop sw es => simp only [hw] at hb ⊢; exact h
      | replace x =>
        simp only [hw] at hb ⊢
        obtain ⟨hs, h2⟩ := h.re x hw
        obtain ⟨h1, -, h3⟩ := inv_erase (e := (0, x)) h hs hb
        rw [h3] at h1 ⊢
        exact ⟨h1.st, h1.er, by simp, by simp, by simp, by simp, fun s y hy => by cases hy; exact ⟨fun e he => (mem_del.1 he).2, .inl ⟨h2, rfl⟩⟩, h1.p1, h1.p2, h1.p0, h1.uq⟩
      | busy sw e es =>
        cases sw with
        | true =>
          simp only [hw] at hb ⊢
          obtain ⟨h1, -, h3⟩ := inv_erase (e := e) h (h.bu _ _ _ hw) hb
          exact ⟨h1.st, h1.er, by simp, by simp, by simp, by simp, by simp, h1.p1, h1.p2, h1.p0, h1.uq⟩
        | false =>
          simp only [hw] at hb ⊢
          by_cases hc : t.table.contains e = true
          · rw [if_pos hc] at hb ⊢
            exact ⟨h.st, by simp, by simp, by simp, fun es' h1 e' h2 => by cases h1; exact h.bl e es hw e' h2, by simp, by simp, h.p1, h.p2, h.p0, h.uq⟩
          · rw [if_neg hc] at hb; cases hb

theorem inv_eos {t : St} (h : Inv t) : Inv (step t .eos) := by
  simp only [step]
  by_cases hbad : t.bad = true
  · rw [if_pos hbad]; exact h
  rw [if_neg hbad]
  split
  · rename_i hi
    simp [idle] at hi
    cases hg : get t.table 0 with
    | none => exact h
    | some x =>
      refine ⟨?_, by simp [hi.1.2], by simp [hi.1.1], by simp [hi.1.1], by simp, by simp, by simp [hi.1.1], by simp, by simp, by simp, by simp⟩
      intro y s hs
      right
      simp at hs
      rcases h.st y s hs with h1 | h1
      · have hs0 := h.p1 hi.2 _ h1
        simp at hs0
        have := h.uq _ h1 _ (get_some hg) hs0
        cases this
        exact .inl (by simp)
      · rcases h1 with h1 | h1
        · exact .inl (.tail _ h1)
        · exact .inr (.tail _ h1)
  · exact h

theorem inv_request1 {t : St} (h : Inv t) : Inv (step t .request1) := by
  simp only [step]
  by_cases hbad : t.bad = true
  · rw [if_pos hbad]; exact h
  rw [if_neg hbad]
  split
  · rename_i hi
    simp [idle] at hi
    cases hg : get t.table 0 with
    | none => exact ⟨h.st, h.er, by simp, by simp, by simp, by simp, fun s x h1 => by cases h1; exact ⟨get_none hg, .inl ⟨hi.2, rfl⟩⟩, h.p1, h.p2, h.p0, h.uq⟩
    | some x =>
      have up : ∀ y, Settled y t.log → Settled y (.cancel x :: t.log) := fun y hy => hy.imp (.tail _) (.tail _)
      refine ⟨?_, fun e he => up _ (h.er e he), by simp, fun y hy => ?_, by simp, by simp, by simp, h.p1, h.p2, h.p0, h.uq⟩
      · intro y s hs
        simp at hs
        exact (h.st y s hs).imp_right (up y)
      · cases hy; exact ⟨.inr (.head _), hi.2⟩
  · exact h

theorem inv_step {t : St} {i : In} (h : Inv t) (hb : (step t i).bad = false) : Inv (step t i) := by
  have h0 := h
  obtain ⟨st, er, bu, re, lo, bl, fr, p1, p2, p0, uq⟩ := h
  cases i with
  | alpn p =>
    simp only [step] at hb ⊢; constructor
    case st => grind [idle_iff, Settled, get_some, get_none, mem_del, h2_none]
    case er => grind [idle_iff, Settled, get_some, get_none, mem_del, h2_none]
    case bu => grind [idle_iff, Settled, get_some, get_none, mem_del, h2_none]
    case re => grind [idle_iff, Settled, get_some, get_none, mem_del, h2_none]
    case lo => grind [idle_iff, Settled, get_some, get_none, mem_del, h2_none]
    case bl => grind [idle_iff, Settled, get_some, get_none, mem_del, h2_none]
    case fr => grind [idle_iff, Settled, get_some, get_none, mem_del, h2_none]
    case p1 => grind [idle_iff, Settled, get_some, get_none, mem_del, h2_none]
    case p2 => grind [idle_iff, Settled, get_some, get_none, mem_del, h2_none]
    case p0 => grind [idle_iff, Settled, get_some, get_none, mem_del, h2_none]
    case uq => grind [idle_iff, Settled, get_some, get_none, mem_del, h2_none]
  | request s =>
    simp only [step] at hb ⊢; constructor
    case st => grind [idle_iff, Settled, get_some, get_none, mem_del, h2_none]
    case er => grind [idle_iff, Settled, get_some, get_none, mem_del, h2_none]
    case bu => grind [idle_iff, Settled, get_some, get_none, mem_del, h2_none]
    case re => grind [idle_iff, Settled, get_some, get_none, mem_del, h2_none]
    case lo => grind [idle_iff, Settled, get_some, get_none, mem_del, h2_none]
    case bl => grind [idle_iff, Settled, get_some, get_none, mem_del, h2_none]
    case fr => grind [idle_iff, Settled, get_some, get_none, mem_del, h2_none]
    case p1 => grind [idle_iff, Settled, get_some, get_none, mem_del, h2_none]
    case p2 => grind [idle_iff, Settled, get_some, get_none, mem_del, h2_none]
    case p0 => grind [idle_iff, Settled, get_some, get_none, mem_del, h2_none]
    case uq => grind [idle_iff, Settled, get_some, get_none, mem_del, h2_none]
  | request1 => exact inv_request1 h0
  | routed ok =>
    simp only [step, store] at hb ⊢; constructor
    case st => grind [idle_iff, Settled, get_some, get_none, mem_del, h2_none]
    case er => grind [idle_iff, Settled, get_some, get_none, mem_del, h2_none]
    case bu => grind [idle_iff, Settled, get_some, get_none, mem_del, h2_none]
    case re => grind [idle_iff, Settled, get_some, get_none, mem_del, h2_none]
    case lo => grind [idle_iff, Settled, get_some, get_none, mem_del, h2_none]
    case bl => grind [idle_iff, Settled, get_some, get_none, mem_del, h2_none]
    case fr => grind [idle_iff, Settled, get_some, get_none, mem_del, h2_none]
    case p1 => grind [idle_iff, Settled, get_some, get_none, mem_del, h2_none]
    case p2 => grind [idle_iff, Settled, get_some, get_none, mem_del, h2_none]
    case p0 => grind [idle_iff, Settled, get_some, get_none, mem_del, h2_none]
    case uq => grind [idle_iff, Settled, get_some, get_none, mem_del, h2_none]
  | pendingWrite =>
    simp only [step] at hb ⊢; constructor
    case st => grind [idle_iff, Settled, get_some, get_none, mem_del, h2_none]
    case er => grind [idle_iff, Settled, get_some, get_none, mem_del, h2_none]
    case bu => grind [idle_iff, Settled, get_some, get_none, mem_del, h2_none]
    case re => grind [idle_iff, Settled, get_some, get_none, mem_del, h2_none]
    case lo => grind [idle_iff, Settled, get_some, get_none, mem_del, h2_none]
    case bl => grind [idle_iff, Settled, get_some, get_none, mem_del, h2_none]
    case fr => grind [idle_iff, Settled, get_some, get_none, mem_del, h2_none]
    case p1 => grind [idle_iff, Settled, get_some, get_none, mem_del, h2_none]
    case p2 => grind [idle_iff, Settled, get_some, get_none, mem_del, h2_none]
    case p0 => grind [idle_iff, Settled, get_some, get_none, mem_del, h2_none]
    case uq => grind [idle_iff, Settled, get_some, get_none, mem_del, h2_none]
  | eos => exact inv_eos h0
  | closed =>
    simp only [step] at hb ⊢; constructor
    case st => grind [idle_iff, Settled, get_some, get_none, mem_del, h2_none]
    case er => grind [idle_iff, Settled, get_some, get_none, mem_del, h2_none]
    case bu => grind [idle_iff, Settled, get_some, get_none, mem_del, h2_none]
    case re => grind [idle_iff, Settled, get_some, get_none, mem_del, h2_none]
    case lo => grind [idle_iff, Settled, get_some, get_none, mem_del, h2_none]
    case bl => grind [idle_iff, Settled, get_some, get_none, mem_del, h2_none]
    case fr => grind [idle_iff, Settled, get_some, get_none, mem_del, h2_none]
    case p1 => grind [idle_iff, Settled, get_some, get_none, mem_del, h2_none]
    case p2 => grind [idle_iff, Settled, get_some, get_none, mem_del, h2_none]
    case p0 => grind [idle_iff, Settled, get_some, get_none, mem_del, h2_none]
    case uq => grind [idle_iff, Settled, get_some, get_none, mem_del, h2_none]
  | next c =>
    simp only [step] at hb ⊢; constructor
    case st => grind [idle_iff, Settled, get_some, get_none, mem_del, h2_none]
    case er => grind [idle_iff, Settled, get_some, get_none, mem_del, h2_none]
    case bu => grind [idle_iff, Settled, get_some, get_none, mem_del, h2_none]
    case re => grind [idle_iff, Settled, get_some, get_none, mem_del, h2_none]
    case lo => grind [idle_iff, Settled, get_some, get_none, mem_del, h2_none]
    case bl => grind [idle_iff, Settled, get_some, get_none, mem_del, h2_none]
    case fr => grind [idle_iff, Settled, get_some, get_none, mem_del, h2_none]
    case p1 => grind [idle_iff, Settled, get_some, get_none, mem_del, h2_none]
    case p2 => grind [idle_iff, Settled, get_some, get_none, mem_del, h2_none]
    case p0 => grind [idle_iff, Settled, get_some, get_none, mem_del, h2_none]
    case uq => grind [idle_iff, Settled, get_some, get_none, mem_del, h2_none]
  | streamError s =>
    simp only [step] at hb ⊢; constructor
    case st => grind [idle_iff, Settled, get_some, get_none, mem_del, h2_none]
    case er => grind [idle_iff, Settled, get_some, get_none, mem_del, h2_none]
    case bu => grind [idle_iff, Settled, get_some, get_none, mem_del, h2_none]
    case re => grind [idle_iff, Settled, get_some, get_none, mem_del, h2_none]
    case lo => grind [idle_iff, Settled, get_some, get_none, mem_del, h2_none]
    case bl => grind [idle_iff, Settled, get_some, get_none, mem_del, h2_none]
    case fr => grind [idle_iff, Settled, get_some, get_none, mem_del, h2_none]
    case p1 => grind [idle_iff, Settled, get_some, get_none, mem_del, h2_none]
    case p2 => grind [idle_iff, Settled, get_some, get_none, mem_del, h2_none]
    case p0 => grind [idle_iff, Settled, get_some, get_none, mem_del, h2_none]
    case uq => grind [idle_iff, Settled, get_some, get_none, mem_del, h2_none]
  | ret => exact inv_ret h0 hb

theorem run_snoc (is : List In) (i : In) : run (is ++ [i]) = step (run is) i := by simp [run, List.foldl_append]

theorem bad_step {t : St} {i : In} (h : (step t i).bad = false) : t.bad = false := by
  cases hb : t.bad with
  | false => rfl
  | true => unfold step at h; rw [if_pos hb, hb] at h; cases h

theorem snoc_ind {P : List In → Prop} (h0 : P []) (h1 : ∀ is i, P is → P (is ++ [i])) (is : List In) : P is := by
  have : ∀ n (is : List In), is.length = n → P is := by
    intro n
    induction n with
    | zero => intro is h; rw [List.length_eq_zero_iff.1 h]; exact h0
    | succ n ih =>
      intro is h
      rcases List.eq_nil_or_concat is with rfl | ⟨l, i, rfl⟩
      · exact h0
      · rw [List.concat_eq_append] at *; exact h1 l i (ih l (by simpa using h))
  exact this _ is rfl

theorem inv_run (is : List In) (hb : (run is).bad = false) : Inv (run is) := by
  revert hb
  refine snoc_ind (P := fun is => (run is).bad = false → Inv (run is)) (fun _ => inv_init) (fun is i ih hb => ?_) is
  rw [run_snoc] at hb ⊢
  exact inv_step (ih (bad_step hb)) hb

/-- C200: no context is forgotten: as long as no dangling iterator was used, every context that was stored is still in the table, under its stream, or was settled. -/
theorem C200_kept (is : List In) (hb : (run is).bad = false) (x s : Nat) (h : Ev.stored x s ∈ (run is).log) :
    (s, x) ∈ (run is).table ∨ Settled x (run is).log := (inv_run is hb).st x s h

/-- C200: when the work on a disconnection (or extraction) is done, every context that was ever stored has been settled, and none is left in the table. -/
theorem C200_closed (is : List In) (hb : (run is).bad = false) (hw : (run is).work = some (.loop false [])) (he : (run is).errs = []) (c : Bool) :
    (run (is ++ [.next c])).table = [] ∧ (run (is ++ [.next c])).work = none ∧
    ∀ x s, Ev.stored x s ∈ (run (is ++ [.next c])).log → Settled x (run (is ++ [.next c])).log := by
  have h := inv_run is hb
  have e : run (is ++ [.next c]) = { run is with work := none, table := [] } := by
    rw [run_snoc]; unfold step; rw [if_neg (by simp [hb])]; simp only [hw, he]
  rw [e]
  refine ⟨rfl, rfl, fun x s hs => ?_⟩
  rcases h.st x s hs with h1 | h1
  · rcases h.lo [] hw _ h1 with h2 | h2
    · cases h2
    · exact h2
  · exact h1

/-! Hooks -/

structure InvH (t : St) : Prop where
  h1 : ∀ x, hooks x t.log ≤ 1
  h2 : ∀ e ∈ t.table, hooks e.2 t.log = 0 ∨ ∃ es, t.work = some (.busy true e es)
  h3 : ∀ s x, t.work = some (.route s x) → x < t.nx ∧ hooks x t.log = 0 ∧ ∀ e ∈ t.table, e.2 ≠ x
  h4 : ∀ x, t.nx ≤ x → hooks x t.log = 0
  h5 : ∀ e ∈ t.table, e.2 < t.nx
  h6 : ∀ e ∈ t.table, ∀ e' ∈ t.table, e.2 = e'.2 → e = e'

theorem hooks_hook (x y : Nat) (l : List Ev) : hooks x (.hook y :: l) = if y = x then hooks x l + 1 else hooks x l := by
  unfold hooks
  rw [List.filter_cons]
  by_cases h : y = x
  · simp [h]
  · simp [h]

theorem hooks_cancel (x y : Nat) (l : List Ev) : hooks x (.cancel y :: l) = hooks x l := by
  unfold hooks; rw [List.filter_cons]; simp

theorem hooks_stored (x y s : Nat) (l : List Ev) : hooks x (.stored y s :: l) = hooks x l := by
  unfold hooks; rw [List.filter_cons]; simp

theorem hooks_refused (x s : Nat) (l : List Ev) : hooks x (.refused s :: l) = hooks x l := by
  unfold hooks; rw [List.filter_cons]; simp

theorem invH_step {t : St} {i : In} (h : InvH t) (hb : (step t i).bad = false) : InvH (step t i) := by
  obtain ⟨h1, h2, h3, h4, h5, h6⟩ := h
  cases i with
  | alpn p =>
    simp only [step, store, eraseIt] at hb ⊢; constructor
    case h1 => grind [idle_iff, get_some, get_none, mem_del, hooks_hook, hooks_cancel, hooks_stored, hooks_refused]
    case h2 => grind [idle_iff, get_some, get_none, mem_del, hooks_hook, hooks_cancel, hooks_stored, hooks_refused]
    case h3 => grind [idle_iff, get_some, get_none, mem_del, hooks_hook, hooks_cancel, hooks_stored, hooks_refused]
    case h4 => grind [idle_iff, get_some, get_none, mem_del, hooks_hook, hooks_cancel, hooks_stored, hooks_refused]
    case h5 => grind [idle_iff, get_some, get_none, mem_del, hooks_hook, hooks_cancel, hooks_stored, hooks_refused]
    case h6 => grind [idle_iff, get_some, get_none, mem_del, hooks_hook, hooks_cancel, hooks_stored, hooks_refused]
  | request s =>
    simp only [step, store, eraseIt] at hb ⊢; constructor
    case h1 => grind [idle_iff, get_some, get_none, mem_del, hooks_hook, hooks_cancel, hooks_stored, hooks_refused]
    case h2 => grind [idle_iff, get_some, get_none, mem_del, hooks_hook, hooks_cancel, hooks_stored, hooks_refused]
    case h3 => grind [idle_iff, get_some, get_none, mem_del, hooks_hook, hooks_cancel, hooks_stored, hooks_refused]
    case h4 => grind [idle_iff, get_some, get_none, mem_del, hooks_hook, hooks_cancel, hooks_stored, hooks_refused]
    case h5 => grind [idle_iff, get_some, get_none, mem_del, hooks_hook, hooks_cancel, hooks_stored, hooks_refused]
    case h6 => grind [idle_iff, get_some, get_none, mem_del, hooks_hook, hooks_cancel, hooks_stored, hooks_refused]
  | request1 =>
    simp only [step, store, eraseIt] at hb ⊢; constructor
    case h1 => grind [idle_iff, get_some, get_none, mem_del, hooks_hook, hooks_cancel, hooks_stored, hooks_refused]
    case h2 => grind [idle_iff, get_some, get_none, mem_del, hooks_hook, hooks_cancel, hooks_stored, hooks_refused]
    case h3 => grind [idle_iff, get_some, get_none, mem_del, hooks_hook, hooks_cancel, hooks_stored, hooks_refused]
    case h4 => grind [idle_iff, get_some, get_none, mem_del, hooks_hook, hooks_cancel, hooks_stored, hooks_refused]
    case h5 => grind [idle_iff, get_some, get_none, mem_del, hooks_hook, hooks_cancel, hooks_stored, hooks_refused]
    case h6 => grind [idle_iff, get_some, get_none, mem_del, hooks_hook, hooks_cancel, hooks_stored, hooks_refused]
  | routed ok =>
    simp only [step, store, eraseIt] at hb ⊢; constructor
    case h1 => grind [idle_iff, get_some, get_none, mem_del, hooks_hook, hooks_cancel, hooks_stored, hooks_refused]
    case h2 => grind [idle_iff, get_some, get_none, mem_del, hooks_hook, hooks_cancel, hooks_stored, hooks_refused]
    case h3 => grind [idle_iff, get_some, get_none, mem_del, hooks_hook, hooks_cancel, hooks_stored, hooks_refused]
    case h4 => grind [idle_iff, get_some, get_none, mem_del, hooks_hook, hooks_cancel, hooks_stored, hooks_refused]
    case h5 => grind [idle_iff, get_some, get_none, mem_del, hooks_hook, hooks_cancel, hooks_stored, hooks_refused]
    case h6 => grind [idle_iff, get_some, get_none, mem_del, hooks_hook, hooks_cancel, hooks_stored, hooks_refused]
  | pendingWrite =>
    simp only [step, store, eraseIt] at hb ⊢; constructor
    case h1 => grind [idle_iff, get_some, get_none, mem_del, hooks_hook, hooks_cancel, hooks_stored, hooks_refused]
    case h2 => grind [idle_iff, get_some, get_none, mem_del, hooks_hook, hooks_cancel, hooks_stored, hooks_refused]
    case h3 => grind [idle_iff, get_some, get_none, mem_del, hooks_hook, hooks_cancel, hooks_stored, hooks_refused]
    case h4 => grind [idle_iff, get_some, get_none, mem_del, hooks_hook, hooks_cancel, hooks_stored, hooks_refused]
    case h5 => grind [idle_iff, get_some, get_none, mem_del, hooks_hook, hooks_cancel, hooks_stored, hooks_refused]
    case h6 => grind [idle_iff, get_some, get_none, mem_del, hooks_hook, hooks_cancel, hooks_stored, hooks_refused]
  | eos =>
    have g1 : ∀ x, get t.table 0 = some x → x < t.nx := fun x h => h5 _ (get_some h)
    have g2 : ∀ x, get t.table 0 = some x → hooks x t.log = 0 ∨ t.work ≠ none := fun x h => (h2 _ (get_some h)).imp_right (by rintro ⟨es, e⟩; rw [e]; simp)
    simp only [step, store, eraseIt] at hb ⊢; constructor
    case h1 => grind [idle_iff, get_some, get_none, mem_del, hooks_hook, hooks_cancel, hooks_stored, hooks_refused]
    case h2 => grind [idle_iff, get_some, get_none, mem_del, hooks_hook, hooks_cancel, hooks_stored, hooks_refused]
    case h3 => grind [idle_iff, get_some, get_none, mem_del, hooks_hook, hooks_cancel, hooks_stored, hooks_refused]
    case h4 => grind [idle_iff, get_some, get_none, mem_del, hooks_hook, hooks_cancel, hooks_stored, hooks_refused]
    case h5 => grind [idle_iff, get_some, get_none, mem_del, hooks_hook, hooks_cancel, hooks_stored, hooks_refused]
    case h6 => grind [idle_iff, get_some, get_none, mem_del, hooks_hook, hooks_cancel, hooks_stored, hooks_refused]
  | closed =>
    simp only [step, store, eraseIt] at hb ⊢; constructor
    case h1 => grind [idle_iff, get_some, get_none, mem_del, hooks_hook, hooks_cancel, hooks_stored, hooks_refused]
    case h2 => grind [idle_iff, get_some, get_none, mem_del, hooks_hook, hooks_cancel, hooks_stored, hooks_refused]
    case h3 => grind [idle_iff, get_some, get_none, mem_del, hooks_hook, hooks_cancel, hooks_stored, hooks_refused]
    case h4 => grind [idle_iff, get_some, get_none, mem_del, hooks_hook, hooks_cancel, hooks_stored, hooks_refused]
    case h5 => grind [idle_iff, get_some, get_none, mem_del, hooks_hook, hooks_cancel, hooks_stored, hooks_refused]
    case h6 => grind [idle_iff, get_some, get_none, mem_del, hooks_hook, hooks_cancel, hooks_stored, hooks_refused]
  | next c =>
    simp only [step, store, eraseIt] at hb ⊢; constructor
    case h1 => grind [idle_iff, get_some, get_none, mem_del, hooks_hook, hooks_cancel, hooks_stored, hooks_refused]
    case h2 => grind [idle_iff, get_some, get_none, mem_del, hooks_hook, hooks_cancel, hooks_stored, hooks_refused]
    case h3 => grind [idle_iff, get_some, get_none, mem_del, hooks_hook, hooks_cancel, hooks_stored, hooks_refused]
    case h4 => grind [idle_iff, get_some, get_none, mem_del, hooks_hook, hooks_cancel, hooks_stored, hooks_refused]
    case h5 => grind [idle_iff, get_some, get_none, mem_del, hooks_hook, hooks_cancel, hooks_stored, hooks_refused]
    case h6 => grind [idle_iff, get_some, get_none, mem_del, hooks_hook, hooks_cancel, hooks_stored, hooks_refused]
  | streamError s =>
    simp only [step, store, eraseIt] at hb ⊢; constructor
    case h1 => grind [idle_iff, get_some, get_none, mem_del, hooks_hook, hooks_cancel, hooks_stored, hooks_refused]
    case h2 => grind [idle_iff, get_some, get_none, mem_del, hooks_hook, hooks_cancel, hooks_stored, hooks_refused]
    case h3 => grind [idle_iff, get_some, get_none, mem_del, hooks_hook, hooks_cancel, hooks_stored, hooks_refused]
    case h4 => grind [idle_iff, get_some, get_none, mem_del, hooks_hook, hooks_cancel, hooks_stored, hooks_refused]
    case h5 => grind [idle_iff, get_some, get_none, mem_del, hooks_hook, hooks_cancel, hooks_stored, hooks_refused]
    case h6 => grind [idle_iff, get_some, get_none, mem_del, hooks_hook, hooks_cancel, hooks_stored, hooks_refused]
  | ret =>
    simp only [step, store, eraseIt] at hb ⊢; constructor
    case h1 => grind [idle_iff, get_some, get_none, mem_del, hooks_hook, hooks_cancel, hooks_stored, hooks_refused]
    case h2 => grind [idle_iff, get_some, get_none, mem_del, hooks_hook, hooks_cancel, hooks_stored, hooks_refused]
    case h3 => grind [idle_iff, get_some, get_none, mem_del, hooks_hook, hooks_cancel, hooks_stored, hooks_refused]
    case h4 => grind [idle_iff, get_some, get_none, mem_del, hooks_hook, hooks_cancel, hooks_stored, hooks_refused]
    case h5 => grind [idle_iff, get_some, get_none, mem_del, hooks_hook, hooks_cancel, hooks_stored, hooks_refused]
    case h6 => grind [idle_iff, get_some, get_none, mem_del, hooks_hook, hooks_cancel, hooks_stored, hooks_refused]

theorem invH_run (is : List In) (hb : (run is).bad = false) : InvH (run is) := by
  revert hb
  refine snoc_ind (P := fun is => (run is).bad = false → InvH (run is)) (fun _ => ?_) (fun is i ih hb => ?_) is
  · constructor <;> simp [run, hooks]
  · rw [run_snoc] at hb ⊢
    exact invH_step (ih (bad_step hb)) hb

/-- C200: the hook after the response is run at most once for a context. -/
theorem C200_hook_once (is : List In) (hb : (run is).bad = false) (x : Nat) : hooks x (run is).log ≤ 1 := (invH_run is hb).h1 x

/-- C200: it is run only because the protocol said that the stream is closed, or because all of the HTTP/1.1 response was written. -/
theorem C200_hook_reason (is : List In) (h1 : .next true ∉ is) (h2 : .eos ∉ is) (x : Nat) : hooks x (run is).log = 0 := by
  revert h1 h2
  refine snoc_ind (P := fun is => .next true ∉ is → .eos ∉ is → hooks x (run is).log = 0) (fun _ _ => rfl) (fun is i ih h1 h2 => ?_) is
  simp at h1 h2
  have ih := ih h1.1 h2.1
  rw [run_snoc]
  unfold step
  split
  · exact ih
  · cases i <;> grind [hooks_hook, hooks_cancel, hooks_stored, hooks_refused, store, eraseIt]

/-! ## C201 -/

structure InvC (t : St) : Prop where
  bad : t.bad = false
  nd : (handling t).Nodup
  er : ∀ e ∈ t.errs, e ∈ t.table
  bu : ∀ sw e es, t.work = some (.busy sw e es) → e ∈ t.table
  re : ∀ x, t.work = some (.replace x) → (0, x) ∈ t.table

theorem invC_step {t : St} {i : In} (h : InvC t) (hc : ∀ s, i = .streamError s → s ∉ handling t) : InvC (step t i) := by
  obtain ⟨bad, nd, er, bu, re⟩ := h
  cases i with
  | alpn p =>
    simp only [step, store, eraseIt]; constructor
    case bad => grind [idle_iff, get_some, get_none, mem_del, handling]
    case nd => grind [idle_iff, get_some, get_none, mem_del, handling]
    case er => grind [idle_iff, get_some, get_none, mem_del, handling]
    case bu => grind [idle_iff, get_some, get_none, mem_del, handling]
    case re => grind [idle_iff, get_some, get_none, mem_del, handling]
  | request s =>
    simp only [step, store, eraseIt]; constructor
    case bad => grind [idle_iff, get_some, get_none, mem_del, handling]
    case nd => grind [idle_iff, get_some, get_none, mem_del, handling]
    case er => grind [idle_iff, get_some, get_none, mem_del, handling]
    case bu => grind [idle_iff, get_some, get_none, mem_del, handling]
    case re => grind [idle_iff, get_some, get_none, mem_del, handling]
  | request1 =>
    simp only [step, store, eraseIt]; constructor
    case bad => grind [idle_iff, get_some, get_none, mem_del, handling]
    case nd => grind [idle_iff, get_some, get_none, mem_del, handling]
    case er => grind [idle_iff, get_some, get_none, mem_del, handling]
    case bu => grind [idle_iff, get_some, get_none, mem_del, handling]
    case re => grind [idle_iff, get_some, get_none, mem_del, handling]
  | routed ok =>
    simp only [step, store, eraseIt]; constructor
    case bad => grind [idle_iff, get_some, get_none, mem_del, handling]
    case nd => grind [idle_iff, get_some, get_none, mem_del, handling]
    case er => grind [idle_iff, get_some, get_none, mem_del, handling]
    case bu => grind [idle_iff, get_some, get_none, mem_del, handling]
    case re => grind [idle_iff, get_some, get_none, mem_del, handling]
  | pendingWrite =>
    simp only [step, store, eraseIt]; constructor
    case bad => grind [idle_iff, get_some, get_none, mem_del, handling]
    case nd => grind [idle_iff, get_some, get_none, mem_del, handling]
    case er => grind [idle_iff, get_some, get_none, mem_del, handling]
    case bu => grind [idle_iff, get_some, get_none, mem_del, handling]
    case re => grind [idle_iff, get_some, get_none, mem_del, handling]
  | eos =>
    simp only [step, store, eraseIt]; constructor
    case bad => grind [idle_iff, get_some, get_none, mem_del, handling]
    case nd => grind [idle_iff, get_some, get_none, mem_del, handling]
    case er => grind [idle_iff, get_some, get_none, mem_del, handling]
    case bu => grind [idle_iff, get_some, get_none, mem_del, handling]
    case re => grind [idle_iff, get_some, get_none, mem_del, handling]
  | closed =>
    simp only [step, store, eraseIt]; constructor
    case bad => grind [idle_iff, get_some, get_none, mem_del, handling]
    case nd => grind [idle_iff, get_some, get_none, mem_del, handling]
    case er => grind [idle_iff, get_some, get_none, mem_del, handling]
    case bu => grind [idle_iff, get_some, get_none, mem_del, handling]
    case re => grind [idle_iff, get_some, get_none, mem_del, handling]
  | next c =>
    simp only [step, store, eraseIt]; constructor
    case bad => grind [idle_iff, get_some, get_none, mem_del, handling]
    case nd => grind [idle_iff, get_some, get_none, mem_del, handling]
    case er => grind [idle_iff, get_some, get_none, mem_del, handling]
    case bu => grind [idle_iff, get_some, get_none, mem_del, handling]
    case re => grind [idle_iff, get_some, get_none, mem_del, handling]
  | streamError s =>
    simp only [step, store, eraseIt]; constructor
    case bad => grind [idle_iff, get_some, get_none, mem_del, handling]
    case nd => grind [idle_iff, get_some, get_none, mem_del, handling]
    case er => grind [idle_iff, get_some, get_none, mem_del, handling]
    case bu => grind [idle_iff, get_some, get_none, mem_del, handling]
    case re => grind [idle_iff, get_some, get_none, mem_del, handling]
  | ret =>
    have nr : ∀ e ∈ t.errs, ∀ x, t.work = some (.replace x) → e.1 ≠ 0 := by
      intro e he x hw h0
      simp only [handling, hw] at nd
      rw [List.nodup_append] at nd
      exact nd.2.2 e.1 (List.mem_map_of_mem he) 0 (by simp) h0
    simp only [step, store, eraseIt]; constructor
    case bad => grind [idle_iff, get_some, get_none, mem_del, handling]
    case nd => grind [idle_iff, get_some, get_none, mem_del, handling]
    case er => grind [idle_iff, get_some, get_none, mem_del, handling]
    case bu => grind [idle_iff, get_some, get_none, mem_del, handling]
    case re =>
      intro x hx
      cases he : t.errs with
      | cons e es =>
        rw [he] at er nr
        have hm : t.table.contains e = true := by simpa using er e (.head _)
        simp only [bad, he, hm, if_true, if_false, Bool.false_eq_true] at hx ⊢
        exact mem_del.2 ⟨re x hx, fun h => nr e (.head _) x hx h.symm⟩
      | nil =>
        simp only [bad, he, if_false, Bool.false_eq_true] at hx
        exfalso
        revert hx
        split
        · simp
        · simp
        · split
          · simp
          · rename_i h _; simp [h]
        · rename_i h _ _ ; intro hx; exact absurd hx (h x)

/-- C201: if no stream error is reported for a stream while its context is being settled, no iterator is ever used after its entry was erased: whatever else happens, in whatever order, at whatever depth. -/
theorem C201_iterators_partial (is : List In) (hc : Calm is) : (run is).bad = false := by
  have : InvC (run is) := by
    revert hc
    refine snoc_ind (P := fun is => Calm is → InvC (run is)) (fun _ => ?_) (fun is i ih hc => ?_) is
    · constructor <;> simp [run, handling]
    · rw [run_snoc]
      exact invC_step (ih fun a s b e => hc a s (b ++ [i]) (by rw [e]; simp)) fun s e => hc is s [] (by rw [e])
  exact this.bad

/-- C201: without that it is FALSE: the peer disconnects while a request is at work, the context is cancelled and answers, and the protocol refuses the answer with a stream error: the entry is erased under the loop over the table. -/
theorem C201_false_disconnect : (run [.alpn true, .request 1, .routed true, .closed, .next false, .streamError 1, .ret, .ret]).bad = true := by decide

/-! ## C202 -/

/-- C202: a response is handed to the protocol for the stream of its request, with the status, the body and the fields it has, and nothing else; only a body that is not empty and has no length is given one. -/
theorem C202_send (r : Resp) (k : Nat) (r' : Resp) (h : send r = some (k, r')) :
    k = r.stream ∧ 0 < k ∧ k < 4294967296 ∧ 100 ≤ r'.status ∧ r'.status < 600 ∧ r'.status = r.status ∧ r'.body = r.body ∧
    ∀ n, find r'.headers n =
      if Utility.iequals b!"content-length" n = true ∧ find r.headers b!"content-length" = none ∧ r.body ≠ [] then some [Date.decNat r.body.length] else find r.headers n := by
  unfold send at h
  split at h
  · cases h
  split at h
  · cases h
  split at h
  · cases h
  rename_i a1 a2 a3
  simp at a2 a3
  cases h
  refine ⟨rfl, by omega, by omega, ?_⟩
  by_cases h0 : ((find r.headers b!"content-length").isNone && !r.body.isEmpty) = true
  · rw [if_pos h0]
    simp at h0
    refine ⟨a3.1, a3.2, rfl, rfl, fun n => ?_⟩
    simp only
    rw [Mid.find_setHeader]
    by_cases h3 : Utility.iequals b!"content-length" n = true
    · rw [if_pos h3, if_pos ⟨h3, h0.1, h0.2⟩]
    · rw [if_neg h3, if_neg (fun h => h3 h.1)]
  · rw [if_neg h0]
    simp at h0
    exact ⟨a3.1, a3.2, rfl, rfl, fun n => (if_neg (fun h => h.2.2 (h0 h.2.1))).symm⟩

/-- C202: nothing is sent exactly for a response without a stream of HTTP/2 or with a status that is none. -/
theorem C202_dropped (r : Resp) : send r = none ↔ r.stream = 0 ∨ 4294967295 < r.stream ∨ r.status < 100 ∨ 600 ≤ r.status := by
  unfold send
  split
  · rename_i h; simp; omega
  split
  · rename_i h; simp at h; simp [h]
  split
  · rename_i h; simp at h; simp; omega
  · rename_i a b c; simp at b c; simp; omega

/-! ## Concrete cases -/

/-- Two requests; the first one is answered and its stream is closed; then the peer disconnects. -/
example : (run [.alpn true, .request 1, .routed true, .request 3, .routed true, .pendingWrite, .next false, .next true, .ret, .next true, .closed, .next false, .ret, .next false]).log =
    [.cancel 1, .hook 0, .stored 1 3, .stored 0 1] := by decide

/-- A disconnection under way, as C200_closed asks for it. -/
example : let t := run [.alpn true, .request 1, .routed true, .closed, .next false, .ret]
    t.bad = false ∧ t.work = some (.loop false []) ∧ t.errs = [] := by decide

/-- HTTP/1.1: the second request cancels the first. -/
example : (run [.alpn false, .request1, .routed true, .request1, .ret, .routed true, .eos]).log = [.hook 1, .stored 1 0, .cancel 0, .stored 0 0] := by decide

example : Calm [.alpn true, .request 1, .routed true, .request 3, .routed true, .closed, .streamError 1, .ret] := by
  intro a s b e
  have h1 := congrArg (fun l => l[a.length]?) e
  have h2 := congrArg (fun l => l.take a.length) e
  simp only [List.take_left] at h2
  simp only [List.getElem?_append_right (Nat.le_refl _), Nat.sub_self, List.getElem?_cons_zero] at h1
  generalize a.length = n at h1 h2
  rcases n with _ | _ | _ | _ | _ | _ | _ | _ | n <;> simp at h1
  subst h1
  rw [← h2]
  decide

example : send { stream := 5, headers := [(b!"a", [b!"b"])], body := b!"hello" } =
    some (5, { stream := 5, headers := [(b!"a", [b!"b"]), (b!"content-length", [b!"5"])], body := b!"hello" }) := by decide +kernel

end Verif.Se2
