import Verif.Multi.TheoremsCut

/-! # The order of the callbacks in one `feed` -/

namespace Verif.Multi
open Verif.Utility Verif.Wire

/-- Where the callbacks are: before the first part, in the headers of a part (no field yet, a field, a value), in its data. -/
inductive Ph
  | idle | head | named | valued | body
deriving DecidableEq

/-- The callbacks come in order; the flag: the headers of some part are complete. -/
def Gr : Bool → Ph → List Ev → Prop
  | _, _, [] => True
  | st, ph, .partBegin :: l => (ph = .idle ∨ ph = .body) ∧ Gr st .head l
  | st, ph, .field _ :: l => ph = .head ∧ Gr st .named l
  | st, ph, .value _ :: l => (ph = .head ∨ ph = .named) ∧ Gr st .valued l
  | st, ph, .headerEnd :: l => (ph = .head ∨ ph = .named ∨ ph = .valued) ∧ Gr st .head l
  | _, ph, .headersEnd :: l => ph = .head ∧ Gr true .body l
  | st, ph, .data b :: l => st = true ∧ b ≠ [] ∧ Gr st ph l
  | st, ph, .partEnd :: l => ph = .body ∧ Gr st .body l
  | st, ph, .finish :: l => ph = .body ∧ Gr st .body l

/-- The place of the callbacks for a state of the parser. -/
def PhOk (st : Bool) (p : P) (ph : Ph) : Prop :=
  match p.state with
  | .error => True
  | .start => ph = .idle
  | .startBoundary => ph = .idle
  | .fieldStart => ph = .head
  | .field => ph = .head
  | .valueAlmost => ph = .head
  | .headersAlmost => ph = .head
  | .valueStart => ph = .head ∨ ph = .named
  | .value => ph = .head ∨ ph = .named
  | .dataStart => ph = .body ∧ st = true
  | .data => ph = .body ∧ st = true
  | .fin => ph = .body ∧ st = true

/-- The marks belong to the states. -/
def MarkOk (st : Bool) (p : P) : Prop :=
  (p.fm ≠ none → p.state = .field) ∧ (p.vm ≠ none → p.state = .value) ∧ (p.dm ≠ none → st = true)

/-- What an iteration may report. -/
def StepGr (st : Bool) (ph : Ph) : Res → Prop
  | .go q _ e => ∃ st' ph', MarkOk st' q ∧ PhOk st' q ph' ∧ ∀ l, Gr st' ph' l → Gr st ph (e ++ l)
  | .throws _ e => Gr st ph e
  | _ => True

theorem gr_data (m : Option Nat) (buf : Bytes) (i : Nat) (ph : Ph) (l : List Ev) (h : Gr true ph l) : Gr true ph (flushTo .data m buf i false ++ l) := by
  cases m with
  | none => exact h
  | some k =>
    unfold flushTo call
    simp only []
    split
    · exact h
    · rename_i hc
      refine ⟨rfl, ?_, h⟩
      simpa using hc

theorem startStep_gr (st : Bool) (i : Nat) (c : UInt8) (p : P) (hf : p.fm = none) (hv : p.vm = none) (hd : p.dm ≠ none → st = true)
    (hs : p.state = .startBoundary) : StepGr st .idle (startStep i c p) := by
  unfold startStep
  repeat' split
  · trivial
  · exact ⟨st, .idle, ⟨by simp [hf], by simp [hv], hd⟩, by simp [PhOk, hs], fun l h => h⟩
  · trivial
  · exact ⟨st, .head, ⟨by simp [hf], by simp [hv], hd⟩, rfl, fun l h => ⟨.inl rfl, h⟩⟩
  · trivial
  · trivial
  · exact ⟨st, .idle, ⟨by simp [hf], by simp [hv], hd⟩, by simp [PhOk, hs], fun l h => h⟩

theorem fieldStep_gr (st : Bool) (buf : Bytes) (i : Nat) (c : UInt8) (p : P) (hv : p.vm = none) (hd : p.dm ≠ none → st = true) (hs : p.state = .field) :
    StepGr st .head (fieldStep buf i c p) := by
  unfold fieldStep
  repeat' split
  · exact ⟨st, .head, ⟨by simp, by simp [hv], hd⟩, rfl, fun l h => h⟩
  · trivial
  · have hm : MarkOk st { p with index := p.index + 1, fm := none, state := .valueStart } := ⟨by simp, by simp [hv], hd⟩
    cases hf : p.fm with
    | none => exact ⟨st, .head, hm, .inl rfl, fun l h => h⟩
    | some k =>
      unfold flushTo call
      simp only []
      split
      · exact ⟨st, .head, hm, .inl rfl, fun l h => h⟩
      · exact ⟨st, .named, hm, .inr rfl, fun l h => ⟨rfl, h⟩⟩
  · trivial
  · exact ⟨st, .head, ⟨by simp [hs], by simp [hv], hd⟩, by simp [PhOk, hs], fun l h => h⟩

theorem valueStep_gr (st : Bool) (buf : Bytes) (i : Nat) (c : UInt8) (p : P) (ph : Ph) (hph : ph = .head ∨ ph = .named) (hf : p.fm = none)
    (hd : p.dm ≠ none → st = true) (hs : p.state = .value) : StepGr st ph (valueStep buf i c p) := by
  unfold valueStep
  split
  · refine ⟨st, .head, ⟨by simp [hf], by simp, hd⟩, rfl, fun l h => ?_⟩
    cases p.vm with
    | none =>
      refine ⟨?_, h⟩
      rcases hph with h | h
      · exact .inl h
      · exact .inr (.inl h)
    | some k =>
      unfold flushTo call
      simp only [Bool.not_true, Bool.and_false, Bool.false_eq_true, if_false]
      exact ⟨hph, .inr (.inr rfl), h⟩
  · exact ⟨st, ph, ⟨by simp [hf], by simp [hs], hd⟩, by simp [PhOk, hs, hph], fun l h => h⟩

theorem lookStep_gr (prev i : Nat) (c : UInt8) (q : P) (e : List Ev) (hf : q.fm = none) (hv : q.vm = none)
    (hst : q.state = .data ∨ q.state = .fin) (hl : 0 < q.look.length) (he : ∀ l, Gr true .body l → Gr true .body (e ++ l)) :
    StepGr true .body (lookStep prev i c q e) := by
  have hm : ∀ d lk, MarkOk true { q with dm := d, look := lk } := fun d lk => ⟨by simp [hf], by simp [hv], fun _ => rfl⟩
  have hp : ∀ d lk, PhOk true { q with dm := d, look := lk } .body := by
    intro d lk
    unfold PhOk
    rcases hst with h | h <;> rw [h] <;> exact ⟨rfl, rfl⟩
  unfold lookStep
  split
  · split
    · have := he [] trivial
      rw [List.append_nil] at this
      exact this
    · exact ⟨true, .body, hm _ _, hp _ _, he⟩
  · split
    · split
      · trivial
      · refine ⟨true, .body, hm _ _, hp _ _, fun l h => ?_⟩
        rw [List.append_assoc]
        apply he
        refine ⟨rfl, ?_, h⟩
        intro hx
        have := congrArg List.length hx
        rw [List.length_take, List.length_nil] at this
        omega
    · exact ⟨true, .body, hm _ _, hp _ _, he⟩

theorem matchStep_gr (buf : Bytes) (i : Nat) (c : UInt8) (p : P) (hs : p.state = .data) :
    (matchStep buf i c p).1.fm = p.fm ∧ (matchStep buf i c p).1.vm = p.vm ∧
    ((matchStep buf i c p).2.2 = false → (∀ l, Gr true .body l → Gr true .body ((matchStep buf i c p).2.1 ++ l)) ∧
      ((matchStep buf i c p).1.state = .data ∨ (matchStep buf i c p).1.state = .fin)) ∧
    ((matchStep buf i c p).2.2 = true →
      ((matchStep buf i c p).1.state = .fieldStart ∧ (matchStep buf i c p).2.1 = [.partEnd, .partBegin]) ∨
      ((matchStep buf i c p).1.state = .fin ∧ (matchStep buf i c p).2.1 = [.partEnd, .finish])) := by
  unfold matchStep
  simp only []
  repeat' split
  all_goals (refine ⟨rfl, rfl, ?_, ?_⟩)
  all_goals first
    | (intro h; cases h; done)
    | (intro _; exact ⟨fun l h => h, .inl hs⟩)
    | (intro _; exact ⟨fun l h => gr_data _ _ _ _ _ h, .inl hs⟩)
    | (intro _; exact ⟨fun l h => ⟨rfl, rfl, h⟩, .inr rfl⟩)
    | (intro _; exact .inl ⟨rfl, rfl⟩)
    | (intro _; exact .inr ⟨rfl, rfl⟩)

theorem partData_gr (buf : Bytes) (i : Nat) (p : P) (hf : p.fm = none) (hv : p.vm = none) (hs : p.state = .data) (hl : 0 < p.look.length) :
    StepGr true .body (partData buf i p) := by
  unfold partData
  simp only []
  generalize (if p.index == 0 then skip p.B buf buf.length i else i) = j
  split
  · exact ⟨true, .body, ⟨by simp [hf], by simp [hv], fun _ => rfl⟩, by simp [PhOk, hs], fun l h => h⟩
  · obtain ⟨h1, h2, h3, h4⟩ := matchStep_gr buf j (buf.getD j 0) p hs
    have hlk := (matchStep_safe buf j (buf.getD j 0) p (by rw [hs]; simp)).2.1
    generalize matchStep buf j (buf.getD j 0) p = r at *
    obtain ⟨q, e, b⟩ := r
    simp only at h1 h2 h3 h4 hlk
    cases b with
    | true =>
      have hm : MarkOk true q := ⟨by rw [h1, hf]; simp, by rw [h2, hv]; simp, fun _ => rfl⟩
      rcases h4 rfl with ⟨a, c⟩ | ⟨a, c⟩
      · subst c
        exact ⟨true, .head, hm, by simp [PhOk, a], fun l h => ⟨rfl, .inr rfl, h⟩⟩
      · subst c
        exact ⟨true, .body, hm, by simp [PhOk, a], fun l h => ⟨rfl, rfl, h⟩⟩
    | false =>
      exact lookStep_gr _ _ _ q e (by rw [h1, hf]) (by rw [h2, hv]) (h3 rfl).2 (by rw [hlk]; exact hl) (h3 rfl).1

theorem step_gr (buf : Bytes) (i : Nat) (p : P) (st : Bool) (ph : Ph) (hm : MarkOk st p) (hp : PhOk st p ph) (hl : 0 < p.look.length) :
    StepGr st ph (step buf i p) := by
  obtain ⟨m1, m2, m3⟩ := hm
  have f : p.state ≠ .field → p.fm = none := by
    intro hne
    cases h : p.fm with
    | none => rfl
    | some k => exact absurd (m1 (by simp [h])) hne
  have v : p.state ≠ .value → p.vm = none := by
    intro hne
    cases h : p.vm with
    | none => rfl
    | some k => exact absurd (m2 (by simp [h])) hne
  unfold step
  unfold PhOk at hp
  cases hst : p.state <;> rw [hst] at hp f v <;> simp only [] at hp ⊢
  · trivial
  · subst hp; exact startStep_gr st i _ _ (f (by simp)) (v (by simp)) m3 rfl
  · subst hp; exact startStep_gr st i _ _ (f (by simp)) (v (by simp)) m3 hst
  · subst hp; exact fieldStep_gr st buf i _ _ (v (by simp)) m3 rfl
  · subst hp; exact fieldStep_gr st buf i _ _ (v (by simp)) m3 hst
  · split
    · exact ⟨st, ph, ⟨m1, m2, m3⟩, by simp [PhOk, hst, hp], fun l h => h⟩
    · exact valueStep_gr st buf i _ _ ph hp (f (by simp)) m3 rfl
  · exact valueStep_gr st buf i _ _ ph hp (f (by simp)) m3 hst
  · split
    · trivial
    · subst hp; exact ⟨st, .head, ⟨by simp [f], by simp [v], m3⟩, rfl, fun l h => h⟩
  · split
    · trivial
    · subst hp; exact ⟨true, .body, ⟨by simp [f], by simp [v], fun _ => rfl⟩, ⟨rfl, rfl⟩, fun l h => ⟨rfl, h⟩⟩
  · obtain ⟨rfl, rfl⟩ := hp; exact partData_gr buf i _ (f (by simp)) (v (by simp)) rfl hl
  · obtain ⟨rfl, rfl⟩ := hp; exact partData_gr buf i _ (f (by simp)) (v (by simp)) hst hl
  · trivial

theorem loop_gr (p0 : P) (buf : Bytes) (f i : Nat) (p : P) (st : Bool) (ph : Ph) (B : Bytes) (hm : MarkOk st p) (hp : PhOk st p ph)
    (hs : Safe B p) : Gr st ph (loop p0 buf f i p).2.1 := by
  induction f generalizing i p st ph with
  | zero => trivial
  | succ f ih =>
    rw [loop]
    split
    · have hg := step_gr buf i p st ph hm hp (by have := hs.2.1; omega)
      have hsafe := step_safe B buf i p hs
      cases hr : step buf i p with
      | go q j e =>
        rw [hr] at hg hsafe
        obtain ⟨st', ph', h1, h2, h3⟩ := hg
        exact h3 _ (ih j q st' ph' h1 h2 hsafe.1)
      | throws q e => rw [hr] at hg; exact hg
      | _ => trivial
    · simp only []
      obtain ⟨m1, m2, m3⟩ := hm
      cases hfm : p.fm with
      | some k =>
        have hst := m1 (by simp [hfm])
        have hv : p.vm = none := by
          cases h : p.vm with
          | none => rfl
          | some k => have := m2 (by simp [h]); rw [hst] at this; cases this
        unfold PhOk at hp
        rw [hst] at hp
        simp only at hp
        subst hp
        rw [hv]
        have hd : ∀ ph, Gr st ph (flushTo .data p.dm buf buf.length false) := by
          intro ph
          cases h : p.dm with
          | none => trivial
          | some k =>
            rw [m3 (by simp [h])]
            have := gr_data (some k) buf buf.length ph [] trivial
            rwa [List.append_nil] at this
        unfold flushTo call
        simp only [List.append_nil]
        split
        · exact hd _
        · exact ⟨rfl, hd _⟩
      | none =>
        have hd : ∀ ph, Gr st ph (flushTo .data p.dm buf buf.length false) := by
          intro ph
          cases h : p.dm with
          | none => trivial
          | some k =>
            rw [m3 (by simp [h])]
            have := gr_data (some k) buf buf.length ph [] trivial
            rwa [List.append_nil] at this
        cases hvm : p.vm with
        | none => exact hd _
        | some k =>
          have hst := m2 (by simp [hvm])
          unfold PhOk at hp
          rw [hst] at hp
          simp only at hp
          unfold flushTo call
          simp only [List.nil_append]
          split
          · exact hd _
          · exact ⟨hp, hd _⟩

/-- The callbacks of one `feed` from the start are in order. -/
theorem feed_gr (b s : Bytes) : Gr false .idle (feed (setBoundary b) s).2.1 := by
  unfold feed
  split
  · trivial
  · rename_i hc
    rcases setBoundary_cases b with ⟨h, e⟩ | ⟨h, e⟩
    · rw [e]
      refine loop_gr _ s _ _ _ false .idle (delim b) ⟨by simp, by simp, by simp⟩ rfl ⟨rfl, by simp, ?_, fun h => by cases h⟩
      have := List.length_pos_iff.mpr h.1
      rw [delim_length]; omega
    · rw [e] at hc; exact absurd rfl hc

end Verif.Multi
