import Verif.Sv3.Lemmas

/-! Which connection objects are destroyed, and which connections are shutting down. -/

namespace Verif.Sv3

/-- A created object is there or destroyed; it is to be destroyed if its closure was reported; `_shutdown_connections`. -/
structure R (t : St) : Prop where
  there : ∀ k c, .created k c ∈ t.log → .freed k ∈ t.log ∨ (c, k) ∈ t.conns
  made : ∀ c k, (c, k) ∈ t.conns → .created k c ∈ t.log
  due : ∀ a c n b k, t.log = a ++ .closedDone c n :: b → .created k c ∈ b → .freed k ∈ t.log ∨ ((c, k) ∈ t.conns ∧ c ∈ t.closed)
  shut : ∀ c, c ∈ t.shut ↔ shutting t.log c = true

/-- Neither created, nor closed, nor told to go away. -/
def Ev.mild : Ev → Bool
  | .created _ _ => false
  | .closedDone _ _ => false
  | .goaway _ => false
  | _ => true

theorem Ev.calm.mild {e : Ev} (h : e.calm = true) : e.mild = true := by cases e <;> first | rfl | cases h

theorem due_ext {es log : List Ev} (he : ∀ e ∈ es, e.mild = true) {a b : List Ev} {c n : Nat} (h : es ++ log = a ++ .closedDone c n :: b) : ∃ a', log = a' ++ .closedDone c n :: b := by
  induction es generalizing a with
  | nil => exact ⟨a, h⟩
  | cons x es ih =>
    cases a with
    | nil => injection h with h1 h2; have := he x (List.mem_cons_self ..); rw [h1] at this; cases this
    | cons y a => injection h with h1 h2; exact ih (fun e h => he e (List.mem_cons_of_mem _ h)) h2

theorem shutting_ext {es log : List Ev} (he : ∀ e ∈ es, e.mild = true) (c : Nat) : shutting (es ++ log) c = shutting log c := by
  induction es with
  | nil => rfl
  | cons x es ih =>
    have hx := he x (List.mem_cons_self ..)
    have ih := ih (fun e h => he e (List.mem_cons_of_mem _ h))
    cases x <;> first | exact ih | cases hx

theorem R.ext {t t' : St} (h : R t) (hc : t'.conns = t.conns) (hd : t'.closed = t.closed) (hs : t'.shut = t.shut) (hl : ∃ es, t'.log = es ++ t.log ∧ ∀ e ∈ es, e.mild = true) : R t' := by
  obtain ⟨es, e, he⟩ := hl
  refine ⟨?_, ?_, ?_, ?_⟩
  · intro k c hk
    rw [e, List.mem_append] at hk
    rcases hk with hk | hk
    · cases he _ hk
    · rw [e, hc]
      exact (h.there k c hk).imp (List.mem_append_right _) id
  · intro c k hk
    rw [hc] at hk
    rw [e]
    exact List.mem_append_right _ (h.made c k hk)
  · intro a c n b k h1 h2
    rw [e] at h1
    obtain ⟨a', h1⟩ := due_ext he h1
    rw [e, hc, hd]
    exact (h.due a' c n b k h1 h2).imp (List.mem_append_right _) id
  · intro c
    rw [hs, e, shutting_ext he]
    exact h.shut c

theorem R.keeps {t t' : St} (h : R t) (k : Keeps t t') : R t' := h.ext k.conns k.closed k.shut (let ⟨es, e, he⟩ := k.log; ⟨es, e, fun x hx => Ev.calm.mild (he x hx)⟩)
theorem R.add {t : St} (h : R t) (e : Ev) (he : e.mild = true) : R (t.add e) := h.ext rfl rfl rfl ⟨[e], rfl, fun x hx => by rw [List.mem_singleton] at hx; rw [hx]; exact he⟩
theorem R.stack {t : St} (h : R t) (st : List Fr) : R { t with stack := st } := h.ext rfl rfl rfl ⟨[], rfl, fun _ h => by cases h⟩
theorem R.push {t : St} (h : R t) (f : Fr) : R (t.push f) := h.stack _
theorem R.pop {t : St} (h : R t) : R t.pop := h.stack _

theorem R.ensure {t : St} (h : R t) (c : Nat) : R (ensure t c).1 := by
  unfold Sv3.ensure
  cases hg : get t.conns c with
  | some k => exact h
  | none =>
    refine ⟨?_, ?_, ?_, ?_⟩
    · intro k c' hk
      have hk : Ev.created k c' ∈ Ev.created t.nk c :: t.log := hk
      rcases List.mem_cons.1 hk with hk | hk
      · cases hk; exact .inr (by simp)
      · exact (h.there k c' hk).imp (List.mem_cons_of_mem _) (List.mem_append_left _)
    · intro c' k hk
      simp only [List.mem_append, List.mem_singleton, Prod.mk.injEq] at hk
      rcases hk with hk | ⟨rfl, rfl⟩
      · exact List.mem_cons_of_mem _ (h.made c' k hk)
      · exact List.mem_cons_self ..
    · intro a c' n b k h1 h2
      have h1 : Ev.created t.nk c :: t.log = a ++ .closedDone c' n :: b := h1
      cases a with
      | nil => injection h1 with h1 _; cases h1
      | cons y a =>
        injection h1 with _ h1
        exact (h.due a c' n b k h1 h2).imp (List.mem_cons_of_mem _) (fun x => ⟨List.mem_append_left _ x.1, x.2⟩)
    · exact h.shut

theorem R.reap {t : St} (h : R t) : R (Sv3.reap t) := by
  have fr : ∀ c k, (c, k) ∈ t.conns → c ∈ t.closed → Ev.freed k ∈ (Sv3.reap t).log := by
    intro c k h1 h2
    refine List.mem_append_left _ (List.mem_map.2 ⟨(c, k), List.mem_filter.2 ⟨h1, by simpa using h2⟩, rfl⟩)
  have hm : ∀ e ∈ (t.conns.filter (fun e => t.closed.contains e.1)).map (fun e => Ev.freed e.2), e.mild = true := by
    intro e he
    obtain ⟨x, -, rfl⟩ := List.mem_map.1 he
    rfl
  refine ⟨?_, ?_, ?_, ?_⟩
  · intro k c hk
    have hk : Ev.created k c ∈ _ ++ t.log := hk
    rcases List.mem_append.1 hk with hk | hk
    · cases hm _ hk
    rcases h.there k c hk with h1 | h1
    · exact .inl (List.mem_append_right _ h1)
    · by_cases hc : c ∈ t.closed
      · exact .inl (fr c k h1 hc)
      · exact .inr (List.mem_filter.2 ⟨h1, by simpa using hc⟩)
  · intro c k hk
    exact List.mem_append_right _ (h.made c k (List.mem_filter.1 hk).1)
  · intro a c n b k h1 h2
    obtain ⟨a', h1⟩ := due_ext hm h1
    rcases h.due a' c n b k h1 h2 with h3 | ⟨h3, h4⟩
    · exact .inl (List.mem_append_right _ h3)
    · exact .inl (fr c k h3 h4)
  · intro c
    show c ∈ t.shut ↔ shutting (_ ++ t.log) c = true
    rw [shutting_ext hm]; exact h.shut c

theorem R.cancelErase {t : St} (h : R t) (o : Nat) (key : Nat × Nat) : R (cancelErase t o key) := by
  unfold Sv3.cancelErase
  split
  · exact h.keeps (.sess ..)
  · exact (h.add _ rfl).push _

theorem R.sendResponse {t : St} (h : R t) (c s : Nat) (r : Resp) : R (sendResponse t c s r) := by
  unfold Sv3.sendResponse
  split
  · exact h.add _ rfl
  · exact ((h.add _ rfl).add _ rfl).push _

theorem R.ensureSession {t : St} (h : R t) (c s : Nat) : R (ensureSession t c s).1 := by
  unfold Sv3.ensureSession
  split
  · exact h
  · exact h.ext rfl rfl rfl ⟨[_], rfl, fun e he => by rw [List.mem_singleton] at he; rw [he]; rfl⟩

theorem mem_ins {l : List Nat} {c d : Nat} : d ∈ ins l c ↔ d = c ∨ d ∈ l := by
  unfold ins
  split
  · rename_i h
    have h : c ∈ l := by simpa using h
    constructor
    · exact .inr
    · rintro (e | h')
      · rw [e]; exact h
      · exact h'
  · exact List.mem_cons

theorem R.step {t : St} (h : R t) (i : In) : R (step t i) := by
  cases i with
  | connected c h3 =>
    simp only [Sv3.step]
    split
    · exact h.ensure c
    · exact h.add _ rfl
  | dataBegin c => exact ((h.ensure c).add _ rfl).push _
  | dataEnd =>
    simp only [Sv3.step]
    split
    · split
      · exact (h.pop.add _ rfl).reap
      · exact h.pop.add _ rfl
    · exact h
  | acked c =>
    simp only [Sv3.step]
    split
    · exact h.add _ rfl
    · exact h
  | connClosed c => exact (h.add _ rfl).push _
  | next =>
    simp only [Sv3.step]
    split
    · rename_i c n st hst
      have key : ∀ cl : List Nat, (∀ x ∈ t.closed, x ∈ cl) → (∀ k, (c, k) ∈ t.conns → c ∈ cl) → R { ({ t with closed := cl } : St).pop.add (.closedDone c n) with shut := t.shut.filter (· != c) } := by
        intro cl hcl hc
        refine ⟨?_, ?_, ?_, ?_⟩
        · intro k c' hk
          rcases List.mem_cons.1 hk with hk | hk
          · cases hk
          · exact (h.there k c' hk).imp (List.mem_cons_of_mem _) id
        · intro c' k hk
          exact List.mem_cons_of_mem _ (h.made c' k hk)
        · intro a c' n' b k h1 h2
          have h1 : Ev.closedDone c n :: t.log = a ++ .closedDone c' n' :: b := h1
          cases a with
          | nil =>
            injection h1 with h1 h3
            cases h1
            subst h3
            rcases h.there k c h2 with h4 | h4
            · exact .inl (List.mem_cons_of_mem _ h4)
            · exact .inr ⟨h4, hc k h4⟩
          | cons y a =>
            injection h1 with _ h1
            exact (h.due a c' n' b k h1 h2).imp (List.mem_cons_of_mem _) (fun x => ⟨x.1, hcl _ x.2⟩)
        · intro d
          show d ∈ t.shut.filter (· != c) ↔ shutting (.closedDone c n :: t.log) d = true
          rw [List.mem_filter, h.shut, shutting]
          by_cases hd : c = d
          · simp [hd]
          · have : (d != c) = true := by simpa using Ne.symm hd
            simp [hd, this]
      split
      · exact key (t.closed ++ [c]) (fun x hx => List.mem_append_left _ hx) (fun _ _ => by simp)
      · rename_i hn
        refine key t.closed (fun _ h => h) (fun k hk => ?_)
        exfalso
        cases hg : get t.conns c with
        | none => exact get_none hg k hk
        | some k' => rw [hg] at hn; exact hn rfl
    · have h1 := h.pop
      split
      · exact h1.push _
      · exact (h1.push _).cancelErase ..
    · exact h.pop
    · split
      · exact h.pop.push _
      · exact (h.pop.add _ rfl).push _
    · exact h
  | streamClosed c s =>
    simp only [Sv3.step]
    split
    · exact h.add _ rfl
    · exact (h.add _ rfl).cancelErase ..
  | cancelEnd =>
    simp only [Sv3.step]
    split
    · exact (h.pop.keeps (.setObj ..)).keeps (.sess ..)
    · exact h
  | h3Closed c s => exact (((h.add _ rfl).keeps (keeps_outputDrained ..)).keeps (.sess ..)).keeps (keeps_maybeFinish ..)
  | drained c s => exact (h.add _ rfl).keeps (keeps_outputDrained ..)
  | afterDispatch =>
    simp only [Sv3.step]
    split
    · exact h.reap
    · exact h
  | reqBegin s head =>
    simp only [Sv3.step]
    split
    · rename_i k c st hst
      refine R.ext (t := (Sv3.ensureSession t c s).1) (h.ensureSession c s) rfl rfl rfl ⟨[_], rfl, fun e he => by rw [List.mem_singleton] at he; rw [he]; rfl⟩
    · exact h
  | reqEnd found =>
    simp only [Sv3.step]
    split
    · split
      · exact h.pop.keeps (keeps_attach ..)
      · exact h.pop.sendResponse ..
    · exact h
  | send o r =>
    simp only [Sv3.step]
    split
    · exact h.sendResponse ..
    · exact h
  | sendEnd ok =>
    simp only [Sv3.step]
    split
    · split
      · exact h.pop.keeps (keeps_maybeFinish ..)
      · exact h.pop.add _ rfl
    · exact h
  | shutdown => exact (h.add _ rfl).push _
  | noticeEnd d =>
    simp only [Sv3.step]
    split
    · rename_i c k cs st hst
      have h1 : R { ((t.pop.add (.used k .late)).add (.goaway c)).push (.shut cs) with shut := ins t.shut c } := by
        refine ⟨?_, ?_, ?_, ?_⟩
        · intro k' c' hk
          have hk : Ev.created k' c' ∈ Ev.goaway c :: Ev.used k .late :: t.log := hk
          simp only [List.mem_cons, reduceCtorEq, false_or] at hk
          exact (h.there k' c' hk).imp (fun x => List.mem_cons_of_mem _ (List.mem_cons_of_mem _ x)) id
        · intro c' k' hk
          exact List.mem_cons_of_mem _ (List.mem_cons_of_mem _ (h.made c' k' hk))
        · intro a c' n b k' h1 h2
          have h1 : Ev.goaway c :: Ev.used k .late :: t.log = a ++ .closedDone c' n :: b := h1
          match a, h1 with
          | [], h1 => injection h1 with h1 _; cases h1
          | [_], h1 => injection h1 with _ h1; injection h1 with h1 _; cases h1
          | _ :: _ :: a, h1 =>
            injection h1 with _ h1; injection h1 with _ h1
            exact (h.due a c' n b k' h1 h2).imp (fun x => List.mem_cons_of_mem _ (List.mem_cons_of_mem _ x)) id
        · intro d
          show d ∈ ins t.shut c ↔ shutting (.goaway c :: .used k .late :: t.log) d = true
          have e : shutting (.goaway c :: .used k .late :: t.log) d = if c = d then true else shutting t.log d := rfl
          rw [mem_ins, h.shut, e]
          by_cases hd : c = d
          · simp [hd]
          · simp [hd, Ne.symm hd]
      split
      · exact h1.add _ rfl
      · exact h1
    · exact h

theorem R.init : R {} where
  there := fun _ _ h => by cases h
  made := fun _ _ h => by cases h
  due := fun a _ _ _ _ h => by cases a <;> cases h
  shut := fun c => by simp [shutting]

theorem R.run (is : List In) : R (run is) := invariant R.init (fun _ i h => h.step i) is

end Verif.Sv3
