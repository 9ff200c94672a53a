import Verif.Sv3.LemmasCtx

/-! The sessions a closed connection had leave the table. -/

namespace Verif.Sv3

/-- The calls of `t` are still under way. -/
def Above (t t' : St) : Prop := ∃ pre, t'.stack = pre ++ t.stack

theorem Above.eq {t t' : St} (h : t'.stack = t.stack) : Above t t' := ⟨[], h⟩
theorem Above.trans {t t' t'' : St} (h : Above t t') (h' : Above t' t'') : Above t t'' := by
  obtain ⟨a, ha⟩ := h; obtain ⟨b, hb⟩ := h'
  exact ⟨b ++ a, by rw [hb, ha, List.append_assoc]⟩
theorem above_ensure (t : St) (c : Nat) : Above t (ensure t c).1 := by
  unfold ensure
  split <;> exact .eq rfl
theorem above_ensureSession (t : St) (c s : Nat) : Above t (ensureSession t c s).1 := by
  unfold ensureSession
  split <;> exact .eq rfl
theorem above_cancelErase (t : St) (o : Nat) (key : Nat × Nat) : Above t (cancelErase t o key) := by
  unfold cancelErase
  split
  · exact .eq rfl
  · exact ⟨[_], rfl⟩
theorem above_sendResponse (t : St) (c s : Nat) (r : Resp) : Above t (sendResponse t c s r) := by
  unfold sendResponse
  split
  · exact .eq rfl
  · exact ⟨[_], rfl⟩

theorem pop_stack {t : St} {f : Fr} {st : List Fr} (h : t.stack = f :: st) : t.pop.stack = st := by
  show t.stack.drop 1 = st
  rw [h]; rfl

/-- A step leaves the calls under way alone, or ends the innermost one. -/
theorem step_stack (t : St) (i : In) : Above t (step t i) ∨ ∃ f st, t.stack = f :: st ∧ (∃ pre, (step t i).stack = pre ++ st) ∧ (∀ c ks n, f = .closing c ks n → i = .next) ∧ (∀ o key, f = .cancelling o key → ∀ e ∈ (step t i).sess, e.1 ≠ key) := by
  cases i with
  | connected c h3 =>
    refine .inl ?_
    simp only [Sv3.step]
    split
    · exact above_ensure t c
    · exact .eq rfl
  | dataBegin c => exact .inl ((above_ensure t c).trans ⟨[_], rfl⟩)
  | dataEnd =>
    simp only [Sv3.step]
    split
    · rename_i k c st hst
      refine .inr ⟨_, _, hst, ?_, (fun _ _ _ e => by cases e), (fun _ _ e => by cases e)⟩
      split <;> exact ⟨[], pop_stack hst⟩
    · exact .inl (.eq rfl)
  | acked c =>
    refine .inl ?_
    simp only [Sv3.step]
    split <;> exact .eq rfl
  | connClosed c => exact .inl ⟨[_], rfl⟩
  | next =>
    simp only [Sv3.step]
    split
    · rename_i c n st hst
      refine .inr ⟨_, _, hst, ?_, (fun _ _ _ _ => by trivial), (fun _ _ e => by cases e)⟩
      split <;> exact ⟨[], pop_stack hst⟩
    · rename_i c key ks n st hst
      refine .inr ⟨_, _, hst, ?_, (fun _ _ _ _ => by trivial), (fun _ _ e => by cases e)⟩
      have e : (t.pop.push (.closing c ks n)).stack = [.closing c ks n] ++ st := by show _ :: t.pop.stack = _; rw [pop_stack hst]; rfl
      split
      · exact ⟨_, e⟩
      · rename_i o _
        obtain ⟨pre, hp⟩ := above_cancelErase (t.pop.push (.closing c ks n)) o key
        exact ⟨pre ++ [.closing c ks n], by rw [hp, e, List.append_assoc]⟩
    · rename_i st hst
      exact .inr ⟨_, _, hst, ⟨[], pop_stack hst⟩, (fun _ _ _ e => by cases e), (fun _ _ e => by cases e)⟩
    · rename_i c cs st hst
      refine .inr ⟨_, _, hst, ?_, (fun _ _ _ e => by cases e), (fun _ _ e => by cases e)⟩
      split
      · exact ⟨[.shut cs], by show _ :: t.pop.stack = _; rw [pop_stack hst]; rfl⟩
      · rename_i k _
        exact ⟨[.notice c k cs], by show _ :: t.pop.stack = _; rw [pop_stack hst]; rfl⟩
    · exact .inl (.eq rfl)
  | streamClosed c s =>
    refine .inl ?_
    simp only [Sv3.step]
    split
    · exact .eq rfl
    · exact above_cancelErase (t.add (.streamClosed c s)) _ _
  | cancelEnd =>
    simp only [Sv3.step]
    split
    · rename_i o key st hst
      refine .inr ⟨_, _, hst, ⟨[], pop_stack hst⟩, (fun _ _ _ e => by cases e), ?_⟩
      intro o' key' e
      cases e
      intro e he
      exact (mem_del.1 he).2
    · exact .inl (.eq rfl)
  | h3Closed c s =>
    refine .inl (.eq ?_)
    exact (((keeps_outputDrained (t.add (.drained c s)) c s).trans (.sess _ (del (outputDrained (t.add (.drained c s)) c s).sess (c, s)))).trans (keeps_maybeFinish _ c)).stack
  | drained c s => exact .inl (.eq (keeps_outputDrained (t.add (.drained c s)) c s).stack)
  | afterDispatch =>
    refine .inl ?_
    simp only [Sv3.step]
    split <;> exact .eq rfl
  | reqBegin s head =>
    refine .inl ?_
    simp only [Sv3.step]
    split
    · exact (above_ensureSession t _ s).trans ⟨[_], rfl⟩
    · exact .eq rfl
  | reqEnd found =>
    simp only [Sv3.step]
    split
    · rename_i o x st hst
      refine .inr ⟨_, _, hst, ?_, (fun _ _ _ e => by cases e), (fun _ _ e => by cases e)⟩
      split
      · exact ⟨[], (keeps_attach t.pop o x).stack.trans (pop_stack hst)⟩
      · obtain ⟨pre, hp⟩ := above_sendResponse t.pop (t.obj o).c (t.obj o).s { status := 404 }
        exact ⟨pre, by rw [hp, pop_stack hst]⟩
    · exact .inl (.eq rfl)
  | send o r =>
    refine .inl ?_
    simp only [Sv3.step]
    split
    · exact above_sendResponse ..
    · exact .eq rfl
  | sendEnd ok =>
    simp only [Sv3.step]
    split
    · rename_i c s st hst
      refine .inr ⟨_, _, hst, ?_, (fun _ _ _ e => by cases e), (fun _ _ e => by cases e)⟩
      split
      · exact ⟨[], (keeps_maybeFinish t.pop c).stack.trans (pop_stack hst)⟩
      · exact ⟨[], pop_stack hst⟩
    · exact .inl (.eq rfl)
  | shutdown => exact .inl ⟨[_], rfl⟩
  | noticeEnd d =>
    simp only [Sv3.step]
    split
    · rename_i c k cs st hst
      refine .inr ⟨_, _, hst, ?_, (fun _ _ _ e => by cases e), (fun _ _ e => by cases e)⟩
      split <;> exact ⟨[.shut cs], by show _ :: t.pop.stack = _; rw [pop_stack hst]; rfl⟩
    · exact .inl (.eq rfl)

/-- Sessions that are put in the table are new ones. -/
def Fresh (t t' : St) : Prop := (∀ e ∈ t'.sess, e ∈ t.sess ∨ t.objs.length ≤ e.2) ∧ t.objs.length ≤ t'.objs.length

theorem Fresh.eq {t t' : St} (h : t'.sess = t.sess) (h' : t'.objs.length = t.objs.length) : Fresh t t' := ⟨fun e he => .inl (by rw [← h]; exact he), by omega⟩
theorem Fresh.trans {t t' t'' : St} (h : Fresh t t') (h' : Fresh t' t'') : Fresh t t'' := by
  refine ⟨fun e he => ?_, Nat.le_trans h.2 h'.2⟩
  rcases h'.1 e he with h1 | h1
  · exact h.1 e h1
  · exact .inr (Nat.le_trans h.2 h1)
theorem fresh_del (t : St) (key : Nat × Nat) : Fresh t { t with sess := del t.sess key } := ⟨fun _ he => .inl (mem_del.1 he).1, Nat.le_refl _⟩
theorem fresh_ensure (t : St) (c : Nat) : Fresh t (ensure t c).1 := by
  unfold ensure
  split <;> exact .eq rfl rfl
theorem fresh_ensureSession (t : St) (c s : Nat) : Fresh t (ensureSession t c s).1 := by
  unfold ensureSession
  split
  · exact .eq rfl rfl
  · refine ⟨?_, by simp⟩
    intro e he
    simp only [List.mem_append, List.mem_singleton] at he
    rcases he with he | he
    · exact .inl he
    · exact .inr (by rw [he]; exact Nat.le_refl _)
theorem fresh_cancelErase (t : St) (o : Nat) (key : Nat × Nat) : Fresh t (cancelErase t o key) := by
  unfold cancelErase
  split
  · exact fresh_del ..
  · exact .eq rfl rfl
theorem fresh_sendResponse (t : St) (c s : Nat) (r : Resp) : Fresh t (sendResponse t c s r) := by
  unfold sendResponse
  split <;> exact .eq rfl rfl
theorem fresh_setObj (t : St) (o : Nat) (v : Sess) : Fresh t (t.setObj o v) := .eq rfl (by simp [St.setObj])
theorem fresh_maybeFinish (t : St) (c : Nat) : Fresh t (maybeFinish t c) := by
  unfold maybeFinish
  split
  · exact .eq rfl rfl
  split <;> exact .eq rfl rfl
theorem fresh_markSent (t : St) (o : Nat) : Fresh t (markSent t o) := by
  unfold markSent
  split
  · exact .eq rfl rfl
  split
  · exact fresh_setObj ..
  · exact (fresh_setObj ..).trans (.eq rfl rfl)
theorem fresh_attach (t : St) (o x : Nat) : Fresh t (attach t o x) := by
  unfold attach
  dsimp only
  split
  · exact Fresh.trans (t' := t.add _) (.eq rfl rfl) ((fresh_setObj ..).trans (.eq rfl rfl))
  · exact Fresh.trans (t' := t.add _) (.eq rfl rfl) (fresh_setObj ..)
theorem fresh_outputDrained (t : St) (c s : Nat) : Fresh t (outputDrained t c s) := by
  unfold outputDrained
  refine Fresh.trans ?_ (fresh_maybeFinish _ _)
  split
  · exact fresh_markSent ..
  · exact .eq rfl rfl

theorem step_fresh (t : St) (i : In) : Fresh t (step t i) := by
  cases i with
  | connected c h3 =>
    simp only [Sv3.step]
    split
    · exact fresh_ensure t c
    · exact .eq rfl rfl
  | dataBegin c => exact (fresh_ensure t c).trans (.eq rfl rfl)
  | dataEnd =>
    simp only [Sv3.step]
    split
    · split <;> exact .eq rfl rfl
    · exact .eq rfl rfl
  | acked c =>
    simp only [Sv3.step]
    split <;> exact .eq rfl rfl
  | connClosed c => exact .eq rfl rfl
  | next =>
    simp only [Sv3.step]
    split
    · split <;> exact .eq rfl rfl
    · rename_i c key ks n st hst
      split
      · exact .eq rfl rfl
      · exact Fresh.trans (t' := t.pop.push (.closing c ks n)) (.eq rfl rfl) (fresh_cancelErase ..)
    · exact .eq rfl rfl
    · split <;> exact .eq rfl rfl
    · exact .eq rfl rfl
  | streamClosed c s =>
    simp only [Sv3.step]
    split
    · exact .eq rfl rfl
    · exact Fresh.trans (t' := t.add (.streamClosed c s)) (.eq rfl rfl) (fresh_cancelErase ..)
  | cancelEnd =>
    simp only [Sv3.step]
    split
    · exact Fresh.trans (Fresh.trans (t' := t.pop) (.eq rfl rfl) (fresh_setObj ..)) (fresh_del ..)
    · exact .eq rfl rfl
  | h3Closed c s =>
    exact Fresh.trans (t' := t.add (.drained c s)) (.eq rfl rfl) (((fresh_outputDrained _ c s).trans (fresh_del _ (c, s))).trans (fresh_maybeFinish _ c))
  | drained c s => exact Fresh.trans (t' := t.add (.drained c s)) (.eq rfl rfl) (fresh_outputDrained _ c s)
  | afterDispatch =>
    simp only [Sv3.step]
    split <;> exact .eq rfl rfl
  | reqBegin s head =>
    simp only [Sv3.step]
    split
    · exact ((fresh_ensureSession t _ s).trans (fresh_setObj ..)).trans (.eq rfl rfl)
    · exact .eq rfl rfl
  | reqEnd found =>
    simp only [Sv3.step]
    split
    · split
      · exact Fresh.trans (t' := t.pop) (.eq rfl rfl) (fresh_attach ..)
      · exact Fresh.trans (t' := t.pop) (.eq rfl rfl) (fresh_sendResponse ..)
    · exact .eq rfl rfl
  | send o r =>
    simp only [Sv3.step]
    split
    · exact fresh_sendResponse ..
    · exact .eq rfl rfl
  | sendEnd ok =>
    simp only [Sv3.step]
    split
    · split
      · exact Fresh.trans (t' := t.pop) (.eq rfl rfl) (fresh_maybeFinish ..)
      · exact .eq rfl rfl
    · exact .eq rfl rfl
  | shutdown => exact .eq rfl rfl
  | noticeEnd d =>
    simp only [Sv3.step]
    split
    · split <;> exact .eq rfl rfl
    · exact .eq rfl rfl

/-- While the closure of `c` is reported: the sessions it had are still to be looked at, or are being cancelled. -/
def Closing (c n : Nat) (base : List Fr) (t : St) : Prop :=
  ∃ top ks m, t.stack = top ++ .closing c ks m :: base ∧ ∀ s o, ((c, s), o) ∈ t.sess → o < n → (c, s) ∈ ks ∨ .cancelling o (c, s) ∈ top

/-- And afterwards: they are gone. -/
def Gone (c n : Nat) (t : St) : Prop := ∀ s o, ((c, s), o) ∈ t.sess → n ≤ o

theorem closing_step {c n : Nat} {base : List Fr} {t : St} (hX : X t) (hn : n ≤ t.objs.length) (i : In) (h : Closing c n base t ∨ Gone c n t) : Closing c n base (step t i) ∨ Gone c n (step t i) := by
  have hf := step_fresh t i
  rcases h with ⟨top, ks, m, hst, hin⟩ | hg
  · have old : ∀ s o, ((c, s), o) ∈ (step t i).sess → o < n → ((c, s), o) ∈ t.sess := by
      intro s o ho hl
      rcases hf.1 _ ho with h1 | h1
      · exact h1
      · exact absurd h1 (by simp only; omega)
    rcases step_stack t i with ⟨pre, hp⟩ | ⟨f, st, hfs, ⟨pre, hp⟩, hcl, hcan⟩
    · refine .inl ⟨pre ++ top, ks, m, by rw [hp, hst, List.append_assoc], fun s o ho hl => ?_⟩
      exact (hin s o (old s o ho hl) hl).imp id (List.mem_append_right _)
    · cases top with
      | cons g top =>
        rw [hst] at hfs
        injection hfs with h1 h2
        subst h1
        refine .inl ⟨pre ++ top, ks, m, by rw [hp, ← h2, List.append_assoc]; rfl, fun s o ho hl => ?_⟩
        rcases hin s o (old s o ho hl) hl with h3 | h3
        · exact .inl h3
        rcases List.mem_cons.1 h3 with h3 | h3
        · exact absurd rfl (hcan o (c, s) h3.symm _ ho)
        · exact .inr (List.mem_append_right _ h3)
      | nil =>
        have hst : t.stack = .closing c ks m :: base := hst
        rw [hst] at hfs
        injection hfs with h1 h2
        subst h1
        have := hcl _ _ _ rfl
        subst this
        cases ks with
        | nil =>
          refine .inr (fun s o ho => ?_)
          rcases Nat.lt_or_ge o n with hl | hl
          · rcases hin s o (old s o ho hl) hl with h3 | h3 <;> cases h3
          · exact hl
        | cons key ks =>
          refine .inl ?_
          have e : (t.pop.push (.closing c ks m)).stack = .closing c ks m :: base := by show _ :: t.pop.stack = _; rw [pop_stack hst]
          have es : Sv3.step t .next = match get t.sess key with | none => t.pop.push (.closing c ks m) | some o => cancelErase (t.pop.push (.closing c ks m)) o key := by
            simp only [Sv3.step, hst]
            rfl
          rw [es] at old ⊢
          cases hg : get t.sess key with
          | none =>
            refine ⟨[], ks, m, e, fun s o ho hl => ?_⟩
            rcases hin s o ho hl with h3 | h3
            · rcases List.mem_cons.1 h3 with h3 | h3
              · rw [← h3] at hg; exact absurd ho (get_none hg o)
              · exact .inl h3
            · cases h3
          | some o' =>
            rw [hg] at old
            dsimp only at old ⊢
            unfold cancelErase at old ⊢
            split
            · refine ⟨[], ks, m, e, fun s o ho hl => ?_⟩
              have ho' := mem_del.1 ho
              rcases hin s o ho'.1 hl with h3 | h3
              · rcases List.mem_cons.1 h3 with h3 | h3
                · exact absurd h3 ho'.2
                · exact .inl h3
              · cases h3
            · refine ⟨[.cancelling o' key], ks, m, by show _ :: (t.pop.push (.closing c ks m)).stack = _; rw [e]; rfl, fun s o ho hl => ?_⟩
              have ho : ((c, s), o) ∈ t.sess := ho
              rcases hin s o ho hl with h3 | h3
              · rcases List.mem_cons.1 h3 with h3 | h3
                · have : o = o' := hX.fn _ _ _ ho (by rw [h3]; exact get_mem hg)
                  rw [this, h3]
                  exact .inr (List.mem_singleton.2 rfl)
                · exact .inl h3
              · cases h3
  · refine .inr (fun s o ho => ?_)
    rcases hf.1 _ ho with h1 | h1
    · exact hg s o h1
    · simp only at h1; omega

theorem run_append (is js : List In) : run (is ++ js) = js.foldl step (run is) := by
  unfold run; rw [List.foldl_append]

theorem closing_run (is js : List In) (c : Nat) : Closing c (run is).objs.length (run is).stack (run (is ++ .connClosed c :: js)) ∨ Gone c (run is).objs.length (run (is ++ .connClosed c :: js)) := by
  have h0 : Closing c (run is).objs.length (run is).stack (step (run is) (.connClosed c)) := by
    refine ⟨[], _, _, rfl, fun s o ho _ => .inl ?_⟩
    have ho : ((c, s), o) ∈ (run is).sess := ho
    rw [List.mem_map]
    exact ⟨_, List.mem_filter.2 ⟨ho, by simp⟩, rfl⟩
  rw [run_append]
  show _ ∨ Gone _ _ (js.foldl step (step (run is) (.connClosed c)))
  suffices ∀ t, X t → (run is).objs.length ≤ t.objs.length → (Closing c (run is).objs.length (run is).stack t ∨ Gone c (run is).objs.length t) →
      Closing c (run is).objs.length (run is).stack (js.foldl step t) ∨ Gone c (run is).objs.length (js.foldl step t) from
    this _ ((X.run is).step _) (step_fresh (run is) (.connClosed c)).2 (.inl h0)
  induction js with
  | nil => intro t _ _ h; exact h
  | cons i js ih => intro t hX hn h; exact ih _ (hX.step i) (Nat.le_trans hn (step_fresh t i).2) (closing_step hX hn i h)

end Verif.Sv3
