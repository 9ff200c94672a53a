import Verif.Sv3.LemmasSess

/-! No context is forgotten; the sessions of a closed connection leave the table. -/

namespace Verif.Sv3

def Grows (t t' : St) : Prop := ∃ es, t'.log = es ++ t.log

theorem Grows.refl (t : St) : Grows t t := ⟨[], rfl⟩
theorem Grows.trans {t t' t'' : St} (h : Grows t t') (h' : Grows t' t'') : Grows t t'' := by
  obtain ⟨a, ha⟩ := h; obtain ⟨b, hb⟩ := h'
  exact ⟨b ++ a, by rw [hb, ha, List.append_assoc]⟩
theorem Keeps.grows {t t' : St} (h : Keeps t t') : Grows t t' := let ⟨es, e, _⟩ := h.log; ⟨es, e⟩
theorem Grows.mem {t t' : St} (h : Grows t t') {e : Ev} (he : e ∈ t.log) : e ∈ t'.log := by
  obtain ⟨a, ha⟩ := h
  rw [ha]; exact List.mem_append_right _ he
theorem grows_cancelErase (t : St) (o : Nat) (key : Nat × Nat) : Grows t (cancelErase t o key) := by
  unfold cancelErase
  split
  · exact .refl t
  · exact ⟨[_], rfl⟩
theorem grows_sendResponse (t : St) (c s : Nat) (r : Resp) : Grows t (sendResponse t c s r) := by
  unfold sendResponse
  split
  · exact ⟨[_], rfl⟩
  · exact ⟨[_, _], rfl⟩
theorem grows_ensure (t : St) (c : Nat) : Grows t (ensure t c).1 := by
  unfold ensure
  split
  · exact .refl t
  · exact ⟨[_], rfl⟩
theorem grows_ensureSession (t : St) (c s : Nat) : Grows t (ensureSession t c s).1 := by
  unfold ensureSession
  split
  · exact .refl t
  · exact ⟨[_], rfl⟩

theorem Grows.step (t : St) (i : In) : Grows t (step t i) := by
  cases i with
  | connected c h3 =>
    simp only [Sv3.step]
    split
    · exact grows_ensure t c
    · exact ⟨[_], rfl⟩
  | dataBegin c => exact (grows_ensure t c).trans ⟨[_], rfl⟩
  | dataEnd =>
    simp only [Sv3.step]
    split
    · split
      · exact Grows.trans (t' := t.pop.add _) ⟨[_], rfl⟩ ⟨_, rfl⟩
      · exact ⟨[_], rfl⟩
    · exact .refl t
  | acked c =>
    simp only [Sv3.step]
    split
    · exact ⟨[_], rfl⟩
    · exact .refl t
  | connClosed c => exact ⟨[_], rfl⟩
  | next =>
    simp only [Sv3.step]
    split
    · split <;> exact ⟨[_], rfl⟩
    · split
      · exact ⟨[], rfl⟩
      · exact Grows.trans (t' := t.pop.push _) ⟨[], rfl⟩ (grows_cancelErase ..)
    · exact ⟨[], rfl⟩
    · split
      · exact ⟨[], rfl⟩
      · exact ⟨[_], rfl⟩
    · exact .refl t
  | streamClosed c s =>
    simp only [Sv3.step]
    split
    · exact ⟨[_], rfl⟩
    · exact Grows.trans (t' := t.add (.streamClosed c s)) ⟨[_], rfl⟩ (grows_cancelErase ..)
  | cancelEnd =>
    simp only [Sv3.step]
    split <;> exact ⟨[], rfl⟩
  | h3Closed c s => exact Grows.trans (t' := t.add _) ⟨[_], rfl⟩ (((keeps_outputDrained ..).trans (.sess ..)).trans (keeps_maybeFinish ..)).grows
  | drained c s => exact Grows.trans (t' := t.add _) ⟨[_], rfl⟩ (keeps_outputDrained ..).grows
  | afterDispatch =>
    simp only [Sv3.step]
    split
    · exact ⟨_, rfl⟩
    · exact .refl t
  | reqBegin s head =>
    simp only [Sv3.step]
    split
    · exact (grows_ensureSession t _ _).trans ⟨[_], rfl⟩
    · exact .refl t
  | reqEnd found =>
    simp only [Sv3.step]
    split
    · split
      · exact Grows.trans (t' := t.pop) ⟨[], rfl⟩ (keeps_attach ..).grows
      · exact Grows.trans (t' := t.pop) ⟨[], rfl⟩ (grows_sendResponse ..)
    · exact .refl t
  | send o r =>
    simp only [Sv3.step]
    split
    · exact grows_sendResponse ..
    · exact .refl t
  | sendEnd ok =>
    simp only [Sv3.step]
    split
    · split
      · exact Grows.trans (t' := t.pop) ⟨[], rfl⟩ (keeps_maybeFinish ..).grows
      · exact ⟨[_], rfl⟩
    · exact .refl t
  | shutdown => exact ⟨[_], rfl⟩
  | noticeEnd d =>
    simp only [Sv3.step]
    split
    · split
      · exact ⟨[_, _, _], rfl⟩
      · exact ⟨[_, _], rfl⟩
    · exact .refl t

theorem OneRequest.down {t t' : St} (h : OneRequest t'.log) (g : Grows t t') : OneRequest t.log :=
  ⟨fun x y o h1 h2 => h.1 x y o (g.mem h1) (g.mem h2), fun o o' c s h1 h2 => h.2 o o' c s (g.mem h1) (g.mem h2)⟩

def St.keyOf (t : St) (o : Nat) : Nat × Nat := ((t.obj o).c, (t.obj o).s)

structure Y (t : St) : Prop where
  acc : ∀ x o, .attached x o true ∈ t.log → .hook x ∈ t.log ∨ .cancel x ∈ t.log ∨ ((t.keyOf o, o) ∈ t.sess ∧ (t.obj o).ctx = some x)
  can : ∀ o key, .cancelling o key ∈ t.stack → ∀ x, (t.obj o).ctx = some x → .cancel x ∈ t.log

theorem Y.ext {t t' : St} (h : Y t) (h1 : ∀ o x, (t'.obj o).ctx = some x → (t.obj o).ctx = some x)
    (h2 : ∀ o x, (t.obj o).ctx = some x → (t.keyOf o, o) ∈ t.sess → .hook x ∈ t'.log ∨ .cancel x ∈ t'.log ∨ ((t'.keyOf o, o) ∈ t'.sess ∧ (t'.obj o).ctx = some x))
    (h3 : ∃ es, t'.log = es ++ t.log ∧ ∀ x o b, .attached x o b ∉ es)
    (h4 : ∀ o key, .cancelling o key ∈ t'.stack → .cancelling o key ∈ t.stack ∨ ∀ x, (t.obj o).ctx = some x → .cancel x ∈ t'.log) : Y t' := by
  obtain ⟨es, e, he⟩ := h3
  have up : ∀ ev, ev ∈ t.log → ev ∈ t'.log := fun ev hv => by rw [e]; exact List.mem_append_right _ hv
  refine ⟨?_, ?_⟩
  · intro x o ha
    rw [e] at ha
    rcases List.mem_append.1 ha with ha | ha
    · exact (he _ _ _ ha).elim
    rcases h.acc x o ha with h5 | h5 | ⟨h5, h6⟩
    · exact .inl (up _ h5)
    · exact .inr (.inl (up _ h5))
    · exact h2 o x h6 h5
  · intro o key hk x hx
    rcases h4 o key hk with h5 | h5
    · exact up _ (h.can o key h5 x (h1 o x hx))
    · exact h5 x (h1 o x hx)

/-- Sessions and table stay. -/
theorem Y.same {t t' : St} (h : Y t) (ho : t'.objs = t.objs) (hs : t'.sess = t.sess) (hl : ∃ es, t'.log = es ++ t.log ∧ ∀ x o b, .attached x o b ∉ es) (hst : ∀ o key, .cancelling o key ∈ t'.stack → .cancelling o key ∈ t.stack) : Y t' := by
  have e : ∀ o, t'.obj o = t.obj o := fun o => by unfold St.obj; rw [ho]
  refine h.ext (fun o x hx => by rw [← e]; exact hx) ?_ hl (fun o key hk => .inl (hst o key hk))
  intro o x hx hk
  refine .inr (.inr ⟨?_, by rw [e]; exact hx⟩)
  rw [hs]; unfold St.keyOf; rw [e]; exact hk

theorem Y.add {t : St} (h : Y t) (e : Ev) (he : ∀ x o b, e ≠ .attached x o b) : Y (t.add e) :=
  h.same rfl rfl ⟨[e], rfl, fun x o b hm => he x o b (List.mem_singleton.1 hm).symm⟩ (fun _ _ h => h)
theorem Y.pop {t : St} (h : Y t) : Y t.pop := h.same rfl rfl ⟨[], rfl, fun _ _ _ h => by cases h⟩ (fun _ _ hx => List.mem_of_mem_drop hx)
theorem Y.push {t : St} (h : Y t) (f : Fr) (hf : ∀ o key, f ≠ .cancelling o key) : Y (t.push f) :=
  h.same rfl rfl ⟨[], rfl, fun _ _ _ h => by cases h⟩ (fun o key hk => (List.mem_cons.1 hk).resolve_left (fun e => hf o key e.symm))

theorem Y.maybeFinish {t : St} (h : Y t) (c : Nat) : Y (maybeFinish t c) := by
  unfold Sv3.maybeFinish
  split
  · exact h
  split
  · exact h
  · exact h.add _ (fun _ _ _ => by simp)

theorem Y.markSent {t : St} (h : Y t) (o : Nat) : Y (markSent t o) := by
  unfold Sv3.markSent
  split
  · exact h
  split
  · rename_i hn
    have e : ∀ o', ((t.setObj o { t.obj o with sent := true }).obj o').ctx = (t.obj o').ctx := by
      intro o'
      rw [obj_setObj]
      split
      · rename_i e; rw [← e.1]
      · rfl
    have ek : ∀ o', (t.setObj o { t.obj o with sent := true }).keyOf o' = t.keyOf o' := by
      intro o'
      unfold St.keyOf
      rw [obj_setObj]
      split
      · rename_i e; rw [← e.1]
      · rfl
    refine h.ext (fun o' x hx => by rw [← e]; exact hx) ?_ ⟨[], rfl, fun _ _ _ h => by cases h⟩ (fun _ _ h => .inl h)
    intro o' x hx hk
    exact .inr (.inr ⟨by rw [ek]; exact hk, by rw [e]; exact hx⟩)
  · rename_i x0 hx0
    refine h.ext ?_ ?_ ⟨[.hook x0], rfl, fun _ _ _ h => by cases List.mem_singleton.1 h⟩ (fun _ _ h => .inl h)
    · intro o' x hx
      have hx : ((t.setObj o { t.obj o with sent := true, ctx := none }).obj o').ctx = some x := hx
      rw [obj_setObj] at hx
      split at hx
      · cases hx
      · exact hx
    · intro o' x hx hk
      by_cases e : o = o'
      · subst e
        rw [hx0] at hx; cases hx
        exact .inl (List.mem_cons_self ..)
      · have eo : ((t.setObj o { t.obj o with sent := true, ctx := none }).add (.hook x0)).obj o' = t.obj o' := by
          show (t.setObj o { t.obj o with sent := true, ctx := none }).obj o' = _
          rw [obj_setObj, if_neg (fun h => e h.1)]
        exact .inr (.inr ⟨by unfold St.keyOf; rw [eo]; exact hk, by rw [eo]; exact hx⟩)

theorem markSent_none {t : St} (h : X t) (o : Nat) (ho : o < t.objs.length) : ((markSent t o).obj o).ctx = none := by
  unfold markSent
  split
  · rename_i hs; exact h.sent o hs
  split
  · rename_i hn; rw [obj_setObj, if_pos ⟨rfl, ho⟩]; exact hn
  · show ((t.setObj o { t.obj o with sent := true, ctx := none }).obj o).ctx = none
    rw [obj_setObj, if_pos ⟨rfl, ho⟩]

theorem markSent_sess (t : St) (o : Nat) : (markSent t o).sess = t.sess := by
  unfold markSent
  split
  · rfl
  split <;> rfl

theorem maybeFinish_objs (t : St) (c : Nat) : (maybeFinish t c).objs = t.objs ∧ (maybeFinish t c).sess = t.sess := by
  unfold maybeFinish
  split
  · exact ⟨rfl, rfl⟩
  split <;> exact ⟨rfl, rfl⟩

theorem outputDrained_none {t : St} (h : X t) (c s o : Nat) (hm : ((c, s), o) ∈ (outputDrained t c s).sess) : ((outputDrained t c s).obj o).ctx = none := by
  unfold outputDrained at hm ⊢
  rw [(maybeFinish_objs _ _).2] at hm
  unfold St.obj
  rw [(maybeFinish_objs _ _).1]
  cases hg : get t.sess (c, s) with
  | none =>
    rw [hg] at hm
    exact absurd hm (get_none hg o)
  | some o' =>
    rw [hg] at hm
    dsimp only at hm ⊢
    rw [markSent_sess] at hm
    have e := h.fn _ _ _ hm (get_mem hg)
    subst e
    exact markSent_none h o (h.key c s o hm).1

theorem Y.outputDrained {t : St} (h : Y t) (c s : Nat) : Y (outputDrained t c s) := by
  unfold Sv3.outputDrained
  split
  · exact (h.markSent _).maybeFinish c
  · exact h.maybeFinish c

/-- A session without a context leaves the table. -/
theorem Y.del {t : St} (h : Y t) (key : Nat × Nat) (hk : ∀ o, (key, o) ∈ t.sess → ∀ x, (t.obj o).ctx = some x → .cancel x ∈ t.log) : Y { t with sess := del t.sess key } := by
  refine h.ext (fun _ _ h => h) ?_ ⟨[], rfl, fun _ _ _ h => by cases h⟩ (fun _ _ h => .inl h)
  intro o x hx hm
  by_cases e : t.keyOf o = key
  · rw [e] at hm; exact .inr (.inl (hk o hm x hx))
  · exact .inr (.inr ⟨mem_del.2 ⟨hm, e⟩, hx⟩)

theorem Y.cancelErase {t : St} (h : Y t) (hX : X t) (o : Nat) (key : Nat × Nat) (hk : (key, o) ∈ t.sess) : Y (cancelErase t o key) := by
  unfold Sv3.cancelErase
  split
  · rename_i hn
    refine h.del key (fun o' ho' x hx => ?_)
    rw [hX.fn _ _ _ ho' hk, hn] at hx; cases hx
  · rename_i x hx
    refine h.ext (fun _ _ h => h) (fun o' y hy hm => .inr (.inr ⟨hm, hy⟩)) ⟨[.cancel x], rfl, fun _ _ _ h => by cases List.mem_singleton.1 h⟩ ?_
    intro o' k' hk'
    rcases List.mem_cons.1 hk' with e | hk'
    · cases e
      refine .inr (fun y hy => ?_)
      rw [hx] at hy; cases hy
      exact List.mem_cons_self ..
    · exact .inl hk'

theorem Y.sendResponse {t : St} (h : Y t) (c s : Nat) (r : Resp) : Y (sendResponse t c s r) := by
  unfold Sv3.sendResponse
  split
  · exact h.add _ (fun _ _ _ => by simp)
  · exact ((h.add _ (fun _ _ _ => by simp)).add _ (fun _ _ _ => by simp)).push _ (fun _ _ => by simp)

theorem Y.ensureSession {t : St} (h : Y t) (hX : X t) (c s : Nat) : Y (ensureSession t c s).1 := by
  unfold Sv3.ensureSession
  cases hg : get t.sess (c, s) with
  | some o => exact h
  | none =>
    have eold : ∀ o, o < t.objs.length → (t.objs ++ [({ c := c, s := s } : Sess)]).getD o {} = t.obj o := by
      intro o ho
      unfold St.obj
      simp only [List.getD_eq_getElem?_getD]
      rw [List.getElem?_append_left ho]
    refine h.ext ?_ ?_ ⟨[_], rfl, fun _ _ _ h => by cases List.mem_singleton.1 h⟩ (fun _ _ h => .inl h)
    · intro o x hx
      have hx : ((t.objs ++ [({ c := c, s := s } : Sess)]).getD o {}).ctx = some x := hx
      by_cases ho : o < t.objs.length
      · rw [eold o ho] at hx; exact hx
      · exfalso
        rw [List.getD_eq_getElem?_getD, List.getElem?_append_right (by omega)] at hx
        by_cases he : o = t.objs.length
        · simp [he] at hx
        · rw [List.getElem?_eq_none (by simp; omega)] at hx; cases hx
    · intro o x hx hm
      have ho := (hX.ctx o x hx).1
      refine .inr (.inr ⟨List.mem_append_left _ ?_, ?_⟩)
      · unfold St.keyOf St.obj
        rw [eold o ho]; exact hm
      · show ((t.objs ++ [({ c := c, s := s } : Sess)]).getD o {}).ctx = some x
        rw [eold o ho]; exact hx

theorem Y.setHead {t : St} (h : Y t) (o : Nat) (hd : Bool) : Y (t.setObj o { t.obj o with head := hd }) := by
  have e : ∀ o', ((t.setObj o { t.obj o with head := hd }).obj o').ctx = (t.obj o').ctx ∧ (t.setObj o { t.obj o with head := hd }).keyOf o' = t.keyOf o' := by
    intro o'
    unfold St.keyOf
    rw [obj_setObj]
    split
    · rename_i e; rw [← e.1]; exact ⟨rfl, rfl⟩
    · exact ⟨rfl, rfl⟩
  refine h.ext (fun o' x hx => by rw [← (e o').1]; exact hx) ?_ ⟨[], rfl, fun _ _ _ h => by cases h⟩ (fun _ _ h => .inl h)
  intro o' x hx hk
  exact .inr (.inr ⟨by rw [(e o').2]; exact hk, by rw [(e o').1]; exact hx⟩)

theorem Y.attach {t : St} (h : Y t) (hX : X t) (h1 : OneRequest t.log) {o x : Nat} {st : List Fr} (hst : t.stack = .route o x :: st) : Y (attach t.pop o x) := by
  have hrx : x ∈ routes t.stack := by rw [hst, routes_cons_route]; exact List.mem_cons_self ..
  obtain ⟨hs, ho⟩ := hX.route o x (by rw [hst]; exact List.mem_cons_self ..)
  have no : ∀ y b, .attached y o b ∉ t.log := by
    intro y b ha
    obtain ⟨h2, h3⟩ := hX.att y o b ha
    rw [h1.1 y x o h2 hs] at h3
    exact h3 hrx
  have nctx : (t.obj o).ctx = none := by
    cases hc : (t.obj o).ctx with
    | none => rfl
    | some y => obtain ⟨-, b, hb⟩ := hX.ctx o y hc; exact absurd hb (no y b)
  have ncan : ∀ key, .cancelling o key ∉ t.stack := by
    intro key hk
    obtain ⟨-, -, y, b, hb⟩ := hX.canc o key hk
    exact no y b hb
  -- the session `o` gets `v`, the log gets `es`
  have main : ∀ (v : Sess) (es : List Ev) (b : Bool), v.c = (t.obj o).c → v.s = (t.obj o).s → (b = true → (t.keyOf o, o) ∈ t.sess) → (.hook x ∈ es ∨ v.ctx = some x) → (∀ y, v.ctx = some y → y = x) →
      (∀ y o' b', .attached y o' b' ∈ es → y = x ∧ o' = o ∧ b' = b) →
      Y { t.pop.setObj o v with log := es ++ t.log } := by
    intro v es b hvc hvs hb hx hy hes
    have eo : ∀ o', o' ≠ o → (t.pop.setObj o v).obj o' = t.obj o' := by
      intro o' hne
      rw [obj_setObj, if_neg (fun h => hne h.1.symm)]; rfl
    have eoo : (t.pop.setObj o v).obj o = v := by rw [obj_setObj, if_pos ⟨rfl, ho⟩]
    refine ⟨?_, ?_⟩
    · intro y o' ha
      rcases List.mem_append.1 ha with ha | ha
      · obtain ⟨e1, e2, e3⟩ := hes y o' true ha
        subst e1; subst e2
        rcases hx with hx | hx
        · exact .inl (List.mem_append_left _ hx)
        · refine .inr (.inr ⟨?_, ?_⟩)
          · have : ({ t.pop.setObj o' v with log := es ++ t.log } : St).keyOf o' = t.keyOf o' := by
              show (((t.pop.setObj o' v).obj o').c, ((t.pop.setObj o' v).obj o').s) = _
              rw [eoo, hvc, hvs]; rfl
            rw [this]; exact hb e3.symm
          · show ((t.pop.setObj o' v).obj o').ctx = some y
            rw [eoo]; exact hx
      · have ha : Ev.attached y o' true ∈ t.log := ha
        have hne : o' ≠ o := fun e => no y true (by rw [← e]; exact ha)
        rcases h.acc y o' ha with h2 | h2 | ⟨h2, h3⟩
        · exact .inl (List.mem_append_right _ h2)
        · exact .inr (.inl (List.mem_append_right _ h2))
        · refine .inr (.inr ⟨?_, ?_⟩)
          · have : ({ t.pop.setObj o v with log := es ++ t.log } : St).keyOf o' = t.keyOf o' := by
              show (((t.pop.setObj o v).obj o').c, ((t.pop.setObj o v).obj o').s) = _
              rw [eo o' hne]; rfl
            rw [this]; exact h2
          · show ((t.pop.setObj o v).obj o').ctx = some y
            rw [eo o' hne]; exact h3
    · intro o' key hk y hy'
      have hk : Fr.cancelling o' key ∈ t.stack := List.mem_of_mem_drop hk
      have hne : o' ≠ o := fun e => ncan key (by rw [← e]; exact hk)
      have hy' : ((t.pop.setObj o v).obj o').ctx = some y := hy'
      rw [eo o' hne] at hy'
      exact List.mem_append_right _ (h.can o' key hk y hy')
  have hb : (get t.sess (t.keyOf o) == some o) = true → (t.keyOf o, o) ∈ t.sess := by
    intro hg
    exact get_mem (by simpa using hg)
  unfold Sv3.attach
  dsimp only
  split
  · exact main { t.obj o with ctx := none } [.hook x, .attached x o (get t.sess (t.keyOf o) == some o)] _ rfl rfl hb (.inl (List.mem_cons_self ..)) (fun y h => by cases h)
      (fun y o' b' hm => by simp only [List.mem_cons, reduceCtorEq, false_or, List.not_mem_nil, or_false] at hm; cases hm; exact ⟨rfl, rfl, rfl⟩)
  · exact main { t.obj o with ctx := some x } [.attached x o (get t.sess (t.keyOf o) == some o)] _ rfl rfl hb (.inr rfl) (fun y h => by cases h; rfl)
      (fun y o' b' hm => by simp only [List.mem_cons, List.not_mem_nil, or_false] at hm; cases hm; exact ⟨rfl, rfl, rfl⟩)

theorem Y.ensure {t : St} (h : Y t) (c : Nat) : Y (ensure t c).1 := by
  unfold Sv3.ensure
  split
  · exact h
  · exact h.same rfl rfl ⟨[_], rfl, fun _ _ _ h => by cases List.mem_singleton.1 h⟩ (fun _ _ h => h)

theorem Y.reap {t : St} (h : Y t) : Y (Sv3.reap t) :=
  h.same rfl rfl ⟨_, rfl, fun _ _ _ h => by obtain ⟨x, -, e⟩ := List.mem_map.1 h; cases e⟩ (fun _ _ h => h)

theorem Y.step {t : St} (h : Y t) (hX : X t) (hR : OneRequest t.log) (i : In) : Y (step t i) := by
  cases i with
  | connected c h3 =>
    simp only [Sv3.step]
    split
    · exact h.ensure c
    · exact h.add _ (fun _ _ _ => by simp)
  | dataBegin c => exact ((h.ensure c).add _ (fun _ _ _ => by simp)).push _ (fun _ _ => by simp)
  | dataEnd =>
    simp only [Sv3.step]
    split
    · split
      · exact (h.pop.add _ (fun _ _ _ => by simp)).reap
      · exact h.pop.add _ (fun _ _ _ => by simp)
    · exact h
  | acked c =>
    simp only [Sv3.step]
    split
    · exact h.add _ (fun _ _ _ => by simp)
    · exact h
  | connClosed c => exact (h.add _ (fun _ _ _ => by simp)).push _ (fun _ _ => by simp)
  | next =>
    simp only [Sv3.step]
    split
    · rename_i c n st hst
      have key : ∀ cl : List Nat, Y { ({ t with closed := cl } : St).pop.add (.closedDone c n) with shut := t.shut.filter (· != c) } :=
        fun cl => h.same rfl rfl ⟨[_], rfl, fun _ _ _ h => by cases List.mem_singleton.1 h⟩ (fun _ _ hx => List.mem_of_mem_drop hx)
      split
      · exact key _
      · exact key t.closed
    · rename_i c key ks n st hst
      have h1 := h.pop.push (.closing c ks n) (fun _ _ => by simp)
      have h2 := hX.pop.push (.closing c ks n) trivial
      split
      · exact h1
      · rename_i o ho
        exact h1.cancelErase h2 o key (get_mem ho)
    · exact h.pop
    · split
      · exact h.pop.push _ (fun _ _ => by simp)
      · exact (h.pop.add _ (fun _ _ _ => by simp)).push _ (fun _ _ => by simp)
    · exact h
  | streamClosed c s =>
    simp only [Sv3.step]
    have h1 : Y (t.add (.streamClosed c s)) := h.add _ (fun _ _ _ => by simp)
    split
    · exact h1
    · rename_i o ho
      exact h1.cancelErase (hX.add _ rfl) o (c, s) (get_mem ho)
  | cancelEnd =>
    simp only [Sv3.step]
    split
    · rename_i o key st hst
      have hm : Fr.cancelling o key ∈ t.stack := by rw [hst]; exact List.mem_cons_self ..
      obtain ⟨hk, ho, -⟩ := hX.canc o key hm
      refine h.ext ?_ ?_ ⟨[], rfl, fun _ _ _ h => by cases h⟩ (fun _ _ hx => .inl (List.mem_of_mem_drop hx))
      · intro o' x hx
        have hx : ((t.pop.setObj o { t.pop.obj o with ctx := none }).obj o').ctx = some x := hx
        rw [obj_setObj] at hx
        split at hx
        · cases hx
        · exact hx
      · intro o' x hx hmem
        by_cases e : o' = o
        · subst e; exact .inr (.inl (h.can o' key hm x hx))
        · have eo : (t.pop.setObj o { t.pop.obj o with ctx := none }).obj o' = t.obj o' := by
            rw [obj_setObj, if_neg (fun h => e h.1.symm)]; rfl
          refine .inr (.inr ⟨mem_del.2 ⟨?_, ?_⟩, ?_⟩)
          · show (((((t.pop.setObj o { t.pop.obj o with ctx := none }).obj o').c, ((t.pop.setObj o { t.pop.obj o with ctx := none }).obj o').s), o') ∈ t.sess)
            rw [eo]; exact hmem
          · show ((((t.pop.setObj o { t.pop.obj o with ctx := none }).obj o').c, ((t.pop.setObj o { t.pop.obj o with ctx := none }).obj o').s)) ≠ key
            rw [eo, hk]
            intro e2
            have l1 := hX.sessLog o' (hX.ctx o' x hx).1
            have l2 := hX.sessLog o ho
            injection e2 with e3 e4
            rw [e3, e4] at l1
            exact e (hR.2 _ _ _ _ l1 l2)
          · show ((t.pop.setObj o { t.pop.obj o with ctx := none }).obj o').ctx = some x
            rw [eo]; exact hx
    · exact h
  | h3Closed c s =>
    have h1 : Y (t.add (.drained c s)) := h.add _ (fun _ _ _ => by simp)
    have x1 : X (t.add (.drained c s)) := hX.add _ rfl
    refine ((h1.outputDrained c s).del (c, s) ?_).maybeFinish c
    intro o ho x hx
    rw [outputDrained_none x1 c s o ho] at hx; cases hx
  | drained c s => exact (h.add _ (fun _ _ _ => by simp)).outputDrained c s
  | afterDispatch =>
    simp only [Sv3.step]
    split
    · exact h.reap
    · exact h
  | reqBegin s head =>
    simp only [Sv3.step]
    split
    · rename_i k c st hst
      have h1 := (h.ensureSession hX c s).setHead (Sv3.ensureSession t c s).2 head
      exact h1.same rfl rfl ⟨[_], rfl, fun _ _ _ h => by cases List.mem_singleton.1 h⟩ (fun o key hk => (List.mem_cons.1 hk).resolve_left (fun e => by cases e))
    · exact h
  | reqEnd found =>
    simp only [Sv3.step]
    split
    · rename_i o x st hst
      split
      · exact h.attach hX hR hst
      · exact h.pop.sendResponse ..
    · exact h
  | send o r =>
    simp only [Sv3.step]
    split
    · exact h.sendResponse ..
    · exact h
  | sendEnd ok =>
    simp only [Sv3.step]
    split
    · split
      · exact h.pop.maybeFinish _
      · exact h.pop.add _ (fun _ _ _ => by simp)
    · exact h
  | shutdown => exact (h.add _ (fun _ _ _ => by simp)).push _ (fun _ _ => by simp)
  | noticeEnd d =>
    simp only [Sv3.step]
    split
    · rename_i c k cs st hst
      have h1 : Y { ((t.pop.add (.used k .late)).add (.goaway c)).push (.shut cs) with shut := ins t.shut c } :=
        (((h.pop.add (.used k .late) (fun _ _ _ => by simp)).add (.goaway c) (fun _ _ _ => by simp)).push (.shut cs) (fun _ _ => by simp)).same rfl rfl ⟨[], rfl, fun _ _ _ h => by cases h⟩ (fun _ _ h => h)
      split
      · exact h1.add _ (fun _ _ _ => by simp)
      · exact h1
    · exact h

theorem Y.run (is : List In) (h : OneRequest (run is).log) : Y (run is) := by
  have : X (Sv3.run is) ∧ (OneRequest (Sv3.run is).log → Y (Sv3.run is)) := by
    refine invariant (P := fun t => X t ∧ (OneRequest t.log → Y t)) ⟨X.init, fun _ => ⟨fun _ _ h => (by cases h), fun _ _ h => (by cases h)⟩⟩ ?_ is
    intro t i ⟨hX, hY⟩
    refine ⟨hX.step i, fun h1 => ?_⟩
    have h0 := h1.down (Grows.step t i)
    exact (hY h0).step hX h0 i
  exact this.2 h

end Verif.Sv3
