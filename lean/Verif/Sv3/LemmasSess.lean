import Verif.Sv3.Lemmas

/-! Sessions and contexts. -/

namespace Verif.Sv3

theorem obj_setObj (t : St) (o : Nat) (v : Sess) (o' : Nat) : (t.setObj o v).obj o' = if o = o' ∧ o < t.objs.length then v else t.obj o' := by
  unfold St.obj St.setObj
  by_cases h : o = o'
  · subst h
    by_cases hl : o < t.objs.length
    · simp [hl, List.getD_eq_getElem?_getD]
    · simp [hl, List.getD_eq_getElem?_getD]
  · simp [h, List.getD_eq_getElem?_getD, List.getElem?_set]

def routes (st : List Fr) : List Nat := st.filterMap (fun f => match f with | .route _ x => some x | _ => none)

theorem mem_routes {st : List Fr} {x : Nat} : x ∈ routes st ↔ ∃ o, .route o x ∈ st := by
  unfold routes
  rw [List.mem_filterMap]
  constructor
  · rintro ⟨f, hf, h⟩
    cases f <;> first | cases h | skip
    exact ⟨_, hf⟩
  · rintro ⟨o, h⟩; exact ⟨_, h, rfl⟩

structure X (t : St) : Prop where
  key : ∀ c s o, ((c, s), o) ∈ t.sess → o < t.objs.length ∧ (t.obj o).c = c ∧ (t.obj o).s = s
  fn : Fn t.sess
  sent : ∀ o, (t.obj o).sent = true → (t.obj o).ctx = none
  ctx : ∀ o x, (t.obj o).ctx = some x → o < t.objs.length ∧ ∃ b, .attached x o b ∈ t.log
  att : ∀ x o b, .attached x o b ∈ t.log → .start x o ∈ t.log ∧ x ∉ routes t.stack
  att1 : ∀ x o b o' b', .attached x o b ∈ t.log → .attached x o' b' ∈ t.log → o = o'
  route : ∀ o x, .route o x ∈ t.stack → .start x o ∈ t.log ∧ o < t.objs.length
  routes : (routes t.stack).Nodup
  startLt : ∀ x o, .start x o ∈ t.log → x < t.nx
  held : ∀ o x, (t.obj o).ctx = some x → .hook x ∉ t.log
  hookAtt : ∀ x, .hook x ∈ t.log → ∃ o b, .attached x o b ∈ t.log
  once : ∀ x, hooks x t.log ≤ 1
  canc : ∀ o key, .cancelling o key ∈ t.stack → key = ((t.obj o).c, (t.obj o).s) ∧ o < t.objs.length ∧ ∃ x b, .attached x o b ∈ t.log
  sessLog : ∀ o, o < t.objs.length → .session o (t.obj o).c (t.obj o).s ∈ t.log

/-- Events that say nothing about sessions and contexts. -/
def Ev.dull : Ev → Bool
  | .start _ _ => false
  | .attached _ _ _ => false
  | .hook _ => false
  | _ => true

theorem hooks_dull {es : List Ev} (he : ∀ e ∈ es, e.dull = true) (x : Nat) (l : List Ev) : hooks x (es ++ l) = hooks x l := by
  unfold hooks
  rw [List.filter_append, List.length_append]
  have : es.filter (· == Ev.hook x) = [] := by
    rw [List.filter_eq_nil_iff]
    intro e h h'
    have := he e h
    rw [beq_iff_eq.1 h'] at this; cases this
  rw [this]; simp

/-- A step that starts, attaches and ends no context, and drops sessions from the table at most. -/
theorem X.ext {t t' : St} (h : X t) (hlen : t'.objs.length = t.objs.length) (hobj : ∀ o, (t'.obj o).c = (t.obj o).c ∧ (t'.obj o).s = (t.obj o).s ∧ ((t'.obj o).ctx = (t.obj o).ctx ∨ (t'.obj o).ctx = none) ∧ ((t'.obj o).sent = true → (t'.obj o).ctx = none))
    (hs : ∀ e ∈ t'.sess, e ∈ t.sess) (hn : t'.nx = t.nx) (hl : ∃ es, t'.log = es ++ t.log ∧ ∀ e ∈ es, e.dull = true)
    (hr : (Sv3.routes t'.stack).Sublist (Sv3.routes t.stack)) (hr' : ∀ o x, .route o x ∈ t'.stack → .route o x ∈ t.stack)
    (hc : ∀ o key, .cancelling o key ∈ t'.stack → .cancelling o key ∈ t.stack ∨ (key = ((t.obj o).c, (t.obj o).s) ∧ o < t.objs.length ∧ ∃ x b, .attached x o b ∈ t.log)) : X t' := by
  obtain ⟨es, e, he⟩ := hl
  have up : ∀ ev, ev ∈ t.log → ev ∈ t'.log := fun ev hv => by rw [e]; exact List.mem_append_right _ hv
  have dn : ∀ ev : Ev, ev.dull = false → ev ∈ t'.log → ev ∈ t.log := by
    intro ev hd hv
    rw [e] at hv
    rcases List.mem_append.1 hv with hv | hv
    · rw [he _ hv] at hd; cases hd
    · exact hv
  refine { key := ?_, fn := h.fn.sub hs, sent := fun o ho => (hobj o).2.2.2 ho, ctx := ?_, att := ?_, att1 := ?_, route := ?_, routes := h.routes.sublist hr, startLt := ?_, held := ?_, hookAtt := ?_, once := ?_, canc := ?_, sessLog := ?_ }
  · intro c s o ho
    have := h.key c s o (hs _ ho)
    rw [hlen, (hobj o).1, (hobj o).2.1]; exact this
  · intro o x hx
    rcases (hobj o).2.2.1 with h1 | h1
    · rw [h1] at hx
      obtain ⟨h2, b, h3⟩ := h.ctx o x hx
      exact ⟨by rw [hlen]; exact h2, b, up _ h3⟩
    · rw [h1] at hx; cases hx
  · intro x o b hx
    obtain ⟨h1, h2⟩ := h.att x o b (dn _ rfl hx)
    exact ⟨up _ h1, fun h3 => h2 (hr.subset h3)⟩
  · intro x o b o' b' h1 h2
    exact h.att1 x o b o' b' (dn _ rfl h1) (dn _ rfl h2)
  · intro o x hx
    obtain ⟨h1, h2⟩ := h.route o x (hr' o x hx)
    exact ⟨up _ h1, by rw [hlen]; exact h2⟩
  · intro x o hx
    rw [hn]; exact h.startLt x o (dn _ rfl hx)
  · intro o x hx hh
    rcases (hobj o).2.2.1 with h1 | h1
    · rw [h1] at hx; exact h.held o x hx (dn _ rfl hh)
    · rw [h1] at hx; cases hx
  · intro x hx
    obtain ⟨o, b, h1⟩ := h.hookAtt x (dn _ rfl hx)
    exact ⟨o, b, up _ h1⟩
  · intro x
    rw [e, hooks_dull he]; exact h.once x
  · intro o key hk
    have : key = ((t.obj o).c, (t.obj o).s) ∧ o < t.objs.length ∧ ∃ x b, .attached x o b ∈ t.log := by
      rcases hc o key hk with h1 | h1
      · exact h.canc o key h1
      · exact h1
    obtain ⟨h1, h2, x, b, h3⟩ := this
    exact ⟨by rw [(hobj o).1, (hobj o).2.1]; exact h1, by rw [hlen]; exact h2, x, b, up _ h3⟩
  · intro o ho
    rw [hlen] at ho
    rw [(hobj o).1, (hobj o).2.1]; exact up _ (h.sessLog o ho)

theorem X.same {t : St} (h : X t) (o : Nat) : (t.obj o).c = (t.obj o).c ∧ (t.obj o).s = (t.obj o).s ∧ ((t.obj o).ctx = (t.obj o).ctx ∨ (t.obj o).ctx = none) ∧ ((t.obj o).sent = true → (t.obj o).ctx = none) :=
  ⟨rfl, rfl, .inl rfl, h.sent o⟩

/-- Sessions, table and stack stay. -/
theorem X.log {t t' : St} (h : X t) (ho : t'.objs = t.objs) (hs : t'.sess = t.sess) (hn : t'.nx = t.nx) (hst : t'.stack = t.stack) (hl : ∃ es, t'.log = es ++ t.log ∧ ∀ e ∈ es, e.dull = true) : X t' :=
  h.ext (by rw [ho]) (fun o => by have := h.same o; simpa [St.obj, ho] using this) (fun e he => by rw [← hs]; exact he) hn hl (by rw [hst]; exact List.Sublist.refl _) (fun o x hx => by rw [← hst]; exact hx) (fun o k hk => .inl (by rw [← hst]; exact hk))

theorem X.add {t : St} (h : X t) (e : Ev) (he : e.dull = true) : X (t.add e) := h.log rfl rfl rfl rfl ⟨[e], rfl, fun x hx => by rw [List.mem_singleton] at hx; rw [hx]; exact he⟩

theorem X.pop {t : St} (h : X t) : X t.pop :=
  h.ext rfl h.same (fun _ h => h) rfl ⟨[], rfl, fun _ h => by cases h⟩ ((List.drop_sublist 1 t.stack).filterMap _) (fun _ _ hx => List.mem_of_mem_drop hx) (fun _ _ hx => .inl (List.mem_of_mem_drop hx))

/-- A call that is neither a request nor a cancellation. -/
theorem X.push {t : St} (h : X t) (f : Fr) (hf : match f with | .route _ _ => False | .cancelling _ _ => False | _ => True) : X (t.push f) := by
  refine h.ext rfl h.same (fun _ h => h) rfl ⟨[], rfl, fun _ h => by cases h⟩ ?_ ?_ ?_
  · cases f <;> first | exact List.Sublist.refl _ | cases hf
  · intro o x hx
    rcases List.mem_cons.1 hx with hx | hx
    · rw [← hx] at hf; cases hf
    · exact hx
  · intro o k hx
    rcases List.mem_cons.1 hx with hx | hx
    · rw [← hx] at hf; cases hf
    · exact .inl hx

theorem X.del {t : St} (h : X t) (key : Nat × Nat) : X { t with sess := del t.sess key } :=
  h.ext rfl h.same (fun _ he => (mem_del.1 he).1) rfl ⟨[], rfl, fun _ h => by cases h⟩ (List.Sublist.refl _) (fun _ _ h => h) (fun _ _ h => .inl h)

/-- A session is given new flags. -/
theorem X.setObj {t : St} (h : X t) (o : Nat) (v : Sess) (h1 : v.c = (t.obj o).c) (h2 : v.s = (t.obj o).s) (h3 : v.ctx = (t.obj o).ctx ∨ v.ctx = none) (h4 : v.sent = true → v.ctx = none) : X (t.setObj o v) := by
  refine h.ext (by simp [St.setObj]) ?_ (fun _ h => h) rfl ⟨[], rfl, fun _ h => by cases h⟩ (List.Sublist.refl _) (fun _ _ h => h) (fun _ _ h => .inl h)
  intro o'
  rw [obj_setObj]
  split
  · rename_i e; rw [← e.1]; exact ⟨h1, h2, h3, h4⟩
  · exact h.same o'

theorem X.hook {t : St} (h : X t) (x : Nat) (ha : ∃ o b, .attached x o b ∈ t.log) (hh : .hook x ∉ t.log) (hn : ∀ o, (t.obj o).ctx ≠ some x) : X (t.add (.hook x)) := by
  have up : ∀ ev, ev ∈ t.log → ev ∈ (t.add (.hook x)).log := fun ev hv => List.mem_cons_of_mem _ hv
  have dn : ∀ ev, ev ≠ .hook x → ev ∈ (t.add (.hook x)).log → ev ∈ t.log := fun ev hd hv => (List.mem_cons.1 hv).resolve_left hd
  refine { key := h.key, fn := h.fn, sent := h.sent, ctx := ?_, att := ?_, att1 := ?_, route := ?_, routes := h.routes, startLt := ?_, held := ?_, hookAtt := ?_, once := ?_, canc := ?_, sessLog := ?_ }
  · intro o y hy
    obtain ⟨h1, b, h2⟩ := h.ctx o y hy
    exact ⟨h1, b, up _ h2⟩
  · intro y o b hy
    obtain ⟨h1, h2⟩ := h.att y o b (dn _ (by simp) hy)
    exact ⟨up _ h1, h2⟩
  · intro y o b o' b' h1 h2; exact h.att1 y o b o' b' (dn _ (by simp) h1) (dn _ (by simp) h2)
  · intro o y hy
    obtain ⟨h1, h2⟩ := h.route o y hy
    exact ⟨up _ h1, h2⟩
  · intro y o hy; exact h.startLt y o (dn _ (by simp) hy)
  · intro o y hy hh'
    rcases List.mem_cons.1 hh' with e | hh'
    · cases e; exact hn o hy
    · exact h.held o y hy hh'
  · intro y hy
    rcases List.mem_cons.1 hy with e | hy
    · cases e; obtain ⟨o, b, h1⟩ := ha; exact ⟨o, b, up _ h1⟩
    · obtain ⟨o, b, h1⟩ := h.hookAtt y hy; exact ⟨o, b, up _ h1⟩
  · intro y
    show hooks y (.hook x :: t.log) ≤ 1
    unfold hooks
    rw [List.filter_cons]
    split
    · rename_i e
      have e : x = y := by simpa using e
      subst e
      have : t.log.filter (· == Ev.hook x) = [] := by
        rw [List.filter_eq_nil_iff]
        intro e he h'
        rw [beq_iff_eq.1 h'] at he; exact hh he
      rw [this]; simp
    · exact h.once y
  · intro o key hk
    obtain ⟨h1, h2, y, b, h3⟩ := h.canc o key hk
    exact ⟨h1, h2, y, b, up _ h3⟩
  · intro o ho; exact up _ (h.sessLog o ho)

theorem X.markSent {t : St} (h : X t) (o : Nat) : X (markSent t o) := by
  unfold Sv3.markSent
  split
  · exact h
  split
  · rename_i hx
    exact h.setObj o _ rfl rfl (.inr hx) (fun _ => hx)
  · rename_i x hx
    obtain ⟨hl, b, hb⟩ := h.ctx o x hx
    refine (h.setObj o { t.obj o with sent := true, ctx := none } rfl rfl (.inr rfl) (fun _ => rfl)).hook x ⟨o, b, hb⟩ (h.held o x hx) ?_
    intro o'
    rw [obj_setObj]
    split
    · simp
    · rename_i e
      intro hx'
      obtain ⟨-, b', hb'⟩ := h.ctx o' x hx'
      exact e ⟨h.att1 x o b o' b' hb hb', hl⟩

theorem X.maybeFinish {t : St} (h : X t) (c : Nat) : X (maybeFinish t c) := by
  unfold Sv3.maybeFinish
  split
  · exact h
  split
  · exact h
  · exact h.add _ rfl

theorem X.outputDrained {t : St} (h : X t) (c s : Nat) : X (outputDrained t c s) := by
  unfold Sv3.outputDrained
  split
  · exact (h.markSent _).maybeFinish c
  · exact h.maybeFinish c

theorem X.cancelErase {t : St} (h : X t) (o : Nat) (key : Nat × Nat) (hk : (key, o) ∈ t.sess) : X (cancelErase t o key) := by
  unfold Sv3.cancelErase
  split
  · exact h.del key
  · rename_i x hx
    refine (h.add (.cancel x) rfl).ext rfl (h.add (.cancel x) rfl).same (fun _ h => h) rfl ⟨[], rfl, fun _ h => by cases h⟩ (List.Sublist.refl _) ?_ ?_
    · intro o' x' hx'
      rcases List.mem_cons.1 hx' with e | hx'
      · cases e
      · exact hx'
    · intro o' k' hk'
      rcases List.mem_cons.1 hk' with e | hk'
      · cases e
        obtain ⟨h1, h2, h3⟩ := h.key key.1 key.2 o hk
        obtain ⟨-, b, hb⟩ := h.ctx o x hx
        refine .inr ⟨?_, h1, x, b, List.mem_cons_of_mem _ hb⟩
        show key = ((t.obj o).c, (t.obj o).s)
        rw [h2, h3]
      · exact .inl hk'

theorem X.sendResponse {t : St} (h : X t) (c s : Nat) (r : Resp) : X (sendResponse t c s r) := by
  unfold Sv3.sendResponse
  split
  · exact h.add _ rfl
  · exact ((h.add _ rfl).add _ rfl).push _ trivial

theorem routes_cons_route (o x : Nat) (st : List Fr) : routes (.route o x :: st) = x :: routes st := rfl

/-- The context of a request is attached. -/
theorem X.attached {t : St} (h : X t) {o x : Nat} {st : List Fr} (hst : t.stack = .route o x :: st) (b : Bool) : X (t.pop.add (.attached x o b)) := by
  have hpop : t.pop.stack = st := by show t.stack.drop 1 = st; rw [hst]; rfl
  have hnd := h.routes
  rw [hst, routes_cons_route, List.nodup_cons] at hnd
  have hrx : x ∈ Sv3.routes t.stack := by rw [hst, routes_cons_route]; exact List.mem_cons_self ..
  obtain ⟨hs, ho⟩ := h.route o x (by rw [hst]; exact List.mem_cons_self ..)
  have up : ∀ ev, ev ∈ t.log → ev ∈ (t.pop.add (.attached x o b)).log := fun ev hv => List.mem_cons_of_mem _ hv
  have h0 := h.pop
  have dn : ∀ ev, (∀ o b, ev ≠ .attached x o b) → ev ∈ (t.pop.add (.attached x o b)).log → ev ∈ t.log := fun ev hd hv => (List.mem_cons.1 hv).resolve_left (hd o b)
  refine { key := h.key, fn := h.fn, sent := h.sent, ctx := ?_, att := ?_, att1 := ?_, route := ?_, routes := h0.routes, startLt := ?_, held := ?_, hookAtt := ?_, once := ?_, canc := ?_, sessLog := ?_ }
  · intro o' y hy
    obtain ⟨h1, b', h2⟩ := h.ctx o' y hy
    exact ⟨h1, b', up _ h2⟩
  · intro y o' b' hy
    rcases List.mem_cons.1 hy with e | hy
    · cases e
      refine ⟨up _ hs, ?_⟩
      show x ∉ Sv3.routes t.pop.stack
      rw [hpop]; exact hnd.1
    · obtain ⟨h1, h2⟩ := h0.att y o' b' hy
      exact ⟨up _ h1, h2⟩
  · intro y o1 b1 o2 b2 h1 h2
    rcases List.mem_cons.1 h1 with e | h1 <;> rcases List.mem_cons.1 h2 with e' | h2
    · cases e; cases e'; rfl
    · cases e; exact absurd hrx (h.att x o2 b2 h2).2
    · cases e'; exact absurd hrx (h.att x o1 b1 h1).2
    · exact h.att1 y o1 b1 o2 b2 h1 h2
  · intro o' y hy
    obtain ⟨h1, h2⟩ := h0.route o' y hy
    exact ⟨up _ h1, h2⟩
  · intro y o' hy; exact h.startLt y o' (dn _ (fun _ _ => by simp) hy)
  · intro o' y hy hh; exact h.held o' y hy (dn _ (fun _ _ => by simp) hh)
  · intro y hy
    obtain ⟨o', b', h1⟩ := h.hookAtt y (dn _ (fun _ _ => by simp) hy)
    exact ⟨o', b', up _ h1⟩
  · intro y
    show hooks y (.attached x o b :: t.log) ≤ 1
    unfold hooks
    rw [List.filter_cons, if_neg (by simp)]
    exact h.once y
  · intro o' key hk
    obtain ⟨h1, h2, y, b', h3⟩ := h0.canc o' key hk
    exact ⟨h1, h2, y, b', up _ h3⟩
  · intro o' ho'; exact up _ (h.sessLog o' ho')

theorem X.setCtx {t : St} (h : X t) {o x : Nat} {b : Bool} (ha : .attached x o b ∈ t.log) (hh : .hook x ∉ t.log) (hs : (t.obj o).sent = false) (ho : o < t.objs.length) : X (t.setObj o { t.obj o with ctx := some x }) := by
  have eo : ∀ o', (t.setObj o { t.obj o with ctx := some x }).obj o' = if o = o' then { t.obj o with ctx := some x } else t.obj o' := by
    intro o'; rw [obj_setObj]; simp [ho]
  have cs : ∀ o', ((t.setObj o { t.obj o with ctx := some x }).obj o').c = (t.obj o').c ∧ ((t.setObj o { t.obj o with ctx := some x }).obj o').s = (t.obj o').s := by
    intro o'; rw [eo]; split
    · rename_i e; subst e; exact ⟨rfl, rfl⟩
    · exact ⟨rfl, rfl⟩
  have len : (t.setObj o { t.obj o with ctx := some x }).objs.length = t.objs.length := by simp [St.setObj]
  refine { key := ?_, fn := h.fn, sent := ?_, ctx := ?_, att := h.att, att1 := h.att1, route := ?_, routes := h.routes, startLt := h.startLt, held := ?_, hookAtt := h.hookAtt, once := h.once, canc := ?_, sessLog := ?_ }
  · intro c s o' ho'
    rw [len, (cs o').1, (cs o').2]; exact h.key c s o' ho'
  · intro o' hs'
    rw [eo] at hs' ⊢
    split at hs'
    · rw [hs] at hs'; cases hs'
    · rename_i e; rw [if_neg e]; exact h.sent o' hs'
  · intro o' y hy
    rw [eo] at hy
    rw [len]
    split at hy
    · rename_i e; subst e; cases hy; exact ⟨ho, b, ha⟩
    · exact h.ctx o' y hy
  · intro o' y hy
    rw [len]; exact h.route o' y hy
  · intro o' y hy
    rw [eo] at hy
    split at hy
    · cases hy; exact hh
    · exact h.held o' y hy
  · intro o' key hk
    rw [len, (cs o').1, (cs o').2]; exact h.canc o' key hk
  · intro o' ho'
    rw [(cs o').1, (cs o').2]; exact h.sessLog o' (by rw [len] at ho'; exact ho')

theorem X.attach {t : St} (h : X t) {o x : Nat} {st : List Fr} (hst : t.stack = .route o x :: st) : X (attach t.pop o x) := by
  have hrx : x ∈ Sv3.routes t.stack := by rw [hst, routes_cons_route]; exact List.mem_cons_self ..
  obtain ⟨-, ho⟩ := h.route o x (by rw [hst]; exact List.mem_cons_self ..)
  have nh : .hook x ∉ t.log := by
    intro hh
    obtain ⟨o', b, ha⟩ := h.hookAtt x hh
    exact (h.att x o' b ha).2 hrx
  unfold Sv3.attach
  dsimp only
  generalize (get t.pop.sess ((t.pop.obj o).c, (t.pop.obj o).s) == some o) = b
  have h1 := h.attached hst b
  have ha : Ev.attached x o b ∈ (t.pop.add (.attached x o b)).log := List.mem_cons_self ..
  have nh1 : Ev.hook x ∉ (t.pop.add (.attached x o b)).log := by
    intro hh
    rcases List.mem_cons.1 hh with e | hh
    · cases e
    · exact nh hh
  split
  · refine (h1.setObj o { (t.pop.add (.attached x o b)).obj o with ctx := none } rfl rfl (.inr rfl) (fun _ => rfl)).hook x ⟨o, b, ha⟩ nh1 ?_
    intro o'
    rw [obj_setObj]
    split
    · simp
    · intro hx
      obtain ⟨-, b', hb'⟩ := h.ctx o' x hx
      exact (h.att x o' b' hb').2 hrx
  · rename_i hs
    exact h1.setCtx ha nh1 (by simpa using hs) ho

theorem X.ensureSession {t : St} (h : X t) (c s : Nat) : X (ensureSession t c s).1 ∧ ((c, s), (ensureSession t c s).2) ∈ (ensureSession t c s).1.sess := by
  unfold Sv3.ensureSession
  cases hg : get t.sess (c, s) with
  | some o => exact ⟨h, get_mem hg⟩
  | none =>
    dsimp only
    refine ⟨?_, by simp⟩
    have up : ∀ ev, ev ∈ t.log → ev ∈ Ev.session t.objs.length c s :: t.log := fun ev hv => List.mem_cons_of_mem _ hv
    have dn : ∀ ev, (∀ o c s, ev ≠ .session o c s) → ev ∈ Ev.session t.objs.length c s :: t.log → ev ∈ t.log := fun ev hd hv => (List.mem_cons.1 hv).resolve_left (hd _ _ _)
    have eo : ∀ o, St.obj { t.add (.session t.objs.length c s) with objs := t.objs ++ [{ c := c, s := s }], sess := t.sess ++ [((c, s), t.objs.length)] } o = if o = t.objs.length then { c := c, s := s } else t.obj o := by
      intro o
      show (t.objs ++ [({ c := c, s := s } : Sess)]).getD o {} = _
      unfold St.obj
      simp only [List.getD_eq_getElem?_getD]
      by_cases ho : o < t.objs.length
      · rw [List.getElem?_append_left ho, if_neg (by omega)]
      · rw [List.getElem?_append_right (by omega)]
        by_cases he : o = t.objs.length
        · simp [he]
        · rw [if_neg he, List.getElem?_eq_none (by simp; omega), List.getElem?_eq_none (by omega)]
    have eold : ∀ o, o < t.objs.length → St.obj { t.add (.session t.objs.length c s) with objs := t.objs ++ [{ c := c, s := s }], sess := t.sess ++ [((c, s), t.objs.length)] } o = t.obj o := fun o ho => by rw [eo, if_neg (by omega)]
    have ectx : ∀ o x, (St.obj { t.add (.session t.objs.length c s) with objs := t.objs ++ [{ c := c, s := s }], sess := t.sess ++ [((c, s), t.objs.length)] } o).ctx = some x → (t.obj o).ctx = some x := by
      intro o x hx
      rw [eo] at hx
      split at hx
      · cases hx
      · exact hx
    have len : (t.objs ++ [({ c := c, s := s } : Sess)]).length = t.objs.length + 1 := by simp
    refine { key := ?_, fn := h.fn.snoc hg, sent := ?_, ctx := ?_, att := ?_, att1 := ?_, route := ?_, routes := h.routes, startLt := ?_, held := ?_, hookAtt := ?_, once := ?_, canc := ?_, sessLog := ?_ }
    · intro c' s' o ho
      simp only [List.mem_append, List.mem_singleton, Prod.mk.injEq] at ho
      rw [len]
      rcases ho with ho | ⟨⟨rfl, rfl⟩, rfl⟩
      · have := h.key c' s' o ho
        rw [eold o this.1]; exact ⟨by omega, this.2⟩
      · rw [eo, if_pos rfl]; exact ⟨by omega, rfl, rfl⟩
    · intro o ho
      rw [eo] at ho ⊢
      split at ho
      · cases ho
      · rename_i e; rw [if_neg e]; exact h.sent o ho
    · intro o x hx
      obtain ⟨h1, b, h2⟩ := h.ctx o x (ectx o x hx)
      exact ⟨by rw [len]; omega, b, up _ h2⟩
    · intro x o b hx
      obtain ⟨h1, h2⟩ := h.att x o b (dn _ (fun _ _ _ => by simp) hx)
      exact ⟨up _ h1, h2⟩
    · intro x o b o' b' h1 h2
      exact h.att1 x o b o' b' (dn _ (fun _ _ _ => by simp) h1) (dn _ (fun _ _ _ => by simp) h2)
    · intro o x hx
      obtain ⟨h1, h2⟩ := h.route o x hx
      exact ⟨up _ h1, by rw [len]; omega⟩
    · intro x o hx; exact h.startLt x o (dn _ (fun _ _ _ => by simp) hx)
    · intro o x hx hh; exact h.held o x (ectx o x hx) (dn _ (fun _ _ _ => by simp) hh)
    · intro x hx
      obtain ⟨o, b, h1⟩ := h.hookAtt x (dn _ (fun _ _ _ => by simp) hx)
      exact ⟨o, b, up _ h1⟩
    · intro x
      show hooks x (.session t.objs.length c s :: t.log) ≤ 1
      unfold hooks
      rw [List.filter_cons, if_neg (by simp)]
      exact h.once x
    · intro o key hk
      obtain ⟨h1, h2, x, b, h3⟩ := h.canc o key hk
      rw [eold o h2]
      exact ⟨h1, by rw [len]; omega, x, b, up _ h3⟩
    · intro o ho
      rw [len] at ho
      by_cases he : o = t.objs.length
      · rw [eo, if_pos he, he]; exact List.mem_cons_self ..
      · rw [eold o (by omega)]; exact up _ (h.sessLog o (by omega))

/-- A request is routed. -/
theorem X.start {t : St} (h : X t) (o : Nat) (ho : o < t.objs.length) : X { (t.add (.start t.nx o)).push (.route o t.nx) with nx := t.nx + 1 } := by
  have up : ∀ ev, ev ∈ t.log → ev ∈ Ev.start t.nx o :: t.log := fun ev hv => List.mem_cons_of_mem _ hv
  have dn : ∀ ev, ev ≠ .start t.nx o → ev ∈ Ev.start t.nx o :: t.log → ev ∈ t.log := fun ev hd hv => (List.mem_cons.1 hv).resolve_left hd
  have fresh : ∀ x, x ∈ Sv3.routes t.stack → x < t.nx := by
    intro x hx
    obtain ⟨o', hx⟩ := mem_routes.1 hx
    exact h.startLt x o' (h.route o' x hx).1
  refine { key := h.key, fn := h.fn, sent := h.sent, ctx := ?_, att := ?_, att1 := ?_, route := ?_, routes := ?_, startLt := ?_, held := ?_, hookAtt := ?_, once := ?_, canc := ?_, sessLog := ?_ }
  · intro o' x hx
    obtain ⟨h1, b, h2⟩ := h.ctx o' x hx
    exact ⟨h1, b, up _ h2⟩
  · intro x o' b hx
    obtain ⟨h1, h2⟩ := h.att x o' b (dn _ (by simp) hx)
    refine ⟨up _ h1, ?_⟩
    show x ∉ Sv3.routes (.route o t.nx :: t.stack)
    rw [routes_cons_route, List.mem_cons]
    rintro (e | h3)
    · have := h.startLt x o' h1; omega
    · exact h2 h3
  · intro x o1 b o2 b' h1 h2
    exact h.att1 x o1 b o2 b' (dn _ (by simp) h1) (dn _ (by simp) h2)
  · intro o' x hx
    rcases List.mem_cons.1 hx with e | hx
    · cases e; exact ⟨List.mem_cons_self .., ho⟩
    · obtain ⟨h1, h2⟩ := h.route o' x hx
      exact ⟨up _ h1, h2⟩
  · show (Sv3.routes (.route o t.nx :: t.stack)).Nodup
    rw [routes_cons_route, List.nodup_cons]
    exact ⟨fun hx => by have := fresh _ hx; omega, h.routes⟩
  · intro x o' hx
    show x < t.nx + 1
    rcases List.mem_cons.1 hx with e | hx
    · cases e; omega
    · have := h.startLt x o' hx; omega
  · intro o' x hx hh; exact h.held o' x hx (dn _ (by simp) hh)
  · intro x hx
    obtain ⟨o', b, h1⟩ := h.hookAtt x (dn _ (by simp) hx)
    exact ⟨o', b, up _ h1⟩
  · intro x
    show hooks x (.start t.nx o :: t.log) ≤ 1
    unfold hooks
    rw [List.filter_cons, if_neg (by simp)]
    exact h.once x
  · intro o' key hk
    rcases List.mem_cons.1 hk with e | hk
    · cases e
    · obtain ⟨h1, h2, x, b, h3⟩ := h.canc o' key hk
      exact ⟨h1, h2, x, b, up _ h3⟩
  · intro o' ho'; exact up _ (h.sessLog o' ho')

theorem X.conns {t t' : St} (h : X t) (ho : t'.objs = t.objs) (hs : t'.sess = t.sess) (hn : t'.nx = t.nx) (hst : t'.stack = t.stack) (hl : t'.log = t.log) : X t' :=
  h.log ho hs hn hst ⟨[], hl, fun _ h => by cases h⟩

theorem X.ensure {t : St} (h : X t) (c : Nat) : X (ensure t c).1 := by
  unfold Sv3.ensure
  split
  · exact h
  · exact h.log rfl rfl rfl rfl ⟨[_], rfl, fun e he => by rw [List.mem_singleton] at he; rw [he]; rfl⟩

theorem X.reap {t : St} (h : X t) : X (Sv3.reap t) :=
  h.log rfl rfl rfl rfl ⟨_, rfl, fun e he => by obtain ⟨x, -, rfl⟩ := List.mem_map.1 he; rfl⟩

theorem X.step {t : St} (h : X t) (i : In) : X (step t i) := by
  cases i with
  | connected c h3 =>
    simp only [Sv3.step]
    split
    · exact h.ensure c
    · exact h.add _ rfl
  | dataBegin c => exact ((h.ensure c).add _ rfl).push _ trivial
  | dataEnd =>
    simp only [Sv3.step]
    split
    · split
      · exact (h.pop.add _ rfl).reap
      · exact h.pop.add _ rfl
    · exact h
  | acked c =>
    simp only [Sv3.step]
    split
    · exact h.add _ rfl
    · exact h
  | connClosed c => exact (h.add _ rfl).push _ trivial
  | next =>
    simp only [Sv3.step]
    split
    · rename_i c n st hst
      have key : ∀ cl : List Nat, X { ({ t with closed := cl } : St).pop.add (.closedDone c n) with shut := t.shut.filter (· != c) } :=
        fun cl => (h.pop.add (.closedDone c n) rfl).conns rfl rfl rfl rfl rfl
      split
      · exact key _
      · exact key t.closed
    · rename_i c key ks n st hst
      have h1 := h.pop.push (.closing c ks n) trivial
      split
      · exact h1
      · rename_i o ho
        exact h1.cancelErase o key (get_mem ho)
    · exact h.pop
    · split
      · exact h.pop.push _ trivial
      · exact (h.pop.add _ rfl).push _ trivial
    · exact h
  | streamClosed c s =>
    simp only [Sv3.step]
    have h1 : X (t.add (.streamClosed c s)) := h.add _ rfl
    split
    · exact h1
    · rename_i o ho
      exact h1.cancelErase o (c, s) (get_mem ho)
  | cancelEnd =>
    simp only [Sv3.step]
    split
    · rename_i o key st hst
      exact (h.pop.setObj o { t.pop.obj o with ctx := none } rfl rfl (.inr rfl) (fun _ => rfl)).del _
    · exact h
  | h3Closed c s => exact (((h.add _ rfl).outputDrained c s).del (c, s)).maybeFinish c
  | drained c s => exact (h.add _ rfl).outputDrained c s
  | afterDispatch =>
    simp only [Sv3.step]
    split
    · exact h.reap
    · exact h
  | reqBegin s head =>
    simp only [Sv3.step]
    split
    · rename_i k c st hst
      obtain ⟨h1, h2⟩ := h.ensureSession c s
      have ho := (h1.key _ _ _ h2).1
      have h3 := h1.setObj (Sv3.ensureSession t c s).2 { (Sv3.ensureSession t c s).1.obj (Sv3.ensureSession t c s).2 with head := head } rfl rfl (.inl rfl) (h1.sent _)
      exact h3.start (Sv3.ensureSession t c s).2 (by simpa [St.setObj] using ho)
    · exact h
  | reqEnd found =>
    simp only [Sv3.step]
    split
    · rename_i o x st hst
      split
      · exact h.attach hst
      · exact h.pop.sendResponse ..
    · exact h
  | send o r =>
    simp only [Sv3.step]
    split
    · exact h.sendResponse ..
    · exact h
  | sendEnd ok =>
    simp only [Sv3.step]
    split
    · split
      · exact h.pop.maybeFinish _
      · exact h.pop.add _ rfl
    · exact h
  | shutdown => exact (h.add _ rfl).push _ trivial
  | noticeEnd d =>
    simp only [Sv3.step]
    split
    · rename_i c k cs st hst
      have h1 : X { ((t.pop.add (.used k .late)).add (.goaway c)).push (.shut cs) with shut := ins t.shut c } :=
        (((h.pop.add (.used k .late) rfl).add (.goaway c) rfl).push (.shut cs) trivial).conns rfl rfl rfl rfl rfl
      split
      · exact h1.add _ rfl
      · exact h1
    · exact h

theorem X.init : X {} where
  key := fun _ _ _ h => by cases h
  fn := fun _ _ _ h => by cases h
  sent := fun _ h => by cases h
  ctx := fun _ _ h => by cases h
  att := fun _ _ _ h => by cases h
  att1 := fun _ _ _ _ _ h => by cases h
  route := fun _ _ h => by cases h
  routes := List.nodup_nil
  startLt := fun _ _ h => by cases h
  held := fun _ _ h => by cases h
  hookAtt := fun _ h => by cases h
  once := fun _ => by simp [hooks]
  canc := fun _ _ h => by cases h
  sessLog := fun _ h => by cases h

theorem X.run (is : List In) : X (run is) := invariant X.init (fun _ i h => h.step i) is

end Verif.Sv3
