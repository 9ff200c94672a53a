import Verif.Srv.Rest3

/-! # Streams at rest: receiving -/

namespace Verif.Srv
open Verif.Stream

variable {x : Ext}

/-- Every other client stream stays in order. -/
def Others (sid : Nat) (c c' : Conn x) : Prop := ∀ k, k % 2 = 1 → k ≠ sid → At c k Act1 → At c' k Act1

theorem Fr.others {sid : Nat} {c c' : Conn x} (h : Fr sid c c') : Others sid c c' := fun _ ho hk => h.at ho hk

theorem Others.trans {sid : Nat} {a b c : Conn x} (h : Others sid a b) (k : Others sid b c) : Others sid a c :=
  fun j ho e p => k j ho e (h j ho e p)

theorem Others.refl {sid : Nat} {c : Conn x} : Others sid c c := fun _ _ _ h => h

theorem at_b {c : Conn x} {k : Nat} (h : At c k Act1) : At c k (ActB false) := h.mono (fun _ => Or.inl)
theorem at_unb {c : Conn x} {k : Nat} (h : At c k (ActB false)) : At c k Act1 := h.mono (fun _ h => h.resolve_right (fun z => by cases z.1))

theorem Inv0.upd {c : Conn x} (hi : Inv0 c) (sid : Nat) {f : SStream → SStream} (k : ∀ s, (f s).id = s.id) (h1 : ∀ s, StateOk s → StateOk (f s))
    (h2 : ∀ s, (f s).headersMain = true → s.headersMain = true ∨ sid % 2 = 1) : Inv0 (c.upd sid f) := by
  refine ⟨fun j t ht => ?_, fun j t ht hm => ?_, hi.cur, ?_⟩
  · rcases find_upd_some (c := c) ht k with ⟨_, u, hu, e⟩ | ⟨_, hu⟩
    · subst e; exact h1 u (hi.state _ _ hu)
    · exact hi.state _ _ hu
  · rcases find_upd_some (c := c) ht k with ⟨e', u, hu, e⟩ | ⟨_, hu⟩
    · subst e; subst e'
      rcases h2 u hm with h | h
      · exact hi.odd j u hu h
      · exact h
    · exact hi.odd j t hu hm
  · rw [upd_ids c sid f (keeps_with k)]; exact hi.nodup

theorem StateOk.same {s s' : SStream} (k : StateOk s)
    (e : (s'.state, s'.endSent, s'.endRecv, s'.rstSent, s'.rstRecv) = (s.state, s.endSent, s.endRecv, s.rstSent, s.rstRecv)) : StateOk s' := by
  simp only [Prod.mk.injEq] at e
  obtain ⟨e1, e2, e3, e4, e5⟩ := e
  exact ⟨by rw [e1, e2]; exact k.sent, by rw [e1, e2]; exact k.hcl, by rw [e1, e3]; exact k.hcr, by rw [e1]; exact k.local_,
    by rw [e1, e2, e3, e4, e5]; exact k.closed⟩

/-! ## dispatch -/

/-- After the request callback was entered. -/
theorem handler_rest (c : Conn x) (sid : Nat) (h : Script) (ho : sid % 2 = 1) (hm : 0 < c.peerMaxFrame) (hi : Inv0 c)
    (hd : ∀ s, c.find sid = some s → s.dispatched = true)
    (ha : (if h.throws = true then sendRst (h.acts.foldl act c) sid INTERNAL_ERROR false
      else match (h.acts.foldl act c).find sid with
        | none => h.acts.foldl act c
        | some s => if s.state == .closed then tryClose (h.acts.foldl act c) sid else h.acts.foldl act c).alive = true) :
    Others sid c (if h.throws = true then sendRst (h.acts.foldl act c) sid INTERNAL_ERROR false
      else match (h.acts.foldl act c).find sid with
        | none => h.acts.foldl act c
        | some s => if s.state == .closed then tryClose (h.acts.foldl act c) sid else h.acts.foldl act c) ∧
    (At c sid (ActB true) → At (if h.throws = true then sendRst (h.acts.foldl act c) sid INTERNAL_ERROR false
      else match (h.acts.foldl act c).find sid with
        | none => h.acts.foldl act c
        | some s => if s.state == .closed then tryClose (h.acts.foldl act c) sid else h.acts.foldl act c) sid Act2) := by
  have p2 : Path (h.acts.foldl act c) [] (if h.throws = true then sendRst (h.acts.foldl act c) sid INTERNAL_ERROR false
      else match (h.acts.foldl act c).find sid with
        | none => h.acts.foldl act c
        | some s => if s.state == .closed then tryClose (h.acts.foldl act c) sid else h.acts.foldl act c) := by
    split
    · exact path_sendRst _ _ _ _
    · exact path_closeTail _ _
  have ha1 := alive_path p2 ha
  have t0 := tame_acts false h.acts hm hi ha1
  have t1 := tame_acts true h.acts hm hi ha1
  have hd' : ∀ s, (h.acts.foldl act c).find sid = some s → s.dispatched = true := by
    intro s hs
    obtain ⟨ls, sl, p⟩ := path_acts h.acts c
    obtain ⟨t, ht, k⟩ := path_later p ho (labs_opened (isApp_acts sl)) hs
    exact k.dispatched (hd t ht)
  generalize h.acts.foldl act c = d at *
  refine ⟨fun k hk hne hat => ?_, fun hat => ?_⟩
  · have := at_unb (t0 k hk (at_b hat))
    split
    · exact (fr_sendRst _ _ _ _).at hk hne this
    · exact (fr_closeTail _ _).at hk hne this
  · have hat := t1 sid ho hat
    split
    · unfold sendRst
      rw [if_neg (by rw [(alive_iff.mp ha1).2]; simp)]
      simp only []
      split
      · rename_i hn; exact .gone hn
      · rename_i s hs
        simp only [Bool.false_eq_true, if_false]
        have e1 : At ((d.emit (.rst sid INTERNAL_ERROR)).upd sid (fun s => { s with state := .closed, rstSent := true, err := INTERNAL_ERROR })) sid Act2 := by
          refine At.upd (c := d.emit (.rst sid INTERNAL_ERROR)) (P := ActB true) (hat.same rfl ?_ (Int.le_refl _)) (fun _ => rfl)
            (fun F w t ht hc _ => ⟨⟨hc.rr, fun _ => hd' t ht, hc.le, hc.blk⟩, Or.inr rfl⟩)
          show framesOn sid (d.out ++ [_]) = _
          rw [framesOn_append]; simp [framesOn]
        split
        · refine e1.same rfl ?_ (Int.le_refl _)
          show framesOn sid ((d.out ++ [_]) ++ [_]) = framesOn sid (d.out ++ [_])
          rw [framesOn_append]; simp [framesOn]
        · exact e1
    · refine (at_closeTail (hat.mono (fun s hs => ?_))).mono (fun _ => Or.inl)
      rcases hs with hs | hs
      · exact Or.inl hs
      · exact Or.inr hs.2.1

theorem dispatch_rest (c : Conn x) (sid : Nat) (h : Script) (ho : sid % 2 = 1) (hm : 0 < c.peerMaxFrame) (hi : Inv0 c) (ha : (dispatch c sid h).alive = true) :
    Others sid c (dispatch c sid h) ∧ (At c sid Act2 → At (dispatch c sid h) sid Act2) := by
  unfold dispatch at ha ⊢
  split
  · rename_i hn; exact ⟨.refl, fun _ => .gone hn⟩
  · rename_i s hs
    rw [hs] at ha
    simp only [] at ha
    split
    · exact ⟨.refl, id⟩
    · rename_i h1
      rw [if_neg h1] at ha
      split
      · rename_i h2
        rw [if_pos h2] at ha
        split
        · simp only [Bool.and_eq_true] at h2
          exact ⟨(fr_sendRst _ _ _ _).others, fun _ => .gone (sendRst_find (Or.inl h2.2))⟩
        · rename_i h3
          rw [if_neg h3] at ha
          have f1 : Fr sid c ((c.upd sid (fun s => { s with dispatched := true })).emit (.request sid s.req)) :=
            Fr.trans (Fr.withUpd (f := fun s => { s with dispatched := true }) _ (fun _ => rfl)) (Fr.emit _ (fun _ _ => rfl))
          have i1 : Inv0 (c.upd sid (fun s => { s with dispatched := true })) := hi.upd sid (fun _ => rfl) (fun s k => k.same rfl) (fun _ => Or.inl)
          have i2 : Inv0 ((c.upd sid (fun s => { s with dispatched := true })).emit (.request sid s.req)) := ⟨i1.state, i1.odd, i1.cur, i1.nodup⟩
          obtain ⟨r1, r2⟩ := handler_rest ((c.upd sid (fun s => { s with dispatched := true })).emit (.request sid s.req)) sid h ho hm i2 (by
            intro t ht
            rcases find_upd_some (c := c) (f := fun s => { s with dispatched := true }) ht (fun _ => rfl) with ⟨_, u, _, e⟩ | ⟨e, _⟩
            · rw [e]
            · exact absurd rfl e) ha
          refine ⟨f1.others.trans r1, fun hat => r2 ?_⟩
          have hab : At c sid (ActB true) := by
            intro t ht
            have e : t = s := Option.some.inj (ht.symm.trans hs)
            subst e
            refine ⟨(hat t ht).1, ?_⟩
            rcases (hat t ht).2 with k | k
            · exact Or.inl k
            · simp only [Bool.or_eq_true, not_or, Bool.not_eq_true] at h1
              rcases (hi.state _ _ hs).closed k with z | z | z
              · rw [h1.1.2] at z; cases z
              · rw [h1.2] at z; cases z
              · exact Or.inr ⟨rfl, k, z.1⟩
          have := hab.upd (f := fun s => { s with dispatched := true }) (Q := ActB true) (fun _ => rfl)
            (fun F w t _ hc hp => ⟨⟨hc.rr, fun _ => rfl, hc.le, hc.blk⟩, hp⟩)
          refine this.same rfl ?_ (Int.le_refl _)
          show framesOn sid (c.out ++ [_]) = framesOn sid c.out
          rw [framesOn_append]; simp [framesOn]
      · exact ⟨.refl, id⟩

end Verif.Srv
