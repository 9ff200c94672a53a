import Verif.Srv.Rest

/-! # Streams at rest: sending -/

namespace Verif.Srv
open Verif.Stream

variable {x : Ext}

theorem Core.sent {F : Prop} {w : Int} {s : SStream} (rr : s.rstRecv = false) (rs : s.rstSent = true → s.dispatched = true)
    (le : s.offset ≤ s.body.length) (h : s.endSent = true) : Core F w s :=
  ⟨rr, rs, le, fun _ e => by rw [h] at e; cases e⟩

/-! ## finishSend -/

theorem fr_closeTail (sid : Nat) (c : Conn x) :
    Fr sid c (match c.find sid with | none => c | some s => if s.state == .closed then tryClose c sid else c) := by
  split
  · exact .refl _ _
  · split
    · exact fr_tryClose _ _
    · exact .refl _ _

theorem at_closeTail {sid : Nat} {c : Conn x} (h : At c sid Act2) :
    At (match c.find sid with | none => c | some s => if s.state == .closed then tryClose c sid else c) sid Act1 := by
  split
  · exact .gone (by assumption)
  · rename_i s hs
    split
    · exact at_tryClose h
    · rename_i hc
      intro t ht
      have e : t = s := Option.some.inj (ht.symm.trans hs)
      subst e
      exact ⟨(h t ht).1, (h t ht).2.resolve_right (fun e => hc (by rw [e]; rfl))⟩

theorem fr_finishSend (sid : Nat) (c : Conn x) : Fr sid c (finishSend c sid) := by
  unfold finishSend
  split
  · exact .refl _ _
  · rename_i s hs
    simp only []
    have p1 : ∀ b : Bool, Fr sid c (if b = true then
        (c.emit (.headers sid [] true)).upd sid (fun s => { s with state := .halfClosedLocal, endSent := true, isTrailers := false }) else c) := by
      intro b
      split
      · exact (Fr.emit c (o := .headers sid [] true) (fun k e => by rw [framesOn, if_neg (fun z => e z.symm)]; rfl)).trans (.withUpd _ (fun _ => rfl))
      · exact .refl _ _
    have p2 : ∀ d : Conn x, Fr sid d (match d.find sid with
        | none => d
        | some s =>
          if s.endSent then
            tryClose (if s.state == .halfClosedLocal && s.endRecv then d.upd sid (fun s => { s with state := .closed }) else d) sid
          else d) := by
      intro d
      split
      · exact .refl _ _
      · split
        · refine Fr.trans ?_ (fr_tryClose _ _)
          split
          · exact .withUpd _ (fun _ => rfl)
          · exact .refl _ _
        · exact .refl _ _
    exact (p1 (s.offset == s.body.length && s.isTrailers && !s.endSent)).trans (p2 _)

/-- Closing a stream whose response is complete. -/
theorem at_closeSent {c : Conn x} {sid : Nat} {s : SStream} (hs : c.find sid = some s) (rr : s.rstRecv = false)
    (rs : s.rstSent = true → s.dispatched = true) (le : s.offset ≤ s.body.length) (he : s.endSent = true) (hc : s.state = .halfClosedLocal) :
    At (tryClose (if (s.state == .halfClosedLocal && s.endRecv) = true then c.upd sid (fun s => { s with state := .closed }) else c) sid) sid Act1 := by
  apply at_tryClose
  split
  · intro t ht
    rcases find_upd_some ht (fun _ => rfl) with ⟨_, u, hu, e⟩ | ⟨e, _⟩
    · have : u = s := Option.some.inj (hu.symm.trans hs)
      subst this
      subst e
      exact ⟨.sent rr rs le he, Or.inr rfl⟩
    · exact absurd rfl e
  · intro t ht
    have e : t = s := Option.some.inj (ht.symm.trans hs)
    subst e
    exact ⟨.sent rr rs le he, Or.inl (by rw [isActive, hc]; rfl)⟩

/-- A stream that is being sent on. -/
structure Pre (s : SStream) : Prop where
  rr : s.rstRecv = false
  rs : s.rstSent = true → s.dispatched = true
  le : s.offset ≤ s.body.length
  act : isActive s = true
  hcl : s.endSent = true ↔ s.state = .halfClosedLocal

theorem at_finishSend {c : Conn x} {sid : Nat} (h : ∀ s, c.find sid = some s → Pre s ∧
    (framesOn sid c.out ≠ [] → s.endSent = false → s.offset = s.body.length ∧ s.isTrailers = true)) : At (finishSend c sid) sid Act1 := by
  unfold finishSend
  split
  · exact .gone (by assumption)
  · rename_i s hs
    obtain ⟨p, hb⟩ := h s hs
    simp only []
    by_cases hc : (s.offset == s.body.length && s.isTrailers && !s.endSent) = true
    · rw [if_pos hc]
      have hf : ((c.emit (.headers sid [] true)).upd sid (fun s => { s with state := .halfClosedLocal, endSent := true, isTrailers := false })).find sid =
          some { s with state := .halfClosedLocal, endSent := true, isTrailers := false } :=
        find_upd_same (c := c.emit (.headers sid [] true)) (f := fun s => { s with state := .halfClosedLocal, endSent := true, isTrailers := false })
          (keeps_with (fun _ => rfl)) hs
      rw [hf]
      simp only [if_true]
      exact at_closeSent hf p.rr p.rs p.le rfl rfl
    · rw [if_neg hc, hs]
      simp only []
      split
      · rename_i he
        exact at_closeSent hs p.rr p.rs p.le he (p.hcl.mp he)
      · rename_i he
        intro t ht
        have e : t = s := Option.some.inj (ht.symm.trans hs)
        subst e
        refine ⟨⟨p.rr, p.rs, p.le, fun hF he' => ?_⟩, p.act⟩
        obtain ⟨h1, h2⟩ := hb hF he'
        exact absurd (by rw [h1, h2, he']; simp) hc

/-! ## trySend -/

theorem fr_trySend (sid : Nat) (c : Conn x) : Fr sid c (trySend c sid) := by
  unfold trySend
  split
  · exact .refl _ _
  · split
    · exact .refl _ _
    · rename_i s hs
      split
      · exact .refl _ _
      · split
        · have e := find_id hs
          subst e
          simp only []
          split
          · exact fr_runPump _ _ _
          · refine (fr_runPump c true s).trans (Fr.trans (Fr.withUpd (f := fun s => { s with pending := if s.offset == s.body.length then false else s.pending }) _ (fun _ => rfl)) (fr_finishSend _ _))
        · exact fr_finishSend _ _

theorem framesOn_pump {c : Conn x} {b : Bool} {s : SStream} (h : framesOn s.id c.out ≠ []) : framesOn s.id (runPump c b s).1.out ≠ [] := by
  show framesOn s.id (c.out ++ _) ≠ []
  rw [framesOn_append]
  intro e
  exact h (List.append_eq_nil_iff.mp e).1

theorem at_trySend {c : Conn x} {sid : Nat} (hm : 0 < c.peerMaxFrame) (ha : c.alive = true) (h : ∀ s, c.find sid = some s → Pre s ∧
    (framesOn sid c.out ≠ [] → s.endSent = false → (s.pending = true ∧ s.offset < s.body.length) ∨ (s.offset = s.body.length ∧ s.isTrailers = true))) :
    At (trySend c sid) sid Act1 := by
  obtain ⟨h1, h2⟩ := alive_iff.mp ha
  unfold trySend
  rw [if_neg (by rw [h1, h2]; simp)]
  split
  · exact .gone (by assumption)
  · rename_i s hs
    obtain ⟨p, hb⟩ := h s hs
    have hact := p.act
    unfold isActive at hact
    simp only [Bool.or_eq_true, beq_iff_eq] at hact
    split
    · rename_i hst
      simp only [Bool.and_eq_true, bne_iff_ne, ne_eq] at hst
      intro t ht
      have e : t = s := Option.some.inj (ht.symm.trans hs)
      subst e
      refine ⟨.sent p.rr p.rs p.le (p.hcl.mpr ?_), p.act⟩
      rcases hact with (k | k) | k
      · exact absurd k hst.1
      · exact k
      · exact absurd k hst.2
    · rename_i hst
      have hns : s.endSent = false := by
        cases he : s.endSent with
        | false => rfl
        | true =>
          have := p.hcl.mp he
          rw [this] at hst; exact absurd rfl hst
      split
      · rename_i hpo
        simp only [Bool.and_eq_true, bne_iff_ne, ne_eq] at hpo
        have e := find_id hs
        subst e
        have sp := pump_spec true c.peerMaxFrame hm (s.body.length - s.offset) s c.sendW (Nat.le_refl _) p.le hns
        have hf := runPump_find (b := true) (c := c) (s := s) (by rw [hs]; simp)
        have same := sp.same
        simp only [Prod.mk.injEq] at same
        obtain ⟨e1, e2, e3, e4, e5, e6, e7, e8⟩ := same
        simp only []
        split
        · rename_i hstop
          obtain ⟨s1, s2, s3, s4, s5⟩ := sp.stop hstop
          intro t ht
          have e := Option.some.inj (ht.symm.trans hf)
          subst e
          refine ⟨⟨by rw [e2]; exact p.rr, by rw [e3, e4]; exact p.rs, by rw [e5]; omega, fun _ _ => ⟨s1, by rw [e5]; exact s2, s3⟩⟩, ?_⟩
          have := p.act
          unfold isActive at this
          show isActive _ = true
          unfold isActive
          rw [s5]; exact this
        · rename_i hstop
          obtain ⟨d1, d2⟩ := sp.done (by
            have : ¬ (pump true c.peerMaxFrame (s.body.length - s.offset) s c.sendW).2.2.2 = true := hstop
            simpa using this)
          apply at_finishSend
          intro t ht
          rcases find_upd_some ht (fun _ => rfl) with ⟨_, u, hu, e⟩ | ⟨e, _⟩
          · have eu := Option.some.inj (hu.symm.trans hf)
            subst eu
            subst e
            refine ⟨⟨by show (pump true c.peerMaxFrame (s.body.length - s.offset) s c.sendW).1.rstRecv = false; rw [e2]; exact p.rr,
              by show (pump true c.peerMaxFrame (s.body.length - s.offset) s c.sendW).1.rstSent = true → (pump true c.peerMaxFrame (s.body.length - s.offset) s c.sendW).1.dispatched = true
                 rw [e3, e4]; exact p.rs,
              by show (pump true c.peerMaxFrame (s.body.length - s.offset) s c.sendW).1.offset ≤ (pump true c.peerMaxFrame (s.body.length - s.offset) s c.sendW).1.body.length
                 rw [e5]; omega, ?_, ?_⟩, fun _ he => ?_⟩
            · show isActive { (pump true c.peerMaxFrame (s.body.length - s.offset) s c.sendW).1 with pending := _ } = true
              have := p.act
              unfold isActive at this ⊢
              simp only []
              rcases d2 with ⟨_, k⟩ | ⟨_, k, _⟩
              · rw [k]; rfl
              · rw [k]; exact this
            · show (pump true c.peerMaxFrame (s.body.length - s.offset) s c.sendW).1.endSent = true ↔ (pump true c.peerMaxFrame (s.body.length - s.offset) s c.sendW).1.state = .halfClosedLocal
              rcases d2 with ⟨k1, k⟩ | ⟨k1, k, _⟩
              · rw [k, k1]; simp
              · rw [k, k1, ← p.hcl, hns]
            · have he : (pump true c.peerMaxFrame (s.body.length - s.offset) s c.sendW).1.endSent = false := he
              refine ⟨by show (pump true c.peerMaxFrame (s.body.length - s.offset) s c.sendW).1.offset = (pump true c.peerMaxFrame (s.body.length - s.offset) s c.sendW).1.body.length
                         rw [e5]; exact d1, ?_⟩
              show (pump true c.peerMaxFrame (s.body.length - s.offset) s c.sendW).1.isTrailers = true
              rw [e7]
              rcases d2 with ⟨k1, k⟩ | ⟨_, _, k | k⟩
              · rw [k1] at he; cases he
              · exact absurd k hpo.2
              · exact k
          · exact absurd rfl e
      · rename_i hpo
        apply at_finishSend
        intro t ht
        have e : t = s := Option.some.inj (ht.symm.trans hs)
        subst e
        refine ⟨p, fun hF he => ?_⟩
        rcases hb hF he with ⟨k1, k2⟩ | k
        · exact absurd (by rw [k1]; simp; omega) hpo
        · exact k

end Verif.Srv
