import Verif.Srv.Rest2

/-! # Streams at rest: responses and requests -/

namespace Verif.Srv
open Verif.Stream
open Verif.Wire (find)

variable {x : Ext}

theorem fr_closeIf (sid : Nat) (c : Conn x) : Fr sid c (match c.find sid with
    | none => c
    | some s => if s.endSent && s.endRecv then c.upd sid (fun s => { s with state := .closed }) else c) := by
  split
  · exact .refl _ _
  · split
    · exact .withUpd _ (fun _ => rfl)
    · exact .refl _ _

theorem fr_sendBody (sid : Nat) (c : Conn x) : Fr sid c (sendBody c sid) := by
  unfold sendBody
  split
  · exact .refl _ _
  · rename_i s hs
    have e := find_id hs
    subst e
    simp only []
    have p : Fr s.id c (runPump c false { s with isTrailers := s.hasTrailer }).1 := fr_runPump c false { s with isTrailers := s.hasTrailer }
    split
    · exact p
    · refine p.trans (Fr.trans (Fr.withUpd (f := fun s => { s with pending := s.offset != s.body.length }) _ (fun _ => rfl)) ?_)
      split
      · exact .refl _ _
      · split
        · exact (fr_trySend _ _).trans (fr_closeIf _ _)
        · split
          · exact .withUpd _ (fun _ => rfl)
          · exact .refl _ _

theorem at_closeIf {c : Conn x} {sid : Nat} (h : At c sid Act1) : At (match c.find sid with
    | none => c
    | some s => if s.endSent && s.endRecv then c.upd sid (fun s => { s with state := .closed }) else c) sid Act2 := by
  split
  · exact .gone (by assumption)
  · split
    · exact h.upd (fun _ => rfl) (fun F w s _ hc _ => ⟨hc.same rfl, Or.inr rfl⟩)
    · exact h.mono (fun _ => Or.inl)

/-- A stream that may be answered. -/
structure CanSend (s : SStream) : Prop where
  rr : s.rstRecv = false
  rs : s.rstSent = true → s.dispatched = true
  st : s.state = .open_ ∨ s.state = .halfClosedRemote
  ns : s.endSent = false

theorem at_sendBody {c : Conn x} {sid : Nat} (hm : 0 < c.peerMaxFrame) (ha : c.alive = true)
    (h : ∀ s, c.find sid = some s → CanSend s ∧ s.offset < s.body.length) : At (sendBody c sid) sid Act2 := by
  unfold sendBody
  split
  · exact .gone (by assumption)
  · rename_i s hs
    obtain ⟨q, lt⟩ := h s hs
    have le := Nat.le_of_lt lt
    have e := find_id hs
    subst e
    simp only []
    have sp := pump_spec false c.peerMaxFrame hm (s.body.length - s.offset) { s with isTrailers := s.hasTrailer } c.sendW (Nat.le_refl _) le q.ns
    have hf := runPump_find (b := false) (c := c) (s := { s with isTrailers := s.hasTrailer }) (by
      show c.find s.id ≠ none
      rw [hs]; simp)
    have hf : (runPump c false { s with isTrailers := s.hasTrailer }).1.find s.id =
      some (pump false c.peerMaxFrame (s.body.length - s.offset) { s with isTrailers := s.hasTrailer } c.sendW).1 := hf
    have same := sp.same
    have hst : (runPump c false { s with isTrailers := s.hasTrailer }).2 =
      (pump false c.peerMaxFrame (s.body.length - s.offset) { s with isTrailers := s.hasTrailer } c.sendW).2.2.2 := rfl
    have hw : (runPump c false { s with isTrailers := s.hasTrailer }).1.sendW =
      (pump false c.peerMaxFrame (s.body.length - s.offset) { s with isTrailers := s.hasTrailer } c.sendW).2.1 := rfl
    have halive : (runPump c false { s with isTrailers := s.hasTrailer }).1.alive = true := ha
    have hmax : 0 < (runPump c false { s with isTrailers := s.hasTrailer }).1.peerMaxFrame := hm
    generalize runPump c false { s with isTrailers := s.hasTrailer } = z at *
    generalize pump false c.peerMaxFrame (s.body.length - s.offset) { s with isTrailers := s.hasTrailer } c.sendW = y at *
    simp only [Prod.mk.injEq] at same
    obtain ⟨e1, e2, e3, e4, e5, e6, e7, e8⟩ := same
    rw [hst]
    have open_ : ∀ st : State, st = s.state → (st == .open_ || st == .halfClosedLocal || st == .halfClosedRemote) = true := by
      intro st e
      rw [e]
      rcases q.st with k | k <;> rw [k] <;> rfl
    split
    · rename_i hstop
      obtain ⟨s1, s2, s3, s4, s5⟩ := sp.stop hstop
      intro t ht
      have e := Option.some.inj (ht.symm.trans hf)
      subst e
      refine ⟨⟨by rw [e2]; exact q.rr, by rw [e3, e4]; exact q.rs, by rw [e5]; exact Nat.le_of_lt s2, fun _ _ => ⟨s1, by rw [e5]; exact s2, by rw [hw]; exact s3⟩⟩, Or.inl (open_ _ s5)⟩
    · rename_i hstop
      obtain ⟨d1, d2⟩ := sp.done (by simpa using hstop)
      have d1 : y.1.offset = y.1.body.length := by rw [e5]; exact d1
      have hf1 : (z.1.upd s.id (fun s => { s with pending := s.offset != s.body.length })).find s.id =
          some { y.1 with pending := y.1.offset != y.1.body.length } :=
        find_upd_same (f := fun s => { s with pending := s.offset != s.body.length }) (keeps_with (fun _ => rfl)) hf
      have hcore : ∀ F w, y.1.endSent = true → Core F w { y.1 with pending := y.1.offset != y.1.body.length } := fun F w he =>
        .sent (by show y.1.rstRecv = false; rw [e2]; exact q.rr) (by show y.1.rstSent = true → y.1.dispatched = true; rw [e3, e4]; exact q.rs)
          (Nat.le_of_eq d1) he
      rw [hf1]
      simp only []
      split
      · rename_i htr
        simp only [Bool.and_eq_true, Bool.not_eq_true', beq_iff_eq] at htr
        apply at_closeIf
        refine at_trySend hmax halive (fun t ht => ?_)
        have e := Option.some.inj (ht.symm.trans hf1)
        subst e
        have hstate : y.1.state = s.state := by
          rcases d2 with ⟨k, _⟩ | ⟨_, k, _⟩
          · rw [htr.2] at k; cases k
          · exact k
        refine ⟨⟨by show y.1.rstRecv = false; rw [e2]; exact q.rr, by show y.1.rstSent = true → y.1.dispatched = true; rw [e3, e4]; exact q.rs,
          Nat.le_of_eq d1, open_ _ hstate, ?_⟩, fun _ _ => Or.inr ⟨d1, htr.1.2⟩⟩
        show y.1.endSent = true ↔ y.1.state = .halfClosedLocal
        rw [htr.2, hstate]
        rcases q.st with k | k <;> rw [k] <;> simp
      · rename_i htr
        have hsent : y.1.endSent = true := by
          rcases d2 with ⟨k, _⟩ | ⟨k1, _, k2⟩
          · exact k
          · cases hT : y.1.isTrailers with
            | true => exact absurd (by rw [d1, k1, hT]; simp) htr
            | false =>
              rw [hT] at e7
              rcases k2 with k2 | k2
              · have k2 : s.offset = s.body.length := k2
                omega
              · rw [← e7] at k2; cases k2
        split
        · intro t ht
          rcases find_upd_some ht (fun _ => rfl) with ⟨_, u, hu, e⟩ | ⟨e, _⟩
          · have eu := Option.some.inj (hu.symm.trans hf1)
            subst eu; subst e
            exact ⟨(hcore _ _ hsent).same rfl, Or.inr rfl⟩
          · exact absurd rfl e
        · intro t ht
          have e := Option.some.inj (ht.symm.trans hf1)
          subst e
          refine ⟨hcore _ _ hsent, Or.inl ?_⟩
          rcases d2 with ⟨_, k⟩ | ⟨k, _⟩
          · show isActive { y.1 with pending := _ } = true
            unfold isActive; simp only []; rw [k]; rfl
          · rw [hsent] at k; cases k

/-! ## Responses -/

theorem fr_sendHead (sid : Nat) (c : Conn x) (block : Bytes) (r : Response) : Fr sid c (sendHead c sid block r) := by
  unfold sendHead
  split
  · exact fr_sendRst _ _ _ _
  · have p : Fr sid c (c.emit (.headers sid block r.body.isEmpty)) :=
      Fr.emit c (fun k e => by rw [framesOn, if_neg (fun z => e z.symm)]; rfl)
    simp only []
    split
    · exact p.trans (Fr.trans (Fr.withUpd (f := fun s => { s with endSent := true, state := sendEnd s.state }) _ (fun _ => rfl)) (fr_closeTail _ _))
    · exact p.trans ((fr_sendBody _ _).trans (fr_closeTail _ _))

theorem at_sendHead {c : Conn x} {sid : Nat} {block : Bytes} {r : Response} (hm : 0 < c.peerMaxFrame) (ha : c.alive = true)
    (h : ∀ s, c.find sid = some s → CanSend s ∧ s.offset = 0 ∧ s.body = r.body) : At (sendHead c sid block r) sid Act1 := by
  unfold sendHead
  split
  · exact .gone (sendRst_find (Or.inl (alive_iff.mp ha).2))
  · simp only []
    split
    · refine at_closeTail (fun t ht => ?_)
      rcases find_upd_some ht (fun _ => rfl) with ⟨_, u, hu, e⟩ | ⟨e, _⟩
      · obtain ⟨q, ho, hb⟩ := h u hu
        subst e
        refine ⟨.sent q.rr q.rs (by show u.offset ≤ _; rw [ho]; exact Nat.zero_le _) rfl, ?_⟩
        rcases q.st with k | k
        · exact Or.inl (by show isActive { u with endSent := true, state := sendEnd u.state } = true; unfold isActive; simp only []; rw [k]; rfl)
        · exact Or.inr (by show sendEnd u.state = _; rw [k]; rfl)
      · exact absurd rfl e
    · rename_i hne
      refine at_closeTail (at_sendBody hm ha (fun s hs => ?_))
      obtain ⟨q, ho, hb⟩ := h s hs
      refine ⟨q, ?_⟩
      rw [ho, hb]
      cases hr : r.body with
      | nil => rw [hr] at hne; exact absurd rfl hne
      | cons a l => simp

theorem fr_sendResponse (sid : Nat) (c : Conn x) (r : Response) : Fr sid c (sendResponse c sid r) := by
  unfold sendResponse
  split
  · exact .refl _ _
  · rename_i s hs
    simp only []
    refine Fr.trans (Fr.withUpd (f := fun s => { s with body := r.body, offset := 0, hasTrailer := (find r.headers b!"Trailer").isSome }) _ (fun _ => rfl)) ?_
    split
    · exact fr_sendRst _ _ _ _
    · split
      · exact .refl _ _
      · split
        · exact fr_sendRst _ _ _ _
        · split
          · exact fr_sendRst _ _ _ _
          · split
            · exact Fr.trans (Fr.aux (by rfl) (by rfl) (by rfl) (by rfl)) (fr_goaway _ _ _)
            · exact Fr.trans (Fr.aux (by rfl) (by rfl) (by rfl) (by rfl)) (fr_sendHead _ _ _ _)

theorem at_sendResponse {c : Conn x} {sid : Nat} {r : Response} {b : Bool} (hm : 0 < c.peerMaxFrame) (hi : Inv0 c) (h : At c sid (ActB b))
    (ha : (sendResponse c sid r).alive = true) : At (sendResponse c sid r) sid (ActB b) := by
  have hc : c.alive = true := by
    obtain ⟨ls, _, p⟩ := path_act c (.respond sid r)
    exact alive_path p ha
  unfold sendResponse at ha ⊢
  split
  · exact .gone (by assumption)
  · rename_i s hs
    rw [hs] at ha
    simp only [] at ha ⊢
    obtain ⟨hcore, hact⟩ := h s hs
    have hok := hi.state _ _ hs
    have hf : (c.upd sid (fun s => { s with body := r.body, offset := 0, hasTrailer := (find r.headers b!"Trailer").isSome })).find sid =
        some { s with body := r.body, offset := 0, hasTrailer := (find r.headers b!"Trailer").isSome } :=
      find_upd_same (f := fun s => { s with body := r.body, offset := 0, hasTrailer := (find r.headers b!"Trailer").isSome }) (keeps_with (fun _ => rfl)) hs
    have hf' : ∀ t, (c.upd sid (fun s => { s with body := r.body, offset := 0, hasTrailer := (find r.headers b!"Trailer").isSome })).find sid = some t →
        t = { s with body := r.body, offset := 0, hasTrailer := (find r.headers b!"Trailer").isSome } := fun t ht => Option.some.inj (ht.symm.trans hf)
    have hca : (c.upd sid (fun s => { s with body := r.body, offset := 0, hasTrailer := (find r.headers b!"Trailer").isSome })).alive = true := hc
    have hcm : 0 < (c.upd sid (fun s => { s with body := r.body, offset := 0, hasTrailer := (find r.headers b!"Trailer").isSome })).peerMaxFrame := hm
    generalize c.upd sid (fun s => { s with body := r.body, offset := 0, hasTrailer := (find r.headers b!"Trailer").isSome }) = d at *
    have hda := (alive_iff.mp hca).2
    split
    · exact .gone (sendRst_find (Or.inl hda))
    · rename_i h1
      rw [if_neg h1] at ha
      split
      · rename_i h2
        intro t ht
        have e := hf' t ht
        subst e
        have hsent : s.endSent = true := by
          simp only [Bool.or_eq_true, beq_iff_eq] at h2
          rcases h2 with h2 | h2
          · rcases hact with k | ⟨_, _, k⟩
            · unfold isActive at k; rw [h2] at k; cases k
            · exact k
          · exact hok.hcl h2
        exact ⟨.sent hcore.rr hcore.rs (Nat.zero_le _) hsent, hact⟩
      · rename_i h2
        rw [if_neg h2] at ha
        split
        · exact .gone (sendRst_find (Or.inl hda))
        · rename_i fs dl hrf
          rw [hrf] at ha
          simp only [] at ha
          split
          · exact .gone (sendRst_find (Or.inl hda))
          · rename_i hbc
            rw [hbc] at ha
            simp only [] at ha
            split
            · rename_i hen
              rw [hen] at ha
              simp only [] at ha
              rw [goaway_dead] at ha; cases ha
            · refine At.mono (at_sendHead (c := { d with enc := _ }) hcm hca (fun t ht => ?_)) (fun _ => Or.inl)
              have e := hf' t ht
              subst e
              refine ⟨⟨hcore.rr, hcore.rs, ?_, ?_⟩, rfl, rfl⟩
              · simp only [Bool.or_eq_true, beq_iff_eq, not_or] at h1 h2
                show s.state = _ ∨ s.state = _
                cases hst : s.state <;> simp [hst] at h1 h2 ⊢
                exact hok.local_ hst
              · show s.endSent = false
                cases he : s.endSent with
                | false => rfl
                | true =>
                  simp only [Bool.or_eq_true, beq_iff_eq, not_or] at h2
                  rcases hok.sent he with k | k
                  · exact absurd k h2.2
                  · exact absurd k h2.1

/-! ## Calls of the application -/

/-- `f` keeps every client stream in order. -/
def Tame (b : Bool) (c c' : Conn x) : Prop := ∀ k, k % 2 = 1 → At c k (ActB b) → At c' k (ActB b)

theorem tame_act {c : Conn x} (b : Bool) (a : Act) (hm : 0 < c.peerMaxFrame) (hi : Inv0 c) (ha : (act c a).alive = true) : Tame b c (act c a) := by
  intro k ho h
  cases a with
  | respond sid r =>
    by_cases e : k = sid
    · subst e; exact at_sendResponse hm hi h ha
    · exact (fr_sendResponse sid c r).at ho e h
  | reset sid code =>
    by_cases e : k = sid
    · subst e; exact at_sendRst ha
    · exact (fr_sendRst sid c code true).at ho e h
  | push sid p f =>
    show At (sendPush c sid p f) k (ActB b)
    unfold sendPush
    split
    · exact h
    split
    · exact h
    split
    · exact h
    · rename_i hp
      split
      · exact h
      split
      · exact h
      · split
        · exact h
        split
        · exact h
        · rename_i hnone
          split
          · exact h
          · simp only []
            split
            · exact h.same rfl rfl (Int.le_refl _)
            · refine h.same ?_ ?_ (Int.le_refl _)
              · have hn : c.find p = none := by
                  cases hc : c.find p with
                  | none => rfl
                  | some t => rw [hc] at hnone; exact absurd rfl hnone
                simp only [Bool.or_eq_true, beq_iff_eq, bne_iff_ne, ne_eq, not_or, Decidable.not_not] at hp
                have e := find_append_list c.streams { id := p, state := .reservedLocal, peerW := c.initPeer, parent := sid } k hn
                rw [if_neg (by show ¬ k = p; omega)] at e
                exact e
              · show framesOn k (c.out ++ [_]) = _
                rw [framesOn_append]; simp [framesOn]

theorem act_max (c : Conn x) (a : Act) : (act c a).peerMaxFrame = c.peerMaxFrame := by
  cases a with
  | respond sid r => exact (fr_sendResponse sid c r).maxF
  | reset sid code => exact (fr_sendRst sid c code true).maxF
  | push sid p f =>
    show (sendPush c sid p f).peerMaxFrame = _
    unfold sendPush
    simp only []
    repeat' split
    all_goals rfl

theorem tame_acts (b : Bool) (as : List Act) {c : Conn x} (hm : 0 < c.peerMaxFrame) (hi : Inv0 c) (ha : (as.foldl act c).alive = true) :
    Tame b c (as.foldl act c) := by
  induction as generalizing c with
  | nil => exact fun _ _ h => h
  | cons a as ih =>
    obtain ⟨ls, _, p⟩ := path_act c a
    obtain ⟨ls', _, p'⟩ := path_acts as (act c a)
    have ha1 := alive_path p' ha
    intro k ho h
    exact ih (by rw [act_max]; exact hm) (hi.path p) ha k ho (tame_act b a hm hi ha1 k ho h)

theorem acts_max (as : List Act) (c : Conn x) : (as.foldl act c).peerMaxFrame = c.peerMaxFrame := by
  induction as generalizing c with
  | nil => rfl
  | cons a as ih => exact (ih _).trans (act_max c a)

end Verif.Srv
