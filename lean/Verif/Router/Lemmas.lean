import Verif.Router.Model
import Verif.Router.Spec
import Verif.Utility.Lemmas

/-! Helper lemmas for the router theorems. -/

namespace Verif.Router
open Spec Verif.Utility.Spec

variable {H : Type}

/-! ### association lists -/

theorem lookup_cons (k k' : Bytes) {α : Type} (v : α) (l : List (Bytes × α)) :
    ((k, v) :: l).lookup k' = if k' = k then some v else l.lookup k' := by
  simp only [List.lookup]
  by_cases h : k' = k
  · simp [h]
  · simp [h, beq_eq_false_iff_ne.2 h]

theorem lookup_assocSet (k k' : Bytes) (v : Node H) (l : List (Bytes × Node H)) :
    (assocSet k v l).lookup k' = if k' = k then some v else l.lookup k' := by
  induction l with
  | nil => rw [assocSet, lookup_cons]
  | cons p l ih =>
    obtain ⟨a, b⟩ := p
    rw [assocSet]
    by_cases h : k = a
    · subst h
      rw [if_pos (by simp), lookup_cons, lookup_cons]
      by_cases h' : k' = k <;> simp [h']
    · rw [if_neg (by simpa using h), lookup_cons, lookup_cons, ih]
      by_cases h' : k' = a
      · subst h'; simp [show ¬ k' = k from fun e => h e.symm]
      · simp [h']

/-! ### what is stored in a tree -/

/-- The handler stored for a pattern. -/
def find (slot : Nat) : Node H → List Seg → Option H
  | n, [] => n.handlers slot
  | n, .lit s :: ps =>
    match n.statics.lookup s with
    | some c => find slot c ps
    | none => none
  | n, .par nm :: ps =>
    match n.param with
    | some (nm', c) => if nm = nm' then find slot c ps else none
    | none => none
  | n, .wild nm :: ps =>
    match n.wild with
    | some (nm', c) => if nm = nm' ∧ ps = [] then c.handlers slot else none
    | none => none
termination_by _ ps => ps.length

theorem find_nil (slot : Nat) (n : Node H) : find slot n [] = n.handlers slot := by rw [find]

theorem find_empty (slot : Nat) (q : List Seg) : find slot (.empty : Node H) q = none := by
  cases q with
  | nil => rw [find]; rfl
  | cons a q => cases a <;> (rw [find]; simp [Node.empty, Node.statics, Node.param, Node.wild])

theorem insert_nil (slot : Nat) (h : H) (seen) (n : Node H) :
    insert slot h seen n [] = if slot ≥ slotCount then (n, false)
    else (.mk (fun s => if s = slot then some h else n.handlers s) n.statics n.param n.wild, true) := by
  rw [insert]

/-- What `insert` does to the stored handlers. -/
theorem insert_find (slot : Nat) (h : H) (seen : List Bytes) (n : Node H) (segs : List Bytes) :
    ((insert slot h seen n segs).2 = false ∧
      ∀ s q, find s (insert slot h seen n segs).1 q = find s n q) ∨
    ((insert slot h seen n segs).2 = true ∧ slot < slotCount ∧
      ∃ pat, AreSegs segs pat ∧ (∀ m, Seg.wild m ∈ pat.dropLast → False) ∧
        (pat.filterMap Seg.name).Nodup ∧ (∀ m ∈ pat.filterMap Seg.name, m ∉ seen) ∧
        ∀ s q, find s (insert slot h seen n segs).1 q =
          if s = slot ∧ q = pat then some h else find s n q) := by
  induction segs generalizing seen n with
  | nil =>
    rw [insert_nil]
    split
    · exact .inl ⟨rfl, fun _ _ => rfl⟩
    · rename_i hs
      refine .inr ⟨rfl, Nat.lt_of_not_le hs, [], .nil, by simp, by simp, by simp, ?_⟩
      intro s q
      cases q with
      | nil => rw [find, find]; simp [Node.handlers]
      | cons a q =>
        simp only [reduceCtorEq, and_false, if_false]
        cases a <;> (rw [find, find]; rfl)
  | cons seg rest ih =>
    rw [insert.eq_def slot h seen n (seg :: rest)]
    dsimp only
    split
    · exact .inl ⟨rfl, fun _ _ => rfl⟩
    · rename_i c name
      split
      · -- wildcard
        rename_i hc
        have hc : c = 42 := by simpa using hc
        subst hc
        split
        · exact .inl ⟨rfl, fun _ _ => rfl⟩
        · rename_i hname
          split
          · exact .inl ⟨rfl, fun _ _ => rfl⟩
          · rename_i hrest
            have hrest : rest = [] := by simpa using hrest
            subst hrest
            split
            · exact .inl ⟨rfl, fun _ _ => rfl⟩
            · rename_i hseen
              split
              · rename_i hw
                rw [insert_nil]
                by_cases hs : slot ≥ slotCount
                · rw [if_pos hs]
                  refine .inl ⟨rfl, ?_⟩
                  intro s q
                  cases q with
                  | nil => rw [find, find]; rfl
                  | cons a q =>
                    cases a with
                    | lit _ => rw [find, find]; rfl
                    | par _ => rw [find, find]; rfl
                    | wild m =>
                      rw [find, find]
                      simp [hw]
                      simp [Node.wild, Node.empty, Node.handlers]
                · rw [if_neg hs]
                  refine .inr ⟨rfl, Nat.lt_of_not_le hs, [.wild name], .cons (.wild hname) .nil, by simp,
                    by simp [Seg.name], by simp [Seg.name, hseen], ?_⟩
                  intro s q
                  cases q with
                  | nil => rw [find, find]; simp [Node.handlers]
                  | cons a q =>
                    cases a with
                    | lit _ => rw [find, find]; simp [Node.statics]
                    | par _ => rw [find, find]; simp [Node.param]
                    | wild m =>
                      rw [find, find]
                      simp [hw]
                      simp [Node.wild, Node.empty, Node.handlers]
                      by_cases h1 : s = slot <;> by_cases h2 : m = name <;> by_cases h3 : q = [] <;> simp [h1, h2, h3]
              · rename_i nm child hw
                split
                · exact .inl ⟨rfl, fun _ _ => rfl⟩
                · rename_i hnm
                  have hnm : nm = name := by simpa using hnm
                  subst hnm
                  rw [insert_nil]
                  by_cases hs : slot ≥ slotCount
                  · rw [if_pos hs]
                    refine .inl ⟨rfl, ?_⟩
                    intro s q
                    cases q with
                    | nil => rw [find, find]; rfl
                    | cons a q =>
                      cases a with
                      | lit _ => rw [find, find]; rfl
                      | par _ => rw [find, find]; rfl
                      | wild m =>
                        rw [find, find]
                        simp [hw]
                        simp [Node.wild]
                  · rw [if_neg hs]
                    refine .inr ⟨rfl, Nat.lt_of_not_le hs, [.wild nm], .cons (.wild hname) .nil, by simp,
                      by simp [Seg.name], by simp [Seg.name, hseen], ?_⟩
                    intro s q
                    cases q with
                    | nil => rw [find, find]; simp [Node.handlers]
                    | cons a q =>
                      cases a with
                      | lit _ => rw [find, find]; simp [Node.statics]
                      | par _ => rw [find, find]; simp [Node.param]
                      | wild m =>
                        rw [find, find]
                        simp [hw]
                        simp [Node.wild, Node.handlers]
                        by_cases h1 : s = slot <;> by_cases h2 : m = nm <;> by_cases h3 : q = [] <;> simp [h1, h2, h3]
      · rename_i hc42
        have hc42 : c ≠ 42 := by simpa using hc42
        split
        · -- parameter
          rename_i hc
          have hc : c = 58 := by simpa using hc
          subst hc
          split
          · exact .inl ⟨rfl, fun _ _ => rfl⟩
          · rename_i hname
            split
            · exact .inl ⟨rfl, fun _ _ => rfl⟩
            · rename_i hseen
              -- both sub-cases: the child is `child`, found under the name
              have key : ∀ (child : Node H),
                  (∀ s m q, find s n (.par m :: q) = if m = name then find s child q else none) →
                  let r := insert slot h (name :: seen) child rest
                  let n' : Node H := .mk n.handlers n.statics (some (name, r.1)) n.wild
                  (r.2 = false ∧ ∀ s q, find s n' q = find s n q) ∨
                  (r.2 = true ∧ slot < slotCount ∧
                    ∃ pat, AreSegs ((58 :: name) :: rest) pat ∧ (∀ m, Seg.wild m ∈ pat.dropLast → False) ∧
                      (pat.filterMap Seg.name).Nodup ∧ (∀ m ∈ pat.filterMap Seg.name, m ∉ seen) ∧
                      ∀ s q, find s n' q = if s = slot ∧ q = pat then some h else find s n q) := by
                intro child hchild r n'
                have hn' : ∀ s m q, find s n' (.par m :: q) = if m = name then find s r.1 q else none := by
                  intro s m q; rw [find]; simp [n', Node.param]
                have hoth : ∀ s q, (∀ m q', q ≠ .par m :: q') → find s n' q = find s n q := by
                  intro s q hq
                  cases q with
                  | nil => rw [find, find]; rfl
                  | cons a q =>
                    cases a with
                    | lit _ => rw [find, find]; rfl
                    | wild _ => rw [find, find]; rfl
                    | par m => exact absurd rfl (hq m q)
                rcases ih (name :: seen) child with ⟨h1, h2⟩ | ⟨h1, h2, pat, h3, h4, h5, h6, h7⟩
                · refine .inl ⟨h1, ?_⟩
                  intro s q
                  by_cases hq : ∃ m q', q = .par m :: q'
                  · obtain ⟨m, q', rfl⟩ := hq
                    rw [hn', hchild, h2]
                  · exact hoth s q (fun m q' e => hq ⟨m, q', e⟩)
                · refine .inr ⟨h1, h2, .par name :: pat, .cons (.par hname) h3, ?_, ?_, ?_, ?_⟩
                  · intro m hm
                    cases pat with
                    | nil => simp at hm
                    | cons a pat =>
                      simp at hm
                      exact h4 m hm
                  · simp only [List.filterMap_cons, Seg.name, List.nodup_cons]
                    exact ⟨fun hm => h6 name hm (by simp), h5⟩
                  · intro m hm
                    simp only [List.filterMap_cons, Seg.name, List.mem_cons] at hm
                    rcases hm with rfl | hm
                    · exact hseen
                    · intro hs; exact h6 m hm (by simp [hs])
                  · intro s q
                    by_cases hq : ∃ m q', q = .par m :: q'
                    · obtain ⟨m, q', rfl⟩ := hq
                      rw [hn', hchild, h7]
                      by_cases e1 : m = name <;> by_cases e2 : s = slot <;> by_cases e3 : q' = pat <;> simp [e1, e2, e3]
                    · rw [hoth s q (fun m q' e => hq ⟨m, q', e⟩), if_neg]
                      rintro ⟨_, rfl⟩
                      exact hq ⟨_, _, rfl⟩
              split
              · rename_i hp
                exact key .empty (by intro s m q; rw [find]; simp [hp, find_empty])
              · rename_i nm child hp
                split
                · exact .inl ⟨rfl, fun _ _ => rfl⟩
                · rename_i hnm
                  have hnm : nm = name := by simpa using hnm
                  subst hnm
                  exact key child (by intro s m q; rw [find]; simp [hp])
        · -- static
          rename_i hc58
          have hc58 : c ≠ 58 := by simpa using hc58
          generalize hchild : (List.lookup (c :: name) n.statics).getD .empty = child
          have hfc : ∀ s q, find s n (.lit (c :: name) :: q) = find s child q := by
            intro s q
            rw [find]
            cases hl : List.lookup (c :: name) n.statics with
            | none => simp [hl] at hchild; subst hchild; simp [find_empty]
            | some c' => simp [hl] at hchild; subst hchild; rfl
          generalize hn' : (Node.mk n.handlers (assocSet (c :: name) (insert slot h seen child rest).1 n.statics)
            n.param n.wild) = n'
          have hfn : ∀ s q, find s n' (.lit (c :: name) :: q) = find s (insert slot h seen child rest).1 q := by
            intro s q
            rw [find, ← hn']; simp [Node.statics, lookup_assocSet]
          have hoth : ∀ s q, (∀ q', q ≠ .lit (c :: name) :: q') → find s n' q = find s n q := by
            intro s q hq
            cases q with
            | nil => rw [find, find, ← hn']; rfl
            | cons a q =>
              cases a with
              | lit t =>
                have : t ≠ c :: name := by rintro rfl; exact hq q rfl
                rw [find, find, ← hn']; simp [Node.statics, lookup_assocSet, this]
              | wild _ => rw [find, find, ← hn']; rfl
              | par m => rw [find, find, ← hn']; rfl
          rcases ih seen child with ⟨h1, h2⟩ | ⟨h1, h2, pat, h3, h4, h5, h6, h7⟩
          · refine .inl ⟨h1, ?_⟩
            intro s q
            by_cases hq : ∃ q', q = .lit (c :: name) :: q'
            · obtain ⟨q', rfl⟩ := hq
              show find s n' _ = _
              rw [hfn, hfc, h2]
            · exact hoth s q (fun q' e => hq ⟨q', e⟩)
          · refine .inr ⟨h1, h2, .lit (c :: name) :: pat, .cons (.lit hc42 hc58) h3, ?_, ?_, ?_, ?_⟩
            · intro m hm
              cases pat with
              | nil => simp at hm
              | cons a pat =>
                simp at hm
                exact h4 m hm
            · simpa only [List.filterMap_cons, Seg.name] using h5
            · simpa only [List.filterMap_cons, Seg.name] using h6
            · intro s q
              show find s n' _ = _
              by_cases hq : ∃ q', q = .lit (c :: name) :: q'
              · obtain ⟨q', rfl⟩ := hq
                rw [hfn, hfc, h7]
                by_cases e2 : s = slot <;> by_cases e3 : q' = pat <;> simp [e2, e3]
              · rw [hoth s q (fun q' e => hq ⟨q', e⟩), if_neg]
                rintro ⟨_, rfl⟩
                exact hq ⟨_, rfl⟩

/-! ### matching on views -/

/-- Pattern matching on views into the path. -/
inductive SegMatch (path : Bytes) : List Seg → List View → List (Bytes × Bytes) → Prop
  | nil : SegMatch path [] [] []
  | lit {v ps vs bs} : SegMatch path ps vs bs → SegMatch path (.lit (v.text path) :: ps) (v :: vs) bs
  | par {n v ps vs bs} : SegMatch path ps vs bs →
      SegMatch path (.par n :: ps) (v :: vs) ((n, v.text path) :: bs)
  | wildEmpty {n} : SegMatch path [.wild n] [] [(n, [])]
  | wildRest {n v vs} :
      SegMatch path [.wild n] (v :: vs) [(n, capture path v ((v :: vs).getLast (by simp)))]

/-- Setting parameters one after the other. -/
def applyBs (ps : Params) (bs : List (Bytes × Bytes)) : Params :=
  bs.foldl (fun ps b => ps.set b.1 b.2) ps

/-- The outcome of matching, described by the handlers stored below a node. -/
def Best (path : Bytes) (slot : Nat) (n : Node H) (segs : List View) (ps : Params) :
    Option (Params × H) → Prop
  | none => ∀ q bs, SegMatch path q segs bs → find slot n q = none
  | some (ps', h) => ∃ pat bs, find slot n pat = some h ∧ SegMatch path pat segs bs ∧
      ps' = applyBs ps bs ∧
      ∀ q bs', SegMatch path q segs bs' → find slot n q ≠ none → Prefer pat q

/-- The static branch of `matchRec`. -/
def litBranch (path : Bytes) (slot : Nat) (n : Node H) (v : View) (vs : List View) (ps : Params) :
    Option (Params × H) :=
  match n.statics.lookup (v.text path) with
  | some c => matchRec path slot c vs ps
  | none => none

/-- The parameter branch of `matchRec`. -/
def parBranch (path : Bytes) (slot : Nat) (n : Node H) (v : View) (vs : List View) (ps : Params) :
    Option (Params × H) :=
  match n.param with
  | some (nm, c) => matchRec path slot c vs (ps.set nm (v.text path))
  | none => none

/-- The wildcard branch of `matchRec`. -/
def wildBranch (path : Bytes) (slot : Nat) (n : Node H) (v : View) (vs : List View) (ps : Params) :
    Option (Params × H) :=
  match n.wild with
  | some (nm, c) =>
    match c.handlers slot with
    | some h => some (ps.set nm (capture path v ((v :: vs).getLast (by simp))), h)
    | none => none
  | none => none

theorem matchRec_cons (path : Bytes) (slot : Nat) (n : Node H) (v : View) (vs : List View) (ps : Params) :
    matchRec path slot n (v :: vs) ps = match litBranch path slot n v vs ps with
      | some r => some r
      | none => match parBranch path slot n v vs ps with
        | some r => some r
        | none => wildBranch path slot n v vs ps := by
  rw [matchRec]; rfl

/-- Outcome of the static branch. -/
def BestLit (path : Bytes) (slot : Nat) (n : Node H) (v : View) (vs : List View) (ps : Params) :
    Option (Params × H) → Prop
  | none => ∀ q bs, SegMatch path q vs bs → find slot n (.lit (v.text path) :: q) = none
  | some (ps', h) => ∃ pat bs, find slot n (.lit (v.text path) :: pat) = some h ∧
      SegMatch path pat vs bs ∧ ps' = applyBs ps bs ∧
      ∀ q bs', SegMatch path q vs bs' → find slot n (.lit (v.text path) :: q) ≠ none → Prefer pat q

/-- Outcome of the parameter branch. -/
def BestPar (path : Bytes) (slot : Nat) (n : Node H) (v : View) (vs : List View) (ps : Params) :
    Option (Params × H) → Prop
  | none => ∀ m q bs, SegMatch path q vs bs → find slot n (.par m :: q) = none
  | some (ps', h) => ∃ m pat bs, find slot n (.par m :: pat) = some h ∧
      SegMatch path pat vs bs ∧ ps' = applyBs ps ((m, v.text path) :: bs) ∧
      ∀ m' q bs', SegMatch path q vs bs' → find slot n (.par m' :: q) ≠ none → Prefer pat q

theorem matchRec_best (path : Bytes) (slot : Nat) (n : Node H) (segs : List View) (ps : Params) :
    Best path slot n segs ps (matchRec path slot n segs ps) := by
  induction segs generalizing n ps with
  | nil =>
    rw [matchRec]
    split
    · rename_i h hh
      exact ⟨[], [], by rw [find_nil]; exact hh, .nil, rfl, fun _ _ _ _ => .nil⟩
    · rename_i hh
      split
      · rename_i nm c hw
        split
        · rename_i h hc
          refine ⟨[.wild nm], [(nm, [])], by rw [find]; simp [hw, hc], .wildEmpty, rfl, ?_⟩
          intro q bs' hq hf
          cases hq with
          | nil => rw [find_nil] at hf; exact absurd hh hf
          | wildEmpty => exact .eq rfl .nil
        · rename_i hc
          intro q bs hq
          cases hq with
          | nil => rw [find_nil]; exact hh
          | wildEmpty => rw [find]; simp [hw, hc]
      · rename_i hw
        intro q bs hq
        cases hq with
        | nil => rw [find_nil]; exact hh
        | wildEmpty => rw [find]; simp [hw]
  | cons v vs ih =>
    rw [matchRec_cons]
    generalize hr1 : litBranch path slot n v vs ps = r1
    have hb1 : BestLit path slot n v vs ps r1 := by
      have hf : ∀ q, find slot n (.lit (v.text path) :: q) =
          match n.statics.lookup (v.text path) with | some c => find slot c q | none => none := by
        intro q; rw [find]
      cases hl : n.statics.lookup (v.text path) with
      | none =>
        simp only [litBranch, hl] at hr1; subst hr1
        intro q bs _
        rw [hf, hl]
      | some c =>
        simp only [litBranch, hl] at hr1
        have := ih c ps
        rw [hr1] at this
        cases r1 with
        | none => intro q bs hq; rw [hf, hl]; exact this q bs hq
        | some r => simp only [BestLit, hf, hl]; exact this
    cases r1 with
    | some r =>
      obtain ⟨ps', h⟩ := r
      obtain ⟨pat, bs, h1, h2, h3, h4⟩ := hb1
      refine ⟨_, _, h1, .lit h2, h3, ?_⟩
      intro q bs' hq hf
      cases hq with
      | lit hq => exact .eq rfl (h4 _ _ hq hf)
      | par _ => exact .lt (by simp [Seg.kind])
      | wildRest => exact .lt (by simp [Seg.kind])
    | none =>
      generalize hr2 : parBranch path slot n v vs ps = r2
      have hb2 : BestPar path slot n v vs ps r2 := by
        cases hl : n.param with
        | none =>
          simp only [parBranch, hl] at hr2; subst hr2
          intro m q bs _
          rw [find, hl]
        | some p =>
          obtain ⟨nm, c⟩ := p
          simp only [parBranch, hl] at hr2
          have := ih c (ps.set nm (v.text path))
          rw [hr2] at this
          have hf : ∀ m q, find slot n (.par m :: q) = if m = nm then find slot c q else none := by
            intro m q; rw [find, hl]
          cases r2 with
          | none =>
            intro m q bs hq
            rw [hf]; split
            · exact this q bs hq
            · rfl
          | some r =>
            obtain ⟨ps', h⟩ := r
            obtain ⟨pat, bs, h1, h2, h3, h4⟩ := this
            refine ⟨nm, pat, bs, by rw [hf]; simpa using h1, h2, h3, ?_⟩
            intro m' q bs' hq hne
            rw [hf] at hne
            by_cases hm : m' = nm
            · exact h4 q bs' hq (by simpa [hm] using hne)
            · simp [hm] at hne
      cases r2 with
      | some r =>
        obtain ⟨ps', h⟩ := r
        obtain ⟨m, pat, bs, h1, h2, h3, h4⟩ := hb2
        refine ⟨_, _, h1, .par h2, h3, ?_⟩
        intro q bs' hq hf
        cases hq with
        | lit hq => exact absurd (hb1 _ _ hq) hf
        | par hq => exact .eq rfl (h4 _ _ _ hq hf)
        | wildRest => exact .lt (by simp [Seg.kind])
      | none =>
        dsimp only
        unfold wildBranch
        split
        · rename_i nm c hw
          split
          · rename_i h hc
            refine ⟨[.wild nm], _, by rw [find]; simp [hw, hc], .wildRest, rfl, ?_⟩
            intro q bs' hq hf
            cases hq with
            | lit hq => exact absurd (hb1 _ _ hq) hf
            | par hq => exact absurd (hb2 _ _ _ hq) hf
            | wildRest => exact .eq rfl .nil
          · rename_i hc
            intro q bs hq
            cases hq with
            | lit hq => exact hb1 _ _ hq
            | par hq => exact hb2 _ _ _ hq
            | wildRest => rw [find]; simp [hw, hc]
        · rename_i hw
          intro q bs hq
          cases hq with
          | lit hq => exact hb1 _ _ hq
          | par hq => exact hb2 _ _ _ hq
          | wildRest => rw [find]; simp [hw]

/-- Two matching stored patterns of equal priority are the same pattern. -/
theorem find_unique (path : Bytes) (slot slot' : Nat) (n : Node H) (segs : List View) (p q : List Seg)
    (bs bs' : List (Bytes × Bytes)) (hp : SegMatch path p segs bs) (hq : SegMatch path q segs bs')
    (fp : find slot n p ≠ none) (fq : find slot' n q ≠ none) (h1 : Prefer p q) (h2 : Prefer q p) :
    p = q ∧ bs = bs' := by
  induction hp generalizing n q bs' with
  | nil => cases h2; cases hq; exact ⟨rfl, rfl⟩
  | lit hp ih =>
    cases hq with
    | lit hq =>
      rw [find] at fp fq
      cases h1 with
      | lt h => simp [Seg.kind] at h
      | eq _ h1 =>
      cases h2 with
      | lt h => simp [Seg.kind] at h
      | eq _ h2 =>
      split at fp
      · rename_i c hc
        simp only [hc] at fq
        have := ih c _ _ hq fp fq h1 h2
        simp [this]
      · exact absurd rfl fp
    | par _ => cases h2 with
      | lt h => simp [Seg.kind] at h
      | eq h _ => simp [Seg.kind] at h
    | wildRest => cases h2 with
      | lt h => simp [Seg.kind] at h
      | eq h _ => simp [Seg.kind] at h
  | par hp ih =>
    cases hq with
    | lit _ => cases h1 with
      | lt h => simp [Seg.kind] at h
      | eq h _ => simp [Seg.kind] at h
    | par hq =>
      rw [find] at fp fq
      cases h1 with
      | lt h => simp [Seg.kind] at h
      | eq _ h1 =>
      cases h2 with
      | lt h => simp [Seg.kind] at h
      | eq _ h2 =>
      split at fp
      · rename_i nm c hc
        simp only [hc] at fq
        split at fp
        · split at fq
          · rename_i e1 e2
            have := ih c _ _ hq fp fq h1 h2
            simp [this, e1, e2]
          · exact absurd rfl fq
        · exact absurd rfl fp
      · exact absurd rfl fp
    | wildRest => cases h2 with
      | lt h => simp [Seg.kind] at h
      | eq h _ => simp [Seg.kind] at h
  | wildEmpty =>
    cases hq with
    | nil => cases h1
    | wildEmpty =>
      rw [find] at fp fq
      split at fp
      · rename_i nm c hc
        simp only [hc] at fq
        split at fp
        · split at fq
          · rename_i e1 e2; simp [e1.1, e2.1]
          · exact absurd rfl fq
        · exact absurd rfl fp
      · exact absurd rfl fp
  | wildRest =>
    cases hq with
    | lit _ => cases h1 with
      | lt h => simp [Seg.kind] at h
      | eq h _ => simp [Seg.kind] at h
    | par _ => cases h1 with
      | lt h => simp [Seg.kind] at h
      | eq h _ => simp [Seg.kind] at h
    | wildRest =>
      rw [find] at fp fq
      split at fp
      · rename_i nm c hc
        simp only [hc] at fq
        split at fp
        · split at fq
          · rename_i e1 e2; simp [e1.1, e2.1]
          · exact absurd rfl fq
        · exact absurd rfl fp
      · exact absurd rfl fp

/-- The match depends only on the handlers stored for patterns that match the path. -/
theorem matchRec_congr (path : Bytes) (slot : Nat) (n n' : Node H) (segs : List View) (ps : Params)
    (h : ∀ q bs, SegMatch path q segs bs → find slot n q = find slot n' q) :
    matchRec path slot n segs ps = matchRec path slot n' segs ps := by
  have b1 := matchRec_best path slot n segs ps
  have b2 := matchRec_best path slot n' segs ps
  cases e1 : matchRec path slot n segs ps with
  | none =>
    cases e2 : matchRec path slot n' segs ps with
    | none => rfl
    | some r =>
      obtain ⟨ps', hd⟩ := r
      rw [e1] at b1; rw [e2] at b2
      obtain ⟨pat, bs, f1, f2, _⟩ := b2
      have := b1 pat bs f2
      rw [h pat bs f2, f1] at this
      simp at this
  | some r =>
    obtain ⟨ps', hd⟩ := r
    rw [e1] at b1
    obtain ⟨pat, bs, f1, f2, f3, f4⟩ := b1
    cases e2 : matchRec path slot n' segs ps with
    | none =>
      rw [e2] at b2
      have := b2 pat bs f2
      rw [← h pat bs f2, f1] at this
      simp at this
    | some r' =>
      obtain ⟨ps'', hd'⟩ := r'
      rw [e2] at b2
      obtain ⟨pat', bs', g1, g2, g3, g4⟩ := b2
      have p1 := f4 pat' bs' g2 (by rw [h _ _ g2, g1]; simp)
      have p2 := g4 pat bs f2 (by rw [← h _ _ f2, f1]; simp)
      obtain ⟨rfl, rfl⟩ := find_unique path slot slot n segs pat pat' bs bs' f2 g2
        (by rw [f1]; simp) (by rw [h _ _ g2, g1]; simp) p1 p2
      rw [h _ _ f2, g1] at f1
      simp at f1
      rw [f3, g3, f1]

end Verif.Router
