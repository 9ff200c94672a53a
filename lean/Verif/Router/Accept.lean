import Verif.Router.Theorems

/-! Which registrations are accepted: lemmas for C53. -/

namespace Verif.Router
open Verif.Utility Verif.Router.Spec

variable {H : Type}

/-- The capture name of a segment, of the wildcard (`w`) or parameter kind. -/
def capName (w : Bool) : Seg → Option Bytes
  | .lit _ => none
  | .par n => if w then none else some n
  | .wild n => if w then some n else none

/-- The parameter (`w = false`) or wildcard (`w = true`) name fixed in the tree after a prefix. -/
def nameAt (w : Bool) : Node H → List Seg → Option Bytes
  | n, [] => if w then n.wild.map Prod.fst else n.param.map Prod.fst
  | n, .lit s :: c =>
    match n.statics.lookup s with
    | some ch => nameAt w ch c
    | none => none
  | n, .par nm :: c =>
    match n.param with
    | some (nm', ch) => if nm = nm' then nameAt w ch c else none
    | none => none
  | _, .wild _ :: _ => none
termination_by _ c => c.length

theorem nameAt_empty (w : Bool) (c : List Seg) : nameAt w (.empty : Node H) c = none := by
  cases c with
  | nil => cases w <;> simp [nameAt, Node.empty, Node.wild, Node.param]
  | cons a c => cases a <;> simp [nameAt, Node.empty, Node.statics, Node.param]

/-- `pat` fits the names already fixed below `n`. -/
def Fits (n : Node H) (pat : List Seg) : Prop :=
  ∀ w c seg rest, pat = c ++ seg :: rest → ∀ a b, capName w seg = some a → nameAt w n c = some b → a = b

/-- `pat` has a capture `b` (of kind `w`) right after the prefix `c`. -/
def CapAt (w : Bool) (pat c : List Seg) (b : Bytes) : Prop :=
  ∃ seg rest, pat = c ++ seg :: rest ∧ capName w seg = some b

theorem capAt_nil (w : Bool) (c : List Seg) (b : Bytes) : ¬ CapAt w [] c b := by
  rintro ⟨seg, rest, h, _⟩; simp at h

theorem capAt_cons_nil (w : Bool) (s : Seg) (pat : List Seg) (b : Bytes) :
    CapAt w (s :: pat) [] b ↔ capName w s = some b := by
  constructor
  · rintro ⟨seg, rest, h, h2⟩; simp at h; rw [h.1]; exact h2
  · intro h; exact ⟨s, pat, rfl, h⟩

theorem capAt_cons (w : Bool) (s a : Seg) (pat c : List Seg) (b : Bytes) :
    CapAt w (s :: pat) (a :: c) b ↔ a = s ∧ CapAt w pat c b := by
  constructor
  · rintro ⟨seg, rest, h, h2⟩; simp at h; exact ⟨h.1.symm, seg, rest, h.2, h2⟩
  · rintro ⟨rfl, seg, rest, h, h2⟩; exact ⟨seg, rest, by rw [h]; rfl, h2⟩

theorem fits_iff (n : Node H) (pat : List Seg) :
    Fits n pat ↔ ∀ w c a b, CapAt w pat c a → nameAt w n c = some b → a = b := by
  constructor
  · rintro h w c a b ⟨seg, rest, h1, h2⟩ h3; exact h w c seg rest h1 a b h2 h3
  · intro h w c seg rest h1 a b h2 h3; exact h w c a b ⟨seg, rest, h1, h2⟩ h3

theorem fits_nil (n : Node H) : Fits n [] := by
  rw [fits_iff]; intro w c a b h; exact absurd h (capAt_nil w c a)

theorem fits_lit (n : Node H) (s : Bytes) (pat : List Seg) :
    Fits n (.lit s :: pat) ↔ Fits ((n.statics.lookup s).getD .empty) pat := by
  rw [fits_iff, fits_iff]
  have hna : ∀ w c, nameAt w n (.lit s :: c) = nameAt w ((n.statics.lookup s).getD .empty) c := by
    intro w c
    rw [nameAt]
    cases n.statics.lookup s <;> simp [nameAt_empty]
  constructor
  · intro h w c a b h1 h2
    exact h w (.lit s :: c) a b ((capAt_cons ..).2 ⟨rfl, h1⟩) (by rw [hna]; exact h2)
  · intro h w c a b h1 h2
    cases c with
    | nil => rw [capAt_cons_nil] at h1; simp [capName] at h1
    | cons x c =>
      rw [capAt_cons] at h1
      obtain ⟨rfl, h1⟩ := h1
      rw [hna] at h2
      exact h w c a b h1 h2

theorem fits_par (n : Node H) (nm : Bytes) (pat : List Seg) :
    Fits n (.par nm :: pat) ↔ match n.param with
      | none => True
      | some (nm', ch) => nm = nm' ∧ Fits ch pat := by
  rw [fits_iff]
  cases hp : n.param with
  | none =>
    simp only [iff_true]
    intro w c a b h1 h2
    cases c with
    | nil =>
      rw [capAt_cons_nil] at h1
      cases w <;> simp [capName] at h1
      simp [nameAt, hp] at h2
    | cons x c =>
      rw [capAt_cons] at h1
      obtain ⟨rfl, h1⟩ := h1
      rw [nameAt, hp] at h2
      simp at h2
  | some q =>
    obtain ⟨nm', ch⟩ := q
    simp only []
    rw [fits_iff]
    constructor
    · intro h
      have e : nm = nm' := h false [] nm nm' ((capAt_cons_nil ..).2 (by simp [capName])) (by simp [nameAt, hp])
      refine ⟨e, ?_⟩
      intro w c a b h1 h2
      exact h w (.par nm :: c) a b ((capAt_cons ..).2 ⟨rfl, h1⟩) (by rw [nameAt, hp]; simp [e, h2])
    · rintro ⟨rfl, h⟩ w c a b h1 h2
      cases c with
      | nil =>
        rw [capAt_cons_nil] at h1
        cases w <;> simp [capName] at h1
        simp [nameAt, hp] at h2
        rw [← h1, ← h2]
      | cons x c =>
        rw [capAt_cons] at h1
        obtain ⟨rfl, h1⟩ := h1
        rw [nameAt, hp] at h2
        simp at h2
        exact h w c a b h1 h2

theorem fits_wild (n : Node H) (nm : Bytes) :
    Fits n [.wild nm] ↔ match n.wild with
      | none => True
      | some (nm', _) => nm = nm' := by
  rw [fits_iff]
  have key : (∀ w c a b, CapAt w [.wild nm] c a → nameAt w n c = some b → a = b) ↔
      ∀ b, nameAt true n [] = some b → nm = b := by
    constructor
    · intro h b hb; exact h true [] nm b ((capAt_cons_nil ..).2 (by simp [capName])) hb
    · intro h w c a b h1 h2
      cases c with
      | nil =>
        rw [capAt_cons_nil] at h1
        cases w <;> simp [capName] at h1
        rw [← h1]; exact h b h2
      | cons x c =>
        rw [capAt_cons] at h1
        exact absurd h1.2 (capAt_nil _ _ _)
  rw [key, nameAt]
  cases n.wild with
  | none => simp
  | some q => obtain ⟨a, b⟩ := q; simp

/-- What `insert` needs of the pattern. -/
def Wf (seen : List Bytes) (pat : List Seg) : Prop :=
  (∀ m, Seg.wild m ∈ pat.dropLast → False) ∧ (pat.filterMap Seg.name).Nodup ∧
    ∀ m ∈ pat.filterMap Seg.name, m ∉ seen

theorem wf_nil (seen : List Bytes) : Wf seen [] := by
  refine ⟨?_, ?_, ?_⟩ <;> simp

theorem wf_lit (seen : List Bytes) (s : Bytes) (pat : List Seg) : Wf seen (.lit s :: pat) ↔ Wf seen pat := by
  unfold Wf
  have e : (Seg.lit s :: pat).filterMap Seg.name = pat.filterMap Seg.name := by
    rw [List.filterMap_cons]; rfl
  rw [e]
  cases pat with
  | nil => simp
  | cons a pat => simp

theorem wf_par (seen : List Bytes) (s : Bytes) (pat : List Seg) :
    Wf seen (.par s :: pat) ↔ s ∉ seen ∧ Wf (s :: seen) pat := by
  unfold Wf
  have e : (∀ m, Seg.wild m ∈ (Seg.par s :: pat).dropLast → False) ↔ ∀ m, Seg.wild m ∈ pat.dropLast → False := by
    cases pat with
    | nil => simp
    | cons a pat => simp
  rw [e, List.filterMap_cons]
  simp only [Seg.name, List.nodup_cons, List.mem_cons, not_or]
  constructor
  · rintro ⟨h1, ⟨h2, h3⟩, h4⟩
    exact ⟨h4 s (Or.inl rfl), h1, h3, fun m hm => ⟨fun e => h2 (e ▸ hm), h4 m (Or.inr hm)⟩⟩
  · rintro ⟨h0, h1, h3, h4⟩
    refine ⟨h1, ⟨fun hm => (h4 s hm).1 rfl, h3⟩, ?_⟩
    rintro m (rfl | hm)
    · exact h0
    · exact (h4 m hm).2

theorem wf_wild (seen : List Bytes) (s : Bytes) (pat : List Seg) :
    Wf seen (.wild s :: pat) ↔ s ∉ seen ∧ pat = [] := by
  unfold Wf
  cases pat with
  | nil => simp [Seg.name]
  | cons a pat =>
    simp only [List.dropLast_cons_cons, List.mem_cons, reduceCtorEq, and_false, iff_false]
    rintro ⟨h, _⟩
    exact h s (Or.inl rfl)

theorem areSegs_nil_iff (pat : List Seg) : AreSegs [] pat ↔ pat = [] := by
  constructor
  · intro h; cases h; rfl
  · rintro rfl; exact .nil

/-- `insert` succeeds exactly on well-formed patterns that fit the names in the tree; and then the
names in the tree are the old ones and those of the pattern. -/
theorem insert_ok (slot : Nat) (h : H) (seen : List Bytes) (n : Node H) (segs : List Bytes) :
    ((insert slot h seen n segs).2 = true ↔
      slot < slotCount ∧ ∃ pat, AreSegs segs pat ∧ Wf seen pat ∧ Fits n pat) := by
  induction segs generalizing seen n with
  | nil =>
    rw [insert_nil]
    simp only [areSegs_nil_iff, exists_eq_left, wf_nil, fits_nil, and_true]
    split <;> simp <;> omega
  | cons seg rest ih =>
    rw [insert.eq_def]
    simp only []
    cases seg with
    | nil =>
      simp only [Bool.false_eq_true, false_iff, not_and, not_exists]
      rintro _ pat hp _
      cases hp with
      | cons h1 _ => cases h1
    | cons c name =>
      simp only []
      by_cases hc : c = 42
      · subst hc
        simp only [beq_self_eq_true, if_true]
        have hinv : ∀ pat, AreSegs ((42 :: name) :: rest) pat →
            name ≠ [] ∧ ∃ p2, pat = .wild name :: p2 ∧ AreSegs rest p2 := by
          intro pat hp
          cases hp with
          | cons h1 h2 =>
            cases h1 with
            | wild hn => exact ⟨hn, _, rfl, h2⟩
            | lit h3 _ => exact absurd rfl h3
        by_cases hn : name = []
        · rw [if_pos hn]
          simp only [Bool.false_eq_true, false_iff, not_and, not_exists]
          intro _ pat hp _; exact absurd hn (hinv pat hp).1
        rw [if_neg hn]
        by_cases hr : rest = []
        · rw [if_neg (by simpa using hr)]
          subst hr
          by_cases hs : name ∈ seen
          · rw [if_pos hs]
            simp only [Bool.false_eq_true, false_iff, not_and, not_exists]
            intro _ pat hp hwf
            obtain ⟨_, p2, rfl, _⟩ := hinv pat hp
            exact absurd hs ((wf_wild ..).1 hwf).1
          rw [if_neg hs]
          have hex : (∃ pat, AreSegs [42 :: name] pat ∧ Wf seen pat ∧ Fits n pat) ↔ Fits n [.wild name] := by
            constructor
            · rintro ⟨pat, hp, hw, hf⟩
              obtain ⟨_, p2, rfl, h2⟩ := hinv pat hp
              rw [areSegs_nil_iff] at h2
              subst h2; exact hf
            · intro hf
              exact ⟨[.wild name], .cons (.wild hn) .nil, (wf_wild ..).2 ⟨hs, rfl⟩, hf⟩
          rw [hex, fits_wild]
          cases hw : n.wild with
          | none =>
            simp only [insert_nil, and_true]
            split <;> simp <;> omega
          | some q =>
            obtain ⟨nm, ch⟩ := q
            simp only []
            by_cases hnm : nm = name
            · rw [if_neg (by simpa using hnm)]
              simp only [insert_nil]
              split <;> simp [hnm] <;> omega
            · rw [if_pos (by simpa using hnm)]
              simp [Ne.symm hnm]
        · rw [if_pos (by simpa using hr)]
          simp only [Bool.false_eq_true, false_iff, not_and, not_exists]
          intro _ pat hp hwf
          obtain ⟨_, p2, rfl, h2⟩ := hinv pat hp
          have := ((wf_wild ..).1 hwf).2
          subst this
          cases h2; exact absurd rfl hr
      · have hcb : (c == 42) = false := by simpa using hc
        simp only [hcb, Bool.false_eq_true, if_false]
        by_cases hc2 : c = 58
        · subst hc2
          simp only [beq_self_eq_true, if_true]
          have hinv : ∀ pat, AreSegs ((58 :: name) :: rest) pat →
              name ≠ [] ∧ ∃ p2, pat = .par name :: p2 ∧ AreSegs rest p2 := by
            intro pat hp
            cases hp with
            | cons h1 h2 =>
              cases h1 with
              | par hn => exact ⟨hn, _, rfl, h2⟩
              | lit _ h3 => exact absurd rfl h3
          by_cases hn : name = []
          · rw [if_pos hn]
            simp only [Bool.false_eq_true, false_iff, not_and, not_exists]
            intro _ pat hp _; exact absurd hn (hinv pat hp).1
          rw [if_neg hn]
          by_cases hs : name ∈ seen
          · rw [if_pos hs]
            simp only [Bool.false_eq_true, false_iff, not_and, not_exists]
            intro _ pat hp hwf
            obtain ⟨_, p2, rfl, _⟩ := hinv pat hp
            exact absurd hs ((wf_par ..).1 hwf).1
          rw [if_neg hs]
          have hex : (∃ pat, AreSegs ((58 :: name) :: rest) pat ∧ Wf seen pat ∧ Fits n pat) ↔
              ∃ p2, AreSegs rest p2 ∧ Wf (name :: seen) p2 ∧ Fits n (.par name :: p2) := by
            constructor
            · rintro ⟨pat, hp, hw, hf⟩
              obtain ⟨_, p2, rfl, h2⟩ := hinv pat hp
              exact ⟨p2, h2, ((wf_par ..).1 hw).2, hf⟩
            · rintro ⟨p2, h2, hw, hf⟩
              exact ⟨_, .cons (.par hn) h2, (wf_par ..).2 ⟨hs, hw⟩, hf⟩
          rw [hex]
          simp only [fits_par]
          cases hp : n.param with
          | none =>
            simp only []
            rw [ih]
            simp only [and_true]
            constructor
            · rintro ⟨h1, p, h2, h3, _⟩; exact ⟨h1, p, h2, h3⟩
            · rintro ⟨h1, p, h2, h3⟩
              refine ⟨h1, p, h2, h3, ?_⟩
              rw [fits_iff]; intro w c a b _ hb; rw [nameAt_empty] at hb; simp at hb
          | some q =>
            obtain ⟨nm, ch⟩ := q
            simp only []
            by_cases hnm : nm = name
            · rw [if_neg (by simpa using hnm)]
              simp only []
              rw [ih]
              simp [hnm]
            · rw [if_pos (by simpa using hnm)]
              simp [Ne.symm hnm]
        · have hcb2 : (c == 58) = false := by simpa using hc2
          simp only [hcb2, Bool.false_eq_true, if_false]
          rw [ih]
          have hinv : ∀ pat, AreSegs ((c :: name) :: rest) pat →
              ∃ p2, pat = .lit (c :: name) :: p2 ∧ AreSegs rest p2 := by
            intro pat hp
            cases hp with
            | cons h1 h2 =>
              cases h1 with
              | wild hn => exact absurd rfl hc
              | par hn => exact absurd rfl hc2
              | lit _ h3 => exact ⟨_, rfl, h2⟩
          constructor
          · rintro ⟨h1, p, h2, h3, h4⟩
            exact ⟨h1, _, .cons (.lit hc hc2) h2, (wf_lit ..).2 h3, (fits_lit ..).2 h4⟩
          · rintro ⟨h1, p, h2, h3, h4⟩
            obtain ⟨p2, rfl, h5⟩ := hinv p h2
            exact ⟨h1, p2, h5, (wf_lit ..).1 h3, (fits_lit ..).1 h4⟩

/-- Names already fixed in the tree stay, whether or not the call throws. -/
theorem insert_keeps (slot : Nat) (h : H) (seen : List Bytes) (n : Node H) (segs : List Bytes)
    (w : Bool) (c : List Seg) (b : Bytes) (hb : nameAt w n c = some b) :
    nameAt w (insert slot h seen n segs).1 c = some b := by
  induction segs generalizing seen n c with
  | nil =>
    rw [insert_nil]
    split
    · exact hb
    · rw [← hb]
      cases c with
      | nil => simp [nameAt, Node.wild, Node.param]
      | cons a c => cases a <;> simp [nameAt, Node.statics, Node.param]
  | cons seg rest ih =>
    rw [insert.eq_def]
    simp only []
    cases seg with
    | nil => exact hb
    | cons x name =>
      simp only []
      split
      · split
        · exact hb
        · split
          · exact hb
          · split
            · exact hb
            · split
              · rename_i hw
                rw [← hb]
                cases c with
                | nil =>
                  cases w
                  · simp [nameAt, Node.param]
                  · simp [nameAt, hw] at hb
                | cons a c => cases a <;> simp [nameAt, Node.statics, Node.param]
              · rename_i nm ch hw
                split
                · exact hb
                · rename_i hnm
                  rw [← hb]
                  cases c with
                  | nil =>
                    cases w
                    · simp [nameAt, Node.param]
                    · rw [nameAt, nameAt, hw]; simp [Node.wild]
                  | cons a c => cases a <;> simp [nameAt, Node.statics, Node.param]
      · split
        · split
          · exact hb
          · split
            · exact hb
            · split
              · rename_i hp
                cases c with
                | nil =>
                  cases w
                  · simp [nameAt, hp] at hb
                  · rw [← hb]; simp [nameAt, Node.wild]
                | cons a c =>
                  cases a with
                  | lit s => rw [← hb]; simp [nameAt, Node.statics]
                  | wild s => rw [← hb]; simp [nameAt]
                  | par s => rw [nameAt, hp] at hb; simp at hb
              · rename_i nm ch hp
                split
                · exact hb
                · cases c with
                  | nil =>
                    rw [← hb]
                    cases w
                    · rw [nameAt, nameAt, hp]; simp [Node.param]
                    · simp [nameAt, Node.wild]
                  | cons a c =>
                    cases a with
                    | lit s => rw [← hb]; simp [nameAt, Node.statics]
                    | wild s => rw [← hb]; simp [nameAt]
                    | par s =>
                      rw [nameAt, hp] at hb
                      rw [nameAt]
                      simp only [Node.param]
                      simp only [] at hb
                      split at hb
                      · rename_i e
                        rw [if_pos e]
                        exact ih _ _ _ hb
                      · simp at hb
        · cases c with
          | nil => rw [← hb]; simp [nameAt, Node.wild, Node.param]
          | cons a c =>
            cases a with
            | lit s =>
              rw [nameAt] at hb ⊢
              simp only [Node.statics]
              rw [lookup_assocSet]
              by_cases e : s = x :: name
              · rw [if_pos e]
                simp only []
                subst e
                cases hl : n.statics.lookup (x :: name) with
                | none => rw [hl] at hb; simp at hb
                | some ch =>
                  rw [hl] at hb
                  have e2 : (List.lookup (x :: name) n.statics).getD .empty = ch := by rw [hl]; rfl
                  exact ih _ _ _ (by
                    show nameAt w ((List.lookup (x :: name) n.statics).getD .empty) c = some b
                    rw [e2]; exact hb)
              · rw [if_neg e]; exact hb
            | par s => rw [← hb]; simp [nameAt, Node.param]
            | wild s => rw [← hb]; simp [nameAt]

/-- After an accepted call the names in the tree are the old ones and those of the pattern. -/
theorem insert_names (slot : Nat) (h : H) (seen : List Bytes) (n : Node H) (segs : List Bytes) (pat : List Seg)
    (hok : (insert slot h seen n segs).2 = true) (hp : AreSegs segs pat) (w : Bool) (c : List Seg) (b : Bytes) :
    nameAt w (insert slot h seen n segs).1 c = some b ↔ (nameAt w n c = some b ∨ CapAt w pat c b) := by
  induction segs generalizing seen n c pat with
  | nil =>
    rw [areSegs_nil_iff] at hp
    subst hp
    rw [insert_nil] at hok ⊢
    simp only [capAt_nil, or_false]
    split
    · rfl
    · cases c with
      | nil => simp [nameAt, Node.wild, Node.param]
      | cons a c => cases a <;> simp [nameAt, Node.statics, Node.param]
  | cons seg rest ih =>
    rw [insert.eq_def] at hok ⊢
    simp only [] at hok ⊢
    cases hp with
    | @cons _ p _ ps h1 h2 =>
      cases h1 with
      | @wild name hn =>
        simp only [beq_self_eq_true, if_true] at hok ⊢
        rw [if_neg hn] at hok ⊢
        by_cases hr : rest = []
        · rw [if_neg (by simpa using hr)] at hok ⊢
          subst hr
          rw [areSegs_nil_iff] at h2
          subst h2
          by_cases hs : name ∈ seen
          · rw [if_pos hs] at hok; simp at hok
          rw [if_neg hs] at hok ⊢
          cases hw : n.wild with
          | none =>
            simp only []
            cases c with
            | nil =>
              rw [capAt_cons_nil]
              cases w
              · simp [nameAt, Node.param, capName]
              · rw [nameAt, nameAt, hw]; simp [Node.wild, capName]
            | cons a c =>
              rw [capAt_cons]
              simp only [capAt_nil, and_false, or_false]
              cases a <;> simp [nameAt, Node.statics, Node.param]
          | some q =>
            obtain ⟨nm, ch⟩ := q
            rw [hw] at hok
            simp only [] at hok ⊢
            by_cases hnm : nm = name
            · rw [if_neg (by simpa using hnm)]
              subst hnm
              cases c with
              | nil =>
                rw [capAt_cons_nil]
                cases w
                · simp [nameAt, Node.param, capName]
                · rw [nameAt, nameAt, hw]; simp [Node.wild, capName]
              | cons a c =>
                rw [capAt_cons]
                simp only [capAt_nil, and_false, or_false]
                cases a <;> simp [nameAt, Node.statics, Node.param]
            · rw [if_pos (by simpa using hnm)] at hok; simp at hok
        · rw [if_pos (by simpa using hr)] at hok; simp at hok
      | @par name hn =>
        simp only [] at hok ⊢
        rw [if_neg (by decide), if_pos (by decide), if_neg hn] at hok ⊢
        by_cases hs : name ∈ seen
        · rw [if_pos hs] at hok; simp at hok
        rw [if_neg hs] at hok ⊢
        cases hpm : n.param with
        | none =>
          rw [hpm] at hok
          simp only [] at hok ⊢
          cases c with
          | nil =>
            rw [capAt_cons_nil]
            cases w
            · rw [nameAt, nameAt, hpm]; simp [Node.param, capName]
            · simp [nameAt, Node.wild, capName]
          | cons a c =>
            rw [capAt_cons]
            cases a with
            | lit s => simp [nameAt, Node.statics]
            | wild s => simp [nameAt]
            | par s =>
              rw [nameAt, nameAt, hpm]
              simp only [Node.param]
              by_cases e : s = name
              · subst e
                rw [if_pos rfl, ih _ _ _ hok h2]
                simp [nameAt_empty]
              · rw [if_neg e]; simp [e]
        | some q =>
          obtain ⟨nm, ch⟩ := q
          rw [hpm] at hok
          simp only [] at hok ⊢
          by_cases hnm : nm = name
          · rw [if_neg (by simpa using hnm)] at hok ⊢
            subst hnm
            simp only [] at hok
            cases c with
            | nil =>
              rw [capAt_cons_nil]
              cases w
              · rw [nameAt, nameAt, hpm]; simp [Node.param, capName]
              · simp [nameAt, Node.wild, capName]
            | cons a c =>
              rw [capAt_cons]
              cases a with
              | lit s => simp [nameAt, Node.statics]
              | wild s => simp [nameAt]
              | par s =>
                rw [nameAt, nameAt, hpm]
                simp only [Node.param]
                by_cases e : s = nm
                · subst e
                  rw [if_pos rfl, if_pos rfl, ih _ _ _ hok h2]
                  simp
                · rw [if_neg e, if_neg e]; simp [e]
          · rw [if_pos (by simpa using hnm)] at hok; simp at hok
      | @lit x s hx1 hx2 =>
        simp only [] at hok ⊢
        rw [if_neg (by simpa using hx1), if_neg (by simpa using hx2)] at hok ⊢
        simp only [] at hok ⊢
        cases c with
        | nil =>
          rw [capAt_cons_nil]
          simp [nameAt, Node.wild, Node.param, capName]
        | cons a c =>
          rw [capAt_cons]
          cases a with
          | par t => simp [nameAt, Node.param]
          | wild t => simp [nameAt]
          | lit t =>
            rw [nameAt, nameAt]
            simp only [Node.statics]
            rw [lookup_assocSet]
            by_cases e : t = x :: s
            · rw [if_pos e]
              subst e
              refine Iff.trans (ih _ _ _ hok h2 c) ?_
              show _ ↔ (match n.statics.lookup (x :: s) with
                | some ch => nameAt w ch c
                | none => none) = some b ∨ _
              cases hl : n.statics.lookup (x :: s) with
              | none => simp [nameAt_empty]
              | some ch => simp
            · rw [if_neg e]; simp [e]

end Verif.Router
