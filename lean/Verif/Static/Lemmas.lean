import Verif.Static.Spec

namespace Verif.Static
open Verif Verif.Utility

/-! ## Splitting and joining paths -/

theorem splitSlash_ne (s : Bytes) : splitSlash s ≠ [] := by
  induction s with
  | nil => simp [splitSlash]
  | cons c s ih =>
    unfold splitSlash
    split
    · simp
    · split <;> simp

theorem splitSlash_noslash (s : Bytes) : ∀ c ∈ splitSlash s, c!"/" ∉ c := by
  induction s with
  | nil => simp [splitSlash]
  | cons x s ih =>
    unfold splitSlash
    split
    · intro c hc
      rcases List.mem_cons.1 hc with rfl | hc
      · simp
      · exact ih c hc
    · rename_i hx
      split
      · intro c hc; simp at hc; subst hc; simpa using Ne.symm hx
      · rename_i h t e
        rw [e] at ih
        intro c hc
        rcases List.mem_cons.1 hc with rfl | hc
        · have := ih h (by simp)
          simp only [List.mem_cons, not_or]
          exact ⟨Ne.symm hx, this⟩
        · exact ih c (by simp [hc])

theorem split_noslash {a : Bytes} (h : c!"/" ∉ a) : splitSlash a = [a] := by
  induction a with
  | nil => rfl
  | cons x a ih =>
    simp only [List.mem_cons, not_or] at h
    unfold splitSlash
    rw [if_neg (Ne.symm h.1), ih h.2]

theorem split_append {a : Bytes} (h : c!"/" ∉ a) (s : Bytes) :
    splitSlash (a ++ c!"/" :: s) = a :: splitSlash s := by
  induction a with
  | nil => simp [splitSlash]
  | cons x a ih =>
    simp only [List.mem_cons, not_or] at h
    rw [List.cons_append]
    rw [splitSlash, if_neg (Ne.symm h.1), ih h.2]

theorem split_join : ∀ (l : List Bytes), l ≠ [] → (∀ c ∈ l, c!"/" ∉ c) → splitSlash (joinSlash l) = l
  | [], h, _ => absurd rfl h
  | [a], _, h => by
    rw [joinSlash]; exact split_noslash (h a (by simp))
  | a :: b :: r, _, h => by
    rw [joinSlash, split_append (h a (by simp)), split_join (b :: r) (by simp) (fun c hc => h c (by simp [hc]))]

theorem comps_absStr {l : List Bytes} (hne : l ≠ []) (h : ∀ c ∈ l, c!"/" ∉ c) : comps (absStr l) = l := by
  unfold comps absStr
  rw [splitSlash, if_pos rfl, split_join l hne h]
  rfl

theorem comps_root : comps (absStr []) = [[]] := by decide

/-- A path string extended by a relative string. -/
theorem comps_join : ∀ (l : List Bytes) (s : Bytes), (∀ c ∈ l, c!"/" ∉ c) → l ≠ [] →
    splitSlash (joinSlash l ++ c!"/" :: s) = l ++ splitSlash s
  | [], s, _, h => absurd rfl h
  | [a], s, h, _ => by rw [joinSlash, split_append (h a (by simp))]; rfl
  | a :: b :: r, s, h, _ => by
    rw [joinSlash, List.append_assoc, List.cons_append, split_append (h a (by simp)),
      comps_join (b :: r) s (fun c hc => h c (by simp [hc])) (by simp)]
    rfl

/-! ## Walking -/

theorem walk_nil (fs : FS) (k : Nat) (cur) : walk fs k cur [] = .ok cur := by cases k <;> rfl

theorem walk_notdir {fs : FS} {k : Nat} {cur c rest} (h : fs.node cur ≠ some .dir) :
    walk fs k cur (c :: rest) = .notFound := by rw [walk_eq, if_pos h]

theorem walk_skip {fs : FS} {k : Nat} {cur c rest} (h : fs.node cur = some .dir) (hc : c = [] ∨ c = DOT) :
    walk fs k cur (c :: rest) = walk fs k cur rest := by
  rw [walk_eq, if_neg (by simp [h]), if_pos hc]

theorem walk_up {fs : FS} {k : Nat} {cur rest} (h : fs.node cur = some .dir) :
    walk fs k cur (DOTDOT :: rest) = walk fs k cur.dropLast rest := by
  rw [walk_eq, if_neg (by simp [h]), if_neg (by decide), if_pos rfl]

theorem walk_missing {fs : FS} {k : Nat} {cur c rest} (hc : IsName c)
    (h : fs.node (cur ++ [c]) = none) : walk fs k cur (c :: rest) = .notFound := by
  rw [walk_eq]
  split
  · rfl
  · rw [if_neg (by rintro (h | h); exact hc.1 h; exact hc.2.1 h), if_neg (show ¬ c = DOTDOT from hc.2.2.1)]
    simp [h]

theorem walk_step {fs : FS} {k : Nat} {cur c rest} {n : Node} (hd : fs.node cur = some .dir) (hc : IsName c)
    (h : fs.node (cur ++ [c]) = some n) (hn : ∀ t, n ≠ .link t) :
    walk fs k cur (c :: rest) = walk fs k (cur ++ [c]) rest := by
  rw [walk_eq, if_neg (by simp [hd]), if_neg (by rintro (h | h); exact hc.1 h; exact hc.2.1 h), if_neg (show ¬ c = DOTDOT from hc.2.2.1), h]
  cases n with
  | link t => exact absurd rfl (hn t)
  | _ => rfl

theorem walk_link {fs : FS} {k : Nat} {cur c rest} {t : Bytes} (hd : fs.node cur = some .dir) (hc : IsName c)
    (h : fs.node (cur ++ [c]) = some (.link t)) :
    walk fs k cur (c :: rest) = match k with
      | 0 => .loop
      | k + 1 => walk fs k (if t.head? = some c!"/" then [] else cur) (splitSlash t ++ rest) := by
  rw [walk_eq, if_neg (by simp [hd]), if_neg (by rintro (h | h); exact hc.1 h; exact hc.2.1 h), if_neg (show ¬ c = DOTDOT from hc.2.2.1), h]
  try (cases k <;> rfl)

/-- One component: exactly one of the cases of `walk`. -/
theorem walk_cases (fs : FS) (cur : List Bytes) (c : Bytes) (hs : c!"/" ∉ c) :
    fs.node cur ≠ some .dir ∨ (fs.node cur = some .dir ∧ (c = [] ∨ c = DOT)) ∨ (fs.node cur = some .dir ∧ c = DOTDOT) ∨
    (fs.node cur = some .dir ∧ IsName c ∧ (fs.node (cur ++ [c]) = none ∨ (∃ t, fs.node (cur ++ [c]) = some (.link t)) ∨
      ∃ n, fs.node (cur ++ [c]) = some n ∧ ∀ t, n ≠ .link t)) := by
  by_cases h : fs.node cur = some .dir
  · right
    by_cases h1 : c = [] ∨ c = DOT
    · exact .inl ⟨h, h1⟩
    · right
      by_cases h2 : c = DOTDOT
      · exact .inl ⟨h, h2⟩
      · right
        refine ⟨h, ⟨fun e => h1 (.inl e), fun e => h1 (.inr e), h2, hs⟩, ?_⟩
        cases e : fs.node (cur ++ [c]) with
        | none => exact .inl rfl
        | some n =>
          right
          cases n with
          | link t => exact .inl ⟨t, rfl⟩
          | dir => exact .inr ⟨_, rfl, by simp⟩
          | file a b => exact .inr ⟨_, rfl, by simp⟩
          | special => exact .inr ⟨_, rfl, by simp⟩
  · exact .inl h


/-- Walking `a ++ b`: first `a`, then `b` with no more fuel than before. -/
theorem walk_append (fs : FS) (b : List Bytes) : ∀ (k : Nat) (a cur : List Bytes), (∀ c ∈ a, c!"/" ∉ c) →
    (∀ m, walk fs k cur a = .ok m → ∃ j, j ≤ k ∧ walk fs k cur (a ++ b) = walk fs j m b) ∧
    (walk fs k cur a = .notFound → walk fs k cur (a ++ b) = .notFound) ∧
    (walk fs k cur a = .loop → walk fs k cur (a ++ b) = .loop) := by
  intro k
  induction k using Nat.strongRecOn with
  | _ k ihk =>
  intro a
  induction a with
  | nil =>
    intro cur _
    refine ⟨fun m h => ?_, fun h => ?_, fun h => ?_⟩
    · rw [walk_nil] at h; cases h; exact ⟨k, Nat.le_refl _, rfl⟩
    · rw [walk_nil] at h; cases h
    · rw [walk_nil] at h; cases h
  | cons c a iha =>
    intro cur hs
    have hc := hs c (by simp)
    have hs' : ∀ c ∈ a, c!"/" ∉ c := fun x hx => hs x (by simp [hx])
    rw [List.cons_append]
    rcases walk_cases fs cur c hc with h | ⟨h, h1⟩ | ⟨h, rfl⟩ | ⟨h, hn, h1 | ⟨t, h1⟩ | ⟨n, h1, h2⟩⟩
    · rw [walk_notdir h, walk_notdir h]; simp
    · rw [walk_skip h h1, walk_skip h h1]; exact iha cur hs'
    · rw [walk_up h, walk_up h]; exact iha _ hs'
    · rw [walk_missing hn h1, walk_missing hn h1]; simp
    · rw [walk_link h hn h1, walk_link h hn h1]
      cases k with
      | zero => simp
      | succ k =>
        simp only
        have := ihk k (by omega) (splitSlash t ++ a) (if t.head? = some c!"/" then [] else cur) (by
          intro x hx
          rcases List.mem_append.1 hx with hx | hx
          · exact splitSlash_noslash t x hx
          · exact hs' x hx)
        rw [List.append_assoc] at this
        refine ⟨fun m hm => ?_, this.2⟩
        obtain ⟨j, hj, e⟩ := this.1 m hm
        exact ⟨j, by omega, e⟩
    · rw [walk_step h hn h1 h2, walk_step h hn h1 h2]; exact iha _ hs'

/-- More links allowed: same result. -/
theorem walk_mono (fs : FS) : ∀ (k : Nat) (a cur : List Bytes) (k' : Nat), (∀ c ∈ a, c!"/" ∉ c) → k ≤ k' →
    walk fs k cur a ≠ .loop → walk fs k' cur a = walk fs k cur a := by
  intro k
  induction k using Nat.strongRecOn with
  | _ k ihk =>
  intro a
  induction a with
  | nil => intro cur k' _ _ _; rw [walk_nil, walk_nil]
  | cons c a iha =>
    intro cur k' hs hk hl
    have hc := hs c (by simp)
    have hs' : ∀ c ∈ a, c!"/" ∉ c := fun x hx => hs x (by simp [hx])
    rcases walk_cases fs cur c hc with h | ⟨h, h1⟩ | ⟨h, rfl⟩ | ⟨h, hn, h1 | ⟨t, h1⟩ | ⟨n, h1, h2⟩⟩
    · rw [walk_notdir h, walk_notdir h]
    · rw [walk_skip h h1] at hl ⊢
      rw [walk_skip h h1]; exact iha cur k' hs' hk hl
    · rw [walk_up h] at hl ⊢
      rw [walk_up h]; exact iha _ k' hs' hk hl
    · rw [walk_missing hn h1, walk_missing hn h1]
    · rw [walk_link h hn h1] at hl ⊢
      rw [walk_link h hn h1]
      cases k with
      | zero => exact absurd rfl hl
      | succ k =>
        obtain ⟨k'', rfl⟩ : ∃ j, k' = j + 1 := ⟨k' - 1, by omega⟩
        exact ihk k (by omega) _ _ k'' (by
          intro x hx
          rcases List.mem_append.1 hx with hx | hx
          · exact splitSlash_noslash t x hx
          · exact hs' x hx) (by omega) hl
    · rw [walk_step h hn h1 h2] at hl ⊢
      rw [walk_step h hn h1 h2]; exact iha _ k' hs' hk hl

/-! ## Physical paths -/

theorem Phys.rootDir {fs : FS} {p : List Bytes} (h : Phys fs p) : fs.node [] = some .dir := by
  induction h with
  | root h => exact h
  | snoc _ _ _ _ _ _ _ _ ih => exact ih

theorem Phys.names {fs : FS} {p : List Bytes} (h : Phys fs p) : ∀ c ∈ p, IsName c := by
  induction h with
  | root h => simp
  | snoc p c n _ _ hc _ _ ih =>
    intro x hx
    rcases List.mem_append.1 hx with hx | hx
    · exact ih x hx
    · simp at hx; subst hx; exact hc

theorem Phys.dropLast {fs : FS} {p : List Bytes} (h : Phys fs p) : Phys fs p.dropLast := by
  cases h with
  | root h => exact .root h
  | snoc p c n hp _ _ _ _ => simpa using hp

/-- A physical path is walked literally. -/
theorem Phys.walk {fs : FS} {p : List Bytes} (h : Phys fs p) : ∀ (k : Nat) (rest : List Bytes),
    Static.walk fs k [] (p ++ rest) = Static.walk fs k p rest := by
  induction h with
  | root h => intro k rest; rfl
  | snoc p c n hp hd hc hn hl ih =>
    intro k rest
    rw [List.append_assoc, ih, List.cons_append, List.nil_append, walk_step hd hc hn hl]

theorem Phys.stat {fs : FS} {p : List Bytes} (h : Phys fs p) : Static.stat fs p = .ok p := by
  have := h.walk MAXLINKS []
  rw [List.append_nil, walk_nil] at this
  exact this

/-- What a walk reaches is physical. -/
theorem walk_phys (fs : FS) : ∀ (k : Nat) (a cur p : List Bytes), (∀ c ∈ a, c!"/" ∉ c) → Phys fs cur →
    walk fs k cur a = .ok p → Phys fs p := by
  intro k
  induction k using Nat.strongRecOn with
  | _ k ihk =>
  intro a
  induction a with
  | nil => intro cur p _ hp h; rw [walk_nil] at h; cases h; exact hp
  | cons c a iha =>
    intro cur p hs hp hw
    have hc := hs c (by simp)
    have hs' : ∀ c ∈ a, c!"/" ∉ c := fun x hx => hs x (by simp [hx])
    rcases walk_cases fs cur c hc with h | ⟨h, h1⟩ | ⟨h, rfl⟩ | ⟨h, hn, h1 | ⟨t, h1⟩ | ⟨n, h1, h2⟩⟩
    · rw [walk_notdir h] at hw; cases hw
    · rw [walk_skip h h1] at hw; exact iha cur p hs' hp hw
    · rw [walk_up h] at hw; exact iha _ p hs' hp.dropLast hw
    · rw [walk_missing hn h1] at hw; cases hw
    · rw [walk_link h hn h1] at hw
      cases k with
      | zero => cases hw
      | succ k =>
        simp only at hw
        refine ihk k (by omega) _ _ p ?_ ?_ hw
        · intro x hx
          rcases List.mem_append.1 hx with hx | hx
          · exact splitSlash_noslash t x hx
          · exact hs' x hx
        · split
          · exact .root hp.rootDir
          · exact hp
    · rw [walk_step h hn h1 h2] at hw
      exact iha _ p hs' (.snoc cur c n hp h hn h1 h2) hw

end Verif.Static
