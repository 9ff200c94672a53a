import Verif.Route.Spec
import Verif.Router.Theorems
import Verif.Router.TheoremsAccept
import Verif.Utility.Theorems

namespace Verif.Route
open Verif.Router Verif.Router.Spec Verif.Route.Spec Verif.Utility.Spec

variable {T : Type}

/-! ### Paths -/

theorem dropWhile_split (p : UInt8 → Bool) (s : Bytes) : ∃ a, s = a ++ s.dropWhile p ∧ ∀ c ∈ a, p c = true := by
  refine ⟨s.takeWhile p, (List.takeWhile_append_dropWhile).symm, ?_⟩
  intro c hc
  exact (List.all_eq_true.1 (List.all_takeWhile (l := s) (p := p))) c hc

theorem normalize_split (s : Bytes) :
    ∃ a b, s = a ++ normalize s ++ b ∧ (∀ c ∈ a, c = 47) ∧ (∀ c ∈ b, c = 47) := by
  obtain ⟨a, h1, h2⟩ := dropWhile_split (· == c!"/") s
  obtain ⟨b, h3, h4⟩ := dropWhile_split (· == c!"/") (s.dropWhile (· == c!"/")).reverse
  refine ⟨a, b.reverse, ?_, fun c hc => by simpa using h2 c hc, fun c hc => by simpa using h4 c (by simpa using hc)⟩
  have h5 := congrArg List.reverse h3
  rw [List.reverse_reverse, List.reverse_append] at h5
  unfold normalize
  rw [List.append_assoc, ← h5]
  exact h1

theorem segsOf_normalize (s : Bytes) : segsOf (normalize s) = segsOf s := by
  obtain ⟨a, b, h1, h2, h3⟩ := normalize_split s
  have e := congrArg segsOf h1
  rw [List.append_assoc, segsOf_slashes h2, segsOf_append_slashes h3] at e
  exact e.symm

theorem segsOf_joinPaths (p s : Bytes) : segsOf (joinPaths p s) = segsOf p ++ segsOf s := by
  rw [← segsOf_normalize p, ← segsOf_normalize s]
  unfold joinPaths
  simp only []
  by_cases h1 : normalize p = [] <;> by_cases h2 : normalize s = []
  · rw [if_pos ⟨h1, h2⟩, h1, h2]
    show segsOf (47 :: []) = _
    rw [segsOf_slash]; simp [segsOf_nil]
  · rw [if_neg (fun h => h2 h.2), if_pos h2, if_neg (by simp [h1]), if_neg (by simp [h1]), h1]
    show segsOf (47 :: normalize s) = _
    rw [segsOf_slash]; simp [segsOf_nil]
  · rw [if_neg (fun h => h1 h.1), if_neg (by simp [h2]), if_pos h1, h2]
    show segsOf (47 :: normalize p) = _
    rw [segsOf_slash]; simp [segsOf_nil]
  · rw [if_neg (fun h => h1 h.1), if_pos h2, if_pos h1, if_pos h1]
    show segsOf (47 :: (normalize p ++ [47]) ++ normalize s) = _
    rw [List.cons_append, segsOf_slash, List.append_assoc, List.singleton_append, segsOf_append]

theorem piecesSegs_iff (ps ss : List Bytes) : PiecesSegs ps ss ↔ ss = ps.flatMap segsOf := by
  constructor
  · intro h
    induction h with
    | nil => rfl
    | cons h _ ih => rw [List.flatMap_cons, ← ih, (isSegments_iff _ _).1 h]
  · rintro rfl
    induction ps with
    | nil => exact .nil
    | cons p ps ih => rw [List.flatMap_cons]; exact .cons ((isSegments_iff _ _).2 rfl) ih

/-! ### Flattening -/

abbrev RReg (T : Type) := Reg (List (Task T))

def regRoute (path : Bytes) (inh : List T) (r : RouteD T) : RReg T :=
  ⟨joinPaths path r.seg, r.method, (inh ++ r.mws).map .own ++ [.own r.handler]⟩

mutual
def regsOf (path : Bytes) (inh : List T) : HNode T → List (RReg T)
  | .route r => [regRoute path inh r]
  | .group seg mws ch => regsAll (joinPaths path seg) (inh ++ mws) ch
  | .ctrl seg mws inits initd routes =>
    (if initd then routes else routes ++ inits).map (regRoute (joinPaths path seg) (inh ++ mws))
def regsAll (path : Bytes) (inh : List T) : List (HNode T) → List (RReg T)
  | [] => []
  | n :: ns => regsOf path inh n ++ regsAll path inh ns
end

mutual
def initNode : HNode T → HNode T
  | .route r => .route r
  | .group seg mws ch => .group seg mws (initAll ch)
  | .ctrl seg mws inits initd routes => .ctrl seg mws inits true (if initd then routes else routes ++ inits)
def initAll : List (HNode T) → List (HNode T)
  | [] => []
  | n :: ns => initNode n :: initAll ns
end

/-- Register until the first refusal. -/
def runRegs (t : Table T) : List (RReg T) → Table T × Bool
  | [] => (t, true)
  | r :: rs =>
    let x := addRoute t r.pattern r.method r.handler
    if x.2 then runRegs x.1 rs else (x.1, false)

theorem runRegs_append (t : Table T) (l m : List (RReg T)) :
    runRegs t (l ++ m) = if (runRegs t l).2 then runRegs (runRegs t l).1 m else runRegs t l := by
  induction l generalizing t with
  | nil => simp [runRegs]
  | cons r l ih =>
    rw [List.cons_append, runRegs, runRegs]
    cases e : (addRoute t r.pattern r.method r.handler).2 with
    | true => rw [if_pos rfl, if_pos rfl, ih]
    | false => simp

theorem compileRoutes_eq (t : Table T) (path : Bytes) (inh : List T) (rs : List (RouteD T)) :
    compileRoutes t path inh rs = runRegs t (rs.map (regRoute path inh)) := by
  induction rs generalizing t with
  | nil => rfl
  | cons r rs ih =>
    rw [compileRoutes, List.map_cons, runRegs]
    simp only [ih]
    rfl

mutual
theorem compileNode_eq (t : Table T) (path : Bytes) (inh : List T) : ∀ n : HNode T,
    ((compileNode t path inh n).1, (compileNode t path inh n).2.2) = runRegs t (regsOf path inh n) ∧
    ((compileNode t path inh n).2.2 = true → (compileNode t path inh n).2.1 = initNode n)
  | .route r => by
    unfold compileNode regsOf initNode runRegs
    simp only [runRegs]
    refine ⟨?_, fun _ => trivial⟩
    show ((compileRoute t path inh r).1, (compileRoute t path inh r).2) = _
    unfold compileRoute regRoute
    simp only []
    split
    · next h => rw [Prod.ext_iff]; exact ⟨rfl, h⟩
    · next h => rw [Prod.ext_iff]; exact ⟨rfl, by simpa using h⟩
  | .group seg mws ch => by
    unfold compileNode regsOf initNode
    simp only []
    have := compileNodes_eq t (joinPaths path seg) (inh ++ mws) ch
    exact ⟨this.1, fun h => by rw [this.2 h]⟩
  | .ctrl seg mws inits initd routes => by
    unfold compileNode regsOf initNode
    simp only []
    rw [compileRoutes_eq]
    exact ⟨rfl, fun _ => trivial⟩
theorem compileNodes_eq (t : Table T) (path : Bytes) (inh : List T) : ∀ ns : List (HNode T),
    ((compileNodes t path inh ns).1, (compileNodes t path inh ns).2.2) = runRegs t (regsAll path inh ns) ∧
    ((compileNodes t path inh ns).2.2 = true → (compileNodes t path inh ns).2.1 = initAll ns)
  | [] => by
    unfold compileNodes regsAll initAll
    exact ⟨rfl, fun _ => rfl⟩
  | n :: ns => by
    unfold compileNodes regsAll initAll
    simp only []
    obtain ⟨h1, h2⟩ := compileNode_eq t path inh n
    rw [runRegs_append, ← h1]
    simp only []
    cases e : (compileNode t path inh n).2.2 with
    | true =>
      simp only [if_true]
      obtain ⟨h3, h4⟩ := compileNodes_eq (compileNode t path inh n).1 path inh ns
      exact ⟨h3, fun h => by rw [h2 e, h4 h]⟩
    | false => simp
end

/-! ### Keys: what a registration and a declaration have in common -/

abbrev Key (T : Type) := List Bytes × Int × List (Task T)

def regKey (r : RReg T) : Key T := (segsOf r.pattern, r.method, r.handler)

def declKey (path : Bytes) (inh : List T) (d : Decl T) : Key T :=
  (segsOf path ++ d.pieces.flatMap segsOf, d.method, inh.map .own ++ d.chain)

theorem declKey_under (path : Bytes) (inh : List T) (seg : Bytes) (mws : List T) (d : Decl T) :
    declKey path inh (d.under seg mws) = declKey (joinPaths path seg) (inh ++ mws) d := by
  unfold declKey Decl.under Decl.chain
  simp [segsOf_joinPaths]

theorem regRoute_key (path : Bytes) (inh : List T) (r : RouteD T) :
    regKey (regRoute path inh r) = declKey path inh (declRoute r) := by
  unfold regKey regRoute declKey declRoute Decl.chain
  simp [segsOf_joinPaths]

mutual
theorem regs_keys (path : Bytes) (inh : List T) : ∀ n : HNode T,
    (regsOf path inh n).map regKey = (declared n).map (declKey path inh)
  | .route r => by
    unfold regsOf declared
    simp [regRoute_key]
  | .group seg mws ch => by
    unfold regsOf declared
    rw [regsAll_keys (joinPaths path seg) (inh ++ mws) ch, List.map_map]
    apply List.map_congr_left
    intro d _
    exact (declKey_under _ _ _ _ _).symm
  | .ctrl seg mws inits initd routes => by
    unfold regsOf declared
    simp only [List.map_map]
    have e : (routes ++ if initd then [] else inits) = (if initd then routes else routes ++ inits) := by
      cases initd <;> simp
    rw [e]
    apply List.map_congr_left
    intro r _
    simp only [Function.comp]
    rw [regRoute_key, declKey_under]
theorem regsAll_keys (path : Bytes) (inh : List T) : ∀ ns : List (HNode T),
    (regsAll path inh ns).map regKey = (declaredAll ns).map (declKey path inh)
  | [] => rfl
  | n :: ns => by
    unfold regsAll declaredAll
    rw [List.map_append, List.map_append, regs_keys path inh n, regsAll_keys path inh ns]
end

mutual
theorem declared_init : ∀ n : HNode T, declared (initNode n) = declared n
  | .route r => rfl
  | .group seg mws ch => by unfold initNode declared; rw [declaredAll_init ch]
  | .ctrl seg mws inits initd routes => by
    unfold initNode declared
    cases initd <;> simp
theorem declaredAll_init : ∀ ns : List (HNode T), declaredAll (initAll ns) = declaredAll ns
  | [] => rfl
  | n :: ns => by unfold initAll declaredAll; rw [declared_init n, declaredAll_init ns]
end

mutual
theorem regs_init (path : Bytes) (inh : List T) : ∀ n : HNode T, regsOf path inh (initNode n) = regsOf path inh n
  | .route r => rfl
  | .group seg mws ch => by unfold initNode regsOf; rw [regsAll_init _ _ ch]
  | .ctrl seg mws inits initd routes => by
    unfold initNode regsOf
    cases initd <;> simp
theorem regsAll_init (path : Bytes) (inh : List T) : ∀ ns : List (HNode T),
    regsAll path inh (initAll ns) = regsAll path inh ns
  | [] => rfl
  | n :: ns => by unfold initAll regsAll; rw [regs_init _ _ n, regsAll_init _ _ ns]
end

mutual
theorem declared_compile (t : Table T) (path : Bytes) (inh : List T) : ∀ n : HNode T,
    declared (compileNode t path inh n).2.1 = declared n
  | .route r => by unfold compileNode; rfl
  | .group seg mws ch => by
    unfold compileNode declared
    rw [declaredAll_compile t _ _ ch]
  | .ctrl seg mws inits initd routes => by
    unfold compileNode declared
    cases initd <;> simp
theorem declaredAll_compile (t : Table T) (path : Bytes) (inh : List T) : ∀ ns : List (HNode T),
    declaredAll (compileNodes t path inh ns).2.1 = declaredAll ns
  | [] => by unfold compileNodes; rfl
  | n :: ns => by
    unfold compileNodes
    simp only []
    split
    · unfold declaredAll
      rw [declared_compile t _ _ n, declaredAll_compile _ _ _ ns]
    · unfold declaredAll
      rw [declared_compile t _ _ n]
end

theorem rootMws_init (ns : List (HNode T)) : rootMws (initAll ns) = rootMws ns := by
  induction ns with
  | nil => rfl
  | cons n ns ih =>
    cases n with
    | group seg mws ch =>
      cases seg with
      | nil => rfl
      | cons c seg => exact ih
    | route r => exact ih
    | ctrl seg mws ini b rs => exact ih

def KeyPattern (k : Key T) (pat : List Seg) : Prop :=
  AreSegs k.1 pat ∧ (∀ n, Seg.wild n ∈ pat.dropLast → False) ∧ (pat.filterMap Seg.name).Nodup

theorem regPattern_key (r : RReg T) (pat : List Seg) : IsPattern r.pattern pat ↔ KeyPattern (regKey r) pat := by
  unfold IsPattern KeyPattern regKey
  constructor
  · rintro ⟨⟨segs, h1, h2⟩, h3⟩
    rw [isSegments_iff] at h1
    subst h1
    exact ⟨h2, h3⟩
  · rintro ⟨h2, h3⟩
    exact ⟨⟨_, (isSegments_iff _ _).2 rfl, h2⟩, h3⟩

theorem declPattern_key (d : Decl T) (pat : List Seg) : DeclPattern d pat ↔ KeyPattern (declKey [] [] d) pat := by
  unfold DeclPattern KeyPattern declKey
  simp only [segsOf_nil, List.nil_append]
  constructor
  · rintro ⟨⟨segs, h1, h2⟩, h3⟩
    rw [piecesSegs_iff] at h1
    subst h1
    exact ⟨h2, h3⟩
  · rintro ⟨h2, h3⟩
    exact ⟨⟨_, (piecesSegs_iff _ _).2 rfl, h2⟩, h3⟩

def LatestK (ks : List (Key T)) (pat : List Seg) (m : Int) (h : List (Task T)) : Prop :=
  ∃ l1 k l2, ks = l1 ++ k :: l2 ∧ KeyPattern k pat ∧ k.2.1 = m ∧ k.2.2 = h ∧
    ∀ k' ∈ l2, KeyPattern k' pat → k'.2.1 ≠ m

theorem map_eq_split {α β : Type} {f : α → β} {l : List α} {l1 l2 : List β} {k : β} (h : l.map f = l1 ++ k :: l2) :
    ∃ m1 a m2, l = m1 ++ a :: m2 ∧ m1.map f = l1 ∧ f a = k ∧ m2.map f = l2 := by
  rw [List.map_eq_append_iff] at h
  obtain ⟨m1, m2, rfl, h1, h2⟩ := h
  cases m2 with
  | nil => simp at h2
  | cons a m2 =>
    simp at h2
    exact ⟨m1, a, m2, rfl, h1, h2.1, h2.2⟩

theorem registered_key (regs : List (RReg T)) (pat : List Seg) (m : Int) (h : List (Task T)) :
    Registered regs pat m h ↔ LatestK (regs.map regKey) pat m h := by
  constructor
  · rintro ⟨l1, r, l2, rfl, h1, h2, h3, h4⟩
    refine ⟨l1.map regKey, regKey r, l2.map regKey, by simp, (regPattern_key _ _).1 h1, h2, h3, ?_⟩
    intro k' hk hp
    obtain ⟨r', hr, rfl⟩ := List.mem_map.1 hk
    exact h4 r' hr ((regPattern_key _ _).2 hp)
  · rintro ⟨l1, k, l2, e, h1, h2, h3, h4⟩
    obtain ⟨m1, r, m2, rfl, rfl, rfl, rfl⟩ := map_eq_split e
    refine ⟨m1, r, m2, rfl, (regPattern_key _ _).2 h1, h2, h3, ?_⟩
    intro r' hr hp
    exact h4 _ (List.mem_map_of_mem hr) ((regPattern_key _ _).1 hp)

theorem holds_key (ds : List (Decl T)) (pat : List Seg) (m : Int) (h : List (Task T)) :
    (∃ d, Holds ds pat m d ∧ h = d.chain) ↔ LatestK (ds.map (declKey [] [])) pat m h := by
  constructor
  · rintro ⟨d, ⟨l1, l2, rfl, h1, h2, h3⟩, rfl⟩
    refine ⟨l1.map (declKey [] []), declKey [] [] d, l2.map (declKey [] []), by simp, (declPattern_key _ _).1 h1, h2,
      by simp [declKey], ?_⟩
    intro k' hk hp
    obtain ⟨r', hr, rfl⟩ := List.mem_map.1 hk
    exact h3 r' hr ((declPattern_key _ _).2 hp)
  · rintro ⟨l1, k, l2, e, h1, h2, h3, h4⟩
    obtain ⟨m1, d, m2, rfl, rfl, rfl, rfl⟩ := map_eq_split e
    refine ⟨d, ⟨m1, m2, rfl, (declPattern_key _ _).2 h1, h2, ?_⟩, by rw [← h3]; simp [declKey]⟩
    intro r' hr hp
    exact h4 _ (List.mem_map_of_mem hr) ((declPattern_key _ _).1 hp)

/-- Registrations and declarations hold the same routes. -/
theorem registered_iff_holds (ns : List (HNode T)) (pat : List Seg) (m : Int) (h : List (Task T)) :
    Registered (regsAll [] [] ns) pat m h ↔ ∃ d, Holds (declaredAll ns) pat m d ∧ h = d.chain := by
  rw [registered_key, holds_key, regsAll_keys]

/-! ### Registering until the first refusal -/

theorem runRegs_ok (t : Table T) (l : List (RReg T)) (h : (runRegs t l).2 = true) :
    (runRegs t l).1 = l.foldl (fun t r => (addRoute t r.pattern r.method r.handler).1) t ∧ accepted t l = l := by
  induction l generalizing t with
  | nil => exact ⟨rfl, rfl⟩
  | cons r l ih =>
    rw [runRegs] at h ⊢
    cases e : (addRoute t r.pattern r.method r.handler).2 with
    | false => rw [e] at h; simp at h
    | true =>
      rw [e] at h
      simp only [if_true] at h ⊢
      obtain ⟨h1, h2⟩ := ih _ h
      refine ⟨by rw [h1]; rfl, ?_⟩
      rw [accepted]
      simp only [e, if_true, h2]

theorem runRegs_build (l : List (RReg T)) (h : (runRegs .empty l).2 = true) :
    (runRegs .empty l).1 = build l ∧ accepted .empty l = l := runRegs_ok .empty l h

theorem not_clash_self (p : List Seg) : ¬ Clash p p := by
  rintro ⟨c, p', q', x, y, hne, ⟨h1, h2⟩ | ⟨h1, h2⟩⟩ <;>
  · rw [h1] at h2
    have := List.append_cancel_left h2
    simp at this
    exact hne this.1

theorem clash_symm {p q : List Seg} (h : Clash p q) : Clash q p := by
  obtain ⟨c, p', q', x, y, hne, h | h⟩ := h
  · exact ⟨c, q', p', y, x, hne.symm, .inl ⟨h.2, h.1⟩⟩
  · exact ⟨c, q', p', y, x, hne.symm, .inr ⟨h.2, h.1⟩⟩

def AcceptableK (ks : List (Key T)) : Prop :=
  (∀ k ∈ ks, (0 ≤ k.2.1 ∧ k.2.1 < 64) ∧ ∃ pat, KeyPattern k pat) ∧
  ∀ k ∈ ks, ∀ k' ∈ ks, ∀ pat pat', KeyPattern k pat → KeyPattern k' pat' → ¬ Clash pat pat'

theorem keyPattern_det {k : Key T} {p q : List Seg} (h1 : KeyPattern k p) (h2 : KeyPattern k q) : p = q :=
  areSegs_det h1.1 h2.1

theorem runRegs_ok_iff_rev (l : List (RReg T)) :
    (runRegs .empty l.reverse).2 = true ↔ AcceptableK (l.reverse.map regKey) := by
  induction l with
  | nil => simp [runRegs, AcceptableK]
  | cons r l ih =>
    rw [List.reverse_cons, runRegs_append]
    cases e : (runRegs .empty l.reverse).2 with
    | false =>
      simp only [Bool.false_eq_true, if_false, e]
      simp only [e, Bool.false_eq_true, false_iff] at ih
      simp only [false_iff]
      intro h
      apply ih
      refine ⟨fun k hk => h.1 k ?_, fun k hk k' hk' => h.2 k ?_ k' ?_⟩ <;>
        (rw [List.map_append]; exact List.mem_append_left _ (by assumption))
    | true =>
      simp only [if_true]
      obtain ⟨h1, h2⟩ := runRegs_build _ e
      rw [e] at ih
      have hacc := ih.1 rfl
      have hlast : (runRegs (runRegs .empty l.reverse).1 [r]).2 =
          (addRoute (build l.reverse) r.pattern r.method r.handler).2 := by
        rw [h1, runRegs]
        simp only [runRegs]
        cases e2 : (addRoute (build l.reverse) r.pattern r.method r.handler).2 <;> simp
      rw [hlast, C53_accept_iff_partial _ _ h2]
      constructor
      · rintro ⟨hm, pat, hp, hc⟩
        rw [regPattern_key] at hp
        refine ⟨?_, ?_⟩
        · intro k hk
          rw [List.map_append, List.mem_append] at hk
          rcases hk with hk | hk
          · exact hacc.1 k hk
          · simp only [List.map_cons, List.map_nil, List.mem_singleton] at hk
            subst hk
            exact ⟨hm, pat, hp⟩
        · have key : ∀ k' ∈ l.reverse.map regKey, ∀ pat', KeyPattern k' pat' → ¬ Clash pat pat' := by
            intro k' hk' pat' hp'
            obtain ⟨r', hr', rfl⟩ := List.mem_map.1 hk'
            exact hc r' hr' pat' ((regPattern_key _ _).2 hp')
          intro k hk k' hk' q q' hq hq'
          rw [List.map_append, List.mem_append] at hk hk'
          simp only [List.map_cons, List.map_nil, List.mem_singleton] at hk hk'
          rcases hk with hk | rfl <;> rcases hk' with hk' | rfl
          · exact hacc.2 k hk k' hk' q q' hq hq'
          · obtain rfl := keyPattern_det hq' hp
            exact fun h => key k hk q hq (clash_symm h)
          · obtain rfl := keyPattern_det hq hp
            exact key k' hk' q' hq'
          · obtain rfl := keyPattern_det hq hq'
            exact not_clash_self _
      · rintro ⟨ha, hb⟩
        have hr : regKey r ∈ (l.reverse ++ [r]).map regKey := by simp
        obtain ⟨hm, pat, hp⟩ := ha _ hr
        refine ⟨hm, pat, (regPattern_key _ _).2 hp, ?_⟩
        intro r' hr' pat' hp'
        refine hb _ hr (regKey r') ?_ _ _ hp ((regPattern_key _ _).1 hp')
        rw [List.map_append]
        exact List.mem_append_left _ (List.mem_map_of_mem hr')

theorem runRegs_ok_iff (l : List (RReg T)) :
    (runRegs .empty l).2 = true ↔ AcceptableK (l.map regKey) := by
  have := runRegs_ok_iff_rev l.reverse
  rwa [List.reverse_reverse] at this

theorem acceptable_key (ds : List (Decl T)) : Acceptable ds ↔ AcceptableK (ds.map (declKey [] [])) := by
  constructor
  · rintro ⟨h1, h2⟩
    refine ⟨?_, ?_⟩
    · intro k hk
      obtain ⟨d, hd, rfl⟩ := List.mem_map.1 hk
      obtain ⟨a, pat, b⟩ := h1 d hd
      exact ⟨a, pat, (declPattern_key _ _).1 b⟩
    · intro k hk k' hk' p p' hp hp'
      obtain ⟨d, hd, rfl⟩ := List.mem_map.1 hk
      obtain ⟨d', hd', rfl⟩ := List.mem_map.1 hk'
      exact h2 d hd d' hd' p p' ((declPattern_key _ _).2 hp) ((declPattern_key _ _).2 hp')
  · rintro ⟨h1, h2⟩
    refine ⟨?_, ?_⟩
    · intro d hd
      obtain ⟨a, pat, b⟩ := h1 _ (List.mem_map_of_mem hd)
      exact ⟨a, pat, (declPattern_key _ _).2 b⟩
    · intro d hd d' hd' p p' hp hp'
      exact h2 _ (List.mem_map_of_mem hd) _ (List.mem_map_of_mem hd') p p' ((declPattern_key _ _).1 hp)
        ((declPattern_key _ _).1 hp')

end Verif.Route
