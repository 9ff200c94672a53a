import Verif.Route.Lemmas

/-! Property theorems C120–C123 about route declaration and dispatch. -/

namespace Verif.Route
open Verif.Router Verif.Router.Spec Verif.Route.Spec Verif.Utility.Spec

variable {T : Type}

theorem get_decodeParams (ps : Params) (k : Bytes) :
    (decodeParams ps).get k = (ps.get k).map Utility.decodePath := by
  unfold Params.get decodeParams
  induction ps with
  | nil => rfl
  | cons kv ps ih =>
    rw [List.map_cons, List.lookup_cons, List.lookup_cons]
    cases k == kv.1 with
    | true => rfl
    | false => exact ih

theorem rootMws_global (ns : List (HNode T)) : Global ns (rootMws ns) := by
  induction ns with
  | nil => exact .none
  | cons n ns ih =>
    cases n with
    | group seg mws ch =>
      cases seg with
      | nil => exact .root
      | cons c seg => exact .skip (by intro ws ch h; simp at h) ih
    | route r => exact .skip (by intro ws ch h; simp at h) ih
    | ctrl seg mws ini b rs => exact .skip (by intro ws ch h; simp at h) ih

theorem nfChain_spec (pre : List T) (custom : Option T) : NotFoundChain pre custom (nfChain pre custom) := by
  cases custom with
  | none => exact .inr ⟨rfl, rfl⟩
  | some t => exact .inl ⟨t, rfl, by simp [nfChain]⟩

theorem allowValue_eq (name : Nat → Bytes) (hn : ∀ k, name k ≠ []) (ms : List Nat) :
    allowValue name ms = b!", ".intercalate (ms.map name) := by
  have key : ∀ (l : List Nat) (acc : Bytes), acc ≠ [] →
      l.foldl (fun allow m => (if allow ≠ [] then allow ++ b!", " else allow) ++ name m) acc =
        acc ++ (l.map fun m => b!", " ++ name m).flatten := by
    intro l
    induction l with
    | nil => intro acc _; simp
    | cons m l ih =>
      intro acc ha
      rw [List.foldl_cons, if_pos ha, ih _ (by simp [hn m])]
      simp
  unfold allowValue
  cases ms with
  | nil => rfl
  | cons m l =>
    rw [List.foldl_cons, if_neg (by simp), key _ _ (by simp [hn m])]
    have h2 : ∀ (l : List Nat) (x : Bytes), b!", ".intercalate (x :: l.map name) =
        x ++ (l.map fun m => b!", " ++ name m).flatten := by
      intro l
      induction l with
      | nil => intro x; simp [List.intercalate, List.intersperse]
      | cons a l ih =>
        intro x
        have := ih (name a)
        simp only [List.intercalate, List.map_cons, List.intersperse, List.flatten_cons] at this ⊢
        rw [this]
        simp
    rw [List.map_cons, h2, List.nil_append]

/-- The latest declaration exists as soon as one does. -/
theorem latestK_exists (ks : List (Key T)) (pat : List Seg) (m : Int)
    (h : ∃ k ∈ ks, KeyPattern k pat ∧ k.2.1 = m) : ∃ c, LatestK ks pat m c := by
  induction ks with
  | nil => obtain ⟨k, hk, _⟩ := h; simp at hk
  | cons a ks ih =>
    by_cases h' : ∃ k ∈ ks, KeyPattern k pat ∧ k.2.1 = m
    · obtain ⟨c, l1, k, l2, rfl, h1⟩ := ih h'
      exact ⟨c, a :: l1, k, l2, rfl, h1⟩
    · obtain ⟨k, hk, h1, h2⟩ := h
      rcases List.mem_cons.1 hk with rfl | hk
      · exact ⟨k.2.2, [], k, ks, rfl, h1, h2, rfl, fun k' hk' hp hm => h' ⟨k', hk', hp, hm⟩⟩
      · exact absurd ⟨k, hk, h1, h2⟩ h'

/-- A compiled core: its table is that of the declared routes. -/
structure Compiled (c : Core T) (ns : List (HNode T)) : Prop where
  table : c.table = build (regsAll [] [] ns)
  acc : accepted .empty (regsAll [] [] ns) = regsAll [] [] ns
  nf : c.nfTasks = nfChain (rootMws ns) c.notFound
  mna : c.mnaTasks = mnaChain (rootMws ns)
  pre : c.pre = rootMws ns

theorem compileAll_ok (c : Core T) : (compileAll c).2 = (runRegs .empty (regsAll [] [] c.nodes)).2 := by
  have h := (compileNodes_eq (.empty : Table T) [] [] c.nodes).1
  unfold compileAll
  simp only []
  rw [← h]
  simp only []
  cases (compileNodes (.empty : Table T) [] [] c.nodes).2.2 <;> simp

theorem compileAll_nodes (c : Core T) (hok : (compileAll c).2 = true) :
    (compileAll c).1.nodes = initAll c.nodes := by
  have h := (compileNodes_eq (.empty : Table T) [] [] c.nodes)
  rw [compileAll_ok, ← h.1] at hok
  unfold compileAll
  simp only [] at hok ⊢
  rw [if_pos hok]
  exact h.2 hok

theorem compileAll_notFound (c : Core T) : (compileAll c).1.notFound = c.notFound := by
  unfold compileAll
  simp only []
  split <;> rfl

theorem compileAll_compiled (c : Core T) (hok : (compileAll c).2 = true) :
    Compiled (compileAll c).1 c.nodes := by
  have h := (compileNodes_eq (.empty : Table T) [] [] c.nodes)
  have hok' := hok
  rw [compileAll_ok] at hok'
  obtain ⟨h1, h2⟩ := runRegs_build _ hok'
  rw [← h.1] at hok' h1
  simp only [] at hok' h1
  unfold compileAll
  simp only []
  rw [if_pos hok']
  exact ⟨h1, h2, rfl, rfl, rfl⟩

theorem compiled_init {c : Core T} {ns ns' : List (HNode T)} (h : Compiled c ns') (e : ns' = initAll ns) :
    Compiled c ns := by
  subst e
  obtain ⟨h1, h2, h3, h4, h5⟩ := h
  rw [regsAll_init] at h1 h2
  rw [rootMws_init] at h3 h4 h5
  exact ⟨h1, h2, h3, h4, h5⟩

theorem init_compiled {c : Core T} {ns : List (HNode T)} (h : Compiled c ns) : Compiled c (initAll ns) := by
  obtain ⟨h1, h2, h3, h4, h5⟩ := h
  exact ⟨by rw [regsAll_init]; exact h1, by rw [regsAll_init]; exact h2, by rw [rootMws_init]; exact h3,
    by rw [rootMws_init]; exact h4, by rw [rootMws_init]; exact h5⟩

theorem routeRequest_congr (name : Nat → Bytes) {c c' : Core T} {ns : List (HNode T)} (h : Compiled c ns)
    (h' : Compiled c' ns) (e : c.notFound = c'.notFound) (path : Bytes) (m : Int) :
    routeRequest name c path m = routeRequest name c' path m := by
  unfold routeRequest
  rw [h.table, h'.table, h.nf, h'.nf, h.mna, h'.mna, e]

theorem serves_iff_match {c : Core T} {ns : List (HNode T)} (hc : Compiled c ns) (path : Bytes) (m : Int) :
    Serves (declaredAll ns) path m ↔ (matchPath c.table path m).isSome := by
  rw [hc.table]
  constructor
  · rintro ⟨d, hd, hm, pat, bs, hp, hpm⟩
    obtain ⟨ch, hl⟩ := latestK_exists ((declaredAll ns).map (declKey [] [])) pat m
      ⟨_, List.mem_map_of_mem hd, (declPattern_key _ _).1 hp, hm⟩
    rw [← regsAll_keys, ← registered_key] at hl
    exact C08_match_complete _ path m pat ch bs (by rw [hc.acc]; exact hl) hpm
  · intro h
    obtain ⟨⟨ps, ch⟩, e⟩ := Option.isSome_iff_exists.1 h
    obtain ⟨pat, bs, h1, h2, _⟩ := C07_match_sound _ _ _ _ _ e
    rw [hc.acc, registered_iff_holds] at h1
    obtain ⟨d, ⟨l1, l2, e1, h3, h4, _⟩, _⟩ := h1
    exact ⟨d, by rw [e1]; simp, h4, pat, bs, h3, h2⟩

theorem matchPath_chain {c : Core T} {ns : List (HNode T)} (hc : Compiled c ns) {path : Bytes} {m : Int} {ps ch}
    (h : matchPath c.table path m = some (ps, ch)) : ∃ pat d bs, Holds (declaredAll ns) pat m d ∧ ch = d.chain ∧
      PatMatch path pat bs ∧ (∀ k v, ps.get k = some v ↔ (k, v) ∈ bs) ∧
      ∀ pat' d' bs', Holds (declaredAll ns) pat' m d' → PatMatch path pat' bs' → Prefer pat pat' := by
  rw [hc.table] at h
  obtain ⟨pat, bs, h1, h2, h3, h4⟩ := match_full _ _ _ _ _ h
  rw [hc.acc] at h1 h4
  obtain ⟨d, hd, rfl⟩ := (registered_iff_holds _ _ _ _).1 h1
  refine ⟨pat, d, bs, hd, rfl, h2, h3, ?_⟩
  intro pat' d' bs' hh hp
  exact h4 pat' bs' d'.chain ((registered_iff_holds _ _ _ _).2 ⟨d', hh, rfl⟩) hp

theorem chain_ne (d : Decl T) : d.chain ≠ [] := by simp [Decl.chain]

theorem dispatch_compiled (name : Nat → Bytes) (hn : ∀ k, name k ≠ []) {c : Core T} {ns : List (HNode T)}
    (hc : Compiled c ns) (path : Bytes) (m : Int) :
    Dispatch name (declaredAll ns) (rootMws ns) c.notFound path m (routeRequest name c path m) := by
  unfold routeRequest
  by_cases hl : path.length > maxPath
  · rw [if_pos hl]; exact .tooLong hl
  rw [if_neg hl]
  have hl' : path.length ≤ 4096 := Nat.le_of_not_lt hl
  cases e : matchPath c.table path m with
  | some r =>
    obtain ⟨ps, ch⟩ := r
    obtain ⟨pat, d, bs, h1, rfl, h2, h3, h4⟩ := matchPath_chain hc e
    simp only [startChain, if_neg (chain_ne d)]
    refine .handle hl' h1 h2 h4 ?_
    intro k v
    rw [get_decodeParams]
    constructor
    · intro h
      obtain ⟨raw, hr, rfl⟩ := Option.map_eq_some_iff.1 h
      exact ⟨raw, (h3 k raw).1 hr, (Utility.C02_decode_exact _ _).1 rfl⟩
    · rintro ⟨raw, hr, hd⟩
      rw [(h3 k raw).2 hr, ← (Utility.C02_decode_exact _ _).2 hd]
      rfl
  | none =>
    have hns : ¬ Serves (declaredAll ns) path m := by rw [serves_iff_match hc, e]; simp
    have hnf : (startChain c.nfTasks (.notFound c.nfTasks) : Outcome T) = .notFound c.nfTasks := by
      unfold startChain; rw [if_neg (by rw [hc.nf]; simp [nfChain])]
    simp only []
    cases e2 : allowedMethods c.table path with
    | none =>
      simp only [hnf]
      refine .notFound hl' ?_ (by rw [hc.nf]; exact nfChain_spec _ _)
      intro m'
      rw [serves_iff_match hc]
      rw [hc.table] at e2 ⊢
      rw [(C11_not_found_iff _ _).1 e2 m']
      simp
    | some r =>
      obtain ⟨ps, ms⟩ := r
      rw [hc.table] at e2
      obtain ⟨h1, h2, h3⟩ := C11_allowed_sorted _ _ _ _ e2
      simp only [if_pos h1, startChain, hc.mna]
      rw [if_neg (by simp [mnaChain]), allowValue_eq name hn]
      refine .notAllowed hl' hns h1 h2 ?_
      intro k
      rw [serves_iff_match hc, hc.table]
      constructor
      · intro hk
        have hlt := h3 k hk
        exact (C11_allowed_iff_match _ path (k : Int) (by omega)).1 ⟨ps, ms, e2, by simpa using hk⟩
      · intro hs
        obtain ⟨r, hr⟩ := Option.isSome_iff_exists.1 hs
        have hv := (matchPath_valid hr).1
        obtain ⟨ps', ms', e3, hk⟩ := (C11_allowed_iff_match _ path (k : Int) hv).2 hs
        rw [e2] at e3
        simp only [Option.some.injEq, Prod.mk.injEq] at e3
        rw [e3.2]
        simpa using hk

/-- C120: after a successful `compile`, every request leads to exactly what the declarations say:
the preferred matching route runs behind the middlewares of all enclosing groups, outermost first,
with decoded parameters; otherwise 405 with the exact `Allow` list, 404, or 400 for an over-long
path. `Dispatch` is the specification. -/
theorem C120_dispatch (name : Nat → Bytes) (hn : ∀ k, name k ≠ []) (c : Core T) (hok : (compileAll c).2 = true)
    (path : Bytes) (m : Int) :
    ∃ global, Global c.nodes global ∧
      Dispatch name (declaredAll c.nodes) global c.notFound path m (routeRequest name (compileAll c).1 path m) := by
  refine ⟨_, rootMws_global _, ?_⟩
  have := dispatch_compiled name hn (compileAll_compiled c hok) path m
  rwa [compileAll_notFound] at this

/-- C120: a declared route that matches and that no other matching declaration precedes is the one
that runs, with its whole chain: it cannot be lost to 404, 405 or another route. -/
theorem C120_route_runs (name : Nat → Bytes) (hn : ∀ k, name k ≠ []) (c : Core T) (hok : (compileAll c).2 = true)
    (path : Bytes) (m : Int) (pat : List Seg) (d : Decl T) (bs) (hl : path.length ≤ 4096)
    (hd : Holds (declaredAll c.nodes) pat m d) (hp : PatMatch path pat bs)
    (hpref : ∀ pat' d' bs', Holds (declaredAll c.nodes) pat' m d' → PatMatch path pat' bs' → Prefer pat pat') :
    ∃ ps, routeRequest name (compileAll c).1 path m = .handle ps d.chain ∧ DecodedBindings ps bs := by
  have hs : Serves (declaredAll c.nodes) path m := by
    obtain ⟨l1, l2, e, h1, h2, _⟩ := hd
    exact ⟨d, by rw [e]; simp, h2, pat, bs, h1, hp⟩
  obtain ⟨g, _, hdis⟩ := C120_dispatch name hn c hok path m
  generalize hr : routeRequest name (compileAll c).1 path m = o at hdis
  cases hdis with
  | tooLong h => omega
  | notAllowed _ h => exact absurd hs h
  | notFound _ h => exact absurd hs (h m)
  | @handle pat' d' bs' ps _ h1 h2 h3 h4 =>
    have hc := compileAll_compiled c hok
    have r1 := (registered_iff_holds c.nodes pat m d.chain).2 ⟨d, hd, rfl⟩
    have r2 := (registered_iff_holds c.nodes pat' m d'.chain).2 ⟨d', h1, rfl⟩
    rw [← hc.acc] at r1 r2
    obtain ⟨rfl, e⟩ := C09_priority_strict _ path m pat pat' d.chain d'.chain bs bs' r1 r2 hp h2
      (hpref pat' d' bs' h1 h2) (h3 pat d bs hd hp)
    refine ⟨ps, by rw [e], ?_⟩
    rw [C07_bindings_unique path pat bs bs' hp h2]
    exact h4

/-- C121: 405 is answered exactly when the path is served under some other method but not under the
requested one, and then `Allow` lists exactly the methods that would be served. -/
theorem C121_not_allowed_iff (name : Nat → Bytes) (hn : ∀ k, name k ≠ []) (c : Core T)
    (hok : (compileAll c).2 = true) (path : Bytes) (m : Int) :
    (∃ ps allow chain, routeRequest name (compileAll c).1 path m = .notAllowed ps allow chain) ↔
      path.length ≤ 4096 ∧ ¬ Serves (declaredAll c.nodes) path m ∧ ∃ m', Serves (declaredAll c.nodes) path m' := by
  obtain ⟨g, _, hdis⟩ := C120_dispatch name hn c hok path m
  generalize hr : routeRequest name (compileAll c).1 path m = o at hdis
  cases hdis with
  | tooLong h => simp; omega
  | @handle pat d bs ps _ h1 h2 _ _ =>
    obtain ⟨l1, l2, e, h3, h4, _⟩ := h1
    have : Serves (declaredAll c.nodes) path m := ⟨d, by rw [e]; simp, h4, pat, bs, h3, h2⟩
    simp [this]
  | notFound hl h => simp; intro _ _ m'; exact h m'
  | @notAllowed ps ms hl h h1 h2 h3 =>
    constructor
    · intro _
      refine ⟨hl, h, ?_⟩
      cases ms with
      | nil => exact absurd rfl h1
      | cons k ms => exact ⟨k, (h3 k).1 (by simp)⟩
    · intro _; exact ⟨_, _, _, rfl⟩

/-- C121: the `Allow` value and the 405 chain, whenever the answer is 405: the served methods in
ascending order and comma separated; the global middlewares, then the 405 handler. -/
theorem C121_allow_exact (name : Nat → Bytes) (hn : ∀ k, name k ≠ []) (c : Core T)
    (hok : (compileAll c).2 = true) (path : Bytes) (m : Int) (ps allow chain)
    (h : routeRequest name (compileAll c).1 path m = .notAllowed ps allow chain) :
    ∃ ms : List Nat, ms.Pairwise (· < ·) ∧ (∀ k : Nat, k ∈ ms ↔ Serves (declaredAll c.nodes) path k) ∧
      allow = b!", ".intercalate (ms.map name) ∧
      ∃ global, Global c.nodes global ∧ chain = global.map .own ++ [.methodNotAllowed] := by
  obtain ⟨g, hg, hdis⟩ := C120_dispatch name hn c hok path m
  rw [h] at hdis
  cases hdis with
  | @notAllowed _ ms hl _ h1 h2 h3 => exact ⟨ms, h2, h3, rfl, g, hg, rfl⟩

/-- C121: 404 is answered exactly when the path is served under no method at all. -/
theorem C121_not_found_iff (name : Nat → Bytes) (hn : ∀ k, name k ≠ []) (c : Core T)
    (hok : (compileAll c).2 = true) (path : Bytes) (m : Int) :
    (∃ chain, routeRequest name (compileAll c).1 path m = .notFound chain) ↔
      path.length ≤ 4096 ∧ ∀ m', ¬ Serves (declaredAll c.nodes) path m' := by
  obtain ⟨g, _, hdis⟩ := C120_dispatch name hn c hok path m
  generalize hr : routeRequest name (compileAll c).1 path m = o at hdis
  cases hdis with
  | tooLong h => simp; omega
  | @handle pat d bs ps _ h1 h2 _ _ =>
    obtain ⟨l1, l2, e, h3, h4, _⟩ := h1
    have : Serves (declaredAll c.nodes) path m := ⟨d, by rw [e]; simp, h4, pat, bs, h3, h2⟩
    simp
    intro _
    exact ⟨m, this⟩
  | notFound hl h => exact ⟨fun _ => ⟨hl, h⟩, fun _ => ⟨_, rfl⟩⟩
  | @notAllowed ps ms hl h h1 h2 h3 =>
    simp
    intro _
    cases ms with
    | nil => exact absurd rfl h1
    | cons k ms => exact ⟨k, (h3 k).1 (by simp)⟩

/-- C122: a request that matches nothing still passes through the global middlewares, in order, and
then reaches the user's 404 handler if one is set, the default one otherwise. -/
theorem C122_not_found_chain (name : Nat → Bytes) (hn : ∀ k, name k ≠ []) (c : Core T)
    (hok : (compileAll c).2 = true) (path : Bytes) (m : Int) (chain)
    (h : routeRequest name (compileAll c).1 path m = .notFound chain) :
    ∃ global, Global c.nodes global ∧ NotFoundChain global c.notFound chain := by
  obtain ⟨g, hg, hdis⟩ := C120_dispatch name hn c hok path m
  rw [h] at hdis
  cases hdis with
  | notFound _ _ h => exact ⟨g, hg, h⟩

/-- C122: setting the 404 handler after compiling takes effect at once, for the 404 chain only; a null
handler restores the default. -/
theorem C122_set_not_found (name : Nat → Bytes) (hn : ∀ k, name k ≠ []) (c : Core T)
    (hok : (compileAll c).2 = true) (custom : Option T) (path : Bytes) (m : Int) :
    ∃ global, Global c.nodes global ∧
      Dispatch name (declaredAll c.nodes) global custom path m
        (routeRequest name (setNotFound (compileAll c).1 custom) path m) := by
  refine ⟨_, rootMws_global _, ?_⟩
  have hc := compileAll_compiled c hok
  have hc' : Compiled (setNotFound (compileAll c).1 custom) c.nodes :=
    ⟨hc.table, hc.acc, by unfold setNotFound; simp only [hc.pre], hc.mna, hc.pre⟩
  exact dispatch_compiled name hn hc' path m

/-- C123: `compile` succeeds exactly when every declared route is well formed over its whole joined
path, has a real method, and no two declared routes name one capture position differently. -/
theorem C123_compile_iff (c : Core T) : (compileAll c).2 = true ↔ Acceptable (declaredAll c.nodes) := by
  rw [compileAll_ok, runRegs_ok_iff, acceptable_key, regsAll_keys]

/-- C123: compiling again succeeds again and changes no answer; in particular a controller does not
register its routes twice. -/
theorem C123_recompile (name : Nat → Bytes) (c : Core T) (hok : (compileAll c).2 = true) :
    (compileAll (compileAll c).1).2 = true ∧
    declaredAll (compileAll c).1.nodes = declaredAll c.nodes ∧
    ∀ path m, routeRequest name (compileAll (compileAll c).1).1 path m = routeRequest name (compileAll c).1 path m := by
  have hd : declaredAll (compileAll c).1.nodes = declaredAll c.nodes := by
    rw [compileAll_nodes c hok, declaredAll_init]
  have hok2 : (compileAll (compileAll c).1).2 = true := by
    rw [C123_compile_iff, hd, ← C123_compile_iff]; exact hok
  refine ⟨hok2, hd, ?_⟩
  intro path m
  have h1 := compileAll_compiled c hok
  have h2 := compileAll_compiled _ hok2
  have h2' := compiled_init h2 (compileAll_nodes c hok)
  exact routeRequest_congr name h2' h1 (by rw [compileAll_notFound, compileAll_notFound]) path m

end Verif.Route
