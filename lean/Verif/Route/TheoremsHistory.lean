import Verif.Route.TheoremsDispatch

/-! Property theorems C124 and C125: histories of router operations. -/

namespace Verif.Route
open Verif.Router Verif.Router.Spec Verif.Route.Spec Verif.Utility.Spec

variable {T : Type}

/-- When the router counts as compiled, its table is that of all declared routes. -/
def Fresh (s : Router T) : Prop := s.compiled = true → Compiled s.core s.core.nodes

theorem compile_cases (s : Router T) :
    (Acceptable (declaredAll s.core.nodes) ∧ s.compile = (⟨(compileAll s.core).1, true⟩, true) ∧
      Compiled (compileAll s.core).1 s.core.nodes ∧ (compileAll s.core).1.nodes = initAll s.core.nodes) ∨
    (¬ Acceptable (declaredAll s.core.nodes) ∧ s.compile = (⟨(compileAll s.core).1, s.compiled⟩, false)) := by
  cases e : (compileAll s.core).2 with
  | true =>
    refine .inl ⟨(C123_compile_iff _).1 e, ?_, compileAll_compiled _ e, compileAll_nodes _ e⟩
    unfold Router.compile
    simp only [e, if_true]
  | false =>
    refine .inr ⟨fun h => ?_, ?_⟩
    · rw [(C123_compile_iff _).2 h] at e; simp at e
    · unfold Router.compile
      simp only [e]
      rfl

theorem accepted_length (t : Table T) (l : List (RReg T)) : (accepted t l).length ≤ l.length := by
  induction l generalizing t with
  | nil => simp [accepted]
  | cons r l ih =>
    rw [accepted]
    have := ih (addRoute t r.pattern r.method r.handler).1
    split
    · simpa using this
    · simp; omega

theorem runRegs_of_accepted (t : Table T) (l : List (RReg T)) (ha : accepted t l = l) : (runRegs t l).2 = true := by
  induction l generalizing t with
  | nil => rfl
  | cons r l ih =>
    rw [accepted] at ha
    rw [runRegs]
    cases e : (addRoute t r.pattern r.method r.handler).2 with
    | true =>
      simp only [e, if_true, List.cons.injEq, true_and] at ha ⊢
      exact ih _ ha
    | false =>
      simp only [e, Bool.false_eq_true, if_false] at ha
      have := accepted_length (addRoute t r.pattern r.method r.handler).1 l
      rw [ha] at this
      simp at this
      omega

theorem compiled_acceptable {c : Core T} {ns : List (HNode T)} (h : Compiled c ns) : Acceptable (declaredAll ns) := by
  rw [acceptable_key, ← regsAll_keys, ← runRegs_ok_iff]
  exact runRegs_of_accepted _ _ h.acc

theorem fresh_compile (s : Router T) (h : Fresh s) : Fresh s.compile.1 := by
  rcases compile_cases s with ⟨_, e, h1, h2⟩ | ⟨hna, e⟩
  · rw [e]
    intro _
    show Compiled (compileAll s.core).1 (compileAll s.core).1.nodes
    rw [h2]; exact init_compiled h1
  · rw [e]
    intro hc
    exact absurd (compiled_acceptable (h hc)) hna

theorem fresh_step (name : Nat → Bytes) (s : Router T) (op : Op T) (hop : s.compiled = false ∨ ∀ h e, op ≠ .viaHandle h e)
    (h : Fresh s) : Fresh (s.step name op).1 := by
  cases op with
  | declare e => intro hc; simp [Router.step] at hc
  | viaHandle hd e =>
    rcases hop with hc | hc
    · intro hc'; simp [Router.step, hc] at hc'
    · exact absurd rfl (hc hd e)
  | compile => exact fresh_compile s h
  | setNotFound c =>
    intro hc
    obtain ⟨h1, h2, h3, h4, h5⟩ := h hc
    exact ⟨h1, h2, by show nfChain s.core.pre c = _; rw [h5]; rfl, h4, h5⟩
  | clear => intro hc; simp [Router.step] at hc
  | route p m =>
    unfold Router.step
    simp only []
    by_cases hc : s.compiled = true
    · rw [if_pos hc]; exact h
    · rw [if_neg hc]
      split <;> exact fresh_compile s h

theorem fresh_init : Fresh (Router.init : Router T) := by intro h; simp [Router.init] at h

/-- `compiled` is false while the history is open. -/
theorem disciplined_run (name : Nat → Bytes) (s : Router T) (o : Bool) (ops : List (Op T))
    (hd : Disciplined o ops) (ho : o = true → s.compiled = false) (hf : Fresh s) :
    Fresh (s.run name ops) := by
  induction hd generalizing s with
  | nil => exact hf
  | declare _ ih => exact ih _ (fun _ => rfl) (fresh_step name s _ (.inr (by simp)) hf)
  | clear _ ih => exact ih _ (fun _ => rfl) (fresh_step name s _ (.inr (by simp)) hf)
  | viaHandle _ ih => exact ih _ (fun _ => ho rfl) (fresh_step name s _ (.inl (ho rfl)) hf)
  | compile _ ih => exact ih _ (by simp) (fresh_step name s _ (.inr (by simp)) hf)
  | route _ ih => exact ih _ (by simp) (fresh_step name s _ (.inr (by simp)) hf)
  | setNotFound _ ih => exact ih _ (fun h => ho h) (fresh_step name s _ (.inr (by simp)) hf)

theorem fresh_answered (name : Nat → Bytes) (hn : ∀ k, name k ≠ []) (s : Router T) (hf : Fresh s) (path : Bytes)
    (m : Int) : Answered name s.core.nodes s.core.notFound path m (s.step name (.route path m)).2 := by
  unfold Router.step
  simp only []
  by_cases hc : s.compiled = true
  · rw [if_pos hc]
    exact .inl ⟨compiled_acceptable (hf hc), _, _, rootMws_global _, rfl, dispatch_compiled name hn (hf hc) path m⟩
  · rw [if_neg hc]
    rcases compile_cases s with ⟨ha, e, h1, _⟩ | ⟨hna, e⟩
    · rw [e]
      refine .inl ⟨ha, _, _, rootMws_global _, rfl, ?_⟩
      have := dispatch_compiled name hn h1 path m
      rwa [compileAll_notFound] at this
    · rw [e]
      exact .inr ⟨hna, rfl⟩

/-- C124: in every history where handles are used only while the router is open, each request is
answered by exactly the routes, middlewares and 404 handler declared so far, with no explicit
`compile` needed. Missing (hence `_partial`): handles used after a `compile` or a request, where the
claim is false, see `C124_false_late_handle`. -/
theorem C124_history_partial (name : Nat → Bytes) (hn : ∀ k, name k ≠ []) (ops : List (Op T))
    (hd : Disciplined true ops) (path : Bytes) (m : Int) :
    let s := (Router.init : Router T).run name ops
    Answered name s.core.nodes s.core.notFound path m (s.step name (.route path m)).2 :=
  fresh_answered name hn _ (disciplined_run name _ _ _ hd (fun _ => rfl) fresh_init) path m

theorem run_append (name : Nat → Bytes) (s : Router T) (a b : List (Op T)) :
    s.run name (a ++ b) = (s.run name a).run name b := by
  induction a generalizing s with
  | nil => rfl
  | cons op a ih => exact ih _

/-- C124: whatever happened before, a `compile` that returns normally brings the router up to date,
and it stays so until a handle is used again. -/
theorem C124_compile_restores (name : Nat → Bytes) (hn : ∀ k, name k ≠ []) (before after : List (Op T))
    (hok : (((Router.init : Router T).run name before).step name .compile).2 = .done)
    (hd : Disciplined false after) (path : Bytes) (m : Int) :
    let s := (Router.init : Router T).run name (before ++ .compile :: after)
    Answered name s.core.nodes s.core.notFound path m (s.step name (.route path m)).2 := by
  intro s
  apply fresh_answered name hn
  show Fresh ((Router.init : Router T).run name (before ++ .compile :: after))
  rw [run_append]
  refine disciplined_run name _ false after hd (by simp) ?_
  generalize (Router.init : Router T).run name before = s0 at hok
  rcases compile_cases s0 with ⟨_, e, h1, h2⟩ | ⟨_, e⟩
  · show Fresh s0.compile.1
    rw [e]
    intro _
    show Compiled (compileAll s0.core).1 (compileAll s0.core).1.nodes
    rw [h2]; exact init_compiled h1
  · simp [Router.step, e] at hok

/-! ### A refused declaration -/

/-- Every declaration of `ds` has a counterpart with the same path and method in `ds'`. -/
def Kept (ds ds' : List (Decl T)) : Prop := ∀ d ∈ ds, ∃ d' ∈ ds', d'.pieces = d.pieces ∧ d'.method = d.method

theorem kept_refl (ds : List (Decl T)) : Kept ds ds := fun d hd => ⟨d, hd, rfl, rfl⟩

theorem kept_under {ds ds' : List (Decl T)} (h : Kept ds ds') (seg : Bytes) (mws mws' : List T) :
    Kept (ds.map (Decl.under seg mws)) (ds'.map (Decl.under seg mws')) := by
  intro d hd
  obtain ⟨d0, h0, rfl⟩ := List.mem_map.1 hd
  obtain ⟨d1, h1, e1, e2⟩ := h d0 h0
  exact ⟨_, List.mem_map_of_mem h1, by simp [Decl.under, e1], e2⟩

theorem kept_append {a a' b b' : List (Decl T)} (h1 : Kept a a') (h2 : Kept b b') : Kept (a ++ b) (a' ++ b') := by
  intro d hd
  rcases List.mem_append.1 hd with hd | hd
  · obtain ⟨d', h, e⟩ := h1 d hd; exact ⟨d', List.mem_append_left _ h, e⟩
  · obtain ⟨d', h, e⟩ := h2 d hd; exact ⟨d', List.mem_append_right _ h, e⟩

theorem acceptable_kept {ds ds' : List (Decl T)} (h : Kept ds ds') (ha : Acceptable ds') : Acceptable ds := by
  have pat_eq : ∀ {d d' : Decl T} {p}, d'.pieces = d.pieces → DeclPattern d p → DeclPattern d' p := by
    intro d d' p e hp
    unfold DeclPattern at hp ⊢
    rw [e]; exact hp
  refine ⟨?_, ?_⟩
  · intro d hd
    obtain ⟨d', hd', e1, e2⟩ := h d hd
    obtain ⟨hm, p, hp⟩ := ha.1 d' hd'
    exact ⟨by rw [← e2]; exact hm, p, pat_eq e1.symm hp⟩
  · intro d hd d2 hd2 p p2 hp hp2
    obtain ⟨d', hd', e1, _⟩ := h d hd
    obtain ⟨d2', hd2', e2, _⟩ := h d2 hd2
    exact ha.2 d' hd' d2' hd2' p p2 (pat_eq e1 hp) (pat_eq e2 hp2)

theorem declaredAll_append (a b : List (HNode T)) : declaredAll (a ++ b) = declaredAll a ++ declaredAll b := by
  induction a with
  | nil => rfl
  | cons n a ih => simp [declaredAll, ih]

theorem kept_edit (e : Edit T) (n : HNode T) : Kept (declared n) (declared (n.edit e)) := by
  cases n with
  | route r => cases e <;> exact kept_refl _
  | group seg mws ch =>
    cases e with
    | child c =>
      unfold HNode.edit declared
      refine kept_under ?_ _ _ _
      rw [declaredAll_append]
      intro d hd
      exact ⟨d, List.mem_append_left _ hd, rfl, rfl⟩
    | use t => unfold HNode.edit declared; exact kept_under (kept_refl _) _ _ _
  | ctrl seg mws ini b rs =>
    cases e with
    | child c =>
      cases c with
      | route r =>
        unfold HNode.edit declared
        refine kept_under ?_ _ _ _
        intro d hd
        refine ⟨d, ?_, rfl, rfl⟩
        simp only [List.map_append, List.mem_append] at hd ⊢
        rcases hd with hd | hd
        · exact .inl (.inl hd)
        · exact .inr hd
      | group _ _ _ => exact kept_refl _
      | ctrl _ _ _ _ _ => exact kept_refl _
    | use t => unfold HNode.edit declared; exact kept_under (kept_refl _) _ _ _

theorem kept_modify (f : HNode T → HNode T) (hf : ∀ n, Kept (declared n) (declared (f n))) (i : Nat)
    (ns : List (HNode T)) : Kept (declaredAll ns) (declaredAll (ns.modify i f)) := by
  induction ns generalizing i with
  | nil => simpa using kept_refl (declaredAll ([] : List (HNode T)))
  | cons n ns ih =>
    cases i with
    | zero => simp only [List.modify_zero_cons, declaredAll]; exact kept_append (hf n) (kept_refl _)
    | succ i => simp only [List.modify_succ_cons, declaredAll]; exact kept_append (kept_refl _) (ih i)

theorem kept_modAt (f : HNode T → HNode T) (hf : ∀ n, Kept (declared n) (declared (f n))) (is : List Nat) (n : HNode T) :
    Kept (declared n) (declared (n.modAt f is)) := by
  induction is generalizing n with
  | nil => unfold HNode.modAt; exact hf n
  | cons i is ih =>
    cases n with
    | route r => exact kept_refl _
    | ctrl _ _ _ _ _ => exact kept_refl _
    | group seg mws ch =>
      unfold HNode.modAt declared
      exact kept_under (kept_modify _ ih i ch) _ _ _

theorem kept_coreEdit (c : Core T) (h : List Nat) (e : Edit T) :
    Kept (declaredAll c.nodes) (declaredAll (c.edit h e).nodes) := by
  unfold Core.edit
  simp only []
  induction c.nodes with
  | nil => exact kept_refl _
  | cons n ns ih =>
    simp only [List.map_cons, declaredAll]
    exact kept_append (kept_modAt _ (kept_edit e) h n) ih

theorem declaredAll_compileAll (c : Core T) : declaredAll (compileAll c).1.nodes = declaredAll c.nodes := by
  unfold compileAll
  simp only []
  split <;> exact declaredAll_compile _ _ _ _

/-- Not compiled and not compilable: stays so without `clear`, and nothing is dispatched. -/
theorem refused_step (name : Nat → Bytes) (s : Router T) (hc : s.compiled = false)
    (hna : ¬ Acceptable (declaredAll s.core.nodes)) (op : Op T) (hop : op ≠ .clear) :
    (s.step name op).1.compiled = false ∧ ¬ Acceptable (declaredAll (s.step name op).1.core.nodes) ∧
    ∀ o, (s.step name op).2 ≠ .outcome o := by
  have comp : s.compile.1.compiled = false ∧ ¬ Acceptable (declaredAll s.compile.1.core.nodes) ∧ s.compile.2 = false := by
    rcases compile_cases s with ⟨ha, _⟩ | ⟨_, e⟩
    · exact absurd ha hna
    · rw [e]
      exact ⟨hc, by show ¬ Acceptable (declaredAll (compileAll s.core).1.nodes); rw [declaredAll_compileAll]; exact hna, rfl⟩
  cases op with
  | declare e =>
    exact ⟨rfl, fun h => hna (acceptable_kept (kept_coreEdit s.core [] e) h), by simp [Router.step]⟩
  | viaHandle hd e =>
    exact ⟨hc, fun h => hna (acceptable_kept (kept_coreEdit s.core hd e) h), by simp [Router.step]⟩
  | compile => exact ⟨comp.1, comp.2.1, by simp [Router.step, comp.2.2]⟩
  | setNotFound c => exact ⟨hc, hna, by simp [Router.step]⟩
  | clear => exact absurd rfl hop
  | route p m =>
    simp only [Router.step, hc, comp.2.2, Bool.false_eq_true, if_false]
    exact ⟨comp.1, comp.2.1, by simp⟩

/-- C125: once a declared route is refused while the router is not compiled, no request is dispatched
on a half-built table: every later request throws, whatever is declared in between, until `clear`.
Missing (hence `_partial`): a router that counts as compiled from an earlier success, where the claim
is false, see `C125_false_half_table`. -/
theorem C125_refused_throws_partial (name : Nat → Bytes) (s : Router T) (hc : s.compiled = false)
    (hna : ¬ Acceptable (declaredAll s.core.nodes)) (ops : List (Op T)) (hops : .clear ∉ ops) (path : Bytes) (m : Int) :
    ((s.run name ops).step name (.route path m)).2 = .threw := by
  induction ops generalizing s with
  | nil =>
    show (s.step name (.route path m)).2 = .threw
    rcases compile_cases s with ⟨ha, _⟩ | ⟨_, e⟩
    · exact absurd ha hna
    · simp [Router.step, hc, e]
  | cons op ops ih =>
    obtain ⟨h1, h2, _⟩ := refused_step name s hc hna op (fun e => hops (by simp [e]))
    exact ih _ h1 h2 (fun h => hops (by simp [h]))

/-- C125: `clear` makes the router usable again: it is as new. -/
theorem C125_clear_restores (name : Nat → Bytes) (s : Router T) :
    (s.step name .clear).1 = (Router.init : Router T) := rfl

/-! ### What an operation declares -/

/-- C120: adding to a group declares exactly the new routes, behind the group's middlewares so far
and after its other routes; `use` puts the middleware after the group's other middlewares and before
everything declared inside, for all its routes, earlier and later ones. -/
theorem C120_declare_effect (seg : Bytes) (mws : List T) (ch : List (HNode T)) (n : HNode T) (t : T) :
    declared ((HNode.group seg mws ch).edit (.child n)) =
      declared (.group seg mws ch) ++ (declared n).map (Decl.under seg mws) ∧
    declared ((HNode.group seg mws ch).edit (.use t)) =
      (declaredAll ch).map (Decl.under seg (mws ++ [t])) := by
  constructor
  · unfold HNode.edit
    simp only [declared, declaredAll_append, List.map_append, declaredAll, List.append_nil]
  · unfold HNode.edit
    simp only [declared]

/-- C120: the same for a controller, whose own routes come after those added from outside. -/
theorem C120_declare_controller (seg : Bytes) (mws : List T) (ini rs : List (RouteD T)) (b : Bool) (r : RouteD T) (t : T) :
    declared ((HNode.ctrl seg mws ini b rs).edit (.child (.route r))) =
      ((rs ++ [r] ++ if b then [] else ini).map declRoute).map (Decl.under seg mws) ∧
    declared ((HNode.ctrl seg mws ini b rs).edit (.use t)) =
      ((rs ++ if b then [] else ini).map declRoute).map (Decl.under seg (mws ++ [t])) := by
  constructor <;> simp only [HNode.edit, declared]

/-- C120: an operation through a handle changes the declarations of that node and of no other. -/
theorem C120_handle_local (seg : Bytes) (mws : List T) (pre post : List (HNode T)) (n : HNode T) (is : List Nat)
    (e : Edit T) :
    declared ((HNode.group seg mws (pre ++ n :: post)).modAt (HNode.edit e) (pre.length :: is)) =
      (declaredAll pre ++ declared (n.modAt (HNode.edit e) is) ++ declaredAll post).map (Decl.under seg mws) := by
  have h : ∀ (pre : List (HNode T)) f, (pre ++ n :: post).modify pre.length f = pre ++ f n :: post := by
    intro pre f
    induction pre with
    | nil => rfl
    | cons a pre ih => simp [ih]
  have e1 : (HNode.group seg mws (pre ++ n :: post)).modAt (HNode.edit e) (pre.length :: is) =
      .group seg mws ((pre ++ n :: post).modify pre.length (HNode.modAt (HNode.edit e) is)) := by
    rw [HNode.modAt]
  rw [e1, h]
  simp only [declared, declaredAll_append, declaredAll, List.append_assoc]

/-! ### Concrete cases -/

/-- Method names for the examples below: 1 is GET, 3 is POST (llhttp.h). -/
def exName : Nat → Bytes
  | 1 => b!"GET"
  | 3 => b!"POST"
  | _ => b!"OTHER"

/-- A group `/api/` with middleware 10 holding `GET /users/:id` and `POST users/:id/`, below global
middleware 5. -/
def exOps : List (Op Nat) :=
  [.declare (.use 5), .declare (.child (.group b!"/api/" [] [])), .viaHandle [0] (.use 10),
   .viaHandle [0] (.child (.route ⟨b!"/users/:id", [11], 1, 100⟩)),
   .viaHandle [0] (.child (.route ⟨b!"users/:id/", [], 3, 101⟩))]

/-- The history meets the hypotheses of `C124_history_partial`. -/
example : Disciplined true exOps := by
  unfold exOps
  exact .declare (.declare (.viaHandle (.viaHandle (.viaHandle .nil))))

/-- The requests: parameters are decoded, the chain is global, group, route, handler. -/
example : (((Router.init : Router Nat).run exName exOps).step exName (.route b!"/api/users/a%20b" 1)).2 =
    .outcome (.handle [(b!"id", b!"a b")] [.own 5, .own 10, .own 11, .own 100]) := by decide +kernel
example : (((Router.init : Router Nat).run exName exOps).step exName (.route b!"/api//users/7/" 3)).2 =
    .outcome (.handle [(b!"id", b!"7")] [.own 5, .own 10, .own 101]) := by decide +kernel
example : (((Router.init : Router Nat).run exName exOps).step exName (.route b!"/api/users/7" 4)).2 =
    .outcome (.notAllowed [(b!"id", b!"7")] b!"GET, POST" [.own 5, .methodNotAllowed]) := by decide +kernel
example : (((Router.init : Router Nat).run exName exOps).step exName (.route b!"/users/7" 1)).2 =
    .outcome (.notFound [.own 5, .defaultNotFound]) := by decide +kernel
example : (((Router.init : Router Nat).run exName (exOps ++ [.compile, .setNotFound (some 77)])).step exName
    (.route b!"/users/7" 1)).2 = .outcome (.notFound [.own 5, .own 77]) := by decide +kernel

/-- The compile of this history succeeds: the hypothesis of C120–C123 and of `C124_compile_restores`. -/
example : (((Router.init : Router Nat).run exName exOps).step exName .compile).2 = .done := by decide +kernel

/-- A controller is asked for its routes once: compiling twice registers them once. -/
example : (((Router.init : Router Nat).run exName
      [.declare (.child (.ctrl b!"c" [] [⟨b!"/x", [], 1, 100⟩] false [])), .compile, .compile]).step exName
    (.route b!"/c/x" 1)).2 = .outcome (.handle [] [.own 100]) := by decide +kernel

/-- C124 is false in general: a route added through a group handle after the router was compiled is
declared, but requests for it get 404 until something else triggers a recompile. -/
theorem C124_false_late_handle :
    let ops : List (Op Nat) := [.declare (.child (.group b!"/api" [] [])), .compile,
      .viaHandle [0] (.child (.route ⟨b!"/x", [], 1, 100⟩))]
    let s := (Router.init : Router Nat).run exName ops
    (s.step exName (.route b!"/api/x" 1)).2 = .outcome (.notFound [.defaultNotFound]) ∧
    (((s.step exName .compile).1).step exName (.route b!"/api/x" 1)).2 = .outcome (.handle [] [.own 100]) := by
  decide +kernel

/-- C125 is false for a router that was compiled before: when a handle adds a malformed route and
`compile` throws, the router still counts as compiled and serves requests from the half-built table:
`/z`, which was served before, is now answered 404. -/
theorem C125_false_half_table :
    let ops : List (Op Nat) := [.declare (.child (.group b!"/api" [] [])),
      .declare (.child (.route ⟨b!"/z", [], 1, 200⟩)), .compile]
    let s := (Router.init : Router Nat).run exName ops
    let s' := s.run exName [.viaHandle [0] (.child (.route ⟨b!"/*", [], 1, 100⟩))]
    (s.step exName (.route b!"/z" 1)).2 = .outcome (.handle [] [.own 200]) ∧
    (s'.step exName .compile).2 = .threw ∧
    ((s'.step exName .compile).1.step exName (.route b!"/z" 1)).2 = .outcome (.notFound [.defaultNotFound]) := by
  decide +kernel

/-- The hypotheses of `C125_refused_throws_partial` are met: a malformed route on a fresh router. -/
example : let s := (Router.init : Router Nat).run exName [.declare (.child (.route ⟨b!"/a/*", [], 1, 100⟩))]
    s.compiled = false ∧ ¬ Acceptable (declaredAll s.core.nodes) := by
  refine ⟨by decide, ?_⟩
  rw [← C123_compile_iff]
  decide +kernel

end Verif.Route
