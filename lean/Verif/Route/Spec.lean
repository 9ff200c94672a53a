import Verif.Router.Spec
import Verif.Route.Model

/-! Independent specification of declared routes and of dispatch. Only the declaration tree
(`HNode`) and the result type (`Outcome`) are shared with the model. -/

namespace Verif.Route.Spec
open Verif.Router.Spec Verif.Utility.Spec

variable {T : Type}

/-- A route as its user declared it: the path pieces of the enclosing groups and controller and of
the route itself, outermost first; the middlewares in force, outermost first; method; handler. -/
structure Decl (T : Type) where
  pieces : List Bytes
  mws : List T
  method : Int
  handler : T

/-- Put a declaration below one more enclosing node. -/
def Decl.under (seg : Bytes) (mws : List T) (d : Decl T) : Decl T :=
  ⟨seg :: d.pieces, mws ++ d.mws, d.method, d.handler⟩

/-- A single route. -/
def declRoute (r : RouteD T) : Decl T := ⟨[r.seg], r.mws, r.method, r.handler⟩

mutual
/-- The routes declared by a node, in declaration order. The routes a controller defines itself
count from the moment it is mounted, whether or not it has been asked for them yet. -/
def declared : HNode T → List (Decl T)
  | .route r => [declRoute r]
  | .group seg mws children => (declaredAll children).map (Decl.under seg mws)
  | .ctrl seg mws inits initd routes =>
    ((routes ++ if initd then [] else inits).map declRoute).map (Decl.under seg mws)
/-- The routes declared by a list of nodes. -/
def declaredAll : List (HNode T) → List (Decl T)
  | [] => []
  | n :: ns => declared n ++ declaredAll ns
end

/-- The segments of the pieces of a path, one piece after the other: slashes at the joints do not
count. -/
inductive PiecesSegs : List Bytes → List Bytes → Prop
  | nil : PiecesSegs [] []
  | cons {p s ps ss} : IsSegments p s → PiecesSegs ps ss → PiecesSegs (p :: ps) (s ++ ss)

/-- A declaration denotes a route pattern: captures named, distinct names over the whole path,
wildcard only at the very end. -/
def DeclPattern (d : Decl T) (pat : List Seg) : Prop :=
  (∃ segs, PiecesSegs d.pieces segs ∧ AreSegs segs pat) ∧
  (∀ n, Seg.wild n ∈ pat.dropLast → False) ∧ (pat.filterMap Seg.name).Nodup

/-- The declaration that holds a (pattern, method): the last one. -/
def Holds (ds : List (Decl T)) (pat : List Seg) (m : Int) (d : Decl T) : Prop :=
  ∃ l1 l2, ds = l1 ++ d :: l2 ∧ DeclPattern d pat ∧ d.method = m ∧
    ∀ d' ∈ l2, DeclPattern d' pat → d'.method ≠ m

/-- Some declaration of the method matches the path. -/
def Serves (ds : List (Decl T)) (path : Bytes) (m : Int) : Prop :=
  ∃ d ∈ ds, d.method = m ∧ ∃ pat bs, DeclPattern d pat ∧ PatMatch path pat bs

/-- The declarations can all be registered: each denotes a pattern and a real method, and no two
name one capture position differently. -/
def Acceptable (ds : List (Decl T)) : Prop :=
  (∀ d ∈ ds, (0 ≤ d.method ∧ d.method < 64) ∧ ∃ pat, DeclPattern d pat) ∧
  ∀ d ∈ ds, ∀ d' ∈ ds, ∀ pat pat', DeclPattern d pat → DeclPattern d' pat' → ¬ Clash pat pat'

/-- The chain of a declared route: middlewares outermost first, then its handler, nothing else. -/
def Decl.chain (d : Decl T) : List (Task T) := (d.mws ++ [d.handler]).map .own

/-- `ps` are the bindings with each value percent-decoded. -/
def DecodedBindings (ps : Router.Params) (bs : List (Bytes × Bytes)) : Prop :=
  ∀ k v, ps.get k = some v ↔ ∃ raw, (k, raw) ∈ bs ∧ Decodes raw v

/-- The global middlewares: those of the first top-level group with an empty path, none if there is
no such group. For a `Router` this is its root group, the only top-level node. -/
inductive Global : List (HNode T) → List T → Prop
  | none : Global [] []
  | root {mws ch ns} : Global (.group [] mws ch :: ns) mws
  | skip {n ns mws} : (∀ ws ch, n ≠ .group [] ws ch) → Global ns mws → Global (n :: ns) mws

/-- The 404 chain for the global middlewares and a possible user handler. -/
def NotFoundChain (global : List T) (custom : Option T) (chain : List (Task T)) : Prop :=
  (∃ t, custom = some t ∧ chain = (global ++ [t]).map .own) ∨
  (custom = none ∧ chain = global.map .own ++ [.defaultNotFound])

/-- What a request must lead to, given the declared routes in order, the global middlewares and the
user's 404 handler. -/
inductive Dispatch (name : Nat → Bytes) (ds : List (Decl T)) (global : List T) (custom : Option T)
    (path : Bytes) (m : Int) : Outcome T → Prop
  | tooLong : path.length > 4096 → Dispatch name ds global custom path m .tooLong
  /-- the preferred declaration among those that match runs with its decoded parameters -/
  | handle {pat d bs ps} : path.length ≤ 4096 → Holds ds pat m d → PatMatch path pat bs →
      (∀ pat' d' bs', Holds ds pat' m d' → PatMatch path pat' bs' → Prefer pat pat') →
      DecodedBindings ps bs → Dispatch name ds global custom path m (.handle ps d.chain)
  /-- no declaration of this method matches, but some declaration does: `Allow` lists exactly the
  methods that would be served, in ascending order -/
  | notAllowed {ps ms} : path.length ≤ 4096 → ¬ Serves ds path m → ms ≠ [] → ms.Pairwise (· < ·) →
      (∀ k : Nat, k ∈ ms ↔ Serves ds path k) →
      Dispatch name ds global custom path m
        (.notAllowed ps (b!", ".intercalate (ms.map name)) (global.map .own ++ [.methodNotAllowed]))
  /-- no declaration matches under any method -/
  | notFound {chain} : path.length ≤ 4096 → (∀ m', ¬ Serves ds path m') → NotFoundChain global custom chain →
      Dispatch name ds global custom path m (.notFound chain)

/-- Histories in which node handles are used only while the router is open: since a declaration made
on the router itself (or its construction or `clear`) and before the next `compile` or request. -/
inductive Disciplined : Bool → List (Op T) → Prop
  | nil {o} : Disciplined o []
  | declare {o e ops} : Disciplined true ops → Disciplined o (.declare e :: ops)
  | clear {o ops} : Disciplined true ops → Disciplined o (.clear :: ops)
  | viaHandle {h e ops} : Disciplined true ops → Disciplined true (.viaHandle h e :: ops)
  | compile {o ops} : Disciplined false ops → Disciplined o (.compile :: ops)
  | route {o p m ops} : Disciplined false ops → Disciplined o (.route p m :: ops)
  | setNotFound {o h ops} : Disciplined o ops → Disciplined o (.setNotFound h :: ops)

/-- A request is answered by what is declared now: if the declarations can be registered it is
dispatched on all of them, otherwise the call throws. -/
def Answered (name : Nat → Bytes) (nodes : List (HNode T)) (custom : Option T) (path : Bytes) (m : Int)
    (seen : Seen T) : Prop :=
  (Acceptable (declaredAll nodes) ∧ ∃ global o, Global nodes global ∧ seen = .outcome o ∧
    Dispatch name (declaredAll nodes) global custom path m o) ∨
  (¬ Acceptable (declaredAll nodes) ∧ seen = .threw)

end Verif.Route.Spec
