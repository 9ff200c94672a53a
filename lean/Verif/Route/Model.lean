import Verif.Router.Model
import Verif.Utility.Model

/-! Model of route declaration, compilation and dispatch: `routing/handler_node.h`,
`routing/route.h`, `routing/route_group.h`, `routing/controller.h`, `routing/router_core.h` and
`routing/router.h`, on top of the route table of `Verif.Router.Model`.

`T` stands for the tasks a user supplies (middlewares and handlers); what running a task does is
modelled in `Verif.Context.Model`. Logging, names of nodes and parent pointers are left out: no
decision reads them. -/

namespace Verif.Route
open Verif.Router

/-- `normalize_path_segment`, handler_node.h 47-66: strip all leading and trailing slashes. -/
def normalize (s : Bytes) : Bytes :=
  ((s.dropWhile (· == c!"/")).reverse.dropWhile (· == c!"/")).reverse

/-- `join_paths`, handler_node.h 83-116. -/
def joinPaths (parent segment : Bytes) : Bytes :=
  let p := normalize parent
  let s := normalize segment
  if p = [] ∧ s = [] then [c!"/"]                                  -- 90-92
  else
    let r := [c!"/"]                                               -- 98-100
    let r := if p ≠ [] then r ++ p else r                          -- 103-105
    if s ≠ [] then                                                 -- 108-113
      let r := if p ≠ [] then r ++ [c!"/"] else r
      r ++ s
    else r

variable {T : Type}

/-- One task of a compiled chain: a task supplied by the user (a middleware, a route handler or a
custom 404 handler), the default 404 handler (router_core.h 122-127) or the 405 handler (149-154). -/
inductive Task (T : Type) where
  | own (t : T)
  | defaultNotFound
  | methodNotAllowed
  deriving DecidableEq

/-- `Route`, route.h 238-246: path segment, own middlewares (handler_node.h 150), method, handler.
The constructors (256-284) refuse a null handler, so there always is one. -/
structure RouteD (T : Type) where
  seg : Bytes
  mws : List T
  method : Int
  handler : T

/-- `IHandlerNode` and its three implementations: `Route`, `RouteGroup` (route_group.h 50-53) and
`Controller` (controller.h 53-57). For a controller, `inits` is what its `initialize_routes()`
appends to `_controller_routes`, `initd` is `_routes_initialized` and `routes` is
`_controller_routes`. Null children cannot be added (route_group.h 307-314, router_core.h 177-182). -/
inductive HNode (T : Type) where
  | route (r : RouteD T)
  | group (seg : Bytes) (mws : List T) (children : List (HNode T))
  | ctrl (seg : Bytes) (mws : List T) (inits : List (RouteD T)) (initd : Bool) (routes : List (RouteD T))

/-- The route table, radix_tree.h, holding compiled chains. -/
abbrev Table (T : Type) := Node (List (Task T))

/-- `Route::compile_tasks_and_register`, route.h 316-341, with `register_compiled_route`,
router_core.h 236-240. `false`: `add_route` threw `invalid_argument`. -/
def compileRoute (t : Table T) (path : Bytes) (inh : List T) (r : RouteD T) : Table T × Bool :=
  let full := joinPaths path r.seg
  let tasks := inh ++ r.mws
  addRoute t full r.method (tasks.map .own ++ [.own r.handler])

/-- The loop of `Controller::compile_tasks_and_register`, controller.h 403-411. A throw leaves the
loop. -/
def compileRoutes (t : Table T) (path : Bytes) (inh : List T) : List (RouteD T) → Table T × Bool
  | [] => (t, true)
  | r :: rs =>
    let x := compileRoute t path inh r
    if x.2 then compileRoutes x.1 path inh rs else (x.1, false)

mutual
/-- `compile_tasks_and_register` of the three node kinds: route.h 316-341, route_group.h 65-76,
controller.h 387-412. The result is the table, the node (a controller is initialised once) and
whether the call returned normally. -/
def compileNode (t : Table T) (path : Bytes) (inh : List T) : HNode T → Table T × HNode T × Bool
  | .route r =>
    let x := compileRoute t path inh r
    (x.1, .route r, x.2)
  | .group seg mws children =>
    let x := compileNodes t (joinPaths path seg) (inh ++ mws) children
    (x.1, .group seg mws x.2.1, x.2.2)
  | .ctrl seg mws inits initd routes =>
    let routes' := if initd then routes else routes ++ inits       -- 395-398
    let x := compileRoutes t (joinPaths path seg) (inh ++ mws) routes'
    (x.1, .ctrl seg mws inits true routes', x.2)
/-- The loops over children, route_group.h 71-75, and over the top-level nodes, router_core.h
217-222. -/
def compileNodes (t : Table T) (path : Bytes) (inh : List T) : List (HNode T) → Table T × List (HNode T) × Bool
  | [] => (t, [], true)
  | n :: ns =>
    let x := compileNode t path inh n
    if x.2.2 then
      let y := compileNodes x.1 path inh ns
      (y.1, x.2.1 :: y.2.1, y.2.2)
    else (x.1, x.2.1 :: ns, false)
end

/-- `RouterCore`, router_core.h 55-79 (error chain and hooks left out): the table, the top-level
nodes, the user's 404 handler if one is set (`_default_not_found_handler` with
`_custom_not_found_handler_set`), the compiled 404 and 405 chains and the global prefix. -/
structure Core (T : Type) where
  table : Table T
  nodes : List (HNode T)
  notFound : Option T
  nfTasks : List (Task T)
  mnaTasks : List (Task T)
  pre : List T

/-- `compile_default_not_found_handler`, router_core.h 118-134. -/
def nfChain (pre : List T) (custom : Option T) : List (Task T) :=
  pre.map .own ++ [match custom with | some t => .own t | none => .defaultNotFound]

/-- `compile_default_method_not_allowed_handler`, router_core.h 142-156. -/
def mnaChain (pre : List T) : List (Task T) := pre.map .own ++ [.methodNotAllowed]

/-- The constructor, router_core.h 165-169. -/
def Core.init : Core T := ⟨.empty, [], none, nfChain [] none, mnaChain [], []⟩

/-- The middlewares of the root group, router_core.h 197-214: the first top-level node that is a
`RouteGroup` with an empty path segment. -/
def rootMws : List (HNode T) → List T
  | [] => []
  | .group [] mws _ :: _ => mws
  | _ :: ns => rootMws ns

/-- `compile_all_routes`, router_core.h 192-227; `false`: an exception left it. -/
def compileAll (c : Core T) : Core T × Bool :=
  let pre := rootMws c.nodes
  let x := compileNodes .empty [] [] c.nodes
  if x.2.2 then
    ({ c with table := x.1, nodes := x.2.1, pre := pre, nfTasks := nfChain pre c.notFound, mnaTasks := mnaChain pre }, true)
  else ({ c with table := x.1, nodes := x.2.1, pre := pre }, false)

/-- `set_not_found_handler`, router_core.h 248-254. -/
def setNotFound (c : Core T) (h : Option T) : Core T :=
  { c with notFound := h, nfTasks := nfChain c.pre h }

/-- `RouterCore::clear`, router_core.h 452-465. -/
def Core.clear (_ : Core T) : Core T := Core.init

/-- `allowed_header_value`, router_core.h 87-97; `name` is `std::to_string` of a method. -/
def allowValue (name : Nat → Bytes) (methods : List Nat) : Bytes :=
  methods.foldl (fun allow m => (if allow ≠ [] then allow ++ b!", " else allow) ++ name m) []

/-- `decode_path_parameters`, router_core.h 105-110. -/
def decodeParams (ps : Params) : Params := ps.map fun kv => (kv.1, Utility.decodePath kv.2)

/-- What `route_request` sets a context up with: the response it prepares and the chain it starts. -/
inductive Outcome (T : Type) where
  /-- 400 "Path too long", nothing is run -/
  | tooLong
  /-- the chain of a route, with the path parameters -/
  | handle (ps : Params) (chain : List (Task T))
  /-- 405 with the `Allow` header set, the path parameters and the 405 chain -/
  | notAllowed (ps : Params) (allow : Bytes) (chain : List (Task T))
  /-- the 404 chain -/
  | notFound (chain : List (Task T))
  /-- 500 "No task chain available", nothing is run -/
  | noChain
  deriving DecidableEq

/-- `MAX_PATH_LENGTH`, router_core.h 362. -/
def maxPath : Nat := 4096

/-- lines 429-443 of `route_request`: a missing or empty chain is a 500. -/
def startChain (chain : List (Task T)) (o : Outcome T) : Outcome T :=
  if chain = [] then .noChain else o

/-- `route_request`, router_core.h 337-445. -/
def routeRequest (name : Nat → Bytes) (c : Core T) (path : Bytes) (method : Int) : Outcome T :=
  if path.length > maxPath then .tooLong                            -- 363-371
  else match matchPath c.table path method with                     -- 377
    | some (ps, tasks) => startChain tasks (.handle (decodeParams ps) tasks)      -- 384-402
    | none =>
      match allowedMethods c.table path with                        -- 403-419
      | some (ps, ms) =>
        if ms ≠ [] then startChain c.mnaTasks (.notAllowed (decodeParams ps) (allowValue name ms) c.mnaTasks)
        else startChain c.nfTasks (.notFound c.nfTasks)
      | none => startChain c.nfTasks (.notFound c.nfTasks)          -- 420-427

/-- `Router`, router.h 55-61: the core, whose only top-level node is the root group, and
`_is_compiled`. -/
structure Router (T : Type) where
  core : Core T
  compiled : Bool

/-- The constructor, router.h 344-370: a root group with an empty path. -/
def Router.init : Router T := ⟨{ Core.init with nodes := [.group [] [] []] }, false⟩

/-- What a node handle can be told: add a child (`RouteGroup::add_route`, `get`, ..., `group`,
`controller`, route_group.h 105-237; the verbs of a controller, controller.h 69-111) or a middleware
(`use`, route_group.h 248-300, controller.h 318-373). A group ignores nothing; a controller takes
only routes. -/
inductive Edit (T : Type) where
  | child (n : HNode T)
  | use (t : T)

/-- The edit of one node. -/
def HNode.edit : Edit T → HNode T → HNode T
  | .child n, .group seg mws ch => .group seg mws (ch ++ [n])
  | .use t, .group seg mws ch => .group seg (mws ++ [t]) ch
  | .child (.route r), .ctrl seg mws ini b rs => .ctrl seg mws ini b (rs ++ [r])
  | .use t, .ctrl seg mws ini b rs => .ctrl seg (mws ++ [t]) ini b rs
  | _, n => n

/-- Apply `f` to the node found by child indices (a `shared_ptr` handle kept by the user). -/
def HNode.modAt (f : HNode T → HNode T) : List Nat → HNode T → HNode T
  | [], n => f n
  | i :: is, .group seg mws ch => .group seg mws (ch.modify i (HNode.modAt f is))
  | _ :: _, n => n

/-- The public operations of a `Router` and of the handles it returns. -/
inductive Op (T : Type) where
  /-- `get`, `post`, `add_route`, `group`, `controller`, `use` on the router, router.h 76-260, 375-565:
  they go to the root group and clear `_is_compiled` -/
  | declare (e : Edit T)
  /-- the same on a handle obtained from `group` or `controller`: `_is_compiled` is not touched -/
  | viaHandle (handle : List Nat) (e : Edit T)
  /-- `compile`, router.h 598-604 -/
  | compile
  /-- `set_not_found_handler`, router.h 569-574 -/
  | setNotFound (h : Option T)
  /-- `clear`, router.h 634-645 -/
  | clear
  /-- `route`, router.h 607-621 -/
  | route (path : Bytes) (method : Int)

/-- What the caller of an operation sees. -/
inductive Seen (T : Type) where
  | done
  | threw
  | outcome (o : Outcome T)
  deriving DecidableEq

/-- Edit a node of the core: the handles point below the root group, the only top-level node of a
`Router` (router.h 368). -/
def Core.edit (c : Core T) (handle : List Nat) (e : Edit T) : Core T :=
  { c with nodes := c.nodes.map (HNode.modAt (HNode.edit e) handle) }

/-- `Router::compile`, router.h 598-604: an exception of the core leaves `_is_compiled` as it was. -/
def Router.compile (s : Router T) : Router T × Bool :=
  let x := compileAll s.core
  if x.2 then (⟨x.1, true⟩, true) else (⟨x.1, s.compiled⟩, false)

/-- One operation: the new state and what the caller sees. -/
def Router.step (name : Nat → Bytes) (s : Router T) : Op T → Router T × Seen T
  | .declare e => (⟨s.core.edit [] e, false⟩, .done)
  | .viaHandle handle e => (⟨s.core.edit handle e, s.compiled⟩, .done)
  | .compile =>
    let x := s.compile
    (x.1, if x.2 then .done else .threw)
  | .setNotFound h => (⟨Route.setNotFound s.core h, s.compiled⟩, .done)
  | .clear => (⟨{ s.core.clear with nodes := [.group [] [] []] }, false⟩, .done)
  | .route path m =>
    if s.compiled then (s, .outcome (routeRequest name s.core path m))
    else
      let x := s.compile
      if x.2 then (x.1, .outcome (routeRequest name x.1.core path m)) else (x.1, .threw)

/-- A history of operations. -/
def Router.run (name : Nat → Bytes) (s : Router T) : List (Op T) → Router T
  | [] => s
  | op :: ops => Router.run name (Router.step name s op).1 ops

end Verif.Route
