import Verif.Context.Theorems

/-! # How handlers and middleware are run: the adapters

`RouteLambdaTask`, `src/qbm/http/routing/route.h` 78-118; `FunctionalMiddleware` and `MiddlewareTask`, `routing/middleware.h` 104-163, 225-275; the coroutine runner, `routing/coro_task.h` 118-180; on top of the model of the context (`Verif.Context`).

A handler is not a program: it is an `Inv`, and what it does are inputs, in any order and at any time, also after it returned (a handler may keep the context). The body of a 500 response and the log are left out. A coroutine may start at once or later (`begin`). -/

namespace Verif.Adp

open Verif.Context (Ctx Act Result Frame State)

/-- How a task was registered: a middleware `(ctx, next)`, a coroutine middleware (which is wrapped in a middleware `(ctx, next)`), a route handler, a coroutine route handler (wrapped in a route handler). -/
inductive Kind | mw | coroMw | route | coroRoute
deriving DecidableEq

def Kind.coro : Kind → Bool
  | .coroMw | .coroRoute => true
  | _ => false

/-- `FunctionalMiddleware::process` holds a deferral scope, middleware.h 226. -/
def Kind.scoped : Kind → Bool
  | .mw | .coroMw => true
  | _ => false

/-- One invocation of a handler: `completion_count_before` (coro_task.h 128), `next_called` (middleware.h 227); `signalled` (a ghost: it said how it ended), `ended` = returned or threw. -/
structure Inv where
  kind : Kind
  before : Option Nat := none
  nextCalled : Bool := false
  signalled : Bool := false
  ended : Bool := false
deriving DecidableEq

structure St where
  ctx : Ctx
  invs : List Inv := []

/-- The context does `as`; if that starts a task, its handler is invoked. -/
def enter (kind : Bool → Nat → Kind) (t : St) (as : List Act) : St :=
  let c := Context.run t.ctx as
  if t.ctx.stack.length < c.stack.length then
    match c.stack with
    | .task e i :: _ => { ctx := if (kind e i).scoped then Context.step c .openScope else c, invs := t.invs ++ [{ kind := kind e i }] }
    | _ => { t with ctx := c }
  else { t with ctx := c }

/-- `is_completed() || is_cancelled()`. -/
def over (c : Ctx) : Bool := c.state == .finalised || c.cancelled

def upd (t : St) (j : Nat) (f : Inv → Inv) : St := { t with invs := t.invs.modify j f }

inductive In
  /-- the router starts the chain -/
  | start (chain : List Bool)
  /-- the coroutine of invocation `j` starts -/
  | begin (j : Nat)
  /-- the handler calls `ctx->complete(r)` -/
  | signal (j : Nat) (r : Result)
  /-- the middleware calls `next()` -/
  | next (j : Nat)
  /-- the handler returns (a coroutine: it is done) -/
  | done (j : Nat)
  /-- the handler throws -/
  | fail (j : Nat)
  /-- the innermost task, hook or callback on the stack returns -/
  | ret
  /-- somebody cancels the request -/
  | cancel
  /-- somebody sets the status of the response -/
  | setStatus (n : Nat)

/-- Whether the handler runs, so that it can do something. -/
def Inv.active (v : Inv) : Bool := !v.kind.coro || v.before.isSome && !v.ended

def step (kind : Bool → Nat → Kind) (t : St) : In → St
  | .start chain => enter kind t [.start chain]
  | .begin j => match t.invs[j]? with                                     -- coro_task.h 128
    | some v => if v.kind.coro && v.before.isNone then upd t j (fun v => { v with before := some t.ctx.count }) else t
    | none => t
  | .signal j r => match t.invs[j]? with
    | some v => if v.active then enter kind (upd t j (fun v => { v with signalled := true })) [.complete r] else t
    | none => t
  | .next j => match t.invs[j]? with                                      -- middleware.h 229-239
    | some v =>
      if v.kind != .mw then t
      else if v.nextCalled then t
      else
        let t := upd t j (fun v => { v with nextCalled := true, signalled := true })
        if over t.ctx then t else enter kind t [.complete .continue]
    | none => t
  | .done j => match t.invs[j]? with
    | some v =>
      if v.ended then t
      else if !v.kind.coro then upd t j (fun v => { v with ended := true })
      else match v.before with
        | none => t
        | some b =>                                                       -- coro_task.h 130-135
          let t := upd t j (fun v => { v with ended := true })
          if t.ctx.count == b && !over t.ctx then enter kind t [.complete (if v.kind == .coroRoute then .complete else .continue)] else t
    | none => t
  | .fail j => match t.invs[j]? with
    | some v =>
      if v.ended then t
      else if v.kind.coro && v.before.isNone then t
      else                                                                -- coro_task.h 136-154, route.h 82-115, middleware.h 240-272
        let t := upd t j (fun v => { v with ended := true, signalled := true })
        if over t.ctx then t else enter kind t [.setStatus 500, .complete .error]
    | none => t
  | .ret => match t.ctx.stack with
    | .task e i :: _ => { t with ctx := Context.run t.ctx (if (kind e i).scoped then [.ret, .closeScope] else [.ret]) }
    | _ => { t with ctx := Context.run t.ctx [.ret] }
  | .cancel =>                                                            -- the `cancel()` of these tasks does nothing: route.h 121, middleware.h 291
    { t with ctx := Context.run t.ctx (match (Context.step t.ctx .cancel).stack with | .taskCancel :: _ => [.cancel, .ret] | _ => [.cancel]) }
  | .setStatus n => { t with ctx := Context.run t.ctx [.setStatus n] }

def run (kind : Bool → Nat → Kind) (errChain : Option (List Bool)) (is : List In) : St := is.foldl (step kind) { ctx := Context.init errChain }

/-- The contract of a handler (context.h 1062-1066): it says at most once how it ended, by `complete`, by `next` (which may be called again), or by throwing; a coroutine also by returning. -/
def Fair (t : St) : In → Prop
  | .signal j _ => ∀ v, t.invs[j]? = some v → v.signalled = false
  | .next j => ∀ v, t.invs[j]? = some v → v.signalled = true → v.nextCalled = true
  | .fail j => ∀ v, t.invs[j]? = some v → v.signalled = false
  | _ => True

def FairRun (kind : Bool → Nat → Kind) : St → List In → Prop
  | _, [] => True
  | t, i :: is => Fair t i ∧ FairRun kind (step kind t i) is

/-- The invocation can say nothing any more: it said how it ended (by throwing, too), or it is a coroutine that is done. -/
def Inv.spent (v : Inv) : Prop := v.signalled = true ∨ (v.kind.coro = true ∧ v.ended = true)

end Verif.Adp
