import Verif.Base

/-! Model of the request lifecycle of `src/qbm/http/routing/context.h`.

Tasks, lifecycle hooks, the finalisation callback, a task's `cancel()` and outside callers are user code.
They are not programs of the model: they are represented by the *frame* on top of an explicit call
stack, and may perform any sequence of calls on the context (`Act`), return or throw. All internal calls
of the code are tail calls, so every method either ends or ends by calling user code; calling user code
pushes a frame. An execution is a list of `Act`s, so quantifying over lists of `Act`s quantifies over
every behaviour of tasks, hooks, callbacks and callers, every nesting and every order of (single-threaded)
events. Not modelled: exceptions of the allocator (the `catch` of `complete`), hooks that add hooks. -/

namespace Verif.Context

/-- `Context::State`, context.h 136-142. -/
inductive State
  | ready | running | finalised
deriving DecidableEq, Repr

/-- `Context::ProcessingPhase`, context.h 85-92 (the non-error phases are not distinguished). -/
inductive Phase
  | initial | normal | errorChain
deriving DecidableEq, Repr

/-- `AsyncTaskResult`, routing/types.h. -/
inductive Result
  | continue | complete | cancelled | error | fatal
deriving DecidableEq, Repr

/-- User code in progress. -/
inductive Frame
  /-- `task->execute(ctx)`, context.h 258; carries which chain and index (ghost) -/
  | task (err : Bool) (i : Nat)
  /-- the `POST_HANDLER_EXECUTION` hooks, context.h 226 -/
  | hooks
  /-- `_on_finalized_callback(*this)`, context.h 230 -/
  | callback
  /-- `current_task->cancel()`, context.h 1200 -/
  | taskCancel
  /-- the `REQUEST_COMPLETE` hooks run by the destructor, context.h 426 -/
  | dtor
deriving DecidableEq, Repr

/-- Observable events. -/
inductive Ev
  /-- task `i` of the route chain (`err = false`) or of the error chain (`err = true`) is started -/
  | start (err : Bool) (i : Nat)
  /-- the request is finalised with this response status -/
  | finalised (status : Nat)
  /-- the finalisation callback runs (the response is sent) -/
  | callback (status : Nat)
  /-- the error chain becomes the current chain -/
  | enterError
deriving DecidableEq, Repr

/-- The members of `Context` used by the lifecycle (context.h 111-171), the call stack of user code,
and the trace. `chain`: a null task pointer is `false`. `errChain`: the router's error chain, `none` if
not set or the router is gone; read afresh by the code at each `ERROR`, constant in the model.
`started`: `set_task_chain_and_start` was called. `suppressed`, `curErr`,
`main` are ghosts (was `suppress_response` called; is `chain` the error chain; the chain the router started). -/
structure Ctx where
  state : State := .ready
  phase : Phase := .initial
  lastResult : Result := .complete
  count : Nat := 0
  cancelled : Bool := false
  inFlight : Bool := false
  chain : List Bool := []
  idx : Nat := 0
  depth : Nat := 0
  pending : Bool := false
  hasCallback : Bool := true
  status : Nat := 200
  errChain : Option (List Bool) := none
  started : Bool := false
  dead : Bool := false
  suppressed : Bool := false
  curErr : Bool := false
  main : List Bool := []
  stack : List Frame := []
  trace : List Ev := []
deriving DecidableEq, Repr

/-- `is_cancelled_or_done_internal`, context.h 185-188. -/
def doneOrCancelled (c : Ctx) : Bool := c.cancelled || c.state == .finalised

/-- `finalize_processing_internal`, context.h 213-235, up to the hooks; the callback follows when the
hooks return (`ret`). With no hook registered the `hooks` frame returns at once. -/
def finalize (c : Ctx) : Ctx :=
  if c.state == .finalised then c
  else if c.depth > 0 then { c with pending := true }
  else { c with state := .finalised, inFlight := false, pending := false, stack := .hooks :: c.stack,
                trace := c.trace ++ [.finalised c.status] }

/-- Null tasks are skipped, context.h 269-272. -/
def skipNull (chain : List Bool) (i : Nat) : Nat := i + ((chain.drop i).takeWhile (fun t => !t)).length

/-- `proceed_to_next_task_internal`, context.h 242-276, up to the call of the task. -/
def proceed (c : Ctx) : Ctx :=
  if doneOrCancelled c then
    if c.state != .finalised then finalize c else c
  else if skipNull c.chain c.idx < c.chain.length then
    { c with idx := skipNull c.chain c.idx, inFlight := true,
             stack := .task c.curErr (skipNull c.chain c.idx) :: c.stack,
             trace := c.trace ++ [.start c.curErr (skipNull c.chain c.idx)] }
  else finalize { c with idx := skipNull c.chain c.idx }

/-- The `ERROR` case of `complete`, context.h 1146-1171 (not cancelled). -/
def completeError (c : Ctx) : Ctx :=
  if c.phase == .errorChain then finalize { c with status := 500 }
  else
    match c.errChain with
    | some (t :: ts) =>
      proceed { c with phase := .errorChain, chain := t :: ts, idx := 0, curErr := true,
                       trace := c.trace ++ [.enterError] }
    | _ => finalize { c with status := 500 }

/-- `complete`, context.h 1105-1178. -/
def complete (r : Result) (c : Ctx) : Ctx :=
  if c.state == .finalised && r != .cancelled then c
  else if c.cancelled && r != .cancelled then
    if c.state != .finalised then finalize c else c
  else
    match r with
    | .continue => proceed { c with inFlight := false, lastResult := r, count := c.count + 1, idx := c.idx + 1 }
    | .complete => finalize { c with inFlight := false, lastResult := r, count := c.count + 1 }
    | .cancelled => finalize { c with inFlight := false, lastResult := r, count := c.count + 1, cancelled := true }
    | .fatal => finalize { c with inFlight := false, lastResult := r, count := c.count + 1, status := 500 }
    | .error => completeError { c with inFlight := false, lastResult := r, count := c.count + 1 }

/-- The rest of `cancel` after the task's own `cancel()`, context.h 1207-1210. -/
def afterCancel (c : Ctx) : Ctx := complete .cancelled { c with status := 503 }

/-- `cancel`, context.h 1188-1211. -/
def cancel (c : Ctx) : Ctx :=
  if doneOrCancelled c then c
  else if c.inFlight && c.idx < c.chain.length && c.chain.getD c.idx false then
    { c with cancelled := true, stack := .taskCancel :: c.stack }
  else afterCancel { c with cancelled := true }

/-- `suppress_response`, context.h 1250-1255. -/
def suppress (c : Ctx) : Ctx :=
  { c with hasCallback := false, state := .finalised, inFlight := false, suppressed := true }

/-- `set_task_chain_and_start`, context.h 289-303, as called by `RouterCore::route_request` (router_core.h
402-443) after it has set the phase. -/
def start (chain : List Bool) (c : Ctx) : Ctx :=
  if doneOrCancelled c then { c with phase := .normal, started := true }
  else if chain.isEmpty then
    complete .complete { c with phase := .normal, started := true, chain := chain, main := chain, idx := 0, state := .running,
                                curErr := false }
  else proceed { c with phase := .normal, started := true, chain := chain, main := chain, idx := 0, state := .running,
                        curErr := false }

/-- `ScopedFinalizationDeferral::release`, context.h 369-381. -/
def release (c : Ctx) : Ctx :=
  if c.depth - 1 == 0 && c.pending then finalize { c with depth := c.depth - 1 }
  else { c with depth := c.depth - 1 }

/-- User code returns. -/
def ret (c : Ctx) : Ctx :=
  match c.stack with
  | .hooks :: st =>
    if c.hasCallback then { c with stack := .callback :: st, trace := c.trace ++ [.callback c.status] }
    else { c with stack := st }
  | .taskCancel :: st => afterCancel { c with stack := st }
  | .dtor :: st => { c with stack := st, dead := true }
  | _ :: st => { c with stack := st }
  | [] => c

/-- User code throws: swallowed everywhere (context.h 201, 231, 1201, 427) except in a task, which is
completed with `ERROR` (context.h 259-268). -/
def throwing (c : Ctx) : Ctx :=
  match c.stack with
  | .task _ _ :: st =>
    if doneOrCancelled c then { c with stack := st, inFlight := false }
    else complete .error { c with stack := st, inFlight := false }
  | _ => ret c

/-- `~Context`, context.h 421-431. -/
def destroy (c : Ctx) : Ctx :=
  if c.state != .finalised then finalize { c with stack := .dtor :: c.stack }
  else { c with stack := .dtor :: c.stack }

/-- What user code, or the world outside when the stack is empty, may do. -/
inductive Act
  | complete (r : Result)
  | cancel
  | suppress
  | openScope
  | closeScope
  | setStatus (n : Nat)
  | ret
  | throw
  /-- the router starts the chain -/
  | start (chain : List Bool)
  /-- the last reference is dropped -/
  | destroy
deriving DecidableEq, Repr

/-- One step. Impossible actions (starting twice, closing a scope that is not open, destroying the
context while user code holds a reference, anything after destruction) do nothing. -/
def step (c : Ctx) (a : Act) : Ctx :=
  if c.dead then c
  else match a with
  | .complete r => complete r c
  | .cancel => cancel c
  | .suppress => suppress c
  | .openScope => { c with depth := c.depth + 1 }
  | .closeScope => if c.depth = 0 then c else release c
  | .setStatus n => { c with status := n }
  | .ret => ret c
  | .throw => throwing c
  | .start ch => if c.started || !c.stack.isEmpty then c else start ch c
  | .destroy => if c.stack.isEmpty then destroy c else c

/-- An execution. -/
def run (c : Ctx) (as : List Act) : Ctx := as.foldl step c

/-- A new context of a router with the given error chain, context.h 397-403. -/
def init (errChain : Option (List Bool)) : Ctx := { errChain := errChain }

end Verif.Context
