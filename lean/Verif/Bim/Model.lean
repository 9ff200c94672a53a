import Verif.Context.TheoremsProgress

/-! The small built-in middlewares, on top of the model of the context (`Verif.Context`): error handling (`src/qbm/http/middleware/error_handling.h` 60-206), request transformation (`middleware/transform.h` 47-94), conditional execution (`middleware/conditional.h` 50-103), logging (`middleware/logging.h` 70-160) and timing (`middleware/timing.h` 60-124).

User functions are not programs: what they do is given. Handlers are named by numbers. Bodies and headers of responses and the texts of log lines are left out. -/

namespace Verif.Bim

open Verif.Context (Ctx Act step run)

/-! ## Error handling -/

/-- `_status_handlers` and `_generic_handler`, error_handling.h 204-206. -/
structure Table where
  at? : Int → Option Nat := fun _ => none
  generic : Option Nat := none

/-- A registration: `on_status`, `on_status_range`, `on_any_error`; the handler may be null. -/
inductive Reg
  | status (c : Int) (h : Option Nat)
  | range (lo hi : Int) (h : Option Nat)
  | any (h : Option Nat)
deriving DecidableEq

/-- `_status_handlers[status_code] = handler`, error_handling.h 95. -/
def put (t : Int → Option Nat) (c : Int) (h : Nat) : Int → Option Nat := fun d => if d = c then some h else t d

/-- `try_emplace`, error_handling.h 119. -/
def tryPut (t : Int → Option Nat) (c : Int) (h : Nat) : Int → Option Nat := if (t c).isSome then t else put t c h

/-- The loop of `on_status_range`, error_handling.h 116-121: `n` codes from `c` on. -/
def fill (t : Int → Option Nat) (h : Nat) : Nat → Int → (Int → Option Nat)
  | 0, _ => t
  | n + 1, c => fill (if c ≥ 100 && c < 600 then tryPut t c h else t) h n (c + 1)

/-- `on_status`, `on_status_range`, `on_any_error`, error_handling.h 91-142. -/
def register (t : Table) : Reg → Table
  | .status c (some h) => { t with at? := put t.at? c h }
  | .range lo hi (some h) => { t with at? := fill t.at? h (hi - lo + 1).toNat lo }
  | .any (some h) => { t with generic := some h }
  | _ => t

def registerAll (rs : List Reg) : Table := rs.foldl register {}

/-- What a handler does to the request, and whether it then throws. -/
structure Code where
  acts : List Act
  throws : Bool := false

/-- A call of a handler: for a status, or the generic one with its message. -/
inductive Call
  | status (h : Nat)
  | generic (h : Nat) (msg : Option Bytes)
deriving DecidableEq

/-- The last part of `process`, error_handling.h 171-187. `msg`: the entry `__error_message` of the context if it is a non-empty string; `none` stands for the default message. -/
def lastResort (t : Table) (code : Nat → Code) (msg : Ctx → Option Bytes) (c : Ctx) : Ctx × List Call :=
  match t.generic with
  | some g => (step (run c (code g).acts) (.complete .complete), [.generic g (msg c)])
  | none => (step c (.complete .complete), [])

/-- `process`, error_handling.h 153-188. -/
def errProcess (t : Table) (code : Nat → Code) (msg : Ctx → Option Bytes) (c : Ctx) : Ctx × List Call :=
  match t.at? c.status with
  | some h =>
    let c' := run c (code h).acts
    if (code h).throws then
      let (c'', calls) := lastResort t code msg c'
      (c'', .status h :: calls)
    else (step c' (.complete .complete), [.status h])
  | none => lastResort t code msg c

/-! ## Transformation and conditions -/

/-- `TransformMiddleware::process`, transform.h 78-94; `throws`: the transformer does; a null one does nothing. It is given the request, not the context. -/
def transform (throws : Bool) (c : Ctx) : Ctx :=
  if throws then step (step c (.setStatus 500)) (.complete .error) else step c (.complete .continue)

/-- The predicate: an answer, or an exception. -/
inductive Pred | yes | no | throws
deriving DecidableEq

/-- The `catch` of `ConditionalMiddleware::process`, conditional.h 96-102. -/
def condCatch (c : Ctx) : Ctx := step (step c (.setStatus 500)) (.complete .error)

/-- A child middleware is run: what it does, and whether it throws. -/
def child (b : Code) (c : Ctx) : Ctx := if b.throws then condCatch (run c b.acts) else run c b.acts

/-- `ConditionalMiddleware::process`, conditional.h 87-103: the context, and the child that was run (true: the first). -/
def cond (p : Pred) (a : Code) (b : Option Code) (c : Ctx) : Ctx × Option Bool :=
  match p with
  | .throws => (condCatch c, none)
  | .yes => (child a c, some true)
  | .no => match b with
    | some b => (child b c, some false)
    | none => (step c (.complete .continue), none)

/-! ## Logging and timing -/

/-- A line: logger `i` about a request or about a response with its status; or the callback of timer `i` with the time. -/
inductive Line
  | request (i : Nat)
  | response (i : Nat) (status : Nat)
  | time (i : Nat) (d : Int)
deriving DecidableEq

/-- A hook of these middlewares: logging.h 103-118, timing.h 93-121. -/
inductive Hook
  | log (i : Nat)
  | timer (i : Nat) (key : Bytes)
deriving DecidableEq

/-- What they look at: the status of the response, the start times in the data of the context. -/
structure Obs where
  status : Nat := 200
  start : Bytes → Option Int := fun _ => none
  hooks : List Hook := []
  out : List Line := []

inductive Ev
  /-- `LoggingMiddleware::process`, logging.h 93-121 -/
  | log (i : Nat)
  /-- `TimingMiddleware::process` of a middleware with this name, at this time, timing.h 84-124 -/
  | timer (i : Nat) (name : Bytes) (now : Int)
  /-- a handler sets the status -/
  | setStatus (n : Nat)
  /-- `execute_hook(point)`; `send`: the point is `PRE_RESPONSE_SEND`; the time -/
  | hooks (send : Bool) (now : Int)

/-- One hook at `PRE_RESPONSE_SEND`; what the user function throws is caught. -/
def fire (o : Obs) (now : Int) : Hook → List Line
  | .log i => [.response i o.status]
  | .timer i key => match o.start key with
    | some s => [.time i (now - s)]
    | none => []

def ev (o : Obs) : Ev → Obs
  | .log i => { o with out := o.out ++ [.request i], hooks := o.hooks ++ [.log i] }
  | .timer i name now =>
    let key := b!"__TimingMiddleware_StartTime_" ++ name
    { o with start := fun k => if k = key then some now else o.start k, hooks := o.hooks ++ [.timer i key] }
  | .setStatus n => { o with status := n }
  | .hooks send now => if send then { o with out := o.out ++ o.hooks.flatMap (fire o now) } else o

def observe (es : List Ev) : Obs := es.foldl ev {}

end Verif.Bim
