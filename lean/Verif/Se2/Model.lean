import Verif.Date.Model
import Verif.Mid.Http

/-! The session of an HTTP/2 server (which also speaks HTTP/1.1 if ALPN says so): the contexts of its requests and the responses it sends, `internal::session`, `src/qbm/http/2/http2.h` 90-420.

Conventions and simplifications.

* A context is a number. What `cancel` and the hooks of a context do belongs to the context (C38-C41); here they are events of the log. User code runs in them and while a request is routed, so a step is a piece of a call of the session, up to the next place where user code may run. `work` is the call that is under way and `errs` are the reports of stream errors that came while it ran, innermost first.
* The event loop is not re-entered: requests, `pending_write`, `eos`, `disconnected` and `extracted` come when no call is under way. Stream errors may come at any time: sending a response that the protocol refuses reports one (`2/protocol/server.h` 1070-1160, 1420-1460).
* The HTTP/2 protocol hands a stream over once (C94) and its number is not 0.
* Not modelled: timeouts, `cleanup_idle_streams`, log lines, GOAWAY. -/

namespace Verif.Se2

open Verif.Wire (Headers find)
open Verif.Parse (setHeader)

/-- A call of the session that is under way. -/
inductive Work
  /-- `router().route`, 251 and 271 -/
  | route (s x : Nat)
  /-- `cancel` of the context that is in the way, 246-250 -/
  | replace (x : Nat)
  /-- the loop of `pending_write` (`sweep`), 306-314, or of `disconnected` and `extracted`, 345-348 and 362-365, between two entries -/
  | loop (sweep : Bool) (todo : List (Nat × Nat))
  /-- the same loop, while the hook or `cancel` of this entry runs -/
  | busy (sweep : Bool) (e : Nat × Nat) (todo : List (Nat × Nat))
deriving DecidableEq

inductive Ev
  | stored (x s : Nat)
  | hook (x : Nat)
  | cancel (x : Nat)
  | refused (s : Nat)
deriving DecidableEq

/-- The members of `session`, 110-116: the protocol that ALPN chose (true: HTTP/2), `_contexts`, and what happened. `seen`: the streams handed over so far. `bad`: an iterator of `_contexts` was used after its entry had been erased. -/
structure St where
  h2 : Option Bool := none
  table : List (Nat × Nat) := []
  seen : List Nat := []
  nx : Nat := 0
  work : Option Work := none
  errs : List (Nat × Nat) := []
  log : List Ev := []
  bad : Bool := false

def get (m : List (Nat × Nat)) (s : Nat) : Option Nat := (m.find? (fun e => e.1 == s)).map (·.2)
def del (m : List (Nat × Nat)) (s : Nat) : List (Nat × Nat) := m.filter (fun e => !(e.1 == s))

/-- `_contexts.erase(it)`. -/
def eraseIt (t : St) (e : Nat × Nat) : St := if t.table.contains e then { t with table := del t.table e.1 } else { t with bad := true }

/-- `_contexts[s] = x`. -/
def store (t : St) (s x : Nat) : St := { t with table := (s, x) :: del t.table s, log := .stored x s :: t.log }

inductive In
  | alpn (h2 : Bool)
  | request (s : Nat)
  | request1
  | routed (ok : Bool)
  | pendingWrite
  | eos
  | closed
  | next (streamClosed : Bool)
  | streamError (s : Nat)
  | ret
deriving DecidableEq

/-- No call is under way. -/
def idle (t : St) : Bool := t.work.isNone && t.errs.isEmpty

/-- One piece of a call of the session. An input that does not fit does nothing, as does everything after `bad`. -/
def step (t : St) (i : In) : St :=
  if t.bad then t
  else match i with
  | .alpn p => if idle t && t.h2.isNone then { t with h2 := some p } else t                          -- 224-234
  | .request s =>                                                                                   -- 264-271
    if idle t && t.h2 == some true && s != 0 && !t.seen.contains s then
      { t with work := some (.route s t.nx), nx := t.nx + 1, seen := s :: t.seen } else t
  | .request1 =>                                                                                    -- 241-251
    if idle t && t.h2 == some false then
      match get t.table 0 with
      | some x => { t with work := some (.replace x), log := .cancel x :: t.log }
      | none => { t with work := some (.route 0 t.nx), nx := t.nx + 1 }
    else t
  | .routed ok => match t.work, t.errs with                                                         -- 251-256, 272-283
    | some (.route s x), [] => if ok then store { t with work := none } s x else { t with work := none, log := .refused s :: t.log }
    | _, _ => t
  | .pendingWrite => if idle t && t.h2 == some true then { t with work := some (.loop true t.table) } else t      -- 301-306
  | .eos =>                                                                                         -- 327-337
    if idle t && t.h2 == some false then
      match get t.table 0 with
      | some x => { t with table := [], log := .hook x :: t.log }
      | none => t
    else t
  | .closed => if idle t then { t with work := some (.loop false t.table) } else t                   -- 340-346, 356-362
  | .next c => match t.work, t.errs with
    | some (.loop true []), [] => { t with work := none }
    | some (.loop false []), [] => { t with work := none, table := [] }                             -- 348, 365
    | some (.loop true (e :: es)), [] =>                                                             -- 307-311
      if t.table.contains e && c then { t with work := some (.busy true e es), log := .hook e.2 :: t.log } else { t with work := some (.loop true es) }
    | some (.loop false (e :: es)), [] =>                                                            -- 346, 363
      if t.table.contains e then { t with work := some (.busy false e es), log := .cancel e.2 :: t.log } else { t with work := some (.loop false es) }
    | _, _ => t
  | .streamError s => match get t.table s with                                                      -- 385-391
    | some x => { t with errs := (s, x) :: t.errs, log := .cancel x :: t.log }
    | none => t
  | .ret => match t.errs with
    | e :: es => eraseIt { t with errs := es } e                                                     -- 392
    | [] => match t.work with
      | some (.replace x) =>                                                                        -- 249-251
        let t := eraseIt t (0, x)
        { t with work := some (.route 0 t.nx), nx := t.nx + 1 }
      | some (.busy true e es) => { eraseIt t e with work := some (.loop true es) }                  -- 309
      | some (.busy false e es) =>                                                                  -- `++it` of the loop, 345, 362
        if t.table.contains e then { t with work := some (.loop false es) } else { t with bad := true }
      | _ => t

def run (is : List In) : St := is.foldl step {}

/-! ## Responses -/

/-- A response: `stream_id`, the status code, the fields, the body. -/
structure Resp where
  stream : Nat := 0
  status : Nat := 200
  headers : Headers := []
  body : Bytes := []
deriving DecidableEq

/-- `operator<<` with HTTP/2, 183-214: what is handed to `send_response` of the protocol, and for which stream. -/
def send (r : Resp) : Option (Nat × Resp) :=
  if r.stream > 4294967295 then none
  else if r.stream == 0 then none
  else if !(r.status ≥ 100 && r.status < 600) then none
  else some (r.stream, if (find r.headers b!"content-length").isNone && !r.body.isEmpty then
    { r with headers := setHeader r.headers b!"content-length" (Date.decNat r.body.length) } else r)

end Verif.Se2
