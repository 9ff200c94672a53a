import Verif.Ws.Model

/-! # WebSocket connections for coroutines

`coro_client` and `coro_session`, `src/qbm/http/ws/coro.h`, with the parts of `WebSocket` (`ws.h` 1080-1500) that write Close frames and report events, and
`http_awaiter`, `src/qbm/http/coro.h`.

Conventions and simplifications.

* A completion does not run the coroutine, it schedules it (`coro.h` 141-143), so nothing is re-entered: a step is one report of the connection, or one `co_await`. `resumed` in the log means: the result is set and
  the coroutine is scheduled.
* Which reports come, and when, is up to the environment; in particular the connection attempt itself (`ws.h` 1263-1302) is not modelled.
* Awaiters are numbered in the order of the calls. `destroyed` is the end of a coroutine while its awaiter waits. An awaiter whose call throws is destroyed by the unwinding.
* The member `_close_sent` of `coro_client` is written and never read; it is left out. `sent` is the member of `WebSocket` for a client, that of `coro_session` for a session.
* Masks, pongs and data sent by the application are left out. -/

namespace Verif.Wsc

/-- `coro_client` or `coro_session`. -/
inductive Side | client | session
deriving DecidableEq

/-- `IncomingFrame::Kind`, coro.h 110-116. -/
inductive Kind | message | ping | pong | close | disconnected
deriving DecidableEq

/-- `IncomingFrame`, coro.h 109-123. -/
structure Frame where
  kind : Kind := .disconnected
  payload : Bytes := []
  isText : Bool := false
  code : Nat := 0
  reason : Bytes := []
deriving DecidableEq

/-- The value of a `co_await`. -/
inductive Result
  | connect (ok : Bool)
  | frame (f : Frame)
  | close (ok : Bool)
deriving DecidableEq

/-- What the connection reports. `violation`: the parser fails the connection with a Close frame, ws.h 457-471. -/
inductive Net
  | connected
  | error
  | message (text : Bool) (p : Bytes)
  | ping (p : Bytes)
  | pong (p : Bytes)
  | closed (p : Bytes)
  | disconnected
  | violation (p : Bytes)
deriving DecidableEq

/-- What a coroutine awaits. -/
inductive Call
  | connect
  | receive
  | close (status : UInt16) (reason : Bytes)
deriving DecidableEq

inductive Ev
  | net (n : Net)
  | call (id : Nat) (c : Call)
  | cap (n : Nat)
  | destroyed (id : Nat)
  | resumed (id : Nat) (r : Result)
  | threw (id : Nat)
  | wroteClose (p : Bytes)
deriving DecidableEq

/-- The members of `coro_client` (coro.h 169-179) and `coro_session` (570-578), the awaiters, and the log, newest first. -/
structure St where
  pending : List Frame := []
  cap : Nat := 1024
  conn : Option Nat := none
  recv : Option Nat := none
  clos : Option Nat := none
  disc : Bool := false
  sent : Bool := false
  next : Nat := 0
  dead : List Nat := []
  done : List Nat := []
  log : List Ev := []

def St.add (s : St) (e : Ev) : St := { s with log := e :: s.log }

/-- The completion handler of an awaiter, `coro.h` 130-144. -/
def fire (s : St) (id : Nat) (r : Result) : St :=
  if s.dead.contains id || s.done.contains id then s
  else { s with done := id :: s.done, log := .resumed id r :: s.log }

/-- `if (complete) { auto cb = std::exchange(complete, {}); cb(...); }` -/
def fireOpt (s : St) (w : Option Nat) (r : Result) : St := match w with | none => s | some id => fire s id r

/-- `deliver_frame`, 212-230 and 585-600. -/
def deliver (s : St) (f : Frame) : St :=
  match s.recv with
  | some id => fire { s with recv := none } id (.frame f)
  | none =>
    if s.cap == 0 then s
    else { s with pending := (if s.pending.length ≥ s.cap then s.pending.drop 1 else s.pending) ++ [f] }

/-- `make_close_frame`, 199-210 and 791-798. -/
def closeFrame (p : Bytes) : Frame :=
  match p with
  | hi :: lo :: rest => { kind := .close, code := hi.toNat * 256 + lo.toNat, reason := rest }
  | _ => { kind := .close }

/-- `on(error)`, 286-303; a session has none. -/
def onError (sd : Side) (s : St) : St :=
  match sd with
  | .session => s
  | .client =>
    let s := { s with disc := true }
    let s := fireOpt { s with conn := none } s.conn (.connect false)
    let s := fireOpt { s with recv := none } s.recv (.frame {})
    fireOpt { s with clos := none } s.clos (.close false)

/-- `on(closed)`, ws.h 1441-1450 and coro.h 320-337; `on(close)`, coro.h 787-813. -/
def onClosed (s : St) (p : Bytes) : St :=
  let s := if s.sent then s else { s.add (.wroteClose p) with sent := true }
  let s := deliver s (closeFrame p)
  fireOpt { s with clos := none } s.clos (.close true)

/-- `on(disconnected)`, ws.h 1458-1462 and coro.h 339-361; coro.h 815-828. -/
def onDisconnected (sd : Side) (s : St) : St :=
  let s := { s with disc := true, sent := false }
  match sd with
  | .client =>
    let s := fireOpt { s with conn := none } s.conn (.connect false)
    let s := fireOpt { s with recv := none } s.recv (.frame {})
    fireOpt { s with clos := none } s.clos (.close true)
  | .session =>
    let s := deliver s {}
    fireOpt { s with clos := none } s.clos (.close true)

/-- A report of the connection. -/
def onNet (sd : Side) (s : St) : Net → St
  | .connected => match sd with                                    -- 278-284
    | .client => fireOpt { s with conn := none } s.conn (.connect true)
    | .session => s
  | .error => onError sd s
  | .message t p => deliver s { kind := .message, payload := p, isText := t }     -- 182-189, 305-308, 757-764
  | .ping p => deliver s { kind := .ping, payload := p }           -- 310-313, 766-778
  | .pong p => deliver s { kind := .pong, payload := p }           -- 315-318, 780-786
  | .closed p => onClosed s p
  | .disconnected => onDisconnected sd s
  | .violation p =>                                                -- ws.h 457-471, 1487-1490
    let s := s.add (.wroteClose p)
    onError sd (match sd with | .client => { s with sent := true } | .session => s)

/-- `await_suspend` throws: the awaiter is gone. -/
def throw_ (s : St) (id : Nat) : St := { s with dead := id :: s.dead, log := .threw id :: s.log }

/-- `connect`, 382-403, and the start of `WebSocket::connect`, ws.h 1257-1262. -/
def connect (s : St) (id : Nat) : St :=
  let s := fireOpt { s with recv := none } s.recv (.frame {})
  let s := fireOpt { s with clos := none } s.clos (.close false)
  let s := { s with pending := [], disc := false, sent := false }
  let s := fireOpt { s with conn := none } s.conn (.connect false)
  { s with conn := some id }

/-- `receive`, 421-438; `next_frame`, 846-866. -/
def receive (s : St) (id : Nat) : St :=
  match s.pending with
  | f :: fs => fire { s with pending := fs } id (.frame f)
  | [] =>
    if s.disc then fire s id (.frame {})
    else match s.recv with
      | some _ => throw_ s id
      | none => { s with recv := some id }

/-- `close_async`, 449-465 and 875-891. -/
def closeAsync (sd : Side) (s : St) (id : Nat) (status : UInt16) (reason : Bytes) : St :=
  match s.clos with
  | some _ => throw_ s id
  | none =>
    if s.disc then fire s id (.close true)
    else
      let s := { s with clos := some id, sent := s.sent || sd == .session }
      match Ws.messageClose status reason with
      | none => throw_ s id
      | some m => { s.add (.wroteClose m.data) with sent := true }

inductive Input
  | net (n : Net)
  | call (c : Call)
  | cap (n : Nat)
  | destroy (id : Nat)

/-- A call with the next number. -/
def St.begin (s : St) (c : Call) : St := { s.add (.call s.next c) with next := s.next + 1 }

/-- One report or one call. A session has no `connect`; an awaiter that does not exist yet cannot be destroyed. -/
def step (sd : Side) (s : St) : Input → St
  | .net n => onNet sd (s.add (.net n)) n
  | .cap n => { s.add (.cap n) with cap := n }                     -- 273-276
  | .destroy id => if id < s.next then { s.add (.destroyed id) with dead := id :: s.dead } else s     -- coro.h 116-119
  | .call c => match c with
    | .connect => match sd with | .client => connect (s.begin .connect) s.next | .session => s
    | .receive => receive (s.begin .receive) s.next
    | .close st rs => closeAsync sd (s.begin (.close st rs)) s.next st rs

def run (sd : Side) (is : List Input) : St := is.foldl (step sd) {}

end Verif.Wsc
