import Verif.Base

/-! Model of the persistent HTTP/1.1 client, `1.1/client.{h,cpp}`: queueing, connecting, sending,
completing and failing of requests, with user callbacks that call back into the client.

The model is a machine with an explicit stack of pending work (`Frame`): a user callback in
progress is the frame `user`, on top of which any call of the API can be made; every other frame is
the rest of a client function. What the user, the network and the clock do is the input (`Choice`):
the theorems hold for all of them. Events of the event loop arrive when the stack is empty (qb-io
dispatches from its loop; client.cpp 496-525, 630-642, 675-688 rely on that).

Not modelled: contents of requests and responses, durations (a timer may fire at any time after it
was armed), `weak_from_this` guards (the client is assumed alive; destruction is `disconnect`, 219-221),
exceptions of user callbacks (swallowed by `invoke_user_callback`, 199-210). -/

namespace Verif.Cli

/-- How a request ends: a response from the network, named by the number of its arrival, or an
error response made by the client with the given status (`create_error_response`, 721-730). -/
inductive Result where
  | response (r : Nat)
  | error (status : Nat)
  deriving DecidableEq, Repr

/-- `RequestContext`, client.h 68-73. `call` says which call of `push_request` it belongs to (their
number is `_total_requests`), `rid` is `request_id`. -/
structure Ctx where
  call : Nat
  rid : Nat
  deriving DecidableEq, Repr

/-- A connection object, client.cpp 56-183: whether a connection attempt of it is under way, whether
its transport is open and whether it was told to disconnect. -/
structure Conn where
  attempt : Bool
  isOpen : Bool
  closing : Bool
  deriving DecidableEq, Repr

/-- What can be observed from outside, for stating properties. -/
inductive Ev where
  /-- the request of a call is put on the wire, 490 -/
  | sent (call : Nat) (rid : Nat)
  /-- the callback of a call is invoked -/
  | done (call : Nat) (res : Result)
  /-- a connect callback is invoked -/
  | connected (cb : Nat) (ok : Bool)
  deriving DecidableEq, Repr

/-- The rest of a function of the client that is still to be run. -/
inductive Frame where
  /-- a user callback in progress -/
  | user
  /-- `process_pending_requests`, 468-494 -/
  | process
  /-- 491-493: `if (!_active_request) process_pending_requests();` -/
  | processTail
  /-- `fail_active_request`, 694-703 -/
  | failActive (status : Nat)
  /-- the loop of `fail_all_requests`, 705-714 -/
  | failAll (status : Nat)
  /-- the end of `disconnect`, 317-324 -/
  | discEnd
  /-- the end of `handle_response`, 631-648 -/
  | afterResponse (keepAlive : Bool)
  /-- the loops over connect callbacks, 592-596 and 610-614 -/
  | connLoop (cbs : List Nat) (ok : Bool)
  /-- the end of `handle_connection_success`, 597-600 -/
  | afterConnect
  /-- the end of `handle_timeout`, 658-660 -/
  | timeoutEnd
  /-- the end of `handle_disconnected`, 671-691 -/
  | afterDisconnected
  deriving DecidableEq, Repr

/-- `Client`, client.h 111-139, with the stack and the trace (newest first). `reconnects` counts the
reconnections deferred by `handle_disconnected` (681-688). -/
structure St where
  isConnected : Bool
  isConnecting : Bool
  intentional : Bool
  depth : Nat
  deferredReset : Bool
  conn : Option Conn
  pending : List Ctx
  active : Option Ctx
  nextId : Nat
  autoReconnect : Bool
  maxPending : Nat
  cbs : List Nat
  nextCb : Nat
  total : Nat
  successful : Nat
  failed : Nat
  reconnects : Nat
  stack : List Frame
  trace : List Ev
  deriving DecidableEq, Repr

/-- `create_connection`, 242-253: a fresh connection object; the old one is destroyed. -/
def fresh : Conn := ⟨false, false, false⟩

/-- A new client, client.cpp 215-240 and the member initialisers client.h 113-139. -/
def St.init (auto : Bool) (maxPending : Nat) : St :=
  ⟨false, false, false, 0, false, some fresh, [], none, 1, auto, maxPending, [], 1, 0, 0, 0, 0, [], []⟩

/-- A user callback is entered, `invoke_user_callback` with `enter_user_callback`, 199-210, 527-531. -/
def St.enter (s : St) (e : Ev) (rest : List Frame) : St :=
  { s with depth := s.depth + 1, stack := .user :: rest, trace := e :: s.trace }

/-- `_connection && _connection->is_open()`. -/
def St.usable (s : St) : Bool := match s.conn with | some c => c.isOpen | none => false

/-- `connect(callback)`, 255-281; `rest` is the stack to return to. -/
def St.connect (s : St) (cb : Option Nat) (rest : List Frame) : St :=
  if s.isConnected then                                              -- 257-263
    match cb with
    | some k => s.enter (.connected k true) rest
    | none => { s with stack := rest }
  else if s.isConnecting then                                        -- 264-270
    { s with cbs := s.cbs ++ cb.toList, stack := rest }
  else                                                               -- 271-280
    let c := if s.usable then s.conn.getD fresh else fresh           -- 276-278
    { s with cbs := s.cbs ++ cb.toList, intentional := false, isConnecting := true,
             conn := some { c with attempt := true }, stack := rest }

/-- `push_request` with a callback, 366-393; `valid` says whether `prepare_request` (345-364) found
the request acceptable. -/
def St.push (s : St) (valid : Bool) : St :=
  let s := { s with total := s.total + 1 }                           -- 371
  if !valid then                                                     -- 372-376
    { s with failed := s.failed + 1 }.enter (.done s.total (.error 400)) s.stack
  else if s.pending.length + (if s.active.isSome then 1 else 0) ≥ s.maxPending then  -- 377-382
    { s with failed := s.failed + 1 }.enter (.done s.total (.error 503)) s.stack
  else                                                               -- 383-391
    { s with pending := s.pending ++ [⟨s.total, s.nextId⟩], nextId := s.nextId + 1, stack := .process :: s.stack }

/-- `disconnect`, 310-325. -/
def St.disconnect (s : St) : St :=
  { s with intentional := true, isConnected := false, isConnecting := false,
           stack := .failActive 503 :: .failAll 503 :: .discEnd :: s.stack }

/-- `handle_connection_failure`, 603-619. -/
def St.connectionFailed (s : St) : St :=
  { s with isConnected := false, isConnecting := false, cbs := [],
           stack := .connLoop s.cbs false :: .failActive 502 :: .failAll 503 :: s.stack }

/-- `_connection->disconnect()` if there is a connection, 112-115. -/
def St.closeConn (s : St) : St := { s with conn := s.conn.map fun c => { c with closing := true } }

/-- `has_pending_work`, 716-719. -/
def St.hasWork (s : St) : Bool := s.active.isSome || !s.pending.isEmpty

/-- `fail_active_request`, 694-703. -/
def St.failActive (s : St) (status : Nat) (rest : List Frame) : St :=
  match s.active with
  | none => { s with stack := rest }
  | some c => { s with active := none, failed := s.failed + 1 }.enter (.done c.call (.error status)) rest

/-- Run the frame on top of the stack; `rest` is the stack below it. `sendOk` says whether
`connection::send` (117-138) got the request out or failed it. -/
def St.runFrame (s : St) (sendOk : Bool) (rest : List Frame) : Frame → St
  | .user => s
  | .process =>
    if s.active.isSome then { s with stack := rest }                 -- 470-472
    else match s.pending with
    | [] => { s with stack := rest }
    | c :: ps =>
      if !s.isConnected || !s.usable then                            -- 473
        if !s.autoReconnect then                                     -- 474-482
          { s with pending := ps, failed := s.failed + 1 }.enter (.done c.call (.error 503)) (.process :: rest)
        else if !s.isConnecting then s.connect none rest             -- 483-486
        else { s with stack := rest }
      else                                                           -- 488-493
        let s := { s with active := some c, pending := ps, trace := .sent c.call c.rid :: s.trace }
        if sendOk then { s with stack := rest }
        else s.failActive 400 (.processTail :: rest)                 -- 125-128, 135-137
  | .processTail =>
    if s.active.isSome then { s with stack := rest } else { s with stack := .process :: rest }
  | .failActive status => s.failActive status rest
  | .failAll status =>
    match s.pending with
    | [] => { s with stack := rest }
    | c :: ps =>
      { s with pending := ps, failed := s.failed + 1 }.enter (.done c.call (.error status)) (.failAll status :: rest)
  | .discEnd =>
    let s := s.closeConn                                             -- 317-319
    if s.depth ≠ 0 then { s with deferredReset := true, stack := rest }   -- 320-321
    else { s with conn := none, stack := rest }                      -- 322-324
  | .afterResponse keepAlive =>
    if s.intentional then { s with stack := rest }                   -- 631-633
    else if !keepAlive then { s.closeConn with isConnected := false, stack := rest }  -- 634-647
    else { s with stack := .process :: rest }                        -- 648
  | .connLoop cbs ok =>
    match cbs with
    | [] => { s with stack := rest }
    | k :: ks => s.enter (.connected k ok) (.connLoop ks ok :: rest)
  | .afterConnect => if s.intentional then { s with stack := rest } else { s with stack := .process :: rest }
  | .timeoutEnd => { s.closeConn with stack := rest }
  | .afterDisconnected =>
    if s.intentional then { s with stack := rest }                   -- 671-673
    else if s.hasWork && s.autoReconnect then { s with reconnects := s.reconnects + 1, stack := rest }  -- 674-688
    else if s.hasWork then { s with stack := .failAll 503 :: rest }  -- 689-691
    else { s with stack := rest }

/-- A call of the API, from a user callback or from outside. -/
inductive Call where
  | push (valid : Bool)
  /-- `connect(callback)`, with a callback or `nullptr` -/
  | connect (withCb : Bool)
  | disconnect
  deriving DecidableEq, Repr

/-- An event of the event loop. -/
inductive Event where
  /-- the connector finished, 94-108 -/
  | connectOk
  | connectFailed
  /-- a response was parsed, 145-160 and 621-649; possible even after the socket was closed, 175-177 -/
  | response (r : Nat) (keepAlive : Bool)
  /-- the timeout of the connection, 162-166 and 651-661 -/
  | timeout
  /-- the connection is gone, 168-179 and 663-692; `flush_eof` (175-177) may give a `response` event
  just before -/
  | disconnected
  /-- the socket is found closed -/
  | socketClosed
  /-- the timer armed for a queued request, 549-582 -/
  | pendingTimeout (rid : Nat)
  /-- the deferred reset, 521-524 and 540-547 -/
  | deferredTick
  /-- the deferred reconnection, 681-688 -/
  | reconnect
  deriving DecidableEq, Repr

/-- One input of the machine. -/
inductive Choice where
  | call (c : Call)
  /-- a user callback returns, 534-538 -/
  | ret
  /-- run the client function on top of the stack -/
  | go (sendOk : Bool)
  | event (e : Event)
  deriving DecidableEq, Repr

/-- A call of the API. -/
def St.doCall (s : St) : Call → St
  | .push valid => s.push valid
  | .connect withCb =>
    if withCb then { s with nextCb := s.nextCb + 1 }.connect (some s.nextCb) s.stack else s.connect none s.stack
  | .disconnect => s.disconnect

/-- `fail_pending_request`, 568-582: the first pending request with this id, if any. -/
def takeRid (rid : Nat) : List Ctx → Option (Ctx × List Ctx)
  | [] => none
  | c :: ps => if c.rid = rid then some (c, ps) else (takeRid rid ps).map fun x => (x.1, c :: x.2)

/-- An event of the event loop; `none` if it cannot happen in this state. -/
def St.doEvent (s : St) : Event → Option St
  | .connectOk =>
    match s.conn with
    | some c =>
      if c.attempt then                                              -- 94-107, 584-601
        some { s with conn := some ⟨false, true, false⟩, isConnected := true, isConnecting := false, intentional := false,
                      cbs := [], stack := .connLoop s.cbs true :: .afterConnect :: s.stack }
      else none
    | none => none
  | .connectFailed =>
    match s.conn with
    | some c => if c.attempt then some { s with conn := some { c with attempt := false } }.connectionFailed else none
    | none => none
  | .response r keepAlive =>
    match s.conn with
    | some _ =>
      match s.active with
      | none => some s                                               -- 624-626
      | some ctx =>                                                  -- 627-630
        some ({ s with active := none, successful := s.successful + 1 }.enter (.done ctx.call (.response r))
          (.afterResponse keepAlive :: s.stack))
    | none => none
  | .timeout =>
    match s.conn with
    | some _ =>
      if s.isConnecting && !s.isConnected then some s.connectionFailed    -- 653-656
      else some { s with stack := .failActive 504 :: .timeoutEnd :: s.stack }  -- 657-660
    | none => none
  | .disconnected =>
    match s.conn with
    | some c =>
      some { s with conn := some { c with isOpen := false, closing := false }, isConnected := false, isConnecting := false,
                    stack := .failActive 502 :: .afterDisconnected :: s.stack }
    | none => none
  | .socketClosed => some { s with conn := s.conn.map fun c => { c with isOpen := false } }
  | .pendingTimeout rid =>
    match takeRid rid s.pending with
    | none => some s
    | some (c, ps) =>
      some ({ s with pending := ps, failed := s.failed + 1 }.enter (.done c.call (.error 408)) (.process :: s.stack))
  | .deferredTick =>                                                 -- 540-547
    if s.depth ≠ 0 ∨ s.deferredReset = false then some s
    else some { s with deferredReset := false, conn := none }
  | .reconnect =>
    if s.reconnects = 0 then none
    else
      let s := { s with reconnects := s.reconnects - 1 }
      if s.isConnected || s.isConnecting || !s.hasWork then some s   -- 683-685
      else some ({ s with conn := some fresh }.connect none s.stack) -- 686-687

/-- One step; `none` if the choice is not possible now. -/
def St.step (s : St) (ch : Choice) : Option St :=
  match s.stack, ch with
  | [], .call c => some (s.doCall c)
  | [], .event e => s.doEvent e
  | .user :: _, .call c => some (s.doCall c)
  | .user :: rest, .ret => some { s with depth := s.depth - 1, stack := rest }
  | .user :: _, .go _ => none
  | f :: rest, .go sendOk => some (s.runFrame sendOk rest f)
  | _, _ => none

/-- A run of the machine. -/
def St.run (s : St) : List Choice → Option St
  | [] => some s
  | ch :: chs => match s.step ch with | some s' => s'.run chs | none => none

end Verif.Cli
