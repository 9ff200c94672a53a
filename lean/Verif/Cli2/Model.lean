import Verif.Base

/-! Model of the persistent HTTP/2 client, `2/client.cpp` and `2/client.h`, as a machine of small steps.

The stack holds what is left to do of the functions of the client that are under way. A user callback
is the frame `user`: while it is on top, the user may call the API again or return. Events of the event
loop (network, timers) come when the stack is empty: `BaseTcpClient::disconnect` and the connector only
schedule theirs. The line numbers are those of `2/client.cpp`.

Simplified: contents of requests and responses, texts of errors, times (a timeout event says which
requests have expired), logging; the iteration order of `_active_requests`, a hash map, is that of the
sends; ids are unbounded (the code uses `uint32_t`); the requests of a batch are single requests whose
callback belongs to the client (C133). Not modelled: the destructor, and calls of the setters after the
start. -/

namespace Verif.Cli2

/-- What a request callback is given: a response of the network, or an error response made by the client
with the given status. -/
inductive Outcome where
  | response (r : Nat)
  | error (status : Nat)
  deriving DecidableEq, Repr

/-- `RequestContext`, client.h 108-114. `call` says which call of `push_request` it belongs to; `app` and
`stream` are set when the request is sent. -/
structure Ctx where
  call : Nat
  app : Nat
  stream : Nat
  deriving DecidableEq, Repr

/-- What can be seen from outside. -/
inductive Ev where
  /-- the callback of a call of `push_request` is invoked -/
  | done (call : Nat) (o : Outcome)
  /-- a request is sent on a stream, under an application id -/
  | sent (call app stream : Nat)
  /-- a connect callback is invoked -/
  | connected (k : Nat) (ok : Bool)
  /-- a connection is established -/
  | up
  /-- a GOAWAY without error is received -/
  | goaway (last : Nat)
  deriving DecidableEq, Repr

/-- The rest of a function of the client. -/
inductive Frame where
  /-- a user callback -/
  | user
  /-- `process_pending_requests`, 353-388 -/
  | process
  /-- its loop, 360-386 -/
  | sendLoop
  /-- the failure branch of the loop, 376-385 -/
  | sendFailed (c : Ctx)
  /-- `_failed_requests++` after the callback, 384 -/
  | countFailed
  /-- loops that fail a list of requests taken out before: 502-511 and 559-576 -/
  | failList (cs : List Ctx) (status : Nat)
  /-- `fail_all_requests`, 543-594 -/
  | failAll
  /-- `disconnect`, 118-134 -/
  | disc
  /-- `BaseTcpClient::disconnect()` at its end, 133 -/
  | close
  /-- the end of `complete_request`, 458-462 -/
  | afterComplete
  /-- `finish_graceful_goaway_if_drained`, 515-541 -/
  | finish
  /-- its end, 539-540 -/
  | finishEnd
  /-- the loops over connect callbacks, 403-407, 426-430, 826-831 -/
  | connLoop (cbs : List Nat) (ok : Bool)
  /-- `if (_auto_reconnect && has_pending_or_active_work()) attempt_reconnection();` -/
  | reconnect
  /-- the loop over streams that timed out, 616-618 -/
  | timeoutStreams (ss : List Nat)
  /-- the loop over pending requests, 620-638; the requests kept so far -/
  | timeoutPending (expired : List Nat) (kept : List Ctx)
  /-- the end of the timeout handler, 805-810 -/
  | timeoutEnd (late : Bool)
  /-- the end of the handler of `disconnected`, 834-850 -/
  | lostEnd
  /-- the end of the handler of `dispose`, 857-862 -/
  | gone
  deriving DecidableEq, Repr

/-- `Client`, client.h 165-201. `attempts`: connectors under way; `shaking`: a connected transport is in its
TLS handshake; `closing`: the transport was told to disconnect; `crashed`: a null pointer was
dereferenced. -/
structure St where
  isConnected : Bool
  isConnecting : Bool
  goaway : Bool
  preserve : Bool
  proto : Bool
  pending : List Ctx
  active : List Ctx
  nextApp : Nat
  maxStreams : Nat
  maxPending : Nat
  autoReconnect : Bool
  cbs : List Nat
  nextCb : Nat
  total : Nat
  successful : Nat
  failed : Nat
  attempts : Nat
  shaking : Bool
  closing : Bool
  crashed : Bool
  stack : List Frame
  trace : List Ev
  deriving DecidableEq, Repr

/-- A new client, client.h 165-201. -/
def St.init (auto : Bool) (maxStreams maxPending : Nat) : St :=
  ⟨false, false, false, false, false, [], [], 1, maxStreams, maxPending, auto, [], 1, 0, 0, 0, 0, false, false, false, [], []⟩

/-- A user callback is invoked; `rest` is what follows. -/
def St.enter (s : St) (e : Ev) (rest : List Frame) : St := { s with stack := .user :: rest, trace := e :: s.trace }

/-- `connect(callback)`, 88-116; `rest` is the stack to return to. `_handshake_completed` is set and cleared
together with `_is_connected`, so `is_connected()` is `_is_connected`. -/
def St.connect (s : St) (cb : Option Nat) (rest : List Frame) : St :=
  if s.isConnected then                                              -- 90-96
    match cb with
    | some k => s.enter (.connected k true) rest
    | none => { s with stack := rest }
  else if s.isConnecting then                                        -- 98-104
    { s with cbs := s.cbs ++ cb.toList, stack := rest }
  else                                                               -- 106-115, 324-351
    { s with cbs := s.cbs ++ cb.toList, isConnecting := true, attempts := s.attempts + 1, stack := rest }

/-- `push_request` with a callback, 171-215; `valid` says whether `prepare_request` accepts the request. -/
def St.push (s : St) (valid : Bool) : St :=
  let s := { s with total := s.total + 1 }                           -- 178
  if !valid then                                                     -- 180-184
    { s with failed := s.failed + 1 }.enter (.done s.total (.error 400)) s.stack
  else if s.pending.length + s.active.length ≥ s.maxPending then     -- 188-192
    { s with failed := s.failed + 1 }.enter (.done s.total (.error 503)) s.stack
  else
    let s : St := { s with pending := s.pending ++ [⟨s.total, 0, 0⟩] }    -- 195-204
    if s.isConnected then { s with stack := .process :: s.stack }    -- 207-208
    else if !s.isConnecting then s.connect none s.stack              -- 209-212
    else s

/-- The connection is marked as gone: 122-128, 417-422, 857-863 with `_received_graceful_goaway` and
`_preserve_pending_on_next_disconnect`. -/
def St.down (s : St) : St :=
  { s with isConnected := false, isConnecting := false, goaway := false, preserve := false, proto := false }

/-- `fail_all_requests`, 543-594: everything is taken out first; without batches. -/
def St.failAll (s : St) (rest : List Frame) : St :=
  { s with active := [], pending := [], stack := .failList (s.active ++ s.pending) 503 :: rest }

/-- `handle_connection_failure`, 413-439. -/
def St.connectionFailed (s : St) : St :=
  { s.down with cbs := [], stack := .connLoop s.cbs false :: .failAll :: .reconnect :: s.stack }

/-- The request found by `fail_request`, 468-472. -/
def findStream (active : List Ctx) (sid : Nat) : Option Ctx :=
  match active.find? (fun c => c.app = sid ∧ c.stream = sid) with
  | some c => some c
  | none => active.find? (fun c => c.stream = sid)

/-- `fail_request`, 466-491. -/
def St.failRequest (s : St) (sid status : Nat) (rest : List Frame) : St :=
  match findStream s.active sid with
  | none => { s with stack := rest }
  | some c =>
    { s with active := s.active.filter (·.app ≠ c.app), failed := s.failed + 1 }.enter (.done c.call (.error status)) (.finish :: rest)

/-- The result of `ClientHttp2Protocol::send_request`: sent under the next id (`skip` ids were taken by
other clients: the counter is static, 368) on a stream; refused; or refused after a local GOAWAY with
an error, which calls `on(Http2GoAwayEvent)` of the client first (2/protocol/client.h 1770-1808). -/
inductive Send where
  | ok (skip stream : Nat)
  | refused
  | refusedGoaway
  deriving DecidableEq, Repr

/-- Run the frame on top of the stack; `rest` is the stack below it. -/
def St.runFrame (s : St) (out : Send) (rest : List Frame) : Frame → St
  | .user => s
  | .process =>                                                      -- 355-357
    if !s.isConnected || !s.proto || s.goaway then { s with stack := rest } else { s with stack := .sendLoop :: rest }
  | .sendLoop =>
    match s.pending with
    | [] => { s with stack := rest }
    | c :: ps =>
      if s.active.length ≥ s.maxStreams then { s with stack := rest }
      else if !s.proto then { s with crashed := true }               -- `_h2_protocol->send_request` on a null pointer, 371
      else
        let s := { s with pending := ps }                            -- 361-362
        match out with
        | .ok skip stream =>                                         -- 371-374
          let app := s.nextApp + skip
          { s with active := s.active.filter (·.app ≠ app) ++ [{ c with app := app, stream := stream }], nextApp := app + 1,
                   stack := .sendLoop :: rest, trace := .sent c.call app stream :: s.trace }
        | .refused => { s with stack := .sendFailed c :: .sendLoop :: rest }
        | .refusedGoaway => { s with stack := .failAll :: .disc :: .sendFailed c :: .sendLoop :: rest }
  | .sendFailed c => s.enter (.done c.call (.error 503)) (.countFailed :: rest)
  | .countFailed => { s with failed := s.failed + 1, stack := rest }
  | .failList cs status =>
    match cs with
    | [] => { s with stack := rest }
    | c :: cs => { s with failed := s.failed + 1 }.enter (.done c.call (.error status)) (.failList cs status :: rest)
  | .failAll => s.failAll rest
  | .disc => s.down.failAll (.close :: rest)                         -- 122-133
  | .close => { s with closing := true, stack := rest }
  | .afterComplete => { s with stack := (if s.goaway then .finish else .process) :: rest }
  | .finish =>
    if !s.goaway || !s.active.isEmpty then { s with stack := rest }  -- 517-519
    else
      let s := { s with goaway := false, isConnected := false, isConnecting := false, proto := false }  -- 523-527
      if !s.pending.isEmpty && s.autoReconnect then { s with preserve := true, closing := true, stack := rest }  -- 529-533
      else if !s.pending.isEmpty then s.failAll (.finishEnd :: rest) -- 535-537
      else { s with stack := .finishEnd :: rest }
  | .finishEnd => { s with preserve := true, closing := true, stack := rest }
  | .connLoop cbs ok =>
    match cbs with
    | [] => { s with stack := rest }
    | k :: ks => s.enter (.connected k ok) (.connLoop ks ok :: rest)
  | .reconnect =>                                                    -- 436-438, 694-705
    if s.autoReconnect && (!s.pending.isEmpty || !s.active.isEmpty) && !s.isConnecting && !s.isConnected then s.connect none rest
    else { s with stack := rest }
  | .timeoutStreams ss =>
    match ss with
    | [] => { s with stack := rest }
    | sid :: ss => s.failRequest sid 408 (.timeoutStreams ss :: rest)
  | .timeoutPending expired kept =>
    match s.pending with
    | [] => { s with pending := kept, stack := rest }                -- 638
    | c :: ps =>
      if c.call ∈ expired then
        { s with pending := ps, failed := s.failed + 1 }.enter (.done c.call (.error 408)) (.timeoutPending expired kept :: rest)
      else { s with pending := ps, stack := .timeoutPending expired (kept ++ [c]) :: rest }
  | .timeoutEnd late => if late && s.isConnecting then { s with stack := rest }.connectionFailed else { s with stack := rest }
  | .lostEnd =>
    let s := { s with isConnected := false, isConnecting := false, proto := false }  -- 834-837
    if s.preserve then                                               -- 839-843
      let s := { s with preserve := false }
      if !s.active.isEmpty then s.failAll (.reconnect :: rest) else { s with stack := .reconnect :: rest }
    else s.failAll (.reconnect :: rest)                              -- 844-850
  | .gone => { s.down with stack := rest }

/-- A call of the API, from a user callback or from outside. -/
inductive Call where
  | push (valid : Bool)
  | connect (withCb : Bool)
  | disconnect
  deriving DecidableEq, Repr

/-- An event of the event loop. -/
inductive Event where
  /-- the connector finished, 335-348 -/
  | connector (ok : Bool)
  /-- the TLS handshake is over, 719-744; `ok`: HTTP/2 was negotiated -/
  | handshake (ok : Bool)
  /-- a response, 746-750 -/
  | response (app r : Nat)
  /-- a stream failed, 752-756 -/
  | streamError (stream : Nat)
  /-- GOAWAY, 758-772: without error, or with one -/
  | goaway (last : Nat)
  | goawayError
  /-- a connection error, 784-796 -/
  | connectionError
  /-- the timer, 798-811: the requests that have expired, whether the connection attempt is late -/
  | timeout (expired : List Nat) (late : Bool)
  /-- the connection is gone, 813-850 -/
  | disconnected
  /-- disposal, 852-863 -/
  | dispose
  deriving DecidableEq, Repr

/-- One input of the machine. -/
inductive Choice where
  | call (c : Call)
  /-- a user callback returns -/
  | ret
  /-- run the client function on top of the stack -/
  | go (out : Send)
  | event (e : Event)
  deriving DecidableEq, Repr

def St.doCall (s : St) : Call → St
  | .push valid => s.push valid
  | .connect withCb =>
    if withCb then { s with nextCb := s.nextCb + 1 }.connect (some s.nextCb) s.stack else s.connect none s.stack
  | .disconnect => { s with stack := .disc :: s.stack }

/-- An event of the event loop; `none` if it cannot happen in this state. -/
def St.doEvent (s : St) : Event → Option St
  | .connector ok =>
    if s.attempts = 0 then none
    else
      let s := { s with attempts := s.attempts - 1 }
      if ok then some { s with shaking := true, closing := false } else some s.connectionFailed
  | .handshake ok =>
    if !s.shaking then none
    else
      let s := { s with shaking := false }
      if ok then                                                     -- 390-410
        some { s with isConnected := true, isConnecting := false, goaway := false, preserve := false, proto := true, cbs := [],
                      stack := .connLoop s.cbs true :: .process :: s.stack, trace := .up :: s.trace }
      else some s.connectionFailed
  | .response app r =>                                               -- 441-464
    match s.active.find? (·.app = app) with
    | none => some s
    | some c =>
      some ({ s with active := s.active.filter (·.app ≠ app), successful := s.successful + 1 }.enter (.done c.call (.response r))
        (.afterComplete :: s.stack))
  | .streamError stream => some (s.failRequest stream 503 s.stack)
  | .goaway last =>                                                  -- 763-768, 493-513
    some { s with goaway := true, active := s.active.filter (fun c => ¬ c.stream > last),
                  stack := .failList (s.active.filter (fun c => c.stream > last)) 503 :: .finish :: s.stack,
                  trace := .goaway last :: s.trace }
  | .goawayError => some { s with stack := .failAll :: .disc :: s.stack }      -- 770-771
  | .connectionError => some { s with stack := .failAll :: .disc :: .reconnect :: s.stack }  -- 788-795
  | .timeout expired late =>                                         -- 596-640, 799-811
    some { s with stack := .timeoutStreams ((s.active.filter (fun c => c.call ∈ expired)).map (·.stream)) ::
      .timeoutPending expired [] :: .timeoutEnd late :: s.stack }
  | .disconnected =>                                                 -- 821-850
    if s.isConnecting && !s.cbs.isEmpty then some { s with closing := false, cbs := [], stack := .connLoop s.cbs false :: .lostEnd :: s.stack }
    else some { s with closing := false, stack := .lostEnd :: s.stack }
  | .dispose => some { s with stack := .failAll :: .gone :: s.stack } -- 855-862

/-- One step; `none` if the choice is not possible now. After a crash nothing is. -/
def St.step (s : St) (ch : Choice) : Option St :=
  if s.crashed then none
  else match s.stack, ch with
  | [], .call c => some (s.doCall c)
  | [], .event e => s.doEvent e
  | .user :: _, .call c => some (s.doCall c)
  | .user :: rest, .ret => some { s with stack := rest }
  | .user :: _, .go _ => none
  | f :: rest, .go out => some (s.runFrame out rest f)
  | _, _ => none

/-- A run of the machine. -/
def St.run (s : St) : List Choice → Option St
  | [] => some s
  | ch :: chs => match s.step ch with | some s' => s'.run chs | none => none

end Verif.Cli2
