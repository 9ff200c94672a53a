import Verif.Base

/-! Model of the persistent HTTP/3 client, `3/client.cpp` and `3/client.h`, as a machine of small steps.

The stack holds what is left to do of the functions of the client that are under way. A user callback is the frame `user`:
while it is on top, the user may call the API again or return. Events of the QUIC endpoint come when the stack is empty, and also while
a call of the endpoint or of the connection object is under way (`io`, `submit`, `reset`, `bind`, `read`): the comments in client.h,
137-146, say that a send can deliver them. Timers fire when the stack is empty. The line numbers are those of `3/client.cpp`.

Simplified: contents of requests and responses, texts of errors, times (a timer event says whether the request has expired); the
iteration order of `_active_requests`, a hash map, is that of the sends; numbers are unbounded; the requests of a batch are
single requests whose callback belongs to the client. Of the endpoint, which is not in the repository, this assumes: the streams of a
connection get the numbers 0, 4, 8 ..., and a connection is reported only while one is being made. The connection object is
that of `Verif.H3`: it survives its own destruction in `drain` (C159), not in `nghttp3_conn_read_stream2`. Not modelled: the destructor, and
calls of the setters after the start. -/

namespace Verif.Cli3

/-- What a request callback is given: a response that came on a stream of a connection (the connections are numbered), or an
error response made by the client with the given status. -/
inductive Outcome where
  | response (conn stream : Nat)
  | error (status : Nat)
  deriving DecidableEq, Repr

/-- `RequestContext`, client.h 76-83. `call` says which call of `push_request` it belongs to; the number of the stream and that of the
connection are set when the request is sent. -/
structure Ctx where
  call : Nat
  conn : Nat
  stream : Nat
  deriving DecidableEq, Repr

/-- What can be seen from outside. -/
inductive Ev where
  /-- the callback of a call of `push_request` is invoked -/
  | done (call : Nat) (o : Outcome)
  /-- a request is sent on a stream of a connection -/
  | sent (call conn stream : Nat)
  /-- a connect callback is invoked -/
  | connected (k : Nat) (ok : Bool)
  /-- the timer of an attempt to connect ends the attempt under way -/
  | late (timer attempt : Nat)
  deriving DecidableEq, Repr

/-- The rest of a function of the client. -/
inductive Frame where
  /-- a user callback -/
  | user
  /-- a call of the endpoint: `reset_stream`, `close` -/
  | io
  /-- `endpoint::connect`, 68-73 -/
  | start
  /-- `_h3->bind_local_streams()`, 315, and the rest of `handle_connection_success` -/
  | bind
  /-- `process_pending_requests`, 276-279 -/
  | process
  /-- its loop, 280-304 -/
  | procLoop
  /-- `_h3->submit_request`, 295, for a request taken out of the queue, on a stream of a connection -/
  | submit (c : Ctx)
  /-- `reset_stream` after a failed submission, 298, and the callback, 299-300 -/
  | reset (c : Ctx)
  /-- loops that fail a list of requests taken out before, 353-369 -/
  | failList (cs : List Ctx)
  /-- `fail_all_requests`, 344-380 -/
  | failAll
  /-- the end of `disconnect`, 79-84 -/
  | discEnd
  /-- the loops over connect callbacks, 318-322 and 336-340 -/
  | connLoop (cbs : List Nat) (ok : Bool)
  /-- `if (_auto_reconnect && has_pending_or_active_work()) connect(nullptr);` 586-588, 620-622 -/
  | reconnect
  /-- `_h3->read_stream`, 614, on a connection; and the rest of the handler -/
  | read (conn : Nat)
  /-- the loop of `on_http3_shutdown`, 539-544 -/
  | shutLoop
  deriving DecidableEq, Repr

/-- `Client`, client.h 128-175. `_is_connected` and `_h3_ready` are set and cleared together: `connected`. `h3`: the connection object is
there; `conn`: the number of connections so far; `nextStream`: the next stream of the connection; `attempts`: attempts to connect so far;
`lost`: requests destroyed without a callback; `crashed`: a null pointer was dereferenced; `freed`: the connection object was
destroyed while it was reading. -/
structure St where
  connected : Bool
  connecting : Bool
  remote : Bool
  h3 : Bool
  depth : Nat
  deferred : Bool
  pending : List Ctx
  active : List Ctx
  cbs : List Nat
  nextCb : Nat
  conn : Nat
  nextStream : Nat
  attempts : Nat
  maxStreams : Nat
  maxPending : Nat
  autoReconnect : Bool
  total : Nat
  successful : Nat
  failed : Nat
  lost : List Nat
  crashed : Bool
  freed : Bool
  stack : List Frame
  trace : List Ev
  deriving DecidableEq, Repr

/-- A new client. -/
def St.init (auto : Bool) (maxStreams maxPending : Nat) : St :=
  ⟨false, false, false, false, 0, false, [], [], [], 1, 0, 0, 0, maxStreams, maxPending, auto, 0, 0, 0, [], false, false, [], []⟩

/-- A user callback is invoked; `rest` is what follows. -/
def St.enter (s : St) (e : Ev) (rest : List Frame) : St := { s with stack := .user :: rest, trace := e :: s.trace }

/-- `connect(callback)`, 44-75; `rest` is the stack to return to. -/
def St.connect (s : St) (cb : Option Nat) (rest : List Frame) : St :=
  if s.connected then                                                -- 46-51
    match cb with
    | some k => s.enter (.connected k true) rest
    | none => { s with stack := rest }
  else if s.connecting then                                          -- 52-57
    { s with cbs := s.cbs ++ cb.toList, stack := rest }
  else                                                               -- 58-68
    { s with cbs := s.cbs ++ cb.toList, connecting := true, remote := false, attempts := s.attempts + 1, stack := .start :: rest }

/-- `_h3.reset()`: while it is reading, `nghttp3` goes on with a connection that is gone. -/
def St.dropH3 (s : St) : St := { s with h3 := false, freed := s.freed || (s.h3 && decide (s.depth > 0)) }

/-- The connection is marked as gone, 79-83 and 329-333. -/
def St.down (s : St) : St := { s.dropH3 with connected := false, connecting := false, remote := false }

/-- `handle_connection_failure`, 327-342. -/
def St.connectionFailed (s : St) (rest : List Frame) : St :=
  { s.down with cbs := [], stack := .connLoop s.cbs false :: .failAll :: rest }

/-- `push_request_with_id` with a callback, 129-162; `valid` says whether `prepare_request` accepts the request. -/
def St.push (s : St) (valid : Bool) : St :=
  let s := { s with total := s.total + 1 }                           -- 134
  if !valid then                                                     -- 135-139
    { s with failed := s.failed + 1 }.enter (.done s.total (.error 400)) s.stack
  else if s.remote && s.connected then                               -- 140-144
    { s with failed := s.failed + 1 }.enter (.done s.total (.error 503)) s.stack
  else if s.pending.length + s.active.length ≥ s.maxPending then     -- 145-149
    { s with failed := s.failed + 1 }.enter (.done s.total (.error 503)) s.stack
  else
    let s : St := { s with pending := s.pending ++ [⟨s.total, 0, 0⟩] }   -- 150-154
    if s.connected then { s with stack := .process :: s.stack }      -- 157-158
    else if !s.connecting then s.connect none s.stack                -- 159-160
    else s

/-- `fail_request`, 382-392. -/
def St.failRequest (s : St) (sid status : Nat) (rest : List Frame) : St :=
  match s.active.find? (·.stream = sid) with
  | none => { s with stack := rest }
  | some c => { s with active := s.active.filter (·.stream ≠ sid), failed := s.failed + 1 }.enter (.done c.call (.error status)) rest

/-- `cancel_request`, 164-188, and the handler of the timer of a request that has expired, 441-481: a request in the queue, or one on the
wire. `again`: is the queue looked at after a queued request was removed (only by the timer). -/
def St.giveUp (s : St) (n status : Nat) (again : Bool) : St :=
  match s.pending.find? (·.call = n) with
  | some c =>
    { s with pending := s.pending.filter (·.call ≠ n), failed := s.failed + 1 }.enter (.done c.call (.error status))
      (if again then .process :: s.stack else s.stack)
  | none =>
    match s.active.find? (·.call = n) with
    | none => s
    | some c => s.failRequest c.stream status (.io :: .process :: s.stack)

/-- Run the frame on top of the stack; `rest` is the stack below it, `out` what the endpoint or the connection answers. -/
def St.runFrame (s : St) (out : Bool) (rest : List Frame) : Frame → St
  | .user => s
  | .io => { s with stack := rest }
  | .start => if out then { s with stack := rest } else s.connectionFailed rest
  | .bind => { s with cbs := [], stack := .connLoop s.cbs true :: .process :: rest }               -- 316-323
  | .process =>                                                      -- 277-279
    if !s.h3 || !s.connected || s.remote then { s with stack := rest } else { s with stack := .procLoop :: rest }
  | .procLoop =>
    match s.pending with
    | [] => { s with stack := rest }
    | c :: ps =>
      if s.active.length ≥ s.maxStreams then { s with stack := rest }
      else if s.deferred then { s with stack := rest }               -- 287-289
      else if !s.h3 then { s with crashed := true }                  -- `_h3->submit_request` on a null pointer, 296
      else { s with pending := ps, nextStream := s.nextStream + 4, stack := .submit { c with conn := s.conn, stream := s.nextStream } :: rest }
  | .submit c =>
    if out then
      if s.active.any (·.stream == c.stream) then                    -- `emplace` finds the number taken, 304: the context is destroyed
        { s with lost := c.call :: s.lost, trace := .sent c.call c.conn c.stream :: s.trace, stack := .procLoop :: rest }
      else { s with active := s.active ++ [c], trace := .sent c.call c.conn c.stream :: s.trace, stack := .procLoop :: rest }
    else { s with stack := .reset c :: .procLoop :: rest }
  | .reset c => { s with failed := s.failed + 1 }.enter (.done c.call (.error 503)) rest
  | .failList cs =>
    match cs with
    | [] => { s with stack := rest }
    | c :: cs => { s with failed := s.failed + 1 }.enter (.done c.call (.error 503)) (.failList cs :: rest)
  | .failAll => { s with active := [], pending := [], stack := .failList (s.active ++ s.pending) :: rest }
  | .discEnd => { s.down with stack := .io :: rest }
  | .connLoop cbs ok =>
    match cbs with
    | [] => { s with stack := rest }
    | k :: ks => s.enter (.connected k ok) (.connLoop ks ok :: rest)
  | .reconnect =>
    if s.autoReconnect && (!s.pending.isEmpty || !s.active.isEmpty) then s.connect none rest else { s with stack := rest }
  | .read _ =>                                                       -- 615-623
    let s := { s with depth := s.depth - 1 }
    if s.depth = 0 && s.deferred then { s with deferred := false }.connectionFailed (.reconnect :: rest)
    else { s with stack := rest }
  | .shutLoop =>
    match s.pending with
    | [] => { s with stack := rest }
    | c :: ps => { s with pending := ps, failed := s.failed + 1 }.enter (.done c.call (.error 503)) (.shutLoop :: rest)

/-- A call of the API, from a user callback or from outside. -/
inductive Call where
  | push (valid : Bool)
  | connect (withCb : Bool)
  | cancel (n : Nat)
  | disconnect
  deriving DecidableEq, Repr

def St.doCall (s : St) : Call → St
  | .push valid => s.push valid
  | .connect withCb =>
    if withCb then { s with nextCb := s.nextCb + 1 }.connect (some s.nextCb) s.stack else s.connect none s.stack
  | .cancel n => s.giveUp n 499 false
  | .disconnect => { s with stack := .failAll :: .discEnd :: s.stack }   -- 77-78

/-- An event of the endpoint. -/
inductive Event where
  /-- a connection is made, 562-568; `ok`: HTTP/3 was negotiated -/
  | connected (ok : Bool)
  /-- the connection is gone, 571-590 -/
  | closed
  /-- data of a stream, 592-614 -/
  | data
  /-- a stream is closed, 634-636 and 529-534 -/
  | streamClosed (stream : Nat)
  deriving DecidableEq, Repr

/-- A callback of the connection object while it is reading. -/
inductive Callback where
  /-- a response, 547-558 -/
  | response (stream : Nat)
  /-- GOAWAY, 536-545 -/
  | shutdown
  deriving DecidableEq, Repr

/-- A timer. -/
inductive Timer where
  /-- of an attempt to connect, 411-428 -/
  | connect (attempt : Nat)
  /-- of a request that has expired, 438-484 (before that it is only set again) -/
  | request (n : Nat)
  deriving DecidableEq, Repr

/-- An event of the endpoint; `none` if it cannot happen in this state. -/
def St.doEvent (s : St) : Event → Option St
  | .connected ok =>
    if !s.connecting then none
    else if ok then                                                  -- 309-315
      some { s with connected := true, connecting := false, remote := false, h3 := true, freed := s.freed || (s.h3 && decide (s.depth > 0)),
                    conn := s.conn + 1, nextStream := 0, stack := .bind :: s.stack }
    else some (s.connectionFailed s.stack)
  | .closed =>
    if s.depth > 0 then some { s with deferred := true }             -- 579-584
    else some (s.connectionFailed (.reconnect :: s.stack))
  | .data => if !s.h3 then some s else some { s with depth := s.depth + 1, stack := .read s.conn :: s.stack }
  | .streamClosed sid => some (s.failRequest sid 503 s.stack)

def St.doCallback (s : St) (conn : Nat) : Callback → St
  | .response sid =>
    match s.active.find? (·.stream = sid) with
    | none => s
    | some c =>
      { s with active := s.active.filter (·.stream ≠ sid), successful := s.successful + 1 }.enter (.done c.call (.response conn sid)) (.process :: s.stack)
  | .shutdown => { s with remote := true, stack := .shutLoop :: s.stack }

def St.doTimer (s : St) : Timer → Option St
  | .connect k =>
    if k = 0 || k > s.attempts then none
    else if !s.connecting || s.connected then some s
    else some ({ s with trace := .late k s.attempts :: s.trace }.connectionFailed (.io :: s.stack))
  | .request n => some (s.giveUp n 408 true)

/-- One input of the machine. -/
inductive Choice where
  | call (c : Call)
  /-- a user callback returns -/
  | ret
  /-- run the client function on top of the stack -/
  | go (out : Bool)
  | event (e : Event)
  | callback (c : Callback)
  | timer (t : Timer)
  deriving DecidableEq, Repr

/-- Calls of the endpoint or of the connection, during which the endpoint may deliver events. -/
def Frame.outside : Frame → Bool
  | .io | .bind | .submit _ | .reset _ | .read _ => true
  | _ => false

/-- One step; `none` if the choice is not possible now. After a crash nothing is. -/
def St.step (s : St) (ch : Choice) : Option St :=
  if s.crashed then none
  else match s.stack, ch with
  | [], .call c => some (s.doCall c)
  | [], .event e => s.doEvent e
  | [], .timer t => s.doTimer t
  | .user :: _, .call c => some (s.doCall c)
  | .user :: rest, .ret => some { s with stack := rest }
  | .user :: _, .go _ => none
  | .read k :: _, .callback c => some (s.doCallback k c)
  | f :: _, .event e => if f.outside then s.doEvent e else none
  | f :: rest, .go out => some (s.runFrame out rest f)
  | _, _ => none

/-- A run of the machine. -/
def St.run (s : St) : List Choice → Option St
  | [] => some s
  | ch :: chs => match s.step ch with | some s' => s'.run chs | none => none

end Verif.Cli3
