import Verif.Mid.Http
import Verif.Date.Model

/-! # The HTTP/3 server: connections, sessions and contexts

`server` and `session`, `src/qbm/http/3/http3.h`.

Conventions and simplifications.

* The QUIC endpoint, the HTTP/3 engine and the handlers of the application can call back into the server while a call of the server is under way. So a step is one piece of a call, up to the next place where others may run, and `stack` is what is
  under way, innermost first; between two pieces anything may happen. An input that does not fit to the innermost call is ignored.
* Objects have numbers, so that one can see whether an object is used after it was destroyed: `conns` is `_connections` with the numbers of the connection objects, `objs` are all sessions ever created, `sess` is `_sessions`.
* `_read_depth` is the number of reads on the stack. Exceptions are not modelled.
* A context is a number. What `cancel` and the hooks of a context do belongs to the context (C38-C41): here they are events.
* `dispatch(connection_closed)` walks over the sessions that were there when it began (the code iterates over the map itself), and what user code does on `on(ev)` is left out, as is the opening of the local streams. -/

namespace Verif.Sv3

open Verif.Wire (Headers find)
open Verif.Parse (setHeader)

structure Resp where
  status : Nat := 200
  headers : Headers := []
  body : Bytes := []
deriving DecidableEq

/-- A member of `session`, 83-88: the connection, the stream, whether the request was HEAD, the attached context, `_response_sent`. -/
structure Sess where
  c : Nat := 0
  s : Nat := 0
  head : Bool := false
  ctx : Option Nat := none
  sent : Bool := false
deriving DecidableEq

/-- Where a connection object is used; `late` = `conn->shutdown()` and `conn->is_drained()` in `graceful_shutdown`, after `conn->submit_shutdown_notice()`. -/
inductive Use | readBegin | readEnd | ack | submit | notice | late
deriving DecidableEq

inductive Ev
  | created (k c : Nat)
  | freed (k : Nat)
  | used (k : Nat) (w : Use)
  | session (o c s : Nat)
  | start (x o : Nat)
  | attached (x o : Nat) (inTable : Bool)
  | hook (x : Nat)
  | cancel (x : Nat)
  | submitted (c s : Nat) (r : Resp)
  | dropped (c s : Nat)
  | reset (c s code : Nat)
  | close (c code : Nat)
  | connClosed (c : Nat)
  | closedDone (c sessions : Nat)
  | streamClosed (c s : Nat)
  | drained (c s : Nat)
  | shutdown
  | goaway (c : Nat)
deriving DecidableEq

/-- A call that is under way. `closing` keeps what is left to do, and how many sessions there were when it began. -/
inductive Fr
  | read (k c : Nat)
  | route (o x : Nat)
  | submit (c s : Nat)
  | closing (c : Nat) (todo : List (Nat × Nat)) (sessions : Nat)
  | cancelling (o : Nat) (key : Nat × Nat)
  | shut (todo : List Nat)
  | notice (c k : Nat) (todo : List Nat)
deriving DecidableEq

/-- The members of `server`, 255-274, and what happened, newest first. -/
structure St where
  conns : List (Nat × Nat) := []
  nk : Nat := 0
  objs : List Sess := []
  sess : List ((Nat × Nat) × Nat) := []
  shut : List Nat := []
  closed : List Nat := []
  nx : Nat := 0
  stack : List Fr := []
  log : List Ev := []

def get [BEq α] (m : List (α × β)) (a : α) : Option β := (m.find? (fun e => e.1 == a)).map (·.2)
def del [BEq α] (m : List (α × β)) (a : α) : List (α × β) := m.filter (fun e => !(e.1 == a))

def ins (l : List Nat) (c : Nat) : List Nat := if l.contains c then l else c :: l

def St.add (t : St) (e : Ev) : St := { t with log := e :: t.log }
def St.push (t : St) (f : Fr) : St := { t with stack := f :: t.stack }
def St.pop (t : St) : St := { t with stack := t.stack.drop 1 }
def St.obj (t : St) (o : Nat) : Sess := t.objs.getD o {}
def St.setObj (t : St) (o : Nat) (v : Sess) : St := { t with objs := t.objs.set o v }

/-- `_read_depth`. -/
def St.depth (t : St) : Nat := (t.stack.filter (fun f => match f with | .read _ _ => true | _ => false)).length

/-- `ensure_connection`, 282-292: the object. -/
def ensure (t : St) (c : Nat) : St × Nat :=
  match get t.conns c with
  | some k => (t, k)
  | none => ({ t.add (.created t.nk c) with conns := t.conns ++ [(c, t.nk)], nk := t.nk + 1 }, t.nk)

/-- `has_active_contexts`, 305-313. -/
def active (t : St) (c : Nat) : Bool := t.sess.any (fun e => e.1.1 == c && (t.obj e.2).ctx.isSome)

/-- `maybe_finish_graceful_shutdown`, 315-324. -/
def maybeFinish (t : St) (c : Nat) : St :=
  if !t.shut.contains c then t
  else if active t c then t
  else t.add (.close c 0)

/-- `ensure_session`, 326-337: the session. -/
def ensureSession (t : St) (c s : Nat) : St × Nat :=
  match get t.sess (c, s) with
  | some o => (t, o)
  | none => ({ t.add (.session t.objs.length c s) with objs := t.objs ++ [{ c := c, s := s }], sess := t.sess ++ [((c, s), t.objs.length)] }, t.objs.length)

/-- `attach_context`, 162-169. -/
def attach (t : St) (o x : Nat) : St :=
  let t := t.add (.attached x o (get t.sess ((t.obj o).c, (t.obj o).s) == some o))
  if (t.obj o).sent then (t.setObj o { t.obj o with ctx := none }).add (.hook x)
  else t.setObj o { t.obj o with ctx := some x }

/-- `mark_response_sent`, 189-199. -/
def markSent (t : St) (o : Nat) : St :=
  if (t.obj o).sent then t
  else match (t.obj o).ctx with
    | none => t.setObj o { t.obj o with sent := true }
    | some x => (t.setObj o { t.obj o with sent := true, ctx := none }).add (.hook x)

/-- `cancel_context`, 175-181, up to the call of `cancel`, and then the removal of the session from the table. -/
def cancelErase (t : St) (o : Nat) (key : Nat × Nat) : St :=
  match (t.obj o).ctx with
  | none => { t with sess := del t.sess key }
  | some x => (t.add (.cancel x)).push (.cancelling o key)

/-- `reap_closed_connections`, 432-438. -/
def reap (t : St) : St :=
  { t with conns := t.conns.filter (fun e => !t.closed.contains e.1), closed := [],
           log := (t.conns.filter (fun e => t.closed.contains e.1)).map (fun e => .freed e.2) ++ t.log }

/-- `on_http3_stream_output_drained`, 621-628. -/
def outputDrained (t : St) (c s : Nat) : St :=
  maybeFinish (match get t.sess (c, s) with | some o => markSent t o | none => t) c

/-- `send_response`, 674-692, up to the call of `submit_response`. -/
def sendResponse (t : St) (c s : Nat) (r : Resp) : St :=
  match get t.conns c with
  | none => t.add (.dropped c s)
  | some k => ((t.add (.used k .submit)).add (.submitted c s r)).push (.submit c s)

/-- `operator<<` of a session, 220-238: what is sent. -/
def finish (head : Bool) (r : Resp) : Resp :=
  let h := if (find r.headers b!"content-length").isNone && !r.body.isEmpty then setHeader r.headers b!"content-length" (Date.decNat r.body.length) else r.headers
  if head then { r with headers := h, body := [] } else { r with headers := h }

inductive In
  | connected (c : Nat) (h3 : Bool)
  | dataBegin (c : Nat)
  | dataEnd
  | acked (c : Nat)
  | connClosed (c : Nat)
  | next
  | streamClosed (c s : Nat)
  | cancelEnd
  | h3Closed (c s : Nat)
  | drained (c s : Nat)
  | afterDispatch
  | reqBegin (s : Nat) (head : Bool)
  | reqEnd (found : Bool)
  | send (o : Nat) (r : Resp)
  | sendEnd (ok : Bool)
  | shutdown
  | noticeEnd (drained : Bool)

def step (t : St) : In → St
  | .connected c h3 => if h3 then (ensure t c).1 else t.add (.close c 0x010c)                     -- 343-353
  | .dataBegin c => let (t, k) := ensure t c; (t.add (.used k .readBegin)).push (.read k c)         -- 374-396
  | .dataEnd => match t.stack with                                                                -- 396-401
    | .read k _ :: _ => let t := t.pop.add (.used k .readEnd); if t.depth == 0 then reap t else t
    | _ => t
  | .acked c => match get t.conns c with | some k => t.add (.used k .ack) | none => t               -- 403-408
  | .connClosed c => (t.add (.connClosed c)).push (.closing c ((t.sess.filter (fun e => e.1.1 == c)).map (·.1)) t.objs.length)   -- 355-357
  | .next => match t.stack with
    | .closing c [] n :: _ =>                                                                     -- 365-368
      let t := if (get t.conns c).isSome then { t with closed := t.closed ++ [c] } else t
      { t.pop.add (.closedDone c n) with shut := t.shut.filter (· != c) }
    | .closing c (key :: ks) n :: _ =>                                                            -- 357-364
      let t := t.pop.push (.closing c ks n)
      match get t.sess key with
      | none => t
      | some o => cancelErase t o key
    | .shut [] :: _ => t.pop                                                                      -- 507
    | .shut (c :: cs) :: _ => match get t.conns c with                                            -- 507-512
      | none => t.pop.push (.shut cs)
      | some k => (t.pop.add (.used k .notice)).push (.notice c k cs)
    | _ => t
  | .streamClosed c s =>                                                                          -- 410-418
    let t := t.add (.streamClosed c s)
    match get t.sess (c, s) with
    | none => t
    | some o => cancelErase t o (c, s)
  | .cancelEnd => match t.stack with                                                              -- 178-179, 360, 416
    | .cancelling o key :: _ => let t := t.pop.setObj o { t.obj o with ctx := none }; { t with sess := del t.sess key }
    | _ => t
  | .h3Closed c s =>                                                                              -- 604-610
    let t := outputDrained (t.add (.drained c s)) c s
    maybeFinish { t with sess := del t.sess (c, s) } c
  | .drained c s => outputDrained (t.add (.drained c s)) c s
  | .afterDispatch => if t.depth == 0 then reap t else t                                          -- 420-430
  | .reqBegin s head => match t.stack with                                                        -- 648-652
    | .read _ c :: _ =>
      let (t, o) := ensureSession t c s
      let t := t.setObj o { t.obj o with head := head }
      { (t.add (.start t.nx o)).push (.route o t.nx) with nx := t.nx + 1 }
    | _ => t
  | .reqEnd found => match t.stack with                                                           -- 652-661
    | .route o x :: _ => if found then attach t.pop o x else sendResponse t.pop (t.obj o).c (t.obj o).s { status := 404 }
    | _ => t
  | .send o r => if o < t.objs.length then sendResponse t (t.obj o).c (t.obj o).s (finish (t.obj o).head r) else t
  | .sendEnd ok => match t.stack with                                                             -- 685-690
    | .submit c s :: _ => if ok then maybeFinish t.pop c else t.pop.add (.reset c s 0x010e)
    | _ => t
  | .shutdown => (t.add .shutdown).push (.shut (t.conns.map (·.1)))                                 -- 500-507
  | .noticeEnd drained => match t.stack with                                                      -- 513-517
    | .notice c k cs :: _ =>
      let t := ((t.pop.add (.used k .late)).add (.goaway c)).push (.shut cs)
      let t := { t with shut := ins t.shut c }
      if drained || !active t c then t.add (.close c 0) else t
    | _ => t

def run (is : List In) : St := is.foldl step {}

end Verif.Sv3
