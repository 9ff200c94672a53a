import Verif.Base

/-! Model of the way out in `3/protocol/connection.h`: the body that is handed to `nghttp3` (`submit_response`, `submit_request`,
`read_data_cb`) and `drain`. Of `nghttp3`, which is not in the repository, this assumes that it asks for data only of a
stream it has taken, and that it offers the bytes of a stream in order, from the write offset it was given. -/

namespace Verif.H3

/-- `tx_body`, `tx_offset` and `body_submitted` of `stream_state`, 572-573 and 581. -/
structure Tx where
  body : Bytes := []
  offset : Nat := 0
  submitted : Bool := false
  deriving DecidableEq, Repr

/-- What the parts of a submission find: the content lengths are right, the fields can be made, `nghttp3` takes them, the trailers
are right or absent. -/
structure Outcome where
  lengths : Bool
  fields : Bool
  taken : Bool
  trailers : Bool
  deriving DecidableEq, Repr

/-- `submit_response`, 1186-1225, and `submit_request`, 1236-1267 (there is no check of lengths outside `make_request_headers` there: `lengths` is
true). The Boolean is what is returned. -/
def Tx.submit (t : Tx) (o : Outcome) (body : Bytes) : Tx × Bool :=
  if t.submitted then (t, false)
  else if !o.lengths then (t, false)
  else
    let t := { t with body := body, offset := 0 }
    if !o.fields then (t, false)
    else if !o.taken then (t, false)
    else ({ t with submitted := true }, o.trailers)

/-- `read_data_cb`, 647-667: the bytes handed out (`none` is `WOULDBLOCK`) and the flag for the end. -/
def Tx.read (t : Tx) (room : Nat) : Tx × Option (Bytes × Bool) :=
  if t.offset ≥ t.body.length then (t, some ([], true))
  else if room == 0 then (t, none)
  else ({ t with offset := t.body.length }, some (t.body.drop t.offset, true))

/-- What happens to one stream. -/
inductive TxOp where
  | submit (o : Outcome) (body : Bytes)
  | read (room : Nat)
  deriving DecidableEq, Repr

/-- What was seen of it: the body of a submission that `nghttp3` took, the bytes handed out, the end. -/
structure TxLog where
  taken : List Bytes := []
  out : List Bytes := []
  ended : Bool := false
  deriving DecidableEq, Repr

/-- One operation; `nghttp3` asks for data only of a stream it has taken. -/
def txStep (x : Tx × TxLog) : TxOp → Tx × TxLog
  | .submit o body =>
    let t := (x.1.submit o body).1
    (t, if !x.1.submitted && t.submitted then { x.2 with taken := x.2.taken ++ [body] } else x.2)
  | .read room =>
    if !x.1.submitted then x
    else match x.1.read room with
      | (t, none) => (t, x.2)
      | (t, some (d, e)) => (t, { x.2 with out := x.2.out ++ [d], ended := x.2.ended || e })

/-- A history. -/
def txRun (ops : List TxOp) : Tx × TxLog := ops.foldl txStep ({}, {})

/-! ### `drain` -/

/-- What the owner is told, and what `nghttp3` is told. -/
inductive Act where
  | send (sid : Nat) (d : Bytes)
  | fin (sid : Nat)
  | offset (sid n : Nat)
  | drained (sid : Nat)
  | close (code : Nat)
  deriving DecidableEq, Repr

/-- What `nghttp3_conn_writev_stream` answers: an error, nothing to write, or a stream with the sizes of the pieces of its output that
are offered, and whether the end is offered as well if the pieces reach it. -/
inductive Write where
  | error (code : Nat)
  | idle
  | out (sid : Nat) (sizes : List Nat) (fin : Bool)
  deriving DecidableEq, Repr

/-- A connection on its way out: is it there, what `nghttp3` has left to send of every stream and whether its end is to come, the flag
`output_drained`, and what was done so far. `kills` says of every call to the owner whether it destroys the connection; `bad` is set
when the code touches a connection that was destroyed. -/
structure Out where
  alive : Bool := true
  left : Nat → Bytes
  ends : Nat → Bool
  told : Nat → Bool
  kills : List Bool
  acts : List Act := []
  bad : Bool := false

/-- The code reads or writes a member of the connection. -/
def Out.touch (c : Out) : Out := { c with bad := c.bad || !c.alive }

/-- A call to the owner, which may destroy the connection. -/
def Out.call (c : Out) (a : Act) : Out :=
  { c with acts := c.acts ++ [a], alive := c.alive && !(c.kills.headD false), kills := c.kills.tail, bad := c.bad || !c.alive }

/-- The pieces of the given sizes. -/
def pieces : List Nat → Bytes → List Bytes
  | [], _ => []
  | n :: ns, d => d.take n :: pieces ns (d.drop n)

/-- The inner loop, 1327-1336: the connection and `accepted`. -/
def sendLoop (sid : Nat) : List Bytes → Nat → Out → Out × Nat
  | [], n, c => (c, n)
  | d :: ds, n, c =>
    if d.isEmpty then sendLoop sid ds n c
    else
      let c := c.call (.send sid d)
      if !c.alive then (c, n) else sendLoop sid ds (n + d.length) c

/-- `notify_drained`, 1287-1308. -/
def notifyLoop : List Nat → Out → Out
  | [], c => c
  | sid :: rest, c => if !c.alive then c else notifyLoop rest (c.call (.drained sid))

/-- `nghttp3_conn_add_write_offset`: the bytes are out, and the end with them if it was offered. -/
def Out.advance (c : Out) (sid n : Nat) (fin : Bool) : Out :=
  { c with acts := c.acts ++ [.offset sid n], bad := c.bad || !c.alive,
           left := fun s => if s = sid then (c.left s).drop n else c.left s,
           ends := fun s => if s = sid then c.ends s && !fin else c.ends s }

/-- The loop of `drain`, 1309-1348, with the budget that is left, what `nghttp3` answers (nothing to write when the list is at its end) and
`drained_streams`. -/
def drainLoop : Nat → List Write → List Nat → Out → Out
  | 0, _, ds, c => notifyLoop ds c
  | _ + 1, [], ds, c => notifyLoop ds c.touch
  | _ + 1, .error code :: _, _, c => c.touch.call (.close code)
  | _ + 1, .idle :: _, ds, c => notifyLoop ds c.touch
  | budget + 1, .out sid sizes wantFin :: ws, ds, c =>
    let c := c.touch
    let ps := pieces sizes (c.left sid)
    let fin := wantFin && c.ends sid && ps.flatten == c.left sid
    let (c, accepted) := sendLoop sid ps 0 c
    if !c.alive then c
    else
      let c := if fin then c.call (.fin sid) else c
      if !c.alive then c
      else
        let c := c.advance sid accepted fin
        let (c, ds) := if fin && !c.told sid then ({ c.touch with told := fun s => if s = sid then true else c.told s }, ds ++ [sid]) else (c, ds)
        if ps.isEmpty && !fin then notifyLoop ds c
        else drainLoop budget ws ds c

/-- `drain`, 1278-1349. -/
def drain (ws : List Write) (c : Out) : Out := drainLoop 256 ws [] c

/-- What happens to a connection on its way out: `nghttp3` has more to send on a stream, and perhaps its end; or `drain` is called. -/
inductive OutOp where
  | more (sid : Nat) (d : Bytes) (last : Bool)
  | drain (ws : List Write)

/-- The connection, what there was to send on every stream, and whether its end is known. -/
structure OutRun where
  c : Out
  total : Nat → Bytes := fun _ => []
  closed : Nat → Bool := fun _ => false

/-- One operation: nothing follows the end of a stream, and nothing is asked of a connection that was destroyed. -/
def outStep (x : OutRun) : OutOp → OutRun
  | .more sid d last =>
    if !x.c.alive || x.closed sid then x
    else { c := { x.c with left := fun s => if s = sid then x.c.left s ++ d else x.c.left s,
                           ends := fun s => if s = sid then last else x.c.ends s },
           total := fun s => if s = sid then x.total s ++ d else x.total s,
           closed := fun s => if s = sid then last else x.closed s }
  | .drain ws => if x.c.alive then { x with c := drain ws x.c } else x

/-- A history; `kills` says of every call to the owner whether it destroys the connection. -/
def outRun (kills : List Bool) (ops : List OutOp) : OutRun :=
  ops.foldl outStep { c := { left := fun _ => [], ends := fun _ => false, told := fun _ => false, kills := kills } }

end Verif.H3
