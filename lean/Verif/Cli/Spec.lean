import Verif.Cli.Model

/-! What a user sees of the persistent HTTP/1.1 client, stated over the trace of observable events
(newest first) and the calls the user made. -/

namespace Verif.Cli

/-- The calls of `push_request` whose callback was invoked, one entry per invocation. -/
def completions (t : List Ev) : List Nat := t.filterMap fun | .done c _ => some c | _ => none

/-- The calls of `push_request` whose request was handed to the connection, in the order of the trace. -/
def sends (t : List Ev) : List Nat := t.filterMap fun | .sent c _ => some c | _ => none

/-- The invocations of connect callbacks. -/
def connects (t : List Ev) : List Nat := t.filterMap fun | .connected k _ => some k | _ => none

/-- How many callbacks got a response from the network. -/
def answered (t : List Ev) : Nat := t.countP fun | .done _ (.response _) => true | _ => false

/-- How many callbacks got an error response made by the client. -/
def refused (t : List Ev) : Nat := t.countP fun | .done _ (.error _) => true | _ => false

/-- The requests the client holds: the queue and the one on the wire. -/
def St.held (s : St) : List Nat := s.pending.map (·.call) ++ s.active.toList.map (·.call)

/-- The number of times the user called `push_request` (with a callback). -/
def pushes (chs : List Choice) : Nat := chs.countP fun | .call (.push _) => true | _ => false

/-- The number of times the user called `connect` with a callback. -/
def connectCalls (chs : List Choice) : Nat := chs.countP fun | .call (.connect true) => true | _ => false

/-- One request at a time: whenever a request is handed to the connection, every request handed over
before was already completed. -/
def OneAtATime (t : List Ev) : Prop :=
  ∀ post pre c r, t = post ++ .sent c r :: pre → ∀ c' ∈ sends pre, c' ∈ completions pre

/-- A response goes to the request handed to the connection last. -/
def ToLast (t : List Ev) : Prop :=
  ∀ post pre c r, t = post ++ .done c (.response r) :: pre → (sends pre).head? = some c

/-- Connect callbacks waiting in the loops of the stack. -/
def Frame.waiting : Frame → List Nat
  | .connLoop cbs _ => cbs
  | _ => []

/-- Something is under way that will lead to the next send or the next completion: a request is on
the wire, an attempt to connect is running, the connection was told to close or found closed (the event
`disconnected` is due), or a reconnection is scheduled. -/
def St.Advancing (s : St) : Prop :=
  s.active.isSome = true ∨
  (∃ c, s.conn = some c ∧ (c.attempt = true ∨ c.closing = true ∨ (s.isConnected = true ∧ c.isOpen = false))) ∨
  (0 < s.reconnects ∧ s.isConnected = false)

/-- A polite user: `disconnect` is not called from a callback, and the callbacks `disconnect` invokes
do not call the client. -/
def St.polite (s : St) : Choice → Prop
  | .call .disconnect => s.stack = []
  | .call _ => .discEnd ∉ s.stack
  | _ => True

def St.politeRun (s : St) : List Choice → Prop
  | [] => True
  | ch :: chs => s.polite ch ∧ ∀ s', s.step ch = some s' → s'.politeRun chs

end Verif.Cli
