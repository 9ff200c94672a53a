import Verif.Cli2.Model

/-! What a user sees of the persistent HTTP/2 client, stated over the trace of observable events (newest
first) and the calls the user made. -/

namespace Verif.Cli2

/-- The calls of `push_request` whose callback was invoked, one entry per invocation. -/
def completions (t : List Ev) : List Nat := t.filterMap fun | .done c _ => some c | _ => none

/-- The calls of `push_request` whose request was sent. -/
def sends (t : List Ev) : List Nat := t.filterMap fun | .sent c _ _ => some c | _ => none

/-- The invocations of connect callbacks. -/
def connects (t : List Ev) : List Nat := t.filterMap fun | .connected k _ => some k | _ => none

/-- How many callbacks got a response from the network. -/
def answered (t : List Ev) : Nat := t.countP fun | .done _ (.response _) => true | _ => false

/-- How many callbacks got an error response made by the client. -/
def refused (t : List Ev) : Nat := t.countP fun | .done _ (.error _) => true | _ => false

/-- The requests in the hands of a function under way. -/
def Frame.ctxs : Frame → List Ctx
  | .sendFailed c => [c]
  | .failList cs _ => cs
  | .timeoutPending _ kept => kept
  | _ => []

/-- The requests the client holds: queued, on the wire, or in the hands of a function under way. When the
client is idle (empty stack) the last are none. -/
def St.held (s : St) : List Nat := (s.pending ++ s.active ++ s.stack.flatMap Frame.ctxs).map (·.call)

/-- The number of times the user called `push_request` (with a callback). -/
def pushes (chs : List Choice) : Nat := chs.countP fun | .call (.push _) => true | _ => false

/-- The number of times the user called `connect` with a callback. -/
def connectCalls (chs : List Choice) : Nat := chs.countP fun | .call (.connect true) => true | _ => false

/-- Connect callbacks waiting in the loops of the stack. -/
def Frame.waiting : Frame → List Nat
  | .connLoop cbs _ => cbs
  | _ => []

end Verif.Cli2
