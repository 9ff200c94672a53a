import Verif.Cli3.Model

/-! What a user sees of the persistent HTTP/3 client, stated over the trace of observable events (newest first) and the calls the
user made. -/

namespace Verif.Cli3

/-- The calls of `push_request` whose callback was invoked, one entry per invocation. -/
def completions (t : List Ev) : List Nat := t.filterMap fun | .done c _ => some c | _ => none

/-- The calls of `push_request` whose request was sent, one entry per time it was sent. -/
def sends (t : List Ev) : List Nat := t.filterMap fun | .sent c _ _ => some c | _ => none

/-- The invocations of connect callbacks. -/
def connects (t : List Ev) : List Nat := t.filterMap fun | .connected k _ => some k | _ => none

/-- How many callbacks got a response from the network. -/
def answered (t : List Ev) : Nat := t.countP fun | .done _ (.response _ _) => true | _ => false

/-- How many callbacks got an error response made by the client. -/
def refused (t : List Ev) : Nat := t.countP fun | .done _ (.error _) => true | _ => false

/-- The requests in the hands of a function under way. -/
def Frame.ctxs : Frame → List Ctx
  | .submit c => [c]
  | .reset c => [c]
  | .failList cs => cs
  | _ => []

/-- The requests the client holds: queued, on the wire, or in the hands of a function under way. When the client is idle (empty
stack) the last are none. -/
def St.held (s : St) : List Nat := (s.pending ++ s.active ++ s.stack.flatMap Frame.ctxs).map (·.call)

/-- Connect callbacks in the hands of a function under way. -/
def Frame.waiting : Frame → List Nat
  | .connLoop cbs _ => cbs
  | _ => []

/-- The connect callbacks that wait. -/
def St.waiting (s : St) : List Nat := s.cbs ++ s.stack.flatMap Frame.waiting

/-- The number of times the user called `push_request` (with a callback). -/
def pushes (chs : List Choice) : Nat := chs.countP fun | .call (.push _) => true | _ => false

/-- The number of times the user called `connect` with a callback. -/
def connectCalls (chs : List Choice) : Nat := chs.countP fun | .call (.connect true) => true | _ => false

/-- A function of the client that is sending requests is under way. -/
def Frame.sending : Frame → Bool
  | .procLoop | .submit _ => true
  | _ => false

/-- What the client relies on: the user calls `disconnect` from outside of callbacks, calls nothing in the callbacks it invokes, and does not
cancel requests in callbacks of a connection that is lost; while requests are sent outside of a read, the endpoint does not deliver data or the
loss of the connection. -/
def Polite (s : St) : Choice → Prop
  | .call .disconnect => s.stack = []
  | .call (.cancel _) => .discEnd ∉ s.stack ∧ .failAll ∉ s.stack
  | .call _ => .discEnd ∉ s.stack
  | .event .closed | .event .data => s.depth = 0 → ∀ f ∈ s.stack, f.sending = false
  | _ => True

/-- All steps of a run are polite. -/
def PoliteRun : St → List Choice → Prop
  | _, [] => True
  | s, ch :: chs => Polite s ch ∧ ∀ s', s.step ch = some s' → PoliteRun s' chs

/-- `disconnect` is never called. -/
def NoDisconnect (chs : List Choice) : Prop := .call .disconnect ∉ chs

/-- `disconnect` is never called while the connection is reading, that is, in a callback for a response or a GOAWAY. -/
def NoDisconnectInRead : St → List Choice → Prop
  | _, [] => True
  | s, ch :: chs => (ch = .call .disconnect → s.depth = 0) ∧ ∀ s', s.step ch = some s' → NoDisconnectInRead s' chs

end Verif.Cli3
