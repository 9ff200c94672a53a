import Verif.Sv3.Model

/-! What is said about the log of an HTTP/3 server (newest first). -/

namespace Verif.Sv3

/-- A read is under way. -/
def Reading (t : St) : Prop := ∃ k c, Fr.read k c ∈ t.stack

/-- The connection was told to go away, and its closure was not reported since. -/
def shutting : List Ev → Nat → Bool
  | [], _ => false
  | .goaway d :: l, c => if d = c then true else shutting l c
  | .closedDone d _ :: l, c => if d = c then false else shutting l c
  | _ :: l, c => shutting l c

/-- A session of the connection in the table has a context. -/
def Active (t : St) (c : Nat) : Prop := ∃ s o x, ((c, s), o) ∈ t.sess ∧ (t.obj o).ctx = some x

/-- At most one request per stream: a stream has one session, and a session one request. -/
def OneRequest (l : List Ev) : Prop := (∀ x y o, .start x o ∈ l → .start y o ∈ l → x = y) ∧ ∀ o o' c s, .session o c s ∈ l → .session o' c s ∈ l → o = o'

def hooks (x : Nat) (l : List Ev) : Nat := (l.filter (· == .hook x)).length

end Verif.Sv3
