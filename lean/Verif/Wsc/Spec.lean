import Verif.Wsc.Model

/-! What the properties of WebSocket coroutines speak of: the log of reports, calls, results and Close frames, newest first. -/

namespace Verif.Wsc

/-- The frame that a report brings the application. -/
def frameOf : Net → Option Frame
  | .message t p => some { kind := .message, payload := p, isText := t }
  | .ping p => some { kind := .ping, payload := p }
  | .pong p => some { kind := .pong, payload := p }
  | .closed p => some { kind := .close, code := if p.length < 2 then 0 else 256 * (p.getD 0 0).toNat + (p.getD 1 0).toNat, reason := p.drop 2 }
  | _ => none

/-- The frames that came since the last `connect`, oldest first. -/
def arrived : List Ev → List Frame
  | [] => []
  | .call _ .connect :: _ => []
  | .net n :: l => arrived l ++ (frameOf n).toList
  | _ :: l => arrived l

/-- The frames that `receive` gave to coroutines since the last `connect`, oldest first; not the notices that the connection is gone. -/
def handed : List Ev → List Frame
  | [] => []
  | .call _ .connect :: _ => []
  | .resumed _ (.frame f) :: l => if f.kind = .disconnected then handed l else handed l ++ [f]
  | _ :: l => handed l

/-- How many losses of the connection were reported since the last `connect`. -/
def losses : List Ev → Nat
  | [] => 0
  | .call _ .connect :: _ => 0
  | .net .disconnected :: l => losses l + 1
  | _ :: l => losses l

/-- The limit for unread frames. -/
def capOf : List Ev → Nat
  | [] => 1024
  | .cap n :: _ => n
  | _ :: l => capOf l

/-- At no time were there more unread frames (and notices) than the limit. -/
def Fits : List Ev → Prop
  | [] => True
  | e :: l => (arrived (e :: l)).length + losses (e :: l) ≤ (handed (e :: l)).length + capOf (e :: l) ∧ Fits l

/-- The ends of an awaiter: it is resumed, or its call throws. -/
def Ev.answers (id : Nat) : Ev → Bool
  | .resumed j _ => j == id
  | .threw j => j == id
  | _ => false

/-- The result is of the type of the call. -/
def Suits : Call → Result → Prop
  | .connect, .connect _ => True
  | .receive, .frame _ => True
  | .close _ _, .close _ => True
  | _, _ => False

/-- Reports after which there is no connection. -/
def Net.final (sd : Side) : Net → Bool
  | .disconnected => true
  | .error => sd == .client
  | .violation _ => sd == .client
  | _ => false

/-- The connection is gone: a final report came after the last `connect`. -/
def lost (sd : Side) : List Ev → Bool
  | [] => false
  | .call _ .connect :: _ => false
  | .net n :: l => n.final sd || lost sd l
  | _ :: l => lost sd l

/-- The peer's Close came after the last `connect`. -/
def closing : List Ev → Bool
  | [] => false
  | .call _ .connect :: _ => false
  | .net (.closed _) :: _ => true
  | _ :: l => closing l

/-- A `connect` has just begun. -/
def renewing : List Ev → Bool
  | .call _ .connect :: _ => true
  | .resumed _ _ :: l => renewing l
  | _ => false

/-- What a result tells is true, by the log before it. -/
def True_ (sd : Side) (l : List Ev) : Result → Prop
  | .connect true => l.head? = some (.net .connected)
  | .connect false => lost sd l = true ∨ renewing l = true
  | .frame f => f.kind = .disconnected → lost sd l = true ∨ renewing l = true
  | .close true => closing l = true ∨ lost sd l = true
  | .close false => lost sd l = true ∨ renewing l = true

/-- The largest limit there has been. -/
def capMax : List Ev → Nat
  | [] => 1024
  | .cap n :: l => max n (capMax l)
  | _ :: l => capMax l

/-- Close frames written since the connection was begun or lost. -/
def closes : List Ev → Nat
  | [] => 0
  | .call _ .connect :: _ => 0
  | .net .disconnected :: _ => 0
  | .wroteClose _ :: l => closes l + 1
  | _ :: l => closes l

/-- No rule was broken by the peer, and every close had a status that may be sent. -/
def Plain (l : List Ev) : Prop := (∀ p, .net (.violation p) ∉ l) ∧ ∀ id a b, .call id (.close a b) ∈ l → Ws.messageClose a b ≠ none

end Verif.Wsc
