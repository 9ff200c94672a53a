import Verif.Clp.Model

/-! What the properties of the HTTP/2 client connection speak of: only the log of frames and callbacks, newest first. -/

namespace Verif.Clp

/-- Every event is in the given relation to what was before it. -/
def Always (P : Ev → List Ev → Prop) : List Ev → Prop
  | [] => True
  | e :: l => P e l ∧ Always P l

/-! ### Amounts -/

/-- Octets of DATA written. -/
def sent : List Ev → Nat
  | [] => 0
  | .data _ d _ :: l => d.length + sent l
  | _ :: l => sent l

/-- The body written on a stream. -/
def bodyOn (sid : Nat) : List Ev → Bytes
  | [] => []
  | .data j d _ :: l => if j = sid then bodyOn sid l ++ d else bodyOn sid l
  | _ :: l => bodyOn sid l

/-- The increments the server granted by WINDOW_UPDATE on a stream, or with 0 on the connection. -/
def granted (sid : Nat) : List Ev → Nat
  | [] => 0
  | .rx (.windowUpdate j inc) :: l => if j = sid then inc + granted sid l else granted sid l
  | _ :: l => granted sid l

/-- Flow controlled octets received: DATA with padding. -/
def received : List Ev → Nat
  | [] => 0
  | .rx (.data _ d pad _) :: l => d.length + pad + received l
  | _ :: l => received l

def receivedOn (sid : Nat) : List Ev → Nat
  | [] => 0
  | .rx (.data j d pad _) :: l => if j = sid then d.length + pad + receivedOn sid l else receivedOn sid l
  | _ :: l => receivedOn sid l

/-- The body received on a stream. -/
def gotOn (sid : Nat) : List Ev → Bytes
  | [] => []
  | .rx (.data j d _ _) :: l => if j = sid then gotOn sid l ++ d else gotOn sid l
  | _ :: l => gotOn sid l

/-- The increments the client granted. -/
def advertised (sid : Nat) : List Ev → Nat
  | [] => 0
  | .windowUpdate j inc :: l => if j = sid then inc + advertised sid l else advertised sid l
  | _ :: l => advertised sid l

/-- Replies to PING and SETTINGS since the last DATA frame or response. -/
def repliesSince : List Ev → Nat
  | [] => 0
  | .settingsAck :: l => repliesSince l + 1
  | .pong _ :: l => repliesSince l + 1
  | .rx (.data _ _ _ _) :: _ => 0
  | .response _ _ _ _ :: _ => 0
  | _ :: l => repliesSince l

/-! ### Settings -/

/-- The value of a setting after some entries. -/
def after (id : UInt16) : Nat → List (UInt16 × UInt32) → Nat
  | v, [] => v
  | v, e :: es => after id (if e.1 = id then e.2.toNat else v) es

/-- All the values a setting goes through. -/
def through (id : UInt16) : Nat → List (UInt16 × UInt32) → List Nat
  | v, [] => [v]
  | v, e :: es => v :: through id (if e.1 = id then e.2.toNat else v) es

/-- Values before any SETTINGS frame: SETTINGS_MAX_CONCURRENT_STREAMS (3), SETTINGS_INITIAL_WINDOW_SIZE (4), SETTINGS_MAX_FRAME_SIZE (5). -/
def defaultOf (id : UInt16) : Nat := if id = 3 then 4294967295 else if id = 4 then 65535 else 16384

/-- The value of a setting after everything received. -/
def current (id : UInt16) : List Ev → Nat
  | [] => defaultOf id
  | .rx (.settings false es) :: l => after id (current id l) es
  | _ :: l => current id l

/-- The values of a setting in force: the current one, or, while the last frame received is a SETTINGS frame that is worked on, those after some of its entries. -/
def inForce (id : UInt16) : List Ev → List Nat
  | [] => [defaultOf id]
  | .rx (.settings false es) :: l => through id (current id l) es
  | .rx _ :: l => [current id l]
  | _ :: l => inForce id l

/-! ### Streams -/

def Ev.opens (sid : Nat) : Ev → Bool
  | .request j _ _ _ => j == sid
  | _ => false

/-- RST_STREAM, from either side. -/
def Ev.resets (sid : Nat) : Ev → Bool
  | .rst j _ => j == sid
  | .rx (.rst j _) => j == sid
  | _ => false

/-- END_STREAM, written. -/
def Ev.ends (sid : Nat) : Ev → Bool
  | .request j _ _ fin => j == sid && fin
  | .data j _ fin => j == sid && fin
  | .trailers j _ => j == sid
  | _ => false

/-- END_STREAM, received. -/
def Ev.endedBy (sid : Nat) : Ev → Bool
  | .rx (.data j _ _ fin) => j == sid && fin
  | .rx (.headers j _ fin _) => j == sid && fin
  | _ => false

/-- The outcome of a request. -/
def Ev.outcome (sid : Nat) : Ev → Bool
  | .response j _ _ _ => j == sid
  | .streamError j _ => j == sid
  | _ => false

/-- GOAWAY, from either side. -/
def Ev.isGoaway : Ev → Bool
  | .goaway _ _ => true
  | .rx (.goaway _ _) => true
  | _ => false

/-- A GOAWAY was received that says that the stream is not worked on. -/
def Ev.disowns (sid : Nat) : Ev → Bool
  | .rx (.goaway last _) => decide (last < sid)
  | _ => false

/-- Something happened after the stream was opened. -/
def since (P : Ev → Bool) (sid : Nat) : List Ev → Bool
  | [] => false
  | e :: l => (P e && l.any (Ev.opens sid)) || since P sid l

/-- RST_STREAM, written. -/
def Ev.cuts (sid : Nat) : Ev → Bool
  | .rst j _ => j == sid
  | _ => false

/-- A stream is open for the server: opened, not reset since, and not ended by both sides. -/
def isOpen (l : List Ev) (sid : Nat) : Bool :=
  l.any (Ev.opens sid) && !since (Ev.resets sid) sid l && !(l.any (Ev.ends sid) && l.any (Ev.endedBy sid))

/-- Is a response's body measured against its content-length? Not for HEAD, 1xx, 204, 304. -/
def measured (method : Bytes) (status : Nat) : Prop := method ≠ b!"HEAD" ∧ ¬(100 ≤ status ∧ status < 200) ∧ status ≠ 204 ∧ status ≠ 304

end Verif.Clp
