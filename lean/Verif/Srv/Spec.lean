import Verif.Srv.Model

/-! # What the properties of a server connection are stated with

All of it is about what can be seen from outside: the inputs `is` (frames of the client, calls of the application) and
the outputs `out` (frames to the client, callbacks into the application). -/

namespace Verif.Srv

/-! ## Flow control towards the client -/

/-- Octets of DATA written, on all streams and on one stream. -/
def octets : List Out → Nat
  | [] => 0
  | .data _ d _ :: os => d.length + octets os
  | _ :: os => octets os

def octetsOn (sid : Nat) : List Out → Nat
  | [] => 0
  | .data j d _ :: os => (if j = sid then d.length else 0) + octetsOn sid os
  | _ :: os => octetsOn sid os

/-- What WINDOW_UPDATE frames granted, for stream number `sid` (0: the connection). -/
def granted (sid : Nat) : List Input → Nat
  | [] => 0
  | .windowUpdate j inc :: is => (if j = sid then inc else 0) + granted sid is
  | _ :: is => granted sid is

/-- The values of SETTINGS_INITIAL_WINDOW_SIZE in a SETTINGS frame, in order. -/
def windowsIn : List (UInt16 × UInt32) → List Nat
  | [] => []
  | (id, v) :: es => if id = 4 then v.toNat :: windowsIn es else windowsIn es

/-- The values of SETTINGS_INITIAL_WINDOW_SIZE the client announced, in order. -/
def windows : List Input → List Nat
  | [] => []
  | .settings _ _ es :: is => windowsIn es ++ windows is
  | _ :: is => windows is

/-- The last element, or a default. -/
def lastOr (n : Nat) (l : List Nat) : Nat := l.getLast?.getD n

/-! ## Flow control from the client -/

/-- Octets the server granted by WINDOW_UPDATE for stream number `sid` (0: the connection). -/
def credits (sid : Nat) : List Out → Nat
  | [] => 0
  | .windowUpdate j inc :: os => (if j = sid then inc else 0) + credits sid os
  | _ :: os => credits sid os

/-- Octets the client sent in DATA frames (padding included). -/
def received : List Input → Nat
  | [] => 0
  | .data _ d pad _ _ :: is => d.length + pad + received is
  | _ :: is => received is

/-! ## Responses -/

/-- The HEADERS and DATA frames written on a stream. -/
def framesOn (sid : Nat) : List Out → List Out
  | [] => []
  | .headers j b f :: os => if j = sid then .headers j b f :: framesOn sid os else framesOn sid os
  | .data j d f :: os => if j = sid then .data j d f :: framesOn sid os else framesOn sid os
  | _ :: os => framesOn sid os

/-- END_STREAM. -/
def isFin : Out → Bool
  | .headers _ _ f => f
  | .data _ _ f => f
  | _ => false

/-- The payload of DATA frames. -/
def payload : List Out → Bytes
  | [] => []
  | .data _ d _ :: os => d ++ payload os
  | _ :: os => payload os

/-- The responses the application gave, from a call or from the request handler. -/
def Act.response : Act → List (Nat × Response)
  | .respond sid r => [(sid, r)]
  | _ => []

def Input.acts : Input → List Act
  | .data _ _ _ _ h => h.acts
  | .headers _ _ _ _ h => h.acts
  | .continuation _ _ _ h => h.acts
  | .app a => [a]
  | _ => []

def responses (is : List Input) : List (Nat × Response) := is.flatMap (fun i => i.acts.flatMap Act.response)

def responsesOn (sid : Nat) (is : List Input) : List Response :=
  ((responses is).filter (fun p => p.1 = sid)).map (·.2)

/-- The response announces trailer fields. -/
def announces (r : Response) : Bool := (Verif.Wire.find r.headers b!"Trailer").isSome

/-- The HEADERS and DATA frames `fs` of a stream are (a beginning of) the response `r`: HEADERS first, then DATA with
nothing empty among them, then perhaps trailers; the payload is a prefix of the body; END_STREAM is on the last frame
only, and only when the whole body is out; and when it is, and no trailers were announced, END_STREAM is there. -/
structure Answer (sid : Nat) (r : Response) (fs : List Out) : Prop where
  shape : ∃ block rest, fs = .headers sid block r.body.isEmpty :: rest ∧
    ∀ o ∈ rest, (∃ d f, o = .data sid d f ∧ d ≠ []) ∨ (o = .headers sid [] true ∧ announces r = true)
  body : payload fs <+: r.body
  fin : ∀ pre o post, fs = pre ++ o :: post → isFin o = true → post = [] ∧ payload fs = r.body
  complete : announces r = false → payload fs = r.body → ∃ o ∈ fs, isFin o = true

/-! ## Requests -/

/-- The requests handed to the application for one stream. -/
def requestsOn (sid : Nat) : List Out → List Request
  | [] => []
  | .request j r :: os => if j = sid then r :: requestsOn sid os else requestsOn sid os
  | _ :: os => requestsOn sid os

/-- The payload of the client's DATA frames on a stream. -/
def bodyIn (sid : Nat) : List Input → Bytes
  | [] => []
  | .data j d _ _ _ :: is => (if j = sid then d else []) ++ bodyIn sid is
  | _ :: is => bodyIn sid is

/-- The client ended the stream. -/
def endedIn (sid : Nat) : List Input → Bool
  | [] => false
  | .data j _ _ fin _ :: is => (j == sid && fin) || endedIn sid is
  | .headers j _ fin _ _ :: is => (j == sid && fin) || endedIn sid is
  | _ :: is => endedIn sid is

def requests : List Out → List (Nat × Request)
  | [] => []
  | .request j r :: os => (j, r) :: requests os
  | _ :: os => requests os

def goaways : List Out → Nat
  | [] => 0
  | .goaway _ _ :: os => 1 + goaways os
  | _ :: os => goaways os

/-! ## Control frames -/

/-- Replies to PING and SETTINGS. -/
def replies : List Out → Nat
  | [] => 0
  | .pong _ :: os => 1 + replies os
  | .settingsAck :: os => 1 + replies os
  | _ :: os => replies os

/-- The connection still processes frames. -/
def Conn.alive {x : Ext} (c : Conn x) : Bool := c.ok && c.active

/-! ## Elementary facts -/

theorem octets_append (a b : List Out) : octets (a ++ b) = octets a + octets b := by
  induction a with
  | nil => simp [octets]
  | cons o a ih => cases o <;> simp [octets, ih]; omega

theorem octetsOn_append (sid : Nat) (a b : List Out) : octetsOn sid (a ++ b) = octetsOn sid a + octetsOn sid b := by
  induction a with
  | nil => simp [octetsOn]
  | cons o a ih => cases o <;> simp [octetsOn, ih]; omega

theorem credits_append (sid : Nat) (a b : List Out) : credits sid (a ++ b) = credits sid a + credits sid b := by
  induction a with
  | nil => simp [credits]
  | cons o a ih => cases o <;> simp [credits, ih]; omega

theorem framesOn_append (sid : Nat) (a b : List Out) : framesOn sid (a ++ b) = framesOn sid a ++ framesOn sid b := by
  induction a with
  | nil => simp [framesOn]
  | cons o a ih => cases o <;> simp only [List.cons_append, framesOn, ih] <;> split <;> simp

theorem payload_append (a b : List Out) : payload (a ++ b) = payload a ++ payload b := by
  induction a with
  | nil => simp [payload]
  | cons o a ih => cases o <;> simp [payload, ih]

theorem requestsOn_append (sid : Nat) (a b : List Out) : requestsOn sid (a ++ b) = requestsOn sid a ++ requestsOn sid b := by
  induction a with
  | nil => simp [requestsOn]
  | cons o a ih => cases o <;> simp only [List.cons_append, requestsOn, ih]; split <;> simp

theorem requests_append (a b : List Out) : requests (a ++ b) = requests a ++ requests b := by
  induction a with
  | nil => simp [requests]
  | cons o a ih => cases o <;> simp [requests, ih]

theorem goaways_append (a b : List Out) : goaways (a ++ b) = goaways a + goaways b := by
  induction a with
  | nil => simp [goaways]
  | cons o a ih => cases o <;> simp [goaways, ih]; omega

theorem replies_append (a b : List Out) : replies (a ++ b) = replies a + replies b := by
  induction a with
  | nil => simp [replies]
  | cons o a ih => cases o <;> simp [replies, ih] <;> omega

theorem granted_append (sid : Nat) (a b : List Input) : granted sid (a ++ b) = granted sid a + granted sid b := by
  induction a with
  | nil => simp [granted]
  | cons o a ih => cases o <;> simp [granted, ih]; omega

theorem received_append (a b : List Input) : received (a ++ b) = received a + received b := by
  induction a with
  | nil => simp [received]
  | cons o a ih => cases o <;> simp [received, ih]; omega

theorem bodyIn_append (sid : Nat) (a b : List Input) : bodyIn sid (a ++ b) = bodyIn sid a ++ bodyIn sid b := by
  induction a with
  | nil => simp [bodyIn]
  | cons o a ih => cases o <;> simp [bodyIn, ih]

theorem endedIn_append (sid : Nat) (a b : List Input) : endedIn sid (a ++ b) = (endedIn sid a || endedIn sid b) := by
  induction a with
  | nil => simp [endedIn]
  | cons o a ih => cases o <;> simp [endedIn, ih, Bool.or_assoc]

theorem windows_append (a b : List Input) : windows (a ++ b) = windows a ++ windows b := by
  induction a with
  | nil => simp [windows]
  | cons o a ih => cases o <;> simp [windows, ih]

theorem run_snoc {x : Ext} (c : Conn x) (is : List Input) (i : Input) : run c (is ++ [i]) = step (run c is) i := by
  unfold run; rw [List.foldl_append]; rfl

theorem run_append {x : Ext} (c : Conn x) (a b : List Input) : run c (a ++ b) = run (run c a) b := by
  unfold run; rw [List.foldl_append]

/-- Induction over runs, from the end. -/
theorem snocInd {α : Type} {P : List α → Prop} (h0 : P []) (hs : ∀ l i, P l → P (l ++ [i])) (l : List α) : P l := by
  have : ∀ l : List α, P l.reverse := by
    intro l
    induction l with
    | nil => exact h0
    | cons i l ih => rw [List.reverse_cons]; exact hs _ _ ih
  have := this l.reverse
  rwa [List.reverse_reverse] at this

end Verif.Srv
