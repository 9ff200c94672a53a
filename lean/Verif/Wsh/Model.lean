import Verif.Parse.Model

/-! # The WebSocket handshake

`src/qbm/http/ws/ws.h` 791-1044, 1105-1145, 1229-1375, `ws.cpp` 244-249, and `coro_session::accept_upgrade`, `ws/coro.h` 611-756.

Simplifications. `crypto::base64` and `crypto::sha1` belong to a dependency and are a parameter. The flag `upgrade` of a parsed message is set by the HTTP parser (a dependency) and is an input. Only the fields of a message that are
looked at here are kept. Memory failures are left out. -/

namespace Verif.Wsh

open Verif.Wire (Headers)
open Verif.Parse (header push)

/-- `crypto::base64` and `crypto::sha1`; `dec` is `none` when it throws. -/
structure Crypto where
  enc : Bytes → Bytes
  dec : Bytes → Option Bytes
  sha1 : Bytes → Bytes

/-- `detail::ascii_to_lower`, 791-794. -/
def lower (c : Byte) : Byte := if c ≥ 65 && c ≤ 90 then c + 32 else c

/-- `ws_magic_guid`, 798. -/
def guid : Bytes := b!"258EAFA5-E914-47DA-95CA-C5AB0DC85B11"

/-- `compute_accept_key`, 801-808. -/
def acceptKey (c : Crypto) (key : Bytes) : Bytes := c.enc (c.sha1 (key ++ guid))

/-- `iequal_ascii`, 811-822. -/
def iequal (a b : Bytes) : Bool := if a.length != b.length then false else (a.zip b).all (fun p => lower p.1 == lower p.2)

/-- `is_token_char`, 824-828. -/
def isTokenChar (c : Byte) : Bool :=
  (c ≥ 65 && c ≤ 90) || (c ≥ 97 && c ≤ 122) || (c ≥ 48 && c ≤ 57) || (b!"!#$%&'*+-.^_`|~").contains c

/-- `is_valid_token`, 830-833. -/
def isValidToken (v : Bytes) : Bool := !v.isEmpty && v.all isTokenChar

def isWs (c : Byte) : Bool := c == 32 || c == 9

/-- `trim_ows`, 865-873 and 1110-1118. -/
def trim (v : Bytes) : Bytes := ((v.dropWhile isWs).reverse.dropWhile isWs).reverse

/-- `has_token_ci`, 837-862: the part up to the next comma, then the rest. -/
def hasToken (v tok : Bytes) : Bool :=
  let t := trim (v.takeWhile (· != 44))
  if !t.isEmpty && iequal t tok then true
  else match h : v.dropWhile (· != 44) with
    | [] => false
    | _ :: rest => hasToken rest tok
termination_by v.length
decreasing_by
  have := (List.dropWhile_sublist (p := fun x : Byte => x != 44) (l := v)).length_le
  rw [h] at this; simp at this; omega

/-- `constant_time_equal`, 876-885. -/
def constEqual (a b : Bytes) : Bool :=
  if a.length != b.length then false else ((a.zip b).foldl (fun d p => d ||| (p.1 ^^^ p.2)) (0 : UInt8)) == 0

structure Req where
  get : Bool := true
  upgrade : Bool := true
  headers : Headers := []

structure Resp where
  status : Nat := 200
  upgrade : Bool := false
  headers : Headers := []

/-- `populate_handshake_response`, 905-950; `none` = false. -/
def populate (c : Crypto) (q : Req) (r : Resp) : Option Resp :=
  if !q.get then none
  else if !q.upgrade then none
  else if !iequal (header q.headers b!"Upgrade") b!"websocket" then none
  else if !hasToken (header q.headers b!"Connection") b!"Upgrade" then none
  else
    let key := trim (header q.headers b!"Sec-WebSocket-Key")
    let version := trim (header q.headers b!"Sec-WebSocket-Version")
    if key.isEmpty then none
    else if key.length != 24 then none
    else match c.dec key with
      | none => none
      | some d =>
        if d.length != 16 then none
        else if c.enc d != key then none
        else if !iequal version b!"13" then none
        else some { r with status := 101, headers := push (push (push r.headers b!"Upgrade" b!"websocket") b!"Connection" b!"Upgrade") b!"Sec-WebSocket-Accept" (acceptKey c key) }

/-- `validate_handshake_response`, 1005-1029. -/
def validate (c : Crypto) (r : Resp) (key : Bytes) : Bool :=
  if !r.upgrade then false
  else if r.status != 101 then false
  else if !iequal (header r.headers b!"Upgrade") b!"websocket" then false
  else if !hasToken (header r.headers b!"Connection") b!"Upgrade" then false
  else
    let k := trim (header r.headers b!"Sec-WebSocket-Accept")
    if k.isEmpty then false else constEqual k (acceptKey c key)

/-- `set_subprotocols`, 1236-1244; `none` = throws. -/
def setSubprotocols (ps : List Bytes) : Option (List Bytes) := if ps.all isValidToken then some ps else none

/-- The list in the request, 1299-1307. -/
def join : List Bytes → Bytes
  | [] => []
  | [p] => p
  | p :: ps => p ++ b!", " ++ join ps

/-- The request of the client, 330-336 and 1295-1307. -/
def request (key host : Bytes) (offered : List Bytes) : Req :=
  let h := push (push (push (push [] b!"Upgrade" b!"websocket") b!"Connection" b!"Upgrade") b!"Sec-WebSocket-Key" key) b!"Sec-WebSocket-Version" b!"13"
  let h := push h b!"host" host
  { headers := if offered.isEmpty then h else push h b!"Sec-WebSocket-Protocol" (join offered) }

/-- `on(response)` of the client, 1330-1375: `none` = the error event and a disconnect; else the negotiated subprotocol, empty if there is none, and the event `connected`. -/
def onResponse (c : Crypto) (key : Bytes) (offered : List Bytes) (r : Resp) : Option Bytes :=
  if !validate c r key then none
  else
    let selected := trim (header r.headers b!"Sec-WebSocket-Protocol")
    if !selected.isEmpty then
      let token := trim (selected.takeWhile (· != 44))
      if selected.contains 44 || offered.isEmpty then none
      else if !offered.any (· == token) then none
      else some token
    else some []

/-- `make_host_header_value`, 1123-1145. -/
def hostValue (scheme host port : Bytes) : Bytes :=
  let bracketed := decide (host.length ≥ 2) && host.head? == some c!"[" && host.getLast? == some c!"]"
  let h := if !bracketed && host.contains c!":" then c!"[" :: (host ++ [c!"]"]) else host
  if port.isEmpty then h
  else
    let ws := (scheme == b!"ws" || scheme == b!"http") && port == b!"80"
    let wss := (scheme == b!"wss" || scheme == b!"https") && port == b!"443"
    if !ws && !wss then h ++ c!":" :: port else h

/-- What a session does. -/
inductive Ev
  | wrote (r : Resp)
  | closeAfterDeliver
  | spawned

/-- The members of `coro_session` that matter, and what it did, newest first. -/
structure Sess where
  upgraded : Bool := false
  spawned : Bool := false
  log : List Ev := []

/-- The hook: its answer (`none` = it throws), and what it made of the request and the response. -/
abbrev Hook := Req → Resp → Option Bool × Req × Resp

/-- `accept_upgrade`, coro.h 722-756, with `spawn_run_loop`, 611-655, and the constructor of `ws_server`, ws.h 985-993. -/
def acceptUpgrade (c : Crypto) (hook : Option Hook) (s : Sess) (q : Req) (r : Resp) : Bool × Sess :=
  let (allowed, q, r) : Bool × Req × Resp := match hook with
    | none => (true, q, r)
    | some f => ((f q r).1.getD false, (f q r).2.1, (f q r).2.2)
  if !allowed then
    let r := if r.status == 0 then { r with status := 400 } else r
    (false, { s with log := .closeAfterDeliver :: .wrote r :: s.log })
  else match populate c q r with
    | none =>
      let r := { r with status := 400 }
      (false, { s with log := .closeAfterDeliver :: .wrote r :: s.log })
    | some r =>
      let s := { s with upgraded := true, log := .wrote r :: s.log }
      (true, if s.spawned then s else { s with spawned := true, log := .spawned :: s.log })

end Verif.Wsh
