import Verif.Wsh.Model

/-! What a valid WebSocket handshake is, RFC 6455 sections 4.1 and 4.2. -/

namespace Verif.Wsh

open Verif.Parse (header)

/-- ASCII lower case. -/
def low (c : Byte) : Byte := if 65 ≤ c.toNat ∧ c.toNat ≤ 90 then UInt8.ofNat (c.toNat + 32) else c

/-- Only spaces and tabs. -/
def Blank (l : Bytes) : Prop := ∀ c ∈ l, c = 32 ∨ c = 9

/-- The value is `x`, with blanks around it. -/
def Is (value x : Bytes) : Prop := ∃ a b, value = a ++ x ++ b ∧ Blank a ∧ Blank b

/-- An element of a comma-separated list is `x` (in lower case). -/
def ListHas (value x : Bytes) : Prop :=
  ∃ a y b, value = a ++ y ++ b ∧ (a = [] ∨ a.getLast? = some c!",") ∧ (b = [] ∨ b.head? = some c!",") ∧ ∃ z, Is y z ∧ z.map low = x

/-- A token, RFC 7230 section 3.2.6. -/
def Token (t : Bytes) : Prop := t ≠ [] ∧ ∀ c ∈ t, 33 ≤ c.toNat ∧ c.toNat ≤ 126 ∧ c ∉ b!"\"(),/:;<=>?@[\\]{}"

/-- What is assumed of the cryptographic library: base64 can be decoded, 16 octets make 24 characters, and there are no blanks in it. -/
structure Lawful (c : Crypto) : Prop where
  dec : ∀ x, c.dec (c.enc x) = some x
  len : ∀ x : Bytes, x.length = 16 → (c.enc x).length = 24
  ink : ∀ x, ∀ ch ∈ c.enc x, ch ≠ 32 ∧ ch ≠ 9
  some_ : ∀ x, x ≠ [] → c.enc x ≠ []
  sha1 : ∀ x, c.sha1 x ≠ []

/-- The answer to a key. -/
def answer (c : Crypto) (key : Bytes) : Bytes := c.enc (c.sha1 (key ++ b!"258EAFA5-E914-47DA-95CA-C5AB0DC85B11"))

/-- A valid upgrade request with the key `key`. -/
def ValidRequest (c : Crypto) (q : Req) (key : Bytes) : Prop :=
  q.get = true ∧ q.upgrade = true ∧ (header q.headers b!"Upgrade").map low = b!"websocket" ∧ ListHas (header q.headers b!"Connection") b!"upgrade" ∧
  Is (header q.headers b!"Sec-WebSocket-Key") key ∧ (∃ nonce, nonce.length = 16 ∧ key = c.enc nonce) ∧ Is (header q.headers b!"Sec-WebSocket-Version") b!"13"

/-- A valid response to the key `key`. -/
def ValidResponse (c : Crypto) (r : Resp) (key : Bytes) : Prop :=
  r.upgrade = true ∧ r.status = 101 ∧ (header r.headers b!"Upgrade").map low = b!"websocket" ∧ ListHas (header r.headers b!"Connection") b!"upgrade" ∧
  Is (header r.headers b!"Sec-WebSocket-Accept") (answer c key)

end Verif.Wsh
