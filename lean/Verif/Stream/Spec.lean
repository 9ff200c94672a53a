import Verif.Base
import Verif.Utility.Spec

/-! Independent specification vocabulary for HTTP/2 streams and header validation. Nothing here
refers to the model's functions. -/

namespace Verif.Stream.Spec

/-- Decimal value of a digit string. -/
def decimal (ds : Bytes) : Nat := ds.foldl (fun n c => 10 * n + (c.toNat - 48)) 0

/-- ASCII digit. -/
def Digit (c : UInt8) : Prop := 48 ≤ c.toNat ∧ c.toNat ≤ 57

/-- `value` is a Content-Length field value denoting `n`: optional white space around at least one
digit, of decimal value `n`. -/
def DenotesLength (value : Bytes) (n : Nat) : Prop :=
  ∃ pre ds post, value = pre ++ ds ++ post ∧ (∀ c ∈ pre, Utility.Spec.Ows c) ∧
    (∀ c ∈ post, Utility.Spec.Ows c) ∧ ds ≠ [] ∧ (∀ c ∈ ds, Digit c) ∧ decimal ds = n

/-- A pseudo header's name begins with `:`. -/
def Pseudo (name : Bytes) : Prop := ∃ t, name = c!":" :: t

/-- Exactly one field of the list is named `n`, and its value satisfies `p`. -/
def ExactlyOnce (n : Bytes) (p : Bytes → Prop) (hs : List (Bytes × Bytes)) : Prop :=
  ∃ v, p v ∧ hs.filter (fun h => h.1 == n) = [(n, v)]

/-- The lower-case token characters allowed in an HTTP/2 field name. -/
def nameAlphabet : Bytes := b!"abcdefghijklmnopqrstuvwxyz0123456789!#$%&'*+-.^_`|~"

/-- Legal field-value octets: visible ASCII, space, tab, and everything from 0x80 up. -/
def FieldValueByte (c : UInt8) : Prop := c = 9 ∨ (32 ≤ c.toNat ∧ c.toNat ≠ 127)

/-- Events on an HTTP/2 stream once it is open. -/
inductive Event
  /-- we sent / received a frame; `fin` = it carried END_STREAM -/
  | sent (fin : Bool) | received (fin : Bool)
  /-- RST_STREAM sent / received -/
  | rstSent (code : UInt32) | rstReceived (code : UInt32)

/-- Something in the history ended our side. -/
def WeEnded (es : List Event) : Prop := Event.sent true ∈ es
/-- Something in the history ended the peer's side. -/
def PeerEnded (es : List Event) : Prop := Event.received true ∈ es
/-- A reset happened. -/
def WasReset (es : List Event) : Prop := ∃ c, Event.rstSent c ∈ es ∨ Event.rstReceived c ∈ es

/-- RFC 9113 §7: the error codes this library treats as fatal to the whole connection. Everything
else (NO_ERROR 0, STREAM_CLOSED 5, REFUSED_STREAM 7, CANCEL 8 and unknown codes) concerns the stream. -/
inductive ConnectionError : UInt32 → Prop
  | protocolError : ConnectionError 0x1
  | internalError : ConnectionError 0x2
  | flowControlError : ConnectionError 0x3
  | settingsTimeout : ConnectionError 0x4
  | frameSizeError : ConnectionError 0x6
  | compressionError : ConnectionError 0x9
  | connectError : ConnectionError 0xa
  | enhanceYourCalm : ConnectionError 0xb
  | inadequateSecurity : ConnectionError 0xc
  | http11Required : ConnectionError 0xd

end Verif.Stream.Spec
