import Verif.Wire.Spec

/-! What RFC 9114 asks of the fields of a message. Nothing here refers to the model. -/

namespace Verif.H3.Spec
open Verif.Utility.Spec Verif.Wire.Spec

/-- A pseudo header field. -/
def Pseudo (n : Bytes) : Prop := ∃ t, n = c!":" :: t

/-- A lower case token. -/
def LowerToken (n : Bytes) : Prop := n ≠ [] ∧ ∀ c ∈ n, c ∈ b!"!#$%&'*+-.^_`|~0123456789abcdefghijklmnopqrstuvwxyz"

/-- A value that may be sent. -/
def Value (v : Bytes) : Prop := FieldValue v ∧ v.length ≤ 8192

/-- A field that is not a pseudo header field. -/
def Regular (f : Bytes × Bytes) : Prop := LowerToken f.1 ∧ f.1.length ≤ 1024 ∧ Value f.2

/-- A field with a name that may be that of a pseudo header field. -/
def Incoming (f : Bytes × Bytes) : Prop := (LowerToken f.1 ∨ ∃ t, LowerToken t ∧ f.1 = c!":" :: t) ∧ f.1.length ≤ 1024 ∧ Value f.2

/-- The fields that concern a connection and not a message. -/
def connectionFields : List Bytes :=
  [b!"connection", b!"keep-alive", b!"proxy-connection", b!"proxy-authenticate", b!"proxy-authorization", b!"transfer-encoding", b!"upgrade"]

/-- A name that concerns a connection, in any case. -/
def ConnectionField (n : Bytes) : Prop := ∃ m ∈ connectionFields, SameName n m

/-- The values of a name, in order. -/
def values (fs : List (Bytes × Bytes)) (n : Bytes) : List Bytes := (fs.filter fun f => decide (f.1.map lower = n.map lower)).map (·.2)

/-- All content lengths say `n`. -/
def SaysLength (fs : List (Bytes × Bytes)) (n : Nat) : Prop := ∀ v ∈ values fs b!"content-length", Decimal v n ∧ n < 2 ^ 64

/-- All content lengths, if any, say the same. -/
def Agree (fs : List (Bytes × Bytes)) : Prop := ∃ n, SaysLength fs n

/-- The fields of a request: the four pseudo header fields in some order, then regular ones. -/
def RequestSection (fs : List (Bytes × Bytes)) (method scheme authority path : Bytes) (regular : List (Bytes × Bytes)) : Prop :=
  ∃ pseudo, fs = pseudo ++ regular ∧
    pseudo.Perm [(b!":method", method), (b!":scheme", scheme), (b!":authority", authority), (b!":path", path)] ∧
    method ≠ [] ∧ scheme ≠ [] ∧ authority ≠ [] ∧ path ≠ [] ∧
    (∀ f ∈ regular, Regular f ∧ ¬ ConnectionField f.1) ∧ (∀ f ∈ pseudo, Value f.2) ∧ fs.length ≤ 100

/-- The fields of a response. -/
def ResponseSection (fs : List (Bytes × Bytes)) (status : Nat) (regular : List (Bytes × Bytes)) : Prop :=
  ∃ v, fs = (b!":status", v) :: regular ∧ Decimal v status ∧ 100 ≤ status ∧ status ≤ 999 ∧ Value v ∧
    (∀ f ∈ regular, Regular f ∧ ¬ ConnectionField f.1) ∧ fs.length ≤ 100

/-- The fields of a trailer section. -/
def TrailerSection (fs : List (Bytes × Bytes)) : Prop :=
  (∀ f ∈ fs, Regular f ∧ ¬ ConnectionField f.1 ∧ ¬ SameName f.1 b!"content-length" ∧ ¬ SameName f.1 b!"trailer") ∧ fs.length ≤ 100

/-- A status without content. -/
def NoContent (status : Nat) : Prop := (100 ≤ status ∧ status < 200) ∨ status = 204 ∨ status = 304

/-- The pieces of a body are within the limit: together, or each of them if the request was a HEAD. -/
def Within (limit : Nat) (head : Bool) (ds : List Bytes) : Prop :=
  limit = 0 ∨ if head then ∀ d ∈ ds, d.length ≤ limit else ds.flatten.length ≤ limit

/-- A name is in one of the values of `Trailer`, in any case. -/
def Announced (trailer : List Bytes) (n : Bytes) : Prop := ∃ v ∈ trailer, ∃ ts, Elements v ts ∧ ∃ t ∈ ts, SameName t n

end Verif.H3.Spec
