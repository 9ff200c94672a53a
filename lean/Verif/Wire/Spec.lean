import Verif.Utility.Spec

/-! Independent vocabulary for HTTP/1.1 messages (RFC 9112). Nothing here refers to the model. -/

namespace Verif.Wire.Spec
open Verif.Utility.Spec

def CRLF : Bytes := [13, 10]

/-- RFC 9110 token character. -/
def TChar (c : UInt8) : Prop :=
  c ∈ b!"!#$%&'*+-.^_`|~0123456789ABCDEFGHIJKLMNOPQRSTUVWXYZabcdefghijklmnopqrstuvwxyz"

/-- A field name. -/
def FieldName (n : Bytes) : Prop := n ≠ [] ∧ ∀ c ∈ n, TChar c

/-- A field value: visible characters, spaces, tabs and bytes above 0x7f. -/
def FieldValue (v : Bytes) : Prop := ∀ c ∈ v, c = 9 ∨ (32 ≤ c.toNat ∧ c.toNat ≠ 127)

/-- Equality up to ASCII case. -/
def SameName (a b : Bytes) : Prop := a.map lower = b.map lower

/-- One field line. -/
def fieldLine (f : Bytes × Bytes) : Bytes := f.1 ++ b!": " ++ f.2 ++ CRLF

/-- `out` is the start line, the field lines, an empty line and the rest. -/
def IsMessage (out start : Bytes) (fields : List (Bytes × Bytes)) (payload : Bytes) : Prop :=
  out = start ++ CRLF ++ fields.flatMap fieldLine ++ CRLF ++ payload ∧
  (∀ c ∈ start, c ≠ 13 ∧ c ≠ 10) ∧ ∀ f ∈ fields, FieldName f.1 ∧ FieldValue f.2

/-- Decimal digit of value `d`. -/
def DigitIs (c : UInt8) (d : Nat) : Prop := d < 10 ∧ c.toNat = 48 + d

/-- `Decimal s n`: the digits `s` (most significant first) write `n`. -/
inductive Decimal : Bytes → Nat → Prop
  | one {c d} : DigitIs c d → Decimal [c] d
  | snoc {s n c d} : Decimal s n → DigitIs c d → Decimal (s ++ [c]) (10 * n + d)

/-- `Hexadecimal s n`. -/
inductive Hexadecimal : Bytes → Nat → Prop
  | one {c d} : HexVal c d → Hexadecimal [c] d
  | snoc {s n c d} : Hexadecimal s n → HexVal c d → Hexadecimal (s ++ [c]) (16 * n + d)

/-- The chunked coding of a body, without extensions or trailer (RFC 9112, 7.1). -/
inductive Chunked : Bytes → Bytes → Prop
  | last {z} : Hexadecimal z 0 → Chunked (z ++ CRLF ++ CRLF) []
  | chunk {s data rest body} : Hexadecimal s data.length → data ≠ [] → Chunked rest body →
      Chunked (s ++ CRLF ++ data ++ CRLF ++ rest) (data ++ body)

/-- The element-wise relation of two lists. -/
inductive Pairs {α β} (R : α → β → Prop) : List α → List β → Prop
  | nil : Pairs R [] []
  | cons {a b l m} : R a b → Pairs R l m → Pairs R (a :: l) (b :: m)

/-- The non-empty, trimmed elements of a comma-separated value. -/
def Elements (v : Bytes) (ts : List Bytes) : Prop :=
  ∃ fields trimmed, IsFields c!"," v fields ∧ Pairs IsTrim fields trimmed ∧ ts = trimmed.filter (· ≠ [])

/-- The values of the fields called `name`, in order. -/
inductive ValuesOf (name : Bytes) : List (Bytes × Bytes) → List Bytes → Prop
  | nil : ValuesOf name [] []
  | hit {f fs vs} : SameName f.1 name → ValuesOf name fs vs → ValuesOf name (f :: fs) (f.2 :: vs)
  | miss {f fs vs} : ¬ SameName f.1 name → ValuesOf name fs vs → ValuesOf name (f :: fs) vs

/-- The fields declare the length `n`, once or several times in agreement. -/
def DeclaresLength (fields : List (Bytes × Bytes)) (n : Nat) : Prop :=
  ∃ vs, ValuesOf b!"Content-Length" fields vs ∧ vs ≠ [] ∧ ∀ v ∈ vs, ∃ u, IsTrim v u ∧ Decimal u n

/-- The fields declare the chunked coding and nothing else. -/
def DeclaresChunked (fields : List (Bytes × Bytes)) : Prop :=
  ∃ vs tss t, ValuesOf b!"Transfer-Encoding" fields vs ∧ Pairs Elements vs tss ∧ tss.flatten = [t] ∧
    SameName t b!"chunked"

def NoField (name : Bytes) (fields : List (Bytes × Bytes)) : Prop := ∀ f ∈ fields, ¬ SameName f.1 name

/-- A recipient that reads these fields takes exactly `payload` from the stream as the body `body`
(RFC 9112, 6.3), and finds no contradictory framing. -/
inductive Framed (fields : List (Bytes × Bytes)) : Bytes → Bytes → Prop
  | chunked {payload body} : DeclaresChunked fields → NoField b!"Content-Length" fields →
      Chunked payload body → Framed fields payload body
  | length {body} : NoField b!"Transfer-Encoding" fields → DeclaresLength fields body.length →
      Framed fields body body
  | none : NoField b!"Transfer-Encoding" fields → NoField b!"Content-Length" fields → Framed fields [] []

end Verif.Wire.Spec
