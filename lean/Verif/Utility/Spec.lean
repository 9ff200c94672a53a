import Verif.Base

/-! Independent specification vocabulary for the utility functions. Nothing here refers to the
model. -/

namespace Verif.Utility.Spec

/-- RFC 3986 unreserved characters. -/
def Unreserved (c : UInt8) : Prop :=
  c ∈ b!"ABCDEFGHIJKLMNOPQRSTUVWXYZabcdefghijklmnopqrstuvwxyz0123456789-._~"

/-- Strings made only of unreserved characters and `%XX` with upper-case hex digits. -/
inductive UriSafe : Bytes → Prop
  | nil : UriSafe []
  | plain {c s} : Unreserved c → UriSafe s → UriSafe (c :: s)
  | escape {h l s} : h ∈ b!"0123456789ABCDEF" → l ∈ b!"0123456789ABCDEF" → UriSafe s →
      UriSafe (c!"%" :: h :: l :: s)

/-- `HexVal c n`: `c` is a hex digit (either case) of value `n`. -/
def HexVal (c : UInt8) (n : Nat) : Prop :=
  n < 16 ∧ ((b!"0123456789abcdef")[n]? = some c ∨ (b!"0123456789ABCDEF")[n]? = some c)

/-- The string starts with a complete `%XX` escape. -/
def StartsEscape (s : Bytes) : Prop :=
  ∃ h l tl a b, s = c!"%" :: h :: l :: tl ∧ HexVal h a ∧ HexVal l b

/-- Percent-decoding, left to right: a complete escape becomes the byte of that value, any other
byte stands for itself. -/
inductive Decodes : Bytes → Bytes → Prop
  | nil : Decodes [] []
  | escape {h l s t a b} : HexVal h a → HexVal l b → Decodes s t →
      Decodes (c!"%" :: h :: l :: s) (UInt8.ofNat (16 * a + b) :: t)
  | plain {c s t} : ¬ StartsEscape (c :: s) → Decodes s t → Decodes (c :: s) (c :: t)

/-- ASCII lower-casing of one byte: `A`..`Z` only. -/
def lower (c : UInt8) : UInt8 := if 65 ≤ c.toNat ∧ c.toNat ≤ 90 then UInt8.ofNat (c.toNat + 32) else c

/-- Optional white space of HTTP lists. -/
def Ows (c : UInt8) : Prop := c = 32 ∨ c = 9

/-- `u` is `t` without leading and trailing optional white space. -/
def IsTrim (t u : Bytes) : Prop :=
  ∃ pre post, t = pre ++ u ++ post ∧ (∀ c ∈ pre, Ows c) ∧ (∀ c ∈ post, Ows c) ∧
    (∀ c, u.head? = some c → ¬ Ows c) ∧ (∀ c, u.getLast? = some c → ¬ Ows c)

/-- `fields` are the fields of `s` separated by the byte `d`. -/
def IsFields (d : UInt8) (s : Bytes) (fields : List Bytes) : Prop :=
  fields ≠ [] ∧ (∀ f ∈ fields, d ∉ f) ∧ s = [d].intercalate fields

/-- `fields` are the fields of `s` separated by single bytes satisfying `p`. -/
inductive IsFieldsP (p : UInt8 → Prop) : Bytes → List Bytes → Prop
  | last {s} : (∀ c ∈ s, ¬ p c) → IsFieldsP p s [s]
  | more {f d s fs} : (∀ c ∈ f, ¬ p c) → p d → IsFieldsP p s fs → IsFieldsP p (f ++ d :: s) (f :: fs)

/-- Left-to-right splitting of `s` at the non-overlapping occurrences of `b`. -/
inductive IsSplitBy (b : Bytes) : Bytes → List Bytes → Prop
  | last {s} : ¬ b <:+: s → IsSplitBy b s [s]
  | more {p s ps} : (∀ k, k < p.length → ¬ b <+: (p ++ b ++ s).drop k) → IsSplitBy b s ps →
      IsSplitBy b (p ++ b ++ s) (p :: ps)

/-- The five HTML entities used. -/
def entities : List Bytes := [b!"&amp;", b!"&quot;", b!"&#39;", b!"&lt;", b!"&gt;"]

/-- Text with no raw markup: `<`, `>`, `"`, `'` never occur and every `&` begins an entity. -/
inductive HtmlSafe : Bytes → Prop
  | nil : HtmlSafe []
  | plain {c s} : c ∉ b!"<>\"&" → c ≠ 39 → HtmlSafe s → HtmlSafe (c :: s)
  | entity {e s} : e ∈ entities → HtmlSafe s → HtmlSafe (e ++ s)

end Verif.Utility.Spec
