import Verif.Hdr.Model
import Verif.Utility.Spec

/-! # Specification of the header value properties -/

namespace Verif.Hdr
open Verif.Utility Verif.Utility.Spec

/-- A control character other than the tab. -/
def Ctl (c : UInt8) : Prop := (c.toNat < 32 ∨ c.toNat = 127) ∧ c ≠ 9

/-- The text without its blanks. -/
def noBlank (s : Bytes) : Bytes := s.filter (fun c => !(c == 32 || c == 9))

/-- A separator of attributes. -/
def Sep (c : UInt8) : Prop := c = c!";" ∨ c = c!","

/-- The text of a name: no `=`, no separator, no control character; at most 1024 characters that are not blank. -/
def NameText (t : Bytes) : Prop := (∀ c ∈ t, c ≠ c!"=" ∧ ¬ Sep c ∧ ¬ Ctl c) ∧ (noBlank t).length ≤ 1024

/-- What stands between two quotes `q`, and the value it means: a backslash takes the next character literally. -/
inductive Quoted (q : UInt8) : Bytes → Bytes → Prop
  | nil : Quoted q [] []
  | char {c b v} : c ≠ q → c ≠ c!"\\" → ¬ Ctl c → Quoted q b v → Quoted q (c :: b) (c :: v)
  | pair {c b v} : ¬ Ctl c → Quoted q b v → Quoted q (c!"\\" :: c :: b) (c :: v)

/-- One attribute and what it means: nothing, a name alone, or a name and a value, plain or quoted. -/
inductive Attr : Bytes → List (Bytes × Bytes) → Prop
  | empty {t} : NameText t → noBlank t = [] → Attr t []
  | bare {t} : NameText t → noBlank t ≠ [] → Attr t [(noBlank t, [])]
  | plain {n v w} : NameText n → noBlank n ≠ [] → (∀ c ∈ v, ¬ Sep c ∧ ¬ Ctl c) → IsTrim v w → (∀ c, w.head? = some c → c ≠ 39 ∧ c ≠ 34) →
      w.length ≤ 8192 → Attr (n ++ c!"=" :: v) [(noBlank n, w)]
  | quoted {n a q b v z} : NameText n → noBlank n ≠ [] → (∀ c ∈ a, Ows c) → (q = 39 ∨ q = 34) → Quoted q b v → v.length ≤ 8192 →
      (∀ c ∈ z, Ows c) → Attr (n ++ c!"=" :: (a ++ q :: (b ++ q :: z))) [(noBlank n, v)]

/-- A list of attributes separated by `;` or `,`. -/
inductive Attrs : Bytes → List (Bytes × Bytes) → Prop
  | last {s l} : Attr s l → Attrs s l
  | more {s l d t r} : Attr s l → Sep d → Attrs t r → Attrs (s ++ d :: t) (l ++ r)

/-- The value of the first attribute with a name, letters compared without case. -/
def First (l : List (Bytes × Bytes)) (k v : Bytes) : Prop :=
  ∃ a n b, l = a ++ (n, v) :: b ∧ n.map lower = k.map lower ∧ ∀ p ∈ a, p.1.map lower ≠ k.map lower

end Verif.Hdr
