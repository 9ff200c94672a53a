import Verif.Valid.Json

/-! What the sanitizers are for, without the sanitizers. -/

namespace Verif.Valid

/-- White space. -/
def White (c : Byte) : Prop := c ∈ ([32, 9, 10, 11, 12, 13] : List Byte)

instance (c : Byte) : Decidable (White c) := by unfold White; exact inferInstance

/-- An ASCII letter or digit. -/
def LetterOrDigit (c : Byte) : Prop := (65 ≤ c.toNat ∧ c.toNat ≤ 90) ∨ (97 ≤ c.toNat ∧ c.toNat ≤ 122) ∨ (48 ≤ c.toNat ∧ c.toNat ≤ 57)

/-- The words of a text, separated by white space: `cur` is the word so far. -/
def wordsFrom (cur : Bytes) : Bytes → List Bytes
  | [] => if cur = [] then [] else [cur]
  | c :: cs => if White c then (if cur = [] then [] else [cur]) ++ wordsFrom [] cs else wordsFrom (cur ++ [c]) cs

def words (s : Bytes) : List Bytes := wordsFrom [] s

/-- How a browser reads the five character references `&amp;`, `&lt;`, `&gt;`, `&quot;` and `&#39;`. -/
def unescape : Bytes → Bytes
  | [] => []
  | 38 :: 97 :: 109 :: 112 :: 59 :: cs => 38 :: unescape cs
  | 38 :: 108 :: 116 :: 59 :: cs => 60 :: unescape cs
  | 38 :: 103 :: 116 :: 59 :: cs => 62 :: unescape cs
  | 38 :: 113 :: 117 :: 111 :: 116 :: 59 :: cs => 34 :: unescape cs
  | 38 :: 35 :: 51 :: 57 :: 59 :: cs => 39 :: unescape cs
  | c :: cs => c :: unescape cs

/-- The body of a SQL string literal: the text it stands for; `none` if a quote ends the literal early. -/
def unquote : Bytes → Option Bytes
  | [] => some []
  | 39 :: 39 :: cs => (unquote cs).map (39 :: ·)
  | 39 :: _ => none
  | c :: cs => (unquote cs).map (c :: ·)

/-- `LIKE` with the backslash as escape character: the pattern matches the text. -/
inductive Like : Bytes → Bytes → Prop
  | nil : Like [] []
  | any (p s t : Bytes) : Like p t → Like (37 :: p) (s ++ t)
  | one (p : Bytes) (c : Byte) (t : Bytes) : Like p t → Like (95 :: p) (c :: t)
  | esc (p : Bytes) (c : Byte) (t : Bytes) : Like p t → Like (92 :: c :: p) (c :: t)
  | lit (p : Bytes) (c : Byte) (t : Bytes) : c ≠ 37 → c ≠ 95 → c ≠ 92 → Like p t → Like (c :: p) (c :: t)

/-- One step into a JSON value. -/
inductive Step where
  | key (k : Bytes)
  | at (i : Nat)
  deriving DecidableEq, Repr

/-- The value at a place. -/
def look : Json → List Step → Option Json
  | v, [] => some v
  | .obj m, .key k :: l => match get m k with
    | some x => look x l
    | none => none
  | .arr xs, .at i :: l => match xs[i]? with
    | some x => look x l
    | none => none
  | _, _ :: _ => none

/-- What is seen at one place: the value without what is inside it. -/
def surface : Json → Json
  | .arr xs => .arr (xs.map fun _ => .null)
  | .obj m => .obj (m.map fun p => (p.1, .null))
  | v => v

/-- A segment of a path names a step: a key; all the indices, `*`; or one index. -/
def Names (num : Bytes → Option Nat) (seg : Bytes) : Step → Prop
  | .key k => seg = k
  | .at i => seg = b!"*" ∨ (seg ≠ b!"*" ∧ num seg = some i)

/-- A path names a place. -/
def NamesAll (num : Bytes → Option Nat) : List Bytes → List Step → Prop
  | [], [] => True
  | seg :: segs, st :: sts => Names num seg st ∧ NamesAll num segs sts
  | _, _ => False

end Verif.Valid
