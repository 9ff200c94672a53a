import Verif.Utility.Spec

/-! Independent vocabulary for cookies (RFC 6265). Nothing here refers to the model. -/

namespace Verif.Cookie.Spec
open Verif.Utility.Spec

/-- RFC 9110 token character. -/
def TChar (c : UInt8) : Prop :=
  c ∈ b!"!#$%&'*+-.^_`|~0123456789ABCDEFGHIJKLMNOPQRSTUVWXYZabcdefghijklmnopqrstuvwxyz"

/-- A control character. -/
def Ctl (c : UInt8) : Prop := c.toNat < 32 ∨ c.toNat = 127

/-- Text that can stand in a Set-Cookie header without ending its field or the header. -/
def Clean (s : Bytes) : Prop := ∀ c ∈ s, c ≠ c!";" ∧ ¬ Ctl c

/-- An attribute that is present only if its value is. -/
def optAttr (label : Bytes) : Option Bytes → List Bytes
  | some t => [label ++ t]
  | none => []

/-- The attributes of a Set-Cookie header, given the texts of the date and of the number. -/
def attributes (expires maxAge : Option Bytes) (domain path : Bytes) (secure httpOnly : Bool)
    (sameSite : Option Bytes) : List Bytes :=
  optAttr b!"Expires=" expires ++
  optAttr b!"Max-Age=" maxAge ++
  (if domain = [] then [] else [b!"Domain=" ++ domain]) ++
  (if path = [] then [] else [b!"Path=" ++ path]) ++
  (if secure = true then [b!"Secure"] else []) ++
  (if httpOnly = true then [b!"HttpOnly"] else []) ++
  optAttr b!"SameSite=" sameSite

/-- Text that trimming and unquoting leave alone. -/
def Plain (s : Bytes) : Prop :=
  (∀ c, s.head? = some c → ¬ Ows c) ∧ (∀ c, s.getLast? = some c → ¬ Ows c) ∧
  ¬ (2 ≤ s.length ∧ s.head? = some c!"\"" ∧ s.getLast? = some c!"\"")

/-- Equality up to ASCII case. -/
def SameName (a b : Bytes) : Prop := a.map lower = b.map lower

/-- `u` is `t` without its surrounding double quotes, if it has both. -/
def IsUnquote (t u : Bytes) : Prop :=
  t = [c!"\""] ++ u ++ [c!"\""] ∨ (u = t ∧ ∀ w, t ≠ [c!"\""] ++ w ++ [c!"\""])

/-- The text `seg` between two semicolons is an attribute with this name and value. -/
def IsAttr (seg name value : Bytes) : Prop :=
  ∃ u, IsTrim seg u ∧ u ≠ [] ∧
    ((c!"=" ∉ u ∧ name = u ∧ value = []) ∨
     ∃ a b v, u = a ++ [c!"="] ++ b ∧ c!"=" ∉ a ∧ IsTrim a name ∧ IsTrim b v ∧ IsUnquote v value)

/-- `x` is the value `P` gives for the last element that has one, `dflt` if none has. -/
def LastOf {α} (P : Bytes → α → Prop) (segs : List Bytes) (dflt x : α) : Prop :=
  (x = dflt ∧ ∀ s ∈ segs, ∀ y, ¬ P s y) ∨
  ∃ l s r, segs = l ++ s :: r ∧ P s x ∧ ∀ t ∈ r, ∀ y, ¬ P t y

/-- The segment is an attribute called `label` (up to case) with this value. -/
def Named (label : Bytes) (seg value : Bytes) : Prop := ∃ n, IsAttr seg n value ∧ SameName n label

/-- A cookie name of a `Cookie` request header. -/
def CookieName (n : Bytes) : Prop :=
  n ≠ [] ∧ n.length ≤ 1024 ∧ n.head? ≠ some c!"$" ∧
  ∀ c ∈ n, c ≠ c!"=" ∧ c ≠ c!";" ∧ ¬ Ows c ∧ ¬ Ctl c

/-- An unquoted cookie value of a `Cookie` request header. -/
def CookieValue (v : Bytes) : Prop :=
  v.length ≤ 4096 ∧ (∀ c ∈ v, c ≠ c!";" ∧ ¬ Ctl c) ∧
  ∀ c, v.head? = some c → ¬ Ows c ∧ c ≠ c!"\"" ∧ c ≠ 39

/-- `r` is the value of the first pair whose name is `k` up to case. -/
def FirstOf (ps : List (Bytes × Bytes)) (k : Bytes) (r : Option Bytes) : Prop :=
  (r = none ∧ ∀ p ∈ ps, ¬ SameName p.1 k) ∨
  ∃ l p t, ps = l ++ p :: t ∧ SameName p.1 k ∧ r = some p.2 ∧ ∀ q ∈ l, ¬ SameName q.1 k

/-- The body of a quoted string: quotes and backslashes are preceded by a backslash. -/
def escape (q : UInt8) : Bytes → Bytes
  | [] => []
  | c :: t => if c = q ∨ c = c!"\\" then c!"\\" :: c :: escape q t else c :: escape q t

/-- `text` writes the cookie value `v`: as it is, or between double or single quotes. -/
inductive CookieText : Bytes → Bytes → Prop
  | plain {v} : CookieValue v → CookieText v v
  | quoted {q v} : q = c!"\"" ∨ q = 39 → v.length ≤ 4096 → (∀ c ∈ v, ¬ Ctl c) →
      CookieText v ([q] ++ escape q v ++ [q])

/-- The Set-Cookie value `v` is for the cookie `name`. -/
def SetFor (v name : Bytes) : Prop := ∃ a b, v = a ++ [c!"="] ++ b ∧ c!"=" ∉ a ∧ SameName a name

/-- `n1=t1; n2=t2; ...` of a list of (name, value, text). -/
def render (ps : List (Bytes × Bytes × Bytes)) : Bytes :=
  b!"; ".intercalate (ps.map fun p => p.1 ++ [c!"="] ++ p.2.2)

/-- The names and values of such a list. -/
def namesValues (ps : List (Bytes × Bytes × Bytes)) : List (Bytes × Bytes) := ps.map fun p => (p.1, p.2.1)

end Verif.Cookie.Spec
