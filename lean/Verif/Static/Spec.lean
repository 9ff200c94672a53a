import Verif.Static.Model

/-! Vocabulary of the static-file properties. -/

namespace Verif.Static
open Verif

/-- A file name: one path component that is neither empty, `.` nor `..`. -/
def IsName (c : Bytes) : Prop := c ≠ [] ∧ c ≠ b!"." ∧ c ≠ b!".." ∧ c!"/" ∉ c

/-- `p` is a physical path: from the root directory down, every component is a name in a real directory,
and none of them (the last one included) is a symbolic link. -/
inductive Phys (fs : FS) : List Bytes → Prop
  | root : fs.node [] = some .dir → Phys fs []
  | snoc (p : List Bytes) (c : Bytes) (n : Node) : Phys fs p → fs.node p = some .dir → IsName c →
      fs.node (p ++ [c]) = some n → (∀ t, n ≠ .link t) → Phys fs (p ++ [c])

/-- `p` is the directory `root` or something below it. -/
def Inside (root p : List Bytes) : Prop := ∃ rest, p = root ++ rest

/-- A byte-range request with number `n` written in decimal. -/
def Decimal (s : Bytes) (n : Nat) : Prop :=
  s ≠ [] ∧ (∀ c ∈ s, 48 ≤ c.toNat ∧ c.toNat ≤ 57) ∧ n = s.foldl (fun a c => 10 * a + (c.toNat - 48)) 0

/-- RFC 9110 section 14.1.2, a single `bytes` range over a representation of `total` octets: the first
octet selected and how many. Numbers up to `max` are considered. -/
inductive Selects (max : Nat) : Bytes → Nat → Nat → Nat → Prop
  | both (A B : Bytes) (a b total : Nat) : Decimal A a → Decimal B b → b ≤ max → a ≤ b → a < total →
      Selects max (b!"bytes=" ++ A ++ b!"-" ++ B) total a (min b (total - 1) - a + 1)
  | from (A : Bytes) (a total : Nat) : Decimal A a → a ≤ max → a < total →
      Selects max (b!"bytes=" ++ A ++ b!"-") total a (total - a)
  | suffix (B : Bytes) (n total : Nat) : Decimal B n → n ≤ max → 0 < n → 0 < total →
      Selects max (b!"bytes=-" ++ B) total (total - n) (min n total)

/-- The largest number the server reads in a `Range` field. -/
def MAXNUM : Nat := 9223372036854775807

/-- The canonical decimal numeral of `n`. -/
def Numeral (s : Bytes) (n : Nat) : Prop := Decimal s n ∧ (s.head? = some c!"0" → s = b!"0")

/-- RFC 9110 section 8.8.3, an entity tag: weak or not, and the opaque part between the quotes. -/
structure ETag where
  weak : Bool
  opaq : Bytes

/-- How an entity tag is written. -/
def ETag.text (t : ETag) : Bytes := (if t.weak then b!"W/" else []) ++ b!"\"" ++ t.opaq ++ b!"\""

/-- A list of entity tags as an `If-None-Match` field writes it: elements with optional white space around
them, separated by commas; empty elements are allowed. -/
inductive TagList : Bytes → List ETag → Prop
  | last (u v : Bytes) (t : ETag) : (∀ c ∈ u ++ v, c = c!" " ∨ c = 9) → TagList (u ++ t.text ++ v) [t]
  | blank (u : Bytes) : (∀ c ∈ u, c = c!" " ∨ c = 9) → TagList u []
  | cons (u v rest : Bytes) (t : ETag) (l : List ETag) : (∀ c ∈ u ++ v, c = c!" " ∨ c = 9) →
      TagList rest l → TagList (u ++ t.text ++ v ++ b!"," ++ rest) (t :: l)
  | skip (u rest : Bytes) (l : List ETag) : (∀ c ∈ u, c = c!" " ∨ c = 9) → TagList rest l →
      TagList (u ++ b!"," ++ rest) l

/-- The messages of refusals. -/
def refusals : List (Nat × Bytes) :=
  [(403, b!"Forbidden"), (403, b!"Symlinks are not served"), (500, b!"Error accessing file system."),
   (404, b!"File not found"), (403, b!"Directory listing not allowed."),
   (404, b!"Requested resource is not a regular file."), (500, b!"Could not open file"),
   (413, b!"File exceeds configured max_file_size")]

/-- The configuration under which containment holds: the root is a real directory; the index file name, if
used, is a plain name, and no directory under the root has a symbolic link of that name. -/
structure Config (fs : FS) (o : Options) : Prop where
  root : Phys fs o.root
  dir : fs.node o.root = some .dir
  index : o.serveIndex = true → o.indexName ≠ [] → IsName o.indexName ∧
    ∀ d t, Inside o.root d → fs.node (d ++ [o.indexName]) ≠ some (.link t)

end Verif.Static
