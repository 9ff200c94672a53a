import Verif.Base
import Verif.Utility.Spec

/-! Independent specification of route patterns and matching. -/

namespace Verif.Router.Spec
open Verif.Utility.Spec

/-- The segments of a path: its `/`-separated fields without the empty ones. -/
def IsSegments (path : Bytes) (segs : List Bytes) : Prop :=
  ∃ fields, IsFields c!"/" path fields ∧ segs = fields.filter (· ≠ [])

/-- One element of a route pattern. -/
inductive Seg where
  | lit (s : Bytes)
  | par (name : Bytes)
  | wild (name : Bytes)
  deriving DecidableEq

/-- `:name` and `*name` are captures, anything else is a literal. -/
inductive IsSeg : Bytes → Seg → Prop
  | wild {name} : name ≠ [] → IsSeg (c!"*" :: name) (.wild name)
  | par {name} : name ≠ [] → IsSeg (c!":" :: name) (.par name)
  | lit {c s} : c ≠ c!"*" → c ≠ c!":" → IsSeg (c :: s) (.lit (c :: s))

/-- A pattern segment for each string segment, in order. -/
inductive AreSegs : List Bytes → List Seg → Prop
  | nil : AreSegs [] []
  | cons {s p ss ps} : IsSeg s p → AreSegs ss ps → AreSegs (s :: ss) (p :: ps)

/-- The name a segment captures. -/
def Seg.name : Seg → Option Bytes
  | .lit _ => none
  | .par n => some n
  | .wild n => some n

/-- A pattern string denotes a list of segments: wildcard only at the end, capture names distinct. -/
def IsPattern (str : Bytes) (pat : List Seg) : Prop :=
  (∃ segs, IsSegments str segs ∧ AreSegs segs pat) ∧
  (∀ n, Seg.wild n ∈ pat.dropLast → False) ∧ (pat.filterMap Seg.name).Nodup

/-- Literal and parameter segments match one path segment each. -/
inductive PointMatch : List Seg → List Bytes → List (Bytes × Bytes) → Prop
  | nil : PointMatch [] [] []
  | lit {s ps ss bs} : PointMatch ps ss bs → PointMatch (.lit s :: ps) (s :: ss) bs
  | par {n s ps ss bs} : PointMatch ps ss bs → PointMatch (.par n :: ps) (s :: ss) ((n, s) :: bs)

/-- `rem` is the part of `path` after its first segments `before`, without surrounding slashes. -/
def Remainder (path : Bytes) (before : List Bytes) (rem : Bytes) : Prop :=
  ∃ pre post, path = pre ++ rem ++ post ∧ IsSegments pre before ∧ (∀ c ∈ post, c = c!"/") ∧
    (pre = [] ∨ pre.getLast? = some c!"/") ∧
    (∃ c, rem.head? = some c ∧ c ≠ c!"/") ∧ (∃ c, rem.getLast? = some c ∧ c ≠ c!"/")

/-- A pattern matches a path with the given bindings. -/
inductive PatMatch (path : Bytes) : List Seg → List (Bytes × Bytes) → Prop
  /-- no wildcard: the segments match one by one -/
  | exact {pat segs bs} : IsSegments path segs → PointMatch pat segs bs → PatMatch path pat bs
  /-- a final wildcard with nothing left captures the empty string -/
  | wildEmpty {pat segs bs n} : IsSegments path segs → PointMatch pat segs bs →
      PatMatch path (pat ++ [.wild n]) (bs ++ [(n, [])])
  /-- a final wildcard captures the rest of the path -/
  | wildRest {pat before after bs n rem} : IsSegments path (before ++ after) → after ≠ [] →
      PointMatch pat before bs → Remainder path before rem →
      PatMatch path (pat ++ [.wild n]) (bs ++ [(n, rem)])

/-- Priority of a segment: literal before parameter before wildcard. -/
def Seg.kind : Seg → Nat
  | .lit _ => 0
  | .par _ => 1
  | .wild _ => 2

/-- Lexicographic "comes no later in priority order" (a pattern that ends here comes first). -/
inductive Prefer : List Seg → List Seg → Prop
  | nil {q} : Prefer [] q
  | lt {a b p q} : a.kind < b.kind → Prefer (a :: p) (b :: q)
  | eq {a b p q} : a.kind = b.kind → Prefer p q → Prefer (a :: p) (b :: q)

/-- `Latest calls pattern method handler pat m h`: among the (accepted) registrations, in call
order, the last one whose pattern string denotes `pat` and whose method is `m` has handler `h`. -/
def Latest {R H : Type} (pattern : R → Bytes) (method : R → Int) (handler : R → H)
    (calls : List R) (pat : List Seg) (m : Int) (h : H) : Prop :=
  ∃ l1 r l2, calls = l1 ++ r :: l2 ∧ IsPattern (pattern r) pat ∧ method r = m ∧ handler r = h ∧
    ∀ r' ∈ l2, IsPattern (pattern r') pat → method r' ≠ m

/-- Two patterns clash: after a common prefix they name the same capture position differently. -/
def Clash (p q : List Seg) : Prop :=
  ∃ c p' q' x y, x ≠ y ∧
    ((p = c ++ .par x :: p' ∧ q = c ++ .par y :: q') ∨ (p = c ++ .wild x :: p' ∧ q = c ++ .wild y :: q'))

end Verif.Router.Spec
