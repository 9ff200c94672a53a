import Verif.Frm.Model

/-! What a form in a body means. -/

namespace Verif.Frm.Spec

open Verif.Utility.Spec (IsFields Unreserved)

/-- What is needed of the percent-encoding: decoding undoes encoding, an encoded string contains no separator, and unreserved characters stand for themselves. -/
structure CodecOk (c : Codec) : Prop where
  inv : ∀ s, c.dec (c.enc s) = s
  amp : ∀ s, c!"&" ∉ c.enc s
  eq : ∀ s, c!"=" ∉ c.enc s
  plain : ∀ s, (∀ x ∈ s, Unreserved x) → c.dec s = s

/-- The segment `s` between two `&` says that field `k` has the value `v`: what is before the first `=`, and what is after; without `=` the value is empty. -/
def Says (dec : Bytes → Bytes) (s k v : Bytes) : Prop :=
  (∃ a b, s = a ++ c!"=" :: b ∧ c!"=" ∉ a ∧ k = dec a ∧ v = dec b) ∨ (c!"=" ∉ s ∧ k = dec s ∧ v = [])

/-- Segment by segment. -/
inductive SayAll (dec : Bytes → Bytes) : List Bytes → List (Bytes × Bytes) → Prop
  | nil : SayAll dec [] []
  | cons {s k v ss kvs} : Says dec s k v → SayAll dec ss kvs → SayAll dec (s :: ss) ((k, v) :: kvs)

/-- The values of `k` in order. -/
def values (kvs : List (Bytes × Bytes)) (k : Bytes) : List Bytes := (kvs.filter fun e => e.1 = k).map (·.2)

end Verif.Frm.Spec
