import Verif.Base

/-! # Specification of HPACK integers (RFC 7541 section 5.1), independent of the code -/

namespace Verif.Hpack.Spec

/-- The number denoted by continuation bytes: base 128, least significant digit first, the top bit of
each byte ignored. -/
def digits : Bytes → Nat
  | [] => 0
  | b :: bs => b.toNat % 128 + 128 * digits bs

/-- A well-formed continuation: every byte but the last has its top bit set, the last has not. -/
inductive Continuation : Bytes → Prop
  | last (b : Byte) (h : b.toNat < 128) : Continuation [b]
  | more (b : Byte) (bs : Bytes) (h : 128 ≤ b.toNat) (t : Continuation bs) : Continuation (b :: bs)

/-- `bs` is a representation, with an `N`-bit prefix, of the number `v`. -/
inductive IsInt (N : Nat) : Bytes → Nat → Prop
  | short (b : Byte) (h : b.toNat % 2 ^ N ≠ 2 ^ N - 1) : IsInt N [b] (b.toNat % 2 ^ N)
  | long (b : Byte) (bs : Bytes) (h : b.toNat % 2 ^ N = 2 ^ N - 1) (c : Continuation bs) :
      IsInt N (b :: bs) (2 ^ N - 1 + digits bs)

end Verif.Hpack.Spec
