import Verif.Hpack.HuffTable

/-! # Specification of HPACK Huffman coding (RFC 7541 section 5.2), given the code table -/

namespace Verif.Hpack.Spec

/-- The binary digits of `v`, most significant first, in `w` positions. -/
def binary (w v : Nat) : List Bool := (List.range w).map fun i => (v / 2 ^ (w - 1 - i)) % 2 == 1

/-- The code word of symbol `s` (256 is EOS). -/
def codeWord (s : Nat) : List Bool :=
  match huffTable[s]? with
  | some (code, bits) => binary bits code
  | none => []

/-- The code words of a byte string, one after the other. -/
def codeWords (s : Bytes) : List Bool := s.flatMap fun c => codeWord c.toNat

/-- The bits of a byte string, most significant bit of each byte first. -/
def octets (bs : Bytes) : List Bool := bs.flatMap fun b => binary 8 b.toNat

/-- `bs` is a Huffman encoding of `s`: the code words of `s`, padded to a byte boundary with at most
seven 1 bits. -/
def IsHuffman (bs s : Bytes) : Prop :=
  ∃ k, k ≤ 7 ∧ octets bs = codeWords s ++ List.replicate k true

end Verif.Hpack.Spec
