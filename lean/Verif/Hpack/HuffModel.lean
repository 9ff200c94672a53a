import Verif.Hpack.HuffTable

/-! # Huffman coding — model of `2/protocol/hpack_huffman.cpp` -/

namespace Verif.Hpack

/-- The bits `(v >> (w-1)) & 1, …, (v >> 0) & 1`, the order in which the code reads a code word
(hpack_huffman.cpp 26-27) and an input byte (101-102). -/
def bitsOf : Nat → Nat → List Bool
  | 0, _ => []
  | w + 1, v => v.testBit w :: bitsOf w v

/-- `HUFFMAN_TABLE[c]` as `(code, bits)`. -/
def huffEntry (c : Nat) : Nat × Nat := huffTable.getD c (0, 0)

/-- `HuffmanDecodeNode` (hpack_huffman.h 94-105): `nil` is a null pointer; `is_leaf`/`symbol` are one
optional symbol; then the `left` and `right` children. -/
inductive HTree
  | nil
  | node (sym : Option Nat) (left right : HTree)

/-- Insertion of one code word in `build_decode_tree` (hpack_huffman.cpp 22-44): create the missing
nodes along the path, mark the last one. -/
def HTree.insert (sym : Nat) : List Bool → HTree → HTree
  | [], .nil => .node (some sym) .nil .nil
  | [], .node _ l r => .node (some sym) l r
  | true :: p, .nil => .node none .nil (insert sym p .nil)
  | true :: p, .node s l r => .node s l (insert sym p r)
  | false :: p, .nil => .node none (insert sym p .nil) .nil
  | false :: p, .node s l r => .node s (insert sym p l) r

/-- The loop of `build_decode_tree` over a suffix of the table whose first symbol is `i`. -/
def buildFrom : Nat → List (Nat × Nat) → HTree → HTree
  | _, [], t => t
  | i, (code, bits) :: es, t => buildFrom (i + 1) es (t.insert i (bitsOf bits code))

/-- `build_decode_tree()` (hpack_huffman.cpp 18-47). -/
def decodeTree : HTree := buildFrom 0 huffTable (.node none .nil .nil)

/-- Following one bit from a node (hpack_huffman.cpp 104); a null pointer stays null. -/
def HTree.child : HTree → Bool → HTree
  | .nil, _ => .nil
  | .node _ l r, b => if b then r else l

/-- Loop state of `huffman_decode` (hpack_huffman.cpp 93-96): current node, `bits_since_leaf`, output. -/
structure HState where
  node : HTree
  since : Nat
  out : Bytes

/-- One bit of `huffman_decode` (hpack_huffman.cpp 102-118). -/
def huffStep (st : HState) (bit : Bool) : Option HState :=
  match st.node.child bit with
  | .nil => none
  | .node (some s) _ _ =>
    if s = 256 then none else some ⟨decodeTree, 0, st.out ++ [UInt8.ofNat s]⟩
  | .node none l r => some ⟨.node none l r, st.since + 1, st.out⟩

/-- The bit loop over a list of bits. -/
def huffRun : HState → List Bool → Option HState
  | st, [] => some st
  | st, b :: bs =>
    match huffStep st b with
    | none => none
    | some st' => huffRun st' bs

/-- The final walk to the right (hpack_huffman.cpp 132-134); the symbol of the leaf reached, if any. -/
def HTree.rightLeaf : HTree → Option Nat
  | .nil => none
  | .node (some s) _ _ => some s
  | .node none _ r => r.rightLeaf

/-- All the bits of a byte string in the order of the two nested loops (hpack_huffman.cpp 98-102). -/
def bytesBits (bs : Bytes) : List Bool := bs.flatMap fun b => bitsOf 8 b.toNat

/-- `huffman_decode(input_data, input_len, output_str)` (hpack_huffman.cpp 86-142); `none` is `false`.
`current_node != decode_tree.get()` (123) is modelled as `since ≠ 0`: the pointer is the root exactly
at the start and after a leaf, which is when the counter is 0. -/
def huffDecode (input : Bytes) : Option Bytes :=
  match huffRun ⟨decodeTree, 0, []⟩ (bytesBits input) with
  | none => none
  | some st =>
    if st.since ≠ 0 then
      if st.since > 7 then none
      else if st.node.rightLeaf = some 256 then some st.out else none
    else some st.out

/-- The `while (bits_in_buffer >= 8)` loop of `huffman_encode` (hpack_huffman.cpp 69-73): emitted bytes
and the remaining `(bit_buffer, bits_in_buffer)`. -/
def huffFlush (buf n : Nat) : Bytes × Nat × Nat :=
  if h : n ≥ 8 then
    let n' := n - 8
    let r := huffFlush (buf &&& (2 ^ n' - 1)) n'
    (UInt8.ofNat (buf >>> n') :: r.1, r.2)
  else ([], buf, n)
termination_by n

/-- `huffman_encode(input, output)` from a loop state (hpack_huffman.cpp 63-81); `size_t` shift modulo
`2^64`. The result is the bytes appended to `output`. -/
def huffEncodeFrom (buf n : Nat) : Bytes → Bytes
  | [] =>
    if n > 0 then
      [UInt8.ofNat (((buf <<< (8 - n)) % 2 ^ 64) ||| (2 ^ (8 - n) - 1))]
    else []
  | c :: cs =>
    let e := huffEntry c.toNat
    let r := huffFlush (((buf <<< e.2) % 2 ^ 64) ||| e.1) (n + e.2)
    r.1 ++ huffEncodeFrom r.2.1 r.2.2 cs

/-- `huffman_encode(input, output)` (hpack_huffman.cpp 58-84); it always returns true. -/
def huffEncode (input : Bytes) : Bytes := huffEncodeFrom 0 0 input

/-- Sum of code lengths (hpack_huffman.cpp 51-54, 146-149). -/
def huffBits (input : Bytes) : Nat := (input.map fun c => (huffEntry c.toNat).2).sum

/-- `should_use_huffman(input)` (hpack_huffman.cpp 49-56). -/
def shouldUseHuffman (input : Bytes) : Bool := (huffBits input + 7) / 8 < input.length

/-- `calculate_huffman_encoded_size(input)` (hpack_huffman.cpp 144-151). -/
def huffEncodedSize (input : Bytes) : Nat := (huffBits input + 7) / 8

end Verif.Hpack
