import Verif.Hpack.CodecSpec
import Verif.Hpack.IntSpec
import Verif.Hpack.HuffSpec

/-! # Specification of HPACK header blocks (RFC 7541 section 6), independent of the decoder -/

namespace Verif.Hpack.Spec

/-- An integer representation within the implementation limits: at most 11 octets, a 64-bit value. -/
def IsInt64 (N : Nat) (bs : Bytes) (v : Nat) : Prop := IsInt N bs v ∧ bs.length ≤ 11 ∧ v < 2 ^ 64

/-- A string literal (section 5.2): a length with a 7-bit prefix, whose top bit tells whether the octets
that follow are Huffman coded. -/
inductive IsStr : Bytes → Bytes → Prop
  | raw {b u s} : b.toNat / 128 = 0 → IsInt64 7 (b :: u) s.length → IsStr (b :: u ++ s) s
  | huffman {b u data s} : b.toNat / 128 = 1 → IsInt64 7 (b :: u) data.length → IsHuffman data s →
      IsStr (b :: u ++ data) s

/-- The index address space (section 2.3.3): 1..61 static, then the dynamic table, newest first. -/
def entryAt (t : Table) (i : Nat) : Option Field :=
  if i = 0 then none else if i ≤ 61 then staticTable[i - 1]? else t.entries[i - 62]?

/-- The name of a literal: a string literal when the index is 0, otherwise the name of the entry. -/
inductive IsName (t : Table) : Nat → Bytes → Bytes → Prop
  | literal {nb n} : IsStr nb n → IsName t 0 nb n
  | indexed {i n v} : entryAt t i = some (n, v) → IsName t i [] n

/-- `Instr T t upd bs f t'`: the octets `bs` are one instruction which, with table `t` and table size
limit `T`, emits the field `f` (if any) and leaves the table `t'`; `upd` tells whether a table size
update is allowed here. -/
inductive Instr (T : Nat) (t : Table) : Bool → Bytes → Option HField → Table → Prop
  | indexed {upd b u i n v} : b.toNat / 128 = 1 → IsInt64 7 (b :: u) i → entryAt t i = some (n, v) →
      Instr T t upd (b :: u) (some ⟨n, v, false⟩) t
  | incremental {upd b u i nb n vb v} : b.toNat / 64 = 1 → IsInt64 6 (b :: u) i → IsName t i nb n →
      IsStr vb v → Instr T t upd (b :: u ++ (nb ++ vb)) (some ⟨n, v, false⟩) (t.step (.add n v)).1
  | plain {upd b u i nb n vb v} : b.toNat / 16 = 0 → IsInt64 4 (b :: u) i → IsName t i nb n →
      IsStr vb v → Instr T t upd (b :: u ++ (nb ++ vb)) (some ⟨n, v, false⟩) t
  | never {upd b u i nb n vb v} : b.toNat / 16 = 1 → IsInt64 4 (b :: u) i → IsName t i nb n →
      IsStr vb v → Instr T t upd (b :: u ++ (nb ++ vb)) (some ⟨n, v, true⟩) t
  | size {b u m} : b.toNat / 32 = 1 → IsInt64 5 (b :: u) m → m ≤ T →
      Instr T t true (b :: u) none (t.step (.setMax m)).1

/-- A header block: instructions one after the other; size updates only before the first field. -/
inductive IsBlock (T : Nat) : Table → Bool → Bytes → List HField → Table → Prop
  | nil {t upd} : IsBlock T t upd [] [] t
  | cons {t upd bs f t1 rest out t2} : Instr T t upd bs f t1 → IsBlock T t1 (upd && f.isNone) rest out t2 →
      IsBlock T t upd (bs ++ rest) (f.toList ++ out) t2

end Verif.Hpack.Spec

namespace Verif.Hpack.Spec

/-- A field name the encoder must take: non-empty visible ASCII, a colon only in pseudo-header names
(those that begin with one). -/
def GoodName (n : Bytes) : Prop :=
  n ≠ [] ∧ ∀ c ∈ n, 0x21 ≤ c.toNat ∧ c.toNat ≤ 0x7E ∧ (c = c!":" → n.head? = some c!":")

/-- A field value the encoder must take: tabs and printable ASCII. -/
def GoodValue (v : Bytes) : Prop := ∀ c ∈ v, c = 9 ∨ (0x20 ≤ c.toNat ∧ c.toNat ≤ 0x7E)

/-- One direction of a connection in which the receiving side lowers (or raises) its table limit by
SETTINGS at any time; only the encoder reacts, the decoder's table stays as it is. -/
inductive LimitEvent
  | block (hs : List HField)
  | peerLimit (m : Nat)

/-- What the decoder delivers for each block (`none` if either end failed), and the final states. -/
def limitSession (enc : Ring) (dec : Dec) : List LimitEvent → List (Option (List Field)) × Ring × Dec
  | [] => ([], enc, dec)
  | .block hs :: es =>
    let e := encodeBlock enc hs
    let d := decodeBlock dec e.2.1
    let r := limitSession e.2.2 d.2.2.2 es
    ((if e.1 && d.1 then some (plain d.2.2.1) else none) :: r.1, r.2)
  | .peerLimit m :: es => limitSession (encSetPeerMax enc m) dec es

/-- What should be delivered. -/
def limitExpected : List LimitEvent → List (Option (List Field))
  | [] => []
  | .block hs :: es => some (plain hs) :: limitExpected es
  | .peerLimit _ :: es => limitExpected es

/-- Valid header lists within the decoder's header list limit; 32-bit settings. -/
def LimitEvent.legal (limit : Nat) : LimitEvent → Prop
  | .block hs => (∀ f ∈ hs, GoodName f.name ∧ GoodValue f.value) ∧ listSize hs ≤ limit
  | .peerLimit m => m < 2 ^ 32

end Verif.Hpack.Spec
