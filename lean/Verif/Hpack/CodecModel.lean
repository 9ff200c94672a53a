import Verif.Hpack.IntModel
import Verif.Hpack.HuffModel
import Verif.Hpack.TableModel
import Verif.Hpack.StaticTable

/-! # HPACK encoder and decoder — model of `2/protocol/hpack.h`, `hpack.cpp`

Statistics counters (`_stats`) are not modelled: nothing reads them back. -/

namespace Verif.Hpack

/-- `HeaderField` (hpack.h 432-485). -/
structure HField where
  name : Bytes
  value : Bytes
  sensitive : Bool := false

/-- `hpack_size()` (hpack.h 457-460). -/
def HField.size (f : HField) : Nat := f.name.length + f.value.length + entryOverhead

/-- `is_pseudo_header()` (hpack.h 466-469). -/
def HField.isPseudo (f : HField) : Bool := f.name.head? == some c!":"

/-- `is_sensitive_by_default()` (hpack.h 480-484). -/
def HField.sensitiveByDefault (f : HField) : Bool :=
  f.name == b!"authorization" || f.name == b!"cookie" || f.name == b!"proxy-authorization" ||
  b!"set-cookie".isPrefixOf f.name

/-- The loop body of `is_valid_header_name` (hpack.h 601-608) for one character; `char` is signed (as on
the x86-64 ABI), so octets `≥ 0x80` compare below `0x21`. -/
def nameCharOk (first : Option Byte) (c : Byte) : Bool :=
  if c.toNat ≥ 0x80 || c.toNat < 0x21 || c.toNat > 0x7E || c == c!":" || c == c!" " || c == 9 then
    c == c!":" && first == some c!":"
  else true

/-- `is_valid_header_name` (hpack.h 596-610). -/
def validName (n : Bytes) : Bool := !n.isEmpty && n.all (nameCharOk n.head?)

/-- `is_valid_header_value` (hpack.h 617-626), signed `char`. -/
def validValue (v : Bytes) : Bool :=
  v.all fun c => !((c.toNat ≥ 0x80 || c.toNat < 0x20) && c != 9) && c != 0x7F

/-- `is_valid_header_field` (hpack.h 633-636). -/
def HField.valid (f : HField) : Bool := validName f.name && validValue f.value

/-! ## Encoder -/

/-- `Encoder::encode_string_literal(buffer, str, huffman_allowed)` (hpack.cpp 392-411): bytes appended. -/
def encodeStr (s : Bytes) (huffAllowed : Bool) : Bytes :=
  if huffAllowed && shouldUseHuffman s then
    encodeInt 0x80 7 (huffEncode s).length ++ huffEncode s
  else encodeInt 0x00 7 s.length ++ s

/-- The scan of the dynamic table (hpack.cpp 441-452) from index `i`, `acc` being `dynamic_name_idx`:
final `dynamic_name_idx`, and the index of a full match if one was emitted. -/
def dynScan (r : Ring) (name value : Bytes) : Nat → Nat → Option Nat → Option Nat × Option Nat
  | 0, _, acc => (acc, none)
  | f + 1, i, acc =>
    if (r.get i).name = name then
      if (r.get i).value = value then (some (61 + i + 1), some (61 + i + 1))
      else dynScan r name value f (i + 1) (some (61 + i + 1))
    else dynScan r name value f (i + 1) acc

/-- The three-way choice `dynamic_name_idx` / `static_name_idx` / literal name shared by the literal
representations (hpack.cpp 464-472, 475-483, 487-495), with pattern `flags` and prefix `N`. -/
def encodeLiteral (flags : Byte) (N : Nat) (f : HField) (dynIdx statIdx : Option Nat) : Bytes :=
  (match dynIdx with
    | some i => encodeInt flags N i
    | none => match statIdx with
      | some i => encodeInt flags N i
      | none => encodeInt flags N 0 ++ encodeStr f.name (!f.isPseudo))
  ++ encodeStr f.value true

/-- One iteration of `Encoder::encode` for a field that passed validation (hpack.cpp 427-496): the bytes
appended and the new dynamic table. -/
def encodeField (r : Ring) (f : HField) : Bytes × Ring :=
  match findExact f.name f.value with
  | some i => (encodeInt 0x80 7 i, r)
  | none =>
    match dynScan r f.name f.value r.count 0 none with
    | (_, some i) => (encodeInt 0x80 7 i, r)
    | (dynIdx, none) =>
      let statIdx := findName f.name
      let sens := f.sensitive || f.sensitiveByDefault
      if sens || f.isPseudo then (encodeLiteral 0x10 4 f dynIdx statIdx, r)
      else if f.size ≤ r.max then
        (encodeLiteral 0x40 6 f dynIdx statIdx, (r.add f.name f.value).1)
      else (encodeLiteral 0x00 4 f dynIdx statIdx, r)

/-- `Encoder::encode(headers, out_buffer)` (hpack.cpp 413-502): return value, bytes appended to
`out_buffer` (also on failure), dynamic table afterwards. -/
def encodeBlock (r : Ring) : List HField → Bool × Bytes × Ring
  | [] => (true, [], r)
  | f :: fs =>
    if f.valid then
      let p := encodeField r f
      let q := encodeBlock p.2 fs
      (q.1, p.1 ++ q.2.1, q.2.2)
    else (false, [], r)

/-- `Encoder::set_peer_max_dynamic_table_size` (hpack.h 837-845): shrink only. -/
def encSetPeerMax (r : Ring) (m : Nat) : Ring := if r.max > m then (r.setMax m).1 else r

/-- `Encoder::set_max_capacity` (hpack.h 847-850). -/
def encSetCapacity (r : Ring) (m : Nat) : Ring := (r.setMax m).1

/-! ## Decoder -/

/-- `class Decoder` (hpack.h 654-765): dynamic table, SETTINGS table limit, header list limit. -/
structure Dec where
  tbl : Ring := {}
  tableLimit : Nat := 4096
  listLimit : Nat := 0xFFFFFFFF

/-- `set_max_dynamic_table_size` (hpack.h 734-738). -/
def Dec.setTableSize (d : Dec) (m : Nat) : Dec := { d with tableLimit := m, tbl := (d.tbl.setMax m).1 }

/-- `Decoder::decode_string_literal` (hpack.cpp 141-176): `error b` is a failure, `b` telling whether it
set `out_is_possibly_incomplete`; otherwise the string and the unread input. -/
def decodeStr (bs : Bytes) : Except Bool (Bytes × Bytes) :=
  match bs with
  | [] => .error false
  | b :: _ =>
    match decodeInt 7 bs with
    | none => .error false
    | some (len, rest) =>
      if len > rest.length then .error true
      else if b &&& 0x80 ≠ 0 then
        match huffDecode (rest.take len) with
        | none => .error true
        | some s => .ok (s, rest.drop len)
      else .ok (rest.take len, rest.drop len)

/-- `get_dynamic_table_entry(index, name, value)` (hpack.cpp 178-200) and, for the name alone,
`get_name_from_index` (202-219): `none` is `false`. `index - STATIC_TABLE.size()` is `size_t`
subtraction modulo `2^64`. -/
def lookup (r : Ring) (index : Nat) : Option (Bytes × Bytes) :=
  if index ≠ 0 ∧ index ≤ 61 then staticTable[index - 1]?
  else
    let d := (index + (2 ^ 64 - 61)) % 2 ^ 64
    if d > r.count ∨ d = 0 then none else some ((r.get (d - 1)).name, (r.get (d - 1)).value)

/-- The name of a literal representation (hpack.cpp 264-274, 296-306, 326-336). -/
def decodeName (r : Ring) (index : Nat) (rest : Bytes) : Except Bool (Bytes × Bytes) :=
  if index = 0 then decodeStr rest
  else match lookup r index with
    | none => .error false
    | some (n, _) => .ok (n, rest)

/-- The literal representations (hpack.cpp 256-281, 289-312, 319-342): prefix integer, name by index or
as a literal, value literal. -/
def decodeLiteral (r : Ring) (N : Nat) (bs : Bytes) : Except Bool (Bytes × Bytes × Bytes) :=
  match decodeInt N bs with
  | none => .error true
  | some (index, rest) =>
    match decodeName r index rest with
    | .error e => .error e
    | .ok (n, rest2) =>
      match decodeStr rest2 with
      | .error _ => .error true
      | .ok (v, rest3) => .ok (n, v, rest3)

/-- Loop state of `Decoder::decode` (hpack.cpp 226-230): table, emitted headers,
`current_header_list_size_check`, `dynamic_table_size_updates_allowed`. -/
structure DState where
  tbl : Ring
  out : List HField := []
  size : Nat := 0
  updates : Bool := true

/-- Outcome of one instruction: failure (with the incomplete flag and the state left behind) or the new
state and the unread input. -/
inductive DStep
  | fail (incomplete : Bool) (st : DState)
  | next (st : DState) (rest : Bytes)

/-- The check after each instruction (hpack.cpp 367-369). -/
def checkList (listLimit : Nat) (st : DState) (rest : Bytes) : DStep :=
  if listLimit > 0 ∧ st.size > listLimit then .fail false st else .next st rest

/-- Emitting a literal field. -/
def emitLiteral (st : DState) (n v : Bytes) (sensitive : Bool) : DState :=
  { st with out := st.out ++ [⟨n, v, sensitive⟩], size := st.size + (n.length + v.length + entryOverhead),
            updates := false }

/-- One iteration of the `while` of `Decoder::decode` (hpack.cpp 233-369) at first byte `b` of `bs`. -/
def decodeStep (tableLimit listLimit : Nat) (st : DState) (b : Byte) (bs : Bytes) : DStep :=
  if b.toNat >>> 7 = 1 then
    match decodeInt 7 bs with
    | none => .fail true st
    | some (index, rest) =>
      if index = 0 then .fail false st
      else match lookup st.tbl index with
        | none => .fail false st
        | some (n, v) => checkList listLimit (emitLiteral st n v false) rest
  else if b.toNat >>> 6 = 1 then
    match decodeLiteral st.tbl 6 bs with
    | .error e => .fail e st
    | .ok (n, v, rest) =>
      checkList listLimit { emitLiteral st n v false with tbl := (st.tbl.add n v).1 } rest
  else if b.toNat >>> 4 = 0 then
    match decodeLiteral st.tbl 4 bs with
    | .error e => .fail e st
    | .ok (n, v, rest) => checkList listLimit (emitLiteral st n v false) rest
  else if b.toNat >>> 4 = 1 then
    match decodeLiteral st.tbl 4 bs with
    | .error e => .fail e st
    | .ok (n, v, rest) => checkList listLimit (emitLiteral st n v true) rest
  else if b.toNat >>> 5 = 1 then
    if !st.updates then .fail false st
    else match decodeInt 5 bs with
      | none => .fail true st
      | some (m, rest) =>
        if m > tableLimit then .fail false st
        else checkList listLimit { st with tbl := (st.tbl.setMax m).1 } rest
  else .fail false st

/-- The `while (current_pos < end_pos)` loop (hpack.cpp 232-370). The first argument bounds the number of
instructions; `decode` passes the block length and every instruction consumes at least one byte, so the
bound is never what stops the loop (`decodeLoop_fuel`). -/
def decodeLoop (tableLimit listLimit : Nat) : Nat → DState → Bytes → Bool × Bool × DState
  | _, st, [] => (true, false, st)
  | 0, st, _ :: _ => (false, false, st)
  | f + 1, st, b :: bs =>
    match decodeStep tableLimit listLimit st b (b :: bs) with
    | .fail inc st' => (false, inc, st')
    | .next st' rest => decodeLoop tableLimit listLimit f st' rest

/-- `Decoder::decode(encoded_block, out_headers, out_is_possibly_incomplete)` (hpack.cpp 221-374): return
value, incomplete flag, `out_headers`, decoder afterwards. -/
def decodeBlock (d : Dec) (bs : Bytes) : Bool × Bool × List HField × Dec :=
  let r := decodeLoop d.tableLimit d.listLimit bs.length { tbl := d.tbl } bs
  (r.1, r.2.1, r.2.2.out, { d with tbl := r.2.2.tbl })

end Verif.Hpack
