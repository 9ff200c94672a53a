import Verif.Base

/-! # The HPACK static table and its name index — `2/protocol/hpack.h` 100-246, 499-557 -/

namespace Verif.Hpack

/-- `STATIC_TABLE` (hpack.h 100-170), transcribed by a script; index `i` of HPACK is position `i-1`. -/
def staticTable : List (Bytes × Bytes) := [
  (b!":authority", []),
  (b!":method", b!"GET"),
  (b!":method", b!"POST"),
  (b!":path", b!"/"),
  (b!":path", b!"/index.html"),
  (b!":scheme", b!"http"),
  (b!":scheme", b!"https"),
  (b!":status", b!"200"),
  (b!":status", b!"204"),
  (b!":status", b!"206"),
  (b!":status", b!"304"),
  (b!":status", b!"400"),
  (b!":status", b!"404"),
  (b!":status", b!"500"),
  (b!"accept-charset", []),
  (b!"accept-encoding", b!"gzip, deflate"),
  (b!"accept-language", []),
  (b!"accept-ranges", []),
  (b!"accept", []),
  (b!"access-control-allow-origin", []),
  (b!"age", []),
  (b!"allow", []),
  (b!"authorization", []),
  (b!"cache-control", []),
  (b!"content-disposition", []),
  (b!"content-encoding", []),
  (b!"content-language", []),
  (b!"content-length", []),
  (b!"content-location", []),
  (b!"content-range", []),
  (b!"content-type", []),
  (b!"cookie", []),
  (b!"date", []),
  (b!"etag", []),
  (b!"expect", []),
  (b!"expires", []),
  (b!"from", []),
  (b!"host", []),
  (b!"if-match", []),
  (b!"if-modified-since", []),
  (b!"if-none-match", []),
  (b!"if-range", []),
  (b!"if-unmodified-since", []),
  (b!"last-modified", []),
  (b!"link", []),
  (b!"location", []),
  (b!"max-forwards", []),
  (b!"proxy-authenticate", []),
  (b!"proxy-authorization", []),
  (b!"range", []),
  (b!"referer", []),
  (b!"refresh", []),
  (b!"retry-after", []),
  (b!"server", []),
  (b!"set-cookie", []),
  (b!"strict-transport-security", []),
  (b!"transfer-encoding", []),
  (b!"user-agent", []),
  (b!"vary", []),
  (b!"via", []),
  (b!"www-authenticate", [])
]

/-- `name_hash` (hpack.h 180-188): 32-bit FNV-1a. -/
def nameHash (s : Bytes) : UInt32 :=
  s.foldl (fun h c => (h ^^^ c.toUInt32) * 0x01000193) 0x811c9dc5

/-- `h & kNameIndexMask` (hpack.h 194, 225, 511). -/
def homeSlot (h : UInt32) : Nat := (h &&& 127).toNat

/-- `STATIC_TABLE[index - 1].first`. -/
def staticName (index : Nat) : Bytes := (staticTable.getD (index - 1) ([], [])).1

/-- The probe loop of `build_name_index` for one entry (hpack.h 226-239): open addressing, at most 128
probes (the first argument counts the remaining ones). `table_index = 0` marks an empty slot. -/
def probeInsert (h : UInt32) (name : Bytes) (index : Nat) :
    Nat → Nat → List (UInt32 × Nat) → List (UInt32 × Nat)
  | 0, _, t => t
  | f + 1, slot, t =>
    let e := t.getD slot (0, 0)
    if e.2 = 0 then t.set slot (h, index)
    else if e.1 = h ∧ staticName e.2 = name then t
    else probeInsert h name index f ((slot + 1) % 128) t

/-- The loop of `build_name_index` (hpack.h 219-242) over the remaining entries. -/
def buildIndex : Nat → List (Bytes × Bytes) → List (UInt32 × Nat) → List (UInt32 × Nat)
  | _, [], t => t
  | i, (n, _) :: es, t =>
    buildIndex (i + 1) es (probeInsert (nameHash n) n (i + 1) 128 (homeSlot (nameHash n)) t)

/-- `kStaticNameIndex` (hpack.h 246). -/
def nameIndex : List (UInt32 × Nat) := buildIndex 0 staticTable (List.replicate 128 (0, 0))

/-- The probe loop of `find_name_match` (hpack.h 512-521). -/
def probeFind (h : UInt32) (name : Bytes) : Nat → Nat → Option Nat
  | 0, _ => none
  | f + 1, slot =>
    let e := nameIndex.getD slot (0, 0)
    if e.2 = 0 then none
    else if e.1 = h ∧ staticName e.2 = name then some e.2
    else probeFind h name f ((slot + 1) % 128)

/-- `static_table::find_name_match(name)` (hpack.h 507-523). -/
def findName (name : Bytes) : Option Nat := probeFind (nameHash name) name 128 (homeSlot (nameHash name))

/-- The scan of `find_exact_match` (hpack.h 548-555) over the entries from position `i` on. -/
def scanExact (name value : Bytes) : Nat → List (Bytes × Bytes) → Option Nat
  | _, [] => none
  | i, e :: es =>
    if e.1 ≠ name then none else if e.2 = value then some (i + 1) else scanExact name value (i + 1) es

/-- `static_table::find_exact_match(name, value)` (hpack.h 543-557). -/
def findExact (name value : Bytes) : Option Nat :=
  match findName name with
  | none => none
  | some first => scanExact name value (first - 1) (staticTable.drop (first - 1))

end Verif.Hpack
