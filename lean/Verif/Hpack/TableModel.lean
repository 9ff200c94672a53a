import Verif.Base

/-! # HPACK dynamic table (ring buffer) — model of `2/protocol/hpack.h` 270-427, `hpack.cpp` 25-90 -/

namespace Verif.Hpack

/-- `DynamicTableEntry` (hpack.h 270-281). -/
structure Entry where
  name : Bytes := []
  value : Bytes := []
  size : Nat := 0

/-- `HPACK_ENTRY_OVERHEAD` (hpack.h 262). -/
def entryOverhead : Nat := 32

/-- `DynamicTableEntry(n, v)` (hpack.h 277-280). -/
def mkEntry (n v : Bytes) : Entry := ⟨n, v, n.length + v.length + entryOverhead⟩

/-- `class DynamicTable` (hpack.h 302-427): `_storage`, `_head`, `_count`, `_bytes`, `_max_bytes`,
`_mask`. -/
structure Ring where
  storage : List Entry := []
  head : Nat := 0
  count : Nat := 0
  bytes : Nat := 0
  max : Nat := 4096
  mask : Nat := 0

/-- `slot_of(logical)` (hpack.h 394-397), `size_t` addition modulo `2^64`. -/
def Ring.slotOf (r : Ring) (i : Nat) : Nat := ((r.head + i) % 2 ^ 64) &&& r.mask

/-- `operator[](i)` (hpack.h 344-347). Reading outside the vector would be undefined behaviour; the
model returns an empty entry, and the refinement theorem shows live indices are inside. -/
def Ring.get (r : Ring) (i : Nat) : Entry := r.storage.getD (r.slotOf i) {}

/-- `evict_oldest_impl()` (hpack.h 399-405). -/
def Ring.evictOldest (r : Ring) : Ring :=
  let slot := r.slotOf (r.count - 1)
  { r with bytes := r.bytes - (r.storage.getD slot {}).size, storage := r.storage.set slot {},
           count := r.count - 1 }

/-- `clear_storage()` (hpack.h 407-415). -/
def Ring.clear (r : Ring) : Ring :=
  { r with storage := (List.range r.count).foldl (fun st i => st.set (r.slotOf i) {}) r.storage,
           count := 0, bytes := 0, head := 0 }

/-- The eviction loops `while (_bytes + need > _max_bytes && _count > 0) evict` (hpack.cpp 39-42 with
`need = entry_size`, 59-62 with `need = 0`); the first argument bounds the iterations and is always
the entry count, which every iteration decreases. Returns the number of evictions. -/
def Ring.evictLoop (need : Nat) : Nat → Ring → Ring × Nat
  | 0, r => (r, 0)
  | f + 1, r =>
    if r.bytes + need > r.max ∧ r.count > 0 then
      let p := Ring.evictLoop need f r.evictOldest
      (p.1, p.2 + 1)
    else (r, 0)

/-- `ensure_capacity_for_one_more()` (hpack.cpp 69-90), `kInitialCapacity = 128` (hpack.h 385). -/
def Ring.ensureCapacity (r : Ring) : Ring :=
  if r.storage.isEmpty then { r with storage := List.replicate 128 {}, mask := 127 }
  else if r.count + 1 ≤ r.storage.length then r
  else
    let newCap := r.storage.length * 2
    { r with storage := (List.range r.count).map r.get ++ List.replicate (newCap - r.count) {},
             head := 0, mask := newCap - 1 }

/-- `DynamicTable::add(name, value)` (hpack.cpp 25-53): new table and `AddResult{added, evicted}`.
`(_head - 1) & _mask` is `size_t` arithmetic modulo `2^64`. -/
def Ring.add (r : Ring) (n v : Bytes) : Ring × Bool × Nat :=
  let e := mkEntry n v
  if e.size > r.max then (r.clear, false, r.count)
  else
    let p := r.evictLoop e.size r.count
    let r2 := p.1.ensureCapacity
    let h := ((r2.head + (2 ^ 64 - 1)) % 2 ^ 64) &&& r2.mask
    ({ r2 with head := h, storage := r2.storage.set h e, count := r2.count + 1,
               bytes := r2.bytes + e.size }, true, p.2)

/-- `DynamicTable::set_max_byte_size(new_max)` (hpack.cpp 55-67): new table and evictions. -/
def Ring.setMax (r : Ring) (m : Nat) : Ring × Nat :=
  let p := ({ r with max := m } : Ring).evictLoop 0 r.count
  (if p.1.count = 0 then { p.1 with bytes := 0 } else p.1, p.2)

/-- The public mutators of the table. -/
inductive TOp
  | add (name value : Bytes)
  | setMax (m : Nat)
  | clear

/-- What a mutator returns: `added` and the eviction count (`clear` returns nothing). -/
inductive TOut
  | added (added : Bool) (evicted : Nat)
  | resized (evicted : Nat)
  | cleared
deriving DecidableEq

/-- One operation of the table. -/
def Ring.step (r : Ring) : TOp → Ring × TOut
  | .add n v => let p := r.add n v; (p.1, .added p.2.1 p.2.2)
  | .setMax m => let p := r.setMax m; (p.1, .resized p.2)
  | .clear => (r.clear, .cleared)

/-- A history of operations from a table, with all the results. -/
def Ring.run (r : Ring) : List TOp → Ring × List TOut
  | [] => (r, [])
  | op :: ops =>
    let p := r.step op
    let q := Ring.run p.1 ops
    (q.1, p.2 :: q.2)

end Verif.Hpack
