import Verif.Hpack.TableModel

/-! # Specification of the dynamic table: a newest-first list bounded by a byte budget -/

namespace Verif.Hpack.Spec

/-- A table entry as users see it. -/
abbrev Field := Bytes × Bytes

/-- RFC 7541 section 4.1: name length + value length + 32. -/
def fieldSize (f : Field) : Nat := f.1.length + f.2.length + 32

/-- Accounted size of a list of entries. -/
def total : List Field → Nat
  | [] => 0
  | f :: l => fieldSize f + total l

/-- The longest initial segment whose accounted size is within the budget. -/
def fit (budget : Nat) : List Field → List Field
  | [] => []
  | f :: l => if fieldSize f ≤ budget then f :: fit (budget - fieldSize f) l else []

/-- The abstract table. -/
structure Table where
  max : Nat := 4096
  /-- newest first -/
  entries : List Field := []

/-- Insert in front and keep what fits; change the budget and keep what fits; forget everything. -/
def Table.step (t : Table) : TOp → Table × TOut
  | .add n v =>
    let l := fit t.max ((n, v) :: t.entries)
    let ok := decide (fieldSize (n, v) ≤ t.max)
    ({ t with entries := l }, .added ok (t.entries.length + (if ok then 1 else 0) - l.length))
  | .setMax m =>
    let l := fit m t.entries
    (⟨m, l⟩, .resized (t.entries.length - l.length))
  | .clear => ({ t with entries := [] }, .cleared)

/-- A history on the abstract table. -/
def Table.run (t : Table) : List TOp → Table × List TOut
  | [] => (t, [])
  | op :: ops =>
    let p := t.step op
    let q := Table.run p.1 ops
    (q.1, p.2 :: q.2)

/-- Budgets are 32-bit SETTINGS values: every caller passes a `uint32_t` (hpack.h 735-737, 838-849) or a
value already checked against one (hpack.cpp 359-362). -/
def Budget32 (ops : List TOp) : Prop := ∀ m, TOp.setMax m ∈ ops → m < 2 ^ 32

end Verif.Hpack.Spec
