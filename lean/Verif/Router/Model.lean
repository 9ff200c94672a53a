import Verif.Base

/-! Model of `src/qbm/http/routing/radix_tree.h` (and `path_parameters.h`). -/

namespace Verif.Router

variable {H : Type}

/-- A `std::string_view` into the request path: offset and length. -/
structure View where
  off : Nat
  len : Nat
  deriving DecidableEq, Repr

/-- The bytes a view denotes. -/
def View.text (path : Bytes) (v : View) : Bytes := (path.drop v.off).take v.len

/-- The loop of `split_path_to_segments`, radix_tree.h 294-307: `i` runs over the path, `start` is
the beginning of the current segment; `rest` is `path.drop i`. -/
def splitLoop (start : Nat) : (i : Nat) → (rest : Bytes) → List View
  | i, [] => if start < i then [⟨start, i - start⟩] else []
  | i, c :: rest =>
    if c == c!"/" then
      if i > start then ⟨start, i - start⟩ :: splitLoop (i + 1) (i + 1) rest
      else splitLoop (i + 1) (i + 1) rest
    else splitLoop start (i + 1) rest

/-- `split_path_to_segments`, radix_tree.h 279-313. -/
def splitPath (path : Bytes) : List View :=
  match path with
  | [] => []
  | c :: rest => if c == c!"/" then splitLoop 1 1 rest else splitLoop 0 0 (c :: rest)

/-- `PathParameters`, path_parameters.h 32-110: a map from names to values. -/
abbrev Params := List (Bytes × Bytes)

/-- `PathParameters::set` (`insert_or_assign`), path_parameters.h 65-70. -/
def Params.set (ps : Params) (k v : Bytes) : Params := ps.filter (·.1 ≠ k) ++ [(k, v)]

/-- `PathParameters::get`, path_parameters.h 78-85. -/
def Params.get (ps : Params) (k : Bytes) : Option Bytes := List.lookup k ps

/-- `Node`, radix_tree.h 164-212. `handlers` is the array of 64 handler slots; `statics` the map of
static children; `param` is `param_name` with `param_child`; `wild` is the wildcard child with its
`segment_match` (its name). The `type` tag is implied by the position. -/
inductive Node (H : Type) where
  | mk (handlers : Nat → Option H) (statics : List (Bytes × Node H))
       (param : Option (Bytes × Node H)) (wild : Option (Bytes × Node H))

namespace Node
/-- field `handlers`, radix_tree.h 181. -/
def handlers : Node H → Nat → Option H | mk h _ _ _ => h
/-- field `static_children`, radix_tree.h 196. -/
def statics : Node H → List (Bytes × Node H) | mk _ s _ _ => s
/-- fields `param_child`, `param_name`, radix_tree.h 198-200. -/
def param : Node H → Option (Bytes × Node H) | mk _ _ p _ => p
/-- field `wildcard_child`, radix_tree.h 202. -/
def wild : Node H → Option (Bytes × Node H) | mk _ _ _ w => w
/-- A freshly made node, radix_tree.h 209-211, 319-320. -/
def empty : Node H := mk (fun _ => none) [] none none
end Node

/-- `METHOD_SLOT_COUNT`, radix_tree.h 133. -/
def slotCount : Nat := 64

/-- `method_slot`, radix_tree.h 141-148; a method is its raw underlying integer. -/
def methodSlot (raw : Int) : Nat :=
  if raw < 0 ∨ raw.toNat ≥ slotCount then slotCount else raw.toNat

/-- `unordered_map` find-or-emplace followed by an update of the child. -/
def assocSet (k : Bytes) (v : Node H) : List (Bytes × Node H) → List (Bytes × Node H)
  | [] => [(k, v)]
  | (k', v') :: l => if k == k' then (k, v) :: l else (k', v') :: assocSet k v l

/-- The segment loop of `add_route`, radix_tree.h 344-424. The result is the updated node and
whether the call returned normally (`false`: it threw `invalid_argument`; nodes created before the
throw stay in the tree, as in the code). `seen` is `seen_capture_names`. -/
def insert (slot : Nat) (h : H) : (seen : List Bytes) → (n : Node H) → (segs : List Bytes) → Node H × Bool
  | _, n, [] =>
    -- 419-424
    if slot ≥ slotCount then (n, false)
    else (.mk (fun s => if s = slot then some h else n.handlers s) n.statics n.param n.wild, true)
  | seen, n, seg :: rest =>
    match seg with
    | [] => (n, false)                                            -- 348-353
    | c :: name =>
      if c == c!"*" then
        if name = [] then (n, false)                              -- 357-360
        else if rest ≠ [] then (n, false)                         -- 361-365
        else if name ∈ seen then (n, false)                       -- 368-371
        else
          match n.wild with
          | none =>                                               -- 373-374
            let r := insert slot h (name :: seen) .empty []
            (.mk n.handlers n.statics n.param (some (name, r.1)), r.2)
          | some (nm, child) =>
            if nm ≠ name then (n, false)                          -- 375-379
            else
              let r := insert slot h (name :: seen) child []      -- 380-381
              (.mk n.handlers n.statics n.param (some (nm, r.1)), r.2)
      else if c == c!":" then
        if name = [] then (n, false)                              -- 384-387
        else if name ∈ seen then (n, false)                       -- 390-392
        else
          match n.param with
          | none =>                                               -- 394-396
            let r := insert slot h (name :: seen) .empty rest
            (.mk n.handlers n.statics (some (name, r.1)) n.wild, r.2)
          | some (nm, child) =>
            if nm ≠ name then (n, false)                          -- 397-400
            else
              let r := insert slot h (name :: seen) child rest
              (.mk n.handlers n.statics (some (nm, r.1)) n.wild, r.2)
      else                                                        -- 402-416
        let child := (n.statics.lookup (c :: name)).getD .empty
        let r := insert slot h seen child rest
        (.mk n.handlers (assocSet (c :: name) r.1 n.statics) n.param n.wild, r.2)
termination_by _ _ segs => segs.length

/-- `add_route`, radix_tree.h 335-425. -/
def addRoute (root : Node H) (pattern : Bytes) (method : Int) (h : H) : Node H × Bool :=
  insert (methodSlot method) h [] root ((splitPath pattern).map (View.text pattern))

/-- The wildcard slice, radix_tree.h 527-531: from the beginning of the first remaining segment to
the end of the last one, in the original path. -/
def capture (path : Bytes) (first : View) (last : View) : Bytes :=
  (path.drop first.off).take (last.off + last.len - first.off)

/-- `match_recursive`, radix_tree.h 467-543, on the remaining segments. -/
def matchRec (path : Bytes) (slot : Nat) : (n : Node H) → (segs : List View) → (ps : Params) →
    Option (Params × H)
  | n, [], ps =>                                                  -- 485-500
    match n.handlers slot with
    | some h => some (ps, h)
    | none =>
      match n.wild with
      | some (nm, c) =>
        match c.handlers slot with
        | some h => some (ps.set nm [], h)
        | none => none
      | none => none
  | n, v :: vs, ps =>
    let r1 := match n.statics.lookup (v.text path) with           -- 505-510
      | some c => matchRec path slot c vs ps
      | none => none
    match r1 with
    | some r => some r
    | none =>
      let r2 := match n.param with                                -- 513-520
        | some (nm, c) => matchRec path slot c vs (ps.set nm (v.text path))
        | none => none
      match r2 with
      | some r => some r
      | none =>
        match n.wild with                                         -- 523-540
        | some (nm, c) =>
          match c.handlers slot with
          | some h => some (ps.set nm (capture path v ((v :: vs).getLast (by simp))), h)
          | none => none
        | none => none
termination_by _ segs => segs.length

/-- `match`, radix_tree.h 449-457. -/
def matchPath (root : Node H) (path : Bytes) (method : Int) : Option (Params × H) :=
  let slot := methodSlot method
  if slot ≥ slotCount then none
  else matchRec path slot root (splitPath path) []

/-- `has_any_handler`, radix_tree.h 219-227. -/
def hasAny (n : Node H) : Bool := (List.range slotCount).any fun s => (n.handlers s).isSome

/-- `collect_allowed_methods`, radix_tree.h 235-245 (methods are their slots). -/
def collect (n : Node H) : List Nat := (List.range slotCount).filter fun s => (n.handlers s).isSome

/-- `std::unique`: drop adjacent equal elements. -/
def uniq : List Nat → List Nat
  | [] => []
  | [a] => [a]
  | a :: b :: l => if a = b then uniq (b :: l) else a :: uniq (b :: l)

/-- Ordered insertion. -/
def insertNat (a : Nat) : List Nat → List Nat
  | [] => [a]
  | b :: l => if a ≤ b then a :: b :: l else b :: insertNat a l

/-- `std::sort` on slots: the ascending permutation (unique for integers, so any sorting algorithm
models it; insertion sort here). -/
def sortNat : List Nat → List Nat
  | [] => []
  | a :: l => insertNat a (sortNat l)

/-- sort + unique, radix_tree.h 256-259 and 575-580. -/
def sortUniq (l : List Nat) : List Nat := uniq (sortNat l)

/-- `merge_result`, radix_tree.h 569-584 (with `merge_allowed_methods` 253-260). -/
def mergeResult (result cand : Option (Params × List Nat)) : Option (Params × List Nat) :=
  match cand with
  | none => result
  | some (cp, cm) =>
    if cm = [] then result
    else match result with
      | none => some (cp, sortUniq cm)
      | some (rp, rm) => some (rp, sortUniq (rm ++ cm))

/-- `find_path_recursive` in `allowed_methods`, radix_tree.h 561-626. -/
def allowedRec (path : Bytes) : (n : Node H) → (segs : List View) → (ps : Params) →
    Option (Params × List Nat)
  | n, [], ps =>                                                  -- 586-597
    let r0 := if hasAny n then mergeResult none (some (ps, collect n)) else none
    match n.wild with
    | some (nm, c) => if hasAny c then mergeResult r0 (some (ps.set nm [], collect c)) else r0
    | none => r0
  | n, v :: vs, ps =>
    let r1 := match n.statics.lookup (v.text path) with           -- 601-604
      | some c => mergeResult none (allowedRec path c vs ps)
      | none => none
    let r2 := match n.param with                                  -- 606-610
      | some (nm, c) => mergeResult r1 (allowedRec path c vs (ps.set nm (v.text path)))
      | none => r1
    match n.wild with                                             -- 612-623
    | some (nm, c) =>
      if hasAny c then
        mergeResult r2 (some (ps.set nm (capture path v ((v :: vs).getLast (by simp))), collect c))
      else r2
    | none => r2
termination_by _ segs => segs.length

/-- `allowed_methods`, radix_tree.h 556-629. -/
def allowedMethods (root : Node H) (path : Bytes) : Option (Params × List Nat) :=
  allowedRec path root (splitPath path) []

/-- One call of `add_route`. -/
structure Reg (H : Type) where
  pattern : Bytes
  method : Int
  handler : H

/-- The tree after a sequence of `add_route` calls on a fresh tree; a throwing call leaves what it
had created. -/
def build (regs : List (Reg H)) : Node H :=
  regs.foldl (fun t r => (addRoute t r.pattern r.method r.handler).1) .empty

/-- The calls of the sequence that returned normally, in order. -/
def accepted : (t : Node H) → List (Reg H) → List (Reg H)
  | _, [] => []
  | t, r :: rs =>
    let res := addRoute t r.pattern r.method r.handler
    if res.2 then r :: accepted res.1 rs else accepted res.1 rs

end Verif.Router
