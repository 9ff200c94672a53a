import Verif.Base

/-! JSON values as `qb::json` (nlohmann) holds them, with the operations of that library the validators use.
The library is not part of the repository: these definitions state what is assumed of it. -/

namespace Verif.Valid

/-- A `qb::json`. Integers are signed (`int`) or unsigned (`uint`, what the parser makes of a number without
sign); other numbers are finite doubles, given by their value. Members of an object are in the order of
iteration. -/
inductive Json where
  | null
  | bool (b : Bool)
  | int (z : Int)
  | uint (n : Nat)
  | flt (q : Rat)
  | str (s : Bytes)
  | arr (xs : List Json)
  | obj (m : List (Bytes × Json))
  deriving Repr, Inhabited

/-- `contains` and `operator[]` of an object. -/
def get : List (Bytes × Json) → Bytes → Option Json
  | [], _ => none
  | (k, x) :: m, key => if k = key then some x else get m key

/-- The nearest double of a natural number below 2^64, ties to even. -/
def roundNat (a : Nat) : Nat :=
  if a < 2 ^ 53 then a
  else
    let e := a.log2 - 52
    let q := a / 2 ^ e
    let r := a % 2 ^ e
    let up := 2 * r > 2 ^ e ∨ (2 * r = 2 ^ e ∧ q % 2 = 1)
    (if up then q + 1 else q) * 2 ^ e

/-- The nearest double of an integer of 64 bits. -/
def roundInt (z : Int) : Int := if z < 0 then - (roundNat z.natAbs : Int) else roundNat z.natAbs

/-- `get<double>()` of a number. -/
def toDouble : Json → Option Rat
  | .int z => some (roundInt z)
  | .uint n => some (roundNat n : Int)
  | .flt q => some q
  | _ => none

/-- The conversion of a `uint64_t` to `int64_t`. -/
def wrap64 (n : Nat) : Int := if n < 2 ^ 63 then n else (n : Int) - 2 ^ 64

/-- `get<long long>()` of an integer (`is_number_integer()` holds of both kinds of integer). -/
def toLongLong : Json → Option Int
  | .int z => some z
  | .uint n => some (wrap64 n)
  | _ => none

mutual
/-- `operator==`: a signed and an unsigned integer are compared as signed ones, an integer and a double as
doubles. -/
def Json.eq : Json → Json → Bool
  | .null, .null => true
  | .bool a, .bool b => a == b
  | .int a, .int b => a == b
  | .uint a, .uint b => a == b
  | .flt a, .flt b => a == b
  | .int a, .uint b => a == wrap64 b
  | .uint a, .int b => wrap64 a == b
  | .int a, .flt b => (roundInt a : Rat) == b
  | .flt a, .int b => a == (roundInt b : Rat)
  | .uint a, .flt b => ((roundNat a : Int) : Rat) == b
  | .flt a, .uint b => a == ((roundNat b : Int) : Rat)
  | .str a, .str b => a == b
  | .arr a, .arr b => Json.eqList a b
  | .obj a, .obj b => Json.eqMembers a b
  | _, _ => false
def Json.eqList : List Json → List Json → Bool
  | [], [] => true
  | a :: as, b :: bs => a.eq b && Json.eqList as bs
  | _, _ => false
def Json.eqMembers : List (Bytes × Json) → List (Bytes × Json) → Bool
  | [], [] => true
  | (k, a) :: as, (l, b) :: bs => k == l && a.eq b && Json.eqMembers as bs
  | _, _ => false
end

mutual
/-- How deep a JSON value is nested. -/
def Json.height : Json → Nat
  | .arr xs => 1 + Json.heightList xs
  | .obj m => 1 + Json.heightMembers m
  | _ => 0
def Json.heightList : List Json → Nat
  | [] => 0
  | x :: xs => max x.height (Json.heightList xs)
def Json.heightMembers : List (Bytes × Json) → Nat
  | [] => 0
  | (_, x) :: m => max x.height (Json.heightMembers m)
end

def Json.isObj : Json → Bool
  | .obj _ => true
  | _ => false

/-- What the validators get from outside: regular expressions and the hash of a JSON value. `matches` is
`none` if the engine gives up (`std::regex_error`). -/
structure Env where
  compiles : Bytes → Bool
  isMatch : Bytes → Bytes → Option Bool
  hash : Json → Nat

theorem height_of_mem {xs : List Json} {x : Json} (h : x ∈ xs) : x.height ≤ Json.heightList xs := by
  induction xs with
  | nil => simp at h
  | cons a as ih =>
    simp only [Json.heightList]
    rcases List.mem_cons.1 h with rfl | h
    · omega
    · have := ih h; omega

theorem height_of_member {m : List (Bytes × Json)} {k : Bytes} {x : Json} (h : (k, x) ∈ m) : x.height ≤ Json.heightMembers m := by
  induction m with
  | nil => simp at h
  | cons a as ih =>
    obtain ⟨l, y⟩ := a
    simp only [Json.heightMembers]
    rcases List.mem_cons.1 h with h | h
    · cases h; omega
    · have := ih h; omega

theorem mem_of_get {m : List (Bytes × Json)} {k : Bytes} {x : Json} (h : get m k = some x) : (k, x) ∈ m := by
  induction m with
  | nil => simp [get] at h
  | cons a as ih =>
    obtain ⟨l, y⟩ := a
    simp only [get] at h
    by_cases e : l = k
    · rw [if_pos e] at h; cases h; subst e; exact List.mem_cons_self
    · rw [if_neg e] at h; exact List.mem_cons_of_mem _ (ih h)

theorem height_get {m : List (Bytes × Json)} {k : Bytes} {x : Json} (h : get m k = some x) : x.height < (Json.obj m).height := by
  have := height_of_member (mem_of_get h)
  simp only [Json.height]; omega

end Verif.Valid
