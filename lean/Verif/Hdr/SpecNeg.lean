import Verif.Hdr.Spec

/-! # Specification: what an `Accept-Encoding` header says and which encoding it selects -/

namespace Verif.Hdr
open Verif.Utility Verif.Utility.Spec

/-- Two names that differ at most in case. -/
def SameName (a b : Bytes) : Prop := a.map lower = b.map lower

/-- An ASCII digit. -/
def Dig (c : UInt8) : Prop := 48 ≤ c.toNat ∧ c.toNat ≤ 57

/-- The number written by digits. -/
def num (ds : Bytes) : Nat := ds.foldl (fun n d => 10 * n + (d.toNat - 48)) 0

/-- A quality in thousandths: `0`, `1`, or one of them, a point and one to three digits, at most one. -/
inductive QValue : Bytes → Nat → Prop
  | zero : QValue b!"0" 0
  | one : QValue b!"1" 1000
  | frac {ds} : 1 ≤ ds.length → ds.length ≤ 3 → (∀ d ∈ ds, Dig d) → QValue (b!"0." ++ ds) (num ds * 10 ^ (3 - ds.length))
  | ones {ds} : 1 ≤ ds.length → ds.length ≤ 3 → (∀ d ∈ ds, d = c!"0") → QValue (b!"1." ++ ds) 1000

/-- A parameter `q=…` and the quality it gives; a malformed quality refuses. -/
def QParam (p : Bytes) (m : Nat) : Prop :=
  ∃ k v key x, p = k ++ c!"=" :: v ∧ c!"=" ∉ k ∧ IsTrim k key ∧ SameName key b!"q" ∧ IsTrim v x ∧ (QValue x m ∨ (m = 0 ∧ ∀ n, ¬ QValue x n))

/-- The quality among the parameters: the first `q`, or 1. -/
inductive Params : List Bytes → Nat → Prop
  | none : Params [] 1000
  | q {p ps m} : QParam p m → Params (p :: ps) m
  | skip {p ps m} : (∀ n, ¬ QParam p n) → Params ps m → Params (p :: ps) m

/-- One element of the list: a name, then parameters behind `;`. -/
def Element (t n : Bytes) (q : Nat) : Prop := ∃ a ps, IsFieldsP (· = c!";") t (a :: ps) ∧ IsTrim a n ∧ Params ps q

/-- The elements with a name. -/
inductive Elements : List Bytes → List (Bytes × Nat) → Prop
  | nil : Elements [] []
  | blank {t ts q l} : Element t [] q → Elements ts l → Elements (t :: ts) l
  | named {t ts n q l} : Element t n q → n ≠ [] → Elements ts l → Elements (t :: ts) ((n, q) :: l)

/-- What the header lists: names with their qualities. -/
def Listed (header : Bytes) (l : List (Bytes × Nat)) : Prop := ∃ ts, IsFieldsP (· = c!",") header ts ∧ Elements ts l

/-- The quality of `e` in the list: of its first mention; if it is not mentioned, of the last `*`. -/
def Weight (l : List (Bytes × Nat)) (e : Bytes) (q : Nat) : Prop :=
  (∃ l₁ n l₂, l = l₁ ++ (n, q) :: l₂ ∧ SameName n e ∧ ∀ m ∈ l₁, ¬ SameName m.1 e) ∨
  ((∀ m ∈ l, ¬ SameName m.1 e) ∧ ∃ l₁ l₂, l = l₁ ++ (b!"*", q) :: l₂ ∧ ∀ m ∈ l₂, m.1 ≠ b!"*")

/-- The encoding to use: one of the server's with the highest quality, that must not be 0; the earliest of equals. -/
def Chosen (l : List (Bytes × Nat)) (prefs : List Bytes) (e : Bytes) : Prop :=
  (e = [] ∧ ∀ p ∈ prefs, ∀ q, Weight l p q → q = 0) ∨
  (∃ p₁ p₂ q, prefs = p₁ ++ e :: p₂ ∧ Weight l e q ∧ 0 < q ∧ (∀ p ∈ p₁, ∀ r, Weight l p r → r < q) ∧ (∀ p ∈ p₂, ∀ r, Weight l p r → r ≤ q))

/-- `a` was refused by name among the elements `pre`. -/
def Refused (pre : List (Bytes × Nat)) (a : Bytes) : Prop := ∃ m ∈ pre, m.2 = 0 ∧ m.1 ≠ b!"*" ∧ SameName m.1 a

/-- The element `e` behind the elements `pre` names `a`: by its name, or as the first algorithm not refused so far if it is `*`. -/
def Serves (algos : List Bytes) (pre : List (Bytes × Nat)) (e : Bytes × Nat) (a : Bytes) : Prop :=
  0 < e.2 ∧ ∃ x y, algos = x ++ a :: y ∧
    ((e.1 = b!"*" ∧ ¬ Refused pre a ∧ ∀ b ∈ x, Refused pre b) ∨ (e.1 ≠ b!"*" ∧ SameName a e.1 ∧ ∀ b ∈ x, ¬ SameName b e.1))

end Verif.Hdr
