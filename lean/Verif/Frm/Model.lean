import Verif.Utility.Theorems

/-! HTML forms in bodies (`application/x-www-form-urlencoded`): `Form`, `src/qbm/http/form.h` 30-125; `Body::operator=<Form>` and `Body::as<Form>`, `src/qbm/http/body.cpp` 782-878.

`qb::io::uri::encode` and `decode` belong to another library: they are parameters (`Codec`), with the contract that the theorems need (`Codec.Ok`, Spec.lean). -/

namespace Verif.Frm

open Verif.Utility (findChar)

/-- `qb::io::uri::encode`, `qb::io::uri::decode`. -/
structure Codec where
  enc : Bytes → Bytes
  dec : Bytes → Bytes

/-- `Form::_fields`, form.h 32: an `unordered_map`; the order of the list is the order in which it happens to be walked. -/
abbrev Form := List (Bytes × List Bytes)

/-- `Form::add`, form.h 47-63. -/
def add : Form → Bytes → Bytes → Form
  | [], k, v => [(k, [v])]
  | (k', vs) :: f, k, v => if k' = k then (k', vs ++ [v]) :: f else (k', vs) :: add f k v

/-- `Form::get`, form.h 71-78. -/
def get : Form → Bytes → List Bytes
  | [], _ => []
  | (k', vs) :: f, k => if k' = k then vs else get f k

/-- `Form::get_first`, form.h 86-93. -/
def getFirst (f : Form) (k : Bytes) : Option Bytes := (get f k).head?

/-- One value of `operator=<Form>`, body.cpp 787-794: `first_pair` says whether a `&` precedes. -/
def writeOne (c : Codec) (k : Bytes) (acc : Bytes × Bool) (v : Bytes) : Bytes × Bool :=
  (acc.1 ++ (if acc.2 then [] else [c!"&"]) ++ c.enc k ++ [c!"="] ++ c.enc v, false)

/-- `Body::operator=<Form>`, body.cpp 783-797. -/
def write (c : Codec) (f : Form) : Bytes :=
  (f.foldl (fun acc e => e.2.foldl (writeOne c e.1) acc) (([], true) : Bytes × Bool)).1

/-- One pair of `as<Form>`, body.cpp 853-871. -/
def readPair (c : Codec) (f : Form) (s : Bytes) : Form :=
  match findChar c!"=" s with
  | some (a, b) => if c.dec a = [] then f else add f (c.dec a) (c.dec b)
  | none => if c.dec s = [] then f else add f (c.dec s) []

/-- The loop of `as<Form>`, body.cpp 846-874: `start` becomes recursion on the rest. -/
def readLoop (c : Codec) (f : Form) (s : Bytes) : Form :=
  if s = [] then f
  else match _h : findChar c!"&" s with
    | none => readPair c f s
    | some (p, q) => readLoop c (readPair c f p) q
termination_by s.length
decreasing_by exact Verif.Utility.findChar_length _h

/-- `Body::as<Form>`, body.cpp 838-878. -/
def read (c : Codec) (s : Bytes) : Form := readLoop c [] s

end Verif.Frm
