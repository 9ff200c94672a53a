/-! Shared vocabulary: bytes, byte strings and byte literals. -/

namespace Verif

/-- A C++ `char`/`uint8_t`. -/
abbrev Byte := UInt8
/-- A C++ `std::string` / `std::string_view` / `std::vector<uint8_t>`: any sequence of bytes. -/
abbrev Bytes := List UInt8

/-- `b!"text"`: the UTF-8 bytes of a string literal, expanded at elaboration time to a list of
numerals so that the kernel never has to evaluate `String` operations. -/
syntax:max "b!" str : term
macro_rules
  | `(b! $s:str) => do
    let bs := s.getString.toUTF8.toList
    let elems := (bs.map fun b => Lean.Syntax.mkNumLit (toString b.toNat)).toArray
    `(([$elems,*] : List UInt8))

/-- `c!"x"`: the byte of a one-character ASCII literal. -/
syntax:max "c!" str : term
macro_rules
  | `(c! $c:str) => do
    let n := (c.getString.toUTF8.toList.headD 0).toNat
    `(($(Lean.Syntax.mkNumLit (toString n)) : UInt8))

/-- A statement about every byte follows from checking all 256 of them. -/
theorem forall_byte {p : UInt8 → Prop} [DecidablePred p]
    (h : ∀ n : Fin 256, p (UInt8.ofNat n.val)) : ∀ b : UInt8, p b := by
  intro b
  have := h ⟨b.toNat, b.toNat_lt⟩
  simpa using this

/-- A statement about every pair of bytes follows from checking all 65536 of them. -/
theorem forall_byte2 {p : UInt8 → UInt8 → Prop} [∀ a b, Decidable (p a b)]
    (h : ∀ n m : Fin 256, p (UInt8.ofNat n.val) (UInt8.ofNat m.val)) : ∀ a b : UInt8, p a b := by
  intro a b
  have := h ⟨a.toNat, a.toNat_lt⟩ ⟨b.toNat, b.toNat_lt⟩
  simpa using this

end Verif
