import Verif.Wsh.Spec

/-! Base64 (RFC 4648 section 4), to show that the assumptions on the cryptographic library can be met. -/

namespace Verif.Wsh.Base64

def alphabet : Bytes := b!"ABCDEFGHIJKLMNOPQRSTUVWXYZabcdefghijklmnopqrstuvwxyz0123456789+/"
def digit (n : Nat) : Byte := alphabet.getD n 0
def value (c : Byte) : Nat := alphabet.idxOf c

def enc : Bytes → Bytes
  | a :: b :: c :: l =>
    let n := a.toNat * 65536 + b.toNat * 256 + c.toNat
    digit (n / 262144) :: digit (n / 4096 % 64) :: digit (n / 64 % 64) :: digit (n % 64) :: enc l
  | [a, b] =>
    let n := a.toNat * 1024 + b.toNat * 4
    [digit (n / 4096), digit (n / 64 % 64), digit (n % 64), c!"="]
  | [a] =>
    let n := a.toNat * 16
    [digit (n / 64), digit (n % 64), c!"=", c!"="]
  | [] => []

def dec : Bytes → Option Bytes
  | w :: x :: y :: z :: l =>
    if z = c!"=" then
      if y = c!"=" then some [UInt8.ofNat ((value w * 64 + value x) / 16)]
      else
        let n := value w * 4096 + value x * 64 + value y
        some [UInt8.ofNat (n / 1024), UInt8.ofNat (n / 4)]
    else
      let n := value w * 262144 + value x * 4096 + value y * 64 + value z
      (dec l).map (fun r => UInt8.ofNat (n / 65536) :: UInt8.ofNat (n / 256) :: UInt8.ofNat n :: r)
  | [] => some []
  | _ => none

theorem value_digit (n : Nat) (h : n < 64) : value (digit n) = n ∧ digit n ≠ c!"=" ∧ digit n ≠ 32 ∧ digit n ≠ 9 := by
  have : ∀ n : Fin 64, value (digit n.val) = n.val ∧ digit n.val ≠ c!"=" ∧ digit n.val ≠ 32 ∧ digit n.val ≠ 9 := by decide +kernel
  exact this ⟨n, h⟩

theorem dec_four (a b c : Byte) (e l : Bytes) (ih : dec e = some l) (n : Nat) (hN : n = a.toNat * 65536 + b.toNat * 256 + c.toNat) :
    dec (digit (n / 262144) :: digit (n / 4096 % 64) :: digit (n / 64 % 64) :: digit (n % 64) :: e) = some (a :: b :: c :: l) := by
  have ha := a.toNat_lt
  have hb := b.toNat_lt
  have hc := c.toNat_lt
  have hn : n < 16777216 := by omega
  have d1 := (value_digit (n / 262144) (by omega)).1
  have d2 := (value_digit (n / 4096 % 64) (by omega)).1
  have d3 := (value_digit (n / 64 % 64) (by omega)).1
  have d4 := value_digit (n % 64) (by omega)
  rw [dec, if_neg d4.2.1, d1, d2, d3, d4.1, ih]
  have e : n / 262144 * 262144 + n / 4096 % 64 * 4096 + n / 64 % 64 * 64 + n % 64 = n := by omega
  dsimp only
  rw [e]
  have e1 : UInt8.ofNat (n / 65536) = a := by apply UInt8.toNat_inj.1; rw [UInt8.toNat_ofNat']; omega
  have e2 : UInt8.ofNat (n / 256) = b := by apply UInt8.toNat_inj.1; rw [UInt8.toNat_ofNat']; omega
  have e3 : UInt8.ofNat n = c := by apply UInt8.toNat_inj.1; rw [UInt8.toNat_ofNat']; omega
  rw [e1, e2, e3]; rfl

theorem dec_enc : ∀ x : Bytes, dec (enc x) = some x
  | [] => rfl
  | [a] => by
    have ha := a.toNat_lt
    have d1 := (value_digit (a.toNat * 16 / 64) (by omega)).1
    have d2 := (value_digit (a.toNat * 16 % 64) (by omega)).1
    simp only [enc, dec, d1, d2, if_true]
    congr 2
    apply UInt8.toNat_inj.1
    rw [UInt8.toNat_ofNat']
    omega
  | [a, b] => by
    have ha := a.toNat_lt
    have hb := b.toNat_lt
    have d1 := (value_digit ((a.toNat * 1024 + b.toNat * 4) / 4096) (by omega)).1
    have d2 := (value_digit ((a.toNat * 1024 + b.toNat * 4) / 64 % 64) (by omega)).1
    have d3 := value_digit ((a.toNat * 1024 + b.toNat * 4) % 64) (by omega)
    simp only [enc, dec, d1, d2, d3.1, d3.2.1, if_true, if_false]
    have e1 : UInt8.ofNat (((a.toNat * 1024 + b.toNat * 4) / 4096 * 4096 + (a.toNat * 1024 + b.toNat * 4) / 64 % 64 * 64 + (a.toNat * 1024 + b.toNat * 4) % 64) / 1024) = a := by
      apply UInt8.toNat_inj.1; rw [UInt8.toNat_ofNat']; omega
    have e2 : UInt8.ofNat (((a.toNat * 1024 + b.toNat * 4) / 4096 * 4096 + (a.toNat * 1024 + b.toNat * 4) / 64 % 64 * 64 + (a.toNat * 1024 + b.toNat * 4) % 64) / 4) = b := by
      apply UInt8.toNat_inj.1; rw [UInt8.toNat_ofNat']; omega
    rw [e1, e2]
  | a :: b :: c :: l => dec_four a b c _ l (dec_enc l) _ rfl

theorem enc_len : ∀ x : Bytes, (enc x).length = 4 * ((x.length + 2) / 3)
  | [] => rfl
  | [a] => by simp [enc]
  | [a, b] => by simp [enc]
  | a :: b :: c :: l => by
    have := enc_len l
    simp only [enc, List.length_cons, this]
    omega

theorem enc_ink : ∀ x : Bytes, ∀ ch ∈ enc x, ch ≠ 32 ∧ ch ≠ 9
  | [] => by intro ch h; cases h
  | [a] => by
    have ha := a.toNat_lt
    intro ch h
    simp only [enc, List.mem_cons, List.not_mem_nil, or_false] at h
    rcases h with h | h | h | h <;> subst h
    · exact (value_digit _ (by omega)).2.2
    · exact (value_digit _ (by omega)).2.2
    · decide
    · decide
  | [a, b] => by
    have ha := a.toNat_lt
    have hb := b.toNat_lt
    intro ch h
    simp only [enc, List.mem_cons, List.not_mem_nil, or_false] at h
    rcases h with h | h | h | h <;> subst h
    · exact (value_digit _ (by omega)).2.2
    · exact (value_digit _ (by omega)).2.2
    · exact (value_digit _ (by omega)).2.2
    · decide
  | a :: b :: c :: l => by
    have ha := a.toNat_lt
    have hb := b.toNat_lt
    have hc := c.toNat_lt
    intro ch h
    simp only [enc, List.mem_cons] at h
    rcases h with h | h | h | h | h
    · subst h; exact (value_digit _ (by omega)).2.2
    · subst h; exact (value_digit _ (by omega)).2.2
    · subst h; exact (value_digit _ (by omega)).2.2
    · subst h; exact (value_digit _ (by omega)).2.2
    · exact enc_ink l ch h

/-- With any hash. -/
theorem lawful (sha1 : Bytes → Bytes) (h : ∀ x, sha1 x ≠ []) : Lawful { enc := enc, dec := dec, sha1 := sha1 } where
  dec := dec_enc
  len := fun x hx => by show (enc x).length = 24; rw [enc_len, hx]
  ink := enc_ink
  some_ := fun x hx e => by
    have := congrArg List.length e
    rw [enc_len] at this
    cases x with
    | nil => exact hx rfl
    | cons a l => simp at this; omega
  sha1 := h

example : enc b!"the sample nonce" = b!"dGhlIHNhbXBsZSBub25jZQ==" := by decide +kernel

end Verif.Wsh.Base64
