import Verif.Ws.Utf8Lemmas

/-! Frame header and payload codec lemmas. -/

namespace Verif.Ws
open Spec

/-! ### lengths -/

theorem lengthBytes_eq (n k : Nat) : lengthBytes n k = bigEndian n k := by
  induction k with
  | zero => rfl
  | succ k ih =>
    simp only [lengthBytes, bigEndian, ih]
    rw [Nat.shiftRight_eq_div_pow, show (2:Nat) ^ (8 * k) = 256 ^ k by rw [Nat.pow_mul]]

theorem lengthField_eq (m : Bool) (n : Nat) : lengthField (m.toNat * 128) n = lengthOctets m n := by
  unfold lengthField lengthOctets
  rw [lengthBytes_eq, lengthBytes_eq]
  by_cases h : n ≤ 125
  · rw [if_neg (by omega), if_pos h]
  · rw [if_pos (by omega), if_neg h]
    by_cases h2 : n < 2 ^ 16
    · rw [if_neg (by omega), if_pos h2]
    · rw [if_pos (by omega), if_neg h2]

theorem bigEndian_length (n k : Nat) : (bigEndian n k).length = k := by
  induction k with
  | zero => rfl
  | succ k ih => simp [bigEndian, ih]

theorem readLength_lt (bs : Bytes) : readLength bs < 256 ^ bs.length := by
  induction bs with
  | nil => simp [readLength]
  | cons b t ih =>
    simp only [readLength, List.length_cons, Nat.pow_succ]
    have hb : b.toNat ≤ 255 := by have := b.toNat_lt; omega
    have : b.toNat * 256 ^ t.length ≤ 255 * 256 ^ t.length := Nat.mul_le_mul_right _ hb
    omega

theorem readLength_bigEndian (n k : Nat) : readLength (bigEndian n k) = n % 256 ^ k := by
  induction k with
  | zero => simp [bigEndian, readLength, Nat.mod_one]
  | succ k ih =>
    simp only [bigEndian, readLength, ih, bigEndian_length]
    rw [ofNat_toNat_lt (Nat.mod_lt _ (by decide))]
    rw [Nat.pow_succ, Nat.mod_mul, Nat.mul_comm (n / 256 ^ k % 256)]
    omega

theorem bigEndian_add (m n k : Nat) (h : 256 ^ k ∣ m) : bigEndian (m + n) k = bigEndian n k := by
  induction k with
  | zero => rfl
  | succ k ih =>
    simp only [bigEndian]
    have hd : 256 ^ k ∣ m := Nat.dvd_trans ⟨256, by rw [Nat.pow_succ]⟩ h
    rw [ih hd]
    obtain ⟨q, rfl⟩ := h
    have : (256 ^ (k + 1) * q + n) / 256 ^ k % 256 = n / 256 ^ k % 256 := by
      rw [Nat.pow_succ, Nat.mul_assoc, Nat.mul_add_div (Nat.pow_pos (by decide)), Nat.mul_add_mod]
    rw [this]

theorem bigEndian_readLength (bs : Bytes) : bigEndian (readLength bs) bs.length = bs := by
  induction bs with
  | nil => rfl
  | cons b t ih =>
    simp only [readLength, List.length_cons, bigEndian]
    rw [bigEndian_add _ _ _ ⟨b.toNat, Nat.mul_comm _ _⟩, ih]
    congr 1
    have hlt := readLength_lt t
    rw [Nat.mul_comm, Nat.mul_add_div (Nat.pow_pos (by decide)), Nat.div_eq_of_lt hlt, Nat.add_zero,
      Nat.mod_eq_of_lt (by have := b.toNat_lt; omega)]
    simp

/-! ### masking -/

/-- The specification's key function of a model mask. -/
def Mask.fn (k : Mask) : Fin 4 → UInt8
  | 0 => k.k0
  | 1 => k.k1
  | 2 => k.k2
  | 3 => k.k3

/-- Masking from position `i` on. -/
def maskFrom (key : Fin 4 → UInt8) (i : Nat) : Bytes → Bytes
  | [] => []
  | b :: t => (b ^^^ key ⟨i % 4, Nat.mod_lt _ (by decide)⟩) :: maskFrom key (i + 1) t

theorem mapIdx_maskFrom (key : Fin 4 → UInt8) (s : Bytes) (i : Nat) :
    s.mapIdx (fun j b => b ^^^ key ⟨(i + j) % 4, Nat.mod_lt _ (by decide)⟩) = maskFrom key i s := by
  induction s generalizing i with
  | nil => rfl
  | cons b t ih =>
    rw [List.mapIdx_cons, maskFrom, ← ih (i + 1)]
    congr 1
    congr 1
    funext j b
    congr 3
    omega

theorem maskWith_eq (key : Fin 4 → UInt8) (s : Bytes) : maskWith key s = maskFrom key 0 s := by
  rw [← mapIdx_maskFrom]; unfold maskWith; congr 1; funext j b; congr 3; omega

theorem maskFrom_invol (key : Fin 4 → UInt8) (i : Nat) (s : Bytes) :
    maskFrom key i (maskFrom key i s) = s := by
  induction s generalizing i with
  | nil => rfl
  | cons b t ih => simp [maskFrom, ih, UInt8.xor_assoc]

theorem maskWith_invol (key : Fin 4 → UInt8) (s : Bytes) : maskWith key (maskWith key s) = s := by
  rw [maskWith_eq, maskWith_eq, maskFrom_invol]

theorem maskFrom_length (key : Fin 4 → UInt8) (i : Nat) (s : Bytes) : (maskFrom key i s).length = s.length := by
  induction s generalizing i with
  | nil => rfl
  | cons b t ih => simp [maskFrom, ih]

theorem maskWith_length (key : Fin 4 → UInt8) (s : Bytes) : (maskWith key s).length = s.length := by
  simp [maskWith]

theorem maskLoop_eq (k : Mask) (s : Bytes) (i : Nat) (hi : i % 4 = 0) : maskLoop k s = maskFrom k.fn i s := by
  have a0 : (⟨i % 4, Nat.mod_lt _ (by decide)⟩ : Fin 4) = 0 := by apply Fin.ext; simpa using hi
  have a1 : (⟨(i + 1) % 4, Nat.mod_lt _ (by decide)⟩ : Fin 4) = 1 := by
    apply Fin.ext; show (i + 1) % 4 = 1; omega
  have a2 : (⟨(i + 1 + 1) % 4, Nat.mod_lt _ (by decide)⟩ : Fin 4) = 2 := by
    apply Fin.ext; show (i + 1 + 1) % 4 = 2; omega
  have a3 : (⟨(i + 1 + 1 + 1) % 4, Nat.mod_lt _ (by decide)⟩ : Fin 4) = 3 := by
    apply Fin.ext; show (i + 1 + 1 + 1) % 4 = 3; omega
  match s with
  | a :: b :: c :: d :: t =>
    have := maskLoop_eq k t (i + 4) (by omega)
    simp only [maskLoop, maskFrom, a0, a1, a2, a3, Mask.fn, this]
  | [a, b, c] => simp only [maskLoop, maskFrom, a0, a1, a2, Mask.fn]
  | [a, b] => simp only [maskLoop, maskFrom, a0, a1, Mask.fn]
  | [a] => simp only [maskLoop, maskFrom, a0, Mask.fn]
  | [] => rfl

theorem unmask_eq (key : Fin 4 → UInt8) (s : Bytes) (i : Nat) :
    unmask [key 0, key 1, key 2, key 3] i s = maskFrom key i s := by
  induction s generalizing i with
  | nil => rfl
  | cons b t ih =>
    simp only [unmask, maskFrom, ih]
    congr 2
    have : i % 4 = 0 ∨ i % 4 = 1 ∨ i % 4 = 2 ∨ i % 4 = 3 := by omega
    rcases this with h | h | h | h <;> simp only [h] <;> rfl

/-- The key function of four bytes. -/
def keyOf (bs : Bytes) : Fin 4 → UInt8 := fun i => bs.getD i.val 0

theorem keyOf_bytes {bs : Bytes} (h : bs.length = 4) :
    [keyOf bs 0, keyOf bs 1, keyOf bs 2, keyOf bs 3] = bs := by
  match bs, h with
  | [a, b, c, d], _ => rfl

/-! ### first byte -/

/-- The first byte of a frame. -/
def firstByte (f : Frame) : UInt8 := UInt8.ofNat (f.fin.toNat * 128 + f.op)

theorem firstByte_facts {f : Frame} (h : f.op ∈ [0, 1, 2, 8, 9, 10]) :
    isValidOpcode (firstByte f &&& 0x0F) = true ∧ (firstByte f &&& 0x70) = 0 ∧
    (firstByte f &&& 0x0F) = UInt8.ofNat f.op ∧ ((firstByte f &&& 0x80) != 0) = f.fin := by
  obtain ⟨fin, op, pl⟩ := f
  simp only [List.mem_cons, List.not_mem_nil, or_false] at h
  unfold firstByte
  rcases h with rfl | rfl | rfl | rfl | rfl | rfl <;> cases fin <;> simp only [] <;> decide

/-- Frame described by the first byte and a payload. -/
def frameOf (b0 : UInt8) (payload : Bytes) : Frame := ⟨(b0 &&& 0x80) != 0, (b0 &&& 0x0F).toNat, payload⟩

theorem firstByte_frameOf : ∀ (b0 : UInt8), (b0 &&& 0x70) = 0 → ∀ pl,
    firstByte (frameOf b0 pl) = b0 := by
  have : ∀ b0 : UInt8, (b0 &&& 0x70) = 0 →
      UInt8.ofNat (((b0 &&& 0x80) != 0).toNat * 128 + (b0 &&& 0x0F).toNat) = b0 :=
    forall_byte (by decide +kernel)
  intro b0 h pl
  exact this b0 h

theorem validOpcode_iff (op : UInt8) : isValidOpcode op = true ↔ op.toNat ∈ [0, 1, 2, 8, 9, 10] := by
  have : ∀ op : UInt8, isValidOpcode op = decide (op.toNat ∈ [0, 1, 2, 8, 9, 10]) :=
    forall_byte (by decide +kernel)
  rw [this]; simp

theorem and127 : ∀ b : UInt8, (b &&& 127).toNat = b.toNat % 128 := forall_byte (by decide +kernel)
theorem and80 : ∀ b : UInt8, ((b &&& 0x80) != 0) = decide (128 ≤ b.toNat) := forall_byte (by decide +kernel)

/-! ### wire form -/

/-- Everything after the first byte. -/
theorem wire_eq (key : Option (Fin 4 → UInt8)) (f : Frame) :
    wire key f = firstByte f :: (lengthOctets key.isSome f.payload.length ++
      (match key with
       | none => f.payload
       | some k => [k 0, k 1, k 2, k 3] ++ maskWith k f.payload)) := by
  cases key with
  | none => rfl
  | some k => simp only [wire, firstByte, Option.isSome_some, List.append_assoc]

theorem lengthOctets_length (m : Bool) (n : Nat) :
    (lengthOctets m n).length = if n ≤ 125 then 1 else if n < 2 ^ 16 then 3 else 9 := by
  unfold lengthOctets
  split
  · rfl
  · split <;> simp [bigEndian_length]

theorem wire_length (key : Option (Fin 4 → UInt8)) (f : Frame) :
    (wire key f).length = 1 + (lengthOctets key.isSome f.payload.length).length +
      (if key.isSome then 4 else 0) + f.payload.length := by
  rw [wire_eq]
  cases key with
  | none => simp; omega
  | some k => simp [maskWith_length]; omega

theorem fill_eq_wire (m : Msg) (k : Mask) (fin : Bool) (op : Nat)
    (hop : op ∈ [0, 1, 2, 8, 9, 10]) (hf : m.frop = UInt8.ofNat (fin.toNat * 128 + op)) :
    m.frop :: (lengthField 0 m.data.length ++ m.data) = wire none ⟨fin, op, m.data⟩ ∧
    m.frop :: (lengthField 128 m.data.length ++ k.bytes ++ maskLoop k m.data) =
      wire (some k.fn) ⟨fin, op, m.data⟩ := by
  have h0 := lengthField_eq false m.data.length
  have h1 := lengthField_eq true m.data.length
  simp only [Bool.toNat_false, Bool.toNat_true, Nat.zero_mul, Nat.one_mul] at h0 h1
  refine ⟨?_, ?_⟩
  · simp only [wire, h0, hf]
  · simp only [wire, h1, hf, maskLoop_eq k m.data 0 rfl, maskWith_eq]; rfl

end Verif.Ws
