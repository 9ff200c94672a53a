import Verif.Base

/-! Independent specification of UTF-8 (RFC 3629) and of the WebSocket wire format (RFC 6455 §5).
Nothing here refers to the model. -/

namespace Verif.Ws.Spec

/-! ## UTF-8 -/

/-- Unicode scalar values. -/
def Scalar (n : Nat) : Prop := n ≤ 0x10FFFF ∧ ¬ (0xD800 ≤ n ∧ n ≤ 0xDFFF)

/-- RFC 3629: the octets encoding a scalar value. -/
def utf8Enc (n : Nat) : Bytes :=
  if n ≤ 0x7F then [UInt8.ofNat n]
  else if n ≤ 0x7FF then [UInt8.ofNat (0xC0 + n / 64), UInt8.ofNat (0x80 + n % 64)]
  else if n ≤ 0xFFFF then
    [UInt8.ofNat (0xE0 + n / 4096), UInt8.ofNat (0x80 + n / 64 % 64), UInt8.ofNat (0x80 + n % 64)]
  else
    [UInt8.ofNat (0xF0 + n / 262144), UInt8.ofNat (0x80 + n / 4096 % 64),
     UInt8.ofNat (0x80 + n / 64 % 64), UInt8.ofNat (0x80 + n % 64)]

/-- Well-formed UTF-8: a concatenation of encodings of scalar values. -/
def Utf8 (s : Bytes) : Prop := ∃ ns : List Nat, (∀ n ∈ ns, Scalar n) ∧ s = ns.flatMap utf8Enc

/-! ## Frames -/

/-- An RFC 6455 frame, without masking. -/
structure Frame where
  fin : Bool
  op : Nat
  payload : Bytes
deriving DecidableEq, Repr

/-- Control opcodes. -/
def Frame.control (f : Frame) : Prop := 8 ≤ f.op

/-- Frames that RFC 6455 allows (no extension negotiated). -/
def Frame.Legal (f : Frame) : Prop :=
  f.op ∈ [0, 1, 2, 8, 9, 10] ∧ f.payload.length < 2 ^ 63 ∧
  (8 ≤ f.op → f.fin = true ∧ f.payload.length ≤ 125)

/-- `n` as `k` big-endian octets. -/
def bigEndian (n : Nat) : Nat → Bytes
  | 0 => []
  | k + 1 => UInt8.ofNat (n / 256 ^ k % 256) :: bigEndian n k

/-- Length field: the shortest form, with the mask bit on top of the first octet. -/
def lengthOctets (masked : Bool) (n : Nat) : Bytes :=
  if n ≤ 125 then [UInt8.ofNat (n + masked.toNat * 128)]
  else if n < 2 ^ 16 then UInt8.ofNat (126 + masked.toNat * 128) :: bigEndian n 2
  else UInt8.ofNat (127 + masked.toNat * 128) :: bigEndian n 8

/-- Masking: octet `i` of the payload XOR octet `i mod 4` of the key. -/
def maskWith (key : Fin 4 → UInt8) (s : Bytes) : Bytes :=
  s.mapIdx fun i b => b ^^^ key ⟨i % 4, Nat.mod_lt _ (by decide)⟩

/-- The wire form of a frame; a client (`key = some _`) masks, a server does not. -/
def wire (key : Option (Fin 4 → UInt8)) (f : Frame) : Bytes :=
  UInt8.ofNat (f.fin.toNat * 128 + f.op) ::
    (match key with
     | none => lengthOctets false f.payload.length ++ f.payload
     | some k => lengthOctets true f.payload.length ++ [k 0, k 1, k 2, k 3] ++ maskWith k f.payload)

/-- Status codes an endpoint may put into a Close frame. -/
def SendableCode (n : Nat) : Prop := 1000 ≤ n ∧ n ≤ 4999 ∧ n ∉ [1004, 1005, 1006, 1015]

end Verif.Ws.Spec
