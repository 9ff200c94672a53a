import Verif.Base

/-! # HPACK integer representation — model of `2/protocol/hpack.cpp` -/

namespace Verif.Hpack

/-- `UINT64_MAX` (hpack.cpp 123, 129). -/
def u64Max : Nat := 2 ^ 64 - 1

/-- `uint8_t prefix_mask = (1 << N) - 1` (hpack.cpp 97, 378): the shift is done in `int`, the result
is truncated to 8 bits. -/
def prefixMask (N : Nat) : Nat := (2 ^ N - 1) % 256

/-- The `while (value >= 128) { push (value % 128) | 0x80; value /= 128; } push value` loop of
`Encoder::encode_integer` (hpack.cpp 384-388). -/
def encodeTail (v : Nat) : Bytes :=
  if v ≥ 128 then UInt8.ofNat ((v % 128) ||| 0x80) :: encodeTail (v / 128) else [UInt8.ofNat v]
termination_by v

/-- `Encoder::encode_integer(buffer, prefix_bits, N, value)` (hpack.cpp 376-390): the bytes it appends.
`value` is a `uint64_t`; here a natural number, which the theorems bound by `2^64`. -/
def encodeInt (flags : Byte) (N : Nat) (v : Nat) : Bytes :=
  if v < prefixMask N then [flags ||| UInt8.ofNat v]
  else (flags ||| UInt8.ofNat (prefixMask N)) :: encodeTail (v - prefixMask N)

/-- The `do … while` loop of `Decoder::decode_integer` (hpack.cpp 111-136) from shift `M` with
accumulated `value`. `uint64_t` arithmetic is modelled as natural-number arithmetic reduced modulo
`2^64` at the shift (127) and at the addition (133), guarded exactly as in the code. -/
def decodeTail (value M : Nat) : Bytes → Option (Nat × Bytes)
  | [] => none
  | b :: rest =>
    if M ≥ 64 then none
    else
      let term := (b &&& 0x7F).toNat
      if M > 0 ∧ term > u64Max >>> M then none
      else
        let shifted := (term <<< M) % 2 ^ 64
        if value > u64Max - shifted then none
        else
          let value' := (value + shifted) % 2 ^ 64
          if b &&& 0x80 ≠ 0 then decodeTail value' (M + 7) rest else some (value', rest)

/-- `Decoder::decode_integer(current_pos, end_pos, N)` (hpack.cpp 92-139). `none` is the `{0, -1}`
failure; on success the value and the unread input. (The number of consumed bytes is the length
difference; every caller only tests it for being negative.) -/
def decodeInt (N : Nat) : Bytes → Option (Nat × Bytes)
  | [] => none
  | b :: rest =>
    let value := b.toNat &&& prefixMask N
    if value < prefixMask N then some (value, rest) else decodeTail value 0 rest

end Verif.Hpack
