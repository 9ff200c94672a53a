import Verif.Hpack.IntModel
import Verif.Hpack.IntSpec

namespace Verif.Hpack
open Spec

theorem prefixMask_eq {N : Nat} (h : 1 ≤ N ∧ N ≤ 8) : prefixMask N = 2 ^ N - 1 := by
  obtain ⟨h1, h2⟩ := h
  have : ∀ n : Fin 9, prefixMask n.val = 2 ^ n.val - 1 := by decide
  exact this ⟨N, by omega⟩

theorem and7f (b : Byte) : (b &&& 0x7F).toNat = b.toNat % 128 := by
  revert b; exact forall_byte (by decide +kernel)

theorem and80 (b : Byte) : (b &&& 0x80 ≠ 0) ↔ 128 ≤ b.toNat := by
  revert b; exact forall_byte (by decide +kernel)

theorem and_mask (b : Byte) {N : Nat} (h : 1 ≤ N ∧ N ≤ 8) :
    b.toNat &&& prefixMask N = b.toNat % 2 ^ N := by
  rw [prefixMask_eq h, Nat.and_two_pow_sub_one_eq_mod]

/-- One iteration of the loop, in exact arithmetic. -/
theorem decodeTail_cons (value M : Nat) (b : Byte) (rest : Bytes) (hv : value < 2 ^ 64) :
    decodeTail value M (b :: rest) =
      if M < 64 ∧ value + b.toNat % 128 * 2 ^ M < 2 ^ 64 then
        if 128 ≤ b.toNat then decodeTail (value + b.toNat % 128 * 2 ^ M) (M + 7) rest
        else some (value + b.toNat % 128 * 2 ^ M, rest)
      else none := by
  rw [decodeTail]
  simp only [and7f, and80, Nat.shiftLeft_eq, Nat.shiftRight_eq_div_pow]
  generalize ht : b.toNat % 128 = t
  have ht' : t < 128 := by omega
  have hp : 0 < 2 ^ M := Nat.two_pow_pos M
  have hdiv : t > u64Max / 2 ^ M ↔ 2 ^ 64 ≤ t * 2 ^ M := by
    have := Nat.le_div_iff_mul_le hp (x := t) (y := u64Max)
    have h2 : u64Max < 2 ^ 64 := by decide
    have h3 : u64Max + 1 = 2 ^ 64 := by decide
    omega
  by_cases hM : M ≥ 64
  · simp [hM]; omega
  · rw [if_neg hM]
    by_cases hover : 2 ^ 64 ≤ t * 2 ^ M
    · have hM0 : M > 0 := by
        rcases Nat.eq_zero_or_pos M with h | h
        · subst h; simp at hover; omega
        · exact h
      rw [if_pos ⟨hM0, hdiv.mpr hover⟩, if_neg (by omega)]
    · rw [if_neg (by rw [hdiv]; omega)]
      have hmod : t * 2 ^ M % 2 ^ 64 = t * 2 ^ M := Nat.mod_eq_of_lt (by omega)
      rw [hmod]
      by_cases hsum : value + t * 2 ^ M < 2 ^ 64
      · have h3 : u64Max + 1 = 2 ^ 64 := by decide
        rw [if_neg (by omega), if_pos (c := M < 64 ∧ _) ⟨by omega, hsum⟩, Nat.mod_eq_of_lt hsum]
      · have h3 : u64Max + 1 = 2 ^ 64 := by decide
        rw [if_pos (by omega), if_neg (by omega)]

theorem continuation_cons {b : Byte} {bs : Bytes} :
    Continuation (b :: bs) ↔ (128 ≤ b.toNat ∧ Continuation bs) ∨ (b.toNat < 128 ∧ bs = []) := by
  constructor
  · intro h
    cases h with
    | last _ h => exact Or.inr ⟨h, rfl⟩
    | more _ _ h t => exact Or.inl ⟨h, t⟩
  · rintro (⟨h, t⟩ | ⟨h, rfl⟩)
    · exact .more _ _ h t
    · exact .last _ h

theorem not_continuation_nil : ¬ Continuation [] := by intro h; cases h

/-- exact behaviour of the continuation loop -/
theorem decodeTail_iff (bs : Bytes) : ∀ (value M : Nat) (v : Nat) (rest : Bytes), value < 2 ^ 64 →
    (decodeTail value M bs = some (v, rest) ↔
      ∃ used, bs = used ++ rest ∧ Continuation used ∧ M + 7 * used.length ≤ 70 ∧
        v = value + digits used * 2 ^ M ∧ v < 2 ^ 64) := by
  induction bs with
  | nil =>
    intro value M v rest hv
    constructor
    · intro h; simp [decodeTail] at h
    · rintro ⟨used, h, c, -⟩
      have : used = [] := by cases used <;> simp_all
      subst this; cases c
  | cons b bs ih =>
    intro value M v rest hv
    rw [decodeTail_cons _ _ _ _ hv]
    have harith : ∀ d, b.toNat % 128 * 2 ^ M + d * 2 ^ (M + 7) = (b.toNat % 128 + 128 * d) * 2 ^ M := by
      intro d
      rw [Nat.pow_add, Nat.add_mul]
      have : d * (2 ^ M * 2 ^ 7) = 128 * d * 2 ^ M := by
        rw [Nat.mul_comm (2 ^ M), ← Nat.mul_assoc, Nat.mul_comm d]
      omega
    constructor
    · intro h
      split at h
      case isFalse => cases h
      case isTrue hc =>
        split at h
        case isTrue hb =>
          rw [ih _ _ _ _ hc.2] at h
          obtain ⟨used, rfl, c, hl, hv2, hlt⟩ := h
          refine ⟨b :: used, rfl, .more _ _ hb c, by simp; omega, ?_, hlt⟩
          rw [digits, ← harith, hv2]; omega
        case isFalse hb =>
          simp only [Option.some.injEq, Prod.mk.injEq] at h
          obtain ⟨rfl, rfl⟩ := h
          refine ⟨[b], rfl, .last _ (by omega), by simp; omega, ?_, hc.2⟩
          simp [digits]
    · rintro ⟨used, happ, c, hl, hv2, hlt⟩
      cases used with
      | nil => exact absurd c not_continuation_nil
      | cons u us =>
        simp only [List.cons_append, List.cons.injEq] at happ
        obtain ⟨rfl, rfl⟩ := happ
        simp only [List.length_cons] at hl
        rw [digits, ← harith] at hv2
        rw [if_pos ⟨by omega, by omega⟩]
        rcases continuation_cons.mp c with ⟨hb, c⟩ | ⟨hb, rfl⟩
        · rw [if_pos hb, ih _ _ _ _ (by omega)]
          exact ⟨us, rfl, c, by omega, by omega, hlt⟩
        · rw [if_neg (by omega)]
          simp [digits] at hv2
          simp [hv2]

/-- exact behaviour of the integer decoder -/
theorem decodeInt_iff {N : Nat} (hN : 1 ≤ N ∧ N ≤ 8) (bs : Bytes) (v : Nat) (rest : Bytes) :
    decodeInt N bs = some (v, rest) ↔
      ∃ used, bs = used ++ rest ∧ IsInt N used v ∧ used.length ≤ 11 ∧ v < 2 ^ 64 := by
  have hp : 2 ≤ 2 ^ N ∧ 2 ^ N ≤ 256 := by
    have : ∀ n : Fin 9, 1 ≤ n.val → 2 ≤ 2 ^ n.val ∧ 2 ^ n.val ≤ 256 := by decide
    exact this ⟨N, by omega⟩ hN.1
  cases bs with
  | nil =>
    simp only [decodeInt, reduceCtorEq, false_iff]
    rintro ⟨used, h, c, -⟩
    have : used = [] := by cases used <;> simp_all
    subst this; cases c
  | cons b bs =>
    have hb : b.toNat < 256 := b.toNat_lt
    have hm : b.toNat % 2 ^ N < 2 ^ N := Nat.mod_lt _ (by omega)
    have ham := and_mask b hN
    rw [prefixMask_eq hN] at ham
    simp only [decodeInt, prefixMask_eq hN, ham]
    by_cases h : b.toNat % 2 ^ N < 2 ^ N - 1
    · rw [if_pos h]
      constructor
      · intro h2; simp only [Option.some.injEq, Prod.mk.injEq] at h2
        obtain ⟨rfl, rfl⟩ := h2
        exact ⟨[b], rfl, .short _ (by omega), by simp, by omega⟩
      · rintro ⟨used, happ, c, -⟩
        cases c with
        | short b' h' => simp at happ; simp [happ]
        | long b' bs' h' c' => simp at happ; obtain ⟨rfl, -⟩ := happ; omega
    · rw [if_neg h, decodeTail_iff _ _ _ _ _ (by omega)]
      have hm2 : b.toNat % 2 ^ N = 2 ^ N - 1 := by omega
      constructor
      · rintro ⟨used, rfl, c, hl, hv, hlt⟩
        refine ⟨b :: used, rfl, ?_, by simp; omega, hlt⟩
        rw [hm2] at hv; simp only [Nat.pow_zero, Nat.mul_one] at hv
        rw [hv]
        exact .long _ _ hm2 c
      · rintro ⟨used, happ, c, hl, hlt⟩
        cases c with
        | short b' h' => simp at happ; obtain ⟨rfl, -⟩ := happ; omega
        | long b' bs' h' c' =>
          simp only [List.cons_append, List.cons.injEq] at happ
          obtain ⟨rfl, rfl⟩ := happ
          exact ⟨bs', rfl, c', by simp at hl; omega, by rw [hm2]; simp, hlt⟩

theorem or80 (v : Nat) : (UInt8.ofNat ((v % 128) ||| 0x80)).toNat = v % 128 + 128 := by
  have : ∀ n : Fin 128, (UInt8.ofNat (n.val ||| 0x80)).toNat = n.val + 128 := by decide +kernel
  exact this ⟨v % 128, by omega⟩

theorem encodeTail_spec (v : Nat) : Continuation (encodeTail v) ∧ digits (encodeTail v) = v := by
  induction v using Nat.strongRecOn with
  | _ v ih =>
    rw [encodeTail]
    split
    · obtain ⟨h1, h2⟩ := ih (v / 128) (by omega)
      refine ⟨.more _ _ (by rw [or80]; omega) h1, ?_⟩
      rw [digits, or80, h2]; omega
    · have : (UInt8.ofNat v).toNat = v := by simp; omega
      refine ⟨.last _ (by omega), ?_⟩
      simp only [digits, this]; omega

theorem encodeTail_length (k v : Nat) (h : v < 128 ^ (k + 1)) : (encodeTail v).length ≤ k + 1 := by
  induction k generalizing v with
  | zero => rw [encodeTail, if_neg (by omega)]; simp
  | succ k ih =>
    rw [encodeTail]
    split
    · have := ih (v / 128) (by rw [Nat.pow_succ] at h; omega)
      simp; omega
    · simp

/-- the prefix byte keeps its low bits free -/
def Free (flags : Byte) (N : Nat) : Prop := flags.toNat % 2 ^ N = 0

theorem or_flags {flags : Byte} {N v : Nat} (hN : 1 ≤ N ∧ N ≤ 8) (hf : Free flags N)
    (hv : v < 2 ^ N) : (flags ||| UInt8.ofNat v).toNat = flags.toNat + v := by
  have hp : 2 ^ N ≤ 256 := by
    have : ∀ n : Fin 9, 2 ^ n.val ≤ 256 := by decide
    exact this ⟨N, by omega⟩
  have hfl : flags.toNat = 2 ^ N * (flags.toNat / 2 ^ N) := by
    have := Nat.div_add_mod flags.toNat (2 ^ N); unfold Free at hf; omega
  rw [UInt8.toNat_or]
  have : (UInt8.ofNat v).toNat = v := by simp; omega
  rw [this, hfl, ← Nat.two_pow_add_eq_or_of_lt hv]

theorem encodeInt_spec {flags : Byte} {N v : Nat} (hN : 1 ≤ N ∧ N ≤ 8) (hf : Free flags N)
    (hv : v < 2 ^ 64) :
    IsInt N (encodeInt flags N v) v ∧ (encodeInt flags N v).length ≤ 11 ∧
    ∃ b bs, encodeInt flags N v = b :: bs ∧ b.toNat - b.toNat % 2 ^ N = flags.toNat := by
  have hp : 2 ≤ 2 ^ N ∧ 2 ^ N ≤ 256 := by
    have : ∀ n : Fin 9, 1 ≤ n.val → 2 ≤ 2 ^ n.val ∧ 2 ^ n.val ≤ 256 := by decide
    exact this ⟨N, by omega⟩ hN.1
  have key : ∀ w, w < 2 ^ N → (flags ||| UInt8.ofNat w).toNat % 2 ^ N = w := by
    intro w hw
    rw [or_flags hN hf hw, Nat.add_mod]; unfold Free at hf
    rw [hf, Nat.zero_add, Nat.mod_mod, Nat.mod_eq_of_lt hw]
  have key2 : ∀ w, w < 2 ^ N → (flags ||| UInt8.ofNat w).toNat - (flags ||| UInt8.ofNat w).toNat % 2 ^ N
      = flags.toNat := by
    intro w hw
    rw [key w hw, or_flags hN hf hw]; omega
  unfold encodeInt
  rw [prefixMask_eq hN]
  split
  · rename_i h
    refine ⟨?_, by simp, _, _, rfl, key2 _ (by omega)⟩
    have := IsInt.short (N := N) (flags ||| UInt8.ofNat v) (by rw [key _ (by omega)]; omega)
    rwa [key _ (by omega)] at this
  · rename_i h
    obtain ⟨c, d⟩ := encodeTail_spec (v - (2 ^ N - 1))
    have hl := encodeTail_length 9 (v - (2 ^ N - 1)) (by
      have : (2:Nat) ^ 64 ≤ 128 ^ (9 + 1) := by decide
      omega)
    refine ⟨?_, by simp; omega, _, _, rfl, key2 _ (by omega)⟩
    have := IsInt.long (N := N) (flags ||| UInt8.ofNat (2 ^ N - 1)) _ (key _ (by omega)) c
    rw [d] at this
    have e : 2 ^ N - 1 + (v - (2 ^ N - 1)) = v := by omega
    rwa [e] at this

theorem decodeInt_encodeInt {flags : Byte} {N v : Nat} (hN : 1 ≤ N ∧ N ≤ 8) (hf : Free flags N)
    (hv : v < 2 ^ 64) (rest : Bytes) :
    decodeInt N (encodeInt flags N v ++ rest) = some (v, rest) := by
  rw [decodeInt_iff hN]
  obtain ⟨h1, h2, -⟩ := encodeInt_spec hN hf hv
  exact ⟨_, rfl, h1, h2, hv⟩

end Verif.Hpack
