import Verif.Hpack.CodecSpec
import Verif.Hpack.IntLemmas
import Verif.Hpack.HuffLemmas
import Verif.Hpack.TableLemmas
import Verif.Hpack.StaticLemmas

namespace Verif.Hpack
open Spec

attribute [local irreducible] decodeTree huffTable staticTable nameIndex

theorem static_length : staticTable.length = 61 := by
  have : ∀ h : staticTable.length = 61, staticTable.length = 61 := fun h => h
  exact this (by unfold staticTable; rfl)

/-! ## Strings -/

theorem encodeInt_cons {flags : Byte} {N v : Nat} (hN : 1 ≤ N ∧ N ≤ 8) (hf : Free flags N)
    (hv : v < 2 ^ 64) : ∃ b bs, encodeInt flags N v = b :: bs ∧ b.toNat - b.toNat % 2 ^ N = flags.toNat :=
  (encodeInt_spec hN hf hv).2.2

theorem free_80_7 : Free 0x80 7 := by unfold Free; decide
theorem free_00_7 : Free 0x00 7 := by unfold Free; decide
theorem free_40_6 : Free 0x40 6 := by unfold Free; decide
theorem free_10_4 : Free 0x10 4 := by unfold Free; decide
theorem free_00_4 : Free 0x00 4 := by unfold Free; decide

theorem decodeStr_raw {flags : Byte} (t : Bytes) (rest : Bytes) (ht : t.length < 2 ^ 64)
    (hf : Free flags 7) :
    decodeStr (encodeInt flags 7 t.length ++ t ++ rest) =
      if 128 ≤ flags.toNat then
        (match huffDecode t with | none => .error true | some s => .ok (s, rest))
      else .ok (t, rest) := by
  obtain ⟨b, bs, he, hb⟩ := encodeInt_cons (by omega : 1 ≤ 7 ∧ 7 ≤ 8) hf ht
  have hd := decodeInt_encodeInt (by omega : 1 ≤ 7 ∧ 7 ≤ 8) hf ht (t ++ rest)
  have hfl : 128 ≤ b.toNat ↔ 128 ≤ flags.toNat := by
    have := b.toNat_lt
    omega
  rw [List.append_assoc]
  rw [he] at hd ⊢
  simp only [List.cons_append, decodeStr] at hd ⊢
  rw [hd]
  simp only [List.length_append]
  rw [if_neg (by omega)]
  simp only [and80, hfl, List.take_left, List.drop_left]
  try (cases huffDecode t <;> rfl)

theorem decodeStr_encodeStr (s : Bytes) (h : Bool) (rest : Bytes) (hs : s.length < 2 ^ 64) :
    decodeStr (encodeStr s h ++ rest) = .ok (s, rest) := by
  unfold encodeStr
  split
  · rename_i hc
    simp only [Bool.and_eq_true, shouldUseHuffman, decide_eq_true_eq] at hc
    have hl := isHuffman_length (huffEncode_isHuffman s)
    rw [decodeStr_raw _ _ (by omega) free_80_7, if_pos (by decide), huffDecode_huffEncode]
  · rw [decodeStr_raw _ _ hs free_00_7, if_neg (by decide)]

/-! ## Table lookups -/

theorem lookup_static {r : Ring} {i : Nat} (h1 : 1 ≤ i) (h2 : i ≤ 61) : lookup r i = staticTable[i - 1]? := by
  unfold lookup; rw [if_pos ⟨by omega, h2⟩]

theorem count_lt {r : Ring} (h : r.Inv) : r.count < 2 ^ 27 := by
  have h1 := total_fields h.toInv0
  have h2 := total_ge r.fields
  rw [fields_length] at h2
  have := h.le
  have := h.max32
  omega

theorem lookup_dynamic {r : Ring} (h : r.Inv) {i : Nat} (hi : i < r.count) :
    lookup r (61 + i + 1) = r.fields[i]? := by
  have hc := count_lt h
  unfold lookup
  rw [if_neg (by omega)]
  have : (61 + i + 1 + (2 ^ 64 - 61)) % 2 ^ 64 = i + 1 := by omega
  rw [this]
  dsimp only
  rw [if_neg (by omega), Nat.add_sub_cancel, get_field hi]

theorem dynScan_spec (r : Ring) (n v : Bytes) (f : Nat) : ∀ i acc, i + f = r.count →
    (∀ j, (dynScan r n v f i acc).1 = some j →
      acc = some j ∨ ∃ k w, k < r.count ∧ j = 61 + k + 1 ∧ r.fields[k]? = some (n, w)) ∧
    (∀ j, (dynScan r n v f i acc).2 = some j →
      ∃ k, k < r.count ∧ j = 61 + k + 1 ∧ r.fields[k]? = some (n, v)) ∧
    ((dynScan r n v f i acc).2 = none → ∀ k, i ≤ k → k < r.count → r.fields[k]? ≠ some (n, v)) := by
  induction f with
  | zero =>
    intro i acc h
    refine ⟨?_, ?_, ?_⟩
    · intro j hj; exact Or.inl hj
    · intro j hj; cases hj
    · intro _ k h1 h2; omega
  | succ f ih =>
    intro i acc h
    have hi : i < r.count := by omega
    have hg := get_field hi
    rw [dynScan]
    split
    · rename_i hn
      split
      · rename_i hv
        rw [hn, hv] at hg
        refine ⟨?_, ?_, ?_⟩
        · intro j hj
          simp only [Option.some.injEq] at hj
          exact Or.inr ⟨i, v, hi, hj.symm, hg⟩
        · intro j hj
          simp only [Option.some.injEq] at hj
          exact ⟨i, hi, hj.symm, hg⟩
        · intro hj; cases hj
      · rename_i hv
        obtain ⟨a1, a2, a3⟩ := ih (i + 1) (some (61 + i + 1)) (by omega)
        refine ⟨?_, a2, ?_⟩
        · intro j hj
          rcases a1 j hj with h1 | h1
          · simp only [Option.some.injEq] at h1
            rw [hn] at hg
            exact Or.inr ⟨i, _, hi, h1.symm, hg⟩
          · exact Or.inr h1
        · intro hj k h1 h2
          by_cases hk : k = i
          · subst hk; rw [hg]
            intro hc
            simp only [Option.some.injEq, Prod.mk.injEq] at hc
            exact hv hc.2
          · exact a3 hj k (by omega) h2
    · rename_i hn
      obtain ⟨a1, a2, a3⟩ := ih (i + 1) acc (by omega)
      refine ⟨a1, a2, ?_⟩
      intro hj k h1 h2
      by_cases hk : k = i
      · subst hk; rw [hg]
        intro hc
        simp only [Option.some.injEq, Prod.mk.injEq] at hc
        exact hn hc.1
      · exact a3 hj k (by omega) h2

/-! ## Encoder and decoder in step -/

/-- two tables holding the same entries under the same budget -/
structure Synced (e d : Ring) : Prop where
  einv : e.Inv
  dinv : d.Inv
  max : e.max = d.max
  fields : e.fields = d.fields

theorem Synced.count {e d : Ring} (h : Synced e d) : e.count = d.count := by
  rw [← fields_length, ← fields_length, h.fields]

theorem Synced.add {e d : Ring} (h : Synced e d) (n v : Bytes) : Synced (e.add n v).1 (d.add n v).1 := by
  obtain ⟨a1, a2, a3, -⟩ := add_spec h.einv n v
  obtain ⟨b1, b2, b3, -⟩ := add_spec h.dinv n v
  exact ⟨a1, b1, by rw [a2, b2, h.max], by rw [a3, b3, h.max, h.fields]⟩

theorem Synced.setMax {e d : Ring} (h : Synced e d) {m : Nat} (hm : m < 2 ^ 32) :
    Synced (e.setMax m).1 (d.setMax m).1 := by
  obtain ⟨a1, a2, a3, -⟩ := setMax_spec h.einv m hm
  obtain ⟨b1, b2, b3, -⟩ := setMax_spec h.dinv m hm
  exact ⟨a1, b1, by rw [a2, b2], by rw [a3, b3, h.fields]⟩

/-- an index the encoder may use for a name -/
def NameIdx (r : Ring) (n : Bytes) (i : Nat) : Prop := i ≠ 0 ∧ i < 2 ^ 64 ∧ ∃ v, lookup r i = some (n, v)

theorem decodeLiteral_encode {r : Ring} {flags : Byte} {N : Nat} (hN : 1 ≤ N ∧ N ≤ 8) (hf : Free flags N)
    (f : HField) (dyn stat : Option Nat) (hd : ∀ i, dyn = some i → NameIdx r f.name i)
    (hst : ∀ i, stat = some i → NameIdx r f.name i) (rest : Bytes)
    (hn : f.name.length < 2 ^ 64) (hv : f.value.length < 2 ^ 64) :
    decodeLiteral r N (encodeLiteral flags N f dyn stat ++ rest) = .ok (f.name, f.value, rest) := by
  have idx : ∀ i, NameIdx r f.name i →
      decodeLiteral r N (encodeInt flags N i ++ (encodeStr f.value true ++ rest)) = .ok (f.name, f.value, rest) := by
    rintro i ⟨h0, hlt, v, hl⟩
    unfold decodeLiteral
    rw [decodeInt_encodeInt hN hf hlt]
    simp only [decodeName, if_neg h0, hl, decodeStr_encodeStr _ _ _ hv]
  unfold encodeLiteral
  cases dyn with
  | some i => simp only [List.append_assoc]; exact idx i (hd i rfl)
  | none =>
    cases stat with
    | some i => simp only [List.append_assoc]; exact idx i (hst i rfl)
    | none =>
      simp only [List.append_assoc]
      unfold decodeLiteral
      rw [decodeInt_encodeInt hN hf (by decide)]
      simp only [decodeName, if_true, decodeStr_encodeStr _ _ _ hn, decodeStr_encodeStr _ _ _ hv]

/-- the first byte of a literal representation -/
theorem encodeLiteral_cons {flags : Byte} {N : Nat} (hN : 1 ≤ N ∧ N ≤ 8) (hf : Free flags N)
    (f : HField) (dyn stat : Option Nat) (hd : ∀ i, dyn = some i → i < 2 ^ 64)
    (hst : ∀ i, stat = some i → i < 2 ^ 64) :
    ∃ b bs, encodeLiteral flags N f dyn stat = b :: bs ∧ b.toNat - b.toNat % 2 ^ N = flags.toNat := by
  have idx : ∀ i t, i < 2 ^ 64 → ∃ b bs, encodeInt flags N i ++ t = b :: bs ∧
      b.toNat - b.toNat % 2 ^ N = flags.toNat := by
    intro i t hi
    obtain ⟨b, bs, he, hb⟩ := encodeInt_cons hN hf hi
    exact ⟨b, bs ++ t, by rw [he]; rfl, hb⟩
  unfold encodeLiteral
  cases dyn with
  | some i => exact idx i _ (hd i rfl)
  | none =>
    cases stat with
    | some i => exact idx i _ (hst i rfl)
    | none => simp only [List.append_assoc]; exact idx 0 _ (by decide)

theorem emit_check (L : Nat) (st : DState) (rest : Bytes) (h : L = 0 ∨ st.size ≤ L) :
    checkList L st rest = .next st rest := by
  unfold checkList; rw [if_neg (by omega)]

/-- what the encoder may legitimately refer to for this field -/
theorem scan_name {r : Ring} (h : r.Inv) (n v : Bytes) {i : Nat}
    (hi : (dynScan r n v r.count 0 none).1 = some i) : NameIdx r n i ∧ i < 2 ^ 64 := by
  have hc := count_lt h
  rcases (dynScan_spec r n v r.count 0 none (by omega)).1 i hi with h1 | ⟨k, w, hk, rfl, hf⟩
  · cases h1
  · exact ⟨⟨by omega, by omega, w, by rw [lookup_dynamic h hk, hf]⟩, by omega⟩

theorem static_name {r : Ring} {n : Bytes} {i : Nat} (hi : findName n = some i) : NameIdx r n i ∧ i < 2 ^ 64 := by
  rw [findName_eq] at hi
  obtain ⟨h1, h2, v, hv⟩ := firstName_some hi
  exact ⟨⟨by omega, by omega, v, by rw [lookup_static h1 h2, hv]⟩, by omega⟩

theorem NameIdx.transfer {e d : Ring} (h : Synced e d) {n : Bytes} {i : Nat} (hi : NameIdx e n i) : NameIdx d n i := by
  obtain ⟨h0, hlt, v, hl⟩ := hi
  refine ⟨h0, hlt, v, ?_⟩
  rw [← hl]
  by_cases hs : i ≤ 61
  · rw [lookup_static (by omega) hs, lookup_static (by omega) hs]
  · obtain ⟨k, rfl⟩ : ∃ k, i = 61 + k + 1 := ⟨i - 62, by omega⟩
    by_cases hk : k < e.count
    · rw [lookup_dynamic h.einv hk, lookup_dynamic h.dinv (by rw [← h.count]; exact hk), h.fields]
    · unfold lookup at hl
      rw [if_neg (by omega)] at hl
      have : (61 + k + 1 + (2 ^ 64 - 61)) % 2 ^ 64 = k + 1 := by omega
      rw [this] at hl
      dsimp only at hl
      rw [if_pos (by omega)] at hl
      cases hl

/-- the decoder's view of the field just encoded -/
inductive Delivered (f : HField) : HField → Prop
  | plain : Delivered f ⟨f.name, f.value, false⟩
  | never (h : Secret f) : Delivered f ⟨f.name, f.value, true⟩

theorem isPrefixOf_iff {a b : Bytes} : a.isPrefixOf b = true ↔ ∃ t, b = a ++ t := by
  rw [List.isPrefixOf_iff_prefix]
  constructor
  · rintro ⟨t, h⟩; exact ⟨t, h.symm⟩
  · rintro ⟨t, h⟩; exact ⟨t, h.symm⟩

theorem secret_iff (f : HField) : (f.sensitive || f.sensitiveByDefault || f.isPseudo) = true ↔ Secret f := by
  have hp : f.isPseudo = true ↔ ∃ t, f.name = b!":" ++ t := by
    unfold HField.isPseudo
    cases f.name with
    | nil => simp
    | cons a l => simp
  simp only [Bool.or_eq_true, HField.sensitiveByDefault, beq_iff_eq, hp, isPrefixOf_iff, Secret]
  constructor
  · rintro ((h | ((h | h) | h) | h) | h) <;> simp only [h, true_or, or_true]
  · rintro (h | h | h | h | h | h) <;> simp only [h, true_or, or_true]

theorem step_sync {e d : Ring} (hs : Synced e d) (T L : Nat) (f : HField) (st : DState) (hst : st.tbl = d)
    (rest : Bytes) (hn : f.name.length < 2 ^ 64) (hv : f.value.length < 2 ^ 64)
    (hL : L = 0 ∨ st.size + f.size ≤ L) :
    ∃ b bs g, (encodeField e f).1 = b :: bs ∧ Delivered f g ∧
      ∃ d', Synced (encodeField e f).2 d' ∧
      decodeStep T L st b ((encodeField e f).1 ++ rest) =
        .next ⟨d', st.out ++ [g], st.size + f.size, false⟩ rest := by
  have hidx : ∀ i, i < 2 ^ 64 → i ≠ 0 → lookup d i = some (f.name, f.value) →
      ∃ b bs g, encodeInt 0x80 7 i = b :: bs ∧ Delivered f g ∧
        ∃ d', Synced e d' ∧
        decodeStep T L st b (encodeInt 0x80 7 i ++ rest) =
          .next ⟨d', st.out ++ [g], st.size + f.size, false⟩ rest := by
    intro i hi h0 hl
    obtain ⟨b, bs, he, hb⟩ := encodeInt_cons (by omega : 1 ≤ 7 ∧ 7 ≤ 8) free_80_7 hi
    refine ⟨b, bs, _, he, .plain, d, hs, ?_⟩
    have hb1 : b.toNat >>> 7 = 1 := by
      rw [Nat.shiftRight_eq_div_pow]
      have := b.toNat_lt
      have h128 : (0x80 : UInt8).toNat = 128 := rfl
      rw [h128] at hb
      omega
    unfold decodeStep
    rw [if_pos hb1, decodeInt_encodeInt (by omega) free_80_7 hi]
    simp only [if_neg h0, hst, hl]
    rw [emit_check]
    · simp [emitLiteral, hst, HField.size]
    · simp only [emitLiteral]; exact hL
  unfold encodeField
  split
  · rename_i i hfe
    obtain ⟨h1, h2, h3⟩ := findExact_sound hfe
    exact hidx i (by omega) (by omega) (by rw [lookup_static h1 h2, h3])
  · rename_i hfe
    split
    · rename_i x i hsc
      obtain ⟨k, hk, rfl, hf⟩ := (dynScan_spec e f.name f.value e.count 0 none (by omega)).2.1 i (by rw [hsc])
      have hc := count_lt hs.einv
      refine hidx _ (by omega) (by omega) ?_
      rw [lookup_dynamic hs.dinv (by rw [← hs.count]; exact hk), ← hs.fields, hf]
    · rename_i dyn hsc
      have hdyn : ∀ i, dyn = some i → NameIdx e f.name i ∧ i < 2 ^ 64 :=
        fun i hi => scan_name hs.einv f.name f.value (by rw [hsc]; exact hi)
      have hstat : ∀ i, findName f.name = some i → NameIdx e f.name i ∧ i < 2 ^ 64 := fun i hi => static_name hi
      have lit : ∀ (flags : Byte) (N : Nat), 1 ≤ N ∧ N ≤ 8 → Free flags N →
          (∃ b bs, encodeLiteral flags N f dyn (findName f.name) = b :: bs ∧
            b.toNat - b.toNat % 2 ^ N = flags.toNat) ∧
          decodeLiteral d N (encodeLiteral flags N f dyn (findName f.name) ++ rest) = .ok (f.name, f.value, rest) := by
        intro flags N hN hf
        exact ⟨encodeLiteral_cons hN hf f _ _ (fun i hi => (hdyn i hi).2) (fun i hi => (hstat i hi).2),
          decodeLiteral_encode hN hf f _ _ (fun i hi => (hdyn i hi).1.transfer hs)
            (fun i hi => (hstat i hi).1.transfer hs) rest hn hv⟩
      dsimp only
      split
      · rename_i hsec
        obtain ⟨⟨b, bs, he, hb⟩, hdl⟩ := lit 0x10 4 (by omega) free_10_4
        refine ⟨b, bs, ⟨f.name, f.value, true⟩, he, .never ((secret_iff f).mp hsec), d, hs, ?_⟩
        have h16 : (0x10 : UInt8).toNat = 16 := rfl
        rw [h16] at hb
        have hlt := b.toNat_lt
        unfold decodeStep
        simp only [Nat.shiftRight_eq_div_pow]
        rw [if_neg (by omega), if_neg (by omega), if_neg (by omega), if_pos (by omega), hst, hdl]
        dsimp only
        rw [emit_check]
        · simp [emitLiteral, hst, HField.size]
        · simp only [emitLiteral]; exact hL
      · rename_i hsec
        split
        · obtain ⟨⟨b, bs, he, hb⟩, hdl⟩ := lit 0x40 6 (by omega) free_40_6
          refine ⟨b, bs, _, he, .plain, (d.add f.name f.value).1, hs.add _ _, ?_⟩
          have h16 : (0x40 : UInt8).toNat = 64 := rfl
          rw [h16] at hb
          have hlt := b.toNat_lt
          unfold decodeStep
          simp only [Nat.shiftRight_eq_div_pow]
          rw [if_neg (by omega), if_pos (by omega), hst, hdl]
          dsimp only
          rw [emit_check]
          · simp [emitLiteral, HField.size]
          · simp only [emitLiteral]; exact hL
        · obtain ⟨⟨b, bs, he, hb⟩, hdl⟩ := lit 0x00 4 (by omega) free_00_4
          refine ⟨b, bs, _, he, .plain, d, hs, ?_⟩
          have h16 : (0x00 : UInt8).toNat = 0 := rfl
          rw [h16] at hb
          have hlt := b.toNat_lt
          unfold decodeStep
          simp only [Nat.shiftRight_eq_div_pow]
          rw [if_neg (by omega), if_neg (by omega), if_pos (by omega), hst, hdl]
          dsimp only
          rw [emit_check]
          · simp [emitLiteral, hst, HField.size]
          · simp only [emitLiteral]; exact hL

/-- delivered list against encoded list -/
inductive DeliveredAll : List HField → List HField → Prop
  | nil : DeliveredAll [] []
  | cons {f g fs gs} : Delivered f g → DeliveredAll fs gs → DeliveredAll (f :: fs) (g :: gs)

theorem DeliveredAll.plain_eq {fs gs : List HField} (h : DeliveredAll fs gs) : plain gs = plain fs := by
  induction h with
  | nil => rfl
  | cons h _ ih =>
    simp only [plain, List.map_cons] at ih ⊢
    rw [ih]
    cases h <;> rfl

theorem listSize_cons (f : HField) (fs : List HField) : listSize (f :: fs) = f.size + listSize fs := by
  simp [listSize, HField.size, entryOverhead]

theorem block_sync (fs : List HField) : ∀ {e d : Ring}, Synced e d → ∀ (T L fuel : Nat) (st : DState),
    st.tbl = d → (∀ f ∈ fs, f.valid = true) → (∀ f ∈ fs, f.name.length < 2 ^ 64 ∧ f.value.length < 2 ^ 64) →
    (L = 0 ∨ st.size + listSize fs ≤ L) → (encodeBlock e fs).2.1.length ≤ fuel →
    (encodeBlock e fs).1 = true ∧
    ∃ st' gs, decodeLoop T L fuel st (encodeBlock e fs).2.1 = (true, false, st') ∧
      st'.out = st.out ++ gs ∧ DeliveredAll fs gs ∧ Synced (encodeBlock e fs).2.2 st'.tbl := by
  induction fs with
  | nil =>
    intro e d hs T L fuel st hst _ _ _ _
    refine ⟨rfl, st, [], ?_, by simp, .nil, by rw [hst]; exact hs⟩
    cases fuel <;> rfl
  | cons f fs ih =>
    intro e d hs T L fuel st hst hval hlen hL hfuel
    rw [listSize_cons] at hL
    obtain ⟨hn, hv⟩ := hlen f List.mem_cons_self
    have hE : encodeBlock e (f :: fs) = ((encodeBlock (encodeField e f).2 fs).1,
        (encodeField e f).1 ++ (encodeBlock (encodeField e f).2 fs).2.1,
        (encodeBlock (encodeField e f).2 fs).2.2) := by
      rw [encodeBlock, if_pos (hval f List.mem_cons_self)]
    rw [hE] at hfuel ⊢
    dsimp only at hfuel ⊢
    obtain ⟨b, bs, g, he, hdel, d', hs', hstep⟩ := step_sync hs T L f st hst
      (encodeBlock (encodeField e f).2 fs).2.1 hn hv (by omega)
    rw [he] at hfuel hstep ⊢
    simp only [List.cons_append, List.length_cons, List.length_append] at hfuel hstep ⊢
    obtain ⟨fuel, rfl⟩ : ∃ k, fuel = k + 1 := ⟨fuel - 1, by omega⟩
    obtain ⟨i1, st', gs, i2, i3, i4, i5⟩ := ih hs' T L fuel ⟨d', st.out ++ [g], st.size + f.size, false⟩ rfl
      (fun f hf => hval f (List.mem_cons_of_mem _ hf)) (fun f hf => hlen f (List.mem_cons_of_mem _ hf))
      (by simp only; omega) (by omega)
    refine ⟨i1, st', g :: gs, ?_, by rw [i3]; simp, .cons hdel i4, i5⟩
    rw [decodeLoop, hstep]
    exact i2

theorem listSize_mem {fs : List HField} {f : HField} (h : f ∈ fs) : f.name.length + f.value.length ≤ listSize fs := by
  induction fs with
  | nil => cases h
  | cons g fs ih =>
    rw [listSize_cons]
    rcases List.mem_cons.mp h with rfl | h
    · simp only [HField.size]; omega
    · have := ih h; omega

theorem session_sync (es : List Event) : ∀ (e : Ring) (d : Dec), Synced e d.tbl → 0 < d.listLimit →
    d.listLimit < 2 ^ 64 → (∀ ev ∈ es, ev.legal d.listLimit) →
    (session e d es).1 = expected es ∧ Synced (session e d es).2.1 (session e d es).2.2.tbl := by
  induction es with
  | nil => intro e d h _ _ _; exact ⟨rfl, h⟩
  | cons ev es ih =>
    intro e d hs hpos hL hleg
    have hev := hleg ev List.mem_cons_self
    have htl : ∀ ev ∈ es, ev.legal d.listLimit := fun ev h => hleg ev (List.mem_cons_of_mem _ h)
    cases ev with
    | block hs' =>
      obtain ⟨hval, hsz⟩ := hev
      obtain ⟨b1, st', gs, b2, b3, b4, b5⟩ := block_sync hs' hs d.tableLimit d.listLimit
        (encodeBlock e hs').2.1.length { tbl := d.tbl } rfl hval
        (fun f hf => by have := listSize_mem hf; omega) (Or.inr (by simpa using hsz)) (Nat.le_refl _)
      simp only [List.nil_append] at b3
      have hd : decodeBlock d (encodeBlock e hs').2.1 = (true, false, gs, { d with tbl := st'.tbl }) := by
        unfold decodeBlock; rw [b2]; simp only [b3]
      obtain ⟨i1, i2⟩ := ih (encodeBlock e hs').2.2 { d with tbl := st'.tbl } b5 hpos hL htl
      simp only [session, expected, hd, b1, Bool.and_self, if_true]
      exact ⟨by rw [i1, b4.plain_eq], i2⟩
    | resize m =>
      exact ih (encSetCapacity e m) (d.setTableSize m) (hs.setMax hev) hpos hL htl

theorem init_synced : Synced {} ({} : Dec).tbl := ⟨init_inv, init_inv, rfl, rfl⟩

/-! ## Secrets -/

theorem encodeField_inv {r : Ring} (h : r.Inv) (f : HField) : (encodeField r f).2.Inv := by
  unfold encodeField
  split
  · exact h
  · split
    · exact h
    · dsimp only
      split
      · exact h
      · split
        · exact (add_spec h _ _).1
        · exact h

theorem encodeField_fields {r : Ring} (h : r.Inv) (f : HField) :
    (encodeField r f).2 = r ∨
    (¬ Secret f ∧ ∀ x ∈ (encodeField r f).2.fields, x = (f.name, f.value) ∨ x ∈ r.fields) := by
  unfold encodeField
  split
  · exact Or.inl rfl
  · split
    · exact Or.inl rfl
    · dsimp only
      split
      · exact Or.inl rfl
      · rename_i hsec
        rw [secret_iff] at hsec
        split
        · refine Or.inr ⟨hsec, ?_⟩
          intro x hx
          simp only at hx
          rw [(add_spec h _ _).2.2.1] at hx
          have := (fit_prefix _ _).subset hx
          simpa using this
        · exact Or.inl rfl

theorem encodeBlock_inv (fs : List HField) : ∀ {r : Ring}, r.Inv → (encodeBlock r fs).2.2.Inv := by
  induction fs with
  | nil => intro r h; exact h
  | cons f fs ih =>
    intro r h
    rw [encodeBlock]
    split
    · exact ih (encodeField_inv h f)
    · exact h

theorem encodeBlock_fields (fs : List HField) : ∀ {r : Ring}, r.Inv → ∀ x ∈ (encodeBlock r fs).2.2.fields,
    (∃ f ∈ fs, ¬ Secret f ∧ x = (f.name, f.value)) ∨ x ∈ r.fields := by
  induction fs with
  | nil => intro r h x hx; exact Or.inr hx
  | cons f fs ih =>
    intro r h x hx
    rw [encodeBlock] at hx
    split at hx
    · rcases ih (encodeField_inv h f) x hx with ⟨g, hg, h1, h2⟩ | h1
      · exact Or.inl ⟨g, List.mem_cons_of_mem _ hg, h1, h2⟩
      · rcases encodeField_fields h f with h2 | ⟨h2, h3⟩
        · rw [h2] at h1; exact Or.inr h1
        · rcases h3 x h1 with h4 | h4
          · exact Or.inl ⟨f, List.mem_cons_self, h2, h4⟩
          · exact Or.inr h4
    · exact Or.inr hx

theorem encStep_inv {r : Ring} (h : r.Inv) (op : EncOp) (hok : op.ok) : (encStep r op).Inv := by
  cases op with
  | encode hs => exact encodeBlock_inv hs h
  | setPeerMax m =>
    simp only [encStep, encSetPeerMax]
    split
    · exact (setMax_spec h m hok).1
    · exact h
  | setCapacity m => exact (setMax_spec h m hok).1
  | reset => exact (clear_spec h).1

theorem encRun_fields (ops : List EncOp) : ∀ {r : Ring}, r.Inv → (∀ op ∈ ops, op.ok) →
    ∀ x ∈ (ops.foldl encStep r).fields,
      (∃ f ∈ handed ops, ¬ Secret f ∧ x = (f.name, f.value)) ∨ x ∈ r.fields := by
  induction ops with
  | nil => intro r _ _ x hx; exact Or.inr hx
  | cons op ops ih =>
    intro r h hok x hx
    rw [List.foldl_cons] at hx
    have hop := hok op List.mem_cons_self
    rcases ih (encStep_inv h op hop) (fun o ho => hok o (List.mem_cons_of_mem _ ho)) x hx with
      ⟨f, hf, h1, h2⟩ | h1
    · refine Or.inl ⟨f, ?_, h1, h2⟩
      cases op <;> simp [handed, hf]
    · cases op with
      | encode hs =>
        rcases encodeBlock_fields hs h x h1 with ⟨f, hf, h2, h3⟩ | h2
        · exact Or.inl ⟨f, by simp [handed, hf], h2, h3⟩
        · exact Or.inr h2
      | setPeerMax m =>
        simp only [encStep, encSetPeerMax] at h1
        split at h1
        · rw [(setMax_spec h m hop).2.2.1] at h1
          exact Or.inr ((fit_prefix _ _).subset h1)
        · exact Or.inr h1
      | setCapacity m =>
        simp only [encStep, encSetCapacity] at h1
        rw [(setMax_spec h m hop).2.2.1] at h1
        exact Or.inr ((fit_prefix _ _).subset h1)
      | reset =>
        simp only [encStep] at h1
        rw [(clear_spec h).2.1] at h1
        cases h1

/-! ## Header list limit -/

theorem listSize_append (a b : List HField) : listSize (a ++ b) = listSize a + listSize b := by
  simp [listSize]

/-- the loop's counter is the size of what was emitted -/
theorem decodeStep_size (T L : Nat) (st st' : DState) (b : Byte) (bs rest : Bytes)
    (h : decodeStep T L st b bs = .next st' rest) (hsz : st.size = listSize st.out) :
    st'.size = listSize st'.out ∧ (L = 0 ∨ st'.size ≤ L) := by
  have hemit : ∀ n v s, (emitLiteral st n v s).size = listSize (emitLiteral st n v s).out := by
    intro n v s
    simp only [emitLiteral, listSize_append, hsz]
    simp [listSize, entryOverhead]
  have hchk : ∀ s : DState, s.size = listSize s.out →
      ∀ r, checkList L s r = .next st' rest → st'.size = listSize st'.out ∧ (L = 0 ∨ st'.size ≤ L) := by
    intro s hs r hc
    unfold checkList at hc
    split at hc
    · cases hc
    · rename_i hn
      simp only [DStep.next.injEq] at hc
      obtain ⟨rfl, -⟩ := hc
      exact ⟨hs, by omega⟩
  unfold decodeStep at h
  split at h
  · split at h
    · cases h
    · split at h
      · cases h
      · split at h
        · cases h
        · exact hchk _ (hemit _ _ _) _ h
  · split at h
    · split at h
      · cases h
      · refine hchk _ ?_ _ h
        exact hemit _ _ _
    · split at h
      · split at h
        · cases h
        · exact hchk _ (hemit _ _ _) _ h
      · split at h
        · split at h
          · cases h
          · exact hchk _ (hemit _ _ _) _ h
        · split at h
          · split at h
            · cases h
            · split at h
              · cases h
              · split at h
                · cases h
                · refine hchk _ ?_ _ h
                  exact hsz
          · cases h

theorem decodeLoop_size (T L : Nat) (f : Nat) : ∀ (st : DState) (bs : Bytes) (inc : Bool) (st' : DState),
    decodeLoop T L f st bs = (true, inc, st') → st.size = listSize st.out → (L = 0 ∨ st.size ≤ L) →
    L = 0 ∨ listSize st'.out ≤ L := by
  induction f with
  | zero =>
    intro st bs inc st' h hsz hL
    cases bs with
    | nil => simp only [decodeLoop, Prod.mk.injEq, true_and] at h; obtain ⟨-, rfl⟩ := h; rwa [hsz] at hL
    | cons b bs => simp [decodeLoop] at h
  | succ f ih =>
    intro st bs inc st' h hsz hL
    cases bs with
    | nil => simp only [decodeLoop, Prod.mk.injEq, true_and] at h; obtain ⟨-, rfl⟩ := h; rwa [hsz] at hL
    | cons b bs =>
      rw [decodeLoop] at h
      split at h
      · simp at h
      · rename_i st1 rest hs
        obtain ⟨h1, h2⟩ := decodeStep_size _ _ _ _ _ _ _ hs hsz
        exact ih _ _ _ _ h h1 h2

end Verif.Hpack

namespace Verif.Hpack
open Spec

attribute [local irreducible] decodeTree huffTable staticTable nameIndex

/-! ## Progress and the decoder's table -/

theorem decodeInt_shorter {N : Nat} (hN : 1 ≤ N ∧ N ≤ 8) {bs rest : Bytes} {v : Nat}
    (h : decodeInt N bs = some (v, rest)) : rest.length < bs.length := by
  obtain ⟨used, rfl, c, -⟩ := (decodeInt_iff hN _ _ _).mp h
  cases c <;> simp <;> omega

theorem decodeStr_shorter {bs rest s : Bytes} (h : decodeStr bs = .ok (s, rest)) : rest.length < bs.length := by
  unfold decodeStr at h
  split at h
  · cases h
  · split at h
    · cases h
    · rename_i hd
      have := decodeInt_shorter (by omega) hd
      split at h
      · cases h
      · split at h
        · split at h
          · cases h
          · simp only [Except.ok.injEq, Prod.mk.injEq] at h
            rw [← h.2, List.length_drop]; omega
        · simp only [Except.ok.injEq, Prod.mk.injEq] at h
          rw [← h.2, List.length_drop]; omega

theorem decodeLiteral_shorter {r : Ring} {N : Nat} (hN : 1 ≤ N ∧ N ≤ 8) {bs rest n v : Bytes}
    (h : decodeLiteral r N bs = .ok (n, v, rest)) : rest.length < bs.length := by
  unfold decodeLiteral at h
  split at h
  · cases h
  · rename_i index rest1 hd
    have h1 := decodeInt_shorter hN hd
    split at h
    · cases h
    · rename_i n' rest2 hname
      have h2 : rest2.length ≤ rest1.length := by
        unfold decodeName at hname
        split at hname
        · exact Nat.le_of_lt (decodeStr_shorter hname)
        · split at hname
          · cases hname
          · simp only [Except.ok.injEq, Prod.mk.injEq] at hname
            rw [← hname.2]; omega
      split at h
      · cases h
      · rename_i hv
        have h3 := decodeStr_shorter hv
        simp only [Except.ok.injEq, Prod.mk.injEq] at h
        rw [← h.2.2]; omega

theorem checkList_next {L : Nat} {s st' : DState} {r rest : Bytes} (h : checkList L s r = .next st' rest) :
    st' = s ∧ rest = r := by
  unfold checkList at h
  split at h
  · cases h
  · simp only [DStep.next.injEq] at h; exact ⟨h.1.symm, h.2.symm⟩

theorem checkList_fail {L : Nat} {s st' : DState} {r : Bytes} {i : Bool} (h : checkList L s r = .fail i st') :
    st' = s := by
  unfold checkList at h
  split at h
  · simp only [DStep.fail.injEq] at h; exact h.2.symm
  · cases h

/-- every instruction consumes at least one byte -/
theorem decodeStep_shorter {T L : Nat} {st st' : DState} {b : Byte} {bs rest : Bytes}
    (h : decodeStep T L st b bs = .next st' rest) : rest.length < bs.length := by
  unfold decodeStep at h
  split at h
  · split at h
    · cases h
    · rename_i hd
      split at h
      · cases h
      · split at h
        · cases h
        · rw [(checkList_next h).2]; exact decodeInt_shorter (by omega) hd
  · split at h
    · split at h
      · cases h
      · rename_i hd; rw [(checkList_next h).2]; exact decodeLiteral_shorter (by omega) hd
    · split at h
      · split at h
        · cases h
        · rename_i hd; rw [(checkList_next h).2]; exact decodeLiteral_shorter (by omega) hd
      · split at h
        · split at h
          · cases h
          · rename_i hd; rw [(checkList_next h).2]; exact decodeLiteral_shorter (by omega) hd
        · split at h
          · split at h
            · cases h
            · split at h
              · cases h
              · rename_i hd
                split at h
                · cases h
                · rw [(checkList_next h).2]; exact decodeInt_shorter (by omega) hd
          · cases h

/-- the instruction bound of the model's loop never matters -/
theorem decodeLoop_fuel (T L : Nat) (f : Nat) : ∀ (g : Nat) (st : DState) (bs : Bytes), bs.length ≤ f →
    bs.length ≤ g → decodeLoop T L f st bs = decodeLoop T L g st bs := by
  induction f with
  | zero =>
    intro g st bs h1 h2
    have : bs = [] := List.length_eq_zero_iff.mp (by omega)
    subst this; cases g <;> rfl
  | succ f ih =>
    intro g st bs h1 h2
    cases bs with
    | nil => cases g <;> rfl
    | cons b bs =>
      obtain ⟨g, rfl⟩ : ∃ k, g = k + 1 := ⟨g - 1, by simp at h2; omega⟩
      rw [decodeLoop, decodeLoop]
      cases hs : decodeStep T L st b (b :: bs) with
      | fail i s => rfl
      | next s rest =>
        have := decodeStep_shorter hs
        simp only [List.length_cons] at this h1 h2
        exact ih g s rest (by omega) (by omega)

/-- the decoder table stays within its SETTINGS limit -/
structure TblOk (T : Nat) (r : Ring) : Prop where
  inv : r.Inv
  le : r.max ≤ T

theorem TblOk.add {T : Nat} {r : Ring} (h : TblOk T r) (n v : Bytes) : TblOk T (r.add n v).1 := by
  obtain ⟨a, b, -⟩ := add_spec h.inv n v
  exact ⟨a, by rw [b]; exact h.le⟩

theorem decodeStep_tbl {T L : Nat} (hT : T < 2 ^ 32) {st : DState} {b : Byte} {bs : Bytes} (h : TblOk T st.tbl) :
    (∀ st' rest, decodeStep T L st b bs = .next st' rest → TblOk T st'.tbl) ∧
    (∀ i st', decodeStep T L st b bs = .fail i st' → TblOk T st'.tbl) := by
  have hc : ∀ (s : DState) (r : Bytes), TblOk T s.tbl →
      (∀ st' rest, checkList L s r = .next st' rest → TblOk T st'.tbl) ∧
      (∀ i st', checkList L s r = .fail i st' → TblOk T st'.tbl) := by
    intro s r hs
    exact ⟨fun st' rest hh => by rw [(checkList_next hh).1]; exact hs,
      fun i st' hh => by rw [checkList_fail hh]; exact hs⟩
  have hf : ∀ (i : Bool),
      (∀ st' rest, DStep.fail i st = .next st' rest → TblOk T st'.tbl) ∧
      (∀ i' st', DStep.fail i st = .fail i' st' → TblOk T st'.tbl) := by
    intro i
    constructor
    · intro _ _ hh; cases hh
    intro i' st' hh
    simp only [DStep.fail.injEq] at hh; rw [← hh.2]; exact h
  unfold decodeStep
  split
  · split
    · exact hf _
    · split
      · exact hf _
      · split
        · exact hf _
        · exact hc _ _ h
  · split
    · split
      · exact hf _
      · exact hc _ _ (h.add _ _)
    · split
      · split
        · exact hf _
        · exact hc _ _ h
      · split
        · split
          · exact hf _
          · exact hc _ _ h
        · split
          · split
            · exact hf _
            · split
              · exact hf _
              · split
                · exact hf _
                · rename_i m rest _ hm
                  refine hc _ _ ?_
                  obtain ⟨a, b, -⟩ := setMax_spec h.inv m (by omega)
                  exact ⟨a, by rw [b]; omega⟩
          · exact hf _

theorem decodeLoop_tbl {T L : Nat} (hT : T < 2 ^ 32) (f : Nat) : ∀ (st : DState) (bs : Bytes),
    TblOk T st.tbl → TblOk T (decodeLoop T L f st bs).2.2.tbl := by
  induction f with
  | zero => intro st bs h; cases bs <;> exact h
  | succ f ih =>
    intro st bs h
    cases bs with
    | nil => exact h
    | cons b bs =>
      rw [decodeLoop]
      have := decodeStep_tbl (L := L) hT (b := b) (bs := b :: bs) h
      cases hs : decodeStep T L st b (b :: bs) with
      | fail i s => exact this.2 _ _ hs
      | next s rest => exact ih _ _ (this.1 _ _ hs)

/-- what can happen to a decoder -/
theorem decodeBlock_tbl (d : Dec) (hT : d.tableLimit < 2 ^ 32) (bs : Bytes) (h : TblOk d.tableLimit d.tbl) :
    TblOk (decodeBlock d bs).2.2.2.tableLimit (decodeBlock d bs).2.2.2.tbl ∧
    (decodeBlock d bs).2.2.2.tableLimit = d.tableLimit ∧ (decodeBlock d bs).2.2.2.listLimit = d.listLimit := by
  exact ⟨decodeLoop_tbl hT _ _ _ h, rfl, rfl⟩

/-! ## A failed encode -/

/-- fields that encode without touching the table -/
theorem encodeField_unindexed {r : Ring} (f : HField) (h : Secret f ∨ r.max < f.size) : (encodeField r f).2 = r := by
  unfold encodeField
  split
  · rfl
  · split
    · rfl
    · dsimp only
      split
      · rfl
      · rename_i hsec
        rw [secret_iff] at hsec
        rw [if_neg (by rcases h with h | h; exact absurd h hsec; omega)]

theorem encodeBlock_append (a b : List HField) : ∀ r : Ring, (∀ f ∈ a, f.valid = true) →
    encodeBlock r (a ++ b) =
      ((encodeBlock (encodeBlock r a).2.2 b).1, (encodeBlock r a).2.1 ++ (encodeBlock (encodeBlock r a).2.2 b).2.1,
       (encodeBlock (encodeBlock r a).2.2 b).2.2) := by
  induction a with
  | nil => intro r _; rfl
  | cons f a ih =>
    intro r h
    rw [List.cons_append, encodeBlock, if_pos (h f List.mem_cons_self), encodeBlock, if_pos (h f List.mem_cons_self)]
    dsimp only
    rw [ih _ (fun g hg => h g (List.mem_cons_of_mem _ hg))]
    simp

theorem encodeBlock_ok_iff (fs : List HField) : ∀ r : Ring, (encodeBlock r fs).1 = true ↔ ∀ f ∈ fs, f.valid = true := by
  induction fs with
  | nil => intro r; simp [encodeBlock]
  | cons f fs ih =>
    intro r
    rw [encodeBlock]
    split
    · rename_i hv; simp [ih, hv]
    · rename_i hv; simp [hv]

end Verif.Hpack
