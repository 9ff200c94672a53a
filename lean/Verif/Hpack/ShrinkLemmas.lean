import Verif.Hpack.DecodeLemmas

/-! Lemmas for C56: the encoder shrinks its table, the decoder is not told. -/

namespace Verif.Hpack
open Spec

/-- The encoder's table is a newest-first initial segment of the decoder's, under a smaller or equal
budget. -/
structure Ahead (e d : Ring) : Prop where
  einv : e.Inv
  dinv : d.Inv
  max : e.max ≤ d.max
  fields : e.fields <+: d.fields

theorem Synced.ahead {e d : Ring} (h : Synced e d) : Ahead e d :=
  ⟨h.einv, h.dinv, Nat.le_of_eq h.max, by rw [h.fields]; exact List.prefix_rfl⟩

theorem Ahead.count {e d : Ring} (h : Ahead e d) : e.count ≤ d.count := by
  rw [← fields_length, ← fields_length]; exact h.fields.length_le

theorem Ahead.get {e d : Ring} (h : Ahead e d) {k : Nat} (hk : k < e.count) : d.fields[k]? = e.fields[k]? := by
  obtain ⟨t, ht⟩ := h.fields
  rw [← ht, List.getElem?_append_left (by rw [fields_length]; exact hk)]

theorem Ahead.add {e d : Ring} (h : Ahead e d) (n v : Bytes) : Ahead (e.add n v).1 (d.add n v).1 := by
  obtain ⟨a1, a2, a3, -⟩ := add_spec h.einv n v
  obtain ⟨b1, b2, b3, -⟩ := add_spec h.dinv n v
  refine ⟨a1, b1, by rw [a2, b2]; exact h.max, ?_⟩
  rw [a3, b3]
  apply fit_longest
  · exact (fit_prefix _ _).trans (List.cons_prefix_cons.2 ⟨rfl, h.fields⟩)
  · exact Nat.le_trans (total_fit _ _) h.max

theorem Ahead.shrink {e d : Ring} (h : Ahead e d) {m : Nat} (hm : m < 2 ^ 32) : Ahead (encSetPeerMax e m) d := by
  unfold encSetPeerMax
  split
  · rename_i hlt
    obtain ⟨a1, a2, a3, -⟩ := setMax_spec h.einv m hm
    refine ⟨a1, h.dinv, by rw [a2]; have := h.max; omega, ?_⟩
    rw [a3]
    exact (fit_prefix _ _).trans h.fields
  · exact h

theorem NameIdx.ahead {e d : Ring} (h : Ahead e d) {n : Bytes} {i : Nat} (hi : NameIdx e n i) : NameIdx d n i := by
  obtain ⟨h0, hlt, v, hl⟩ := hi
  refine ⟨h0, hlt, v, ?_⟩
  rw [← hl]
  by_cases hs : i ≤ 61
  · rw [lookup_static (by omega) hs, lookup_static (by omega) hs]
  · obtain ⟨k, rfl⟩ : ∃ k, i = 61 + k + 1 := ⟨i - 62, by omega⟩
    by_cases hk : k < e.count
    · rw [lookup_dynamic h.einv hk, lookup_dynamic h.dinv (Nat.lt_of_lt_of_le hk h.count), h.get hk]
    · unfold lookup at hl
      rw [if_neg (by omega)] at hl
      have : (61 + k + 1 + (2 ^ 64 - 61)) % 2 ^ 64 = k + 1 := by omega
      rw [this] at hl
      dsimp only at hl
      rw [if_pos (by omega)] at hl
      cases hl

theorem step_ahead {e d : Ring} (hs : Ahead e d) (T L : Nat) (f : HField) (st : DState) (hst : st.tbl = d)
    (rest : Bytes) (hn : f.name.length < 2 ^ 64) (hv : f.value.length < 2 ^ 64)
    (hL : L = 0 ∨ st.size + f.size ≤ L) :
    ∃ b bs g, (encodeField e f).1 = b :: bs ∧ Delivered f g ∧
      ∃ d', Ahead (encodeField e f).2 d' ∧
      decodeStep T L st b ((encodeField e f).1 ++ rest) =
        .next ⟨d', st.out ++ [g], st.size + f.size, false⟩ rest := by
  have hidx : ∀ i, i < 2 ^ 64 → i ≠ 0 → lookup d i = some (f.name, f.value) →
      ∃ b bs g, encodeInt 0x80 7 i = b :: bs ∧ Delivered f g ∧
        ∃ d', Ahead e d' ∧
        decodeStep T L st b (encodeInt 0x80 7 i ++ rest) =
          .next ⟨d', st.out ++ [g], st.size + f.size, false⟩ rest := by
    intro i hi h0 hl
    obtain ⟨b, bs, he, hb⟩ := encodeInt_cons (by omega : 1 ≤ 7 ∧ 7 ≤ 8) free_80_7 hi
    refine ⟨b, bs, _, he, .plain, d, hs, ?_⟩
    have hb1 : b.toNat >>> 7 = 1 := by
      rw [Nat.shiftRight_eq_div_pow]
      have := b.toNat_lt
      have h128 : (0x80 : UInt8).toNat = 128 := rfl
      rw [h128] at hb
      omega
    unfold decodeStep
    rw [if_pos hb1, decodeInt_encodeInt (by omega) free_80_7 hi]
    simp only [if_neg h0, hst, hl]
    rw [emit_check]
    · simp [emitLiteral, hst, HField.size]
    · simp only [emitLiteral]; exact hL
  unfold encodeField
  split
  · rename_i i hfe
    obtain ⟨h1, h2, h3⟩ := findExact_sound hfe
    exact hidx i (by omega) (by omega) (by rw [lookup_static h1 h2, h3])
  · rename_i hfe
    split
    · rename_i x i hsc
      obtain ⟨k, hk, rfl, hf⟩ := (dynScan_spec e f.name f.value e.count 0 none (by omega)).2.1 i (by rw [hsc])
      have hc := count_lt hs.einv
      refine hidx _ (by omega) (by omega) ?_
      rw [lookup_dynamic hs.dinv (Nat.lt_of_lt_of_le hk hs.count), hs.get hk, hf]
    · rename_i dyn hsc
      have hdyn : ∀ i, dyn = some i → NameIdx e f.name i ∧ i < 2 ^ 64 :=
        fun i hi => scan_name hs.einv f.name f.value (by rw [hsc]; exact hi)
      have hstat : ∀ i, findName f.name = some i → NameIdx e f.name i ∧ i < 2 ^ 64 := fun i hi => static_name hi
      have lit : ∀ (flags : Byte) (N : Nat), 1 ≤ N ∧ N ≤ 8 → Free flags N →
          (∃ b bs, encodeLiteral flags N f dyn (findName f.name) = b :: bs ∧
            b.toNat - b.toNat % 2 ^ N = flags.toNat) ∧
          decodeLiteral d N (encodeLiteral flags N f dyn (findName f.name) ++ rest) = .ok (f.name, f.value, rest) := by
        intro flags N hN hf
        exact ⟨encodeLiteral_cons hN hf f _ _ (fun i hi => (hdyn i hi).2) (fun i hi => (hstat i hi).2),
          decodeLiteral_encode hN hf f _ _ (fun i hi => (hdyn i hi).1.ahead hs)
            (fun i hi => (hstat i hi).1.ahead hs) rest hn hv⟩
      dsimp only
      split
      · rename_i hsec
        obtain ⟨⟨b, bs, he, hb⟩, hdl⟩ := lit 0x10 4 (by omega) free_10_4
        refine ⟨b, bs, ⟨f.name, f.value, true⟩, he, .never ((secret_iff f).mp hsec), d, hs, ?_⟩
        have h16 : (0x10 : UInt8).toNat = 16 := rfl
        rw [h16] at hb
        have hlt := b.toNat_lt
        unfold decodeStep
        simp only [Nat.shiftRight_eq_div_pow]
        rw [if_neg (by omega), if_neg (by omega), if_neg (by omega), if_pos (by omega), hst, hdl]
        dsimp only
        rw [emit_check]
        · simp [emitLiteral, hst, HField.size]
        · simp only [emitLiteral]; exact hL
      · rename_i hsec
        split
        · obtain ⟨⟨b, bs, he, hb⟩, hdl⟩ := lit 0x40 6 (by omega) free_40_6
          refine ⟨b, bs, _, he, .plain, (d.add f.name f.value).1, hs.add _ _, ?_⟩
          have h16 : (0x40 : UInt8).toNat = 64 := rfl
          rw [h16] at hb
          have hlt := b.toNat_lt
          unfold decodeStep
          simp only [Nat.shiftRight_eq_div_pow]
          rw [if_neg (by omega), if_pos (by omega), hst, hdl]
          dsimp only
          rw [emit_check]
          · simp [emitLiteral, HField.size]
          · simp only [emitLiteral]; exact hL
        · obtain ⟨⟨b, bs, he, hb⟩, hdl⟩ := lit 0x00 4 (by omega) free_00_4
          refine ⟨b, bs, _, he, .plain, d, hs, ?_⟩
          have h16 : (0x00 : UInt8).toNat = 0 := rfl
          rw [h16] at hb
          have hlt := b.toNat_lt
          unfold decodeStep
          simp only [Nat.shiftRight_eq_div_pow]
          rw [if_neg (by omega), if_neg (by omega), if_pos (by omega), hst, hdl]
          dsimp only
          rw [emit_check]
          · simp [emitLiteral, hst, HField.size]
          · simp only [emitLiteral]; exact hL

theorem block_ahead (fs : List HField) : ∀ {e d : Ring}, Ahead e d → ∀ (T L fuel : Nat) (st : DState),
    st.tbl = d → (∀ f ∈ fs, f.valid = true) → (∀ f ∈ fs, f.name.length < 2 ^ 64 ∧ f.value.length < 2 ^ 64) →
    (L = 0 ∨ st.size + listSize fs ≤ L) → (encodeBlock e fs).2.1.length ≤ fuel →
    (encodeBlock e fs).1 = true ∧
    ∃ st' gs, decodeLoop T L fuel st (encodeBlock e fs).2.1 = (true, false, st') ∧
      st'.out = st.out ++ gs ∧ DeliveredAll fs gs ∧ Ahead (encodeBlock e fs).2.2 st'.tbl := by
  induction fs with
  | nil =>
    intro e d hs T L fuel st hst _ _ _ _
    refine ⟨rfl, st, [], ?_, by simp, .nil, by rw [hst]; exact hs⟩
    cases fuel <;> rfl
  | cons f fs ih =>
    intro e d hs T L fuel st hst hval hlen hL hfuel
    rw [listSize_cons] at hL
    obtain ⟨hn, hv⟩ := hlen f List.mem_cons_self
    have hE : encodeBlock e (f :: fs) = ((encodeBlock (encodeField e f).2 fs).1,
        (encodeField e f).1 ++ (encodeBlock (encodeField e f).2 fs).2.1,
        (encodeBlock (encodeField e f).2 fs).2.2) := by
      rw [encodeBlock, if_pos (hval f List.mem_cons_self)]
    rw [hE] at hfuel ⊢
    dsimp only at hfuel ⊢
    obtain ⟨b, bs, g, he, hdel, d', hs', hstep⟩ := step_ahead hs T L f st hst
      (encodeBlock (encodeField e f).2 fs).2.1 hn hv (by omega)
    rw [he] at hfuel hstep ⊢
    simp only [List.cons_append, List.length_cons, List.length_append] at hfuel hstep ⊢
    obtain ⟨fuel, rfl⟩ : ∃ k, fuel = k + 1 := ⟨fuel - 1, by omega⟩
    obtain ⟨i1, st', gs, i2, i3, i4, i5⟩ := ih hs' T L fuel ⟨d', st.out ++ [g], st.size + f.size, false⟩ rfl
      (fun f hf => hval f (List.mem_cons_of_mem _ hf)) (fun f hf => hlen f (List.mem_cons_of_mem _ hf))
      (by simp only; omega) (by omega)
    refine ⟨i1, st', g :: gs, ?_, by rw [i3]; simp, .cons hdel i4, i5⟩
    rw [decodeLoop, hstep]
    exact i2


end Verif.Hpack
