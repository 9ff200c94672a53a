import Verif.Hpack.ShrinkLemmas

/-! # HPACK: C54 (decoding is exactly RFC 7541), C55 (what the encoder takes), C56 (lowered limits) -/

namespace Verif.Hpack
open Spec

/-! ## C54 -/

theorem refines_det {r : Ring} {t t' : Table} (h : r.Refines t) (h' : r.Refines t') : t = t' := by
  obtain ⟨_, h2, h3⟩ := h
  obtain ⟨_, g2, g3⟩ := h'
  cases t; cases t'
  simp only [Table.mk.injEq]
  exact ⟨h2.symm.trans g2, h3.symm.trans g3⟩

theorem decOps_ok (ops : List DecOp) : ∀ (d : Dec), (∀ m, DecOp.setTableSize m ∈ ops → m < 2 ^ 32) →
    d.tableLimit < 2 ^ 32 → TblOk d.tableLimit d.tbl →
    (ops.foldl decOp d).tableLimit < 2 ^ 32 ∧ TblOk (ops.foldl decOp d).tableLimit (ops.foldl decOp d).tbl := by
  induction ops with
  | nil => intro d _ hT h; exact ⟨hT, h⟩
  | cons op ops ih =>
    intro d hm hT hok
    rw [List.foldl_cons]
    have hm' : ∀ m, DecOp.setTableSize m ∈ ops → m < 2 ^ 32 := fun m hh => hm m (List.mem_cons_of_mem _ hh)
    cases op with
    | decode bs =>
      obtain ⟨h1, h2, -⟩ := decodeBlock_tbl d hT bs hok
      exact ih _ hm' (by simp only [decOp]; rw [h2]; exact hT) h1
    | setTableSize m =>
      have hm32 := hm m List.mem_cons_self
      obtain ⟨a, b, -⟩ := setMax_spec hok.inv m hm32
      exact ih _ hm' hm32 ⟨a, by simp only [decOp, Dec.setTableSize]; rw [b]; exact Nat.le_refl _⟩
    | setListSize m => exact ih _ hm' hT hok
    | reset =>
      obtain ⟨a, -, c⟩ := clear_spec hok.inv
      exact ih _ hm' hT ⟨a, by simp only [decOp]; rw [c]; exact hok.le⟩

/-- C54: after any history of decodes (successful, failed, hostile), limit changes and resets, `decode`
accepts a block exactly when it is an RFC 7541 header block for the current table and the header list is
within the limit; and then it delivers exactly the fields of that block and leaves exactly the table the
RFC prescribes. -/
theorem C54_decode_exact (ops : List DecOp) (h : ∀ m, DecOp.setTableSize m ∈ ops → m < 2 ^ 32) (bs : Bytes)
    (out : List HField) (t' : Table) :
    let d := ops.foldl decOp ({} : Dec)
    let t : Table := ⟨d.tbl.max, d.tbl.fields⟩
    let r := decodeBlock d bs
    (r.1 = true ∧ r.2.2.1 = out ∧ r.2.2.2.tbl.max = t'.max ∧ r.2.2.2.tbl.fields = t'.entries) ↔
      (IsBlock d.tableLimit t true bs out t' ∧ (d.listLimit = 0 ∨ listSize out ≤ d.listLimit)) := by
  intro d t r
  obtain ⟨hT, hok⟩ := decOps_ok ops {} h (by decide) ⟨init_inv, by decide⟩
  have hr : d.tbl.Refines t := ⟨hok.inv, rfl, rfl⟩
  constructor
  · rintro ⟨h1, h2, h3, h4⟩
    have hloop : decodeLoop d.tableLimit d.listLimit bs.length { tbl := d.tbl } bs =
        (true, r.2.1, (decodeLoop d.tableLimit d.listLimit bs.length { tbl := d.tbl } bs).2.2) := by
      have : (decodeLoop d.tableLimit d.listLimit bs.length { tbl := d.tbl } bs).1 = true := h1
      exact Prod.ext this (Prod.ext rfl rfl)
    obtain ⟨o, t2, g1, g2, g3, g4, g5⟩ := loop_sound hT _ _ t _ _ _ hr hloop
    have ho : o = out := by
      rw [← h2]
      show o = (decodeLoop d.tableLimit d.listLimit bs.length { tbl := d.tbl } bs).2.2.out
      simpa using g2.symm
    have ht : t2 = t' := refines_det g3 ⟨g3.1, h3, h4⟩
    subst ho; subst ht
    refine ⟨g1, ?_⟩
    rcases g5 with rfl | g5 | g5
    · right; simp [listSize]
    · exact Or.inl g5
    · right; rw [g4] at g5; simpa using g5
  · rintro ⟨h1, h2⟩
    obtain ⟨st', g1, g2, g3⟩ := loop_complete (L := d.listLimit) hT h1 bs.length { tbl := d.tbl }
      (Nat.le_refl _) rfl hr (by simpa using h2)
    have hrr : r = (true, false, st'.out, { d with tbl := st'.tbl }) := by
      show decodeBlock d bs = _
      unfold decodeBlock; rw [g1]
    rw [hrr]
    exact ⟨rfl, by simpa using g2, g3.2.1, g3.2.2⟩

/-- The RFC's own example C.2.1 (`custom-key: custom-header`, incremental indexing) is such a block. -/
example : (decodeBlock {} ([0x40, 0x0a] ++ b!"custom-key" ++ [0x0d] ++ b!"custom-header")).1 = true ∧
    ((decodeBlock {} ([0x40, 0x0a] ++ b!"custom-key" ++ [0x0d] ++ b!"custom-header")).2.2.1.map
      fun f => (f.name, f.value)) = [(b!"custom-key", b!"custom-header")] := by decide +kernel

/-- …while a size update after a field, an index out of range and index 0 are refused. -/
example : (decodeBlock {} [0x82, 0x20]).1 = false ∧ (decodeBlock {} [0xbe]).1 = false ∧
    (decodeBlock {} [0x80]).1 = false ∧ (decodeBlock {} [0x20, 0x82]).1 = true := by decide +kernel

/-! ## C55 -/

theorem nameChar_iff (first : Option Byte) (c : Byte) :
    nameCharOk first c = true ↔ 0x21 ≤ c.toNat ∧ c.toNat ≤ 0x7E ∧ (c = c!":" → first = some c!":") := by
  unfold nameCharOk
  have hc : c = c!":" ↔ c.toNat = 58 := by
    constructor
    · rintro rfl; rfl
    · intro h; exact UInt8.toNat_inj.1 h
  have h32 : c = c!" " ↔ c.toNat = 32 := by
    constructor
    · rintro rfl; rfl
    · intro h; exact UInt8.toNat_inj.1 h
  have h9 : c = 9 ↔ c.toNat = 9 := by
    constructor
    · rintro rfl; rfl
    · intro h; exact UInt8.toNat_inj.1 h
  split
  · rename_i hh
    simp only [Bool.or_eq_true, decide_eq_true_eq, beq_iff_eq, hc, h32, h9] at hh
    simp only [Bool.and_eq_true, beq_iff_eq, hc]
    constructor
    · rintro ⟨h1, h2⟩; exact ⟨by omega, by omega, fun _ => h2⟩
    · rintro ⟨h1, h2, h3⟩
      have : c.toNat = 58 := by omega
      exact ⟨this, h3 this⟩
  · rename_i hh
    simp only [Bool.or_eq_true, decide_eq_true_eq, beq_iff_eq, hc, h32, h9] at hh
    simp only [true_iff, hc]
    refine ⟨by omega, by omega, fun h => by omega⟩

theorem validName_iff (n : Bytes) : validName n = true ↔ GoodName n := by
  unfold validName GoodName
  simp only [Bool.and_eq_true, Bool.not_eq_true', List.isEmpty_eq_false_iff, List.all_eq_true, nameChar_iff]

theorem validValue_iff (v : Bytes) : validValue v = true ↔ GoodValue v := by
  unfold validValue GoodValue
  rw [List.all_eq_true]
  apply forall_congr'
  intro c
  apply imp_congr_right
  intro hc
  clear hc
  clear v
  revert c
  apply forall_byte
  decide +kernel

theorem valid_iff (f : HField) : f.valid = true ↔ GoodName f.name ∧ GoodValue f.value := by
  unfold HField.valid
  rw [Bool.and_eq_true, validName_iff, validValue_iff]

/-- C55: `encode` reports success exactly when every field of the list has a legal name and value. -/
theorem C55_encode_accepts_iff (r : Ring) (hs : List HField) :
    (encodeBlock r hs).1 = true ↔ ∀ f ∈ hs, GoodName f.name ∧ GoodValue f.value := by
  rw [encodeBlock_ok_iff]
  simp only [valid_iff]

example : GoodName b!":path" ∧ ¬ GoodName b!"a:b" ∧ ¬ GoodName [] ∧ ¬ GoodValue [13, 10] := by
  refine ⟨?_, ?_, ?_, ?_⟩
  · rw [← validName_iff]; decide +kernel
  · rw [← validName_iff]; decide +kernel
  · rw [← validName_iff]; decide +kernel
  · rw [← validValue_iff]; decide +kernel

/-! ## C56 -/

theorem encodeField_max {r : Ring} (h : r.Inv) (f : HField) : (encodeField r f).2.max = r.max := by
  unfold encodeField
  split
  · rfl
  · split
    · rfl
    · dsimp only
      split
      · rfl
      · split
        · exact (add_spec h _ _).2.1
        · rfl

theorem encodeBlock_max (fs : List HField) : ∀ {r : Ring}, r.Inv → (encodeBlock r fs).2.2.max = r.max := by
  induction fs with
  | nil => intro r _; rfl
  | cons f fs ih =>
    intro r h
    rw [encodeBlock]
    split
    · dsimp only
      rw [ih (encodeField_inv h f), encodeField_max h]
    · rfl

theorem peerMax_le {r : Ring} (h : r.Inv) {m : Nat} (hm : m < 2 ^ 32) :
    (encSetPeerMax r m).max ≤ m ∧ (encSetPeerMax r m).max ≤ r.max := by
  unfold encSetPeerMax
  split
  · obtain ⟨_, b, _⟩ := setMax_spec h m hm
    rw [b]; omega
  · omega

theorem limit_sync (es : List LimitEvent) : ∀ (e : Ring) (d : Dec), Ahead e d.tbl → 0 < d.listLimit →
    d.listLimit < 2 ^ 64 → (∀ ev ∈ es, ev.legal d.listLimit) →
    (limitSession e d es).1 = limitExpected es ∧ Ahead (limitSession e d es).2.1 (limitSession e d es).2.2.tbl ∧
    (limitSession e d es).2.1.max ≤ e.max ∧
    ∀ m, LimitEvent.peerLimit m ∈ es → (limitSession e d es).2.1.max ≤ m := by
  induction es with
  | nil => intro e d h _ _ _; exact ⟨rfl, h, Nat.le_refl _, by simp⟩
  | cons ev es ih =>
    intro e d hs hpos hL hleg
    have hev := hleg ev List.mem_cons_self
    have htl : ∀ ev ∈ es, ev.legal d.listLimit := fun ev h => hleg ev (List.mem_cons_of_mem _ h)
    cases ev with
    | block hs' =>
      obtain ⟨hval, hsz⟩ := hev
      obtain ⟨b1, st', gs, b2, b3, b4, b5⟩ := block_ahead hs' hs d.tableLimit d.listLimit
        (encodeBlock e hs').2.1.length { tbl := d.tbl } rfl (fun f hf => (valid_iff f).2 (hval f hf))
        (fun f hf => by have := listSize_mem hf; omega) (Or.inr (by simpa using hsz)) (Nat.le_refl _)
      simp only [List.nil_append] at b3
      have hd : decodeBlock d (encodeBlock e hs').2.1 = (true, false, gs, { d with tbl := st'.tbl }) := by
        unfold decodeBlock; rw [b2]; simp only [b3]
      obtain ⟨i1, i2, i3, i4⟩ := ih (encodeBlock e hs').2.2 { d with tbl := st'.tbl } b5 hpos hL htl
      rw [encodeBlock_max hs' hs.einv] at i3
      simp only [limitSession, limitExpected, hd, b1, Bool.and_self, if_true]
      refine ⟨by rw [i1, b4.plain_eq], i2, i3, ?_⟩
      intro m hm
      exact i4 m (by simpa using hm)
    | peerLimit m =>
      have hm : m < 2 ^ 32 := hev
      obtain ⟨p1, p2⟩ := peerMax_le hs.einv hm
      obtain ⟨i1, i2, i3, i4⟩ := ih (encSetPeerMax e m) d (hs.shrink hm) hpos hL htl
      simp only [limitSession, limitExpected]
      refine ⟨i1, i2, by omega, ?_⟩
      intro k hk
      rcases List.mem_cons.1 hk with hk | hk
      · cases hk; omega
      · exact i4 k hk

/-- C56: from fresh endpoints, whatever header lists are sent and whenever the peer's SETTINGS change the
table limit (the encoder then shrinks its table and does not announce it), every block is decoded to
exactly the list that was encoded, and the encoder's table stays within every limit the peer has set. -/
theorem C56_unannounced_shrink (es : List LimitEvent) (h : ∀ ev ∈ es, ev.legal 0xFFFFFFFF) :
    (limitSession {} {} es).1 = limitExpected es ∧
    ∀ m, LimitEvent.peerLimit m ∈ es → total (limitSession {} {} es).2.1.fields ≤ m := by
  obtain ⟨h1, h2, _, h4⟩ := limit_sync es {} {} init_synced.ahead (by decide) (by decide) h
  refine ⟨h1, fun m hm => ?_⟩
  rw [total_fields h2.einv.toInv0]
  exact Nat.le_trans h2.einv.le (h4 m hm)

example : ∀ ev ∈ [LimitEvent.block [⟨b!"x-a", b!"1", false⟩], .peerLimit 0, .block [⟨b!"x-a", b!"1", false⟩]],
    ev.legal 0xFFFFFFFF := by
  intro ev h
  simp only [List.mem_cons, List.not_mem_nil, or_false] at h
  have hg : ∀ f ∈ [(⟨b!"x-a", b!"1", false⟩ : HField)], GoodName f.name ∧ GoodValue f.value := by
    intro f hf
    rw [← valid_iff]
    simp only [List.mem_singleton] at hf
    subst hf; decide +kernel
  rcases h with rfl | rfl | rfl
  · exact ⟨hg, by decide⟩
  · show 0 < 2 ^ 32; decide
  · exact ⟨hg, by decide⟩

/-- C56, FALSE for the capacity the protocol classes configure: server.h 162/221 and client.h 184/246 set
the encoder's capacity to this endpoint's own SETTINGS_HEADER_TABLE_SIZE, which limits the *decoder*; when
it exceeds the peer's limit, a field that only the larger table can hold is indexed by the encoder and not
by the peer, and the next block that refers to it is undecodable. (Sizes 200 and 100 here.) -/
theorem C56_false_own_capacity :
    let big : HField := ⟨b!"x-a", b!"0123456789012345678901234567890123456789012345678901234567890123456789", false⟩
    let e1 := encodeBlock (encSetCapacity {} 200) [big]
    let d1 := decodeBlock (({} : Dec).setTableSize 100) e1.2.1
    let e2 := encodeBlock e1.2.2 [big]
    e1.1 = true ∧ d1.1 = true ∧ e2.1 = true ∧ (decodeBlock d1.2.2.2 e2.2.1).1 = false := by
  decide +kernel

end Verif.Hpack
