import Verif.Hpack.CodecLemmas

/-! # HPACK: property theorems C13–C22, C42 -/

namespace Verif.Hpack
open Spec

/-! ## C13 — integers round-trip -/

/-- Decoding what `encode_integer` wrote gives the value back and leaves the following input untouched. -/
theorem C13_int_roundtrip (N : Nat) (hN : 1 ≤ N ∧ N ≤ 8) (flags : Byte) (hf : flags.toNat % 2 ^ N = 0)
    (v : Nat) (hv : v < 2 ^ 64) (rest : Bytes) :
    decodeInt N (encodeInt flags N v ++ rest) = some (v, rest) :=
  decodeInt_encodeInt hN hf hv rest

/-- What `encode_integer` writes is an RFC 7541 representation of the value in at most 11 bytes whose first
byte carries the flag bits unchanged above the prefix. -/
theorem C13_int_encoding (N : Nat) (hN : 1 ≤ N ∧ N ≤ 8) (flags : Byte) (hf : flags.toNat % 2 ^ N = 0)
    (v : Nat) (hv : v < 2 ^ 64) :
    IsInt N (encodeInt flags N v) v ∧ (encodeInt flags N v).length ≤ 11 ∧
    ∃ b bs, encodeInt flags N v = b :: bs ∧ b.toNat / 2 ^ N = flags.toNat / 2 ^ N := by
  obtain ⟨h1, h2, b, bs, h3, h4⟩ := encodeInt_spec hN hf hv
  refine ⟨h1, h2, b, bs, h3, ?_⟩
  have hp := Nat.two_pow_pos N
  have e1 := Nat.div_add_mod b.toNat (2 ^ N)
  rw [← h4, show b.toNat - b.toNat % 2 ^ N = 2 ^ N * (b.toNat / 2 ^ N) by omega, Nat.mul_div_cancel_left _ hp]

example : decodeInt 5 (encodeInt 0x20 5 1337 ++ [7]) = some (1337, [7]) :=
  C13_int_roundtrip 5 (by decide) 0x20 (by decide) 1337 (by decide) [7]

/-! ## C14 — integer decoding is exact -/

/-- On any input whatsoever `decode_integer` succeeds exactly on well-formed representations of at most 11
bytes (1 prefix + 10 continuation) whose value fits 64 bits, and then returns that exact value and exactly
the bytes that follow. It never wraps and never reads past the end. -/
theorem C14_int_decode_exact (N : Nat) (hN : 1 ≤ N ∧ N ≤ 8) (input : Bytes) (v : Nat) (rest : Bytes) :
    decodeInt N input = some (v, rest) ↔
      ∃ used, input = used ++ rest ∧ IsInt N used v ∧ used.length ≤ 11 ∧ v < 2 ^ 64 :=
  decodeInt_iff hN input v rest

/-- 2^64 written in HPACK form is refused, 2^64 - 1 is accepted. -/
example : decodeInt 8 [255, 0x81, 0xfe, 0xff, 0xff, 0xff, 0xff, 0xff, 0xff, 0xff, 0x01] = none ∧
    decodeInt 8 [255, 0x80, 0xfe, 0xff, 0xff, 0xff, 0xff, 0xff, 0xff, 0xff, 0x01] = some (2 ^ 64 - 1, []) := by
  decide

/-! ## C15, C16 — Huffman coding -/

/-- Every byte string survives Huffman encoding and decoding. -/
theorem C15_huffman_roundtrip (s : Bytes) : huffDecode (huffEncode s) = some s := huffDecode_huffEncode s

/-- The encoder's output is the sequence of code words padded with at most seven 1 bits, and its length is
what `should_use_huffman` and `calculate_huffman_encoded_size` computed. -/
theorem C15_huffman_encoding (s : Bytes) :
    IsHuffman (huffEncode s) s ∧ (huffEncode s).length = huffEncodedSize s ∧
    huffEncodedSize s = ((codeWords s).length + 7) / 8 := by
  refine ⟨huffEncode_isHuffman s, isHuffman_length (huffEncode_isHuffman s), ?_⟩
  rw [codeWords_eq, codes_length]; rfl

/-- `should_use_huffman` says yes exactly when the encoded form is strictly shorter. -/
theorem C15_should_use_huffman (s : Bytes) :
    shouldUseHuffman s = true ↔ (huffEncode s).length < s.length := by
  rw [isHuffman_length (huffEncode_isHuffman s)]; simp [shouldUseHuffman]

/-- The decoder accepts exactly the legal encodings: code words of octets (never EOS), then at most seven
1 bits. -/
theorem C16_huffman_decode_exact (bs s : Bytes) : huffDecode bs = some s ↔ IsHuffman bs s :=
  huffDecode_iff bs s

/-- Accepted input is canonical: encoding the output gives the input back. -/
theorem C16_huffman_canonical (bs s : Bytes) (h : huffDecode bs = some s) : huffEncode s = bs :=
  isHuffman_unique (huffEncode_isHuffman s) ((huffDecode_iff bs s).mp h)

/-- The code is prefix free, EOS included: no code word continues another one. -/
theorem C16_prefix_free (a b : Nat) (ha : a ≤ 256) (hb : b ≤ 256) (t : List Bool)
    (h : codeWord a = codeWord b ++ t) : a = b ∧ t = [] := by
  rw [codeWord_eq, codeWord_eq] at h
  have h1 := decodeTree_reach ⟨a, by omega⟩
  have h2 := decodeTree_reach ⟨b, by omega⟩
  simp only at h1 h2
  have key : ∀ (p t : List Bool) (tr : HTree) (x y : Nat), tr.reach p = some x → tr.reach (p ++ t) = some y →
      x = y ∧ t = [] := by
    intro p
    induction p with
    | nil => intro t tr x y h; simp [HTree.reach] at h
    | cons c p ih =>
      intro t tr x y hx hy
      simp only [HTree.reach, List.cons_append] at hx hy
      cases hc : tr.child c with
      | nil => simp [hc] at hx
      | node sy l r =>
        cases sy with
        | some s =>
          simp only [hc] at hx hy
          split at hx
          · rename_i he
            have : p = [] := by simpa using he
            subst this
            split at hy
            · rename_i he2
              simp only [Option.some.injEq] at hx hy
              exact ⟨by omega, by simpa using he2⟩
            · cases hy
          · cases hx
        | none =>
          simp only [hc] at hx hy
          exact ih t _ x y hx hy
  rw [h] at h1
  obtain ⟨e1, e2⟩ := key _ _ _ _ _ h2 h1
  exact ⟨e1.symm, e2⟩

example : huffDecode (huffEncode b!"www.example.com") = some b!"www.example.com" := C15_huffman_roundtrip _
example : ∃ s, IsHuffman (huffEncode b!"no-cache") s := ⟨_, (C15_huffman_encoding _).1⟩

/-! ## C17, C18 — the dynamic table -/

/-- Refinement: for every history the ring buffer returns the same results as the newest-first list, holds
the same entries at the same indices, and reports the same counts and sizes. -/
theorem C18_ring_refines_list (ops : List TOp) (h : Budget32 ops) :
    let r := (({} : Ring).run ops).1
    let t := (({} : Table).run ops).1
    (({} : Ring).run ops).2 = (({} : Table).run ops).2 ∧
    r.count = t.entries.length ∧ r.max = t.max ∧ r.bytes = total t.entries ∧
    ∀ i, i < r.count →
      r.slotOf i < r.storage.length ∧ t.entries[i]? = some ((r.get i).name, (r.get i).value) := by
  intro r t
  obtain ⟨⟨h1, h2, h3⟩, h4⟩ := run_refines ops init_refines h
  refine ⟨h4, ?_, h2, ?_, ?_⟩
  · rw [← h3, fields_length]
  · rw [← h3, total_fields h1.toInv0]
  · intro i hi
    refine ⟨?_, by rw [← h3]; exact get_field hi⟩
    rcases h1.shape with ⟨-, -, h0, -⟩ | ⟨k, hk, hl, hm, hh, hc⟩
    · have hi' : i < (({} : Ring).run ops).1.count := hi
      omega
    · have hi' : i < (({} : Ring).run ops).1.count := hi
      show (({} : Ring).run ops).1.slotOf i < (({} : Ring).run ops).1.storage.length
      rw [slotOf_eq hk hm hh (by omega), hl]
      split <;> omega

/-- Two different live indices never share a slot, so an insertion never overwrites a live entry. -/
theorem C18_live_slots_distinct (ops : List TOp) (h : Budget32 ops) (i j : Nat)
    (hi : i < (({} : Ring).run ops).1.count) (hj : j < (({} : Ring).run ops).1.count) (hij : i ≠ j) :
    (({} : Ring).run ops).1.slotOf i ≠ (({} : Ring).run ops).1.slotOf j := by
  obtain ⟨⟨h1, -, -⟩, -⟩ := run_refines ops init_refines h
  rcases h1.shape with ⟨-, -, h0, -⟩ | ⟨k, hk, hl, hm, hh, hc⟩
  · omega
  · rw [slotOf_eq hk hm hh (by omega), slotOf_eq hk hm hh (by omega)]
    split <;> split <;> omega

/-- The accounted size is the sum of the entry sizes and never exceeds the maximum, after every history. -/
theorem C17_size_bound (ops : List TOp) (h : Budget32 ops) :
    let r := (({} : Ring).run ops).1
    r.bytes = ((List.range r.count).map fun i => (r.get i).name.length + (r.get i).value.length + 32).sum ∧
    r.bytes ≤ r.max := by
  intro r
  obtain ⟨⟨h1, -, -⟩, -⟩ := run_refines ops init_refines h
  refine ⟨?_, h1.le⟩
  have hb := h1.bytesEq
  rw [Ring.live, List.map_map] at hb
  show (({} : Ring).run ops).1.bytes = _
  rw [hb]
  congr 1
  apply List.map_congr_left
  intro i hi
  exact h1.sizes _ (List.mem_map.mpr ⟨i, hi, rfl⟩)

/-- What one operation keeps: an insertion leaves the longest initial segment of "new entry, then the old
entries, newest first" that fits the budget — the most recent entries, in order, and as many as fit. -/
theorem C17_keeps_most_recent (ops : List TOp) (h : Budget32 ops) (n v : Bytes) :
    let r := (({} : Ring).run ops).1
    let r' := (r.add n v).1
    r'.fields <+: ((n, v) :: r.fields) ∧ total r'.fields ≤ r.max ∧
    ∀ p, p <+: ((n, v) :: r.fields) → total p ≤ r.max → p <+: r'.fields := by
  intro r r'
  obtain ⟨⟨h1, -, -⟩, -⟩ := run_refines ops init_refines h
  obtain ⟨-, -, a3, -⟩ := add_spec h1 n v
  show (r.add n v).1.fields <+: _ ∧ total (r.add n v).1.fields ≤ _ ∧ _
  refine ⟨?_, ?_, ?_⟩
  · rw [a3]; exact fit_prefix _ _
  · rw [a3]; exact total_fit _ _
  · intro p hp ht
    show p <+: (r.add n v).1.fields
    rw [a3]; exact fit_longest _ _ _ hp ht

/-- Everything a decoder can be asked to do. -/
inductive DecOp
  | decode (bs : Bytes)
  | setTableSize (m : Nat)
  | setListSize (m : Nat)
  | reset

/-- One operation on a decoder (hpack.h 732-749). -/
def decOp (d : Dec) : DecOp → Dec
  | .decode bs => (decodeBlock d bs).2.2.2
  | .setTableSize m => d.setTableSize m
  | .setListSize m => { d with listLimit := m }
  | .reset => { d with tbl := d.tbl.clear }

/-- Whatever bytes the peer sends — valid, truncated or hostile — and whatever size updates they contain, the
decoder's table never grows beyond the table size this endpoint advertised. -/
theorem C17_decoder_table_bounded (ops : List DecOp) (h : ∀ m, DecOp.setTableSize m ∈ ops → m < 2 ^ 32) :
    let d := ops.foldl decOp ({} : Dec)
    d.tbl.bytes ≤ d.tableLimit ∧ total d.tbl.fields = d.tbl.bytes := by
  intro d
  have key : ∀ (ops : List DecOp) (d : Dec), (∀ m, DecOp.setTableSize m ∈ ops → m < 2 ^ 32) →
      d.tableLimit < 2 ^ 32 → TblOk d.tableLimit d.tbl →
      TblOk (ops.foldl decOp d).tableLimit (ops.foldl decOp d).tbl := by
    intro ops
    induction ops with
    | nil => intro d _ _ h; exact h
    | cons op ops ih =>
      intro d hm hT hok
      rw [List.foldl_cons]
      have hm' : ∀ m, DecOp.setTableSize m ∈ ops → m < 2 ^ 32 := fun m hh => hm m (List.mem_cons_of_mem _ hh)
      cases op with
      | decode bs =>
        obtain ⟨h1, h2, -⟩ := decodeBlock_tbl d hT bs hok
        exact ih _ hm' (by simp only [decOp]; rw [h2]; exact hT) h1
      | setTableSize m =>
        have hm32 := hm m List.mem_cons_self
        obtain ⟨a, b, -⟩ := setMax_spec hok.inv m hm32
        exact ih _ hm' hm32 ⟨a, by simp only [decOp, Dec.setTableSize]; rw [b]; exact Nat.le_refl _⟩
      | setListSize m => exact ih _ hm' hT hok
      | reset =>
        obtain ⟨a, -, c⟩ := clear_spec hok.inv
        exact ih _ hm' hT ⟨a, by simp only [decOp]; rw [c]; exact hok.le⟩
  have := key ops {} h (by decide) ⟨init_inv, by decide⟩
  exact ⟨Nat.le_trans this.inv.le this.le, total_fields this.inv.toInv0⟩

example : Budget32 [.add b!"a" b!"b", .setMax 40, .add b!"c" b!"d", .clear] := by
  intro m hm; simp at hm; subst hm; decide

example : ((({} : Ring).run [.add b!"a" b!"b", .setMax 40, .add b!"c" b!"d"]).1.count,
    (({} : Ring).run [.add b!"a" b!"b", .setMax 40, .add b!"c" b!"d"]).2) =
    (1, [.added true 0, .resized 0, .added true 1]) := by decide +kernel

/-! ## C19 — encoder and decoder stay in step -/

/-- From fresh endpoints with default settings, for every sequence of legal header lists and common table
resizes: every block decodes, to exactly the header list that was encoded, and afterwards both dynamic tables
hold the same entries under the same maximum. -/
theorem C19_codec_synchronised (es : List Event) (h : ∀ ev ∈ es, ev.legal 0xFFFFFFFF) :
    let s := session {} {} es
    s.1 = expected es ∧ s.2.1.fields = s.2.2.tbl.fields ∧ s.2.1.max = s.2.2.tbl.max := by
  intro s
  obtain ⟨h1, h2⟩ := session_sync es {} {} init_synced (by decide) (by decide) h
  exact ⟨h1, h2.fields, h2.max⟩

/-- One block from any pair of synchronised endpoints, whatever the limits: it decodes to the same names and
values in the same order, a field is reported as sensitive only if it was one that must not be indexed, and the
tables are synchronised again. -/
theorem C19_block_roundtrip (e : Ring) (d : Dec) (h : Synced e d.tbl) (hs : List HField)
    (hv : ∀ f ∈ hs, f.valid = true) (hl : ∀ f ∈ hs, f.name.length < 2 ^ 64 ∧ f.value.length < 2 ^ 64)
    (hL : d.listLimit = 0 ∨ listSize hs ≤ d.listLimit) :
    ∃ out d', decodeBlock d (encodeBlock e hs).2.1 = (true, false, out, d') ∧
      (encodeBlock e hs).1 = true ∧ plain out = plain hs ∧ DeliveredAll hs out ∧
      Synced (encodeBlock e hs).2.2 d'.tbl := by
  obtain ⟨b1, st', gs, b2, b3, b4, b5⟩ := block_sync hs h d.tableLimit d.listLimit
    (encodeBlock e hs).2.1.length { tbl := d.tbl } rfl hv hl (by simpa using hL) (Nat.le_refl _)
  simp only [List.nil_append] at b3
  refine ⟨gs, { d with tbl := st'.tbl }, ?_, b1, b4.plain_eq, b4, b5⟩
  unfold decodeBlock; rw [b2]; simp only [b3]

/-- A concrete legal history with two blocks, a resize and an insertion. -/
example : ∀ ev ∈ [Event.block [⟨b!":method", b!"GET", false⟩, ⟨b!"x-a", b!"1", false⟩], .resize 100,
    .block [⟨b!"x-a", b!"1", false⟩]], ev.legal 0xFFFFFFFF := by
  intro ev h
  simp only [List.mem_cons, List.not_mem_nil, or_false] at h
  rcases h with rfl | rfl | rfl
  · exact ⟨by decide, by decide⟩
  · show 100 < 2 ^ 32; decide
  · exact ⟨by decide, by decide⟩

/-- …in which the second block really uses the table: it is the single byte `0x80 | 62`. -/
example : (encodeBlock (encodeBlock {} [⟨b!"x-a", b!"1", false⟩]).2.2 [⟨b!"x-a", b!"1", false⟩]).2.1 = [190] := by
  decide +kernel

/-! ## C20 — secrets never enter the table -/

/-- After any history of encodings (also failing ones), resizes and resets, every entry of the encoder's
dynamic table is a field that was handed over for encoding and that is not secret. -/
theorem C20_secrets_never_indexed (ops : List EncOp) (h : ∀ op ∈ ops, op.ok) :
    ∀ x ∈ (ops.foldl encStep ({} : Ring)).fields,
      ∃ f ∈ handed ops, ¬ Secret f ∧ x = (f.name, f.value) := by
  intro x hx
  rcases encRun_fields ops init_inv h x hx with h1 | h1
  · exact h1
  · simp [Ring.fields, Ring.live] at h1

/-- A secret field is emitted either as a never-indexed literal (first byte `0001xxxx`) or as a reference to
an identical entry that is already in the static or dynamic table; in both cases the table is unchanged. -/
theorem C20_secret_representation (r : Ring) (hr : r.Inv) (f : HField) (hf : Secret f) :
    (encodeField r f).2 = r ∧
    ((∃ b bs, (encodeField r f).1 = b :: bs ∧ b.toNat / 16 = 1) ∨
     ∃ i, (encodeField r f).1 = encodeInt 0x80 7 i ∧ lookup r i = some (f.name, f.value)) := by
  refine ⟨encodeField_unindexed f (Or.inl hf), ?_⟩
  unfold encodeField
  split
  · rename_i i hfe
    obtain ⟨h1, h2, h3⟩ := findExact_sound hfe
    exact Or.inr ⟨i, rfl, by rw [lookup_static h1 h2, h3]⟩
  · split
    · rename_i x i hsc
      obtain ⟨k, hk, rfl, hfl⟩ := (dynScan_spec r f.name f.value r.count 0 none (by omega)).2.1 i (by rw [hsc])
      exact Or.inr ⟨_, rfl, by rw [lookup_dynamic hr hk, hfl]⟩
    · rename_i dyn hsc
      dsimp only
      rw [if_pos ((secret_iff f).mpr hf)]
      obtain ⟨b, bs, he, hb⟩ := encodeLiteral_cons (flags := 0x10) (N := 4) (by omega) free_10_4 f dyn
        (findName f.name) (fun i hi => (scan_name hr f.name f.value (by rw [hsc]; exact hi)).2)
        (fun i hi => (static_name (r := r) hi).2)
      refine Or.inl ⟨b, bs, he, ?_⟩
      have h16 : (0x10 : UInt8).toNat = 16 := rfl
      rw [h16] at hb
      omega

example : Secret ⟨b!"set-cookie2", b!"v", false⟩ ∧ Secret ⟨b!"x", b!"v", true⟩ :=
  ⟨Or.inr (Or.inr (Or.inr (Or.inr (Or.inl ⟨b!"2", rfl⟩)))), Or.inl rfl⟩

/-! ## C21 — header list limit -/

/-- Whatever the block and the decoder state: a successful decode under a non-zero limit delivered a header
list whose accounted size is within the limit. -/
theorem C21_header_list_limit (d : Dec) (bs : Bytes) (hL : 0 < d.listLimit)
    (hok : (decodeBlock d bs).1 = true) : listSize (decodeBlock d bs).2.2.1 ≤ d.listLimit := by
  unfold decodeBlock at hok ⊢
  dsimp only at hok ⊢
  generalize hr : decodeLoop d.tableLimit d.listLimit bs.length { tbl := d.tbl } bs = r at *
  obtain ⟨a, b, st⟩ := r
  simp only at hok
  subst hok
  rcases decodeLoop_size _ _ _ _ _ _ _ hr (by rfl) (Or.inr (Nat.zero_le _)) with h | h
  · omega
  · exact h

/-- The model's loop is the code's `while`: its instruction bound never stops it early. -/
theorem C21_loop_bound_irrelevant (T L f : Nat) (st : DState) (bs : Bytes) (h : bs.length ≤ f) :
    decodeLoop T L f st bs = decodeLoop T L bs.length st bs :=
  decodeLoop_fuel T L f bs.length st bs h (Nat.le_refl _)

example : (decodeBlock { listLimit := 50 } [0x82]).1 = true ∧ (decodeBlock { listLimit := 41 } [0x82]).1 = false := by
  decide +kernel

/-! ## C22 — a failed encode -/

/-- The full statement of C22. -/
def C22_statement : Prop :=
  ∀ (r : Ring), r.Inv → ∀ hs, (encodeBlock r hs).1 = false → (encodeBlock r hs).2.2.fields = r.fields

/-- C22 is false of the code: a list whose second field is invalid makes `encode` return false after the first
field has already been inserted. -/
theorem C22_false : ¬ C22_statement := by
  intro h
  have := h {} init_inv [⟨b!"x-a", b!"1", false⟩, ⟨[], [], false⟩] (by decide +kernel)
  revert this
  decide +kernel

/-- The consequence for a user: the encoder fails on one list (so nothing is sent), then encodes a perfectly
valid list — and the peer's decoder, which never saw the discarded block, rejects it. -/
theorem C22_desynchronises :
    ∃ bad good : List HField,
      let r1 := encodeBlock {} bad
      let r2 := encodeBlock r1.2.2 good
      r1.1 = false ∧ r2.1 = true ∧ (∀ f ∈ good, f.valid = true) ∧ (decodeBlock {} r2.2.1).1 = false :=
  ⟨[⟨b!"x-a", b!"1", false⟩, ⟨[], [], false⟩], [⟨b!"x-a", b!"1", false⟩], by decide +kernel⟩

/-- What does hold: a failed encode leaves the table as after encoding the valid fields that precede the first
invalid one, so it is unchanged when those are all secret or too large to be indexed (in particular when the
first field is the invalid one). Missing from C22: the case in which an indexable field precedes. -/
theorem C22_failed_encode_partial (r : Ring) (pre post : List HField) (bad : HField)
    (hpre : ∀ f ∈ pre, f.valid = true) (hbad : bad.valid = false) :
    (encodeBlock r (pre ++ bad :: post)).1 = false ∧
    (encodeBlock r (pre ++ bad :: post)).2.2 = (encodeBlock r pre).2.2 ∧
    ((∀ f ∈ pre, Secret f ∨ r.max < f.size) → (encodeBlock r (pre ++ bad :: post)).2.2 = r) := by
  rw [encodeBlock_append _ _ _ hpre]
  have hb : ∀ r, encodeBlock r (bad :: post) = (false, [], r) := by
    intro r; rw [encodeBlock, if_neg (by simp [hbad])]
  simp only [hb, true_and]
  intro hsec
  clear hb hbad
  induction pre with
  | nil => rfl
  | cons f pre ih =>
    rw [encodeBlock, if_pos (hpre f List.mem_cons_self)]
    dsimp only
    rw [encodeField_unindexed f (hsec f List.mem_cons_self)]
    exact ih (fun g hg => hpre g (List.mem_cons_of_mem _ hg)) (fun g hg => hsec g (List.mem_cons_of_mem _ hg))

/-! ## C42 — static table lookups -/

/-- The hash index over the static table is exact for every byte string: `find_name_match` returns the smallest
index carrying the name, or nothing if no entry carries it — whatever the hash collisions. -/
theorem C42_find_name_exact (name : Bytes) :
    (∀ i, findName name = some i →
      1 ≤ i ∧ i ≤ 61 ∧ (∃ v, staticTable[i - 1]? = some (name, v)) ∧
      ∀ j v, 1 ≤ j → staticTable[j - 1]? = some (name, v) → i ≤ j) ∧
    (findName name = none → ∀ e ∈ staticTable, e.1 ≠ name) := by
  constructor
  · intro i hi
    rw [findName_eq] at hi
    obtain ⟨h1, h2, h3⟩ := firstName_some hi
    refine ⟨h1, h2, h3, ?_⟩
    intro j v hj hjv
    unfold firstName at hi
    rw [Option.map_eq_some_iff] at hi
    obtain ⟨k, hk, rfl⟩ := hi
    rw [List.findIdx?_eq_some_iff_getElem] at hk
    obtain ⟨hlt, -, hmin⟩ := hk
    apply Decidable.byContradiction
    intro hlt2
    have hjk : j - 1 < k := by omega
    have := hmin (j - 1) hjk
    obtain ⟨hb, he⟩ := List.getElem?_eq_some_iff.mp hjv
    rw [he] at this
    simp at this
  · intro h e he heq
    have := index_complete e he
    rw [heq, h] at this; cases this

/-- `find_exact_match` finds an entry exactly when the pair is in the table, and returns its index. -/
theorem C42_find_exact_exact (name value : Bytes) :
    (∀ i, findExact name value = some i → 1 ≤ i ∧ i ≤ 61 ∧ staticTable[i - 1]? = some (name, value)) ∧
    (findExact name value = none → (name, value) ∉ staticTable) := by
  refine ⟨fun i hi => findExact_sound hi, ?_⟩
  intro h hm
  have := exact_complete _ hm
  rw [h] at this; cases this

example : findName b!"content-type" = some 31 ∧ findName b!"x-unknown" = none ∧
    findExact b!":status" b!"404" = some 13 ∧ findExact b!":status" b!"201" = none := by decide +kernel

end Verif.Hpack
