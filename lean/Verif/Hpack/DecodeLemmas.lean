import Verif.Hpack.Theorems
import Verif.Hpack.DecodeSpec

/-! Lemmas for C54. -/

namespace Verif.Hpack
open Spec

theorem decodeInt_iff64 {N : Nat} (hN : 1 ≤ N ∧ N ≤ 8) (input : Bytes) (v : Nat) (rest : Bytes) :
    decodeInt N input = some (v, rest) ↔ ∃ used, input = used ++ rest ∧ IsInt64 N used v :=
  decodeInt_iff hN input v rest

theorem isInt_cons {N : Nat} {bs : Bytes} {v : Nat} (h : IsInt64 N bs v) : ∃ b u, bs = b :: u := by
  obtain ⟨h, -⟩ := h
  cases h with
  | short b h => exact ⟨b, [], rfl⟩
  | long b bs h c => exact ⟨b, bs, rfl⟩

theorem and80_iff (b : Byte) : (b &&& 0x80 ≠ 0) ↔ b.toNat / 128 = 1 := by
  revert b; apply forall_byte; decide +kernel

theorem div128 (b : Byte) : b.toNat / 128 = 0 ∨ b.toNat / 128 = 1 := by
  have := b.toNat_lt; omega

theorem decodeStr_iff (bs s rest : Bytes) :
    decodeStr bs = .ok (s, rest) ↔ ∃ used, bs = used ++ rest ∧ IsStr used s := by
  constructor
  · intro h
    unfold decodeStr at h
    cases bs with
    | nil => simp at h
    | cons b t =>
      simp only [] at h
      cases hd : decodeInt 7 (b :: t) with
      | none => rw [hd] at h; simp at h
      | some p =>
        obtain ⟨len, r⟩ := p
        rw [hd] at h
        simp only [] at h
        obtain ⟨used, hu, hi⟩ := (decodeInt_iff64 (by omega) _ _ _).1 hd
        obtain ⟨b', u, rfl⟩ := isInt_cons hi
        simp only [List.cons_append, List.cons.injEq] at hu
        obtain ⟨rfl, rfl⟩ := hu
        by_cases hl : len > r.length
        · rw [if_pos hl] at h; simp at h
        rw [if_neg hl] at h
        have hlen : (r.take len).length = len := by rw [List.length_take]; omega
        by_cases h8 : b &&& 0x80 ≠ 0
        · rw [if_pos h8] at h
          cases hh : huffDecode (r.take len) with
          | none => rw [hh] at h; simp at h
          | some x =>
            rw [hh] at h
            simp only [Except.ok.injEq, Prod.mk.injEq] at h
            obtain ⟨rfl, rfl⟩ := h
            refine ⟨b :: u ++ r.take len, by simp, .huffman ((and80_iff b).1 h8) (by rw [hlen]; exact hi)
              ((C16_huffman_decode_exact _ _).1 hh)⟩
        · rw [if_neg h8] at h
          simp only [Except.ok.injEq, Prod.mk.injEq] at h
          obtain ⟨rfl, rfl⟩ := h
          refine ⟨b :: u ++ r.take len, by simp, .raw ?_ (by rw [hlen]; exact hi)⟩
          rcases div128 b with h | h
          · exact h
          · exact absurd ((and80_iff b).2 h) h8
  · rintro ⟨used, rfl, h⟩
    cases h with
    | @raw b u s hb hi =>
      have hd := (decodeInt_iff64 (by omega) (b :: u ++ (s ++ rest)) s.length (s ++ rest)).2 ⟨_, rfl, hi⟩
      rw [List.cons_append] at hd
      simp only [List.cons_append, List.append_assoc]
      unfold decodeStr
      simp only [hd]
      rw [if_neg (by simp), if_neg (by rw [and80_iff]; omega)]
      simp
    | @huffman b u data s hb hi hh =>
      have hd := (decodeInt_iff64 (by omega) (b :: u ++ (data ++ rest)) data.length (data ++ rest)).2 ⟨_, rfl, hi⟩
      rw [List.cons_append] at hd
      simp only [List.cons_append, List.append_assoc]
      unfold decodeStr
      simp only [hd]
      rw [if_neg (by simp), if_pos (by rw [and80_iff]; omega)]
      simp [(C16_huffman_decode_exact _ _).2 hh]

theorem lookup_entryAt {r : Ring} {t : Table} (h : r.Refines t) (i : Nat) (hi : i < 2 ^ 64) :
    lookup r i = entryAt t i := by
  obtain ⟨h1, h2, h3⟩ := h
  unfold entryAt
  have hc := count_lt h1
  by_cases h0 : i = 0
  · subst h0
    rw [if_pos rfl]
    unfold lookup
    rw [if_neg (by simp)]
    simp only []
    rw [if_pos]
    left
    omega
  rw [if_neg h0]
  by_cases h61 : i ≤ 61
  · rw [if_pos h61]; exact lookup_static (by omega) h61
  rw [if_neg h61]
  by_cases hb : i - 62 < r.count
  · have := lookup_dynamic h1 hb
    rw [show 61 + (i - 62) + 1 = i by omega] at this
    rw [this, h3]
  · unfold lookup
    rw [if_neg (by omega)]
    simp only []
    have e : (i + (2 ^ 64 - 61)) % 2 ^ 64 = i - 61 := by
      rw [show i + (2 ^ 64 - 61) = (i - 61) + 2 ^ 64 by omega, Nat.add_mod_right, Nat.mod_eq_of_lt (by omega)]
    rw [e, if_pos (by omega)]
    rw [List.getElem?_eq_none]
    rw [← h3, fields_length]; omega

theorem decodeName_iff {r : Ring} {t : Table} (h : r.Refines t) (i : Nat) (hi : i < 2 ^ 64) (bs n rest : Bytes) :
    decodeName r i bs = .ok (n, rest) ↔ ∃ nb, bs = nb ++ rest ∧ IsName t i nb n := by
  unfold decodeName
  by_cases h0 : i = 0
  · subst h0
    rw [if_pos rfl, decodeStr_iff]
    constructor
    · rintro ⟨u, h1, h2⟩; exact ⟨u, h1, .literal h2⟩
    · rintro ⟨u, h1, h2⟩
      cases h2 with
      | literal h2 => exact ⟨u, h1, h2⟩
      | indexed h2 => simp [entryAt] at h2
  · rw [if_neg h0, lookup_entryAt h i hi]
    constructor
    · intro he
      cases hh : entryAt t i with
      | none => rw [hh] at he; simp at he
      | some p =>
        obtain ⟨a, b⟩ := p
        rw [hh] at he
        simp only [Except.ok.injEq, Prod.mk.injEq] at he
        obtain ⟨rfl, rfl⟩ := he
        exact ⟨[], rfl, .indexed hh⟩
    · rintro ⟨nb, rfl, h2⟩
      cases h2 with
      | literal h2 => exact absurd rfl h0
      | indexed h2 => rw [h2]; rfl

theorem decodeLiteral_iff {r : Ring} {t : Table} (h : r.Refines t) {N : Nat} (hN : 1 ≤ N ∧ N ≤ 8) (bs n v rest : Bytes) :
    decodeLiteral r N bs = .ok (n, v, rest) ↔
      ∃ b u i nb vb, bs = b :: u ++ (nb ++ vb) ++ rest ∧ IsInt64 N (b :: u) i ∧ IsName t i nb n ∧ IsStr vb v := by
  constructor
  · intro he
    unfold decodeLiteral at he
    cases hd : decodeInt N bs with
    | none => rw [hd] at he; simp at he
    | some p =>
      obtain ⟨i, r1⟩ := p
      rw [hd] at he
      simp only [] at he
      obtain ⟨used, rfl, hi⟩ := (decodeInt_iff64 hN _ _ _).1 hd
      obtain ⟨b, u, rfl⟩ := isInt_cons hi
      cases hn : decodeName r i r1 with
      | error e => rw [hn] at he; simp at he
      | ok p =>
        obtain ⟨n', r2⟩ := p
        rw [hn] at he
        simp only [] at he
        obtain ⟨nb, rfl, h2⟩ := (decodeName_iff h i hi.2.2 _ _ _).1 hn
        cases hv : decodeStr r2 with
        | error e => rw [hv] at he; simp at he
        | ok p =>
          obtain ⟨v', r3⟩ := p
          rw [hv] at he
          simp only [Except.ok.injEq, Prod.mk.injEq] at he
          obtain ⟨rfl, rfl, rfl⟩ := he
          obtain ⟨vb, rfl, h3⟩ := (decodeStr_iff _ _ _).1 hv
          exact ⟨b, u, i, nb, vb, by simp, hi, h2, h3⟩
  · rintro ⟨b, u, i, nb, vb, rfl, hi, h2, h3⟩
    unfold decodeLiteral
    rw [(decodeInt_iff64 hN (b :: u ++ (nb ++ vb) ++ rest) i (nb ++ (vb ++ rest))).2 ⟨b :: u, by simp, hi⟩]
    simp only []
    rw [(decodeName_iff h i hi.2.2 _ n (vb ++ rest)).2 ⟨nb, rfl, h2⟩]
    simp only []
    rw [(decodeStr_iff _ v rest).2 ⟨vb, rfl, h3⟩]

/-- accounted size of what an instruction emits -/
def emitSize : Option HField → Nat
  | none => 0
  | some f => f.name.length + f.value.length + 32

theorem listSize_toList (f : Option HField) : listSize f.toList = emitSize f := by
  cases f <;> simp [listSize, emitSize]

theorem shift_div (b : Byte) (k : Nat) : b.toNat >>> k = b.toNat / 2 ^ k := Nat.shiftRight_eq_div_pow _ _

/-- What one successful instruction does to the loop state. -/
def Effect (L : Nat) (st st' : DState) (f : Option HField) (t' : Table) : Prop :=
  st'.out = st.out ++ f.toList ∧ st'.size = st.size + emitSize f ∧ st'.updates = (st.updates && f.isNone) ∧
  st'.tbl.Refines t' ∧ (L = 0 ∨ st'.size ≤ L)

theorem checkList_eff (L : Nat) (st : DState) (rest : Bytes) (st' : DState) (rest' : Bytes) :
    checkList L st rest = .next st' rest' ↔ st' = st ∧ rest' = rest ∧ (L = 0 ∨ st.size ≤ L) := by
  unfold checkList
  split
  · simp; omega
  · simp only [DStep.next.injEq]
    constructor
    · rintro ⟨rfl, rfl⟩; exact ⟨rfl, rfl, by omega⟩
    · rintro ⟨rfl, rfl, _⟩; exact ⟨rfl, rfl⟩

theorem emit_eff (L : Nat) (st : DState) (n v : Bytes) (s : Bool) (t : Table) (r : Ring) (hr : r.Refines t)
    (hL : L = 0 ∨ (emitLiteral st n v s).size ≤ L) :
    Effect L st { emitLiteral st n v s with tbl := r } (some ⟨n, v, s⟩) t := by
  refine ⟨rfl, rfl, by simp [emitLiteral], hr, hL⟩

theorem step_sound {T L : Nat} (hT : T < 2 ^ 32) {st st' : DState} {t : Table} (hr : st.tbl.Refines t)
    {b : Byte} {tl rest : Bytes} (h : decodeStep T L st b (b :: tl) = .next st' rest) :
    ∃ used f t', b :: tl = used ++ rest ∧ Instr T t st.updates used f t' ∧ Effect L st st' f t' := by
  unfold decodeStep at h
  simp only [shift_div] at h
  by_cases h1 : b.toNat / 2 ^ 7 = 1
  · rw [if_pos h1] at h
    cases hd : decodeInt 7 (b :: tl) with
    | none => rw [hd] at h; simp at h
    | some p =>
      obtain ⟨i, r1⟩ := p
      rw [hd] at h
      simp only [] at h
      obtain ⟨used, hu, hi⟩ := (decodeInt_iff64 (by omega) _ _ _).1 hd
      obtain ⟨b', u, rfl⟩ := isInt_cons hi
      have hb : b' = b := by simp at hu; exact hu.1.symm
      subst hb
      by_cases h0 : i = 0
      · rw [if_pos h0] at h; simp at h
      rw [if_neg h0, lookup_entryAt hr i hi.2.2] at h
      cases he : entryAt t i with
      | none => rw [he] at h; simp at h
      | some p =>
        obtain ⟨n, v⟩ := p
        rw [he] at h
        simp only [] at h
        rw [checkList_eff] at h
        obtain ⟨rfl, rfl, hL⟩ := h
        exact ⟨b' :: u, _, t, hu, .indexed h1 hi he, emit_eff L st n v false t st.tbl hr hL⟩
  rw [if_neg h1] at h
  by_cases h2 : b.toNat / 2 ^ 6 = 1
  · rw [if_pos h2] at h
    cases hd : decodeLiteral st.tbl 6 (b :: tl) with
    | error e => rw [hd] at h; simp at h
    | ok p =>
      obtain ⟨n, v, r1⟩ := p
      rw [hd] at h
      simp only [] at h
      rw [checkList_eff] at h
      obtain ⟨rfl, rfl, hL⟩ := h
      obtain ⟨b', u, i, nb, vb, hu, hi, hn, hv⟩ := (decodeLiteral_iff hr (by omega) _ _ _ _).1 hd
      have hb : b' = b := by simp at hu; exact hu.1.symm
      subst hb
      exact ⟨_, _, _, hu, .incremental h2 hi hn hv,
        emit_eff L st n v false _ _ (step_refines hr (.add n v) (by simp)).1 hL⟩
  rw [if_neg h2] at h
  by_cases h3 : b.toNat / 2 ^ 4 = 0
  · rw [if_pos h3] at h
    cases hd : decodeLiteral st.tbl 4 (b :: tl) with
    | error e => rw [hd] at h; simp at h
    | ok p =>
      obtain ⟨n, v, r1⟩ := p
      rw [hd] at h
      simp only [] at h
      rw [checkList_eff] at h
      obtain ⟨rfl, rfl, hL⟩ := h
      obtain ⟨b', u, i, nb, vb, hu, hi, hn, hv⟩ := (decodeLiteral_iff hr (by omega) _ _ _ _).1 hd
      have hb : b' = b := by simp at hu; exact hu.1.symm
      subst hb
      exact ⟨_, _, _, hu, .plain h3 hi hn hv, emit_eff L st n v false _ _ hr hL⟩
  rw [if_neg h3] at h
  by_cases h4 : b.toNat / 2 ^ 4 = 1
  · rw [if_pos h4] at h
    cases hd : decodeLiteral st.tbl 4 (b :: tl) with
    | error e => rw [hd] at h; simp at h
    | ok p =>
      obtain ⟨n, v, r1⟩ := p
      rw [hd] at h
      simp only [] at h
      rw [checkList_eff] at h
      obtain ⟨rfl, rfl, hL⟩ := h
      obtain ⟨b', u, i, nb, vb, hu, hi, hn, hv⟩ := (decodeLiteral_iff hr (by omega) _ _ _ _).1 hd
      have hb : b' = b := by simp at hu; exact hu.1.symm
      subst hb
      exact ⟨_, _, _, hu, .never h4 hi hn hv, emit_eff L st n v true _ _ hr hL⟩
  rw [if_neg h4] at h
  by_cases h5 : b.toNat / 2 ^ 5 = 1
  · rw [if_pos h5] at h
    cases hup : st.updates with
    | false => rw [hup] at h; simp at h
    | true =>
      rw [hup] at h
      simp only [Bool.not_true, Bool.false_eq_true, if_false] at h
      cases hd : decodeInt 5 (b :: tl) with
      | none => rw [hd] at h; simp at h
      | some p =>
        obtain ⟨m, r1⟩ := p
        rw [hd] at h
        simp only [] at h
        obtain ⟨used, hu, hi⟩ := (decodeInt_iff64 (by omega) _ _ _).1 hd
        obtain ⟨b', u, rfl⟩ := isInt_cons hi
        have hb : b' = b := by simp at hu; exact hu.1.symm
        subst hb
        by_cases hm : m > T
        · rw [if_pos hm] at h; simp at h
        rw [if_neg hm, checkList_eff] at h
        obtain ⟨rfl, rfl, hL⟩ := h
        refine ⟨b' :: u, none, _, hu, .size h5 hi (by omega), ?_⟩
        exact ⟨by simp, by simp [emitSize], by simp [hup],
          (step_refines hr (.setMax m) (by intro k hk; cases hk; omega)).1, hL⟩
  · rw [if_neg h5] at h; simp at h

theorem step_complete {T L : Nat} (hT : T < 2 ^ 32) {st : DState} {t t' : Table} (hr : st.tbl.Refines t)
    {used : Bytes} {f : Option HField} (hi : Instr T t st.updates used f t')
    (hL : L = 0 ∨ st.size + emitSize f ≤ L) (rest : Bytes) :
    ∃ b tl st', used = b :: tl ∧ decodeStep T L st b (used ++ rest) = .next st' rest ∧ Effect L st st' f t' := by
  generalize hu : st.updates = upd at hi
  cases hi with
  | @indexed upd b u i n v h1 hi he =>
    refine ⟨b, u, emitLiteral st n v false, rfl, ?_, ?_⟩
    · unfold decodeStep
      simp only [shift_div]
      rw [if_pos h1, (decodeInt_iff64 (by omega) (b :: u ++ rest) i rest).2 ⟨_, rfl, hi⟩]
      simp only []
      have h0 : i ≠ 0 := by rintro rfl; simp [entryAt] at he
      rw [if_neg h0, lookup_entryAt hr i hi.2.2, he]
      simp only []
      rw [checkList_eff]
      exact ⟨rfl, rfl, hL⟩
    · exact emit_eff L st n v false t st.tbl hr hL
  | @incremental upd b u i nb n vb v h1 hi hn hv =>
    refine ⟨b, u ++ (nb ++ vb), { emitLiteral st n v false with tbl := (st.tbl.add n v).1 }, by simp, ?_, ?_⟩
    · unfold decodeStep
      simp only [shift_div]
      rw [if_neg (by omega), if_pos h1,
        (decodeLiteral_iff hr (by omega) _ n v rest).2 ⟨b, u, i, nb, vb, rfl, hi, hn, hv⟩]
      simp only []
      rw [checkList_eff]
      exact ⟨rfl, rfl, hL⟩
    · exact emit_eff L st n v false _ _ (step_refines hr (.add n v) (by simp)).1 hL
  | @plain upd b u i nb n vb v h1 hi hn hv =>
    refine ⟨b, u ++ (nb ++ vb), emitLiteral st n v false, by simp, ?_, ?_⟩
    · unfold decodeStep
      simp only [shift_div]
      rw [if_neg (by omega), if_neg (by omega), if_pos h1,
        (decodeLiteral_iff hr (by omega) _ n v rest).2 ⟨b, u, i, nb, vb, rfl, hi, hn, hv⟩]
      simp only []
      rw [checkList_eff]
      exact ⟨rfl, rfl, hL⟩
    · exact emit_eff L st n v false t st.tbl hr hL
  | @never upd b u i nb n vb v h1 hi hn hv =>
    refine ⟨b, u ++ (nb ++ vb), emitLiteral st n v true, by simp, ?_, ?_⟩
    · unfold decodeStep
      simp only [shift_div]
      rw [if_neg (by omega), if_neg (by omega), if_neg (by omega), if_pos h1,
        (decodeLiteral_iff hr (by omega) _ n v rest).2 ⟨b, u, i, nb, vb, rfl, hi, hn, hv⟩]
      simp only []
      rw [checkList_eff]
      exact ⟨rfl, rfl, hL⟩
    · exact emit_eff L st n v true t st.tbl hr hL
  | @size b u m h1 hi hm =>
    refine ⟨b, u, { st with tbl := (st.tbl.setMax m).1 }, rfl, ?_, ?_⟩
    · unfold decodeStep
      simp only [shift_div]
      rw [if_neg (by omega), if_neg (by omega), if_neg (by omega), if_neg (by omega), if_pos h1, hu]
      simp only [Bool.not_true, Bool.false_eq_true, if_false]
      rw [(decodeInt_iff64 (by omega) (b :: u ++ rest) m rest).2 ⟨_, rfl, hi⟩]
      simp only []
      rw [if_neg (by omega), checkList_eff]
      exact ⟨rfl, rfl, hL⟩
    · exact ⟨by simp, by simp [emitSize], by simp [hu],
        (step_refines hr (.setMax m) (by intro k hk; cases hk; omega)).1, hL⟩

theorem loop_sound {T L : Nat} (hT : T < 2 ^ 32) (fuel : Nat) : ∀ (st : DState) (t : Table) (bs : Bytes) (inc : Bool)
    (st' : DState), st.tbl.Refines t → decodeLoop T L fuel st bs = (true, inc, st') →
    ∃ out t', IsBlock T t st.updates bs out t' ∧ st'.out = st.out ++ out ∧ st'.tbl.Refines t' ∧
      st'.size = st.size + listSize out ∧ (out = [] ∨ L = 0 ∨ st'.size ≤ L) := by
  induction fuel with
  | zero =>
    intro st t bs inc st' hr h
    cases bs with
    | nil =>
      simp only [decodeLoop, Prod.mk.injEq, true_and] at h
      obtain ⟨_, rfl⟩ := h
      exact ⟨[], t, .nil, by simp, hr, by simp [listSize], Or.inl rfl⟩
    | cons b tl => simp [decodeLoop] at h
  | succ fuel ih =>
    intro st t bs inc st' hr h
    cases bs with
    | nil =>
      simp only [decodeLoop, Prod.mk.injEq, true_and] at h
      obtain ⟨_, rfl⟩ := h
      exact ⟨[], t, .nil, by simp, hr, by simp [listSize], Or.inl rfl⟩
    | cons b tl =>
      rw [decodeLoop] at h
      cases hs : decodeStep T L st b (b :: tl) with
      | fail i s => rw [hs] at h; simp at h
      | next st1 rest =>
        rw [hs] at h
        simp only [] at h
        obtain ⟨used, f, t1, hu, hi, e1, e2, e3, e4, e5⟩ := step_sound hT hr hs
        obtain ⟨out, t2, g1, g2, g3, g4, g5⟩ := ih st1 t1 rest inc st' e4 h
        rw [e3] at g1
        refine ⟨f.toList ++ out, t2, ?_, ?_, g3, ?_, ?_⟩
        · rw [hu]; exact .cons hi g1
        · rw [g2, e1]; simp
        · rw [g4, e2, listSize_append, listSize_toList]; omega
        · rcases g5 with rfl | g5
          · right
            have : st'.size = st1.size := by rw [g4]; simp [listSize]
            rw [this]; exact e5
          · exact Or.inr g5

theorem loop_complete {T L : Nat} (hT : T < 2 ^ 32) {t t' : Table} {upd : Bool} {bs : Bytes} {out : List HField}
    (h : IsBlock T t upd bs out t') : ∀ (fuel : Nat) (st : DState), bs.length ≤ fuel → st.updates = upd →
    st.tbl.Refines t → (L = 0 ∨ st.size + listSize out ≤ L) →
    ∃ st', decodeLoop T L fuel st bs = (true, false, st') ∧ st'.out = st.out ++ out ∧ st'.tbl.Refines t' := by
  induction h with
  | nil =>
    intro fuel st _ _ hr _
    refine ⟨st, ?_, by simp, hr⟩
    cases fuel <;> rfl
  | @cons t upd bs f t1 rest out t2 hi hb ih =>
    intro fuel st hf hu hr hL
    subst hu
    rw [listSize_append, listSize_toList] at hL
    obtain ⟨b, tl, st1, rfl, hs, e1, e2, e3, e4, e5⟩ := step_complete (L := L) hT hr hi (by omega) rest
    cases fuel with
    | zero => simp at hf
    | succ fuel =>
      obtain ⟨st', g1, g2, g3⟩ := ih fuel st1 (by simp at hf; omega) e3 e4 (by omega)
      refine ⟨st', ?_, ?_, g3⟩
      · rw [List.cons_append, decodeLoop, ← List.cons_append, hs]
        exact g1
      · rw [g2, e1]; simp

end Verif.Hpack
