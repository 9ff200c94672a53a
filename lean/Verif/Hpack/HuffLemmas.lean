import Verif.Hpack.HuffModel
import Verif.Hpack.HuffSpec

namespace Verif.Hpack
open Spec

/-! ## Bits -/

theorem bitsOf_length (w v : Nat) : (bitsOf w v).length = w := by
  induction w with
  | zero => rfl
  | succ w ih => simp [bitsOf, ih]

theorem bitsOf_append (a b v : Nat) : bitsOf (a + b) v = bitsOf a (v >>> b) ++ bitsOf b v := by
  induction a with
  | zero => simp [bitsOf]
  | succ a ih =>
    rw [Nat.succ_add, bitsOf, bitsOf, List.cons_append, ih, Nat.testBit_shiftRight, Nat.add_comm b a]

theorem bitsOf_congr (w v v' : Nat) (h : ∀ i, i < w → v.testBit i = v'.testBit i) :
    bitsOf w v = bitsOf w v' := by
  induction w with
  | zero => rfl
  | succ w ih => rw [bitsOf, bitsOf, h w (by omega), ih (fun i hi => h i (by omega))]

theorem bitsOf_mod (w v : Nat) : bitsOf w (v % 2 ^ w) = bitsOf w v := by
  apply bitsOf_congr
  intro i hi
  rw [Nat.testBit_mod_two_pow]; simp [hi]

theorem bitsOf_inj (w v v' : Nat) (h : bitsOf w v = bitsOf w v') (hv : v < 2 ^ w) (hv' : v' < 2 ^ w) :
    v = v' := by
  apply Nat.eq_of_testBit_eq
  intro i
  by_cases hi : i < w
  · clear hv hv'
    induction w with
    | zero => omega
    | succ w ih =>
      rw [bitsOf, bitsOf, List.cons.injEq] at h
      by_cases hw : i = w
      · subst hw; exact h.1
      · exact ih h.2 (by omega)
  · have hle : 2 ^ w ≤ 2 ^ i := Nat.pow_le_pow_right (by omega) (by omega)
    rw [Nat.testBit_lt_two_pow (by omega), Nat.testBit_lt_two_pow (by omega)]

theorem bitsOf_ones (k : Nat) : bitsOf k (2 ^ k - 1) = List.replicate k true := by
  have : ∀ w, w ≤ k → bitsOf w (2 ^ k - 1) = List.replicate w true := by
    intro w
    induction w with
    | zero => intro _; rfl
    | succ w ih =>
      intro hw
      rw [bitsOf, ih (by omega), List.replicate_succ, Nat.testBit_two_pow_sub_one]
      simp; omega
  exact this k (Nat.le_refl _)

theorem binary_eq (w v : Nat) : binary w v = bitsOf w v := by
  induction w with
  | zero => rfl
  | succ w ih =>
    rw [bitsOf, ← ih, binary, List.range_succ_eq_map, List.map_cons, List.map_map]
    congr 1
    · rw [Nat.testBit_eq_decide_div_mod_eq]; simp; rfl
    · apply List.map_congr_left
      intro i hi
      simp only [Function.comp]
      have : w + 1 - 1 - (i + 1) = w - 1 - i := by omega
      rw [Nat.succ_eq_add_one, this]

/-- code word by the model's table access -/
def code (s : Nat) : List Bool := bitsOf (huffEntry s).2 (huffEntry s).1

theorem codeWord_eq (s : Nat) : codeWord s = code s := by
  unfold codeWord code huffEntry
  cases h : huffTable[s]? with
  | none => simp [List.getD, h, bitsOf]
  | some p => simp [List.getD, h, binary_eq]

theorem codeWords_eq (s : Bytes) : codeWords s = s.flatMap fun c => code c.toNat := by
  unfold codeWords; simp only [codeWord_eq]

theorem octets_eq (bs : Bytes) : octets bs = bytesBits bs := by
  unfold octets bytesBits; simp only [binary_eq]

theorem bytesBits_length (bs : Bytes) : (bytesBits bs).length = 8 * bs.length := by
  induction bs with
  | nil => rfl
  | cons b bs ih => simp only [bytesBits, List.flatMap_cons, List.length_append, bitsOf_length,
      List.length_cons] at *; omega

theorem bytesBits_cons (b : Byte) (bs : Bytes) : bytesBits (b :: bs) = bitsOf 8 b.toNat ++ bytesBits bs := rfl

theorem bytesBits_append (a b : Bytes) : bytesBits (a ++ b) = bytesBits a ++ bytesBits b := by
  simp [bytesBits]

theorem bytesBits_inj (a : Bytes) : ∀ b, bytesBits a = bytesBits b → a = b := by
  induction a with
  | nil =>
    intro b h
    have := congrArg List.length h
    rw [bytesBits_length, bytesBits_length] at this
    cases b with
    | nil => rfl
    | cons => simp at this
  | cons x a ih =>
    intro b h
    have hl := congrArg List.length h
    rw [bytesBits_length, bytesBits_length] at hl
    cases b with
    | nil => simp at hl
    | cons y b =>
      rw [bytesBits_cons, bytesBits_cons] at h
      obtain ⟨h1, h2⟩ := List.append_inj h (by rw [bitsOf_length, bitsOf_length])
      have := bitsOf_inj 8 _ _ h1 x.toNat_lt y.toNat_lt
      rw [ih b h2, UInt8.toNat_inj.mp this]

/-! ## The tree -/

/-- every leaf of the tree sits at the path of its own code word -/
def HTree.leavesOk : HTree → List Bool → Bool
  | .nil, _ => true
  | .node s l r, p =>
    (match s with
      | none => true
      | some s => s < 257 && bitsOf (huffEntry s).2 (huffEntry s).1 == p.reverse) &&
    l.leavesOk (false :: p) && r.leavesOk (true :: p)

theorem decodeTree_leavesOk : decodeTree.leavesOk [] = true := by decide +kernel

/-- Walk to a leaf through nodes that are not leaves. -/
def HTree.reach : HTree → List Bool → Option Nat
  | _, [] => none
  | t, b :: bs =>
    match t.child b with
    | .nil => none
    | .node (some s) _ _ => if bs.isEmpty then some s else none
    | .node none l r => HTree.reach (.node none l r) bs

theorem decodeTree_reach : ∀ s : Fin 257, decodeTree.reach (code s.val) = some s.val := by
  decide +kernel

theorem code_eos : code 256 = List.replicate 30 true := by decide +kernel

theorem huffEntry_bound : ∀ s : Fin 256, (huffEntry s.val).1 < 2 ^ (huffEntry s.val).2 ∧
    1 ≤ (huffEntry s.val).2 ∧ (huffEntry s.val).2 ≤ 30 := by decide +kernel

theorem leavesOk_child {t : HTree} {p : List Bool} (h : t.leavesOk p = true) (b : Bool) :
    (t.child b).leavesOk (b :: p) = true := by
  cases t with
  | nil => rfl
  | node s l r =>
    simp only [HTree.leavesOk, Bool.and_eq_true] at h
    cases b
    · exact h.1.2
    · exact h.2

theorem leavesOk_leaf {s : Nat} {l r : HTree} {p : List Bool}
    (h : (HTree.node (some s) l r).leavesOk p = true) : s < 257 ∧ code s = p.reverse := by
  simp only [HTree.leavesOk, Bool.and_eq_true, decide_eq_true_eq, beq_iff_eq] at h
  exact h.1.1

theorem leavesOk_rightLeaf (t : HTree) : ∀ {p : List Bool} {s : Nat}, t.leavesOk p = true →
    t.rightLeaf = some s → ∃ j, code s = p.reverse ++ List.replicate j true := by
  induction t with
  | nil => intro p s _ h; simp [HTree.rightLeaf] at h
  | node sy l r _ ihr =>
    intro p s h hr
    cases sy with
    | some s' =>
      simp only [HTree.rightLeaf, Option.some.injEq] at hr
      subst hr
      exact ⟨0, by simpa using (leavesOk_leaf h).2⟩
    | none =>
      simp only [HTree.rightLeaf] at hr
      have h2 : r.leavesOk (true :: p) = true := leavesOk_child h true
      obtain ⟨j, hj⟩ := ihr h2 hr
      refine ⟨j + 1, ?_⟩
      rw [hj]; simp [List.replicate_succ]

attribute [local irreducible] decodeTree

/-! ## Running the decoder -/

theorem huffRun_append (a : List Bool) : ∀ (st : HState) (b : List Bool),
    huffRun st (a ++ b) = (huffRun st a).bind fun st' => huffRun st' b := by
  induction a with
  | nil => intro st b; rfl
  | cons x a ih =>
    intro st b
    simp only [List.cons_append, huffRun]
    cases huffStep st x with
    | none => rfl
    | some st' => exact ih st' b

theorem reach_run (p : List Bool) : ∀ (t : HTree) (k : Nat) (out : Bytes) (s : Nat), t.reach p = some s →
    s ≠ 256 → huffRun ⟨t, k, out⟩ p = some ⟨decodeTree, 0, out ++ [UInt8.ofNat s]⟩ := by
  induction p with
  | nil => intro t k out s h; simp [HTree.reach] at h
  | cons b p ih =>
    intro t k out s h hs
    simp only [HTree.reach] at h
    simp only [huffRun, huffStep]
    cases hc : t.child b with
    | nil => simp [hc] at h
    | node sy l r =>
      cases sy with
      | some s' =>
        simp only [hc] at h
        split at h
        · rename_i he
          simp only [Option.some.injEq] at h; subst h
          have : p = [] := by simpa using he
          subst this
          simp [hs, huffRun]
        · cases h
      | none =>
        simp only [hc] at h
        exact ih _ _ _ _ h hs

theorem reach_ones (n : Nat) : ∀ (t : HTree) (k : Nat) (out : Bytes) (m : Nat), m ≤ n → 1 ≤ m →
    t.reach (List.replicate (n + 1) true) = some 256 →
    ∃ t', huffRun ⟨t, k, out⟩ (List.replicate m true) = some ⟨t', k + m, out⟩ ∧ t'.rightLeaf = some 256 := by
  induction n with
  | zero => intro t k out m h1 h2; omega
  | succ n ih =>
    intro t k out m h1 h2 hr
    obtain ⟨m, rfl⟩ : ∃ m', m = m' + 1 := ⟨m - 1, by omega⟩
    rw [List.replicate_succ] at hr ⊢
    simp only [HTree.reach] at hr
    simp only [huffRun, huffStep]
    cases hc : t.child true with
    | nil => simp [hc] at hr
    | node sy l r =>
      cases sy with
      | some s' => simp [hc, List.replicate_succ] at hr
      | none =>
        simp only [hc] at hr
        dsimp only
        by_cases hm : m = 0
        · subst hm
          refine ⟨_, rfl, ?_⟩
          -- walking right from here reaches EOS
          have : ∀ (n : Nat) (t : HTree), (∀ s l r, t ≠ .node (some s) l r) →
              t.reach (List.replicate (n + 1) true) = some 256 → t.rightLeaf = some 256 := by
            intro n
            induction n with
            | zero =>
              intro t hn h
              cases t with
              | nil => simp [HTree.reach, HTree.child] at h
              | node sy l r =>
                cases sy with
                | some s => exact absurd rfl (hn s l r)
                | none =>
                  simp only [HTree.rightLeaf]
                  cases r with
                  | nil => simp [HTree.reach, HTree.child] at h
                  | node sy2 l2 r2 =>
                    cases sy2 with
                    | some s => simp [HTree.reach, HTree.child] at h; simp [HTree.rightLeaf, h]
                    | none => simp [HTree.reach, HTree.child] at h
            | succ n ihn =>
              intro t hn h
              cases t with
              | nil => simp [HTree.reach, HTree.child, List.replicate_succ] at h
              | node sy l r =>
                cases sy with
                | some s => exact absurd rfl (hn s l r)
                | none =>
                  simp only [HTree.rightLeaf]
                  rw [List.replicate_succ] at h
                  cases r with
                  | nil => simp [HTree.reach, HTree.child] at h
                  | node sy2 l2 r2 =>
                    cases sy2 with
                    | some s => simp [HTree.reach, HTree.child, List.replicate_succ] at h
                    | none =>
                      simp only [HTree.reach, HTree.child, if_true] at h
                      exact ihn _ (by intro _ _ _ h; cases h) h
          exact this n _ (by intro _ _ _ h; cases h) hr
        · obtain ⟨t', h1', h2'⟩ := ih _ (k + 1) out m (by omega) (by omega) hr
          exact ⟨t', by rw [h1']; congr 2; omega, h2'⟩

/-- running the code words of `s` outputs `s` -/
theorem run_codes (s : Bytes) : ∀ out, huffRun ⟨decodeTree, 0, out⟩ (s.flatMap fun c => code c.toNat)
    = some ⟨decodeTree, 0, out ++ s⟩ := by
  induction s with
  | nil => intro out; simp [huffRun]
  | cons c s ih =>
    intro out
    rw [List.flatMap_cons, huffRun_append]
    have h := decodeTree_reach ⟨c.toNat, by have := c.toNat_lt; omega⟩
    have hlt := c.toNat_lt
    have := reach_run _ _ 0 out _ h (by simp; omega)
    simp only at this
    rw [this]
    simp only [Option.bind_some, UInt8.ofNat_toNat]
    rw [ih]; simp

/-- what the decoder loop has read when it stands at a state -/
theorem run_sound (bits : List Bool) : ∀ (st st' : HState) (p : List Bool),
    st.node.leavesOk p = true → st.since = p.length → huffRun st bits = some st' →
    ∃ (o : Bytes) (q : List Bool), st'.out = st.out ++ o ∧ st'.node.leavesOk q = true ∧
      st'.since = q.length ∧ p.reverse ++ bits = (o.flatMap fun c => code c.toNat) ++ q.reverse := by
  induction bits with
  | nil =>
    intro st st' p h1 h2 h
    simp only [huffRun, Option.some.injEq] at h; subst h
    exact ⟨[], p, by simp, h1, h2, by simp⟩
  | cons b bits ih =>
    intro st st' p h1 h2 h
    simp only [huffRun, huffStep] at h
    have hch := leavesOk_child h1 b
    cases hc : st.node.child b with
    | nil => simp [hc] at h
    | node sy l r =>
      rw [hc] at hch
      cases sy with
      | some s =>
        obtain ⟨hs, hcode⟩ := leavesOk_leaf hch
        simp only [hc] at h
        by_cases h256 : s = 256
        · simp [h256] at h
        · simp only [if_neg h256] at h
          obtain ⟨o, q, e1, e2, e3, e4⟩ := ih ⟨decodeTree, 0, st.out ++ [UInt8.ofNat s]⟩ st' [] decodeTree_leavesOk (by simp) h
          refine ⟨UInt8.ofNat s :: o, q, ?_, e2, e3, ?_⟩
          · rw [e1]; simp
          · have hsn : (UInt8.ofNat s).toNat = s := by simp; omega
            rw [List.flatMap_cons, hsn, hcode]
            simp only [List.reverse_nil, List.nil_append] at e4
            rw [e4]; simp
      | none =>
        simp only [hc] at h
        obtain ⟨o, q, e1, e2, e3, e4⟩ := ih _ _ (b :: p) hch (by simp [h2]) h
        exact ⟨o, q, e1, e2, e3, by rw [← e4]; simp⟩

theorem replicate_prefix {p : List Bool} {j n : Nat} (h : p ++ List.replicate j true = List.replicate n true) :
    p = List.replicate p.length true := by
  apply List.eq_replicate_of_mem
  intro b hb
  have : b ∈ List.replicate n true := by rw [← h]; exact List.mem_append_left _ hb
  exact (List.mem_replicate.mp this).2

theorem huffDecode_iff' (bs s : Bytes) : huffDecode bs = some s ↔
    ∃ k, k ≤ 7 ∧ bytesBits bs = (s.flatMap fun c => code c.toNat) ++ List.replicate k true := by
  constructor
  · intro h
    unfold huffDecode at h
    cases hr : huffRun ⟨decodeTree, 0, []⟩ (bytesBits bs) with
    | none => simp [hr] at h
    | some st =>
      rw [hr] at h
      simp only at h
      obtain ⟨o, q, e1, e2, e3, e4⟩ := run_sound _ ⟨decodeTree, 0, []⟩ st [] decodeTree_leavesOk (by simp) hr
      simp only [List.nil_append, List.reverse_nil] at e1 e4
      split at h
      · rename_i hs
        split at h
        · cases h
        · rename_i hs7
          split at h
          · rename_i hrl
            simp only [Option.some.injEq] at h
            obtain ⟨j, hj⟩ := leavesOk_rightLeaf _ e2 hrl
            rw [code_eos] at hj
            have := replicate_prefix hj.symm
            refine ⟨q.length, by omega, ?_⟩
            rw [List.length_reverse] at this
            rw [e4, this, ← e1, h]
          · cases h
      · rename_i hs
        simp only [Option.some.injEq] at h
        have : q = [] := by
          apply List.length_eq_zero_iff.mp; omega
        refine ⟨0, by omega, ?_⟩
        rw [e4, this, ← e1, h]; rfl
  · rintro ⟨k, hk, hb⟩
    unfold huffDecode
    rw [hb, huffRun_append, run_codes]
    simp only [Option.bind_some, List.nil_append]
    by_cases h0 : k = 0
    · subst h0; simp [huffRun]
    · have heos := decodeTree_reach ⟨256, by omega⟩
      simp only [code_eos] at heos
      obtain ⟨t', h1, h2⟩ := reach_ones 29 decodeTree 0 s k (by omega) (by omega) heos
      rw [h1]
      simp [h2, h0, Nat.not_lt.mpr hk]

theorem huffDecode_iff (bs s : Bytes) : huffDecode bs = some s ↔ IsHuffman bs s := by
  rw [huffDecode_iff', IsHuffman, octets_eq, codeWords_eq]

/-! ## Running the encoder -/

theorem and_mask_mod (v n : Nat) : v &&& (2 ^ n - 1) = v % 2 ^ n := Nat.and_two_pow_sub_one_eq_mod v n

theorem toNat_ofNat_mod (v : Nat) : (UInt8.ofNat v).toNat = v % 2 ^ 8 := by simp

theorem huffFlush_spec (n : Nat) : ∀ buf, buf < 2 ^ n →
    bytesBits (huffFlush buf n).1 ++ bitsOf (huffFlush buf n).2.2 (huffFlush buf n).2.1 = bitsOf n buf ∧
    (huffFlush buf n).2.1 < 2 ^ (huffFlush buf n).2.2 ∧ (huffFlush buf n).2.2 < 8 := by
  induction n using Nat.strongRecOn with
  | _ n ih =>
    intro buf hb
    rw [huffFlush]
    split
    · rename_i h
      dsimp only
      rw [and_mask_mod]
      obtain ⟨e1, e2, e3⟩ := ih (n - 8) (by omega) (buf % 2 ^ (n - 8)) (Nat.mod_lt _ (Nat.two_pow_pos _))
      refine ⟨?_, e2, e3⟩
      rw [bytesBits_cons, List.append_assoc, e1, toNat_ofNat_mod, bitsOf_mod, bitsOf_mod, ← bitsOf_append]
      congr 1; omega
    · exact ⟨by simp [bytesBits], hb, by dsimp only; omega⟩

theorem shift_or (buf n w c : Nat) (hb : buf < 2 ^ n) (hn : n + w ≤ 64) (hc : c < 2 ^ w) :
    ((buf <<< w) % 2 ^ 64 ||| c) = buf * 2 ^ w + c ∧ buf * 2 ^ w + c < 2 ^ (n + w) := by
  have h1 : buf * 2 ^ w + 2 ^ w ≤ 2 ^ (n + w) := by
    rw [Nat.pow_add, ← Nat.succ_mul]
    exact Nat.mul_le_mul_right _ hb
  have h2 : 2 ^ (n + w) ≤ 2 ^ 64 := Nat.pow_le_pow_right (by omega) hn
  rw [Nat.shiftLeft_eq, Nat.mod_eq_of_lt (by omega), Nat.mul_comm buf, ← Nat.two_pow_add_eq_or_of_lt hc]
  refine ⟨rfl, ?_⟩
  rw [Nat.mul_comm]; omega

theorem bitsOf_shift_or (buf n w c : Nat) (hc : c < 2 ^ w) :
    bitsOf (n + w) (buf * 2 ^ w + c) = bitsOf n buf ++ bitsOf w c := by
  rw [bitsOf_append]
  congr 1
  · rw [Nat.shiftRight_eq_div_pow, Nat.mul_comm, Nat.mul_add_div (Nat.two_pow_pos w),
      Nat.div_eq_of_lt hc]; rfl
  · rw [← bitsOf_mod, Nat.mul_comm, Nat.mul_add_mod, Nat.mod_eq_of_lt hc]

theorem huffEncodeFrom_spec (cs : Bytes) : ∀ buf n, buf < 2 ^ n → n < 8 →
    ∃ k, k ≤ 7 ∧ bytesBits (huffEncodeFrom buf n cs) =
      bitsOf n buf ++ (cs.flatMap fun c => code c.toNat) ++ List.replicate k true := by
  induction cs with
  | nil =>
    intro buf n hb hn
    simp only [huffEncodeFrom]
    split
    · rename_i h
      refine ⟨8 - n, by omega, ?_⟩
      have hp : 2 ^ (8 - n) - 1 < 2 ^ (8 - n) := by have := Nat.two_pow_pos (8 - n); omega
      obtain ⟨e1, e2⟩ := shift_or buf n (8 - n) (2 ^ (8 - n) - 1) hb (by omega) hp
      rw [e1]
      simp only [bytesBits, List.flatMap_cons, List.flatMap_nil, List.append_nil]
      rw [toNat_ofNat_mod, bitsOf_mod]
      have : n + (8 - n) = 8 := by omega
      rw [← bitsOf_ones, ← bitsOf_shift_or _ _ _ _ hp, this]
    · have : n = 0 := by omega
      subst this
      exact ⟨0, by omega, by simp [bytesBits, bitsOf]⟩
  | cons c cs ih =>
    intro buf n hb hn
    simp only [huffEncodeFrom]
    obtain ⟨hc, _, hw⟩ := huffEntry_bound ⟨c.toNat, c.toNat_lt⟩
    simp only at hc hw
    obtain ⟨e1, e2⟩ := shift_or buf n (huffEntry c.toNat).2 (huffEntry c.toNat).1 hb (by omega) hc
    rw [e1]
    obtain ⟨f1, f2, f3⟩ := huffFlush_spec _ _ e2
    obtain ⟨k, hk, hih⟩ := ih _ _ f2 f3
    refine ⟨k, hk, ?_⟩
    rw [bytesBits_append, hih, List.flatMap_cons, ← List.append_assoc, ← List.append_assoc, f1,
      bitsOf_shift_or _ _ _ _ hc]
    simp [code]

theorem huffEncode_isHuffman (s : Bytes) : IsHuffman (huffEncode s) s := by
  obtain ⟨k, hk, h⟩ := huffEncodeFrom_spec s 0 0 (by decide) (by decide)
  refine ⟨k, hk, ?_⟩
  rw [octets_eq, codeWords_eq]
  simpa [bitsOf, huffEncode] using h

theorem codes_length (s : Bytes) : (s.flatMap fun c => code c.toNat).length = huffBits s := by
  induction s with
  | nil => rfl
  | cons c s ih =>
    rw [List.flatMap_cons, List.length_append, ih]
    simp only [huffBits, List.map_cons, List.sum_cons, code, bitsOf_length]

theorem isHuffman_length {bs s : Bytes} (h : IsHuffman bs s) : bs.length = (huffBits s + 7) / 8 := by
  obtain ⟨k, hk, h⟩ := h
  rw [octets_eq, codeWords_eq] at h
  have := congrArg List.length h
  rw [bytesBits_length, List.length_append, codes_length, List.length_replicate] at this
  omega

theorem isHuffman_unique {a b s : Bytes} (ha : IsHuffman a s) (hb : IsHuffman b s) : a = b := by
  have hla := isHuffman_length ha
  have hlb := isHuffman_length hb
  obtain ⟨k, hk, ha⟩ := ha
  obtain ⟨j, hj, hb⟩ := hb
  rw [octets_eq] at ha hb
  have l1 := congrArg List.length ha
  have l2 := congrArg List.length hb
  rw [bytesBits_length, List.length_append, List.length_replicate] at l1 l2
  have : k = j := by omega
  subst this
  exact bytesBits_inj _ _ (ha.trans hb.symm)

theorem huffDecode_huffEncode (s : Bytes) : huffDecode (huffEncode s) = some s :=
  (huffDecode_iff _ _).mpr (huffEncode_isHuffman s)

end Verif.Hpack
