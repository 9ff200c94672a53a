import Verif.H2.FramerInv

namespace Verif.H2
open Verif

/-- The header block octets a HEADERS or CONTINUATION frame carries. -/
def Frame.fragment (f : Frame) : Bytes :=
  match f.payload with
  | .headers frag _ => frag
  | .continuation frag => frag
  | _ => []

theorem fragmentFrame_fragment (sid flags first last frag) :
    (fragmentFrame sid flags first last frag).fragment = frag := by
  unfold fragmentFrame headersFrame continuationFrame Frame.fragment; cases first <;> rfl

theorem fragmentFrame_sid (sid flags first last frag) :
    (fragmentFrame sid flags first last frag).header.streamId = sid &&& 0x7fffffff := by
  unfold fragmentFrame headersFrame continuationFrame
  cases first <;> exact streamId_set _ _

theorem fragmentFrame_type (sid flags first last frag) :
    (fragmentFrame sid flags first last frag).header.type = if first then 1 else 9 := by
  unfold fragmentFrame headersFrame continuationFrame
  cases first <;> rfl

theorem flag_or (b : Byte) : hasFlag (b ||| FLAG_END_HEADERS) FLAG_END_HEADERS = true := by
  revert b; apply forall_byte; decide +kernel
theorem flag_andnot (b : Byte) : hasFlag (b &&& ~~~FLAG_END_HEADERS) FLAG_END_HEADERS = false := by
  revert b; apply forall_byte; decide +kernel
theorem flag_pad (b : Byte) : hasFlag (b ||| FLAG_END_HEADERS) FLAG_PADDED = hasFlag b FLAG_PADDED ∧
    hasFlag (b &&& ~~~FLAG_END_HEADERS) FLAG_PADDED = hasFlag b FLAG_PADDED ∧
    hasFlag (b ||| FLAG_END_HEADERS) FLAG_PRIORITY = hasFlag b FLAG_PRIORITY ∧
    hasFlag (b &&& ~~~FLAG_END_HEADERS) FLAG_PRIORITY = hasFlag b FLAG_PRIORITY := by
  revert b; apply forall_byte; decide +kernel
theorem flag_es (b : Byte) : hasFlag (b ||| FLAG_END_HEADERS) FLAG_END_STREAM = hasFlag b FLAG_END_STREAM ∧
    hasFlag (b &&& ~~~FLAG_END_HEADERS) FLAG_END_STREAM = hasFlag b FLAG_END_STREAM := by
  revert b; apply forall_byte; decide +kernel

theorem fragmentFrame_end (sid flags first last frag) :
    hasFlag (fragmentFrame sid flags first last frag).header.flags FLAG_END_HEADERS = last := by
  unfold fragmentFrame headersFrame continuationFrame
  cases first <;> cases last
  · show hasFlag 0 FLAG_END_HEADERS = false; decide
  · show hasFlag FLAG_END_HEADERS FLAG_END_HEADERS = true; decide
  · exact flag_andnot flags
  · exact flag_or flags

theorem sendLoop_last {sid flags maxFrag first} {blk : Bytes} (h : blk.drop maxFrag = [] ∨ maxFrag = 0) :
    sendLoop sid flags maxFrag first blk = [fragmentFrame sid flags first true (blk.take maxFrag)] := by
  rw [sendLoop.eq_def]; simp only []; rw [dif_pos h]

theorem sendLoop_more {sid flags maxFrag first} {blk : Bytes} (h : ¬ (blk.drop maxFrag = [] ∨ maxFrag = 0)) :
    sendLoop sid flags maxFrag first blk = fragmentFrame sid flags first false (blk.take maxFrag) ::
      sendLoop sid flags maxFrag false (blk.drop maxFrag) := by
  rw [sendLoop.eq_def]; simp only []; rw [dif_neg h]

/-- Everything needed about the loop, by induction on the remaining block. -/
theorem sendLoop_spec (sid : UInt32) (flags : Byte) (m : Nat) (hm : 1 ≤ m) : ∀ (n : Nat) (blk : Bytes) (first : Bool),
    blk.length ≤ n →
    ((sendLoop sid flags m first blk).map Frame.fragment).flatten = blk ∧
    (∀ x ∈ sendLoop sid flags m first blk, x.fragment.length ≤ m) ∧
    (∀ pre x post, sendLoop sid flags m first blk = pre ++ x :: post →
      (hasFlag x.header.flags FLAG_END_HEADERS = true ↔ post = [])) ∧
    (∀ x ∈ sendLoop sid flags m first blk, ∃ fst lst frag, x = fragmentFrame sid flags fst lst frag ∧
      (fst = false → first = false → blk ≠ [] → frag ≠ [])) ∧
    (∃ x rest, sendLoop sid flags m first blk = x :: rest ∧ (∃ lst frag, x = fragmentFrame sid flags first lst frag) ∧
      ∀ y ∈ rest, ∃ lst frag, y = fragmentFrame sid flags false lst frag ∧ frag ≠ []) := by
  intro n
  induction n with
  | zero =>
    intro blk first hl
    have hb : blk = [] := List.length_eq_zero_iff.1 (by omega)
    subst hb
    rw [sendLoop_last (by simp)]
    refine ⟨by simp [fragmentFrame_fragment], by simp [fragmentFrame_fragment], ?_, ?_, ?_⟩
    · intro pre x post e
      cases pre with
      | nil => simp at e; obtain ⟨rfl, rfl⟩ := e; simp [fragmentFrame_end]
      | cons a as => simp at e
    · intro x hx
      simp at hx; subst hx
      exact ⟨first, true, [], by simp, by simp⟩
    · exact ⟨_, [], rfl, ⟨true, [], by simp⟩, by simp⟩
  | succ n ih =>
    intro blk first hl
    by_cases hc : blk.drop m = [] ∨ m = 0
    · have hle : blk.length ≤ m := by
        rcases hc with h | h
        · exact List.drop_eq_nil_iff.1 h
        · omega
      have ht : blk.take m = blk := List.take_of_length_le hle
      rw [sendLoop_last hc, ht]
      refine ⟨by simp [fragmentFrame_fragment], by simp [fragmentFrame_fragment]; exact hle, ?_, ?_, ?_⟩
      · intro pre x post e
        cases pre with
        | nil => simp at e; obtain ⟨rfl, rfl⟩ := e; simp [fragmentFrame_end]
        | cons a as => simp at e
      · intro x hx
        simp at hx; subst hx
        exact ⟨first, true, blk, rfl, fun _ _ h => h⟩
      · exact ⟨_, [], rfl, ⟨true, blk, rfl⟩, by simp⟩
    · rw [sendLoop_more hc]
      have hne : blk.drop m ≠ [] := fun e => hc (.inl e)
      have hlt : m < blk.length := by
        rcases Nat.lt_or_ge m blk.length with g | g
        · exact g
        · exact absurd (List.drop_eq_nil_of_le g) hne
      have htne : blk.take m ≠ [] := by
        intro e; have := congrArg List.length e; rw [List.length_take, List.length_nil] at this; omega
      obtain ⟨i1, i2, i3, i4, i5⟩ := ih (blk.drop m) false (by simp; omega)
      refine ⟨?_, ?_, ?_, ?_, ?_⟩
      · rw [List.map_cons, List.flatten_cons, i1, fragmentFrame_fragment, List.take_append_drop]
      · intro x hx
        rcases List.mem_cons.1 hx with rfl | hx
        · rw [fragmentFrame_fragment, List.length_take]; omega
        · exact i2 x hx
      · intro pre x post e
        cases pre with
        | nil =>
          simp at e
          obtain ⟨rfl, e2⟩ := e
          rw [fragmentFrame_end]
          obtain ⟨y, rest, e3, _⟩ := i5
          rw [← e2, e3]; simp
        | cons a as =>
          simp at e
          exact i3 as x post e.2
      · intro x hx
        rcases List.mem_cons.1 hx with rfl | hx
        · exact ⟨first, false, _, rfl, fun _ _ _ => htne⟩
        · obtain ⟨fst, lst, frag, e, h⟩ := i4 x hx
          exact ⟨fst, lst, frag, e, fun a b _ => h a rfl hne⟩
      · refine ⟨_, _, rfl, ⟨false, _, rfl⟩, ?_⟩
        intro y hy
        obtain ⟨fst, lst, frag, e, h⟩ := i4 y hy
        obtain ⟨z, rest, e3, ⟨l2, f2, ez⟩, h3⟩ := i5
        rw [e3] at hy
        rcases List.mem_cons.1 hy with rfl | hy
        · refine ⟨l2, f2, ez, ?_⟩
          intro e0
          have : fst = false := by
            have t1 := fragmentFrame_type sid flags false l2 f2
            rw [← ez, e, fragmentFrame_type] at t1
            cases fst
            · rfl
            · simp at t1
          subst this
          have ef : frag = f2 := by
            have := fragmentFrame_fragment sid flags false lst frag
            rw [← e, ez, fragmentFrame_fragment] at this; exact this.symm
          exact h rfl rfl hne (by rw [ef]; exact e0)
        · exact h3 y hy

theorem openBlock_sid {sid : UInt32} : ∀ (l : List Frame) (o : Option UInt32), (∀ x ∈ l, x.header.streamId = sid) →
    (∀ s, o = some s → s = sid) → ∀ s, openFrom o l = some s → s = sid := by
  intro l
  induction l with
  | nil => intro o _ ho s e; exact ho s e
  | cons x l ih =>
    intro o hx ho s e
    have e' : openFrom (openFrom o [x]) l = some s := e
    refine ih _ (fun y hy => hx y (by simp [hy])) ?_ s e'
    intro s' e2
    rw [openFrom_one] at e2
    have hsid := hx x (by simp)
    repeat' split at e2
    all_goals first
      | exact ho _ e2
      | (cases e2; done)
      | (cases e2; exact hsid)

theorem peer_toNat (m : UInt32) : (max 1 m).toNat = max 1 m.toNat := by
  have h : ∀ a b : UInt32, max a b = if a ≤ b then b else a := fun _ _ => rfl
  rw [h]
  split
  · rename_i g
    have := UInt32.le_iff_toNat_le.1 g
    have e1 : (1 : UInt32).toNat = 1 := rfl
    omega
  · rename_i g
    have : ¬ (1 : UInt32).toNat ≤ m.toNat := fun h => g (UInt32.le_iff_toNat_le.2 h)
    have e1 : (1 : UInt32).toNat = 1 := rfl
    omega

end Verif.H2
