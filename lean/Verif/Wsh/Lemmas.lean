import Verif.Wsh.Spec

namespace Verif.Wsh

theorem low_eq (c : Byte) : low c = lower c := by
  unfold low lower
  by_cases h : 65 ≤ c.toNat ∧ c.toNat ≤ 90
  · rw [if_pos h, if_pos (by simp [UInt8.le_iff_toNat_le]; omega)]
    apply UInt8.toNat_inj.1
    simp
  · rw [if_neg h, if_neg (by simp [UInt8.le_iff_toNat_le]; omega)]

theorem iequal_iff (a b : Bytes) : iequal a b = true ↔ a.map low = b.map low := by
  have hl : low = lower := funext low_eq
  rw [hl]
  unfold iequal
  induction a generalizing b with
  | nil => cases b <;> simp
  | cons x a ih =>
    cases b with
    | nil => simp
    | cons y b =>
      have := ih b
      by_cases hl : a.length = b.length
      · simp [hl] at this ⊢
        first | exact fun _ => this | exact and_congr Iff.rfl this
      · constructor
        · intro h; simp [hl] at h
        · intro h
          have := congrArg List.length h
          simp at this; omega

theorem blank_iff (l : Bytes) : Blank l ↔ ∀ c ∈ l, isWs c = true := by
  unfold Blank isWs
  simp

theorem dropWhile_decomp (p : Byte → Bool) (l : Bytes) : ∃ a, l = a ++ l.dropWhile p ∧ ∀ c ∈ a, p c = true := by
  refine ⟨l.takeWhile p, (List.takeWhile_append_dropWhile).symm, ?_⟩
  intro c hc
  induction l with
  | nil => cases hc
  | cons x l ih =>
    rw [List.takeWhile_cons] at hc
    split at hc
    · rcases List.mem_cons.1 hc with e | h
      · subst e; assumption
      · exact ih h
    · cases hc

theorem trim_is (v : Bytes) : Is v (trim v) := by
  obtain ⟨a, h1, h2⟩ := dropWhile_decomp isWs v
  obtain ⟨b, h3, h4⟩ := dropWhile_decomp isWs (v.dropWhile isWs).reverse
  refine ⟨a, b.reverse, ?_, (blank_iff _).2 h2, (blank_iff _).2 (fun c hc => h4 c (List.mem_reverse.1 hc))⟩
  have h5 : v.dropWhile isWs = trim v ++ b.reverse := by
    have := congrArg List.reverse h3
    rw [List.reverse_reverse, List.reverse_append] at this
    exact this
  rw [List.append_assoc, ← h5]; exact h1

theorem dropWhile_all (p : Byte → Bool) (a l : Bytes) (h : ∀ c ∈ a, p c = true) : (a ++ l).dropWhile p = l.dropWhile p := by
  induction a with
  | nil => rfl
  | cons x a ih =>
    rw [List.cons_append, List.dropWhile_cons, if_pos (h x List.mem_cons_self)]
    exact ih (fun c hc => h c (List.mem_cons_of_mem _ hc))

/-- Nothing at the ends to trim. -/
def Tight (x : Bytes) : Prop := (∀ c, x.head? = some c → isWs c = false) ∧ ∀ c, x.getLast? = some c → isWs c = false

theorem trim_of_is {v x : Bytes} (h : Is v x) (ht : Tight x) : trim v = x := by
  obtain ⟨a, b, e, ha, hb⟩ := h
  rw [blank_iff] at ha hb
  unfold trim
  rw [e, List.append_assoc, dropWhile_all _ _ _ ha]
  cases x with
  | nil =>
    rw [List.nil_append]
    have : b.dropWhile isWs = [] := by
      have := dropWhile_all isWs b [] hb
      rw [List.append_nil] at this; rw [this]; rfl
    rw [this]; rfl
  | cons y x =>
    have h1 : ((y :: x) ++ b).dropWhile isWs = (y :: x) ++ b := by
      rw [List.cons_append, List.dropWhile_cons, if_neg]
      rw [ht.1 y rfl]; simp
    rw [h1, List.reverse_append, dropWhile_all _ _ _ (fun c hc => hb c (List.mem_reverse.1 hc))]
    have h2 : (y :: x).reverse.dropWhile isWs = (y :: x).reverse := by
      cases hr : (y :: x).reverse with
      | nil => rfl
      | cons z l =>
        rw [List.dropWhile_cons, if_neg]
        have : (y :: x).getLast? = some z := by rw [← List.head?_reverse, hr]; rfl
        rw [ht.2 z this]; simp
    rw [h2, List.reverse_reverse]

theorem tight_of_ink {x : Bytes} (h : ∀ c ∈ x, isWs c = false) : Tight x :=
  ⟨fun c hc => h c (List.mem_of_mem_head? hc), fun c hc => h c (List.mem_of_getLast? hc)⟩

theorem not_head_dropWhile (p : Byte → Bool) (l : Bytes) (c : Byte) (h : (l.dropWhile p).head? = some c) : p c = false := by
  induction l with
  | nil => cases h
  | cons x l ih =>
    rw [List.dropWhile_cons] at h
    split at h
    · exact ih h
    · rename_i hx
      simp only [List.head?_cons, Option.some.injEq] at h
      subst h; simpa using hx

theorem trim_tight (v : Bytes) : Tight (trim v) := by
  constructor
  · intro c hc
    -- the first of the trimmed value is the first after the blanks
    obtain ⟨b, h3, h4⟩ := dropWhile_decomp isWs (v.dropWhile isWs).reverse
    have h5 : v.dropWhile isWs = trim v ++ b.reverse := by
      have := congrArg List.reverse h3
      rw [List.reverse_reverse, List.reverse_append] at this
      exact this
    refine not_head_dropWhile isWs v c ?_
    rw [h5]
    cases ht : trim v with
    | nil => rw [ht] at hc; cases hc
    | cons x l => rw [ht] at hc; exact hc
  · intro c hc
    unfold trim at hc
    rw [List.getLast?_reverse] at hc
    exact not_head_dropWhile isWs _ c hc

theorem is_trim_iff {v x : Bytes} (ht : Tight x) : Is v x ↔ trim v = x :=
  ⟨fun h => trim_of_is h ht, fun h => h ▸ trim_is v⟩

/-! ### Lists -/

theorem takeWhile_comma (a b : Bytes) (ha : c!"," ∉ a) (hb : b = [] ∨ b.head? = some c!",") : (a ++ b).takeWhile (· != 44) = a ∧ (a ++ b).dropWhile (· != 44) = b := by
  induction a with
  | nil =>
    cases b with
    | nil => exact ⟨rfl, rfl⟩
    | cons x b =>
      rcases hb with h | h
      · cases h
      · simp only [List.head?_cons, Option.some.injEq] at h
        subst h
        constructor
        · simp
        · simp
  | cons x a ih =>
    simp only [List.mem_cons, not_or] at ha
    obtain ⟨i1, i2⟩ := ih ha.2
    have hx : (x != 44) = true := by simpa using Ne.symm ha.1
    constructor
    · rw [List.cons_append, List.takeWhile_cons, if_pos hx, i1]
    · rw [List.cons_append, List.dropWhile_cons, if_pos hx, i2]

theorem low_ink {x t : Bytes} (h : x.map low = t) (ht : ∀ c ∈ t, c ≠ 32 ∧ c ≠ 9 ∧ c ≠ 44) : ∀ c ∈ x, c ≠ 32 ∧ c ≠ 9 ∧ c ≠ 44 := by
  intro c hc
  have := ht (low c) (by rw [← h]; exact List.mem_map_of_mem hc)
  refine ⟨fun e => ?_, fun e => ?_, fun e => ?_⟩ <;> subst e
  · exact this.1 (by decide)
  · exact this.2.1 (by decide)
  · exact this.2.2 (by decide)

theorem isWs_false {c : Byte} (h : c ≠ 32 ∧ c ≠ 9) : isWs c = false := by
  unfold isWs; simp [h]

theorem hasToken_iff (tok : Bytes) (h0 : tok ≠ []) (hk : ∀ c ∈ tok.map low, c ≠ 32 ∧ c ≠ 9 ∧ c ≠ 44) (v : Bytes) : hasToken v tok = true ↔ ListHas v (tok.map low) := by
  have main : ∀ n v, v.length = n → (hasToken v tok = true ↔ ListHas v (tok.map low)) := by
    intro n
    induction n using Nat.strongRecOn with
    | ind n ih =>
      intro v hn
      have split_ : v = v.takeWhile (· != 44) ++ v.dropWhile (· != 44) := (List.takeWhile_append_dropWhile).symm
      have hd : v.dropWhile (· != 44) = [] ∨ (v.dropWhile (· != 44)).head? = some c!"," := by
        cases h : v.dropWhile (· != 44) with
        | nil => exact .inl rfl
        | cons x l =>
          right
          have := not_head_dropWhile (fun x : Byte => x != 44) v x (by rw [h]; rfl)
          simp only [bne_eq_false_iff_eq] at this
          rw [this]; rfl
      have htw : c!"," ∉ v.takeWhile (· != 44) := by
        intro h
        have : ∀ (l : Bytes) (c : Byte), c ∈ l.takeWhile (· != 44) → (c != 44) = true := by
          intro l c hc
          induction l with
          | nil => cases hc
          | cons x l ih =>
            rw [List.takeWhile_cons] at hc
            split at hc
            · rcases List.mem_cons.1 hc with e | h
              · subst e; assumption
              · exact ih h
            · cases hc
        have := this _ _ h
        exact absurd this (by decide)
      have first : (!(trim (v.takeWhile (· != 44))).isEmpty && iequal (trim (v.takeWhile (· != 44))) tok) = true ↔ ∃ z, Is (v.takeWhile (· != 44)) z ∧ z.map low = tok.map low := by
        constructor
        · intro h
          rw [Bool.and_eq_true] at h
          exact ⟨_, trim_is _, (iequal_iff _ _).1 h.2⟩
        · rintro ⟨z, hz, he⟩
          have ink := low_ink he hk
          have tz := trim_of_is hz (tight_of_ink (fun c hc => isWs_false ⟨(ink c hc).1, (ink c hc).2.1⟩))
          rw [tz, Bool.and_eq_true, iequal_iff]
          refine ⟨?_, he⟩
          cases z with
          | nil => cases tok with
            | nil => exact absurd rfl h0
            | cons x l => simp at he
          | cons => rfl
      rw [hasToken]
      by_cases hf : (!(trim (v.takeWhile (· != 44))).isEmpty && iequal (trim (v.takeWhile (· != 44))) tok) = true
      · rw [if_pos hf]
        simp only [true_iff]
        obtain ⟨z, hz, he⟩ := first.1 hf
        exact ⟨[], v.takeWhile (· != 44), v.dropWhile (· != 44), by rw [List.nil_append]; exact split_, .inl rfl, hd, z, hz, he⟩
      · rw [if_neg hf]
        have nofirst : ¬ ∃ z, Is (v.takeWhile (· != 44)) z ∧ z.map low = tok.map low := fun h => hf (first.2 h)
        -- a hit is not in the first element
        have later : ListHas v (tok.map low) → ∃ a y b, v = a ++ y ++ b ∧ a.getLast? = some c!"," ∧ (b = [] ∨ b.head? = some c!",") ∧ ∃ z, Is y z ∧ z.map low = tok.map low := by
          rintro ⟨a, y, b, e, ha, hb, z, hz, he⟩
          rcases ha with ha | ha
          · exfalso
            subst ha
            rw [List.nil_append] at e
            have ink := low_ink he hk
            have hy : c!"," ∉ y := by
              obtain ⟨p, q, e', hp, hq⟩ := hz
              rw [e']
              intro hm
              rcases List.mem_append.1 hm with hm | hm
              · rcases List.mem_append.1 hm with hm | hm
                · rcases hp _ hm with h | h <;> exact absurd h (by decide)
                · exact (ink _ hm).2.2 rfl
              · rcases hq _ hm with h | h <;> exact absurd h (by decide)
            refine nofirst ⟨z, ?_, he⟩
            rw [e, (takeWhile_comma y b hy hb).1]; exact hz
          · exact ⟨a, y, b, e, ha, hb, z, hz, he⟩
        cases hdw : v.dropWhile (· != 44) with
        | nil =>
          dsimp only
          simp only [Bool.false_eq_true, false_iff]
          intro hh
          obtain ⟨a, y, b, e, ha, _⟩ := later hh
          rw [hdw, List.append_nil] at split_
          apply htw
          rw [← split_, e]
          exact List.mem_append_left _ (List.mem_append_left _ (List.mem_of_getLast? ha))
        | cons x rest =>
          dsimp only
          have hx : x = c!"," := by
            rcases hd with h | h
            · rw [hdw] at h; cases h
            · rw [hdw] at h; simpa using h
          subst hx
          rw [hdw] at split_
          have hlen : rest.length < n := by
            have := congrArg List.length split_
            rw [List.length_append, List.length_cons] at this
            omega
          rw [ih _ hlen rest rfl]
          generalize v.takeWhile (· != 44) = t at *
          constructor
          · rintro ⟨a, y, b, e, ha, hb, hz⟩
            refine ⟨t ++ c!"," :: a, y, b, ?_, .inr ?_, hb, hz⟩
            · rw [split_, e]; simp
            · rcases ha with ha | ha
              · subst ha; simp
              · rw [List.getLast?_append, List.getLast?_cons, ha]; rfl
          · intro hh
            obtain ⟨a, y, b, e, ha, hb, hz⟩ := later hh
            -- `a` reaches at least to the first comma
            have : ∃ a2, a = t ++ c!"," :: a2 ∧ (a2 = [] ∨ a2.getLast? = some c!",") := by
              have hma := List.mem_of_getLast? ha
              have e' : t ++ c!"," :: rest = a ++ (y ++ b) := by rw [← split_, e, List.append_assoc]
              rcases List.append_eq_append_iff.1 e' with ⟨w, h1, h2⟩ | ⟨w, h1, h2⟩
              · cases w with
                | nil =>
                  rw [List.append_nil] at h1
                  rw [h1] at hma; exact absurd hma htw
                | cons k w =>
                  rw [List.cons_append] at h2
                  injection h2 with h3 h4
                  subst h3
                  refine ⟨w, h1, ?_⟩
                  rw [h1, List.getLast?_append, List.getLast?_cons] at ha
                  cases hw : w.getLast? with
                  | none => left; exact List.getLast?_eq_none_iff.1 hw
                  | some k => rw [hw] at ha; right; simpa using ha
              · exact absurd (by rw [h1]; exact List.mem_append_left _ hma) htw
            obtain ⟨a2, h1, h2⟩ := this
            refine ⟨a2, y, b, ?_, h2, hb, hz⟩
            rw [split_, h1] at e
            have e : t ++ c!"," :: rest = t ++ c!"," :: (a2 ++ y ++ b) := by rw [e]; simp
            exact (List.cons.inj (List.append_cancel_left e)).2
  exact main _ v rfl

theorem constEqual_iff (a b : Bytes) : constEqual a b = true ↔ a = b := by
  have fold : ∀ (l : List (Byte × Byte)) (d : UInt8), l.foldl (fun d p => d ||| (p.1 ^^^ p.2)) d = 0 ↔ d = 0 ∧ ∀ p ∈ l, p.1 = p.2 := by
    intro l
    induction l with
    | nil => simp
    | cons p l ih =>
      intro d
      rw [List.foldl_cons, ih, UInt8.or_eq_zero_iff, UInt8.xor_eq_zero_iff]
      simp [and_assoc]
  unfold constEqual
  by_cases hl : a.length = b.length
  · have h : (a.length != b.length) = false := by simp [hl]
    rw [h]
    simp only [Bool.false_eq_true, if_false, beq_iff_eq]
    rw [fold]
    simp only [true_and]
    clear h
    induction a generalizing b with
    | nil => cases b with
      | nil => simp
      | cons => simp at hl
    | cons x a ih => cases b with
      | nil => simp at hl
      | cons y b =>
        have := ih b (by simpa using hl)
        simp only [List.zip_cons_cons, List.mem_cons, forall_eq_or_imp, List.cons.injEq]
        exact and_congr Iff.rfl this
  · simp only [bne_iff_ne, ne_eq, hl, not_false_eq_true, if_true, Bool.false_eq_true, false_iff]
    intro e; exact hl (by rw [e])

end Verif.Wsh
