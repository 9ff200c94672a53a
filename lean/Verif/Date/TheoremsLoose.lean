import Verif.Date.Theorems
import Verif.Date.LooseSpec

/-! C59: the exact set of strings read as dates. -/

namespace Verif.Date
open Verif

theorem digit?_some {c : Byte} : (digit? c).isSome = true ↔ Digit c := by
  unfold digit? Digit; split <;> simp_all

theorem digitsVal_spec : ∀ (ds junk : Bytes) (acc : Nat), (∀ c ∈ ds, Digit c) → (∀ c ∈ junk.head?, ¬ Digit c) →
    digitsVal (ds ++ junk) acc = ds.foldl (fun a c => 10 * a + (c.toNat - 48)) acc
  | [], junk, acc, _, hj => by
    cases junk with
    | nil => rfl
    | cons c r =>
      have := hj c (by simp)
      have hn : digit? c = none := by
        unfold digit?; exact if_neg this
      simp [digitsVal, hn]
  | c :: ds, junk, acc, hd, hj => by
    have hc : Digit c := hd c (by simp)
    have hs : digit? c = some (c.toNat - 48) := if_pos hc
    simp only [List.cons_append, digitsVal, hs, List.foldl_cons]
    rw [digitsVal_spec ds junk _ (fun x hx => hd x (by simp [hx])) hj, Nat.mul_comm]

/-- Every string starts with a maximal run of digits. -/
theorem digit_split (s : Bytes) : ∃ ds junk, s = ds ++ junk ∧ (∀ c ∈ ds, Digit c) ∧ (∀ c ∈ junk.head?, ¬ Digit c) := by
  induction s with
  | nil => exact ⟨[], [], rfl, by simp, by simp⟩
  | cons c s ih =>
    by_cases hc : Digit c
    · obtain ⟨ds, junk, rfl, h1, h2⟩ := ih
      refine ⟨c :: ds, junk, rfl, ?_, h2⟩
      intro x hx
      rcases List.mem_cons.1 hx with rfl | hx
      · exact hc
      · exact h1 x hx
    · exact ⟨[], c :: s, rfl, by simp, by intro x hx; simp at hx; subst hx; exact hc⟩

theorem not_digit_dash : ¬ Digit c!"-" := by unfold Digit; decide

theorem fromChars_iff (s : Bytes) (v : Int) : fromChars s = some v ↔ Num s v := by
  constructor
  · intro h
    cases s with
    | nil => cases h
    | cons c rest =>
      unfold fromChars at h
      by_cases hc : c = c!"-"
      · simp only [hc, if_true] at h
        cases rest with
        | nil => cases h
        | cons d r =>
          simp only at h
          split at h
          · rename_i hd
            cases h
            obtain ⟨ds, junk, e, h1, h2⟩ := digit_split (d :: r)
            refine ⟨true, ds, junk, ?_, ?_, h1, h2, ?_⟩
            · subst hc; simp [e]
            · rintro rfl
              simp at e
              exact h2 d (by rw [← e]; simp) (digit?_some.1 hd)
            · rw [e, digitsVal_spec ds junk 0 h1 h2]; rfl
          · cases h
      · simp only [if_neg hc] at h
        split at h
        · rename_i hd
          cases h
          obtain ⟨ds, junk, e, h1, h2⟩ := digit_split (c :: rest)
          refine ⟨false, ds, junk, by simpa using e, ?_, h1, h2, ?_⟩
          · rintro rfl
            simp at e
            exact h2 c (by rw [← e]; simp) (digit?_some.1 hd)
          · rw [e, digitsVal_spec ds junk 0 h1 h2]; rfl
        · cases h
  · rintro ⟨neg, ds, junk, rfl, hne, h1, h2, rfl⟩
    obtain ⟨d, r, rfl⟩ : ∃ d r, ds = d :: r := by cases ds with
      | nil => exact absurd rfl hne
      | cons d r => exact ⟨d, r, rfl⟩
    have hd : Digit d := h1 d (by simp)
    have hval := digitsVal_spec (d :: r) junk 0 h1 h2
    cases neg
    · simp only [Bool.false_eq_true, if_false, List.nil_append, List.cons_append]
      unfold fromChars
      have hdd : ¬ d = c!"-" := by rintro rfl; exact not_digit_dash hd
      simp only [if_neg hdd, if_pos (digit?_some.2 hd)]
      simp only [List.cons_append] at hval
      rw [hval]; rfl
    · simp only [if_true, List.cons_append, List.nil_append]
      unfold fromChars
      simp only [if_true]
      rw [if_pos (digit?_some.2 hd)]
      simp only [List.cons_append] at hval
      rw [hval]; rfl

theorem len2 {s : Bytes} (h : s.length = 2) : ∃ a b, s = [a, b] := by
  match s, h with
  | [a, b], _ => exact ⟨a, b, rfl⟩
theorem len3 {s : Bytes} (h : s.length = 3) : ∃ a b c, s = [a, b, c] := by
  match s, h with
  | [a, b, c], _ => exact ⟨a, b, c, rfl⟩
theorem len4 {s : Bytes} (h : s.length = 4) : ∃ a b c d, s = [a, b, c, d] := by
  match s, h with
  | [a, b, c, d], _ => exact ⟨a, b, c, d, rfl⟩

/-- Month field: three octets that are the name of month `m`. -/
theorem month_iff {s : Bytes} (hl : s.length = 3) (k : Int) :
    monthToNum s = some k ↔ 0 ≤ k ∧ k ≤ 11 ∧ s = monthName (k.toNat + 1) := by
  constructor
  · exact monthToNum_three hl
  · rintro ⟨h1, h2, rfl⟩
    have := (monthName_cases (m := k.toNat + 1) (by omega) (by omega)).1
    rw [this]; congr 1; omega

theorem idxOf_split {c : Byte} : ∀ {s : Bytes} {n : Nat}, s.idxOf c = n → n < s.length →
    ∃ wd r, s = wd ++ c :: r ∧ wd.length = n ∧ c ∉ wd
  | [], n, _, hn => by simp at hn
  | x :: s, n, h, hn => by
    by_cases hx : x = c
    · subst hx
      simp at h; subst h
      exact ⟨[], s, rfl, rfl, by simp⟩
    · rw [List.idxOf_cons, show (x == c) = false by simpa using hx, cond_false] at h
      subst h
      obtain ⟨wd, r, e, h1, h2⟩ := idxOf_split (s := s) rfl (by simpa using hn)
      exact ⟨x :: wd, r, by rw [List.cons_append, ← e], by simp [h1], by simp [h2, Ne.symm hx]⟩

theorem sub_shift (wd r : Bytes) (c : Byte) (k n : Nat) : sub (wd ++ c :: r) (wd.length + 1 + k) n = sub r k n := by
  unfold sub
  rw [Nat.add_assoc, List.drop_length_add_append, Nat.add_comm 1 k, List.drop_succ_cons]

theorem get_shift (wd r : Bytes) (c : Byte) (k : Nat) : (wd ++ c :: r)[wd.length + 1 + k]? = r[k]? := by
  rw [List.getElem?_append_right (by omega), show wd.length + 1 + k - wd.length = k + 1 by omega]
  simp

theorem clock_shift (wd r : Bytes) (c : Byte) (k : Nat) : clock (wd ++ c :: r) (wd.length + 1 + k) = clock r k := by
  unfold clock
  rw [sub_shift, Nat.add_assoc (wd.length + 1) k 2, get_shift, Nat.add_assoc (wd.length + 1) k 3, sub_shift,
    Nat.add_assoc (wd.length + 1) k 5, get_shift, Nat.add_assoc (wd.length + 1) k 6, sub_shift]

theorem clock_iff {a0 a1 a2 a3 a4 a5 a6 a7 : Byte} {r : Bytes} {h m x : Int} :
    clock (a0 :: a1 :: a2 :: a3 :: a4 :: a5 :: a6 :: a7 :: r) 0 = some (h, m, x) ↔
      Num [a0, a1] h ∧ a2 = c!":" ∧ Num [a3, a4] m ∧ a5 = c!":" ∧ Num [a6, a7] x := by
  unfold clock sub
  simp only [← fromChars_iff, Option.bind_eq_bind, Option.bind_eq_some_iff, guard_some, Option.pure_def,
    Option.some.injEq, Prod.mk.injEq, List.drop_succ_cons, List.drop_zero, List.take_succ_cons, List.take_zero,
    List.getElem?_cons_succ, List.getElem?_cons_zero, Nat.zero_add]
  constructor
  · rintro ⟨_, e1, _, e2, _, e3, _, e4, _, e5, rfl, rfl, rfl⟩
    exact ⟨e1, e2, e3, e4, e5⟩
  · rintro ⟨e1, e2, e3, e4, e5⟩
    exact ⟨h, e1, (), e2, m, e3, (), e4, x, e5, rfl, rfl, rfl⟩

theorem clock_drop (s : Bytes) (p : Nat) : clock s p = clock (s.drop p) 0 := by
  unfold clock sub
  simp only [List.drop_drop, List.getElem?_drop, Nat.zero_add, Nat.add_zero]

/-- The fields of an instant. -/
def FieldsOf (i : Instant) (y k d h m x : Int) : Prop :=
  i.date.year = y ∧ (i.date.month : Int) = k + 1 ∧ (i.date.day : Int) = d ∧ (i.hour : Int) = h ∧ (i.min : Int) = m ∧
    (i.sec : Int) = x

theorem makeTimePoint_fields (y k d h m x t : Int) : makeTimePoint y k d h m x = some t ↔
    ∃ i, At civilOf t i ∧ FieldsOf i y k d h m x ∧ 1 ≤ i.date.year ∧ i.date.year ≤ 9999 := by
  constructor
  · intro hh
    obtain ⟨i, a, b1, b2, b3, b4, b5, b6, b7, b8⟩ := makeTimePoint_sound hh
    exact ⟨i, a, ⟨b1, b2, b3, b4, b5, b6⟩, by omega, by omega⟩
  · rintro ⟨i, a, ⟨rfl, b2, rfl, rfl, rfl, rfl⟩, b7, b8⟩
    have := makeTimePoint_at a b7 b8
    rwa [show (i.date.month : Int) - 1 = k by omega] at this

def Imf (s : Bytes) (t : Int) : Prop :=
  ∃ wd D Mo Y H M S k d y h m x, wd.length = 3 ∧ c!"," ∉ wd ∧ D.length = 2 ∧ Mo.length = 3 ∧ Y.length = 4 ∧ H.length = 2 ∧
    M.length = 2 ∧ S.length = 2 ∧ Num D d ∧ monthToNum Mo = some k ∧ Num Y y ∧ Num H h ∧ Num M m ∧ Num S x ∧
    makeTimePoint y k d h m x = some t ∧
    s = wd ++ b!", " ++ D ++ b!" " ++ Mo ++ b!" " ++ Y ++ b!" " ++ H ++ b!":" ++ M ++ b!":" ++ S ++ b!" GMT"

theorem rfc1123_iff (s : Bytes) (t : Int) : parseRfc1123 s = some t ↔ Imf s t := by
  constructor
  · intro hp
    unfold parseRfc1123 at hp
    simp only [Option.bind_eq_bind, Option.bind_eq_some_iff, guard_some, Prod.exists] at hp
    obtain ⟨_, hl, _, ⟨h0, h4⟩, day, hday, _, h7, k, hk, _, h11, y, hy, _, h16, hh, m, sec, hc, _, h25, hmk⟩ := hp
    obtain ⟨wd, r, rfl, hw, hcw⟩ := idxOf_split h0 (by omega)
    obtain ⟨w0, w1, w2, rfl⟩ := len3 hw
    have hr : r.length = 25 := by simp at hl; omega
    match r, hr with
    | [a4, a5, a6, a7, a8, a9, a10, a11, a12, a13, a14, a15, a16, a17, a18, a19, a20, a21, a22, a23, a24, a25, a26, a27, a28], _ =>
      rw [clock_drop] at hc
      simp only [sub, List.cons_append, List.nil_append, List.drop_succ_cons, List.drop_zero, List.take_succ_cons, List.take_zero,
        List.getElem?_cons_succ, List.getElem?_cons_zero, Option.some.injEq] at h4 hday h7 hk h11 hy h16 hc h25
      rw [clock_iff] at hc
      obtain ⟨c1, rfl, c2, rfl, c3⟩ := hc
      simp only [List.cons.injEq, and_true] at h25
      obtain ⟨rfl, rfl, rfl, rfl⟩ := h25
      subst h4 h7 h11 h16
      exact ⟨[w0, w1, w2], [a5, a6], [a8, a9, a10], [a12, a13, a14, a15], [a17, a18], [a20, a21], [a23, a24], k, day, y, hh, m,
        sec, rfl, hcw, rfl, rfl, rfl, rfl, rfl, rfl, (fromChars_iff _ _).1 hday, hk, (fromChars_iff _ _).1 hy, c1, c2, c3, hmk, rfl⟩
  · rintro ⟨wd, D, Mo, Y, H, M, S, k, d, y, h, m, x, l1, hcw, l2, l3, l4, l5, l6, l7, n1, hk, n2, n3, n4, n5, hmk, rfl⟩
    have hi : (wd ++ b!", " ++ D ++ b!" " ++ Mo ++ b!" " ++ Y ++ b!" " ++ H ++ b!":" ++ M ++ b!":" ++ S ++ b!" GMT").idxOf c!"," = 3 := by
      simp only [List.append_assoc, List.cons_append, List.nil_append]
      rw [idxOf_comma hcw, l1]
    obtain ⟨w0, w1, w2, rfl⟩ := len3 l1
    obtain ⟨d0, d1, rfl⟩ := len2 l2
    obtain ⟨m0, m1, m2, rfl⟩ := len3 l3
    obtain ⟨y0, y1, y2, y3, rfl⟩ := len4 l4
    obtain ⟨h0, h1, rfl⟩ := len2 l5
    obtain ⟨i0, i1, rfl⟩ := len2 l6
    obtain ⟨s0, s1, rfl⟩ := len2 l7
    rw [← fromChars_iff] at n1 n2
    unfold parseRfc1123
    rw [hi, clock_drop]
    simp only [sub, List.cons_append, List.nil_append, List.drop_succ_cons, List.drop_zero, List.take_succ_cons, List.take_zero,
        List.getElem?_cons_succ, List.getElem?_cons_zero]
    rw [clock_iff.2 ⟨n3, rfl, n4, rfl, n5⟩]
    simp [guard, n1, n2, hk, hmk]

def R850 (s : Bytes) (t : Int) : Prop :=
  ∃ wd D Mo Y H M S k d y h m x, c!"," ∉ wd ∧ D.length = 2 ∧ Mo.length = 3 ∧ Y.length = 2 ∧ H.length = 2 ∧
    M.length = 2 ∧ S.length = 2 ∧ Num D d ∧ monthToNum Mo = some k ∧ Num Y y ∧ Num H h ∧ Num M m ∧ Num S x ∧
    makeTimePoint (if y < 70 then y + 2000 else y + 1900) k d h m x = some t ∧
    s = wd ++ b!", " ++ D ++ b!"-" ++ Mo ++ b!"-" ++ Y ++ b!" " ++ H ++ b!":" ++ M ++ b!":" ++ S ++ b!" GMT"

theorem rfc850_iff (s : Bytes) (t : Int) : parseRfc850 s = some t ↔ R850 s t := by
  constructor
  · intro hp
    have hlt : s.idxOf c!"," < s.length := by
      by_cases hlt : s.idxOf c!"," < s.length
      · exact hlt
      · unfold parseRfc850 at hp
        simp only [Option.bind_eq_bind, Option.bind_eq_some_iff, guard_some] at hp
        exact hp.choose_spec.1.1
    obtain ⟨wd, r, rfl, hw, hcw⟩ := idxOf_split rfl hlt
    unfold parseRfc850 at hp
    rw [← hw] at hp
    have s0 := get_shift wd r c!"," 0
    have s1 := sub_shift wd r c!"," 1 2
    have s2 := get_shift wd r c!"," 3
    have s3 := sub_shift wd r c!"," 4 3
    have s4 := get_shift wd r c!"," 7
    have s5 := sub_shift wd r c!"," 8 2
    have s6 := get_shift wd r c!"," 10
    have s7 := clock_shift wd r c!"," 11
    have s8 := sub_shift wd r c!"," 19 4
    simp only [Option.bind_eq_bind, Option.bind_eq_some_iff, guard_some, Prod.exists, Nat.add_assoc, Nat.reduceAdd] at hp s0 s1 s2 s3 s4 s5 s6 s7 s8
    simp only [s0, s1, s2, s3, s4, s5, s6, s7, s8] at hp
    obtain ⟨_, ⟨_, _, h4⟩, _, _, day, hday, _, ⟨_, h7⟩, _, _, k, hk, _, ⟨_, h11⟩, _, _, y, hy, _, ⟨_, h16⟩, _, _, hh, m, sec, hc, _, ⟨hl, h25⟩, hmk⟩ := hp
    have hr : r.length = 23 := by simp at hl; omega
    match r, hr with
    | [a4, a5, a6, a7, a8, a9, a10, a11, a12, a13, a16, a17, a18, a19, a20, a21, a22, a23, a24, a25, a26, a27, a28], _ =>
      rw [clock_drop] at hc
      simp only [sub, List.cons_append, List.nil_append, List.drop_succ_cons, List.drop_zero, List.take_succ_cons, List.take_zero,
        List.getElem?_cons_succ, List.getElem?_cons_zero, Option.some.injEq] at h4 hday h7 hk h11 hy h16 hc h25
      rw [clock_iff] at hc
      obtain ⟨c1, rfl, c2, rfl, c3⟩ := hc
      simp only [List.cons.injEq, and_true] at h25
      obtain ⟨rfl, rfl, rfl, rfl⟩ := h25
      subst h4 h7 h11 h16
      exact ⟨wd, [a5, a6], [a8, a9, a10], [a12, a13], [a17, a18], [a20, a21], [a23, a24], k, day, y, hh, m,
        sec, hcw, rfl, rfl, rfl, rfl, rfl, rfl, (fromChars_iff _ _).1 hday, hk, (fromChars_iff _ _).1 hy, c1, c2, c3, hmk,
        by simp⟩
  · rintro ⟨wd, D, Mo, Y, H, M, S, k, d, y, h, m, x, hcw, l2, l3, l4, l5, l6, l7, n1, hk, n2, n3, n4, n5, hmk, rfl⟩
    obtain ⟨d0, d1, rfl⟩ := len2 l2
    obtain ⟨m0, m1, m2, rfl⟩ := len3 l3
    obtain ⟨y0, y1, rfl⟩ := len2 l4
    obtain ⟨h0, h1, rfl⟩ := len2 l5
    obtain ⟨i0, i1, rfl⟩ := len2 l6
    obtain ⟨j0, j1, rfl⟩ := len2 l7
    rw [← fromChars_iff] at n1 n2
    generalize hr : b!" " ++ [d0, d1] ++ b!"-" ++ [m0, m1, m2] ++ b!"-" ++ [y0, y1] ++ b!" " ++ [h0, h1] ++ b!":" ++ [i0, i1] ++ b!":" ++
      [j0, j1] ++ b!" GMT" = r
    have hs : wd ++ b!", " ++ [d0, d1] ++ b!"-" ++ [m0, m1, m2] ++ b!"-" ++ [y0, y1] ++ b!" " ++ [h0, h1] ++ b!":" ++ [i0, i1] ++ b!":" ++
      [j0, j1] ++ b!" GMT" = wd ++ c!"," :: r := by rw [← hr]; simp
    rw [hs]
    have hrl : r.length = 23 := by rw [← hr]; simp
    have s0 := get_shift wd r c!"," 0
    have s1 := sub_shift wd r c!"," 1 2
    have s2 := get_shift wd r c!"," 3
    have s3 := sub_shift wd r c!"," 4 3
    have s4 := get_shift wd r c!"," 7
    have s5 := sub_shift wd r c!"," 8 2
    have s6 := get_shift wd r c!"," 10
    have s7 := clock_shift wd r c!"," 11
    have s8 := sub_shift wd r c!"," 19 4
    have hlen : (wd ++ c!"," :: r).length = wd.length + 24 := by simp [hrl]
    unfold parseRfc850
    rw [idxOf_comma hcw]
    simp only [Nat.add_assoc, Nat.reduceAdd] at s0 s1 s2 s3 s4 s5 s6 s7 s8
    simp only [Nat.add_assoc, Nat.reduceAdd, hlen, s0, s1, s2, s3, s4, s5, s6, s7, s8]
    rw [clock_drop, ← hr]
    simp only [sub, List.cons_append, List.nil_append, List.drop_succ_cons, List.drop_zero, List.take_succ_cons, List.take_zero,
        List.getElem?_cons_succ, List.getElem?_cons_zero]
    rw [clock_iff.2 ⟨n3, rfl, n4, rfl, n5⟩]
    simp [guard, n1, n2, hk, hmk]

def Asc (s : Bytes) (t : Int) : Prop :=
  ∃ wd D Mo Y H M S ds sep k y h m x, wd.length = 3 ∧ D.length = 2 ∧ Mo.length = 3 ∧ Y.length = 4 ∧ H.length = 2 ∧
    M.length = 2 ∧ S.length = 2 ∧ (∀ c ∈ ds, Digit c) ∧ (D = ds ∨ D = c!" " :: ds) ∧ monthToNum Mo = some k ∧ Num Y y ∧
    Num H h ∧ Num M m ∧ Num S x ∧ makeTimePoint y k (decimal ds) h m x = some t ∧
    s = wd ++ b!" " ++ Mo ++ b!" " ++ D ++ b!" " ++ H ++ b!":" ++ M ++ b!":" ++ S ++ [sep] ++ Y

theorem digitRun_split (s : Bytes) : ∃ ds junk, s = ds ++ junk ∧ ds.length = digitRun s ∧ (∀ c ∈ ds, Digit c) ∧
    ∀ c ∈ junk.head?, ¬ Digit c := by
  induction s with
  | nil => exact ⟨[], [], rfl, rfl, by simp, by simp⟩
  | cons c s ih =>
    by_cases hc : Digit c
    · obtain ⟨ds, junk, e, h0, h1, h2⟩ := ih
      refine ⟨c :: ds, junk, by rw [e]; rfl, ?_, ?_, h2⟩
      · unfold digitRun; rw [if_pos (digit?_some.2 hc)]; simp [h0]
      · intro x hx
        rcases List.mem_cons.1 hx with rfl | hx
        · exact hc
        · exact h1 x hx
    · refine ⟨[], c :: s, rfl, ?_, by simp, by intro x hx; simp at hx; subst hx; exact hc⟩
      unfold digitRun; rw [if_neg (by rw [digit?_some]; exact hc)]; rfl

theorem num_digits {ds : Bytes} (hd : ∀ c ∈ ds, Digit c) (hne : ds ≠ []) : fromChars ds = some (decimal ds : Int) :=
  (fromChars_iff _ _).2 ⟨false, ds, [], by simp, hne, hd, by simp, rfl⟩

theorem asctime_iff (s : Bytes) (t : Int) : parseAsctime s = some t ↔ Asc s t := by
  constructor
  · intro hp
    unfold parseAsctime at hp
    simp only [Option.bind_eq_bind, Option.bind_eq_some_iff, guard_some, Prod.exists] at hp
    obtain ⟨_, ⟨hl, h3, h7⟩, k, hk, _, ⟨hn0, hn2⟩, d, hd, _, ⟨_, hsp⟩, _, _, h, m, x, hc, _, h24, y, hy, hmk⟩ := hp
    obtain ⟨ds, junk, e, hlen, hdd, hj⟩ := digitRun_split (s.drop (if s[8]? = some c!" " then 9 else 8))
    rw [← hlen] at hn0 hn2 hd hsp hc h24 hy
    have hdv : d = decimal ds := by
      have : sub s (if s[8]? = some c!" " then 9 else 8) ds.length = ds := by
        unfold sub; rw [e, List.take_left]
      rw [this, num_digits hdd (by rintro rfl; simp at hn0)] at hd
      exact (Option.some.inj hd).symm
    subst hdv
    match s, hl with
    | [a0, a1, a2, a3, a4, a5, a6, a7, a8, a9, a10, a11, a12, a13, a14, a15, a16, a17, a18, a19, a20, a21, a22, a23], _ =>
      simp only [List.getElem?_cons_succ, List.getElem?_cons_zero, Option.some.injEq, sub, List.drop_succ_cons, List.drop_zero,
        List.take_succ_cons, List.take_zero] at h3 h7 hk
      subst h3 h7
      have hcase : (a8 = c!" " ∧ ds = [a9] ∧ a10 = c!" ") ∨ (ds = [a8, a9] ∧ a10 = c!" ") := by
        by_cases h8 : a8 = c!" "
        · left
          subst h8
          simp only [List.getElem?_cons_succ, List.getElem?_cons_zero, if_true, List.drop_succ_cons, List.drop_zero,
            List.length_cons, List.length_nil] at e h24 hsp
          have l1 : ds.length = 1 := by omega
          rw [l1] at hsp
          obtain ⟨z, rfl⟩ := List.length_eq_one_iff.1 l1
          simp only [List.cons_append, List.nil_append, List.cons.injEq] at e
          simp at hsp
          exact ⟨rfl, by rw [e.1], hsp⟩
        · right
          simp only [List.getElem?_cons_succ, List.getElem?_cons_zero, Option.some.injEq, h8, if_false, List.drop_succ_cons,
            List.drop_zero, List.length_cons, List.length_nil] at e h24 hsp
          have l1 : ds.length = 2 := by omega
          rw [l1] at hsp
          obtain ⟨z, w, rfl⟩ := len2 l1
          simp only [List.cons_append, List.nil_append, List.cons.injEq] at e
          simp at hsp
          exact ⟨by rw [e.1, e.2.1], hsp⟩
      have hpos : (if ([a0, a1, a2, c!" ", a4, a5, a6, c!" ", a8, a9, a10, a11, a12, a13, a14, a15, a16, a17, a18, a19, a20,
          a21, a22, a23] : Bytes)[8]? = some c!" " then 9 else 8) + (ds.length + 1) = 11 := by
        simp only [List.length_cons, List.length_nil] at h24
        omega
      rw [hpos] at hc hy
      rw [clock_drop] at hc
      simp only [sub, List.drop_succ_cons, List.drop_zero, List.take_succ_cons, List.take_zero] at hc hy
      rw [clock_iff] at hc
      obtain ⟨c1, rfl, c2, rfl, c3⟩ := hc
      have ha10 : a10 = c!" " := hcase.elim (fun h => h.2.2) (fun h => h.2)
      subst ha10
      refine ⟨[a0, a1, a2], [a8, a9], [a4, a5, a6], [a20, a21, a22, a23], [a11, a12], [a14, a15], [a17, a18], ds, a19, k, y, h, m,
        x, rfl, rfl, rfl, rfl, rfl, rfl, rfl, hdd, ?_, hk, (fromChars_iff _ _).1 hy, c1, c2, c3, hmk, rfl⟩
      rcases hcase with ⟨h1, h2, _⟩ | ⟨h1, _⟩
      · right; rw [h1, h2]
      · left; rw [h1]
  · rintro ⟨wd, D, Mo, Y, H, M, S, ds, sep, k, y, h, m, x, l1, l2, l3, l4, l5, l6, l7, hdd, hD, hk, n2, n3, n4, n5, hmk, rfl⟩
    obtain ⟨w0, w1, w2, rfl⟩ := len3 l1
    obtain ⟨m0, m1, m2, rfl⟩ := len3 l3
    obtain ⟨y0, y1, y2, y3, rfl⟩ := len4 l4
    obtain ⟨h0, h1, rfl⟩ := len2 l5
    obtain ⟨i0, i1, rfl⟩ := len2 l6
    obtain ⟨j0, j1, rfl⟩ := len2 l7
    rw [← fromChars_iff] at n2
    have nsp : digit? c!" " = none := rfl
    rcases hD with rfl | rfl
    · obtain ⟨d0, d1, rfl⟩ := len2 l2
      have hd0 : Digit d0 := hdd d0 (by simp)
      have hd1 : Digit d1 := hdd d1 (by simp)
      have ne : ¬ (d0 = c!" ") := by rintro rfl; revert hd0; unfold Digit; decide
      have hv := num_digits hdd (by simp)
      unfold parseAsctime
      simp only [List.cons_append, List.nil_append, List.getElem?_cons_succ, List.getElem?_cons_zero, Option.some.injEq, ne,
        if_false, List.drop_succ_cons, List.drop_zero, digitRun, digit?_some.2 hd0, digit?_some.2 hd1, if_true, nsp, sub,
        List.take_succ_cons, List.take_zero, Option.isSome_none, Bool.false_eq_true, Nat.reduceAdd]
      rw [clock_drop]
      simp only [List.drop_succ_cons, List.drop_zero]
      rw [clock_iff.2 ⟨n3, rfl, n4, rfl, n5⟩]
      simp [guard, hk, n2, hv, hmk]
    · have : ds.length = 1 := by simpa using l2
      obtain ⟨d1, rfl⟩ := List.length_eq_one_iff.1 this
      have hd1 : Digit d1 := hdd d1 (by simp)
      have hv := num_digits hdd (by simp)
      unfold parseAsctime
      simp only [List.cons_append, List.nil_append, List.getElem?_cons_succ, List.getElem?_cons_zero,
        List.drop_succ_cons, List.drop_zero, digitRun, digit?_some.2 hd1, if_true, nsp, sub,
        List.take_succ_cons, List.take_zero, Option.isSome_none, Bool.false_eq_true, Nat.reduceAdd, if_false]
      rw [clock_drop]
      simp only [List.drop_succ_cons, List.drop_zero]
      rw [clock_iff.2 ⟨n3, rfl, n4, rfl, n5⟩]
      simp [guard, hk, n2, hv, hmk]

theorem monthName_third (n : Nat) (hn1 : 1 ≤ n) (hn2 : n ≤ 12) : (monthName n)[2]? ≠ some c!" " := by
  have : n = 1 ∨ n = 2 ∨ n = 3 ∨ n = 4 ∨ n = 5 ∨ n = 6 ∨ n = 7 ∨ n = 8 ∨ n = 9 ∨ n = 10 ∨ n = 11 ∨ n = 12 := by omega
  rcases this with rfl | rfl | rfl | rfl | rfl | rfl | rfl | rfl | rfl | rfl | rfl | rfl <;> decide +kernel

/-- The asctime shape is not an rfc850 one. -/
theorem asc_not_850 {s : Bytes} {t t' : Int} (h : Asc s t) : ¬ R850 s t' := by
  rintro ⟨wd, D, Mo, Y, H, M, S, k, d, y, hh, m, x, hcw, l2, l3, l4, l5, l6, l7, n1, hk, n2, n3, n4, n5, hmk, e⟩
  obtain ⟨wd', D', Mo', Y', H', M', S', ds, sep, k', y', h', m', x', l1', l2', l3', l4', l5', l6', l7', hdd, hD, hk', -, -, -, -, -, e'⟩ := h
  have hlen : s.length = 24 := by rw [e']; simp; omega
  have : wd = [] := by
    rw [e] at hlen; simp at hlen
    exact List.length_eq_zero_iff.1 (by omega)
  subst this
  obtain ⟨w0, w1, w2, rfl⟩ := len3 l1'
  obtain ⟨q0, q1, q2, rfl⟩ := len3 l3'
  obtain ⟨m0, m1, m2, rfl⟩ := len3 l3
  obtain ⟨d0, d1, rfl⟩ := len2 l2
  rw [e] at e'
  simp only [List.cons_append, List.nil_append, List.cons.injEq] at e'
  have hm2 : m2 = c!" " := e'.2.2.2.2.2.2.2.1
  obtain ⟨k1, k2, k3⟩ := monthToNum_three rfl hk
  apply monthName_third (k.toNat + 1) (by omega) (by omega)
  rw [← k3, hm2]; rfl

/-- C59, the exact language: a string is read as `t` iff it has one of the three RFC 9110 formats, with numbers
written loosely (a sign or trailing junk within the field), an unchecked day name, and fields that are those of
the instant `t` of the calendar. -/
theorem C59_reads_exactly {f : Int → Civil} (hf : Calendar f) (s : Bytes) (t : Int) :
    parseHttpDate s = some t ↔ ∃ i : Instant, At f t i ∧ 1 ≤ i.date.year ∧ i.date.year ≤ 9999 ∧ Loose s i := by
  obtain rfl := calendar_eq hf
  have hdisp : parseHttpDate s = some t ↔ (c!"-" ∉ s ∧ Imf s t) ∨ R850 s t ∨ Asc s t := by
    have im : Imf s t → c!"," ∈ s := by
      rintro ⟨_, _, _, _, _, _, _, _, _, _, _, _, _, _, _, _, _, _, _, _, _, _, _, _, _, _, _, _, rfl⟩; simp
    have il : ∀ t, Imf s t → s.length = 29 := by
      rintro t ⟨_, _, _, _, _, _, _, _, _, _, _, _, _, _, _, _, _, _, _, _, _, _, _, _, _, _, _, _, rfl⟩; simp; omega
    have al : ∀ t, Asc s t → s.length = 24 := by
      rintro t ⟨_, _, _, _, _, _, _, _, _, _, _, _, _, _, _, _, _, _, _, _, _, _, _, _, _, _, _, _, _, rfl⟩; simp; omega
    have id : ∀ t, R850 s t → c!"-" ∈ s := by
      rintro t ⟨_, _, _, _, _, _, _, _, _, _, _, _, _, _, _, _, _, _, _, _, _, _, _, _, _, _, _, rfl⟩; simp
    unfold parseHttpDate
    dsimp only
    by_cases hd : c!"-" ∈ s
    · rw [if_neg (by simp [hd]), if_pos hd]
      simp only [hd, not_true, false_and, false_or]
      rw [← rfc850_iff, ← asctime_iff]
      cases hr : parseRfc850 s with
      | none => simp
      | some t' =>
        simp only [Option.some.injEq]
        constructor
        · intro h; exact .inl h
        · rintro (h | h)
          · exact h
          · exact absurd ((rfc850_iff _ _).1 hr) (asc_not_850 ((asctime_iff _ _).1 h))
    · rw [if_neg hd]
      have n850 : ¬ R850 s t := fun h => hd (id t h)
      simp only [hd, not_false_eq_true, true_and, n850, false_or, and_true]
      by_cases hc : c!"," ∈ s
      · rw [if_pos hc, ← rfc1123_iff, ← asctime_iff]
        cases hr : parseRfc1123 s with
        | none => simp
        | some t' =>
          simp only [Option.some.injEq]
          constructor
          · intro h; exact .inl h
          · rintro (h | h)
            · exact h
            · have h1 := al t ((asctime_iff _ _).1 h)
              have h2 := il t' ((rfc1123_iff _ _).1 hr)
              omega
      · rw [if_neg hc, ← asctime_iff]
        have : ¬ Imf s t := fun h => hc (im h)
        simp [this]
  rw [hdisp]
  have mk : ∀ {i : Instant} {k : Int} {Mo : Bytes}, (i.date.month : Int) = k + 1 → Mo.length = 3 → monthToNum Mo = some k →
      Mo = monthName i.date.month := by
    intro i k Mo h1 h2 h3
    obtain ⟨a, b, c⟩ := monthToNum_three h2 h3
    rw [c]; congr 1; omega
  constructor
  · rintro (⟨hd, h⟩ | h | h)
    · obtain ⟨wd, D, Mo, Y, H, M, S, k, d, y, h, m, x, l1, hcw, l2, l3, l4, l5, l6, l7, n1, hk, n2, n3, n4, n5, hmk, e⟩ := h
      obtain ⟨i, a, ⟨rfl, b2, rfl, rfl, rfl, rfl⟩, b7, b8⟩ := (makeTimePoint_fields _ _ _ _ _ _ _).1 hmk
      exact ⟨i, a, b7, b8, wd, D, Y, H, M, S, l2, l5, l6, l7, n3, n4, n5, .inl ⟨l1, hcw, hd, l4, n1, n2, by
        rw [e, mk b2 l3 hk]⟩⟩
    · obtain ⟨wd, D, Mo, Y, H, M, S, k, d, y, h, m, x, hcw, l2, l3, l4, l5, l6, l7, n1, hk, n2, n3, n4, n5, hmk, e⟩ := h
      obtain ⟨i, a, ⟨b1, b2, rfl, rfl, rfl, rfl⟩, b7, b8⟩ := (makeTimePoint_fields _ _ _ _ _ _ _).1 hmk
      exact ⟨i, a, b7, b8, wd, D, Y, H, M, S, l2, l5, l6, l7, n3, n4, n5, .inr (.inl ⟨hcw, l4, n1, ⟨y, n2, b1⟩, by
        rw [e, mk b2 l3 hk]⟩)⟩
    · obtain ⟨wd, D, Mo, Y, H, M, S, ds, sep, k, y, h, m, x, l1, l2, l3, l4, l5, l6, l7, hdd, hD, hk, n2, n3, n4, n5, hmk, e⟩ := h
      obtain ⟨i, a, ⟨rfl, b2, b3, rfl, rfl, rfl⟩, b7, b8⟩ := (makeTimePoint_fields _ _ _ _ _ _ _).1 hmk
      exact ⟨i, a, b7, b8, wd, D, Y, H, M, S, l2, l5, l6, l7, n3, n4, n5, .inr (.inr ⟨l1, l4, n2, ⟨ds, hdd, by omega, hD⟩, sep, by
        rw [e, mk b2 l3 hk]⟩)⟩
  · rintro ⟨i, a, b7, b8, wd, D, Y, H, M, S, l2, l5, l6, l7, n3, n4, n5, hcase⟩
    have hmon : monthToNum (monthName i.date.month) = some ((i.date.month : Int) - 1) ∧ (monthName i.date.month).length = 3 := by
      obtain ⟨n, hcv, -⟩ := a
      obtain ⟨v1, v2, v3, v4⟩ := hcv ▸ civilOf_valid n
      exact ⟨(monthName_cases v1 v2).1, (monthName_cases v1 v2).2.1⟩
    have hmk := makeTimePoint_at a b7 b8
    rcases hcase with ⟨l1, hcw, hd, l4, n1, n2, e⟩ | ⟨hcw, l4, n1, ⟨y, n2, b1⟩, e⟩ | ⟨l1, l4, n2, ⟨ds, hdd, hdv, hD⟩, sep, e⟩
    · exact .inl ⟨hd, wd, D, _, Y, H, M, S, _, _, _, _, _, _, l1, hcw, l2, hmon.2, l4, l5, l6, l7, n1, hmon.1, n2, n3, n4, n5, hmk, e⟩
    · exact .inr (.inl ⟨wd, D, _, Y, H, M, S, _, _, y, _, _, _, hcw, l2, hmon.2, l4, l5, l6, l7, n1, hmon.1, n2, n3, n4, n5,
        by rw [← b1]; exact hmk, e⟩)
    · exact .inr (.inr ⟨wd, D, _, Y, H, M, S, ds, sep, _, _, _, _, _, l1, l2, hmon.2, l4, l5, l6, l7, hdd, hD, hmon.1, n2, n3, n4, n5,
        by rw [hdv]; exact hmk, e⟩)

/-- Non-vacuity: an asctime date is loose, and a date whose day is not a number is refused. -/
example : parseHttpDate b!"Sun Nov  6 08:49:37 1994" = some 784111777 ∧
    parseHttpDate b!"Sun, xx Nov 1994 08:49:37 GMT" = none := by decide +kernel

end Verif.Date
