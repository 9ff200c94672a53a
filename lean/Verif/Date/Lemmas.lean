import Verif.Date.Model
import Verif.Date.Spec

namespace Verif.Date
open Verif

/-! ## The calendar formulas -/

theorem isLeap_iff (y : Int) : isLeap y = true ↔ leapYear y := by
  unfold isLeap leapYear
  simp only [Bool.and_eq_true, Bool.or_eq_true, beq_iff_eq, bne_iff_ne, ne_eq]
  omega

def lp (y : Int) : Int := if isLeap y then 1 else 0

theorem lp_def (y : Int) : lp y = 1 ∧ leapYear y ∨ lp y = 0 ∧ ¬ leapYear y := by
  unfold lp
  by_cases h : isLeap y = true
  · left; rw [if_pos h]; exact ⟨rfl, (isLeap_iff y).1 h⟩
  · right; rw [if_neg h]; exact ⟨rfl, fun g => h ((isLeap_iff y).2 g)⟩

theorem year_length (y : Int) : daysBeforeYear (y + 1) - daysBeforeYear y = 365 + lp y := by
  unfold daysBeforeYear
  rcases lp_def y with ⟨h, g⟩ | ⟨h, g⟩ <;> rw [h] <;> unfold leapYear at g <;> omega

theorem yearOfDay_spec (n : Int) :
    daysBeforeYear (yearOfDay n) ≤ n ∧ n < daysBeforeYear (yearOfDay n + 1) := by
  have e : ∃ a b c d : Int, yearOfDay n = 400 * a + 100 * b + 4 * c + d + 1 ∧ 0 ≤ b ∧ b ≤ 3 ∧ 0 ≤ c ∧ c ≤ 24 ∧
      0 ≤ d ∧ d ≤ 3 ∧ 146097 * a + 36524 * b + 1461 * c + 365 * d ≤ n ∧
      (n < 146097 * a + 36524 * b + 1461 * c + 365 * (d + 1) ∨
        (d = 3 ∧ (c ≠ 24 ∨ b = 3) ∧ n ≤ 146097 * a + 36524 * b + 1461 * c + 365 * (d + 1))) := by
    refine ⟨n / 146097, min (n % 146097 / 36524) 3,
      (n % 146097 - 36524 * min (n % 146097 / 36524) 3) / 1461,
      min ((n % 146097 - 36524 * min (n % 146097 / 36524) 3) % 1461 / 365) 3, rfl, ?_⟩
    omega
  obtain ⟨a, b, c, d, e, hb, hb', hc, hc', hd, hd', h1, h2⟩ := e
  have e4 : (yearOfDay n - 1) / 4 = 100 * a + 25 * b + c := by omega
  have e100 : (yearOfDay n - 1) / 100 = 4 * a + b := by omega
  have e400 : (yearOfDay n - 1) / 400 = a := by omega
  unfold daysBeforeYear
  rw [e4, e100, e400]
  refine ⟨by omega, ?_⟩
  have f4 : (yearOfDay n + 1 - 1) / 4 = 100 * a + 25 * b + c + (if d = 3 then 1 else 0) := by split <;> omega
  have f100 : (yearOfDay n + 1 - 1) / 100 = 4 * a + b + (if d = 3 ∧ c = 24 then 1 else 0) := by split <;> omega
  have f400 : (yearOfDay n + 1 - 1) / 400 = a + (if d = 3 ∧ c = 24 ∧ b = 3 then 1 else 0) := by split <;> omega
  rw [f4, f100, f400]
  split <;> split <;> split <;> omega

theorem dby_mono {y z : Int} (h : y ≤ z) : daysBeforeYear y ≤ daysBeforeYear z := by
  obtain ⟨k, rfl⟩ : ∃ k : Nat, z = y + k := ⟨(z - y).toNat, by omega⟩
  clear h
  induction k with
  | zero => simp
  | succ k ih =>
    have := year_length (y + k)
    have h2 : y + ((k : Int) + 1) = y + k + 1 := by omega
    push_cast
    rw [h2]
    rcases lp_def (y + k) with ⟨h, _⟩ | ⟨h, _⟩ <;> omega

/-- The year of a day is determined by the bracket. -/
theorem yearOfDay_unique {n y : Int} (h1 : daysBeforeYear y ≤ n) (h2 : n < daysBeforeYear (y + 1)) :
    yearOfDay n = y := by
  obtain ⟨g1, g2⟩ := yearOfDay_spec n
  rcases Int.lt_trichotomy (yearOfDay n) y with h | h | h
  · have := dby_mono (show yearOfDay n + 1 ≤ y by omega); omega
  · exact h
  · have := dby_mono (show y + 1 ≤ yearOfDay n by omega); omega

/-- `daysBeforeMonth` by leap day. -/
theorem dbm_eq (y m : Int) : daysBeforeMonth (isLeap y) m =
    if m = 0 then 0 else if m = 1 then 31 else if m = 2 then 59 + lp y else if m = 3 then 90 + lp y
    else if m = 4 then 120 + lp y else if m = 5 then 151 + lp y else if m = 6 then 181 + lp y
    else if m = 7 then 212 + lp y else if m = 8 then 243 + lp y else if m = 9 then 273 + lp y
    else if m = 10 then 304 + lp y else 334 + lp y := rfl

/-- Month lengths, 0-based month. -/
def mlen (y m : Int) : Int :=
  if m = 3 ∨ m = 5 ∨ m = 8 ∨ m = 10 then 30 else if m = 1 then 28 + lp y else 31

theorem dbm_succ (y m : Int) (h0 : 0 ≤ m) (h1 : m < 11) :
    daysBeforeMonth (isLeap y) (m + 1) = daysBeforeMonth (isLeap y) m + mlen y m := by
  have : m = 0 ∨ m = 1 ∨ m = 2 ∨ m = 3 ∨ m = 4 ∨ m = 5 ∨ m = 6 ∨ m = 7 ∨ m = 8 ∨ m = 9 ∨ m = 10 := by omega
  rcases lp_def y with ⟨h, _⟩ | ⟨h, _⟩ <;>
    rcases this with rfl | rfl | rfl | rfl | rfl | rfl | rfl | rfl | rfl | rfl | rfl <;>
      simp [dbm_eq, mlen, h]

theorem dbm_last (y : Int) : daysBeforeMonth (isLeap y) 11 + mlen y 11 = 365 + lp y := by
  simp [dbm_eq, mlen]; omega

theorem mlen_eq (y : Int) (m : Nat) (h : 1 ≤ m) (h' : m ≤ 12) : ((monthLength y m : Nat) : Int) = mlen y (m - 1) := by
  have : m = 1 ∨ m = 2 ∨ m = 3 ∨ m = 4 ∨ m = 5 ∨ m = 6 ∨ m = 7 ∨ m = 8 ∨ m = 9 ∨ m = 10 ∨ m = 11 ∨ m = 12 := by omega
  unfold monthLength mlen
  rcases lp_def y with ⟨hlp, g⟩ | ⟨hlp, g⟩ <;>
  rcases this with rfl | rfl | rfl | rfl | rfl | rfl | rfl | rfl | rfl | rfl | rfl | rfl <;> simp [hlp, g]

theorem monthOfDay_spec (y k : Int) (h0 : 0 ≤ k) (h1 : k < 365 + lp y) :
    let m := monthOfDay (isLeap y) k
    0 ≤ m ∧ m ≤ 11 ∧ daysBeforeMonth (isLeap y) m ≤ k ∧ k < daysBeforeMonth (isLeap y) m + mlen y m := by
  intro m
  have hm : m = monthOfDay (isLeap y) k := rfl
  unfold monthOfDay at hm
  have hl : lp y = 0 ∨ lp y = 1 := by rcases lp_def y with ⟨h, _⟩ | ⟨h, _⟩ <;> omega
  simp only [dbm_eq] at hm
  simp at hm
  repeat' split at hm
  all_goals (rw [hm]; simp [dbm_eq, mlen]; omega)

theorem dbm_mono (y : Int) {m m' : Int} (h0 : 0 ≤ m) (h : m < m') (h1 : m' ≤ 11) :
    daysBeforeMonth (isLeap y) m + mlen y m ≤ daysBeforeMonth (isLeap y) m' := by
  obtain ⟨k, rfl⟩ : ∃ k : Nat, m' = m + 1 + k := ⟨(m' - m - 1).toNat, by omega⟩
  clear h
  induction k with
  | zero =>
    have := dbm_succ y m h0 (by simp at h1; omega)
    simp; omega
  | succ k ih =>
    have e : m + 1 + ((k + 1 : Nat) : Int) = m + 1 + k + 1 := by omega
    rw [e] at h1 ⊢
    have := ih (by omega)
    have h2 := dbm_succ y (m + 1 + k) (by omega) (by omega)
    have h3 : 0 ≤ mlen y (m + 1 + k) := by
      unfold mlen
      rcases lp_def y with ⟨h, _⟩ | ⟨h, _⟩ <;> split <;> (try split) <;> omega
    omega

theorem monthOfDay_unique (y k m : Int) (hk0 : 0 ≤ k) (hk1 : k < 365 + lp y) (h0 : 0 ≤ m) (h1 : m ≤ 11)
    (h2 : daysBeforeMonth (isLeap y) m ≤ k) (h3 : k < daysBeforeMonth (isLeap y) m + mlen y m) :
    monthOfDay (isLeap y) k = m := by
  obtain ⟨a, b, c, d⟩ := monthOfDay_spec y k hk0 hk1
  rcases Int.lt_trichotomy (monthOfDay (isLeap y) k) m with h | h | h
  · have := dbm_mono y a h h1; omega
  · exact h
  · have := dbm_mono y h0 h b; omega

/-! ## `gmtime` as a calendar -/

/-- The civil date of day `n` after 1970-01-01, by `gmtime`. -/
def civilOf (n : Int) : Civil :=
  ⟨(gmtime (n * 86400)).year, (gmtime (n * 86400)).mon.toNat + 1, (gmtime (n * 86400)).mday.toNat⟩

/-- Day number of a civil date. -/
def dayNum (y m d : Int) : Int := daysBeforeYear y + daysBeforeMonth (isLeap y) m + (d - 1) - 719162

theorem gm_fields (t : Int) :
    let g := gmtime t
    0 ≤ g.mon ∧ g.mon ≤ 11 ∧ 1 ≤ g.mday ∧ g.mday ≤ mlen g.year g.mon ∧
    dayNum g.year g.mon g.mday = t / 86400 ∧ g.hour = t % 86400 / 3600 ∧ g.min = t % 86400 % 3600 / 60 ∧
    g.sec = t % 86400 % 60 := by
  intro g
  obtain ⟨h1, h2⟩ := yearOfDay_spec (t / 86400 + 719162)
  have hy := year_length (yearOfDay (t / 86400 + 719162))
  obtain ⟨m1, m2, m3, m4⟩ := monthOfDay_spec (yearOfDay (t / 86400 + 719162))
    (t / 86400 + 719162 - daysBeforeYear (yearOfDay (t / 86400 + 719162))) (by omega) (by omega)
  refine ⟨m1, m2, ?_, ?_, ?_, rfl, rfl, rfl⟩
  · simp only [g, gmtime]; omega
  · simp only [g, gmtime]; omega
  · simp only [g, gmtime, dayNum]; omega

/-- Dates with the same day number have the same fields. -/
theorem gm_unique {t y m d : Int} (hm0 : 0 ≤ m) (hm1 : m ≤ 11) (hd0 : 1 ≤ d) (hd1 : d ≤ mlen y m)
    (h : dayNum y m d = t / 86400) : (gmtime t).year = y ∧ (gmtime t).mon = m ∧ (gmtime t).mday = d := by
  unfold dayNum at h
  have hml : daysBeforeMonth (isLeap y) m + mlen y m ≤ 365 + lp y ∧ 0 ≤ daysBeforeMonth (isLeap y) m := by
    have hl : lp y = 0 ∨ lp y = 1 := by rcases lp_def y with ⟨h, _⟩ | ⟨h, _⟩ <;> omega
    have : m = 0 ∨ m = 1 ∨ m = 2 ∨ m = 3 ∨ m = 4 ∨ m = 5 ∨ m = 6 ∨ m = 7 ∨ m = 8 ∨ m = 9 ∨ m = 10 ∨ m = 11 := by omega
    rcases this with rfl | rfl | rfl | rfl | rfl | rfl | rfl | rfl | rfl | rfl | rfl | rfl <;>
      simp [dbm_eq, mlen] <;> omega
  have hyl := year_length y
  have hy : yearOfDay (t / 86400 + 719162) = y := yearOfDay_unique (by omega) (by omega)
  have hmo : monthOfDay (isLeap y) (t / 86400 + 719162 - daysBeforeYear y) = m :=
    monthOfDay_unique y _ m (by omega) (by omega) hm0 hm1 (by omega) (by omega)
  have e1 : (gmtime t).year = y := hy
  have e2 : (gmtime t).mon = m := by
    show monthOfDay (isLeap (yearOfDay (t / 86400 + 719162))) _ = m
    rw [hy]; exact hmo
  refine ⟨e1, e2, ?_⟩
  show _ - daysBeforeYear (yearOfDay (t / 86400 + 719162)) -
    daysBeforeMonth (isLeap (yearOfDay (t / 86400 + 719162))) (gmtime t).mon + 1 = d
  rw [hy, e2]; omega

theorem civilOf_valid (n : Int) : (civilOf n).valid := by
  obtain ⟨h1, h2, h3, h4, -⟩ := gm_fields (n * 86400)
  unfold Civil.valid civilOf
  dsimp only
  have := mlen_eq (gmtime (n * 86400)).year ((gmtime (n * 86400)).mon.toNat + 1) (by omega) (by omega)
  refine ⟨by omega, by omega, by omega, ?_⟩
  have e : (((gmtime (n * 86400)).mon.toNat + 1 : Nat) : Int) - 1 = (gmtime (n * 86400)).mon := by omega
  rw [e] at this
  omega

theorem civilOf_of {n : Int} {c : Civil} (hv : c.valid) (h : dayNum c.year (c.month - 1) c.day = n) :
    civilOf n = c := by
  obtain ⟨v1, v2, v3, v4⟩ := hv
  have hl := mlen_eq c.year c.month v1 v2
  obtain ⟨e1, e2, e3⟩ := gm_unique (t := n * 86400) (y := c.year) (m := c.month - 1) (d := c.day) (by omega)
    (by omega) (by omega) (by omega) (by rw [h]; omega)
  unfold civilOf
  rw [e1, e2, e3]
  have f1 : ((c.month : Int) - 1).toNat + 1 = c.month := by omega
  have f2 : (c.day : Int).toNat = c.day := by omega
  rw [f1, f2]

theorem civilOf_dayNum (n : Int) : dayNum (civilOf n).year ((civilOf n).month - 1) (civilOf n).day = n := by
  obtain ⟨h1, h2, h3, h4, h5, -⟩ := gm_fields (n * 86400)
  have e1 : (((civilOf n).month : Int) - 1) = (gmtime (n * 86400)).mon := by
    show (((gmtime (n * 86400)).mon.toNat + 1 : Nat) : Int) - 1 = _; omega
  have e2 : ((civilOf n).day : Int) = (gmtime (n * 86400)).mday := by
    show (((gmtime (n * 86400)).mday.toNat : Nat) : Int) = _; omega
  rw [e1, e2]
  have : n * 86400 / 86400 = n := by omega
  rw [this] at h5
  exact h5

theorem next_valid {c : Civil} (h : c.valid) : c.next.valid := by
  obtain ⟨h1, h2, h3, h4⟩ := h
  have hpos : ∀ y m, 1 ≤ monthLength y m := by
    intro y m; unfold monthLength; repeat' split
    all_goals omega
  unfold Civil.next
  split
  · exact ⟨h1, h2, by simp, by assumption⟩
  · split
    · exact ⟨by simp, by simp; omega, by simp, hpos _ _⟩
    · exact ⟨by simp, by simp, by simp, hpos _ _⟩

theorem next_dayNum {c : Civil} (h : c.valid) :
    dayNum c.next.year (c.next.month - 1) c.next.day = dayNum c.year (c.month - 1) c.day + 1 := by
  obtain ⟨h1, h2, h3, h4⟩ := h
  have hl := mlen_eq c.year c.month h1 h2
  unfold Civil.next dayNum
  split
  · simp only; omega
  · rename_i hd
    split
    · rename_i hm
      have := dbm_succ c.year (c.month - 1) (by omega) (by omega)
      have e : (((c.month + 1 : Nat) : Int) - 1) = (c.month : Int) - 1 + 1 := by omega
      simp only [e, this]
      omega
    · have hm : c.month = 12 := by omega
      have h11 := dbm_last c.year
      have hy := year_length c.year
      have e0 : daysBeforeMonth (isLeap (c.year + 1)) ((1 : Nat) - 1 : Int) = 0 := by simp [dbm_eq]
      have e11 : (c.month : Int) - 1 = 11 := by omega
      rw [e11] at hl ⊢
      simp only [e0]
      omega

theorem civilOf_calendar : Calendar civilOf where
  epoch := by decide +kernel
  valid := civilOf_valid
  next n := by
    apply civilOf_of (next_valid (civilOf_valid n))
    rw [next_dayNum (civilOf_valid n), civilOf_dayNum]

theorem next_inj {c d : Civil} (hc : c.valid) (hd : d.valid) (h : c.next = d.next) : c = d := by
  have h1 := next_dayNum hc
  rw [h, next_dayNum hd] at h1
  rw [← civilOf_of hc rfl, ← civilOf_of hd rfl]
  congr 1; omega

theorem calendar_unique {f g : Int → Civil} (hf : Calendar f) (hg : Calendar g) : f = g := by
  have pos : ∀ n : Nat, f n = g n := by
    intro n
    induction n with
    | zero => show f 0 = g 0; rw [hf.epoch, hg.epoch]
    | succ n ih => push_cast; rw [hf.next, hg.next, ih]
  have neg : ∀ n : Nat, f (-n) = g (-n) := by
    intro n
    induction n with
    | zero => show f 0 = g 0; rw [hf.epoch, hg.epoch]
    | succ n ih =>
      apply next_inj (hf.valid _) (hg.valid _)
      have e : -((n : Int) + 1) + 1 = -n := by omega
      push_cast
      rw [← hf.next, ← hg.next, e, ih]
  funext n
  rcases Int.lt_or_le n 0 with h | h
  · have := neg n.natAbs
    have e : -(n.natAbs : Int) = n := by omega
    rwa [e] at this
  · have := pos n.toNat
    have e : (n.toNat : Int) = n := by omega
    rwa [e] at this

theorem calendar_eq {f : Int → Civil} (hf : Calendar f) : f = civilOf := calendar_unique hf civilOf_calendar

end Verif.Date
