import Verif.Date.Lemmas

namespace Verif.Date
open Verif

/-! ## Instants -/

theorem timegm_eq (y m d h mi s : Int) : timegm y m d h mi s = dayNum y m d * 86400 + h * 3600 + mi * 60 + s := rfl

/-- What `makeTimePoint` returns, in both directions. -/
theorem makeTimePoint_iff (y m d h mi s t : Int) : makeTimePoint y m d h mi s = some t ↔
    1 ≤ y ∧ y ≤ 9999 ∧ 0 ≤ m ∧ m ≤ 11 ∧ 1 ≤ d ∧ d ≤ mlen y m ∧ 0 ≤ h ∧ h ≤ 23 ∧ 0 ≤ mi ∧ mi ≤ 59 ∧ 0 ≤ s ∧ s ≤ 59 ∧
    t = timegm y m d h mi s := by
  unfold makeTimePoint
  constructor
  · intro hh
    split at hh
    · cases hh
    · rename_i h1
      dsimp only at hh
      split at hh
      · cases hh
      · rename_i h2
        obtain ⟨f1, f2, f3, f4, f5, f6, f7, f8⟩ := gm_fields (timegm y m d h mi s)
        have e1 : (gmtime (timegm y m d h mi s)).year = y := by omega
        have e2 : (gmtime (timegm y m d h mi s)).mon = m := by omega
        have e3 : (gmtime (timegm y m d h mi s)).mday = d := by omega
        rw [e1, e2, e3] at f4
        cases hh
        exact ⟨by omega, by omega, by omega, by omega, by omega, f4, by omega, by omega, by omega, by omega, by omega,
          by omega, rfl⟩
  · rintro ⟨a1, a2, a3, a4, a5, a6, a7, a8, a9, a10, a11, a12, rfl⟩
    have hml : mlen y m ≤ 31 := by
      unfold mlen
      rcases lp_def y with ⟨h, _⟩ | ⟨h, _⟩ <;> split <;> (try split) <;> omega
    rw [if_neg (by omega)]
    dsimp only
    have ed : timegm y m d h mi s / 86400 = dayNum y m d := by rw [timegm_eq]; omega
    have em : timegm y m d h mi s % 86400 = h * 3600 + mi * 60 + s := by rw [timegm_eq]; omega
    obtain ⟨g1, g2, g3⟩ := gm_unique (t := timegm y m d h mi s) a3 a4 a5 a6 ed.symm
    obtain ⟨-, -, -, -, -, g4, g5, g6⟩ := gm_fields (timegm y m d h mi s)
    rw [em] at g4 g5 g6
    rw [if_neg]
    rw [g1, g2, g3, g4, g5, g6]
    omega

/-- `makeTimePoint` on the fields of an instant. -/
theorem makeTimePoint_at {i : Instant} {t : Int} (h : At civilOf t i) (h1 : 1 ≤ i.date.year) (h2 : i.date.year ≤ 9999) :
    makeTimePoint i.date.year (i.date.month - 1) i.date.day i.hour i.min i.sec = some t := by
  obtain ⟨n, hc, hh, hm, hs, rfl⟩ := h
  obtain ⟨v1, v2, v3, v4⟩ := hc ▸ civilOf_valid n
  have hl := mlen_eq i.date.year i.date.month v1 v2
  have hd := civilOf_dayNum n
  rw [hc] at hd
  rw [makeTimePoint_iff]
  refine ⟨h1, h2, by omega, by omega, by omega, by omega, by omega, by omega, by omega, by omega, by omega, by omega, ?_⟩
  rw [timegm_eq, hd]

theorem makeTimePoint_sound {y m d h mi s t : Int} (hh : makeTimePoint y m d h mi s = some t) :
    ∃ i : Instant, At civilOf t i ∧ i.date.year = y ∧ (i.date.month : Int) = m + 1 ∧ (i.date.day : Int) = d ∧
      (i.hour : Int) = h ∧ (i.min : Int) = mi ∧ (i.sec : Int) = s ∧ 1 ≤ y ∧ y ≤ 9999 := by
  rw [makeTimePoint_iff] at hh
  obtain ⟨a1, a2, a3, a4, a5, a6, a7, a8, a9, a10, a11, a12, rfl⟩ := hh
  refine ⟨⟨⟨y, m.toNat + 1, d.toNat⟩, h.toNat, mi.toNat, s.toNat⟩, ⟨dayNum y m d, ?_, ?_⟩, rfl, ?_⟩
  · apply civilOf_of
    · have hl := mlen_eq y (m.toNat + 1) (by omega) (by omega)
      have e : ((m.toNat + 1 : Nat) : Int) - 1 = m := by omega
      rw [e] at hl
      exact ⟨by simp, by show m.toNat + 1 ≤ 12; omega, by show 1 ≤ d.toNat; omega,
        by show d.toNat ≤ monthLength y (m.toNat + 1); omega⟩
    · have e : ((m.toNat + 1 : Nat) : Int) - 1 = m := by omega
      have e2 : (d.toNat : Int) = d := by omega
      show dayNum y (((m.toNat + 1 : Nat) : Int) - 1) (d.toNat : Int) = _
      rw [e, e2]
  · refine ⟨by simp; omega, by simp; omega, by simp; omega, ?_⟩
    rw [timegm_eq]; simp only; omega
  · simp only; omega

/-! ## Digits -/

theorem dig_val (n : Nat) : digit? (dig n) = some (n % 10) := by
  have h : n % 10 < 10 := Nat.mod_lt _ (by decide)
  unfold dig digit?
  have e : (UInt8.ofNat (48 + n % 10)).toNat = 48 + n % 10 := by simp [UInt8.toNat_ofNat']; omega
  rw [e, if_pos (by omega)]
  simp

theorem dig_ne (n : Nat) (c : Byte) (h : c.toNat < 48 ∨ 57 < c.toNat) : dig n ≠ c := by
  intro e
  have hh : n % 10 < 10 := Nat.mod_lt _ (by decide)
  have : (dig n).toNat = 48 + n % 10 := by unfold dig; simp [UInt8.toNat_ofNat']; omega
  rw [e] at this
  omega

theorem fromChars_two (n : Nat) (h : n < 100) : fromChars (two n) = some (n : Int) := by
  unfold two fromChars
  simp only []
  rw [if_neg (dig_ne _ _ (by decide))]
  simp only [dig_val, Option.isSome_some, if_true, digitsVal]
  congr 1; omega

theorem fromChars_one (n : Nat) (h : n < 10) : fromChars [dig n] = some (n : Int) := by
  unfold fromChars
  simp only []
  rw [if_neg (dig_ne _ _ (by decide))]
  simp only [dig_val, Option.isSome_some, if_true, digitsVal]
  congr 1; omega

theorem fromChars_four (n : Nat) (h : n < 10000) : fromChars (four n) = some (n : Int) := by
  unfold four fromChars
  simp only []
  rw [if_neg (dig_ne _ _ (by decide))]
  simp only [dig_val, Option.isSome_some, if_true, digitsVal]
  congr 1; omega

theorem decNat_lt10 {n : Nat} (h : n < 10) : decNat n = [dig n] := by
  rw [decNat, if_pos h]; unfold dig; rw [Nat.mod_eq_of_lt h]

theorem decNat_ge10 {n : Nat} (h : 10 ≤ n) : decNat n = decNat (n / 10) ++ [dig n] := by
  rw [decNat, if_neg (by omega)]; rfl

theorem dec2_eq {i : Int} (h0 : 0 ≤ i) (h1 : i < 100) : dec2 i = two i.toNat := by
  unfold dec2 dec
  rw [if_neg (show ¬ i < 0 by omega)]
  have e : i.natAbs = i.toNat := by omega
  rw [e]
  unfold two
  by_cases h : i < 10
  · rw [if_pos h, decNat_lt10 (by omega)]
    have : i.toNat / 10 = 0 := by omega
    rw [this]; rfl
  · rw [if_neg h, decNat_ge10 (by omega), decNat_lt10 (by omega)]; rfl

theorem dec4_eq {i : Int} (h0 : 1000 ≤ i) (h1 : i < 10000) : dec i = four i.toNat := by
  unfold dec
  rw [if_neg (by omega)]
  have e : i.natAbs = i.toNat := by omega
  rw [e, decNat_ge10 (by omega), decNat_ge10 (by omega), decNat_ge10 (by omega), decNat_lt10 (by omega)]
  unfold four
  have e1 : i.toNat / 10 / 10 = i.toNat / 100 := by omega
  have e2 : i.toNat / 10 / 10 / 10 = i.toNat / 1000 := by omega
  rw [e2, e1]; rfl

theorem two_length (n : Nat) : (two n).length = 2 := rfl
theorem four_length (n : Nat) : (four n).length = 4 := rfl

/-! ## Months -/

theorem monthName_cases {m : Nat} (h1 : 1 ≤ m) (h2 : m ≤ 12) :
    monthToNum (monthName m) = some ((m : Int) - 1) ∧ (monthName m).length = 3 ∧ c!"," ∉ monthName m ∧
    c!"-" ∉ monthName m ∧ MONTHS.getD (m - 1) [] = monthName m := by
  have : m = 1 ∨ m = 2 ∨ m = 3 ∨ m = 4 ∨ m = 5 ∨ m = 6 ∨ m = 7 ∨ m = 8 ∨ m = 9 ∨ m = 10 ∨ m = 11 ∨ m = 12 := by omega
  rcases this with rfl | rfl | rfl | rfl | rfl | rfl | rfl | rfl | rfl | rfl | rfl | rfl <;> decide +kernel

/-- A three-letter month is one of the names. -/
theorem monthToNum_three {s : Bytes} {k : Int} (hl : s.length = 3) (h : monthToNum s = some k) :
    0 ≤ k ∧ k ≤ 11 ∧ s = monthName (k.toNat + 1) := by
  unfold monthToNum at h
  split at h
  · rename_i hi
    cases h
    have hm : s ∈ MONTHS := List.idxOf_lt_length_iff.1 (by simpa [MONTHS] using hi)
    refine ⟨by omega, by omega, ?_⟩
    clear hi hl
    simp only [MONTHS, List.mem_cons, List.not_mem_nil, or_false] at hm
    rcases hm with rfl | rfl | rfl | rfl | rfl | rfl | rfl | rfl | rfl | rfl | rfl | rfl <;> decide +kernel
  · split at h
    · rename_i hi
      cases h
      have hm : s ∈ MONTHS_LONG := List.idxOf_lt_length_iff.1 (by simpa [MONTHS_LONG] using hi)
      refine ⟨by omega, by omega, ?_⟩
      clear hi
      simp only [MONTHS_LONG, List.mem_cons, List.not_mem_nil, or_false] at hm
      rcases hm with rfl | rfl | rfl | rfl | rfl | rfl | rfl | rfl | rfl | rfl | rfl | rfl <;> revert hl <;> decide +kernel
    · cases h

theorem two_no {c : Byte} (n : Nat) (h : c.toNat < 48 ∨ 57 < c.toNat) : c ∉ two n := by
  unfold two
  simp only [List.mem_cons, List.not_mem_nil, or_false, not_or]
  exact ⟨(dig_ne _ _ h).symm, (dig_ne _ _ h).symm⟩

theorem four_no {c : Byte} (n : Nat) (h : c.toNat < 48 ∨ 57 < c.toNat) : c ∉ four n := by
  unfold four
  simp only [List.mem_cons, List.not_mem_nil, or_false, not_or]
  exact ⟨(dig_ne _ _ h).symm, (dig_ne _ _ h).symm, (dig_ne _ _ h).symm, (dig_ne _ _ h).symm⟩

/-! ## Substrings -/

theorem sub_here (a b c : Bytes) (p n : Nat) (hp : p = a.length) (hn : n = b.length) : sub (a ++ (b ++ c)) p n = b := by
  subst hp; subst hn
  unfold sub
  rw [List.drop_left, List.take_left]

theorem sub_end (a b : Bytes) (p n : Nat) (hp : p = a.length) (hn : n = b.length) : sub (a ++ b) p n = b := by
  have := sub_here a b [] p n hp hn
  rwa [List.append_nil] at this

theorem at_here (a : Bytes) (x : Byte) (c : Bytes) (p : Nat) (hp : p = a.length) : (a ++ x :: c)[p]? = some x := by
  subst hp; simp

/-- The `hh:mm:ss` reader on a well-formed time of day. -/
theorem clock_ok (a c : Bytes) (i : Instant) (p : Nat) (hp : p = a.length) (h1 : i.hour < 24) (h2 : i.min < 60)
    (h3 : i.sec < 60) : clock (a ++ (timeOfDay i ++ c)) p = some ((i.hour : Int), (i.min : Int), (i.sec : Int)) := by
  have e1 : sub (a ++ (timeOfDay i ++ c)) p 2 = two i.hour := by
    have : a ++ (timeOfDay i ++ c) = a ++ (two i.hour ++ (b!":" ++ two i.min ++ b!":" ++ two i.sec ++ c)) := by
      unfold timeOfDay; simp only [List.append_assoc]
    rw [this]; exact sub_here _ _ _ _ _ hp rfl
  have e2 : (a ++ (timeOfDay i ++ c))[p + 2]? = some c!":" := by
    have : a ++ (timeOfDay i ++ c) = (a ++ two i.hour) ++ c!":" :: (two i.min ++ b!":" ++ two i.sec ++ c) := by
      unfold timeOfDay; simp only [List.append_assoc, List.cons_append, List.nil_append]
    rw [this]; exact at_here _ _ _ _ (by simp [two_length, hp])
  have e3 : sub (a ++ (timeOfDay i ++ c)) (p + 3) 2 = two i.min := by
    have : a ++ (timeOfDay i ++ c) = (a ++ two i.hour ++ b!":") ++ (two i.min ++ (b!":" ++ two i.sec ++ c)) := by
      unfold timeOfDay; simp only [List.append_assoc]
    rw [this]; exact sub_here _ _ _ _ _ (by simp [two_length, hp]) rfl
  have e4 : (a ++ (timeOfDay i ++ c))[p + 5]? = some c!":" := by
    have : a ++ (timeOfDay i ++ c) = (a ++ two i.hour ++ b!":" ++ two i.min) ++ c!":" :: (two i.sec ++ c) := by
      unfold timeOfDay; simp only [List.append_assoc, List.cons_append, List.nil_append]
    rw [this]; exact at_here _ _ _ _ (by simp [two_length, hp])
  have e5 : sub (a ++ (timeOfDay i ++ c)) (p + 6) 2 = two i.sec := by
    have : a ++ (timeOfDay i ++ c) = (a ++ two i.hour ++ b!":" ++ two i.min ++ b!":") ++ (two i.sec ++ c) := by
      unfold timeOfDay; simp only [List.append_assoc]
    rw [this]; exact sub_here _ _ _ _ _ (by simp [two_length, hp]) rfl
  unfold clock
  rw [e1, e2, e3, e4, e5, fromChars_two _ (by omega), fromChars_two _ (by omega), fromChars_two _ (by omega)]
  rfl

/-- The position of the first comma. -/
theorem idxOf_comma {a c : Bytes} (h : c!"," ∉ a) : (a ++ c!"," :: c).idxOf c!"," = a.length := by
  rw [List.idxOf_append, if_neg h]
  simp

/-! ## The three formats -/

theorem parse_imf {wd : Bytes} {i : Instant} {t : Int} (hw : wd.length = 3) (hc : c!"," ∉ wd) (hd : c!"-" ∉ wd)
    (ht : At civilOf t i) (h1 : 1 ≤ i.date.year) (h2 : i.date.year ≤ 9999) :
    parseHttpDate (imfFixdate wd i) = some t := by
  have hmk := makeTimePoint_at ht h1 h2
  obtain ⟨n, hcv, b1, b2, b3, -⟩ := ht
  obtain ⟨v1, v2, v3, v4⟩ := hcv ▸ civilOf_valid n
  have hday : i.date.day < 100 := by
    have : monthLength i.date.year i.date.month ≤ 31 := by
      unfold monthLength; repeat' split
      all_goals omega
    omega
  obtain ⟨m1, m2, m3, m4, -⟩ := monthName_cases v1 v2
  have hcomma : c!"," ∈ imfFixdate wd i := by simp [imfFixdate]
  have hdash : c!"-" ∉ imfFixdate wd i := by
    simp only [imfFixdate, timeOfDay, List.mem_append, not_or]
    refine ⟨⟨⟨⟨⟨⟨⟨⟨⟨hd, by decide⟩, two_no _ (by decide)⟩, by decide⟩, m4⟩, by decide⟩, four_no _ (by decide)⟩, by decide⟩,
      ⟨⟨⟨⟨two_no _ (by decide), by decide⟩, two_no _ (by decide)⟩, by decide⟩, two_no _ (by decide)⟩⟩, by decide⟩
  have hlen : (imfFixdate wd i).length = 29 := by
    simp [imfFixdate, timeOfDay, two_length, four_length, m2, hw]
  unfold parseHttpDate
  rw [if_pos ⟨hcomma, hdash⟩]
  have key : parseRfc1123 (imfFixdate wd i) = some t := by
    have e0 : (imfFixdate wd i).idxOf c!"," = 3 := by
      have : imfFixdate wd i = wd ++ c!"," :: (b!" " ++ two i.date.day ++ b!" " ++ monthName i.date.month ++ b!" " ++
          four i.date.year.toNat ++ b!" " ++ timeOfDay i ++ b!" GMT") := by
        simp only [imfFixdate, List.append_assoc, List.cons_append, List.nil_append]
      rw [this, idxOf_comma hc, hw]
    have e1 : (imfFixdate wd i)[4]? = some c!" " := by
      have : imfFixdate wd i = (wd ++ b!",") ++ c!" " :: (two i.date.day ++ b!" " ++ monthName i.date.month ++ b!" " ++
          four i.date.year.toNat ++ b!" " ++ timeOfDay i ++ b!" GMT") := by
        simp only [imfFixdate, List.append_assoc, List.cons_append, List.nil_append]
      rw [this]; exact at_here _ _ _ _ (by simp [hw])
    have e2 : sub (imfFixdate wd i) 5 2 = two i.date.day := by
      have : imfFixdate wd i = (wd ++ b!", ") ++ (two i.date.day ++ (b!" " ++ monthName i.date.month ++ b!" " ++
          four i.date.year.toNat ++ b!" " ++ timeOfDay i ++ b!" GMT")) := by
        simp only [imfFixdate, List.append_assoc, List.cons_append, List.nil_append]
      rw [this]; exact sub_here _ _ _ _ _ (by simp [hw]) rfl
    have e3 : (imfFixdate wd i)[7]? = some c!" " := by
      have : imfFixdate wd i = (wd ++ b!", " ++ two i.date.day) ++ c!" " :: (monthName i.date.month ++ b!" " ++
          four i.date.year.toNat ++ b!" " ++ timeOfDay i ++ b!" GMT") := by
        simp only [imfFixdate, List.append_assoc, List.cons_append, List.nil_append]
      rw [this]; exact at_here _ _ _ _ (by simp [hw, two_length])
    have e4 : sub (imfFixdate wd i) 8 3 = monthName i.date.month := by
      have : imfFixdate wd i = (wd ++ b!", " ++ two i.date.day ++ b!" ") ++ (monthName i.date.month ++ (b!" " ++
          four i.date.year.toNat ++ b!" " ++ timeOfDay i ++ b!" GMT")) := by
        simp only [imfFixdate, List.append_assoc, List.cons_append, List.nil_append]
      rw [this]; exact sub_here _ _ _ _ _ (by simp [hw, two_length]) m2.symm
    have e5 : (imfFixdate wd i)[11]? = some c!" " := by
      have : imfFixdate wd i = (wd ++ b!", " ++ two i.date.day ++ b!" " ++ monthName i.date.month) ++ c!" " ::
          (four i.date.year.toNat ++ b!" " ++ timeOfDay i ++ b!" GMT") := by
        simp only [imfFixdate, List.append_assoc, List.cons_append, List.nil_append]
      rw [this]; exact at_here _ _ _ _ (by simp [hw, two_length, m2])
    have e6 : sub (imfFixdate wd i) 12 4 = four i.date.year.toNat := by
      have : imfFixdate wd i = (wd ++ b!", " ++ two i.date.day ++ b!" " ++ monthName i.date.month ++ b!" ") ++
          (four i.date.year.toNat ++ (b!" " ++ timeOfDay i ++ b!" GMT")) := by
        simp only [imfFixdate, List.append_assoc, List.cons_append, List.nil_append]
      rw [this]; exact sub_here _ _ _ _ _ (by simp [hw, two_length, m2]) rfl
    have e7 : (imfFixdate wd i)[16]? = some c!" " := by
      have : imfFixdate wd i = (wd ++ b!", " ++ two i.date.day ++ b!" " ++ monthName i.date.month ++ b!" " ++
          four i.date.year.toNat) ++ c!" " :: (timeOfDay i ++ b!" GMT") := by
        simp only [imfFixdate, List.append_assoc, List.cons_append, List.nil_append]
      rw [this]; exact at_here _ _ _ _ (by simp [hw, two_length, m2, four_length])
    have e8 : clock (imfFixdate wd i) 17 = some ((i.hour : Int), (i.min : Int), (i.sec : Int)) := by
      have : imfFixdate wd i = (wd ++ b!", " ++ two i.date.day ++ b!" " ++ monthName i.date.month ++ b!" " ++
          four i.date.year.toNat ++ b!" ") ++ (timeOfDay i ++ b!" GMT") := by
        simp only [imfFixdate, List.append_assoc]
      rw [this]; exact clock_ok _ _ _ _ (by simp [hw, two_length, m2, four_length]) b1 b2 b3
    have e9 : sub (imfFixdate wd i) 25 4 = b!" GMT" := by
      have : imfFixdate wd i = (wd ++ b!", " ++ two i.date.day ++ b!" " ++ monthName i.date.month ++ b!" " ++
          four i.date.year.toNat ++ b!" " ++ timeOfDay i) ++ b!" GMT" := rfl
      rw [this]; exact sub_end _ _ _ _ (by simp [timeOfDay, hw, two_length, m2, four_length]) rfl
    unfold parseRfc1123
    rw [e0, e1, e2, e3, e4, e5, e6, e7, e8, e9, hlen, m1, fromChars_two _ hday, fromChars_four _ (by omega)]
    have ey : ((i.date.year.toNat : Nat) : Int) = i.date.year := by omega
    rw [ey]
    simpa [guard] using hmk
  rw [key]

theorem parse_rfc850 {wd : Bytes} {i : Instant} {t : Int} (hc : c!"," ∉ wd)
    (ht : At civilOf t i) (h1 : 1970 ≤ i.date.year) (h2 : i.date.year ≤ 2069) :
    parseHttpDate (rfc850 wd i) = some t := by
  have hmk := makeTimePoint_at ht (by omega) (by omega)
  obtain ⟨n, hcv, b1, b2, b3, -⟩ := ht
  obtain ⟨v1, v2, v3, v4⟩ := hcv ▸ civilOf_valid n
  have hday : i.date.day < 100 := by
    have : monthLength i.date.year i.date.month ≤ 31 := by
      unfold monthLength; repeat' split
      all_goals omega
    omega
  obtain ⟨m1, m2, m3, m4, -⟩ := monthName_cases v1 v2
  have hdash : c!"-" ∈ rfc850 wd i := by simp [rfc850]
  have hlen : (rfc850 wd i).length = wd.length + 24 := by
    simp [rfc850, timeOfDay, two_length, m2]
  unfold parseHttpDate
  rw [if_neg (by simp [hdash]), if_pos hdash]
  have key : parseRfc850 (rfc850 wd i) = some t := by
    have e0 : (rfc850 wd i).idxOf c!"," = wd.length := by
      have : rfc850 wd i = wd ++ c!"," :: (b!" " ++ two i.date.day ++ b!"-" ++ monthName i.date.month ++ b!"-" ++
          two (i.date.year.toNat % 100) ++ b!" " ++ timeOfDay i ++ b!" GMT") := by
        simp only [rfc850, List.append_assoc, List.cons_append, List.nil_append]
      rw [this, idxOf_comma hc]
    have e1 : (rfc850 wd i)[wd.length + 1]? = some c!" " := by
      have : rfc850 wd i = (wd ++ b!",") ++ c!" " :: (two i.date.day ++ b!"-" ++ monthName i.date.month ++ b!"-" ++
          two (i.date.year.toNat % 100) ++ b!" " ++ timeOfDay i ++ b!" GMT") := by
        simp only [rfc850, List.append_assoc, List.cons_append, List.nil_append]
      rw [this]; exact at_here _ _ _ _ (by simp)
    have e2 : sub (rfc850 wd i) (wd.length + 2) 2 = two i.date.day := by
      have : rfc850 wd i = (wd ++ b!", ") ++ (two i.date.day ++ (b!"-" ++ monthName i.date.month ++ b!"-" ++
          two (i.date.year.toNat % 100) ++ b!" " ++ timeOfDay i ++ b!" GMT")) := by
        simp only [rfc850, List.append_assoc, List.cons_append, List.nil_append]
      rw [this]; exact sub_here _ _ _ _ _ (by simp) rfl
    have e3 : (rfc850 wd i)[wd.length + 2 + 2]? = some c!"-" := by
      have : rfc850 wd i = (wd ++ b!", " ++ two i.date.day) ++ c!"-" :: (monthName i.date.month ++ b!"-" ++
          two (i.date.year.toNat % 100) ++ b!" " ++ timeOfDay i ++ b!" GMT") := by
        simp only [rfc850, List.append_assoc, List.cons_append, List.nil_append]
      rw [this]; exact at_here _ _ _ _ (by simp [two_length])
    have e4 : sub (rfc850 wd i) (wd.length + 2 + 3) 3 = monthName i.date.month := by
      have : rfc850 wd i = (wd ++ b!", " ++ two i.date.day ++ b!"-") ++ (monthName i.date.month ++ (b!"-" ++
          two (i.date.year.toNat % 100) ++ b!" " ++ timeOfDay i ++ b!" GMT")) := by
        simp only [rfc850, List.append_assoc, List.cons_append, List.nil_append]
      rw [this]; exact sub_here _ _ _ _ _ (by simp [two_length]) m2.symm
    have e5 : (rfc850 wd i)[wd.length + 2 + 3 + 3]? = some c!"-" := by
      have : rfc850 wd i = (wd ++ b!", " ++ two i.date.day ++ b!"-" ++ monthName i.date.month) ++ c!"-" ::
          (two (i.date.year.toNat % 100) ++ b!" " ++ timeOfDay i ++ b!" GMT") := by
        simp only [rfc850, List.append_assoc, List.cons_append, List.nil_append]
      rw [this]; exact at_here _ _ _ _ (by simp [two_length, m2])
    have e6 : sub (rfc850 wd i) (wd.length + 2 + 3 + 4) 2 = two (i.date.year.toNat % 100) := by
      have : rfc850 wd i = (wd ++ b!", " ++ two i.date.day ++ b!"-" ++ monthName i.date.month ++ b!"-") ++
          (two (i.date.year.toNat % 100) ++ (b!" " ++ timeOfDay i ++ b!" GMT")) := by
        simp only [rfc850, List.append_assoc, List.cons_append, List.nil_append]
      rw [this]; exact sub_here _ _ _ _ _ (by simp [two_length, m2]) rfl
    have e7 : (rfc850 wd i)[wd.length + 2 + 3 + 4 + 2]? = some c!" " := by
      have : rfc850 wd i = (wd ++ b!", " ++ two i.date.day ++ b!"-" ++ monthName i.date.month ++ b!"-" ++
          two (i.date.year.toNat % 100)) ++ c!" " :: (timeOfDay i ++ b!" GMT") := by
        simp only [rfc850, List.append_assoc, List.cons_append, List.nil_append]
      rw [this]; exact at_here _ _ _ _ (by simp [two_length, m2])
    have e8 : clock (rfc850 wd i) (wd.length + 2 + 3 + 4 + 3) = some ((i.hour : Int), (i.min : Int), (i.sec : Int)) := by
      have : rfc850 wd i = (wd ++ b!", " ++ two i.date.day ++ b!"-" ++ monthName i.date.month ++ b!"-" ++
          two (i.date.year.toNat % 100) ++ b!" ") ++ (timeOfDay i ++ b!" GMT") := by
        simp only [rfc850, List.append_assoc]
      rw [this]; exact clock_ok _ _ _ _ (by simp [two_length, m2]) b1 b2 b3
    have e9 : sub (rfc850 wd i) (wd.length + 2 + 3 + 4 + 3 + 8) 4 = b!" GMT" := by
      have : rfc850 wd i = (wd ++ b!", " ++ two i.date.day ++ b!"-" ++ monthName i.date.month ++ b!"-" ++
          two (i.date.year.toNat % 100) ++ b!" " ++ timeOfDay i) ++ b!" GMT" := rfl
      rw [this]; exact sub_end _ _ _ _ (by simp [timeOfDay, two_length, m2]) rfl
    have ey : (if ((i.date.year.toNat % 100 : Nat) : Int) < 70 then ((i.date.year.toNat % 100 : Nat) : Int) + 2000
        else ((i.date.year.toNat % 100 : Nat) : Int) + 1900) = i.date.year := by
      rcases Int.lt_or_le i.date.year 2000 with hy | hy
      · have : i.date.year.toNat % 100 = i.date.year.toNat - 1900 := by omega
        rw [this, if_neg (by omega)]; omega
      · have : i.date.year.toNat % 100 = i.date.year.toNat - 2000 := by omega
        rw [this, if_pos (by omega)]; omega
    unfold parseRfc850
    simp only [e0, e1, e2, e3, e4, e5, e6, e7, e8, e9, hlen, m1, fromChars_two _ hday,
      fromChars_two _ (Nat.mod_lt i.date.year.toNat (show 100 > 0 by decide))]
    have g1 : wd.length < wd.length + 24 ∧ wd.length + 1 < wd.length + 24 := by omega
    have g2 : wd.length + 2 < wd.length + 24 ∧ wd.length + 2 + 2 ≤ wd.length + 24 := by omega
    have g3 : wd.length + 2 + 2 < wd.length + 24 := by omega
    have g4 : wd.length + 2 + 3 + 3 ≤ wd.length + 24 := by omega
    have g5 : wd.length + 2 + 3 + 3 < wd.length + 24 := by omega
    have g6 : wd.length + 2 + 3 + 4 + 2 ≤ wd.length + 24 := by omega
    have g7 : wd.length + 2 + 3 + 4 + 2 < wd.length + 24 := by omega
    have g8 : wd.length + 2 + 3 + 4 + 3 + 8 ≤ wd.length + 24 := by omega
    have g9 : wd.length + 2 + 3 + 4 + 3 + 8 + 4 = wd.length + 24 := by omega
    simp only [guard, g1, g2, g3, g4, g5, g6, g7, g8, g9, and_self, if_true, Option.pure_def, Option.bind_eq_bind,
      Option.bind_some, and_true, ey, hmk]
  rw [key]

theorem digitRun_two (n : Nat) (c : Bytes) : digitRun (two n ++ c!" " :: c) = 2 := by
  have h32 : digit? (32 : Byte) = none := rfl
  simp only [two, List.cons_append, List.nil_append, digitRun, dig_val, Option.isSome_some, if_true, h32]
  simp

theorem digitRun_one (n : Nat) (c : Bytes) : digitRun (dig n :: c!" " :: c) = 1 := by
  have h32 : digit? (32 : Byte) = none := rfl
  simp only [digitRun, dig_val, Option.isSome_some, if_true, h32]
  simp

theorem parse_asctime {wd : Bytes} {i : Instant} {t : Int} (hw : wd.length = 3) (hc : c!"," ∉ wd)
    (ht : At civilOf t i) (h1 : 1 ≤ i.date.year) (h2 : i.date.year ≤ 9999) :
    parseHttpDate (asctime wd i) = some t := by
  have hmk := makeTimePoint_at ht (by omega) (by omega)
  obtain ⟨n, hcv, b1, b2, b3, -⟩ := ht
  obtain ⟨v1, v2, v3, v4⟩ := hcv ▸ civilOf_valid n
  have hday : i.date.day < 100 := by
    have : monthLength i.date.year i.date.month ≤ 31 := by
      unfold monthLength; repeat' split
      all_goals omega
    omega
  obtain ⟨m1, m2, m3, m4, -⟩ := monthName_cases v1 v2
  have hdl : (if i.date.day < 10 then [c!" ", dig i.date.day] else two i.date.day).length = 2 := by split <;> rfl
  have hcomma : c!"," ∉ asctime wd i := by
    simp only [asctime, timeOfDay, List.mem_append, not_or]
    refine ⟨⟨⟨⟨⟨⟨⟨⟨hc, by decide⟩, m3⟩, by decide⟩, ?_⟩, by decide⟩,
      ⟨⟨⟨⟨two_no _ (by decide), by decide⟩, two_no _ (by decide)⟩, by decide⟩, two_no _ (by decide)⟩⟩, by decide⟩,
      four_no _ (by decide)⟩
    split
    · simp only [List.mem_cons, List.not_mem_nil, or_false, not_or]
      exact ⟨by decide, (dig_ne _ _ (by decide)).symm⟩
    · exact two_no _ (by decide)
  have hlen : (asctime wd i).length = 24 := by
    simp [asctime, timeOfDay, two_length, four_length, m2, hw, hdl]
  have h850 : parseRfc850 (asctime wd i) = none := by
    unfold parseRfc850
    rw [List.idxOf_eq_length hcomma]
    simp [guard]
  have key : parseAsctime (asctime wd i) = some t := by
    have e1 : (asctime wd i)[3]? = some c!" " := by
      have : asctime wd i = wd ++ c!" " :: (monthName i.date.month ++ b!" " ++
          (if i.date.day < 10 then [c!" ", dig i.date.day] else two i.date.day) ++ b!" " ++ timeOfDay i ++ b!" " ++
          four i.date.year.toNat) := by
        simp only [asctime, List.append_assoc, List.cons_append, List.nil_append]
      rw [this]; exact at_here _ _ _ _ hw.symm
    have e2 : (asctime wd i)[7]? = some c!" " := by
      have : asctime wd i = (wd ++ b!" " ++ monthName i.date.month) ++ c!" " :: (
          (if i.date.day < 10 then [c!" ", dig i.date.day] else two i.date.day) ++ b!" " ++ timeOfDay i ++ b!" " ++
          four i.date.year.toNat) := by
        simp only [asctime, List.append_assoc, List.cons_append, List.nil_append]
      rw [this]; exact at_here _ _ _ _ (by simp [hw, m2])
    have e3 : sub (asctime wd i) 4 3 = monthName i.date.month := by
      have : asctime wd i = (wd ++ b!" ") ++ (monthName i.date.month ++ (b!" " ++
          (if i.date.day < 10 then [c!" ", dig i.date.day] else two i.date.day) ++ b!" " ++ timeOfDay i ++ b!" " ++
          four i.date.year.toNat)) := by
        simp only [asctime, List.append_assoc]
      rw [this]; exact sub_here _ _ _ _ _ (by simp [hw]) m2.symm
    have e8 : clock (asctime wd i) 11 = some ((i.hour : Int), (i.min : Int), (i.sec : Int)) := by
      have : asctime wd i = (wd ++ b!" " ++ monthName i.date.month ++ b!" " ++
          (if i.date.day < 10 then [c!" ", dig i.date.day] else two i.date.day) ++ b!" ") ++ (timeOfDay i ++ (b!" " ++
          four i.date.year.toNat)) := by
        simp only [asctime, List.append_assoc]
      rw [this]; exact clock_ok _ _ _ _ (by simp [hw, m2, hdl]) b1 b2 b3
    have e9 : sub (asctime wd i) 20 4 = four i.date.year.toNat := by
      have : asctime wd i = (wd ++ b!" " ++ monthName i.date.month ++ b!" " ++
          (if i.date.day < 10 then [c!" ", dig i.date.day] else two i.date.day) ++ b!" " ++ timeOfDay i ++ b!" ") ++
          four i.date.year.toNat := rfl
      rw [this]; exact sub_end _ _ _ _ (by simp [timeOfDay, hw, two_length, m2, hdl]) rfl
    have e10 : (asctime wd i)[10]? = some c!" " := by
      have : asctime wd i = (wd ++ b!" " ++ monthName i.date.month ++ b!" " ++
          (if i.date.day < 10 then [c!" ", dig i.date.day] else two i.date.day)) ++ c!" " :: (timeOfDay i ++ b!" " ++
          four i.date.year.toNat) := by
        simp only [asctime, List.append_assoc, List.cons_append, List.nil_append]
      rw [this]; exact at_here _ _ _ _ (by simp [hw, m2, hdl])
    have ey : ((i.date.year.toNat : Nat) : Int) = i.date.year := by omega
    by_cases hlt : i.date.day < 10
    · have e4 : (asctime wd i)[8]? = some c!" " := by
        have : asctime wd i = (wd ++ b!" " ++ monthName i.date.month ++ b!" ") ++ c!" " :: ([dig i.date.day] ++ b!" " ++
            timeOfDay i ++ b!" " ++ four i.date.year.toNat) := by
          simp only [asctime, if_pos hlt, List.append_assoc, List.cons_append, List.nil_append]
        rw [this]; exact at_here _ _ _ _ (by simp [hw, m2])
      have e5 : (asctime wd i).drop 9 = dig i.date.day :: c!" " :: (timeOfDay i ++ b!" " ++ four i.date.year.toNat) := by
        have : asctime wd i = (wd ++ b!" " ++ monthName i.date.month ++ b!"  ") ++ (dig i.date.day :: c!" " ::
            (timeOfDay i ++ b!" " ++ four i.date.year.toNat)) := by
          simp only [asctime, if_pos hlt, List.append_assoc, List.cons_append, List.nil_append]
        rw [this, List.drop_append_of_le_length (by simp [hw, m2]), List.drop_eq_nil_of_le (by simp [hw, m2])]
        rfl
      have e6 : sub (asctime wd i) 9 1 = [dig i.date.day] := by unfold sub; rw [e5]; rfl
      unfold parseAsctime
      simp only [hlen, e1, e2, e3, m1, if_pos e4, e5, digitRun_one, e6, fromChars_one _ hlt, e10, e8, e9,
        fromChars_four _ (show i.date.year.toNat < 10000 by omega), guard]
      simpa [ey] using hmk
    · have e4 : (asctime wd i)[8]? = some (dig (i.date.day / 10)) := by
        have : asctime wd i = (wd ++ b!" " ++ monthName i.date.month ++ b!" ") ++ dig (i.date.day / 10) ::
            ([dig i.date.day] ++ b!" " ++ timeOfDay i ++ b!" " ++ four i.date.year.toNat) := by
          simp only [asctime, if_neg hlt, two, List.append_assoc, List.cons_append, List.nil_append]
        rw [this]; exact at_here _ _ _ _ (by simp [hw, m2])
      have e4' : ¬ ((asctime wd i)[8]? = some c!" ") := by
        rw [e4]
        intro h
        exact dig_ne _ _ (by decide) (Option.some.inj h)
      have e5 : (asctime wd i).drop 8 = two i.date.day ++ c!" " :: (timeOfDay i ++ b!" " ++ four i.date.year.toNat) := by
        have : asctime wd i = (wd ++ b!" " ++ monthName i.date.month ++ b!" ") ++ (two i.date.day ++ c!" " ::
            (timeOfDay i ++ b!" " ++ four i.date.year.toNat)) := by
          simp only [asctime, if_neg hlt, List.append_assoc, List.cons_append, List.nil_append]
        rw [this, List.drop_append_of_le_length (by simp [hw, m2]), List.drop_eq_nil_of_le (by simp [hw, m2])]
        rfl
      have e6 : sub (asctime wd i) 8 2 = two i.date.day := by unfold sub; rw [e5]; rfl
      unfold parseAsctime
      simp only [hlen, e1, e2, e3, m1, if_neg e4', e5, digitRun_two, e6, fromChars_two _ hday, e10, e8, e9,
        fromChars_four _ (show i.date.year.toNat < 10000 by omega), guard]
      simpa [ey] using hmk
  unfold parseHttpDate
  rw [if_neg (by simp [hcomma])]
  simp only [h850, key, ite_self]

end Verif.Date
