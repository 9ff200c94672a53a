import Verif.Date.ParseLemmas

namespace Verif.Date
open Verif

/-! ## C57: the calendar and the formatter -/

/-- There is exactly one calendar (the specification is satisfiable and unambiguous). -/
theorem C57_calendar_exists_unique : ∃ f, Calendar f ∧ ∀ g, Calendar g → g = f :=
  ⟨civilOf, civilOf_calendar, fun _ hg => calendar_eq hg⟩

/-- C57: every instant whose year has four digits is formatted as its IMF-fixdate: its calendar day, its
day of the week and its time of day, whatever the sub-second part. -/
theorem C57_format_http_date {f : Int → Civil} (hf : Calendar f) (ns : Int) (n : Int) (i : Instant)
    (hn : f n = i.date) (hh : i.hour < 24) (hm : i.min < 60) (hs : i.sec < 60)
    (ht : Int.tdiv ns 1000000000 = n * 86400 + i.hour * 3600 + i.min * 60 + i.sec)
    (h1 : 1000 ≤ i.date.year) (h2 : i.date.year ≤ 9999) :
    formatHttpDate ns = imfFixdate (dayName (n % 7).toNat) i := by
  obtain rfl := calendar_eq hf
  obtain ⟨v1, v2, v3, v4⟩ := hn ▸ civilOf_valid n
  have hd := civilOf_dayNum n
  rw [hn] at hd
  have hl := mlen_eq i.date.year i.date.month v1 v2
  have hday : i.date.day < 100 := by
    have : monthLength i.date.year i.date.month ≤ 31 := by
      unfold monthLength; repeat' split
      all_goals omega
    omega
  have et : toTimeT ns = n * 86400 + i.hour * 3600 + i.min * 60 + i.sec := ht
  have ed : toTimeT ns / 86400 = n := by rw [et]; omega
  have em : toTimeT ns % 86400 = i.hour * 3600 + i.min * 60 + i.sec := by rw [et]; omega
  obtain ⟨g1, g2, g3⟩ := gm_unique (t := toTimeT ns) (y := i.date.year) (m := i.date.month - 1) (d := i.date.day)
    (by omega) (by omega) (by omega) (by omega) (by rw [hd, ed])
  obtain ⟨-, -, -, -, -, g4, g5, g6⟩ := gm_fields (toTimeT ns)
  rw [em] at g4 g5 g6
  have g4 : (gmtime (toTimeT ns)).hour = i.hour := by rw [g4]; omega
  have g5 : (gmtime (toTimeT ns)).min = i.min := by rw [g5]; omega
  have g6 : (gmtime (toTimeT ns)).sec = i.sec := by rw [g6]; omega
  have gw : (gmtime (toTimeT ns)).wday = (n + 4) % 7 := by
    show (toTimeT ns / 86400 + 4) % 7 = _
    rw [ed]
  have hw : DAYS.getD ((n + 4) % 7).toNat [] = dayName (n % 7).toNat := by
    have : n % 7 = 0 ∨ n % 7 = 1 ∨ n % 7 = 2 ∨ n % 7 = 3 ∨ n % 7 = 4 ∨ n % 7 = 5 ∨ n % 7 = 6 := by omega
    rcases this with h | h | h | h | h | h | h
    · rw [show (n + 4) % 7 = 4 by omega, h]; rfl
    · rw [show (n + 4) % 7 = 5 by omega, h]; rfl
    · rw [show (n + 4) % 7 = 6 by omega, h]; rfl
    · rw [show (n + 4) % 7 = 0 by omega, h]; rfl
    · rw [show (n + 4) % 7 = 1 by omega, h]; rfl
    · rw [show (n + 4) % 7 = 2 by omega, h]; rfl
    · rw [show (n + 4) % 7 = 3 by omega, h]; rfl
  have emon : ((i.date.month : Int) - 1).toNat = i.date.month - 1 := by omega
  have t1 : ((i.date.day : Int)).toNat = i.date.day := by omega
  have t2 : ((i.hour : Int)).toNat = i.hour := by omega
  have t3 : ((i.min : Int)).toNat = i.min := by omega
  have t4 : ((i.sec : Int)).toNat = i.sec := by omega
  unfold formatHttpDate
  simp only [g1, g2, g3, g4, g5, g6, gw, hw, emon, (monthName_cases v1 v2).2.2.2.2]
  rw [dec2_eq (by omega) (by omega), dec2_eq (by omega) (by omega), dec2_eq (by omega) (by omega),
    dec2_eq (by omega) (by omega), dec4_eq (by omega) (by omega), t1, t2, t3, t4]
  simp only [imfFixdate, timeOfDay, List.append_assoc, List.cons_append, List.nil_append]

/-- The RFC's own example: 784111777 is Sunday 6 November 1994, 08:49:37. -/
example : formatHttpDate 784111777999999999 = b!"Sun, 06 Nov 1994 08:49:37 GMT" := by decide +kernel

/-! ## C58: the parser reads what the RFC allows -/

/-- C58: an IMF-fixdate of any day of the years 1-9999 is read as that instant (the day name is not
looked at). -/
theorem C58_parses_imf_fixdate {f : Int → Civil} (hf : Calendar f) (wd : Bytes) (hw : wd.length = 3)
    (hc : c!"," ∉ wd) (hd : c!"-" ∉ wd) (i : Instant) (t : Int) (ht : At f t i) (h1 : 1 ≤ i.date.year)
    (h2 : i.date.year ≤ 9999) : parseHttpDate (imfFixdate wd i) = some t :=
  parse_imf hw hc hd (calendar_eq hf ▸ ht) h1 h2

/-- C58: an obsolete rfc850-date of the years 1970-2069 is read as that instant. -/
theorem C58_parses_rfc850 {f : Int → Civil} (hf : Calendar f) (wd : Bytes) (hc : c!"," ∉ wd) (i : Instant)
    (t : Int) (ht : At f t i) (h1 : 1970 ≤ i.date.year) (h2 : i.date.year ≤ 2069) :
    parseHttpDate (rfc850 wd i) = some t :=
  parse_rfc850 hc (calendar_eq hf ▸ ht) h1 h2

/-- C58: an asctime-date of any day of the years 1-9999 is read as that instant. -/
theorem C58_parses_asctime {f : Int → Civil} (hf : Calendar f) (wd : Bytes) (hw : wd.length = 3)
    (hc : c!"," ∉ wd) (i : Instant) (t : Int) (ht : At f t i) (h1 : 1 ≤ i.date.year)
    (h2 : i.date.year ≤ 9999) : parseHttpDate (asctime wd i) = some t :=
  parse_asctime hw hc (calendar_eq hf ▸ ht) h1 h2

/-- The three example dates of RFC 9110 §5.6.7. -/
example : parseHttpDate b!"Sun, 06 Nov 1994 08:49:37 GMT" = some 784111777 ∧
    parseHttpDate b!"Sunday, 06-Nov-94 08:49:37 GMT" = some 784111777 ∧
    parseHttpDate b!"Sun Nov  6 08:49:37 1994" = some 784111777 := by decide +kernel

/-- Every instant has a calendar reading, so the theorems of C57 and C58 cover all of them. -/
theorem at_total {f : Int → Civil} (hf : Calendar f) (t : Int) :
    ∃ n i, f n = i.date ∧ i.hour < 24 ∧ i.min < 60 ∧ i.sec < 60 ∧
      t = n * 86400 + i.hour * 3600 + i.min * 60 + i.sec ∧ At f t i := by
  obtain rfl := calendar_eq hf
  refine ⟨t / 86400, ⟨civilOf (t / 86400), (t % 86400 / 3600).toNat, (t % 86400 % 3600 / 60).toNat,
    (t % 86400 % 60).toNat⟩, rfl, ?_, ?_, ?_, ?_, t / 86400, rfl, ?_, ?_, ?_, ?_⟩ <;> simp only <;> omega

/-- C58: formatting and reading back gives the instant, to the second, for every instant of the years
1000-9999. -/
theorem C58_roundtrip {f : Int → Civil} (hf : Calendar f) (ns : Int)
    (h1 : 1000 ≤ (f (Int.tdiv ns 1000000000 / 86400)).year) (h2 : (f (Int.tdiv ns 1000000000 / 86400)).year ≤ 9999) :
    parseHttpDate (formatHttpDate ns) = some (Int.tdiv ns 1000000000) := by
  obtain ⟨n, i, a, b, c, d, e, g⟩ := at_total hf (Int.tdiv ns 1000000000)
  have hn : Int.tdiv ns 1000000000 / 86400 = n := by omega
  rw [hn, a] at h1 h2
  rw [C57_format_http_date hf ns n i a b c d e h1 h2]
  have hk : (n % 7).toNat < 7 := by omega
  have key : ∀ k : Fin 7, (dayName k).length = 3 ∧ c!"," ∉ dayName k ∧ c!"-" ∉ dayName k := by decide +kernel
  obtain ⟨k1, k2, k3⟩ := key ⟨_, hk⟩
  exact C58_parses_imf_fixdate hf _ k1 k2 k3 i _ g (by omega) h2

example : (civilOf (Int.tdiv 784111777000000000 1000000000 / 86400)).year = 1994 := by decide +kernel

/-! ### Auxiliary facts for C59 -/

theorem guard_some {p : Prop} [Decidable p] {u : Unit} : (guard p : Option Unit) = some u ↔ p := by
  unfold guard
  split <;> simp_all

/-- Twenty-nine octets. -/
structure L29 where
  a0 : Byte
  a1 : Byte
  a2 : Byte
  a3 : Byte
  a4 : Byte
  a5 : Byte
  a6 : Byte
  a7 : Byte
  a8 : Byte
  a9 : Byte
  a10 : Byte
  a11 : Byte
  a12 : Byte
  a13 : Byte
  a14 : Byte
  a15 : Byte
  a16 : Byte
  a17 : Byte
  a18 : Byte
  a19 : Byte
  a20 : Byte
  a21 : Byte
  a22 : Byte
  a23 : Byte
  a24 : Byte
  a25 : Byte
  a26 : Byte
  a27 : Byte
  a28 : Byte

def L29.toList (l : L29) : Bytes :=
  [l.a0, l.a1, l.a2, l.a3, l.a4, l.a5, l.a6, l.a7, l.a8, l.a9, l.a10, l.a11, l.a12, l.a13, l.a14, l.a15, l.a16, l.a17, l.a18, l.a19, l.a20, l.a21, l.a22, l.a23, l.a24, l.a25, l.a26, l.a27, l.a28]

theorem list29 {s : Bytes} (h : s.length = 29) : ∃ l : L29, s = l.toList := by
  refine ⟨⟨s.getD 0 0, s.getD 1 0, s.getD 2 0, s.getD 3 0, s.getD 4 0, s.getD 5 0, s.getD 6 0, s.getD 7 0, s.getD 8 0, s.getD 9 0, s.getD 10 0, s.getD 11 0, s.getD 12 0, s.getD 13 0, s.getD 14 0, s.getD 15 0, s.getD 16 0, s.getD 17 0, s.getD 18 0, s.getD 19 0, s.getD 20 0, s.getD 21 0, s.getD 22 0, s.getD 23 0, s.getD 24 0, s.getD 25 0, s.getD 26 0, s.getD 27 0, s.getD 28 0⟩, ?_⟩
  apply List.ext_getElem
  · exact h
  · intro n h1 h2
    have e : L29.toList ⟨s.getD 0 0, s.getD 1 0, s.getD 2 0, s.getD 3 0, s.getD 4 0, s.getD 5 0, s.getD 6 0, s.getD 7 0, s.getD 8 0, s.getD 9 0, s.getD 10 0, s.getD 11 0, s.getD 12 0, s.getD 13 0, s.getD 14 0, s.getD 15 0, s.getD 16 0, s.getD 17 0, s.getD 18 0, s.getD 19 0, s.getD 20 0, s.getD 21 0, s.getD 22 0, s.getD 23 0, s.getD 24 0, s.getD 25 0, s.getD 26 0, s.getD 27 0, s.getD 28 0⟩ = (List.range 29).map (fun k => s.getD k 0) := rfl
    simp only [e, List.getElem_map, List.getElem_range]
    rw [List.getD_eq_getElem?_getD, List.getElem?_eq_getElem h1, Option.getD_some]

theorem digit_dig {a : Byte} (h : 48 ≤ a.toNat ∧ a.toNat ≤ 57) : ∃ d, d < 10 ∧ a = dig d := by
  refine ⟨a.toNat - 48, by omega, ?_⟩
  apply UInt8.toNat_inj.1
  unfold dig
  simp [UInt8.toNat_ofNat']; omega

theorem dig_congr {a b : Nat} (h : a % 10 = b % 10) : dig a = dig b := by unfold dig; rw [h]

theorem fromChars_two_inv {a b : Byte} (ha : 48 ≤ a.toNat ∧ a.toNat ≤ 57) (hb : 48 ≤ b.toNat ∧ b.toNat ≤ 57) {v : Int}
    (h : fromChars [a, b] = some v) : [a, b] = two v.toNat := by
  obtain ⟨x, hx, rfl⟩ := digit_dig ha
  obtain ⟨y, hy, rfl⟩ := digit_dig hb
  have e : [dig x, dig y] = two (10 * x + y) := by
    unfold two
    rw [dig_congr (show x % 10 = ((10 * x + y) / 10) % 10 by omega),
      dig_congr (show y % 10 = (10 * x + y) % 10 by omega)]
  rw [e, fromChars_two _ (by omega)] at h
  cases h
  rw [e]; rfl

theorem fromChars_four_inv {a b c d : Byte} (ha : 48 ≤ a.toNat ∧ a.toNat ≤ 57) (hb : 48 ≤ b.toNat ∧ b.toNat ≤ 57)
    (hc : 48 ≤ c.toNat ∧ c.toNat ≤ 57) (hd : 48 ≤ d.toNat ∧ d.toNat ≤ 57) {v : Int}
    (h : fromChars [a, b, c, d] = some v) : [a, b, c, d] = four v.toNat := by
  obtain ⟨x, hx, rfl⟩ := digit_dig ha
  obtain ⟨y, hy, rfl⟩ := digit_dig hb
  obtain ⟨z, hz, rfl⟩ := digit_dig hc
  obtain ⟨w, hw, rfl⟩ := digit_dig hd
  have e : [dig x, dig y, dig z, dig w] = four (1000 * x + 100 * y + 10 * z + w) := by
    unfold four
    rw [dig_congr (show x % 10 = ((1000 * x + 100 * y + 10 * z + w) / 1000) % 10 by omega),
      dig_congr (show y % 10 = ((1000 * x + 100 * y + 10 * z + w) / 100) % 10 by omega),
      dig_congr (show z % 10 = ((1000 * x + 100 * y + 10 * z + w) / 10) % 10 by omega),
      dig_congr (show w % 10 = (1000 * x + 100 * y + 10 * z + w) % 10 by omega)]
  rw [e, fromChars_four _ (by omega)] at h
  cases h
  rw [e]; rfl

/-! ## C59: nothing but a real date is read -/

/-- C59: whatever the input, a date that is read is an existing day (no 30 February) of the years 1-9999 at
an existing time of day, in the month the input names. -/
theorem C59_only_real_dates {f : Int → Civil} (hf : Calendar f) (s : Bytes) (t : Int)
    (h : parseHttpDate s = some t) :
    ∃ i : Instant, At f t i ∧ 1 ≤ i.date.year ∧ i.date.year ≤ 9999 ∧ ∃ pre post, s = pre ++ monthName i.date.month ++ post := by
  obtain rfl := calendar_eq hf
  have fin : ∀ (k y d hh m sec : Int) (p : Nat), p + 3 ≤ s.length → monthToNum (sub s p 3) = some k →
      makeTimePoint y k d hh m sec = some t → ∃ i : Instant, At civilOf t i ∧ 1 ≤ i.date.year ∧ i.date.year ≤ 9999 ∧
        ∃ pre post, s = pre ++ monthName i.date.month ++ post := by
    intro k y d hh m sec p hp hk hmk
    obtain ⟨i, a1, a2, a3, -, -, -, -, a8, a9⟩ := makeTimePoint_sound hmk
    have hlen : (sub s p 3).length = 3 := by unfold sub; simp; omega
    obtain ⟨k1, k2, k3⟩ := monthToNum_three hlen hk
    refine ⟨i, a1, by omega, by omega, s.take p, s.drop (p + 3), ?_⟩
    have : i.date.month = k.toNat + 1 := by omega
    rw [this, ← k3]
    unfold sub
    have e : s.drop (p + 3) = (s.drop p).drop 3 := by rw [List.drop_drop]
    rw [List.append_assoc, e, List.take_append_drop, List.take_append_drop]
  have f1 : parseRfc1123 s = some t → ∃ i : Instant, At civilOf t i ∧ 1 ≤ i.date.year ∧ i.date.year ≤ 9999 ∧
        ∃ pre post, s = pre ++ monthName i.date.month ++ post := by
    intro h
    unfold parseRfc1123 at h
    simp only [Option.bind_eq_bind, Option.bind_eq_some_iff, guard_some, Prod.exists] at h
    obtain ⟨_, hl, _, _, day, _, _, _, k, hk, _, _, y, _, _, _, hh, m, sec, _, _, _, hmk⟩ := h
    exact fin k y day hh m sec 8 (by omega) hk hmk
  have f2 : parseRfc850 s = some t → ∃ i : Instant, At civilOf t i ∧ 1 ≤ i.date.year ∧ i.date.year ≤ 9999 ∧
        ∃ pre post, s = pre ++ monthName i.date.month ++ post := by
    intro h
    unfold parseRfc850 at h
    simp only [Option.bind_eq_bind, Option.bind_eq_some_iff, guard_some, Prod.exists] at h
    obtain ⟨_, _, _, _, day, _, _, _, _, hl, k, hk, _, _, _, _, y, _, _, _, _, _, hh, m, sec, _, _, _, hmk⟩ := h
    exact fin k _ day hh m sec _ hl hk hmk
  have f3 : parseAsctime s = some t → ∃ i : Instant, At civilOf t i ∧ 1 ≤ i.date.year ∧ i.date.year ≤ 9999 ∧
        ∃ pre post, s = pre ++ monthName i.date.month ++ post := by
    intro h
    unfold parseAsctime at h
    simp only [Option.bind_eq_bind, Option.bind_eq_some_iff, guard_some, Prod.exists] at h
    obtain ⟨_, hl, k, hk, _, _, day, _, _, _, _, _, hh, m, sec, _, _, _, y, _, hmk⟩ := h
    exact fin k y day hh m sec 4 (by omega) hk hmk
  unfold parseHttpDate at h
  dsimp only at h
  split at h
  · rename_i t' h1
    cases h
    split at h1
    · exact f1 h1
    · cases h1
  · split at h
    · rename_i t' h1
      cases h
      split at h1
      · exact f2 h1
      · cases h1
    · exact f3 h

/-- A numeric field is written with digits only. -/
def IsDigit (c : Byte) : Prop := 48 ≤ c.toNat ∧ c.toNat ≤ 57

/-- C59, exactness for 29-octet inputs whose numeric fields are digits: such an input is read as `t` exactly
when it is the IMF-fixdate of `t` (with any three-letter day name). What is missing from the full claim
"only RFC dates are read": see C59_false_garbage. -/
theorem C59_imf_exact_partial {f : Int → Civil} (hf : Calendar f) (s : Bytes) (hl : s.length = 29) (hd : c!"-" ∉ s)
    (hdig : ∀ k ∈ [5, 6, 12, 13, 14, 15, 17, 18, 20, 21, 23, 24], ∀ c, s[k]? = some c → IsDigit c) (t : Int) :
    parseHttpDate s = some t ↔ ∃ wd i, wd.length = 3 ∧ c!"," ∉ wd ∧ At f t i ∧ 1 ≤ i.date.year ∧ i.date.year ≤ 9999 ∧
      s = imfFixdate wd i := by
  constructor
  · intro h
    obtain rfl := calendar_eq hf
    unfold parseHttpDate at h
    have has : parseAsctime s = none := by unfold parseAsctime; simp [hl, guard]
    by_cases hcm : c!"," ∈ s
    · simp only [hd, hcm, not_false_eq_true, and_self, if_true, if_false, has] at h
      have h : parseRfc1123 s = some t := by
        cases hp : parseRfc1123 s with
        | none => rw [hp] at h; cases h
        | some t' => rw [hp] at h; simpa using h
      unfold parseRfc1123 at h
      simp only [Option.bind_eq_bind, Option.bind_eq_some_iff, guard_some, Prod.exists] at h
      obtain ⟨_, _, _, ⟨h0, h4⟩, day, hday, _, h7, k, hk, _, h11, y, hy, _, h16, hh, m, sec, hc, _, h25, hmk⟩ := h
      obtain ⟨i, a1, a2, a3, a4, a5, a6, a7, a8, a9⟩ := makeTimePoint_sound hmk
      unfold clock at hc
      simp only [Option.bind_eq_bind, Option.bind_eq_some_iff, guard_some, Option.pure_def, Option.some.injEq,
        Prod.mk.injEq] at hc
      obtain ⟨hh', hhh, _, h19, m', hm, _, h22, sec', hsec, rfl, rfl, rfl⟩ := hc
      have hmn : (sub s 8 3).length = 3 := by unfold sub; simp; omega
      obtain ⟨k1, k2, k3⟩ := monthToNum_three hmn hk
      obtain ⟨l, rfl⟩ := list29 hl
      simp only [L29.toList, sub, List.drop_succ_cons, List.drop_zero, List.take_succ_cons, List.take_zero,
        List.getElem?_cons_succ, List.getElem?_cons_zero, Option.some.injEq] at *
      have D : ∀ a b : Byte, IsDigit a → IsDigit b → ∀ v : Int, fromChars [a, b] = some v → [a, b] = two v.toNat :=
        fun a b ha hb v hv => fromChars_two_inv ha hb hv
      refine ⟨[l.a0, l.a1, l.a2], i, rfl, ?_, a1, by omega, by omega, ?_⟩
      · intro hm
        have : ([l.a0, l.a1, l.a2] ++ c!"," :: [l.a4]).idxOf c!"," < 3 := by
          rw [List.idxOf_append, if_pos hm]; exact List.idxOf_lt_length_iff.2 hm
        have e := List.idxOf_append (l₁ := [l.a0, l.a1, l.a2]) (l₂ := [l.a3, l.a4, l.a5, l.a6, l.a7, l.a8, l.a9, l.a10,
          l.a11, l.a12, l.a13, l.a14, l.a15, l.a16, l.a17, l.a18, l.a19, l.a20, l.a21, l.a22, l.a23, l.a24, l.a25, l.a26,
          l.a27, l.a28]) (a := c!",")
        rw [if_pos hm] at e
        simp only [List.cons_append, List.nil_append] at e
        rw [h0] at e
        have := List.idxOf_lt_length_iff.2 hm
        simp only [List.length_cons, List.length_nil] at this
        omega
      · have g3 : l.a3 = c!"," := by
          have := List.getElem_idxOf (xs := [l.a0, l.a1, l.a2, l.a3, l.a4, l.a5, l.a6, l.a7, l.a8, l.a9, l.a10, l.a11, l.a12,
            l.a13, l.a14, l.a15, l.a16, l.a17, l.a18, l.a19, l.a20, l.a21, l.a22, l.a23, l.a24, l.a25, l.a26, l.a27, l.a28])
            (x := c!",") (List.idxOf_lt_length_iff.2 hcm)
          simp only [h0] at this
          simpa using this
        have dd : ∀ k ∈ [5, 6, 12, 13, 14, 15, 17, 18, 20, 21, 23, 24], ∀ c, _ := hdig
        simp only [List.mem_cons, List.not_mem_nil, or_false, forall_eq_or_imp, forall_eq, List.getElem?_cons_succ,
          List.getElem?_cons_zero, Option.some.injEq, forall_eq'] at dd
        obtain ⟨d5, d6, d12, d13, d14, d15, d17, d18, d20, d21, d23, d24⟩ := dd
        have q1 := D _ _ d5 d6 _ hday
        have q2 := D _ _ d17 d18 _ hhh
        have q3 := D _ _ d20 d21 _ hm
        have q4 := D _ _ d23 d24 _ hsec
        have q5 := fromChars_four_inv d12 d13 d14 d15 hy
        have r1 : day.toNat = i.date.day := by omega
        have r2 : hh'.toNat = i.hour := by omega
        have r3 : m'.toNat = i.min := by omega
        have r4 : sec'.toNat = i.sec := by omega
        have r5 : k.toNat + 1 = i.date.month := by omega
        rw [r1] at q1; rw [r2] at q2; rw [r3] at q3; rw [r4] at q4; rw [r5] at k3; rw [← a2] at q5
        unfold imfFixdate timeOfDay
        rw [← q1, ← q2, ← q3, ← q4, ← q5, ← k3]
        simp only [List.cons.injEq] at h25
        obtain ⟨z1, z2, z3, z4, -⟩ := h25
        simp only [List.cons_append, List.nil_append, g3, h4, h7, h11, h16, h19, h22, z1, z2, z3, z4]
    · simp only [hd, hcm, false_and, if_false, has] at h
      cases h
  · rintro ⟨wd, i, w1, w2, w3, w4, w5, rfl⟩
    refine C58_parses_imf_fixdate hf wd w1 w2 ?_ i t w3 w4 w5
    intro hm
    apply hd
    simp [imfFixdate, hm]

example : (b!"Sun, 06 Nov 1994 08:49:37 GMT").length = 29 ∧ c!"-" ∉ b!"Sun, 06 Nov 1994 08:49:37 GMT" := by
  decide +kernel

/-- C59, FALSE in full: the numeric fields are read with `std::from_chars` and what it leaves unread is
ignored, and the day name is not checked, so strings that are no HTTP date are read as dates. -/
theorem C59_false_garbage :
    parseHttpDate b!"Sun, 6x Nov 1994 08:49:37 GMT" = some 784111777 ∧
    parseHttpDate b!"Mon, 06 Nov 1994 8;:49:37 GMT" = some 784111777 ∧
    parseHttpDate b!"@@@, 06 Nov 1994 08:49:37 GMT" = some 784111777 ∧
    parseHttpDate b!"Sun Nov  6 08:49:37!1994" = some 784111777 := by decide +kernel

end Verif.Date
