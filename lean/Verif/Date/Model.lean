import Verif.Base

/-! Model of `src/qbm/http/date.cpp` (HTTP dates).

`qb::safe_timegm` and `qb::safe_gmtime` (qb library, thin wrappers of POSIX `timegm`/`gmtime_r`, not in
/repo) are modelled by the proleptic Gregorian formulas below; Theorems.lean proves that these formulas
are the calendar (day after day, starting at 1970-01-01). A `time_point` is a number of nanoseconds. -/

namespace Verif.Date
open Verif

/-- `struct tm`, the fields date.cpp uses. `year` is the full year (`tm_year + 1900`), `mon` is 0-based. -/
structure Tm where
  year : Int
  mon : Int
  mday : Int
  hour : Int
  min : Int
  sec : Int
  wday : Int
deriving DecidableEq, Repr

/-- Gregorian leap year (used by `timegm`/`gmtime`, not in /repo). -/
def isLeap (y : Int) : Bool := y % 4 == 0 && (y % 100 != 0 || y % 400 == 0)

/-- Days from 0001-01-01 to January 1st of year `y` (not in /repo). -/
def daysBeforeYear (y : Int) : Int := 365 * (y - 1) + (y - 1) / 4 - (y - 1) / 100 + (y - 1) / 400

/-- Days from January 1st to the first of (0-based) month `m` (not in /repo). -/
def daysBeforeMonth (leap : Bool) (m : Int) : Int :=
  let l : Int := if leap then 1 else 0
  if m = 0 then 0 else if m = 1 then 31 else if m = 2 then 59 + l else if m = 3 then 90 + l
  else if m = 4 then 120 + l else if m = 5 then 151 + l else if m = 6 then 181 + l
  else if m = 7 then 212 + l else if m = 8 then 243 + l else if m = 9 then 273 + l
  else if m = 10 then 304 + l else 334 + l

/-- `qb::safe_timegm`, called at date.cpp 100 with every field in range. 719162 is the number of days from
0001-01-01 to 1970-01-01. -/
def timegm (year mon mday hour min sec : Int) : Int :=
  (daysBeforeYear year + daysBeforeMonth (isLeap year) mon + (mday - 1) - 719162) * 86400
    + hour * 3600 + min * 60 + sec

/-- The year containing day `n` (counted from 0001-01-01); part of `qb::safe_gmtime`. -/
def yearOfDay (n : Int) : Int :=
  let a := n / 146097
  let r := n % 146097
  let b := min (r / 36524) 3
  let r := r - 36524 * b
  let c := r / 1461
  let r := r % 1461
  let d := min (r / 365) 3
  400 * a + 100 * b + 4 * c + d + 1

/-- The month containing day-of-year `k` (0-based); part of `qb::safe_gmtime`. -/
def monthOfDay (leap : Bool) (k : Int) : Int :=
  if k < daysBeforeMonth leap 1 then 0 else if k < daysBeforeMonth leap 2 then 1
  else if k < daysBeforeMonth leap 3 then 2 else if k < daysBeforeMonth leap 4 then 3
  else if k < daysBeforeMonth leap 5 then 4 else if k < daysBeforeMonth leap 6 then 5
  else if k < daysBeforeMonth leap 7 then 6 else if k < daysBeforeMonth leap 8 then 7
  else if k < daysBeforeMonth leap 9 then 8 else if k < daysBeforeMonth leap 10 then 9
  else if k < daysBeforeMonth leap 11 then 10 else 11

/-- `qb::safe_gmtime`, called at date.cpp 103 and 125 (its failure for years beyond `int` is not
modelled: 64-bit nanosecond time points stay within the years 1677-2262). -/
def gmtime (t : Int) : Tm :=
  let n := t / 86400 + 719162
  let s := t % 86400
  let y := yearOfDay n
  let k := n - daysBeforeYear y
  let m := monthOfDay (isLeap y) k
  { year := y, mon := m, mday := k - daysBeforeMonth (isLeap y) m + 1
    hour := s / 3600, min := s % 3600 / 60, sec := s % 60, wday := (t / 86400 + 4) % 7 }

/-- `MONTH_NAMES`, date.cpp 28. -/
def MONTHS : List Bytes :=
  [b!"Jan", b!"Feb", b!"Mar", b!"Apr", b!"May", b!"Jun", b!"Jul", b!"Aug", b!"Sep", b!"Oct", b!"Nov", b!"Dec"]

/-- `MONTH_NAMES_LONG`, date.cpp 30-31. -/
def MONTHS_LONG : List Bytes :=
  [b!"January", b!"February", b!"March", b!"April", b!"May", b!"June", b!"July", b!"August", b!"September",
   b!"October", b!"November", b!"December"]

/-- `DAY_NAMES`, date.cpp 33. -/
def DAYS : List Bytes := [b!"Sun", b!"Mon", b!"Tue", b!"Wed", b!"Thu", b!"Fri", b!"Sat"]

/-- `month_to_num`, date.cpp 44-60 (`none` for -1, which every caller rejects). -/
def monthToNum (s : Bytes) : Option Int :=
  if MONTHS.idxOf s < 12 then some (MONTHS.idxOf s)
  else if MONTHS_LONG.idxOf s < 12 then some (MONTHS_LONG.idxOf s)
  else none

/-- `make_time_point_utc`, date.cpp 72-113; seconds since the epoch. -/
def makeTimePoint (year month day hour minute second : Int) : Option Int :=
  if year < 1 ∨ year > 9999 ∨ month < 0 ∨ month > 11 ∨ day < 1 ∨ day > 31 ∨ hour < 0 ∨ hour > 23 ∨
      minute < 0 ∨ minute > 59 ∨ second < 0 ∨ second > 59 then none
  else
    let t := timegm year month day hour minute second
    let n := gmtime t
    if n.year ≠ year ∨ n.mon ≠ month ∨ n.mday ≠ day ∨ n.hour ≠ hour ∨ n.min ≠ minute ∨ n.sec ≠ second then none
    else some t

/-- Decimal digits of a natural number: `std::ostream << int` for non-negative values. -/
def decNat (n : Nat) : Bytes :=
  if n < 10 then [UInt8.ofNat (48 + n)] else decNat (n / 10) ++ [UInt8.ofNat (48 + n % 10)]

/-- `std::ostream << int`. -/
def dec (i : Int) : Bytes := if i < 0 then c!"-" :: decNat i.natAbs else decNat i.natAbs

/-- `(x < 10 ? "0" : "") << x`, date.cpp 129-131. -/
def dec2 (i : Int) : Bytes := (if i < 10 then b!"0" else []) ++ dec i

/-- `std::chrono::system_clock::to_time_t` (libstdc++): `duration_cast` to seconds, toward zero. -/
def toTimeT (ns : Int) : Int := Int.tdiv ns 1000000000

/-- `format_http_date`, date.cpp 120-135. -/
def formatHttpDate (ns : Int) : Bytes :=
  let t := gmtime (toTimeT ns)
  DAYS.getD t.wday.toNat [] ++ b!", " ++ dec2 t.mday ++ b!" " ++ MONTHS.getD t.mon.toNat [] ++ b!" " ++
    dec t.year ++ b!" " ++ dec2 t.hour ++ b!":" ++ dec2 t.min ++ b!":" ++ dec2 t.sec ++ b!" " ++ b!"GMT"

/-- `c - '0'` when `c` is a digit. -/
def digit? (c : Byte) : Option Nat := if 48 ≤ c.toNat ∧ c.toNat ≤ 57 then some (c.toNat - 48) else none

/-- The longest run of leading digits, accumulated onto `acc`. -/
def digitsVal : Bytes → Nat → Nat
  | [], acc => acc
  | c :: rest, acc =>
    match digit? c with
    | some d => digitsVal rest (acc * 10 + d)
    | none => acc

/-- `std::from_chars(first, last, int&)` with the default base: an optional `-`, then as many digits as
there are; anything after them is ignored (the callers do not look at `ptr`). At most 4 characters are
given, so the value always fits. -/
def fromChars (s : Bytes) : Option Int :=
  match s with
  | [] => none
  | c :: rest =>
    if c = c!"-" then
      match rest with
      | [] => none
      | d :: _ => if (digit? d).isSome then some (-(digitsVal rest 0 : Int)) else none
    else if (digit? c).isSome then some (digitsVal (c :: rest) 0 : Int) else none

/-- `str.substr(pos, n)` / the range `[data + pos, data + pos + n)`. -/
def sub (s : Bytes) (pos n : Nat) : Bytes := (s.drop pos).take n

/-- The `hh:mm:ss` part at `pos`, date.cpp 203-213 = 278-288 = 343-353. -/
def clock (s : Bytes) (pos : Nat) : Option (Int × Int × Int) := do
  let h ← fromChars (sub s pos 2)
  guard (s[pos + 2]? = some c!":")
  let m ← fromChars (sub s (pos + 3) 2)
  guard (s[pos + 5]? = some c!":")
  let sec ← fromChars (sub s (pos + 6) 2)
  return (h, m, sec)

/-- `parse_rfc1123_date`, date.cpp 153-220. With size 29 none of the `pos + k > size` tests can fire. -/
def parseRfc1123 (s : Bytes) : Option Int := do
  guard (s.length = 29)
  guard (s.idxOf c!"," = 3 ∧ s[4]? = some c!" ")
  let day ← fromChars (sub s 5 2)
  guard (s[7]? = some c!" ")
  let month ← monthToNum (sub s 8 3)
  guard (s[11]? = some c!" ")
  let year ← fromChars (sub s 12 4)
  guard (s[16]? = some c!" ")
  let (h, m, sec) ← clock s 17
  guard (sub s 25 4 = b!" GMT")
  makeTimePoint year month day h m sec

/-- `parse_rfc850_date`, date.cpp 227-295. -/
def parseRfc850 (s : Bytes) : Option Int := do
  let p := s.idxOf c!","
  guard (p < s.length ∧ p + 1 < s.length ∧ s[p + 1]? = some c!" ")
  let p := p + 2
  guard (p < s.length ∧ p + 2 ≤ s.length)
  let day ← fromChars (sub s p 2)
  guard (p + 2 < s.length ∧ s[p + 2]? = some c!"-")
  let p := p + 3
  guard (p + 3 ≤ s.length)
  let month ← monthToNum (sub s p 3)
  guard (p + 3 < s.length ∧ s[p + 3]? = some c!"-")
  let p := p + 4
  guard (p + 2 ≤ s.length)
  let y ← fromChars (sub s p 2)
  let year := if y < 70 then y + 2000 else y + 1900
  guard (p + 2 < s.length ∧ s[p + 2]? = some c!" ")
  let p := p + 3
  guard (p + 8 ≤ s.length)
  let (h, m, sec) ← clock s p
  let p := p + 8
  guard (p + 4 = s.length ∧ sub s p 4 = b!" GMT")
  makeTimePoint year month day h m sec

/-- The number of leading digits (the `while` of date.cpp 325-328). -/
def digitRun : Bytes → Nat
  | [] => 0
  | c :: rest => if (digit? c).isSome then digitRun rest + 1 else 0

/-- `parse_asctime_date`, date.cpp 302-365. -/
def parseAsctime (s : Bytes) : Option Int := do
  guard (s.length = 24 ∧ s[3]? = some c!" " ∧ s[7]? = some c!" ")
  let month ← monthToNum (sub s 4 3)
  let p := if s[8]? = some c!" " then 9 else 8
  let n := digitRun (s.drop p)
  guard (n ≠ 0 ∧ n ≤ 2)
  let day ← fromChars (sub s p n)
  guard (p + n < s.length ∧ s[p + n]? = some c!" ")
  let p := p + (n + 1)
  guard (p + 8 ≤ s.length)
  let (h, m, sec) ← clock s p
  let p := p + 9
  guard (p + 4 = s.length)
  let year ← fromChars (sub s p 4)
  makeTimePoint year month day h m sec

/-- `parse_http_date`, date.cpp 372-400; seconds since the epoch (also `parse_cookie_date`, 417-423). -/
def parseHttpDate (s : Bytes) : Option Int :=
  let r1 := if c!"," ∈ s ∧ c!"-" ∉ s then parseRfc1123 s else none
  match r1 with
  | some t => some t
  | none =>
    let r2 := if c!"-" ∈ s then parseRfc850 s else none
    match r2 with
    | some t => some t
    | none => parseAsctime s

end Verif.Date
