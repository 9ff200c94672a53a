import Verif.Base

/-! What an HTTP date means, independently of the formulas in Model.lean: the calendar is defined by its
day-to-day rule, the three date formats by the grammar of RFC 9110 §5.6.7. -/

namespace Verif.Date
open Verif

/-- A civil date. `month` is 1-based. -/
structure Civil where
  year : Int
  month : Nat
  day : Nat
deriving DecidableEq, Repr

def leapYear (y : Int) : Prop := 4 ∣ y ∧ (¬ 100 ∣ y ∨ 400 ∣ y)

instance (y : Int) : Decidable (leapYear y) := by unfold leapYear; infer_instance

/-- Thirty days hath September… -/
def monthLength (y : Int) (m : Nat) : Nat :=
  if m = 4 ∨ m = 6 ∨ m = 9 ∨ m = 11 then 30
  else if m = 2 then (if leapYear y then 29 else 28)
  else 31

/-- The day after. -/
def Civil.next (c : Civil) : Civil :=
  if c.day < monthLength c.year c.month then { c with day := c.day + 1 }
  else if c.month < 12 then { c with month := c.month + 1, day := 1 }
  else { year := c.year + 1, month := 1, day := 1 }

/-- A day of the calendar. -/
def Civil.valid (c : Civil) : Prop := 1 ≤ c.month ∧ c.month ≤ 12 ∧ 1 ≤ c.day ∧ c.day ≤ monthLength c.year c.month

/-- `Calendar f`: `f` numbers the days from 1970-01-01 by the day-to-day rule, in both directions.
(Theorems.lean proves that there is exactly one such `f`.) -/
structure Calendar (f : Int → Civil) : Prop where
  epoch : f 0 = ⟨1970, 1, 1⟩
  valid : ∀ n, (f n).valid
  next : ∀ n, f (n + 1) = (f n).next

/-- A date and time of day, to the second, UTC. -/
structure Instant where
  date : Civil
  hour : Nat
  min : Nat
  sec : Nat
deriving DecidableEq, Repr

/-- `t` seconds after the epoch is the instant `i`, by the calendar `f`. -/
def At (f : Int → Civil) (t : Int) (i : Instant) : Prop :=
  ∃ n : Int, f n = i.date ∧ i.hour < 24 ∧ i.min < 60 ∧ i.sec < 60 ∧
    t = n * 86400 + i.hour * 3600 + i.min * 60 + i.sec

/-- One decimal digit. -/
def dig (n : Nat) : Byte := UInt8.ofNat (48 + n % 10)

/-- Two and four decimal digits. -/
def two (n : Nat) : Bytes := [dig (n / 10), dig n]
def four (n : Nat) : Bytes := [dig (n / 1000), dig (n / 100), dig (n / 10), dig n]

/-- Month names, 1-based. -/
def monthName (m : Nat) : Bytes :=
  [[], b!"Jan", b!"Feb", b!"Mar", b!"Apr", b!"May", b!"Jun", b!"Jul", b!"Aug", b!"Sep", b!"Oct", b!"Nov",
   b!"Dec"].getD m []

/-- Names of the days of the week; 1970-01-01 was a Thursday. -/
def dayName (k : Nat) : Bytes :=
  [b!"Thu", b!"Fri", b!"Sat", b!"Sun", b!"Mon", b!"Tue", b!"Wed"].getD k []

/-- `time-of-day = hour ":" minute ":" second`. -/
def timeOfDay (i : Instant) : Bytes := two i.hour ++ b!":" ++ two i.min ++ b!":" ++ two i.sec

/-- `IMF-fixdate`, with the given day name: `Sun, 06 Nov 1994 08:49:37 GMT`. -/
def imfFixdate (wd : Bytes) (i : Instant) : Bytes :=
  wd ++ b!", " ++ two i.date.day ++ b!" " ++ monthName i.date.month ++ b!" " ++ four i.date.year.toNat ++ b!" " ++
    timeOfDay i ++ b!" GMT"

/-- `rfc850-date`, with the given day name: `Sunday, 06-Nov-94 08:49:37 GMT`. -/
def rfc850 (wd : Bytes) (i : Instant) : Bytes :=
  wd ++ b!", " ++ two i.date.day ++ b!"-" ++ monthName i.date.month ++ b!"-" ++ two (i.date.year.toNat % 100) ++
    b!" " ++ timeOfDay i ++ b!" GMT"

/-- `asctime-date`, with the given day name: `Sun Nov  6 08:49:37 1994`. -/
def asctime (wd : Bytes) (i : Instant) : Bytes :=
  wd ++ b!" " ++ monthName i.date.month ++ b!" " ++
    (if i.date.day < 10 then [c!" ", dig i.date.day] else two i.date.day) ++ b!" " ++ timeOfDay i ++ b!" " ++
    four i.date.year.toNat

end Verif.Date
