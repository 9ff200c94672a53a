import Verif.Date.Spec

/-! The exact language `parse_http_date` reads: the three RFC 9110 formats with "loose" numbers. -/

namespace Verif.Date
open Verif

/-- An ASCII digit. -/
def Digit (c : Byte) : Prop := 48 ≤ c.toNat ∧ c.toNat ≤ 57

/-- The number written by a list of digits. -/
def decimal (ds : Bytes) : Nat := ds.foldl (fun a c => 10 * a + (c.toNat - 48)) 0

/-- A loosely written number: perhaps a minus sign, digits (at least one), then anything that does not
continue the digits. -/
def Num (s : Bytes) (v : Int) : Prop :=
  ∃ (neg : Bool) (ds junk : Bytes), s = (if neg then b!"-" else []) ++ ds ++ junk ∧ ds ≠ [] ∧ (∀ c ∈ ds, Digit c) ∧
    (∀ c ∈ junk.head?, ¬ Digit c) ∧ v = if neg then -(decimal ds : Int) else decimal ds

/-- `s` reads as the instant `i`, loosely, in one of the three formats. -/
def Loose (s : Bytes) (i : Instant) : Prop :=
  ∃ wd D Y H M S : Bytes, D.length = 2 ∧ H.length = 2 ∧ M.length = 2 ∧ S.length = 2 ∧
    Num H i.hour ∧ Num M i.min ∧ Num S i.sec ∧
    ((wd.length = 3 ∧ c!"," ∉ wd ∧ c!"-" ∉ s ∧ Y.length = 4 ∧ Num D i.date.day ∧ Num Y i.date.year ∧
      s = wd ++ b!", " ++ D ++ b!" " ++ monthName i.date.month ++ b!" " ++ Y ++ b!" " ++ H ++ b!":" ++ M ++ b!":" ++
        S ++ b!" GMT") ∨
     (c!"," ∉ wd ∧ Y.length = 2 ∧ Num D i.date.day ∧
      (∃ y, Num Y y ∧ i.date.year = if y < 70 then y + 2000 else y + 1900) ∧
      s = wd ++ b!", " ++ D ++ b!"-" ++ monthName i.date.month ++ b!"-" ++ Y ++ b!" " ++ H ++ b!":" ++ M ++ b!":" ++
        S ++ b!" GMT") ∨
     (wd.length = 3 ∧ Y.length = 4 ∧ Num Y i.date.year ∧
      (∃ ds, (∀ c ∈ ds, Digit c) ∧ decimal ds = i.date.day ∧ (D = ds ∨ D = c!" " :: ds)) ∧
      ∃ sep : Byte, s = wd ++ b!" " ++ monthName i.date.month ++ b!" " ++ D ++ b!" " ++ H ++ b!":" ++ M ++ b!":" ++
        S ++ [sep] ++ Y))

end Verif.Date
