import Verif.Parse.Model
import Verif.Utility.Extra

/-! # Requests and responses as the middlewares see them

The header map is the one of `Verif.Wire.Model` / `Verif.Parse.Model` (`find`, `header`, `setHeader`, `push` =
`add_header`), headers.h 302-446. -/

namespace Verif.Mid
open Verif.Utility Verif.Wire Verif.Parse

/-- `remove_header`, headers.h 415-424. -/
def removeHeader (h : Headers) (k : Bytes) : Headers := h.filter (fun e => !iequals e.1 k)

theorem find_nil (n : Bytes) : find [] n = none := rfl

theorem find_cons (e : Bytes × List Bytes) (h : Headers) (n : Bytes) :
    find (e :: h) n = if iequals e.1 n then some e.2 else find h n := by
  unfold find
  rw [List.find?_cons]
  cases iequals e.1 n <;> simp

theorem find_setHeader (h : Headers) (k v n : Bytes) :
    find (setHeader h k v) n = if iequals k n then some [v] else find h n := by
  induction h with
  | nil => simp [setHeader, find_cons, find_nil]
  | cons e h ih =>
    by_cases he : iequals e.1 k = true
    · simp only [setHeader, if_pos he, find_cons]
      rw [iequals_congr he n]
      by_cases hk : iequals k n = true
      · simp [hk]
      · simp [hk]
    · simp only [setHeader, if_neg he, find_cons]
      by_cases hen : iequals e.1 n = true
      · rw [if_pos hen, if_neg, if_pos hen]
        intro hk
        apply he
        rw [iequals_comm] at hk
        rw [iequals_congr hen k]; exact hk
      · simp [if_neg hen, ih]

theorem find_push (h : Headers) (k v n : Bytes) :
    find (push h k v) n = if iequals k n then some ((find h n).getD [] ++ [v]) else find h n := by
  induction h with
  | nil => simp [push, find_cons, find_nil]
  | cons e h ih =>
    by_cases he : iequals e.1 k = true
    · simp only [push, if_pos he, find_cons]
      rw [iequals_congr he n]
      by_cases hk : iequals k n = true
      · simp [hk]
      · simp [hk]
    · simp only [push, if_neg he, find_cons]
      by_cases hen : iequals e.1 n = true
      · rw [if_pos hen, if_neg, if_pos hen]
        intro hk
        apply he
        rw [iequals_comm] at hk
        rw [iequals_congr hen k]; exact hk
      · simp [if_neg hen, ih]

theorem find_removeHeader (h : Headers) (k n : Bytes) :
    find (removeHeader h k) n = if iequals k n then none else find h n := by
  induction h with
  | nil => simp [removeHeader, find_nil]
  | cons e h ih =>
    unfold removeHeader at ih ⊢
    by_cases he : iequals e.1 k = true
    · simp only [List.filter_cons, he, Bool.not_true, Bool.false_eq_true, if_false, ih, find_cons]
      rw [iequals_congr he n]
      by_cases hk : iequals k n = true <;> simp [hk]
    · simp only [List.filter_cons, he, Bool.not_false, if_true, find_cons, ih]
      by_cases hen : iequals e.1 n = true
      · rw [if_pos hen, if_neg, if_pos hen]
        intro hk
        apply he
        rw [iequals_comm] at hk
        rw [iequals_congr hen k]; exact hk
      · simp [if_neg hen]

end Verif.Mid
