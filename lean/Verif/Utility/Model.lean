import Verif.Base

/-! Model of `src/qbm/http/utility.h` and `utility.cpp`. -/

namespace Verif.Utility

/-- `is_digit`, utility.h 102-105. -/
def isDigit (c : UInt8) : Bool := 48 ≤ c && c ≤ 57

/-- `is_hex_digit`, utility.h 113-116 (called with the unsigned value of the byte). -/
def isHexDigit (c : UInt8) : Bool :=
  (48 ≤ c && c ≤ 57) || (97 ≤ c && c ≤ 102) || (65 ≤ c && c ≤ 70)

/-- `hex_value`, utility.h 123-132. The comparisons are on (signed) `char`, but all ranges are
inside 0..127, where signed and unsigned order agree. -/
def hexValue (c : UInt8) : UInt8 :=
  if 48 ≤ c && c ≤ 57 then c - 48
  else if 97 ≤ c && c ≤ 102 then 10 + c - 97
  else if 65 ≤ c && c ≤ 70 then 10 + c - 65
  else 0

/-- `is_control`, utility.h 53-56, applied to the unsigned value of a byte. -/
def isControl (c : UInt8) : Bool := c ≤ 31 || c == 127

/-- `is_char`, utility.h 41-44, applied to the unsigned value of a byte. -/
def isChar (c : UInt8) : Bool := c ≤ 127

/-- `is_special`, utility.h 68-94. -/
def isSpecial (c : UInt8) : Bool :=
  (b!"()<>@,;:\\\"/[]?={} \t").contains c

/-- `decode_path_component`, utility.cpp 21-38. The index loop with `i += 2` on a complete escape
becomes recursion on the remaining input; `i + 2 < size` is the pattern with two more bytes. -/
def decodePath : Bytes → Bytes
  | [] => []
  | c :: rest =>
    match rest with
    | h :: l :: tl =>
      if c == c!"%" && isHexDigit h && isHexDigit l then
        ((hexValue h <<< 4) ||| hexValue l) :: decodePath tl
      else c :: decodePath (h :: l :: tl)
    | [h] => c :: decodePath [h]
    | [] => c :: decodePath []

/-- `ascii_to_lower`, utility.h 155-160: `u | (is_upper << 5)`. -/
def asciiToLower (u : UInt8) : UInt8 :=
  u ||| ((if u ≥ 65 && u ≤ 90 then (1 : UInt8) else 0) <<< 5)

/-- The loop body of `iequals`, utility.h 180-189, for one pair of bytes: `true` = go on. -/
def iequalsByte (x y : UInt8) : Bool :=
  if x == y then true
  else if (x ^^^ y) != 0x20 || (x ||| 0x20) < 97 || (x ||| 0x20) > 122 then false
  else true

/-- `iequals`, utility.h 173-192. -/
def iequals (a b : Bytes) : Bool :=
  if a.length != b.length then false
  else (a.zip b).all fun p => iequalsByte p.1 p.2

/-- `is_http_whitespace`, utility.h 201-204. -/
def isWs (c : UInt8) : Bool := c == 32 || c == 9

/-- `trim_http_whitespace`, utility.h 212-224: advance `start`, then retreat `end`. -/
def trimWs (s : Bytes) : Bytes :=
  (((s.dropWhile isWs).reverse).dropWhile isWs).reverse

/-- `std::string_view::find(char)` on the remaining view: the part before the first occurrence and
the part after it, or `none`. -/
def findChar (d : UInt8) : Bytes → Option (Bytes × Bytes)
  | [] => none
  | c :: rest =>
    if c == d then some ([], rest)
    else match findChar d rest with
      | some (p, q) => some (c :: p, q)
      | none => none

theorem findChar_length {d : UInt8} {s p q : Bytes} (h : findChar d s = some (p, q)) :
    q.length < s.length := by
  induction s generalizing p with
  | nil => simp [findChar] at h
  | cons c rest ih =>
    rw [findChar] at h
    split at h
    · simp at h; simp [h.2]
    · split at h
      · rename_i p' q' heq
        simp at h
        have := ih (p := p') (by rw [heq, h.2])
        simp; omega
      · simp at h

/-- `split_and_trim_header_list`, utility.cpp 40-59. -/
def splitAndTrim (s : Bytes) (d : UInt8) : List Bytes :=
  match _h : findChar d s with
  | some (tok, rest) =>
    let t := trimWs tok
    if t.isEmpty then splitAndTrim rest d else t :: splitAndTrim rest d
  | none =>
    let t := trimWs s
    if t.isEmpty then [] else [t]
termination_by s.length
decreasing_by all_goals exact findChar_length _h

/-- `escape_html`, utility.cpp 61-88: what one byte is replaced by. -/
def escapeHtmlByte (c : UInt8) : Bytes :=
  if c == c!"&" then b!"&amp;"
  else if c == c!"\"" then b!"&quot;"
  else if c == 39 then b!"&#39;"
  else if c == c!"<" then b!"&lt;"
  else if c == c!">" then b!"&gt;"
  else [c]

/-- `escape_html`, utility.cpp 61-88. -/
def escapeHtml (s : Bytes) : Bytes := s.flatMap escapeHtmlByte

/-- The unreserved test of `uri_encode_component`, utility.cpp 97. -/
def isUnreserved (c : UInt8) : Bool :=
  (c ≥ 65 && c ≤ 90) || (c ≥ 97 && c ≤ 122) || (c ≥ 48 && c ≤ 57) ||
    c == c!"-" || c == c!"_" || c == c!"." || c == c!"~"

/-- `hex_digits[n]`, utility.cpp 101. Only called with `n ≤ 15`. -/
def upperHexDigit (n : UInt8) : UInt8 :=
  (b!"0123456789ABCDEF").getD n.toNat 0

/-- One loop iteration of `uri_encode_component`, utility.cpp 95-106. -/
def uriEncodeByte (c : UInt8) : Bytes :=
  if isUnreserved c then [c]
  else [c!"%", upperHexDigit (c >>> 4), upperHexDigit (c &&& 0xF)]

/-- `uri_encode_component`, utility.cpp 90-108. -/
def uriEncode (s : Bytes) : Bytes := s.flatMap uriEncodeByte

/-- `std::find_if` on the remaining range: the part before the first byte satisfying the predicate
and, if there is one, the part after it. -/
def findIf (p : UInt8 → Bool) : Bytes → Bytes × Option Bytes
  | [] => ([], none)
  | c :: rest => if p c then ([], some rest) else
      let r := findIf p rest
      (c :: r.1, r.2)

theorem findIf_length {p : UInt8 → Bool} {s tok rest : Bytes}
    (h : findIf p s = (tok, some rest)) : rest.length < s.length := by
  induction s generalizing tok with
  | nil => simp [findIf] at h
  | cons c tl ih =>
    rw [findIf] at h
    split at h
    · simp at h; simp [h.2]
    · simp at h
      have := ih (tok := (findIf p tl).1) (by rw [← h.2])
      simp; omega

/-- `split_string` with a predicate, utility.h 315-350 (the reserve heuristic 319-334 has no
observable effect and is left out). -/
def splitIf (p : UInt8 → Bool) (s : Bytes) : List Bytes :=
  match s with
  | [] => []
  | c :: tl =>
    match _h : findIf p (c :: tl) with
    | (tok, none) => if tok.isEmpty then [] else [tok]
    | (tok, some rest) =>
      if tok.isEmpty then splitIf p rest else tok :: splitIf p rest
termination_by s.length
decreasing_by all_goals exact findIf_length _h

/-- `split_string` with a delimiter set, utility.h 258-293 (`find_first_of` = `find_if` with
membership in the delimiters). -/
def splitString (s delims : Bytes) : List Bytes := splitIf (fun c => delims.contains c) s

/-- `std::string_view::find(boundary)` on the remaining view: before and after the first
occurrence. Only used with a non-empty boundary. -/
def findSub (b : Bytes) : Bytes → Option (Bytes × Bytes)
  | [] => if b.isPrefixOf [] then some ([], []) else none
  | c :: rest =>
    if b.isPrefixOf (c :: rest) then some ([], (c :: rest).drop b.length)
    else match findSub b rest with
      | some (p, q) => some (c :: p, q)
      | none => none

theorem findSub_eq {b s p q : Bytes} (h : findSub b s = some (p, q)) : s = p ++ b ++ q := by
  induction s generalizing p with
  | nil =>
    rw [findSub] at h
    split at h
    · rename_i hp
      cases b <;> simp_all
    · simp at h
  | cons c rest ih =>
    rw [findSub] at h
    split at h
    · rename_i hp
      rw [List.isPrefixOf_iff_prefix] at hp
      obtain ⟨t, ht⟩ := hp
      simp at h
      obtain ⟨rfl, rfl⟩ := h
      rw [← ht]; simp
    · split at h
      · rename_i p' q' heq
        simp at h
        obtain ⟨rfl, rfl⟩ := h
        have := ih heq
        simp at this ⊢; exact this
      · simp at h

/-- `split_string_by`, utility.h 376-438 (without the reserve heuristic 380-391). -/
def splitBy (s b : Bytes) : List Bytes :=
  if _hb : b = [] then (if s.isEmpty then [] else [s])
  else
    match _h : findSub b s with
    | none => [s]
    | some (p, q) => p :: splitBy q b
termination_by s.length
decreasing_by
  have := findSub_eq _h
  subst this
  have : 0 < b.length := List.length_pos_iff.2 _hb
  simp; omega

/-- `join`, utility.h 574-606. -/
def join (parts : List Bytes) (d : Bytes) : Bytes :=
  match parts with
  | [] => []
  | p :: ps => ps.foldl (fun acc x => acc ++ d ++ x) p

/-- `split_view` iteration, utility.h 461-562: the sequence of views produced by
`begin()`..`end()`; `advance()` 520-536. -/
def splitView (s : Bytes) (d : UInt8) : List Bytes :=
  match _h : findChar d s with
  | none => [s]
  | some (p, q) => p :: splitView q d
termination_by s.length
decreasing_by exact findChar_length _h

end Verif.Utility
