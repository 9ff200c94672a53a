import Verif.Valid.Json

/-! Model of the sanitizers, `validation/sanitizer.cpp`. -/

namespace Verif.Valid

/-- `ascii_is_space`, 24-27. -/
def isSpace (c : Byte) : Bool := c == 32 || c == 9 || c == 10 || c == 13 || c == 12 || c == 11

/-- `ascii_is_alnum`, 29-32. -/
def isAlnum (c : Byte) : Bool := (65 ≤ c && c ≤ 90) || (97 ≤ c && c ≤ 122) || (48 ≤ c && c ≤ 57)

/-- `trim`, 136-149: from the first byte that is not white space to the last. -/
def trim (s : Bytes) : Bytes :=
  let t := s.dropWhile isSpace
  if t = [] then [] else (t.reverse.dropWhile isSpace).reverse

/-- `to_lower_case`, 151-158, with `utility::ascii_to_lower`. -/
def toLower (s : Bytes) : Bytes := s.map fun c => if 65 ≤ c ∧ c ≤ 90 then c + 32 else c

/-- `to_upper_case`, 160-167, with `ascii_to_upper`, 34-37. -/
def toUpper (s : Bytes) : Bytes := s.map fun c => if 97 ≤ c ∧ c ≤ 122 then c - 32 else c

/-- The text one byte becomes in `escape_html`, 175-194. -/
def escapeByte (c : Byte) : Bytes :=
  if c = c!"&" then b!"&amp;"
  else if c = c!"<" then b!"&lt;"
  else if c = c!">" then b!"&gt;"
  else if c = 34 then b!"&quot;"
  else if c = 39 then b!"&#39;"
  else [c]

/-- `escape_html`, 169-198. -/
def escapeHtml (s : Bytes) : Bytes := s.flatMap escapeByte

/-- The states of `strip_html_tags`; `TAG_NAME` and `IN_TAG` are treated alike; the inner loop over a quoted
attribute, 250-258, is a state here. -/
inductive TagState where
  | text | tagStart | inTag | quoted (q : Byte) | comment | commentEnd
  deriving DecidableEq, Repr

/-- The loop of `strip_html_tags`, 217-283; what is left of the input at the end is dropped, 285-305. -/
def strip : TagState → Bytes → Bytes
  | _, [] => []
  | .text, c :: cs => if c = c!"<" then strip .tagStart cs else c :: strip .text cs
  | .tagStart, 33 :: 45 :: 45 :: cs => strip .comment cs
  | .tagStart, c :: cs =>
    if c = c!"!" ∨ c = c!"/" ∨ isAlnum c = true then strip .inTag cs
    else c!"<" :: c :: strip .text cs
  | .inTag, c :: cs =>
    if c = 34 ∨ c = 39 then strip (.quoted c) cs
    else if c = c!">" then strip .text cs
    else strip .inTag cs
  | .quoted q, c :: cs => if c = q then strip .inTag cs else strip (.quoted q) cs
  | .comment, 45 :: 45 :: cs => strip .commentEnd cs
  | .comment, _ :: cs => strip .comment cs
  | .commentEnd, c :: cs =>
    if c = c!">" then strip .text cs
    else if c ≠ 45 then strip .comment cs
    else strip .commentEnd cs

/-- `strip_html_tags`, 200-307. -/
def stripHtmlTags (s : Bytes) : Bytes := strip .text s

/-- `alphanumeric_only`, 309-321. -/
def alphanumericOnly (s : Bytes) : Bytes := s.filter isAlnum

/-- The loop of `normalize_whitespace`, 332-343. -/
def squeeze : Bool → Bytes → Bytes
  | _, [] => []
  | last, c :: cs => if isSpace c then (if last then squeeze true cs else 32 :: squeeze true cs) else c :: squeeze false cs

/-- `normalize_whitespace`, 323-348. -/
def normalizeWhitespace (s : Bytes) : Bytes :=
  let t := trim s
  if t = [] then [] else squeeze false t

/-- `escape_sql_like`, 350-380: the two loops. -/
def escapeSqlLike (s : Bytes) : Bytes :=
  let wild := s.flatMap fun c => if c = c!"%" ∨ c = c!"_" then [92, c] else [c]
  wild.flatMap fun c => if c = 39 then [39, 39] else [c]

/-! ### Paths -/

/-- `split_path_for_sanitizer`, 47-75: the loop, given the part so far and whether it is in brackets. -/
def splitLoop : Bytes → Bool → Bytes → List Bytes
  | cur, _, [] => if cur = [] then [] else [cur]
  | cur, inB, c :: cs =>
    let out := if cur = [] then [] else [cur]
    if c = c!"." ∧ inB = false then out ++ splitLoop [] inB cs
    else if c = c!"[" then out ++ splitLoop [] true cs
    else if c = c!"]" ∧ inB = true then out ++ splitLoop [] false cs
    else splitLoop (cur ++ [c]) inB cs

def splitPath (p : Bytes) : List Bytes := splitLoop [] false p

/-- `apply_sanitizers_to_node`, 77-89; `f` runs all the functions of the rule. -/
def applyNode (f : Bytes → Bytes) : Json → Json
  | .str s => .str (f s)
  | v => v

/-- Change the member `key` of an object. -/
def setMember (key : Bytes) (g : Json → Json) : List (Bytes × Json) → List (Bytes × Json)
  | [] => []
  | (k, x) :: m => if k = key then (k, g x) :: m else (k, x) :: setMember key g m

/-- Change the item at `i` of an array. -/
def setItem (g : Json → Json) : Nat → List Json → List Json
  | _, [] => []
  | 0, x :: xs => g x :: xs
  | i + 1, x :: xs => x :: setItem g i xs

/-- `traverse_and_apply`, 91-121; `num` is `qb::to_number_prefix<size_t>`. -/
def traverse (num : Bytes → Option Nat) (f : Bytes → Bytes) : List Bytes → Json → Json
  | [], v => applyNode f v
  | seg :: segs, .obj m => .obj (setMember seg (traverse num f segs) m)
  | seg :: segs, .arr xs =>
    if seg = b!"*" then .arr (xs.map (traverse num f segs))
    else match num seg with
      | some i => .arr (setItem (traverse num f segs) i xs)
      | none => .arr xs
  | _ :: _, v => v

/-- `sanitize`, 123-133: the rules in the order of iteration of the map. -/
def sanitize (num : Bytes → Option Nat) : List (Bytes × List (Bytes → Bytes)) → Json → Json
  | [], v => v
  | (path, fs) :: rules, v =>
    let v := if fs = [] ∨ splitPath path = [] then v else traverse num (fun s => fs.foldl (fun s f => f s) s) (splitPath path) v
    sanitize num rules v

end Verif.Valid
