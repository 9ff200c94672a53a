import Verif.Multi.Model
import Verif.Utility.Spec

/-! # Specification of multipart reading -/

namespace Verif.Multi
open Verif.Utility Verif.Utility.Spec Verif.Wire

/-- The delimiter of a boundary. -/
def delim (b : Bytes) : Bytes := b!"\r\n--" ++ b

/-- A boundary the parser accepts: 1 to 70 characters, none of them a control character. -/
def Boundary (b : Bytes) : Prop := b ≠ [] ∧ b.length ≤ 70 ∧ ∀ c ∈ b, 32 ≤ c.toNat ∧ c.toNat ≠ 127

/-- A character of a token. -/
def tok (c : UInt8) : Bool := b!"abcdefghijklmnopqrstuvwxyzABCDEFGHIJKLMNOPQRSTUVWXYZ0123456789!#$%&'*+-.^_`|~".contains c

/-! ## The reference reader

It reads one octet at a time, looks neither ahead nor behind, and reports single octets. -/

/-- Where the reader is: in the first delimiter line (what is left of it), at the start of a header line, in a name, after the colon, in
a value, after the CR of a header line, after the CR of the blank line, in the data of a part (the octets read that may belong to a
delimiter; whether a delimiter followed by CR and no LF was met), after the closing delimiter; or it has met an error, a header line
without a colon, an octet after the closing delimiter. -/
inductive St
  | first (left : Bytes) | line | name | colon | text | cr | blank | body (m : Bytes) (pb : Bool) | over
  | bad | stray | past
deriving DecidableEq

/-- An octet of data. -/
def bodyStep (B m : Bytes) (pb : Bool) (c : UInt8) : List Ev × St :=
  let again := if c = 13 then (m.map (fun x => Ev.data [x]), St.body [c] pb) else (m.map (fun x => Ev.data [x]) ++ [.data [c]], St.body [] pb)
  if m.length < B.length then
    if B.getD m.length 0 = c then ([], .body (m ++ [c]) pb) else again
  else if m.length = B.length then
    if c = 13 then ([], .body (m ++ [c]) true)
    else if c = c!"-" then ([], .body (m ++ [c]) pb)
    else again
  else if pb then
    if c = 10 then ([.partEnd, .partBegin], .line) else again
  else
    if c = c!"-" then ([.partEnd, .finish], .over) else again

/-- One octet. -/
def refStep (b : Bytes) (s : St) (c : UInt8) : List Ev × St :=
  match s with
  | .first [] => ([], .bad)
  | .first [x] => if c = x then ([.partBegin], .line) else ([], .bad)
  | .first (x :: r) => if c = x then ([], .first r) else ([], .bad)
  | .line => if c = 13 then ([], .blank) else if c = c!":" then ([], .bad) else if tok c then ([.field [c]], .name) else ([], .bad)
  | .name => if c = 13 then ([], .stray) else if c = c!":" then ([], .colon) else if tok c then ([.field [c]], .name) else ([], .bad)
  | .colon => if c = 32 then ([], .colon) else if c = 13 then ([.headerEnd], .cr) else ([.value [c]], .text)
  | .text => if c = 13 then ([.headerEnd], .cr) else ([.value [c]], .text)
  | .cr => if c = 10 then ([], .line) else ([], .bad)
  | .blank => if c = 10 then ([.headersEnd], .body [] false) else ([], .bad)
  | .body m pb => bodyStep (delim b) m pb c
  | .over => ([], .past)
  | .bad => ([], .bad)
  | .stray => ([], .stray)
  | .past => ([], .past)

/-- A text. -/
def refRun (b : Bytes) (s : St) : Bytes → List Ev × St
  | [] => ([], s)
  | c :: t => ((refStep b s c).1 ++ (refRun b (refStep b s c).2 t).1, (refRun b (refStep b s c).2 t).2)

/-- The first line of a message. -/
def firstLine (b : Bytes) : Bytes := b!"--" ++ b ++ b!"\r\n"

/-- The state before the first octet. -/
def St.init (b : Bytes) : St := .first (firstLine b)

/-- Events with their octets one by one. -/
def octets (l : List Ev) : List Ev :=
  l.flatMap (fun e => match e with
    | .field b => b.map (fun c => .field [c])
    | .value b => b.map (fun c => .value [c])
    | .data b => b.map (fun c => .data [c])
    | e => [e])

/-! ## Messages -/

/-- A header line and what it means. -/
inductive HLine : Bytes → Bytes × Bytes → Prop
  | mk {n v : Bytes} {k : Nat} : n ≠ [] → (∀ c ∈ n, tok c = true) → (∀ c ∈ v, c ≠ 13) → v.head? ≠ some 32 →
      HLine (n ++ c!":" :: (List.replicate k 32 ++ v) ++ b!"\r\n") (n, v)

/-- Header lines. -/
inductive HLines : Bytes → List (Bytes × Bytes) → Prop
  | nil : HLines [] []
  | cons {s h t l} : HLine s h → HLines t l → HLines (s ++ t) (h :: l)

/-- The text of a part: header lines, a blank line, data without the delimiter. -/
inductive PartText (b : Bytes) : Bytes → List (Bytes × Bytes) × Bytes → Prop
  | mk {s l d} : HLines s l → ¬ delim b <:+: d → PartText b (s ++ b!"\r\n" ++ d) (l, d)

/-- Parts separated by the delimiter, up to the closing delimiter and whatever follows it. -/
inductive PartsText (b : Bytes) : Bytes → List (List (Bytes × Bytes) × Bytes) → Prop
  | last {s p z} : PartText b s p → PartsText b (s ++ delim b ++ b!"--" ++ z) [p]
  | more {s p t l} : PartText b s p → PartsText b t l → PartsText b (s ++ delim b ++ b!"\r\n" ++ t) (p :: l)

/-- A multipart message (without a preamble). -/
def Message (b s : Bytes) (l : List (List (Bytes × Bytes) × Bytes)) : Prop := ∃ t, s = firstLine b ++ t ∧ PartsText b t l

/-- The values of the header lines with a name, letters compared without case. -/
def valuesOf (l : List (Bytes × Bytes)) (k : Bytes) : List Bytes := (l.filter (fun p => decide (p.1.map lower = k.map lower))).map (·.2)

/-- The part a user sees: the data, and under every name the values of its lines in order (for `Content-Type`, the first). -/
def Shows (p : List (Bytes × Bytes) × Bytes) (q : Part) : Prop :=
  q.body = p.2 ∧ ∀ k, (find q.headers k).getD [] =
    if k.map lower = (b!"Content-Type").map lower then (valuesOf p.1 k).take 1 else valuesOf p.1 k

/-- The limits on a message. -/
def Limits (l : List (List (Bytes × Bytes) × Bytes)) : Prop :=
  l.length ≤ 1000 ∧ (l.map (fun p => p.2.length)).sum ≤ 104857600 ∧ ∀ p ∈ l, ∀ h ∈ p.1, h.1.length ≤ 1024 ∧ h.2.length ≤ 8192

end Verif.Multi
