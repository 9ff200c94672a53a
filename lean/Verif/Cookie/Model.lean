import Verif.Utility.Model
import Verif.Date.Model

/-! Model of `src/qbm/http/cookie.h` and `cookie.cpp`.

Time points are nanoseconds since the epoch (`std::chrono::system_clock`), as in `Verif.Date`.
`qb::to_number<int>` belongs to the qb framework, not to this repository: it is a parameter of the
model (`toInt`), about which theorems assume only what they state. -/

namespace Verif.Cookie
open Utility

/-- `is_cookie_name_char`, cookie.cpp 28-32. -/
def isNameChar (c : UInt8) : Bool :=
  (c ≥ 65 && c ≤ 90) || (c ≥ 97 && c ≤ 122) || (c ≥ 48 && c ≤ 57) || c == c!"!" || c == c!"#" || c == c!"$" ||
  c == c!"%" || c == c!"&" || c == 39 || c == c!"*" || c == c!"+" || c == c!"-" || c == c!"." || c == c!"^" ||
  c == c!"_" || c == c!"`" || c == c!"|" || c == c!"~"

/-- `is_set_cookie_value_char` and `is_set_cookie_attr_value_char`, cookie.cpp 34-42. -/
def isValueChar (c : UInt8) : Bool := c != c!";" && !isControl c

/-- `SameSite`, cookie.h 50-55 (`NOT_SET` is never stored: the setter, 267-275, resets the optional). -/
inductive SameSite
  | none | lax | strict
deriving DecidableEq, Repr

/-- `class Cookie`, cookie.h 64-74. -/
structure Cookie where
  name : Bytes
  value : Bytes
  expires : Option Int := none
  maxAge : Option Int := none
  domain : Bytes := []
  path : Bytes := b!"/"
  secure : Bool := false
  httpOnly : Bool := false
  sameSite : Option SameSite := none
deriving DecidableEq, Repr

/-- `validate_cookie_for_serialization`, cookie.cpp 44-60; `false` = throws. -/
def validForSerialization (c : Cookie) : Bool :=
  if c.name.isEmpty || !c.name.all isNameChar then false
  else if !c.value.all isValueChar then false
  else if !c.domain.all isValueChar then false
  else if !c.path.all isValueChar then false
  else true

/-- The switch of `to_header`, cookie.cpp 461-473. -/
def sameSiteName : SameSite → Bytes
  | .strict => b!"Strict"
  | .lax => b!"Lax"
  | .none => b!"None"

/-- `Cookie::to_header`, cookie.cpp 391-476; `none` = throws. `std::to_string` is `Date.dec`. -/
def toHeader (c : Cookie) : Option Bytes :=
  if !validForSerialization c then none
  else some (c.name ++ b!"=" ++ c.value ++
    (match c.expires with | some t => b!"; Expires=" ++ Date.formatHttpDate t | none => []) ++
    (match c.maxAge with | some n => b!"; Max-Age=" ++ Date.dec n | none => []) ++
    (if c.domain.isEmpty then [] else b!"; Domain=" ++ c.domain) ++
    (if c.path.isEmpty then [] else b!"; Path=" ++ c.path) ++
    (if c.secure then b!"; Secure" else []) ++
    (if c.httpOnly then b!"; HttpOnly" else []) ++
    (match c.sameSite with | some s => b!"; SameSite=" ++ sameSiteName s | none => []))

/-! ## `parse_set_cookie` -/

/-- The segments between the `;` of a string (never empty). The loop of cookie.cpp 316-376 visits those of
`attributes_sv`; it stops early at a trailing empty segment, which it would skip anyway. -/
def segments : Bytes → List Bytes
  | [] => [[]]
  | c :: t =>
    if c == c!";" then [] :: segments t
    else match segments t with
      | s :: r => (c :: s) :: r
      | [] => [[c]]

/-- Removal of surrounding double quotes, cookie.cpp 308-310 and 332-334. -/
def unquote (s : Bytes) : Bytes :=
  if s.length ≥ 2 && s.head? == some c!"\"" && s.getLast? == some c!"\"" then (s.drop 1).dropLast else s

/-- Name and value of an attribute, cookie.cpp 321-335, from the trimmed segment. -/
def attrPair (seg : Bytes) : Bytes × Bytes :=
  match findChar c!"=" seg with
  | none => (seg, [])
  | some (n, v) => (trimWs n, unquote (trimWs v))

/-- Effect of one attribute, cookie.cpp 337-369. `date::parse_http_date` yields whole seconds. The
`max_age` setter (cookie.h 177-181) stores the same number of seconds: an `int` number of seconds is
represented exactly by `qb::duration`. -/
def applyAttr (toInt : Bytes → Option Int) (c : Cookie) (nv : Bytes × Bytes) : Cookie :=
  if iequals nv.1 b!"Expires" then
    match Date.parseHttpDate nv.2 with
    | some t => { c with expires := some (t * 1000000000) }
    | none => c
  else if iequals nv.1 b!"Max-Age" then
    if nv.2.isEmpty then c
    else match toInt nv.2 with
      | some n => { c with maxAge := some n }
      | none => c
  else if iequals nv.1 b!"Domain" then { c with domain := nv.2 }
  else if iequals nv.1 b!"Path" then { c with path := nv.2 }
  else if iequals nv.1 b!"Secure" then { c with secure := true }
  else if iequals nv.1 b!"HttpOnly" then { c with httpOnly := true }
  else if iequals nv.1 b!"SameSite" then
    if iequals nv.2 b!"Strict" then { c with sameSite := some .strict }
    else if iequals nv.2 b!"Lax" then { c with sameSite := some .lax }
    else if iequals nv.2 b!"None" then { c with sameSite := some .none }
    else c
  else c

/-- One round of the loop, cookie.cpp 317-370. -/
def applySegment (toInt : Bytes → Option Int) (c : Cookie) (seg : Bytes) : Cookie :=
  if (trimWs seg).isEmpty then c else applyAttr toInt c (attrPair (trimWs seg))

/-- `parse_set_cookie`, cookie.cpp 278-378. -/
def parseSetCookie (toInt : Bytes → Option Int) (header : Bytes) : Option Cookie :=
  if header.isEmpty then none
  else match segments header with
    | [] => none
    | pair :: attrs =>
      match findChar c!"=" (trimWs pair) with
      | none => none
      | some (n, v) =>
        if n.isEmpty then none
        else some (attrs.foldl (applySegment toInt) { name := n, value := unquote v })

/-! ## `parse_cookies` -/

/-- `is_cookie_attribute`, cookie.cpp 76-93. -/
def isCookieAttribute (name : Bytes) (setCookie : Bool) : Bool :=
  if name.isEmpty || name.head? == some c!"$" then true
  else if setCookie then
    [b!"Comment", b!"Domain", b!"Max-Age", b!"Path", b!"Secure", b!"Version", b!"Expires", b!"HttpOnly",
      b!"SameSite"].any (fun a => iequals name a)
  else false

/-- `icase_unordered_map::find`: keys are compared without case. -/
def lookup {α} (d : List (Bytes × α)) (k : Bytes) : Option α := (d.find? (fun e => iequals e.1 k)).map (·.2)

/-- `dict.emplace(k, v)`: keeps an existing entry. -/
def emplace {α} (d : List (Bytes × α)) (k : Bytes) (v : α) : List (Bytes × α) :=
  if (lookup d k).isSome then d else d ++ [(k, v)]

/-- The parser's state, cookie.cpp 130-140. -/
inductive PState
  | name | value | afterQuoted
deriving DecidableEq, Repr

/-- The parser's variables. -/
structure Ps where
  st : PState := .name
  name : Bytes := []
  value : Bytes := []
  /-- `value_quote_character`, `none` for `'\0'` -/
  quote : Option UInt8 := none
  escape : Bool := false
  dict : List (Bytes × Bytes) := []
deriving DecidableEq, Repr

/-- The recurring "store unless it is an attribute", cookie.cpp 160-162, 183-185, 211-213, 248-250. -/
def store (sc : Bool) (p : Ps) (v : Bytes) : Ps :=
  if isCookieAttribute p.name sc then p else { p with dict := emplace p.dict p.name v }

/-- `COOKIE_PARSE_NAME`, cookie.cpp 145-174; `none` = throws. -/
def stepName (sc : Bool) (p : Ps) (c : UInt8) : Option Ps :=
  if c == c!"=" then some { p with quote := none, value := [], st := .value }
  else if c == c!";" || (sc && c == c!",") then
    if p.name.isEmpty then some p else some { store sc p [] with name := [] }
  else if !isWs c then
    if isControl c || p.name.length ≥ 1024 then none
    else some { p with name := p.name ++ [c] }
  else some p

/-- `COOKIE_PARSE_VALUE` outside quotes, cookie.cpp 177-198. -/
def stepValue (sc : Bool) (p : Ps) (c : UInt8) : Option Ps :=
  if c == c!";" || (sc && c == c!",") then some { store sc p p.value with name := [], value := [], st := .name }
  else if (c == 39 || c == c!"\"") && p.value.isEmpty then some { p with quote := some c }
  else if !isWs c || !p.value.isEmpty then
    if isControl c || p.value.length ≥ 4096 then none
    else some { p with value := p.value ++ [c] }
  else some p

/-- `COOKIE_PARSE_VALUE` inside quotes `q`, cookie.cpp 199-228. -/
def stepQuoted (sc : Bool) (q : UInt8) (p : Ps) (c : UInt8) : Option Ps :=
  if p.escape then
    if p.value.length ≥ 4096 then none
    else some { p with value := p.value ++ [c], escape := false }
  else if c == c!"\\" then some { p with escape := true }
  else if c == q then some { store sc p p.value with name := [], value := [], quote := none, st := .afterQuoted }
  else if isControl c then none
  else if p.value.length ≥ 4096 then none
  else some { p with value := p.value ++ [c] }

/-- One iteration of the loop, cookie.cpp 142-241. -/
def step (sc : Bool) (p : Ps) (c : UInt8) : Option Ps :=
  match p.st with
  | .name => stepName sc p c
  | .value =>
    match p.quote with
    | none => stepValue sc p c
    | some q => stepQuoted sc q p c
  | .afterQuoted =>
    if c == c!";" || c == c!"," then some { p with st := .name }
    else if !isWs c then none
    else some p

/-- The loop. -/
def loop (sc : Bool) : Ps → Bytes → Option Ps
  | p, [] => some p
  | p, c :: t =>
    match step sc p c with
    | some p' => loop sc p' t
    | none => none

/-- The end of the input, cookie.cpp 244-253. -/
def finish (sc : Bool) (p : Ps) : Option (List (Bytes × Bytes)) :=
  if p.st == .value && (p.quote.isSome || p.escape) then none
  else if p.name.isEmpty then some p.dict
  else some (store sc p p.value).dict

/-- `parse_cookies`, cookie.cpp 115-254; `none` = throws. -/
def parseCookies (sc : Bool) (s : Bytes) : Option (List (Bytes × Bytes)) :=
  if s.isEmpty then some []
  else if s.length > 16 * 1024 then none
  else match loop sc {} s with
    | some p => finish sc p
    | none => none

/-! ## `CookieJar` -/

/-- `icase_unordered_map`: at most one entry per name up to case. -/
abbrev Jar := List (Bytes × Cookie)

/-- `_cookies[cookie.name()] = cookie`, cookie.h 314-326: an existing entry keeps its key. -/
def Jar.add (j : Jar) (c : Cookie) : Jar :=
  if (lookup j c.name).isSome then j.map (fun e => if iequals e.1 c.name then (e.1, c) else e)
  else j ++ [(c.name, c)]

/-- `CookieJar::add(name, value)`, cookie.cpp 506-515. -/
def Jar.addPair (j : Jar) (name value : Bytes) : Jar :=
  if (lookup j name).isSome then
    j.map (fun e => if iequals e.1 name then (e.1, { name := name, value := value }) else e)
  else j ++ [(name, { name := name, value := value })]

/-- `CookieJar::remove`, cookie.h 342-345. -/
def Jar.remove (j : Jar) (name : Bytes) : Jar × Bool :=
  (j.filter (fun e => !iequals e.1 name), (lookup j name).isSome)

/-- `CookieJar::get`, cookie.h 360-381. -/
def Jar.get (j : Jar) (name : Bytes) : Option Cookie := lookup j name

/-- `Request::parse_cookie_header`, request.cpp 24-35 (`header("Cookie", 0)` is the argument); `none` =
throws. -/
def requestCookies (header : Bytes) : Option Jar :=
  if header.isEmpty then some []
  else match parseCookies false header with
    | some d => some (d.foldl (fun j e => Jar.addPair j e.1 e.2) [])
    | none => none

/-- One round of the loop of `Response::parse_set_cookie_headers`, response.cpp 35-41. -/
def addParsed (toInt : Bytes → Option Int) (j : Jar) (h : Bytes) : Jar :=
  match parseSetCookie toInt h with
  | some c => Jar.add j c
  | none => j

/-- `Response::parse_set_cookie_headers`, response.cpp 30-42 (`headers` = all `Set-Cookie` values). -/
def responseCookies (toInt : Bytes → Option Int) (headers : List Bytes) : Jar :=
  headers.foldl (addParsed toInt) []

/-- `Response::update_cookie_header`, response.cpp 62-79, on the list of `Set-Cookie` values; `none` =
throws (out of `to_header`). -/
def updateCookieHeader (j : Jar) (headers : List Bytes) (name : Bytes) : Option (List Bytes) :=
  match Jar.get j name with
  | none => some headers
  | some c =>
    match toHeader c with
    | some h =>
      some (headers.filter (fun v => match findChar c!"=" v with | some (n, _) => !iequals n c.name | none => true)
        ++ [h])
    | none => none

end Verif.Cookie
