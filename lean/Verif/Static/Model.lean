import Verif.Utility.Model
import Verif.Date.Model

/-! Model of the static file middleware: `src/qbm/http/middleware/static_files.h` and `static_files.cpp`.

The operating system is modelled too (it is not in /repo): a file system is a map from physical paths to
nodes, path resolution follows POSIX (symbolic links, `.`, `..`, ENOTDIR, ELOOP), and
`std::filesystem::{status,symlink_status,canonical,weakly_canonical,lexically_normal}` are modelled as
libstdc++ implements them on top of it. The file system does not change while one request is served. -/

namespace Verif.Static
open Verif Verif.Utility

/-! ## Paths -/

/-- Split a path string at every `/`; `std::filesystem::path` iteration sees the same names (it skips the
empty ones, as every user below does). -/
def splitSlash : Bytes → List Bytes
  | [] => [[]]
  | c :: rest =>
    if c = c!"/" then [] :: splitSlash rest
    else match splitSlash rest with
      | [] => [[c]]
      | h :: t => (c :: h) :: t

/-- Join path components with `/`. -/
def joinSlash : List Bytes → Bytes
  | [] => []
  | [a] => a
  | a :: b :: rest => a ++ c!"/" :: joinSlash (b :: rest)

/-- The string of an absolute path with the given components. -/
def absStr (l : List Bytes) : Bytes := c!"/" :: joinSlash l

/-- The components of an absolute path string (what follows the root directory). -/
def comps (s : Bytes) : List Bytes := (splitSlash s).tail

def DOT : Bytes := b!"."
def DOTDOT : Bytes := b!".."

/-- `std::filesystem::path::lexically_normal`: one component. `abs` is whether the path is absolute (then a
`..` at the root is dropped); the state is the components kept so far (last first) and whether the result
ends with a separator. -/
def normStep (abs : Bool) (st : List Bytes × Bool) (c : Bytes) : List Bytes × Bool :=
  if c = [] ∨ c = DOT then (st.1, true)
  else if c = DOTDOT then
    match st.1 with
    | [] => if abs then ([], true) else ([DOTDOT], false)
    | top :: rest => if top = DOTDOT then (DOTDOT :: top :: rest, false) else (rest, true)
  else (c :: st.1, false)

/-- `lexically_normal` on components; a trailing separator is a trailing empty component. -/
def normComps (abs : Bool) (l : List Bytes) : List Bytes :=
  let st := l.foldl (normStep abs) ([], false)
  if st.2 && !st.1.isEmpty then (([] : Bytes) :: st.1).reverse else st.1.reverse

/-- `lexically_normal` of a relative path string; the empty path stays empty. -/
def normalRel (s : Bytes) : Bytes :=
  if s = [] then []
  else
    let l := normComps false (splitSlash s)
    if l = [] then DOT else joinSlash l

/-! ## The file system -/

/-- What a directory entry is. `mtime` is in nanoseconds of the system clock. -/
inductive Node
  | dir
  | file (content : Bytes) (mtime : Int)
  | link (target : Bytes)
  | special
deriving DecidableEq, Repr

/-- A file system: the node at each physical path (component list from the root), and which files cannot be
opened. -/
structure FS where
  node : List Bytes → Option Node
  denied : List Bytes → Bool

/-- Result of following a path: the physical path, ENOENT/ENOTDIR, or ELOOP. -/
inductive Res | ok (p : List Bytes) | notFound | loop
deriving DecidableEq, Repr

/-- POSIX path resolution from the directory `cur`; `onLink` continues in a directory with the components
left when a symbolic link is followed. -/
def walkList (fs : FS) (onLink : List Bytes → List Bytes → Res) (cur : List Bytes) : List Bytes → Res
  | [] => .ok cur
  | c :: rest =>
    if fs.node cur ≠ some .dir then .notFound
    else if c = [] ∨ c = DOT then walkList fs onLink cur rest
    else if c = DOTDOT then walkList fs onLink cur.dropLast rest
    else match fs.node (cur ++ [c]) with
      | none => .notFound
      | some (.link t) => onLink (if t.head? = some c!"/" then [] else cur) (splitSlash t ++ rest)
      | some _ => walkList fs onLink (cur ++ [c]) rest

/-- POSIX path resolution from the directory `cur`, following every symbolic link, at most `fuel` of them. -/
def walk (fs : FS) : Nat → List Bytes → List Bytes → Res
  | 0 => walkList fs fun _ _ => .loop
  | k + 1 => walkList fs (walk fs k)

/-- The two definitions above in one equation. -/
theorem walk_eq (fs : FS) (fuel : Nat) (cur : List Bytes) (c : Bytes) (rest : List Bytes) :
    walk fs fuel cur (c :: rest) =
      if fs.node cur ≠ some .dir then .notFound
      else if c = [] ∨ c = DOT then walk fs fuel cur rest
      else if c = DOTDOT then walk fs fuel cur.dropLast rest
      else match fs.node (cur ++ [c]) with
        | none => .notFound
        | some (.link t) =>
          match fuel with
          | 0 => .loop
          | k + 1 => walk fs k (if t.head? = some c!"/" then [] else cur) (splitSlash t ++ rest)
        | some _ => walk fs fuel (cur ++ [c]) rest := by
  cases fuel <;> rfl

/-- Linux `MAXSYMLINKS`. -/
def MAXLINKS : Nat := 40

/-- Following an absolute path (`stat`). -/
def stat (fs : FS) (l : List Bytes) : Res := walk fs MAXLINKS [] l

/-- The loop of libstdc++'s `weakly_canonical`: extend the existing prefix one component at a time. -/
def existingPrefix (fs : FS) (done : List Bytes) : List Bytes → Option (List Bytes × List Bytes)
  | [] => some (done, [])
  | c :: rest =>
    match stat fs (done ++ [c]) with
    | .ok _ => existingPrefix fs (done ++ [c]) rest
    | .notFound => some (done, c :: rest)
    | .loop => none

/-- `std::filesystem::weakly_canonical(p, ec)` of an absolute path; `none` is an error in `ec`. -/
def weaklyCanonical (fs : FS) (l : List Bytes) : Option (List Bytes) :=
  match existingPrefix fs [] l with
  | none => none
  | some (done, rest) =>
    match stat fs done with
    | .ok p => some (normComps true (p ++ rest))
    | _ => none

/-- `std::filesystem::symlink_status` says "symbolic link" for `pre / c`. -/
def isSymlink (fs : FS) (pre : List Bytes) (c : Bytes) : Bool :=
  match stat fs pre with
  | .ok p =>
    if fs.node p = some .dir ∧ c ≠ [] ∧ c ≠ DOT ∧ c ≠ DOTDOT then
      match fs.node (p ++ [c]) with
      | some (.link _) => true
      | _ => false
    else false
  | _ => false

/-! ## Helpers of the middleware -/

/-- `path_prefix_matches`, static_files.h 160-171. -/
def pathPrefixMatches (path pre : Bytes) : Bool :=
  if pre.isEmpty then true
  else if !(pre.isPrefixOf path) then false
  else if path.length = pre.length then true
  else pre.getLast? == some c!"/" || path[pre.length]? == some c!"/"

/-- `if_none_match_contains`, static_files.cpp 74-76 and 62-64: a leading `W/` is dropped if something
follows it. -/
def stripWeak (s : Bytes) : Bytes :=
  if s.length > 2 ∧ s.take 2 = b!"W/" then s.drop 2 else s

/-- The loop of `if_none_match_contains`, static_files.cpp 66-86; `etag` is already stripped. -/
def inmLoop (etag s : Bytes) : Bool :=
  if s.isEmpty then false
  else
    match _h : findChar c!"," s with
    | some (tok, rest) =>
      if trimWs tok == b!"*" then true
      else if stripWeak (trimWs tok) == etag then true
      else inmLoop etag rest
    | none =>
      if trimWs s == b!"*" then true
      else stripWeak (trimWs s) == etag
termination_by s.length
decreasing_by exact findChar_length _h

/-- `if_none_match_contains`, static_files.cpp 54-89 (`trim_optional_whitespace`, static_files.h 173-181, is
the same function as `trim_http_whitespace`: spaces and tabs at both ends). -/
def ifNoneMatchContains (inm etag : Bytes) : Bool :=
  if trimWs inm == b!"*" then true
  else inmLoop (stripWeak (trimWs etag)) (trimWs inm)

/-- `sanitize_and_resolve_path`, static_files.cpp 91-152; `base` is the canonical root directory (its
components), the result is the resolved path (a string) or `none` for the empty path. -/
def sanitize (fs : FS) (base : List Bytes) (rel : Bytes) : Option Bytes :=
  let decoded := decodePath rel
  if (0 : Byte) ∈ decoded then none
  else
    let toAppend := decoded.dropWhile (· == c!"/")
    if toAppend.head? = some c!"/" then none
    else
      let relPart := normalRel toAppend
      let combined := if relPart = [] ∨ relPart = DOT then absStr base
        else if base = [] then absStr base ++ relPart else absStr base ++ c!"/" :: relPart
      match weaklyCanonical fs (comps combined) with
      | none => none
      | some l =>
        let resolved := absStr l
        let baseStr := absStr base
        if baseStr.isPrefixOf resolved then
          if resolved.length = baseStr.length then some resolved
          else if resolved.length > baseStr.length ∧ resolved[baseStr.length]? = some c!"/" then some resolved
          else none
        else none

/-- `parse_u64`, the lambda of `parse_byte_range`, static_files.cpp 203-220. -/
def parseU64Loop (value : Nat) : Bytes → Option Nat
  | [] => some value
  | c :: rest =>
    if c.toNat < 48 ∨ c.toNat > 57 then none
    else if value > (9223372036854775807 - (c.toNat - 48)) / 10 then none
    else parseU64Loop (value * 10 + (c.toNat - 48)) rest

def parseU64 (tok : Bytes) : Option Nat := if tok.isEmpty then none else parseU64Loop 0 tok

/-- `parse_byte_range`, static_files.cpp 175-259: `(start, length)`. The file size is non-negative. -/
def parseByteRange (v : Bytes) (total : Nat) : Option (Nat × Nat) :=
  if total = 0 then none
  else if !((b!"bytes=").isPrefixOf v) then none
  else
    let spec := v.drop 6
    if spec.isEmpty then none
    else if c!"," ∈ spec then none
    else
      match findChar c!"-" spec with
      | none => none
      | some (startTok, endTok) =>
        if !startTok.isEmpty && !endTok.isEmpty then
          match parseU64 startTok, parseU64 endTok with
          | some start, some e =>
            if start > e ∨ start ≥ total then none
            else some (start, min e (total - 1) - start + 1)
          | _, _ => none
        else if !startTok.isEmpty then
          match parseU64 startTok with
          | none => none
          | some start => if start ≥ total then none else some (start, total - start)
        else
          match parseU64 endTok with
          | none => none
          | some suffix =>
            if suffix = 0 then none
            else if suffix ≥ total then some (0, total)
            else some (total - suffix, suffix)

/-- `std::filesystem::path::extension` of the last component: from the last dot, unless it is the first
octet or the name is `.` or `..` . -/
def extension (name : Bytes) : Bytes :=
  if name = DOTDOT then []
  else
    let r := name.reverse
    let ext := r.takeWhile (· != c!".")
    if ext.length < r.length ∧ ext.length + 1 < r.length then c!"." :: ext.reverse else []

/-- `get_mime_type_for_file`, static_files.cpp 154-173. `table` is `opts.mime_types`. -/
def mimeType (table : List (Bytes × Bytes)) (dflt : Bytes) (path : List Bytes) : Bytes :=
  let ext := extension (path.getLast?.getD [])
  if ext.isEmpty then dflt
  else
    let low := ext.map fun c => if 65 ≤ c.toNat ∧ c.toNat ≤ 90 then c ||| 0x20 else c
    match table.find? (fun e => e.1 == low) with
    | some e => e.2
    | none => dflt

/-! ## The middleware -/

/-- `StaticFilesOptions`, static_files.h 39-65. `listing` stands for `generate_directory_listing_html`
(static_files.cpp 261-354), which is not modelled. -/
structure Options where
  root : List Bytes
  serveIndex : Bool := true
  indexName : Bytes := b!"index.html"
  defaultMime : Bytes := b!"application/octet-stream"
  stripPrefix : Bytes := []
  mimeTypes : List (Bytes × Bytes) := []
  setCacheControl : Bool := true
  cacheControl : Bytes := b!"public, max-age=3600"
  etags : Bool := true
  lastModified : Bool := true
  ranges : Bool := true
  directoryListing : Bool := false
  maxFileSize : Nat := 64 * 1024 * 1024
  rejectSymlinks : Bool := false
  listing : Bytes → Bytes → Bytes := fun _ _ => []

inductive Method | get | head | other
deriving DecidableEq, Repr

/-- The parts of the request the middleware reads; absent headers are empty. -/
structure Request where
  method : Method
  path : Bytes
  ifNoneMatch : Bytes := []
  ifModifiedSince : Bytes := []
  range : Bytes := []

/-- The parts of the response the middleware writes. -/
structure Response where
  status : Nat := 200
  contentType : Option Bytes := none
  contentLength : Option Bytes := none
  contentRange : Option Bytes := none
  etag : Option Bytes := none
  lastModified : Option Bytes := none
  acceptRanges : Option Bytes := none
  cacheControl : Option Bytes := none
  body : Bytes := []
deriving DecidableEq, Repr

/-- What `process` does: pass on to the next task, or complete with a response. -/
inductive Outcome | next | done (r : Response)
deriving DecidableEq, Repr

/-- `send_error_response`, static_files.h 703-713. -/
def errorResponse (r : Response) (status : Nat) (msg : Bytes) : Outcome :=
  .done { r with status := status, contentType := some b!"text/plain; charset=utf-8", body := msg }

/-- `send_not_modified_response`, static_files.h 715-732. -/
def notModified (r : Response) : Outcome :=
  .done { r with status := 304, contentType := none, contentLength := none, body := [] }

/-- `send_range_not_satisfiable_response`, static_files.h 734-745. -/
def rangeNotSatisfiable (r : Response) (total : Nat) : Outcome :=
  .done { r with status := 416, contentRange := some (b!"bytes */" ++ Date.decNat total), contentType := none
                 etag := none, lastModified := none, body := [] }

/-- The ETag of a file of the given size and modification time in seconds, static_files.h 494. -/
def etagOf (size : Nat) (sec : Int) : Bytes :=
  b!"\"" ++ Date.decNat size ++ b!"-" ++ Date.dec sec ++ b!"\""

/-- The symlink walk under `reject_symlinks`, static_files.h 352-376: is a link seen? `walker` is the path
so far. -/
def symlinkSeen (fs : FS) (walker : List Bytes) : List Bytes → Bool
  | [] => false
  | seg :: rest =>
    if seg = [] ∨ seg = DOT then symlinkSeen fs walker rest
    else if isSymlink fs walker seg then true
    else symlinkSeen fs (walker ++ [seg]) rest

/-- static_files.h 554-686: open the regular file at physical path `p` and answer with it or a range of it.
`r` carries the validators set before. -/
def serveFile (fs : FS) (o : Options) (q : Request) (r : Response) (pathComps p : List Bytes) (content : Bytes) : Outcome :=
  if fs.denied p then errorResponse r 500 b!"Could not open file"
  else
    let size := content.length
    if o.maxFileSize ≠ 0 ∧ size > o.maxFileSize then errorResponse r 413 b!"File exceeds configured max_file_size"
    else
      let mime := mimeType o.mimeTypes o.defaultMime pathComps
      let finish (r : Response) (off len : Nat) : Outcome :=
        let r := { r with contentType := some mime, contentLength := some (Date.decNat len) }
        let r := if o.setCacheControl && !o.cacheControl.isEmpty then { r with cacheControl := some o.cacheControl } else r
        let r := if o.ranges then { r with acceptRanges := some b!"bytes" } else r
        if q.method = .head then .done { r with body := [] }
        else .done { r with body := (content.drop off).take len }
      if o.ranges then
        let r := { r with acceptRanges := some b!"bytes" }
        if !q.range.isEmpty && q.method != .head then
          match parseByteRange q.range size with
          | some (off, len) =>
            if o.maxFileSize ≠ 0 ∧ len > o.maxFileSize then
              errorResponse r 413 b!"Range exceeds configured max_file_size"
            else
              finish { r with status := 206
                              contentRange := some (b!"bytes " ++ Date.decNat off ++ b!"-" ++ Date.decNat (off + len - 1)
                                ++ b!"/" ++ Date.decNat size) } off len
          | none => rangeNotSatisfiable r size
        else finish { r with status := 200 } 0 size
      else finish { r with acceptRanges := none, contentRange := none, status := 200 } 0 size

/-- The date comparison, static_files.h 516-527: the file is not newer than the date of the request. -/
def unmodifiedSince (ims : Bytes) (sec : Int) : Bool :=
  match Date.parseHttpDate ims with
  | some t => decide (sec ≤ t)
  | none => false

/-- static_files.h 472-552: cache validators, then the file. `jitter1`/`jitter2` are the differences the two
`now()` reads of 490-491 and 508-509 add to the modification time. -/
def serveRegular (fs : FS) (o : Options) (q : Request) (jitter1 jitter2 : Int) (r : Response)
    (pathComps p : List Bytes) (content : Bytes) (mtime : Int) : Outcome :=
  let etag := etagOf content.length (Date.toTimeT (mtime + jitter1))
  let r1 := if o.etags then { r with etag := some etag } else r
  if o.etags && !q.ifNoneMatch.isEmpty && ifNoneMatchContains q.ifNoneMatch etag then notModified r1
  else
    let r2 := if o.lastModified then { r1 with lastModified := some (Date.formatHttpDate (mtime + jitter2)) } else r1
    let unmodified := o.lastModified && !q.ifModifiedSince.isEmpty &&
      unmodifiedSince q.ifModifiedSince (Date.toTimeT (mtime + jitter2))
    if unmodified then notModified r2
    else
      let r3 := if o.ranges then { r2 with acceptRanges := some b!"bytes" } else r2
      serveFile fs o q r3 pathComps p content

/-- `target / index_file_name`, static_files.h 420. -/
def indexPath (target : List Bytes) (name : Bytes) : List Bytes :=
  if name.head? = some c!"/" then comps name else target ++ splitSlash name

/-- The path left after the configured prefix is stripped, static_files.h 327-336. -/
def effPath (o : Options) (q : Request) : Bytes :=
  if o.stripPrefix.isEmpty then q.path else q.path.drop o.stripPrefix.length

/-- The request path as the symlink walk sees it, static_files.h 353-366. -/
def walkedSegs (o : Options) (q : Request) : List Bytes :=
  let rel := (decodePath (effPath o q)).dropWhile (· == c!"/")
  if rel.isEmpty then [] else splitSlash rel

/-- A directory without index file: a listing or a refusal, static_files.h 437-461. -/
def listOrRefuse (o : Options) (q : Request) (r : Response) (targetStr : Bytes) : Outcome :=
  if o.directoryListing then
    let html := o.listing targetStr q.path
    let r := { r with status := 200, contentType := some b!"text/html; charset=utf-8"
                      contentLength := some (Date.decNat html.length) }
    let r := if o.setCacheControl then { r with cacheControl := some o.cacheControl } else r
    .done { r with body := if q.method = .head then [] else html }
  else errorResponse r 403 b!"Directory listing not allowed."

/-- `StaticFilesMiddleware::process`, static_files.h 314-687. -/
def process (fs : FS) (o : Options) (q : Request) (jitter1 jitter2 : Int) (r : Response) : Outcome :=
  if q.method = .other then .next
  else if !o.stripPrefix.isEmpty && !pathPrefixMatches q.path o.stripPrefix then .next
  else
    match sanitize fs o.root (effPath o q) with
    | none => errorResponse r 403 b!"Forbidden"
    | some targetStr =>
      if o.rejectSymlinks && symlinkSeen fs o.root (walkedSegs o q) then
        errorResponse r 403 b!"Symlinks are not served"
      else
        match stat fs (comps targetStr) with
        | .loop => errorResponse r 500 b!"Error accessing file system."
        | .notFound => errorResponse r 404 b!"File not found"
        | .ok p =>
          match fs.node p with
          | some .dir =>
            if o.serveIndex && !o.indexName.isEmpty then
              match stat fs (indexPath (comps targetStr) o.indexName) with
              | .ok pi =>
                match fs.node pi with
                | some (.file content mtime) =>
                  serveRegular fs o q jitter1 jitter2 r (indexPath (comps targetStr) o.indexName) pi content mtime
                | _ => listOrRefuse o q r targetStr
              | _ => listOrRefuse o q r targetStr
            else listOrRefuse o q r targetStr
          | some (.file content mtime) => serveRegular fs o q jitter1 jitter2 r (comps targetStr) p content mtime
          | _ => errorResponse r 404 b!"Requested resource is not a regular file."

end Verif.Static
