import Verif.Static.ProcessLemmas
import Verif.Utility.Spec

/-! Properties of the static file middleware. -/

namespace Verif.Static
open Verif Verif.Utility

/-! ## A file system for the examples -/

/-- `/srv` is the root directory; `/etc/passwd` lies outside it. -/
def exFs : FS where
  node p :=
    if p = [] ∨ p = [b!"srv"] ∨ p = [b!"srv", b!"sub"] ∨ p = [b!"etc"] then some .dir
    else if p = [b!"srv", b!"a.txt"] then some (.file b!"hello world" 5000000000)
    else if p = [b!"srv", b!"in"] then some (.link b!"a.txt")
    else if p = [b!"srv", b!"out"] then some (.link b!"/etc/passwd")
    else if p = [b!"srv", b!"sub", b!"index.html"] then some (.link b!"../../etc/passwd")
    else if p = [b!"etc", b!"passwd"] then some (.file b!"secret" 0)
    else none
  denied _ := false

def exOpts : Options := { root := [b!"srv"] }

/-- The body of an answer. -/
def Outcome.body? : Outcome → Option Bytes
  | .done r => some r.body
  | .next => none

/-- The status of an answer. -/
def Outcome.status? : Outcome → Option Nat
  | .done r => some r.status
  | .next => none

theorem exRoot : Phys exFs [b!"srv"] :=
  .snoc [] b!"srv" .dir (.root (by decide)) (by decide) (by unfold IsName; decide) (by decide) (by simp)

theorem exFile : Phys exFs ([b!"srv"] ++ [b!"a.txt"]) :=
  .snoc [b!"srv"] b!"a.txt" (.file b!"hello world" 5000000000) exRoot (by decide) (by unfold IsName; decide) (by decide +kernel)
    (by simp)

/-! ## C60: containment -/

/-- C60. Whatever the request, what a completed answer carries is one of the fixed refusal messages, nothing,
a listing of a directory inside the root, or octets of a regular file that lies physically inside the root
directory: no `..`, no escape, no encoding and no symbolic link reaches a file outside it. -/
theorem C60_contained_partial (fs : FS) (o : Options) (q : Request) (j1 j2 : Int) (r resp : Response) (hc : Config fs o)
    (h : process fs o q j1 j2 r = .done resp) :
    (∃ e ∈ refusals, resp.status = e.1 ∧ resp.body = e.2) ∨ resp.body = [] ∨
    (∃ s d, o.directoryListing = true ∧ Phys fs d ∧ Inside o.root d ∧ fs.node d = some .dir ∧
      stat fs (comps s) = .ok d ∧ resp.status = 200 ∧ resp.body = o.listing s q.path) ∨
    (∃ p content mtime first len, Phys fs p ∧ Inside o.root p ∧ fs.node p = some (.file content mtime) ∧
      (resp.status = 200 ∨ resp.status = 206) ∧ resp.body = (content.drop first).take len) := by
  obtain ⟨hm, hx⟩ := process_inside hc h
  rcases hx with hx | ⟨s, d, h1, h2, h3, h4, h5, h6, -, h8⟩ | ⟨p, content, mtime, pc, h1, h2, h3, h4⟩
  · exact .inl hx
  · by_cases hh : q.method = .head
    · rw [if_pos hh] at h8; exact .inr (.inl h8)
    · rw [if_neg hh] at h8; exact .inr (.inr (.inl ⟨s, d, h5, h2, h3, h4, h1, h6, h8⟩))
  · rcases serveRegular_cases h4 with ⟨-, x, hx, -, hb, -⟩ | ⟨-, r3, hs, -⟩
    · cases hx; exact .inr (.inl hb)
    · obtain ⟨x, hx, hcase⟩ := serveFile_cases hs
      cases hx
      rcases hcase with ⟨-, e1, e2⟩ | ⟨-, -, e1, e2⟩ | ⟨-, -, hcase⟩
      · exact .inl ⟨(500, b!"Could not open file"), by decide, e1, e2⟩
      · exact .inl ⟨(413, b!"File exceeds configured max_file_size"), by decide, e1, e2⟩
      · rcases hcase with ⟨-, -, -, hcase⟩ | ⟨-, e1, e2, -⟩
        · rcases hcase with ⟨f, l, -, e1, e2, -⟩ | ⟨-, -, e2, -⟩
          · exact .inr (.inr (.inr ⟨p, content, mtime, f, l, h1, h2, h3, .inr e1, e2⟩))
          · exact .inr (.inl e2)
        · by_cases hh : q.method = .head
          · rw [if_pos hh] at e2; exact .inr (.inl e2)
          · rw [if_neg hh] at e2
            exact .inr (.inr (.inr ⟨p, content, mtime, 0, content.length, h1, h2, h3, .inl e1, by simp [e2]⟩))

/-- The configuration of C60 is met (index files switched off), a traversal is refused, and a link inside
the root is served. -/
example : Config exFs { exOpts with serveIndex := false } :=
  ⟨exRoot, by decide, by intro h; cases h⟩
example : (process exFs exOpts { method := .get, path := b!"/../etc/passwd" } 0 0 {}).body? = some b!"Forbidden" := by
  decide +kernel
example : (process exFs exOpts { method := .get, path := b!"/%2e%2e/etc/passwd" } 0 0 {}).body? = some b!"Forbidden" := by
  decide +kernel
example : (process exFs exOpts { method := .get, path := b!"/out" } 0 0 {}).body? = some b!"Forbidden" := by decide +kernel
example : (process exFs exOpts { method := .get, path := b!"/in" } 0 0 {}).body? = some b!"hello world" := by decide +kernel

/-- C60 needs its condition on index files: an `index.html` that is a symbolic link is followed out of the
root, because only the directory was checked. -/
theorem C60_false_index_symlink : ¬ ∀ (fs : FS) (o : Options) (q : Request) (r resp : Response), Phys fs o.root →
    fs.node o.root = some .dir → process fs o q 0 0 r = .done resp → resp.status = 200 → resp.body ≠ [] →
    o.directoryListing = false →
    ∃ p content mtime first len, Inside o.root p ∧ fs.node p = some (.file content mtime) ∧
      resp.body = (content.drop first).take len := by
  intro hall
  have hb : (process exFs exOpts { method := .get, path := b!"/sub/" } 0 0 {}).body? = some b!"secret" := by decide +kernel
  have hs : (process exFs exOpts { method := .get, path := b!"/sub/" } 0 0 {}).status? = some 200 := by decide +kernel
  cases hx : process exFs exOpts { method := .get, path := b!"/sub/" } 0 0 {} with
  | next => rw [hx] at hb; cases hb
  | done resp =>
    rw [hx] at hb hs
    have hb : resp.body = b!"secret" := Option.some.inj hb
    have hs : resp.status = 200 := Option.some.inj hs
    obtain ⟨p, content, mtime, f, l, ⟨rest, hp⟩, hn, hbody⟩ :=
      hall exFs exOpts _ _ resp exRoot (by decide) hx hs (by rw [hb]; simp) rfl
    have hc : content = b!"hello world" := by
      rw [hp] at hn
      simp only [exFs, exOpts] at hn
      split at hn
      · cases hn
      · split at hn
        · cases hn; rfl
        · split at hn
          · cases hn
          · split at hn
            · cases hn
            · split at hn
              · cases hn
              · split at hn
                · rename_i h; exact absurd h (by simp)
                · cases hn
    rw [hc, hb] at hbody
    have hm : c!"s" ∈ b!"hello world" := by
      have : c!"s" ∈ ((b!"hello world").drop f).take l := by rw [← hbody]; decide
      exact List.mem_of_mem_drop (List.mem_of_mem_take this)
    revert hm; decide

/-! ## C61: refusing symbolic links -/

/-- C61 (partial: for request paths without a `..` segment). With `reject_symlinks`, a completed answer with
file content carries octets of the file found by descending from the root through exactly the names of the
decoded request path (or the index file of that directory), every one of which is a real directory entry and
none a symbolic link. -/
theorem C61_no_link_partial (fs : FS) (o : Options) (q : Request) (j1 j2 : Int) (r resp : Response) (hc : Config fs o)
    (hr : o.rejectSymlinks = true) (hdl : o.directoryListing = false) (segs : List Bytes)
    (hseg : Utility.Spec.IsFields c!"/" (decodePath (effPath o q)) segs) (hdd : b!".." ∉ segs)
    (h : process fs o q j1 j2 r = .done resp) (hst : resp.status = 200 ∨ resp.status = 206) :
    ∃ content mtime first len p, (p = o.root ++ segs.filter (fun c => decide (c ≠ [] ∧ c ≠ b!".")) ∨
        p = o.root ++ segs.filter (fun c => decide (c ≠ [] ∧ c ≠ b!".")) ++ [o.indexName]) ∧ Phys fs p ∧
      fs.node p = some (.file content mtime) ∧ (resp.body = [] ∨ resp.body = (content.drop first).take len) := by
  -- the fields are the model's segments
  have hsplit : segs = splitSlash (decodePath (effPath o q)) := by
    obtain ⟨hne, hf, he⟩ := hseg
    have hj : ∀ l : List Bytes, l ≠ [] → [c!"/"].intercalate l = joinSlash l := by
      intro l
      induction l with
      | nil => intro h; exact absurd rfl h
      | cons a l ih =>
        intro _
        cases l with
        | nil => simp [joinSlash, List.intercalate]
        | cons b l =>
          have := ih (by simp)
          rw [joinSlash, ← this]
          simp [List.intercalate, List.intersperse]
    rw [hj segs hne] at he
    rw [he, split_join segs hne hf]
  have hdrop : ∀ s : Bytes, DOTDOT ∉ splitSlash s →
      DOTDOT ∉ splitSlash (s.dropWhile (· == c!"/")) ∧
      nameSegs (splitSlash (s.dropWhile (· == c!"/"))) = nameSegs (splitSlash s) := by
    intro s
    induction s with
    | nil => intro h; exact ⟨h, rfl⟩
    | cons a s ih =>
      intro h
      by_cases ha : a = c!"/"
      · subst ha
        rw [splitSlash, if_pos rfl] at h ⊢
        rw [List.dropWhile_cons_of_pos (by decide)]
        have := ih (fun hm => h (by simp [hm]))
        refine ⟨this.1, ?_⟩
        rw [this.2]
        simp [nameSegs]
      · rw [List.dropWhile_cons_of_neg (by simpa using ha)]
        exact ⟨h, rfl⟩
  obtain ⟨hdd', hns⟩ := hdrop (decodePath (effPath o q)) (by rw [← hsplit]; exact hdd)
  have hfilter : segs.filter (fun c => decide (c ≠ [] ∧ c ≠ b!".")) =
      nameSegs (splitSlash ((decodePath (effPath o q)).dropWhile (· == c!"/"))) := by
    rw [hns, ← hsplit]; rfl
  rw [hfilter]
  -- what was served
  have answer : ∀ {pc p : List Bytes} {content : Bytes} {mtime : Int}, Phys fs p → fs.node p = some (.file content mtime) →
      serveRegular fs o q j1 j2 r pc p content mtime = .done resp →
      ∃ first len, resp.body = [] ∨ resp.body = (content.drop first).take len := by
    intro pc p content mtime h1 h3 h4
    rcases serveRegular_cases h4 with ⟨-, x, hx, -, hb, -⟩ | ⟨-, r3, hs, -⟩
    · cases hx; exact ⟨0, 0, .inl hb⟩
    · obtain ⟨x, hx, hcase⟩ := serveFile_cases hs
      cases hx
      rcases hcase with ⟨-, e1, e2⟩ | ⟨-, -, e1, e2⟩ | ⟨-, -, hcase⟩
      · omega
      · omega
      · rcases hcase with ⟨-, -, -, hcase⟩ | ⟨-, e1, e2, -⟩
        · rcases hcase with ⟨f, l, -, e1, e2, -⟩ | ⟨-, -, e2, -⟩
          · exact ⟨f, l, .inr e2⟩
          · exact ⟨0, 0, .inl e2⟩
        · by_cases hh : q.method = .head
          · rw [if_pos hh] at e2; exact ⟨0, 0, .inl e2⟩
          · rw [if_neg hh] at e2
            exact ⟨0, content.length, .inr (by simp [e2])⟩
  obtain ⟨hm, hx⟩ := process_cases h
  rcases hx with ⟨e, he, h1, -⟩ | ⟨s, p, hs, hp, hsee, hx⟩
  · exfalso
    simp only [refusals, List.mem_cons, List.not_mem_nil, or_false] at he
    rcases he with rfl | rfl | rfl | rfl | rfl | rfl | rfl | rfl <;> simp only at h1 <;> omega
  · have hsee := hsee hr
    have hsee' : symlinkSeen fs o.root (splitSlash ((decodePath (effPath o q)).dropWhile (· == c!"/"))) = false := by
      unfold walkedSegs at hsee
      simp only at hsee
      split at hsee
      · rename_i he
        have he : (decodePath (effPath o q)).dropWhile (· == c!"/") = [] := by simpa using he
        rw [he]; rfl
      · exact hsee
    have hpe := sanitize_free hc.root hs hdd' hsee' hp
    obtain ⟨hpp, hin, hcs⟩ := sanitize_stat hc.root hc.dir hs hp
    rcases hx with ⟨h1, h2, -⟩ | ⟨content, mtime, h1, h2⟩ | ⟨h1, h2, h3, pi, content, mtime, h4, h5, h6⟩
    · rw [hdl] at h2; cases h2
    · obtain ⟨f, l, hb⟩ := answer hpp h1 h2
      exact ⟨content, mtime, f, l, p, .inl hpe, hpp, h1, hb⟩
    · have hi := hc.index h2 h3
      have hls : ∀ c ∈ comps s, c!"/" ∉ c := by
        rcases hcs with e | ⟨_, e⟩
        · rw [e]; exact fun c hc => (hpp.names c hc).2.2.2
        · rw [e]; simp
      obtain ⟨rfl, hpi⟩ := index_stat hi.1 (hi.2 p · hin) hpp hls hp h4
      obtain ⟨f, l, hb⟩ := answer hpi h5 h6
      exact ⟨content, mtime, f, l, _, .inr (by rw [hpe]), hpi, h5, hb⟩

/-- A link is refused and a plain file is served. -/
example : (process exFs { exOpts with rejectSymlinks := true, serveIndex := false } { method := .get, path := b!"/in" } 0 0 {}).body?
    = some b!"Symlinks are not served" := by decide +kernel
example : (process exFs { exOpts with rejectSymlinks := true, serveIndex := false } { method := .get, path := b!"//./a.txt" } 0 0 {}).body?
    = some b!"hello world" := by decide +kernel

/-- C61 fails with a parent reference after a name that does not exist: the check gives up on the missing
directory, the resolver drops it lexically, and the link is followed. -/
theorem C61_false_missing_parent :
    (process exFs { exOpts with rejectSymlinks := true, serveIndex := false } { method := .get, path := b!"/nosuch/../in" } 0 0 {}).body?
      = some b!"hello world" ∧
    exFs.node [b!"srv", b!"in"] = some (.link b!"a.txt") := by
  constructor <;> decide +kernel

/-- C61 fails for an index file that is a symbolic link. -/
theorem C61_false_index_symlink :
    (process exFs { exOpts with rejectSymlinks := true } { method := .get, path := b!"/sub" } 0 0 {}).body? = some b!"secret" := by
  decide +kernel

/-! ## C62: byte ranges -/

/-- C62. A `Range` field is understood exactly as RFC 9110 defines a single byte range: the octets
selected are those of the specification, and anything else (several ranges, other units, unsatisfiable or
malformed ranges) selects nothing. Numbers up to 2^63-1 are read. -/
theorem C62_range_exact (v : Bytes) (total first len : Nat) :
    parseByteRange v total = some (first, len) ↔ Selects MAXNUM v total first len :=
  ⟨parseByteRange_sound, parseByteRange_complete⟩

/-- C62. A selected range is not empty and lies inside the file. -/
theorem C62_range_inside (v : Bytes) (total first len : Nat) (h : parseByteRange v total = some (first, len)) :
    0 < len ∧ first + len ≤ total := by
  have := parseByteRange_sound h
  cases this <;> omega

example : Selects MAXNUM b!"bytes=2-4" 11 2 3 :=
  .both b!"2" b!"4" 2 4 11 (by unfold Decimal; decide) (by unfold Decimal; decide) (by decide) (by decide) (by decide)
example : parseByteRange b!"bytes=-4" 11 = some (7, 4) := by decide
example : parseByteRange b!"bytes=20-" 11 = none := by decide

/-- C62. A partial answer carries exactly the octets its range selects, and its `Content-Range` and
`Content-Length` say so. -/
theorem C62_partial_content (fs : FS) (o : Options) (q : Request) (j1 j2 : Int) (r resp : Response) (hc : Config fs o)
    (h : process fs o q j1 j2 r = .done resp) (hs : resp.status = 206) :
    o.ranges = true ∧ q.method = .get ∧ ∃ p content mtime first len,
      Phys fs p ∧ Inside o.root p ∧ fs.node p = some (.file content mtime) ∧
      Selects MAXNUM q.range content.length first len ∧ resp.body = (content.drop first).take len ∧ resp.body.length = len ∧
      resp.contentLength = some (Date.decNat len) ∧
      resp.contentRange = some (b!"bytes " ++ Date.decNat first ++ b!"-" ++ Date.decNat (first + len - 1) ++ b!"/" ++
        Date.decNat content.length) := by
  obtain ⟨hm, hx⟩ := process_inside hc h
  rcases hx with ⟨e, he, h1, -⟩ | ⟨s, d, -, -, -, -, -, h6, -⟩ | ⟨p, content, mtime, pc, h1, h2, h3, h4⟩
  · exfalso
    simp only [refusals, List.mem_cons, List.not_mem_nil, or_false] at he
    rcases he with rfl | rfl | rfl | rfl | rfl | rfl | rfl | rfl <;> simp only at h1 <;> omega
  · omega
  · rcases serveRegular_cases h4 with ⟨-, x, hx, e, -⟩ | ⟨-, r3, hsf, -⟩
    · cases hx; omega
    · obtain ⟨x, hx, hcase⟩ := serveFile_cases hsf
      cases hx
      rcases hcase with ⟨-, e1, -⟩ | ⟨-, -, e1, -⟩ | ⟨-, -, hcase⟩
      · omega
      · omega
      · rcases hcase with ⟨hr, -, hh, hcase⟩ | ⟨-, e1, -⟩
        · rcases hcase with ⟨f, l, hsel, e1, e2, e3, e4, -⟩ | ⟨-, e1, -⟩
          · refine ⟨hr, ?_, p, content, mtime, f, l, h1, h2, h3, hsel, e2, ?_, e4, e3⟩
            · cases hq : q.method with
              | get => rfl
              | head => exact absurd hq hh
              | other => exact absurd hq hm
            · have := C62_range_inside _ _ _ _ (parseByteRange_complete hsel)
              rw [e2, List.length_take, List.length_drop]; omega
          · omega
        · omega

/-- C62. A 416 answer is given only to a `Range` that selects nothing of the file; it carries no content and
names the size. -/
theorem C62_unsatisfiable (fs : FS) (o : Options) (q : Request) (j1 j2 : Int) (r resp : Response) (hc : Config fs o)
    (h : process fs o q j1 j2 r = .done resp) (hs : resp.status = 416) :
    o.ranges = true ∧ q.range ≠ [] ∧ resp.body = [] ∧ ∃ p content mtime,
      Phys fs p ∧ Inside o.root p ∧ fs.node p = some (.file content mtime) ∧
      (¬ ∃ first len, Selects MAXNUM q.range content.length first len) ∧
      resp.contentRange = some (b!"bytes */" ++ Date.decNat content.length) := by
  obtain ⟨hm, hx⟩ := process_inside hc h
  rcases hx with ⟨e, he, h1, -⟩ | ⟨s, d, -, -, -, -, -, h6, -⟩ | ⟨p, content, mtime, pc, h1, h2, h3, h4⟩
  · exfalso
    simp only [refusals, List.mem_cons, List.not_mem_nil, or_false] at he
    rcases he with rfl | rfl | rfl | rfl | rfl | rfl | rfl | rfl <;> simp only at h1 <;> omega
  · omega
  · rcases serveRegular_cases h4 with ⟨-, x, hx, e, -⟩ | ⟨-, r3, hsf, -⟩
    · cases hx; omega
    · obtain ⟨x, hx, hcase⟩ := serveFile_cases hsf
      cases hx
      rcases hcase with ⟨-, e1, -⟩ | ⟨-, -, e1, -⟩ | ⟨-, -, hcase⟩
      · omega
      · omega
      · rcases hcase with ⟨hr, hne, hh, hcase⟩ | ⟨-, e1, -⟩
        · rcases hcase with ⟨f, l, -, e1, -⟩ | ⟨hsel, -, e2, e3⟩
          · omega
          · exact ⟨hr, hne, e2, p, content, mtime, h1, h2, h3, hsel, e3⟩
        · omega

example : (process exFs exOpts { method := .get, path := b!"/a.txt", range := b!"bytes=2-4" } 0 0 {}).body? = some b!"llo" := by
  decide +kernel
example : (process exFs exOpts { method := .get, path := b!"/a.txt", range := b!"bytes=11-" } 0 0 {}).status? = some 416 := by
  decide +kernel

/-- C62 with numbers of any size is false: a last position or suffix length above 2^63-1, which
the specification clips to the file, is refused. -/
theorem C62_false_large_number : ¬ ∀ (v : Bytes) (max total first len : Nat), Selects max v total first len →
    parseByteRange v total = some (first, len) := by
  intro h
  have := h b!"bytes=-9223372036854775808" 9223372036854775808 11 _ _
    (.suffix b!"9223372036854775808" 9223372036854775808 11 (by unfold Decimal; decide) (by decide) (by decide) (by decide))
  revert this; decide

/-! ## C63: conditional requests -/

/-- The opaque part of the entity tag of a file. -/
theorem etagOf_quoted (size : Nat) (sec : Int) : etagOf size sec = quoted (Date.decNat size ++ b!"-" ++ Date.dec sec) := by
  unfold etagOf quoted; simp

theorem decNat_digits (n : Nat) : ∀ c ∈ Date.decNat n, 48 ≤ c.toNat ∧ c.toNat ≤ 57 := by
  have one : ∀ m, m < 10 → ∀ c ∈ [UInt8.ofNat (48 + m)], 48 ≤ c.toNat ∧ c.toNat ≤ 57 := by
    intro m hm c hc
    rw [List.mem_singleton] at hc
    subst hc
    rw [UInt8.toNat_ofNat', Nat.mod_eq_of_lt (by omega)]
    omega
  rw [Date.decNat]
  split
  · rename_i h; exact one n h
  · intro c hc
    rcases List.mem_append.1 hc with hc | hc
    · exact decNat_digits (n / 10) c hc
    · exact one (n % 10) (by omega) c hc
termination_by n

theorem etag_nocomma (size : Nat) (sec : Int) : c!"," ∉ Date.decNat size ++ b!"-" ++ Date.dec sec := by
  have hd : ∀ n, c!"," ∉ Date.decNat n := by
    intro n h
    have := (decNat_digits n _ h).1
    revert this; decide
  unfold Date.dec
  intro h
  rw [List.mem_append, List.mem_append] at h
  rcases h with (h | h) | h
  · exact hd _ h
  · revert h; decide
  · split at h
    · rcases List.mem_cons.1 h with h | h
      · revert h; decide
      · exact hd _ h
    · exact hd _ h

/-- C63. An `If-None-Match` list matches a file exactly when one of its entity tags has the file's opaque tag,
strong or weak (RFC 9110 weak comparison), whatever the white space and empty elements. Tags may hold any octet but
a quote; those with both a comma and a star inside are excluded (see the counterexample). -/
theorem C63_weak_comparison_partial (s : Bytes) (l : List ETag) (size : Nat) (sec : Int) (h : TagList s l)
    (hl : ∀ t ∈ l, c!"\"" ∉ t.opaq ∧ (c!"," ∉ t.opaq ∨ c!"*" ∉ t.opaq)) :
    ifNoneMatchContains s (etagOf size sec) = true ↔
      ∃ t ∈ l, (ETag.mk false t.opaq).text = etagOf size sec := by
  rw [etagOf_quoted, ifNoneMatchContains_any (by simp [quoted]) (quoted_self _)]
  obtain ⟨h1, h2⟩ := ifNoneMatch_tags h hl (etag_nocomma size sec)
  rw [h1]
  have h3 : (trimWs s == b!"*") = false := by simpa using h2
  rw [h3, Bool.false_or, decide_eq_true_iff]
  have e : ∀ t : ETag, (ETag.mk false t.opaq).text = quoted t.opaq := by intro t; rfl
  constructor
  · rintro ⟨t, ht, he⟩; exact ⟨t, ht, by rw [e, he]⟩
  · rintro ⟨t, ht, he⟩; rw [e] at he; exact ⟨t, ht, quoted_inj.1 he⟩

/-- C63. A lone star matches every file. -/
theorem C63_star (u v : Bytes) (hu : ∀ c ∈ u, c = c!" " ∨ c = 9) (hv : ∀ c ∈ v, c = c!" " ∨ c = 9) (size : Nat) (sec : Int) :
    ifNoneMatchContains (u ++ b!"*" ++ v) (etagOf size sec) = true := by
  unfold ifNoneMatchContains
  rw [trimWs_post hv, trimWs_pre hu]
  have : trimWs b!"*" = b!"*" := by decide
  rw [this]; rfl

example : TagList b!" \"x\" ,, W/\"11-5\"" [⟨false, b!"x"⟩, ⟨true, b!"11-5"⟩] :=
  .cons b!" " b!" " b!", W/\"11-5\"" ⟨false, b!"x"⟩ _ (by decide)
    (.skip [] b!" W/\"11-5\"" _ (by decide) (.last b!" " [] ⟨true, b!"11-5"⟩ (by decide)))

/-- C63 fails for a tag that holds `,*,`: the list is cut at every comma, quoted or not, and the star
counts as the wildcard. -/
theorem C63_false_star_in_tag (size : Nat) (sec : Int) :
    TagList b!"\"a,*,b\"" [⟨false, b!"a,*,b"⟩] ∧ ifNoneMatchContains b!"\"a,*,b\"" (etagOf size sec) = true := by
  refine ⟨.last [] [] ⟨false, b!"a,*,b"⟩ (by decide), ?_⟩
  rw [etagOf_quoted, ifNoneMatchContains_any (by simp [quoted]) (quoted_self _)]
  rw [show splitC b!"\"a,*,b\"" = [b!"\"a", b!"*", b!"b\""] from by decide]
  simp only [List.any_cons, Bool.or_eq_true]
  refine .inr (.inr (.inl ?_))
  unfold hit
  rw [show trimWs b!"*" = b!"*" from by decide]; rfl

/-- C63. A 304 answer carries no content, no `Content-Type` and no `Content-Length`, and is given only for a
file inside the root whose entity tag the request lists or which is not newer than the date it gives. -/
theorem C63_not_modified (fs : FS) (o : Options) (q : Request) (j1 j2 : Int) (r resp : Response) (hc : Config fs o)
    (h : process fs o q j1 j2 r = .done resp) (hs : resp.status = 304) :
    resp.body = [] ∧ resp.contentType = none ∧ resp.contentLength = none ∧ ∃ p content mtime,
      Phys fs p ∧ Inside o.root p ∧ fs.node p = some (.file content mtime) ∧
      ((o.etags = true ∧ q.ifNoneMatch ≠ [] ∧
          ifNoneMatchContains q.ifNoneMatch (etagOf content.length (Date.toTimeT (mtime + j1))) = true) ∨
       (o.lastModified = true ∧ ∃ t, Date.parseHttpDate q.ifModifiedSince = some t ∧ Date.toTimeT (mtime + j2) ≤ t)) := by
  obtain ⟨hm, hx⟩ := process_inside hc h
  rcases hx with ⟨e, he, h1, -⟩ | ⟨s, d, -, -, -, -, -, h6, -⟩ | ⟨p, content, mtime, pc, h1, h2, h3, h4⟩
  · exfalso
    simp only [refusals, List.mem_cons, List.not_mem_nil, or_false] at he
    rcases he with rfl | rfl | rfl | rfl | rfl | rfl | rfl | rfl <;> simp only at h1 <;> omega
  · omega
  · rcases serveRegular_cases h4 with ⟨hf, x, hx, e, e2, e3, e4, -⟩ | ⟨-, r3, hsf, -⟩
    · cases hx
      refine ⟨e2, e3, e4, p, content, mtime, h1, h2, h3, ?_⟩
      rcases hf with hf | ⟨a, -, b⟩
      · exact .inl hf
      · exact .inr ⟨a, b⟩
    · obtain ⟨x, hx, hcase⟩ := serveFile_cases hsf
      cases hx
      rcases hcase with ⟨-, e1, -⟩ | ⟨-, -, e1, -⟩ | ⟨-, -, hcase⟩
      · omega
      · omega
      · rcases hcase with ⟨-, -, -, hcase⟩ | ⟨-, e1, -⟩
        · rcases hcase with ⟨f, l, -, e1, -⟩ | ⟨-, e1, -⟩ <;> omega
        · omega

/-! ## C64: what a plain request gets -/

/-- A plain request: the configured prefix and `/name/.../name` for a physical regular file below the root, no escapes needed. -/
structure PlainTarget (fs : FS) (o : Options) (q : Request) (names : List Bytes) (content : Bytes) (mtime : Int) : Prop where
  root : o.root ≠ []
  names_ne : names ≠ []
  phys : Phys fs (o.root ++ names)
  file : fs.node (o.root ++ names) = some (.file content mtime)
  plain : ∀ x ∈ names, c!"%" ∉ x ∧ (0 : Byte) ∉ x
  path : q.path = o.stripPrefix ++ b!"/" ++ [c!"/"].intercalate names
  method : q.method = .get ∨ q.method = .head
  readable : fs.denied (o.root ++ names) = false
  size : o.maxFileSize = 0 ∨ content.length ≤ o.maxFileSize

theorem intercalate_join : ∀ l : List Bytes, [c!"/"].intercalate l = joinSlash l := by
  intro l
  induction l with
  | nil => rfl
  | cons a l ih =>
    cases l with
    | nil => simp [joinSlash, List.intercalate]
    | cons b l => rw [joinSlash, ← ih]; simp [List.intercalate, List.intersperse]

theorem process_plain {fs : FS} {o : Options} {q : Request} {names : List Bytes} {content : Bytes} {mtime : Int}
    (hp : PlainTarget fs o q names content mtime) (j1 j2 : Int) (r : Response) :
    process fs o q j1 j2 r = serveRegular fs o q j1 j2 r (o.root ++ names) (o.root ++ names) content mtime := by
  have hpath : q.path = o.stripPrefix ++ absStr names := by rw [hp.path, intercalate_join, List.append_assoc]; rfl
  have heff : effPath o q = absStr names := by
    unfold effPath
    rw [hpath]
    split
    · rename_i h
      have h : o.stripPrefix = [] := by simpa using h
      rw [h]; rfl
    · rw [List.drop_left]
  have hpm : pathPrefixMatches q.path o.stripPrefix = true := by
    unfold pathPrefixMatches
    rw [hpath]
    split
    · rfl
    · rw [if_neg]
      · split
        · rfl
        · rw [Bool.or_eq_true]
          right
          rw [List.getElem?_append_right (Nat.le_refl _)]
          simp [absStr]
      · have : o.stripPrefix.isPrefixOf (o.stripPrefix ++ absStr names) = true := by
          rw [List.isPrefixOf_iff_prefix]; exact ⟨_, rfl⟩
        rw [this]; simp
  obtain ⟨hsan, hdrop⟩ := sanitize_plain hp.root hp.names_ne hp.phys hp.plain
  have hnames : ∀ c ∈ names, IsName c := fun c hc => hp.phys.names c (by simp [hc])
  have hne : joinSlash names ≠ [] := fun h => hp.names_ne (joinSlash_nil hnames h)
  unfold process
  rw [if_neg (by rcases hp.method with h | h <;> rw [h] <;> simp), if_neg (by rw [hpm]; simp), heff, hsan]
  simp only
  have hsee : symlinkSeen fs o.root (walkedSegs o q) = false := by
    unfold walkedSegs
    simp only
    rw [heff, hdrop, if_neg (by simpa using hne), split_join names hp.names_ne (fun c hc => (hnames c hc).2.2.2)]
    exact symlinkSeen_phys names o.root hp.phys
  rw [hsee, Bool.and_false, if_neg (by simp), comps_absStr (by simp [hp.root]) (fun c hc => (hp.phys.names c hc).2.2.2),
    hp.phys.stat]
  simp only
  rw [hp.file]

/-- C64. A plain, unconditional `GET` without `Range` is answered 200 with the whole file and its length. -/
theorem C64_serves (fs : FS) (o : Options) (q : Request) (names : List Bytes) (content : Bytes) (mtime j1 j2 : Int) (r : Response)
    (hp : PlainTarget fs o q names content mtime) (hg : q.method = .get) (hr : q.range = []) (h1 : q.ifNoneMatch = [])
    (h2 : q.ifModifiedSince = []) :
    ∃ resp, process fs o q j1 j2 r = .done resp ∧ resp.status = 200 ∧ resp.body = content ∧
      resp.contentLength = some (Date.decNat content.length) := by
  rw [process_plain hp]
  rcases serveRegular_cases (rfl : serveRegular fs o q j1 j2 r (o.root ++ names) (o.root ++ names) content mtime = _) with
    ⟨hf, -⟩ | ⟨-, r3, hs, -⟩
  · exfalso
    rcases hf with ⟨-, h, -⟩ | ⟨-, h, -⟩
    · exact h h1
    · exact h h2
  · obtain ⟨x, hx, hcase⟩ := serveFile_cases hs
    rw [← hs]
    refine ⟨x, by rw [hs, hx], ?_⟩
    rcases hcase with ⟨h, -⟩ | ⟨-, h, -⟩ | ⟨-, -, hcase⟩
    · rw [hp.readable] at h; cases h
    · have := hp.size; omega
    · rcases hcase with ⟨-, h, -⟩ | ⟨-, e1, e2, e3, -⟩
      · exact absurd hr h
      · rw [hg] at e2; exact ⟨e1, e2, e3⟩

/-- C64. A plain, unconditional `GET` with a range is answered 206 with exactly the octets the range selects, or
416 if it selects none. -/
theorem C64_serves_range (fs : FS) (o : Options) (q : Request) (names : List Bytes) (content : Bytes) (mtime j1 j2 : Int)
    (r : Response) (hp : PlainTarget fs o q names content mtime) (hg : q.method = .get) (hr : q.range ≠ []) (ho : o.ranges = true)
    (h1 : q.ifNoneMatch = []) (h2 : q.ifModifiedSince = []) :
    ∃ resp, process fs o q j1 j2 r = .done resp ∧
      ((∃ first len, Selects MAXNUM q.range content.length first len ∧ resp.status = 206 ∧
          resp.body = (content.drop first).take len) ∨
       ((¬ ∃ first len, Selects MAXNUM q.range content.length first len) ∧ resp.status = 416 ∧ resp.body = [])) := by
  rw [process_plain hp]
  rcases serveRegular_cases (rfl : serveRegular fs o q j1 j2 r (o.root ++ names) (o.root ++ names) content mtime = _) with
    ⟨hf, -⟩ | ⟨-, r3, hs, -⟩
  · exfalso
    rcases hf with ⟨-, h, -⟩ | ⟨-, h, -⟩
    · exact h h1
    · exact h h2
  · obtain ⟨x, hx, hcase⟩ := serveFile_cases hs
    rw [← hs]
    refine ⟨x, by rw [hs, hx], ?_⟩
    rcases hcase with ⟨h, -⟩ | ⟨-, h, -⟩ | ⟨-, -, hcase⟩
    · rw [hp.readable] at h; cases h
    · have := hp.size; omega
    · rcases hcase with ⟨-, -, -, hcase⟩ | ⟨h, -⟩
      · rcases hcase with ⟨f, l, a, b, c, -⟩ | ⟨a, b, c, -⟩
        · exact .inl ⟨f, l, a, b, c⟩
        · exact .inr ⟨a, b, c⟩
      · exfalso
        rcases h with h | h | h
        · rw [ho] at h; cases h
        · exact hr h
        · rw [hg] at h; cases h

/-- C63. A plain request whose `If-None-Match` lists the file's entity tag is answered 304; one that does not
(and gives no date) is not. -/
theorem C63_plain_conditional_partial (fs : FS) (o : Options) (q : Request) (names : List Bytes) (content : Bytes) (mtime j1 j2 : Int)
    (r : Response) (hp : PlainTarget fs o q names content mtime) (ho : o.etags = true) (l : List ETag)
    (htl : TagList q.ifNoneMatch l) (hl : ∀ t ∈ l, c!"\"" ∉ t.opaq ∧ (c!"," ∉ t.opaq ∨ c!"*" ∉ t.opaq))
    (hims : q.ifModifiedSince = []) :
    ∃ resp, process fs o q j1 j2 r = .done resp ∧ (resp.status = 304 ↔
      ∃ t ∈ l, (ETag.mk false t.opaq).text = etagOf content.length (Date.toTimeT (mtime + j1))) := by
  rw [process_plain hp]
  have hw := C63_weak_comparison_partial _ l content.length (Date.toTimeT (mtime + j1)) htl hl
  rcases serveRegular_cases (rfl : serveRegular fs o q j1 j2 r (o.root ++ names) (o.root ++ names) content mtime = _) with
    ⟨hf, x, hx, h3, -⟩ | ⟨hf, r3, hs, -⟩
  · refine ⟨x, hx, ?_⟩
    rcases hf with ⟨-, -, h⟩ | ⟨-, h, -⟩
    · exact ⟨fun _ => hw.1 h, fun _ => h3⟩
    · exact absurd hims h
  · obtain ⟨x, hx, hcase⟩ := serveFile_cases hs
    rw [← hs]
    refine ⟨x, by rw [hs, hx], ?_⟩
    constructor
    · intro h304
      exfalso
      rcases hcase with ⟨-, e1, -⟩ | ⟨-, -, e1, -⟩ | ⟨-, -, hcase⟩
      · omega
      · omega
      · rcases hcase with ⟨-, -, -, hcase⟩ | ⟨-, e1, -⟩
        · rcases hcase with ⟨f, l, -, e1, -⟩ | ⟨-, e1, -⟩ <;> omega
        · omega
    · intro ht
      exfalso
      have hne : q.ifNoneMatch ≠ [] := by
        intro h
        have := hw.2 ht
        rw [h] at this
        simp [ifNoneMatchContains, trimWs, inmLoop] at this
      exact hf (.inl ⟨ho, hne, hw.2 ht⟩)

/-- A request with a stale entity tag and a recent date. -/
def exCond : Request where
  method := .get
  path := b!"/a.txt"
  ifNoneMatch := b!"\"stale\""
  ifModifiedSince := b!"Sun, 06 Nov 1994 08:49:37 GMT"

theorem exCond_plain : PlainTarget exFs exOpts exCond [b!"a.txt"] b!"hello world" 5000000000 :=
  ⟨by decide, by decide, exFile, by decide +kernel, by decide, by decide, .inl rfl, rfl, by decide⟩

/-- RFC 9110 section 13.1.3 says `If-Modified-Since` is ignored when `If-None-Match` is present; here it is not:
a request whose entity tag does not match is still answered 304 by the date. -/
theorem C63_false_date_with_tag : TagList exCond.ifNoneMatch [⟨false, b!"stale"⟩] ∧
    (∀ sec, etagOf 11 sec ≠ b!"\"stale\"") ∧
    (process exFs exOpts exCond 0 0 {}).status? = some 304 := by
  refine ⟨.last [] [] ⟨false, b!"stale"⟩ (by decide), ?_, ?_⟩
  · intro sec
    rw [etagOf_quoted]
    intro h
    have h : quoted _ = quoted b!"stale" := h
    have h := quoted_inj.1 h
    have hm : c!"-" ∈ b!"stale" := by rw [← h]; simp
    revert hm; decide
  · rw [process_plain exCond_plain]
    have hf : Fresh exOpts exCond 0 0 b!"hello world" 5000000000 :=
      .inr ⟨rfl, by decide, 784111777, by decide +kernel, by decide +kernel⟩
    rcases serveRegular_cases (rfl : serveRegular exFs exOpts exCond 0 0 {} (exOpts.root ++ [b!"a.txt"])
      (exOpts.root ++ [b!"a.txt"]) b!"hello world" 5000000000 = _) with ⟨-, x, hx, h3, -⟩ | ⟨hnf, -⟩
    · rw [hx]
      simp only [Outcome.status?, h3]
    · exact absurd hf hnf

/-- C64. No answer with content is longer than the configured limit. -/
theorem C64_size_limit (fs : FS) (o : Options) (q : Request) (j1 j2 : Int) (r resp : Response) (hc : Config fs o)
    (hdl : o.directoryListing = false) (hm : o.maxFileSize ≠ 0) (h : process fs o q j1 j2 r = .done resp)
    (hs : resp.status = 200 ∨ resp.status = 206) : resp.body.length ≤ o.maxFileSize := by
  obtain ⟨_, hx⟩ := process_inside hc h
  rcases hx with ⟨e, he, h1, -⟩ | ⟨s, d, -, -, -, -, h5, -⟩ | ⟨p, content, mtime, pc, h1, h2, h3, h4⟩
  · exfalso
    simp only [refusals, List.mem_cons, List.not_mem_nil, or_false] at he
    rcases he with rfl | rfl | rfl | rfl | rfl | rfl | rfl | rfl <;> simp only at h1 <;> omega
  · rw [hdl] at h5; cases h5
  · rcases serveRegular_cases h4 with ⟨-, x, hx, e, -⟩ | ⟨-, r3, hsf, -⟩
    · cases hx; omega
    · obtain ⟨x, hx, hcase⟩ := serveFile_cases hsf
      cases hx
      rcases hcase with ⟨-, e1, -⟩ | ⟨-, -, e1, -⟩ | ⟨-, hsz, hcase⟩
      · omega
      · omega
      · rcases hcase with ⟨-, -, -, hcase⟩ | ⟨-, e1, e2, -⟩
        · rcases hcase with ⟨f, l, -, e1, e2, -⟩ | ⟨-, e1, e2, -⟩
          · rw [e2, List.length_take, List.length_drop]; omega
          · rw [e2]; simp
        · rw [e2]; split
          · simp
          · omega

/-- C64. `HEAD` is answered like the `GET` of the whole resource: the same status and header fields, and the same
body if it is a refusal, else no body. -/
theorem C64_head_like_get (fs : FS) (o : Options) (q : Request) (j1 j2 : Int) (r : Response) :
    process fs o { q with method := .head } j1 j2 r = process fs o { q with method := .get, range := [] } j1 j2 r ∨
    ∃ resp, process fs o { q with method := .get, range := [] } j1 j2 r = .done resp ∧ resp.status = 200 ∧
      process fs o { q with method := .head } j1 j2 r = .done { resp with body := [] } := by
  have hfile : ∀ (r : Response) pc p content, serveFile fs o { q with method := .head } r pc p content =
        serveFile fs o { q with method := .get, range := [] } r pc p content ∨
      ∃ resp, serveFile fs o { q with method := .get, range := [] } r pc p content = .done resp ∧ resp.status = 200 ∧
        serveFile fs o { q with method := .head } r pc p content = .done { resp with body := [] } := by
    intro r pc p content
    unfold serveFile
    by_cases hd : fs.denied p = true
    · left; rw [if_pos hd, if_pos hd]
    · rw [if_neg hd, if_neg hd]
      simp only
      by_cases hm : o.maxFileSize ≠ 0 ∧ content.length > o.maxFileSize
      · left; rw [if_pos hm, if_pos hm]
      · rw [if_neg hm, if_neg hm]
        right
        cases ho : o.ranges <;> cases hcc : (o.setCacheControl && !o.cacheControl.isEmpty) <;>
          refine ⟨_, rfl, rfl, ?_⟩ <;> simp
  have hreg : ∀ (r : Response) pc p content mtime, serveRegular fs o { q with method := .head } j1 j2 r pc p content mtime =
        serveRegular fs o { q with method := .get, range := [] } j1 j2 r pc p content mtime ∨
      ∃ resp, serveRegular fs o { q with method := .get, range := [] } j1 j2 r pc p content mtime = .done resp ∧ resp.status = 200 ∧
        serveRegular fs o { q with method := .head } j1 j2 r pc p content mtime = .done { resp with body := [] } := by
    intro r pc p content mtime
    unfold serveRegular
    simp only
    split
    · left; rfl
    · split
      · left; rfl
      · exact hfile _ pc p content
  have hlist : ∀ s, listOrRefuse o { q with method := .head } r s = listOrRefuse o { q with method := .get, range := [] } r s ∨
      ∃ resp, listOrRefuse o { q with method := .get, range := [] } r s = .done resp ∧ resp.status = 200 ∧
        listOrRefuse o { q with method := .head } r s = .done { resp with body := [] } := by
    intro s
    unfold listOrRefuse
    by_cases hd : o.directoryListing = true
    · right
      rw [if_pos hd, if_pos hd]
      cases o.setCacheControl <;> exact ⟨_, rfl, rfl, rfl⟩
    · left; rw [if_neg hd, if_neg hd]
  unfold process
  simp only [reduceCtorEq, if_false]
  by_cases hsp : (!o.stripPrefix.isEmpty && !pathPrefixMatches q.path o.stripPrefix) = true
  · left; rw [if_pos hsp, if_pos hsp]
  rw [if_neg hsp, if_neg hsp]
  have he : effPath o { q with method := .head } = effPath o { q with method := .get, range := [] } := rfl
  have hw : walkedSegs o { q with method := .head } = walkedSegs o { q with method := .get, range := [] } := rfl
  simp only [he, hw]
  repeat' split
  all_goals first
    | exact .inl rfl
    | exact hreg _ _ _ _ _
    | exact hlist _

/-- C64. A request is passed on to the next task exactly when its method is neither `GET` nor `HEAD` or a prefix
is configured and the path is not that prefix, does not continue it with a `/`, and does not start with it if it
ends with a `/` itself: `/static` does not claim `/staticx`. -/
theorem C64_passes_on (fs : FS) (o : Options) (q : Request) (j1 j2 : Int) (r : Response) :
    process fs o q j1 j2 r = .next ↔ (q.method = .other ∨ (o.stripPrefix ≠ [] ∧
      ¬ (q.path = o.stripPrefix ∨ (∃ t, q.path = o.stripPrefix ++ c!"/" :: t) ∨
         (∃ u t, o.stripPrefix = u ++ b!"/" ∧ q.path = o.stripPrefix ++ t)))) := by
  have hpm : o.stripPrefix ≠ [] → (pathPrefixMatches q.path o.stripPrefix = true ↔
      (q.path = o.stripPrefix ∨ (∃ t, q.path = o.stripPrefix ++ c!"/" :: t) ∨
         (∃ u t, o.stripPrefix = u ++ b!"/" ∧ q.path = o.stripPrefix ++ t))) := by
    intro hne
    unfold pathPrefixMatches
    rw [if_neg (by simpa using hne)]
    by_cases hpre : o.stripPrefix <+: q.path
    · obtain ⟨t, ht⟩ := hpre
      rw [if_neg (by have : o.stripPrefix.isPrefixOf q.path = true := by
                       rw [List.isPrefixOf_iff_prefix]; exact ⟨t, ht⟩
                     rw [this]; simp)]
      rw [← ht]
      cases t with
      | nil => simp
      | cons a t =>
        rw [if_neg (by simp), List.getElem?_append_right (Nat.le_refl _)]
        simp only [Nat.sub_self, List.getElem?_cons_zero, Bool.or_eq_true, beq_iff_eq]
        constructor
        · rintro (h | h)
          · right; right
            obtain ⟨u, hu⟩ := List.getLast?_eq_some_iff.1 h
            exact ⟨u, a :: t, hu, rfl⟩
          · right; left
            cases h; exact ⟨t, rfl⟩
        · rintro (h | ⟨t', h⟩ | ⟨u, t', h, -⟩)
          · simp at h
          · right
            have := List.append_cancel_left h
            cases this; rfl
          · left; rw [h, List.getLast?_concat]
    · rw [if_pos (by
        have : ¬ o.stripPrefix.isPrefixOf q.path = true := fun h => hpre (List.isPrefixOf_iff_prefix.1 h)
        rw [Bool.not_eq_true] at this
        rw [this]; rfl)]
      constructor
      · intro h; cases h
      · rintro (h | ⟨t, h⟩ | ⟨u, t, -, h⟩)
        · exact absurd ⟨[], by simp [h]⟩ hpre
        · exact absurd ⟨_, h.symm⟩ hpre
        · exact absurd ⟨t, h.symm⟩ hpre
  have hlist : ∀ s, listOrRefuse o q r s ≠ .next := by
    intro s h; unfold listOrRefuse errorResponse at h; split at h <;> cases h
  have hreg : ∀ pc p content mtime, serveRegular fs o q j1 j2 r pc p content mtime ≠ .next := by
    intro pc p content mtime h
    rcases serveRegular_cases h with ⟨-, x, hx, -⟩ | ⟨-, r3, hs, -⟩
    · cases hx
    · obtain ⟨x, hx, -⟩ := serveFile_cases hs
      cases hx
  constructor
  · intro h
    unfold process at h
    by_cases hm : q.method = .other
    · exact .inl hm
    rw [if_neg hm] at h
    by_cases hsp : (!o.stripPrefix.isEmpty && !pathPrefixMatches q.path o.stripPrefix) = true
    · right
      rw [Bool.and_eq_true] at hsp
      have h1 : o.stripPrefix ≠ [] := by simpa using hsp.1
      refine ⟨h1, fun hx => ?_⟩
      rw [(hpm h1).2 hx] at hsp
      simp at hsp
    · exfalso
      rw [if_neg hsp] at h
      revert h
      repeat' split
      all_goals first
        | exact hlist _
        | exact hreg _ _ _ _
        | (unfold errorResponse; simp)
  · intro h
    unfold process
    by_cases hm : q.method = .other
    · rw [if_pos hm]
    rw [if_neg hm, if_pos]
    rcases h with h | ⟨h1, h2⟩
    · exact absurd h hm
    · rw [Bool.and_eq_true]
      refine ⟨by simpa using h1, ?_⟩
      cases hx : pathPrefixMatches q.path o.stripPrefix
      · rfl
      · exact absurd ((hpm h1).1 hx) h2

example : process exFs { exOpts with stripPrefix := b!"/static" } { method := .get, path := b!"/staticx/a.txt" } 0 0 {} = .next :=
  (C64_passes_on _ _ _ _ _ _).2 (.inr ⟨by decide, by
    rintro (h | ⟨t, h⟩ | ⟨u, t, h, -⟩)
    · revert h; decide
    · simp [exOpts] at h
    · have := congrArg List.getLast? h
      rw [List.getLast?_concat] at this
      revert this; decide⟩)

/-- ASCII lower case of one octet, by the letters. -/
def lowerOctet (c : Byte) : Byte := if 65 ≤ c.toNat ∧ c.toNat ≤ 90 then UInt8.ofNat (c.toNat + 32) else c

/-- C64. The content type of a file `stem.ext` is the entry of the configured table for its extension in lower
case, or the default type if there is none. -/
theorem C64_content_type (table : List (Bytes × Bytes)) (dflt stem ext : Bytes) (dir : List Bytes) (hs : stem ≠ [])
    (he : c!"." ∉ ext) (hnd : stem ++ b!"." ++ ext ≠ b!"..") (huniq : (table.map (·.1)).Nodup) :
    (∀ t, (b!"." ++ ext.map lowerOctet, t) ∈ table → mimeType table dflt (dir ++ [stem ++ b!"." ++ ext]) = t) ∧
    (b!"." ++ ext.map lowerOctet ∉ table.map (·.1) → mimeType table dflt (dir ++ [stem ++ b!"." ++ ext]) = dflt) := by
  have hlow : ∀ c : Byte, (if 65 ≤ c.toNat ∧ c.toNat ≤ 90 then c ||| 0x20 else c) = lowerOctet c := by
    apply forall_byte; decide +kernel
  have hext : extension (stem ++ b!"." ++ ext) = b!"." ++ ext := by
    unfold extension
    rw [if_neg (show ¬ _ = DOTDOT from hnd)]
    have hr : (stem ++ b!"." ++ ext).reverse = ext.reverse ++ c!"." :: stem.reverse := by simp
    have htw : (ext.reverse ++ c!"." :: stem.reverse).takeWhile (· != c!".") = ext.reverse := by
      rw [List.takeWhile_append_of_pos]
      · rw [List.takeWhile_cons_of_neg (by simp), List.append_nil]
      · intro c hc
        simp only [List.mem_reverse] at hc
        simp only [bne_iff_ne, ne_eq]
        rintro rfl
        exact he hc
    simp only [hr, htw]
    have hl : stem.length ≠ 0 := by simpa using hs
    rw [if_pos (by simp; omega)]
    simp
  have hm : mimeType table dflt (dir ++ [stem ++ b!"." ++ ext]) =
      match table.find? (fun e => e.1 == b!"." ++ ext.map lowerOctet) with
      | some e => e.2
      | none => dflt := by
    unfold mimeType
    rw [List.getLast?_concat]
    simp only [Option.getD_some, hext]
    rw [if_neg (by simp)]
    have : (b!"." ++ ext).map (fun c : Byte => if 65 ≤ c.toNat ∧ c.toNat ≤ 90 then c ||| 0x20 else c) = b!"." ++ ext.map lowerOctet := by
      rw [List.map_append]
      congr 1
      exact List.map_congr_left fun c _ => hlow c
    rw [this]
    try rfl
  rw [hm]
  constructor
  · intro t ht
    cases hf : table.find? (fun e => e.1 == b!"." ++ ext.map lowerOctet) with
    | none =>
      have := List.find?_eq_none.1 hf _ ht
      simp at this
    | some e =>
      simp only
      have h1 := List.find?_some hf
      have h2 := List.mem_of_find?_eq_some hf
      simp only [beq_iff_eq] at h1
      have key : ∀ (l : List (Bytes × Bytes)), (l.map (·.1)).Nodup → ∀ a b : Bytes × Bytes, a ∈ l → b ∈ l → a.1 = b.1 → a = b := by
        intro l
        induction l with
        | nil => intro _ a b ha; cases ha
        | cons x l ih =>
          intro hnd a b ha hb hab
          rw [List.map_cons, List.nodup_cons] at hnd
          rcases List.mem_cons.1 ha with rfl | ha
          · rcases List.mem_cons.1 hb with rfl | hb
            · rfl
            · exact absurd (List.mem_map.2 ⟨b, hb, hab.symm⟩) hnd.1
          · rcases List.mem_cons.1 hb with rfl | hb
            · exact absurd (List.mem_map.2 ⟨a, by assumption, hab⟩ : b.1 ∈ l.map (·.1)) hnd.1
            · exact ih hnd.2 a b ha hb hab
      rw [key table huniq e _ h2 ht h1]
  · intro hn
    rw [List.find?_eq_none.2]
    intro e he' hc
    simp only [beq_iff_eq] at hc
    exact hn (List.mem_map.2 ⟨e, he', hc⟩)

example : mimeType [(b!".txt", b!"text/plain")] b!"x" [b!"srv", b!"a.b.TXT"] = b!"text/plain" := by decide

/-- C64. The 200 answer carries that content type. -/
theorem C64_serves_type (fs : FS) (o : Options) (q : Request) (names : List Bytes) (content : Bytes) (mtime j1 j2 : Int) (r : Response)
    (hp : PlainTarget fs o q names content mtime) (hr : q.range = []) (h1 : q.ifNoneMatch = []) (h2 : q.ifModifiedSince = []) :
    ∃ resp, process fs o q j1 j2 r = .done resp ∧ resp.status = 200 ∧
      resp.contentType = some (mimeType o.mimeTypes o.defaultMime (o.root ++ names)) := by
  rw [process_plain hp]
  rcases serveRegular_cases (rfl : serveRegular fs o q j1 j2 r (o.root ++ names) (o.root ++ names) content mtime = _) with
    ⟨hf, -⟩ | ⟨-, r3, hs, -⟩
  · exfalso
    rcases hf with ⟨-, h, -⟩ | ⟨-, h, -⟩
    · exact h h1
    · exact h h2
  · obtain ⟨x, hx, hcase⟩ := serveFile_cases hs
    rw [← hs]
    refine ⟨x, by rw [hs, hx], ?_⟩
    rcases hcase with ⟨h, -⟩ | ⟨-, h, -⟩ | ⟨-, -, hcase⟩
    · rw [hp.readable] at h; cases h
    · have := hp.size; omega
    · rcases hcase with ⟨-, h, -⟩ | ⟨-, e1, -, -, e4, -⟩
      · exact absurd hr h
      · exact ⟨e1, e4⟩

theorem decNat_inj : ∀ {a b : Nat}, Date.decNat a = Date.decNat b → a = b := by
  have hne : ∀ n, Date.decNat n ≠ [] := by
    intro n; rw [Date.decNat]; split <;> simp
  have hdig : ∀ a b, a < 10 → b < 10 → UInt8.ofNat (48 + a) = UInt8.ofNat (48 + b) → a = b := by
    intro a b ha hb h
    have := congrArg UInt8.toNat h
    rw [UInt8.toNat_ofNat', UInt8.toNat_ofNat', Nat.mod_eq_of_lt (by omega), Nat.mod_eq_of_lt (by omega)] at this
    omega
  intro a
  induction a using Nat.strongRecOn with
  | _ a ih =>
    intro b h
    rw [Date.decNat, Date.decNat.eq_def b] at h
    split at h
    · split at h
      · rename_i h1 h2; exact hdig a b h1 h2 (by simpa using h)
      · exfalso
        have := congrArg List.length h
        have hl : 0 < (Date.decNat (b / 10)).length := List.length_pos_iff.2 (hne _)
        rw [List.length_append, List.length_singleton, List.length_singleton] at this; omega
    · split at h
      · exfalso
        have := congrArg List.length h
        have hl : 0 < (Date.decNat (a / 10)).length := List.length_pos_iff.2 (hne _)
        rw [List.length_append, List.length_singleton, List.length_singleton] at this; omega
      · have hh := List.append_inj' h rfl
        have h1 := ih (a / 10) (by omega) hh.1
        have h2 := hdig (a % 10) (b % 10) (by omega) (by omega) (by simpa using hh.2)
        omega

theorem dec_inj {a b : Int} (h : Date.dec a = Date.dec b) : a = b := by
  have nod : ∀ n m : Nat, Date.decNat n ≠ c!"-" :: Date.decNat m := by
    intro n m h
    have := (decNat_digits n c!"-" (by rw [h]; simp)).1
    revert this; decide
  unfold Date.dec at h
  split at h
  · split at h
    · simp only [List.cons.injEq, true_and] at h
      have := decNat_inj h; omega
    · exact absurd h.symm (nod _ _)
  · split at h
    · exact absurd h (nod _ _)
    · have := decNat_inj h; omega

/-- C63. Two versions of a file get the same entity tag only if they have the same size and the same modification
time in seconds. -/
theorem C63_etag_distinguishes (s1 s2 : Nat) (t1 t2 : Int) (h : etagOf s1 t1 = etagOf s2 t2) : s1 = s2 ∧ t1 = t2 := by
  rw [etagOf_quoted, etagOf_quoted] at h
  have h := quoted_inj.1 h
  have nod : ∀ n : Nat, c!"-" ∉ Date.decNat n := by
    intro n hm
    have := (decNat_digits n _ hm).1
    revert this; decide
  have e1 := findChar_append (nod s1) (Date.dec t1)
  have e2 := findChar_append (nod s2) (Date.dec t2)
  have : Date.decNat s1 ++ c!"-" :: Date.dec t1 = Date.decNat s2 ++ c!"-" :: Date.dec t2 := by simpa using h
  rw [this, e2] at e1
  simp only [Option.some.injEq, Prod.mk.injEq] at e1
  exact ⟨decNat_inj e1.1.symm, dec_inj e1.2.symm⟩

/-- The hypotheses of C64 are met by the example file. -/
example : PlainTarget exFs exOpts { method := .get, path := b!"/a.txt" } [b!"a.txt"] b!"hello world" 5000000000 :=
  ⟨by decide, by decide, exFile, by decide +kernel, by decide, by decide, .inl rfl, rfl, by decide⟩

end Verif.Static
