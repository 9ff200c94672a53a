import Verif.Static.SymlinkLemmas

/-! What the middleware as a whole can answer. -/

namespace Verif.Static
open Verif Verif.Utility

theorem process_cases {fs : FS} {o : Options} {q : Request} {j1 j2 : Int} {r resp : Response}
    (h : process fs o q j1 j2 r = .done resp) :
    q.method ≠ .other ∧
    ((∃ e ∈ refusals, resp.status = e.1 ∧ resp.body = e.2) ∨
     ∃ s p, sanitize fs o.root (effPath o q) = some s ∧ stat fs (comps s) = .ok p ∧
      (o.rejectSymlinks = true → symlinkSeen fs o.root (walkedSegs o q) = false) ∧
      ((fs.node p = some .dir ∧ o.directoryListing = true ∧ resp.status = 200 ∧
          resp.contentLength = some (Date.decNat (o.listing s q.path).length) ∧
          resp.body = (if q.method = .head then [] else o.listing s q.path)) ∨
       (∃ content mtime, fs.node p = some (.file content mtime) ∧
          serveRegular fs o q j1 j2 r (comps s) p content mtime = .done resp) ∨
       (fs.node p = some .dir ∧ o.serveIndex = true ∧ o.indexName ≠ [] ∧ ∃ pi content mtime,
          stat fs (indexPath (comps s) o.indexName) = .ok pi ∧ fs.node pi = some (.file content mtime) ∧
          serveRegular fs o q j1 j2 r (indexPath (comps s) o.indexName) pi content mtime = .done resp))) := by
  unfold process at h
  by_cases hm : q.method = .other
  · rw [if_pos hm] at h; cases h
  refine ⟨hm, ?_⟩
  rw [if_neg hm] at h
  by_cases hsp : (!o.stripPrefix.isEmpty && !pathPrefixMatches q.path o.stripPrefix) = true
  · rw [if_pos hsp] at h; cases h
  rw [if_neg hsp] at h
  cases hs : sanitize fs o.root (effPath o q) with
  | none =>
    rw [hs] at h; cases h
    exact .inl ⟨(403, b!"Forbidden"), by decide, rfl, rfl⟩
  | some s =>
  rw [hs] at h
  simp only at h
  by_cases hsee : (o.rejectSymlinks && symlinkSeen fs o.root (walkedSegs o q)) = true
  · rw [if_pos hsee] at h; cases h
    exact .inl ⟨(403, b!"Symlinks are not served"), by decide, rfl, rfl⟩
  rw [if_neg hsee] at h
  have hsee' : o.rejectSymlinks = true → symlinkSeen fs o.root (walkedSegs o q) = false := by
    intro hr
    rw [hr, Bool.true_and, Bool.not_eq_true] at hsee
    exact hsee
  cases hp : stat fs (comps s) with
  | loop =>
    rw [hp] at h; cases h
    exact .inl ⟨(500, b!"Error accessing file system."), by decide, rfl, rfl⟩
  | notFound =>
    rw [hp] at h; cases h
    exact .inl ⟨(404, b!"File not found"), by decide, rfl, rfl⟩
  | ok p =>
  rw [hp] at h
  simp only at h
  have hlist : ∀ (_ : fs.node p = some .dir), listOrRefuse o q r s = Outcome.done resp →
      (∃ e ∈ refusals, resp.status = e.1 ∧ resp.body = e.2) ∨ 
      (fs.node p = some .dir ∧ o.directoryListing = true ∧ resp.status = 200 ∧
          resp.contentLength = some (Date.decNat (o.listing s q.path).length) ∧
          resp.body = (if q.method = .head then [] else o.listing s q.path)) := by
    intro hd hl
    unfold listOrRefuse at hl
    by_cases hdl : o.directoryListing = true
    · rw [if_pos hdl] at hl
      cases hl
      right
      refine ⟨hd, hdl, ?_, ?_, rfl⟩ <;> cases o.setCacheControl <;> rfl
    · rw [if_neg hdl] at hl
      cases hl
      exact .inl ⟨(403, b!"Directory listing not allowed."), by decide, rfl, rfl⟩
  split at h
  · rename_i hd
    split at h
    · rename_i hi
      rw [Bool.and_eq_true] at hi
      have hi2 : o.indexName ≠ [] := by simpa using hi.2
      split at h
      · rename_i pi hpi
        split at h
        · rename_i content mtime hf
          exact .inr ⟨s, p, rfl, hp, hsee', .inr (.inr ⟨hd, hi.1, hi2, pi, content, mtime, hpi, hf, h⟩)⟩
        · rcases hlist hd h with h | h
          · exact .inl h
          · exact .inr ⟨s, p, rfl, hp, hsee', .inl h⟩
      · rcases hlist hd h with h | h
        · exact .inl h
        · exact .inr ⟨s, p, rfl, hp, hsee', .inl h⟩
    · rcases hlist hd h with h | h
      · exact .inl h
      · exact .inr ⟨s, p, rfl, hp, hsee', .inl h⟩
  · rename_i content mtime hf
    exact .inr ⟨s, p, rfl, hp, hsee', .inr (.inl ⟨content, mtime, hf, h⟩)⟩
  · cases h
    exact .inl ⟨(404, b!"Requested resource is not a regular file."), by decide, rfl, rfl⟩

/-- The index file of a directory. -/
theorem index_stat {fs : FS} {l p pi : List Bytes} {name : Bytes} (hn : IsName name)
    (hl : ∀ t, fs.node (p ++ [name]) ≠ some (.link t)) (hp : Phys fs p) (hls : ∀ c ∈ l, c!"/" ∉ c)
    (h : stat fs l = .ok p) (hi : stat fs (indexPath l name) = .ok pi) : pi = p ++ [name] ∧ Phys fs pi := by
  have hh : name.head? ≠ some c!"/" := by
    intro h
    cases name with
    | nil => cases h
    | cons a b => simp at h; exact hn.2.2.2 (by simp [h])
  unfold indexPath at hi
  rw [if_neg hh, split_noslash hn.2.2.2] at hi
  obtain ⟨j, _, hj⟩ := (walk_append fs [name] MAXLINKS l [] hls).1 _ h
  unfold stat at hi
  rw [hj] at hi
  by_cases hd : fs.node p = some .dir
  · cases hnode : fs.node (p ++ [name]) with
    | none => rw [walk_missing hn hnode] at hi; cases hi
    | some n =>
      have hnl : ∀ t, n ≠ .link t := by rintro t rfl; exact hl t hnode
      rw [walk_step hd hn hnode hnl, walk_nil] at hi
      cases hi
      exact ⟨rfl, .snoc p name n hp hd hn hnode hnl⟩
  · rw [walk_notdir hd] at hi; cases hi

/-- Every answer that is not a refusal: a listing, or the answer for a physical file inside the root. -/
theorem process_inside {fs : FS} {o : Options} {q : Request} {j1 j2 : Int} {r resp : Response} (hc : Config fs o)
    (h : process fs o q j1 j2 r = .done resp) :
    q.method ≠ .other ∧
    ((∃ e ∈ refusals, resp.status = e.1 ∧ resp.body = e.2) ∨
     (∃ s d, stat fs (comps s) = .ok d ∧ Phys fs d ∧ Inside o.root d ∧ fs.node d = some .dir ∧ o.directoryListing = true ∧
        resp.status = 200 ∧ resp.contentLength = some (Date.decNat (o.listing s q.path).length) ∧
        resp.body = (if q.method = .head then [] else o.listing s q.path)) ∨
     (∃ p content mtime pc, Phys fs p ∧ Inside o.root p ∧ fs.node p = some (.file content mtime) ∧
        serveRegular fs o q j1 j2 r pc p content mtime = .done resp)) := by
  obtain ⟨hm, hx⟩ := process_cases h
  refine ⟨hm, ?_⟩
  rcases hx with hx | ⟨s, p, hs, hp, -, hx⟩
  · exact .inl hx
  · obtain ⟨hpp, hin, hcs⟩ := sanitize_stat hc.root hc.dir hs hp
    rcases hx with ⟨h1, h2, h3, h4, h5⟩ | ⟨content, mtime, h1, h2⟩ | ⟨h1, h2, h3, pi, content, mtime, h4, h5, h6⟩
    · exact .inr (.inl ⟨s, p, hp, hpp, hin, h1, h2, h3, h4, h5⟩)
    · exact .inr (.inr ⟨p, content, mtime, comps s, hpp, hin, h1, h2⟩)
    · have hi := hc.index h2 h3
      have hls : ∀ c ∈ comps s, c!"/" ∉ c := by
        rcases hcs with e | ⟨_, e⟩
        · rw [e]; exact fun c hc => (hpp.names c hc).2.2.2
        · rw [e]; simp
      obtain ⟨rfl, hpi⟩ := index_stat hi.1 (hi.2 p · hin) hpp hls hp h4
      refine .inr (.inr ⟨_, content, mtime, _, hpi, ?_, h5, h6⟩)
      obtain ⟨rest, hr⟩ := hin
      exact ⟨rest ++ [o.indexName], by rw [hr]; simp⟩

end Verif.Static
