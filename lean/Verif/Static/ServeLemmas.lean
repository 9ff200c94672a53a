import Verif.Static.TagLemmas

/-! Lemmas on the answer for a file. -/

namespace Verif.Static
open Verif Verif.Utility

/-- What `serveFile` can answer. -/
theorem serveFile_cases {fs : FS} {o : Options} {q : Request} {r : Response} {pc p : List Bytes} {content : Bytes} {out : Outcome}
    (h : serveFile fs o q r pc p content = out) : ∃ resp, out = .done resp ∧
    ((fs.denied p = true ∧ resp.status = 500 ∧ resp.body = b!"Could not open file") ∨
     (fs.denied p = false ∧ (o.maxFileSize ≠ 0 ∧ content.length > o.maxFileSize) ∧ resp.status = 413 ∧
        resp.body = b!"File exceeds configured max_file_size") ∨
     (fs.denied p = false ∧ ¬ (o.maxFileSize ≠ 0 ∧ content.length > o.maxFileSize) ∧
      ((o.ranges = true ∧ q.range ≠ [] ∧ q.method ≠ .head ∧
          ((∃ first len, Selects MAXNUM q.range content.length first len ∧
              resp.status = 206 ∧ resp.body = (content.drop first).take len ∧
              resp.contentRange = some (b!"bytes " ++ Date.decNat first ++ b!"-" ++ Date.decNat (first + len - 1)
                ++ b!"/" ++ Date.decNat content.length) ∧
              resp.contentLength = some (Date.decNat len) ∧ resp.acceptRanges = some b!"bytes") ∨
           ((¬ ∃ first len, Selects MAXNUM q.range content.length first len) ∧
              resp.status = 416 ∧ resp.body = [] ∧
              resp.contentRange = some (b!"bytes */" ++ Date.decNat content.length)))) ∨
       ((o.ranges = false ∨ q.range = [] ∨ q.method = .head) ∧
          resp.status = 200 ∧ resp.body = (if q.method = .head then [] else content) ∧
          resp.contentLength = some (Date.decNat content.length) ∧
          resp.contentType = some (mimeType o.mimeTypes o.defaultMime pc) ∧
          resp.contentRange = (if o.ranges then r.contentRange else none))))) := by
  unfold serveFile at h
  by_cases hd : fs.denied p = true
  · rw [if_pos hd] at h
    exact ⟨_, h.symm, .inl ⟨hd, rfl, rfl⟩⟩
  rw [if_neg hd] at h
  simp only at h
  have hd' : fs.denied p = false := by simpa using hd
  by_cases hm : o.maxFileSize ≠ 0 ∧ content.length > o.maxFileSize
  · rw [if_pos hm] at h
    exact ⟨_, h.symm, .inr (.inl ⟨hd', hm, rfl, rfl⟩)⟩
  rw [if_neg hm] at h
  by_cases hr : o.ranges = true
  · rw [if_pos hr] at h
    by_cases hq : (!q.range.isEmpty && q.method != .head) = true
    · rw [if_pos hq] at h
      have hq1 : q.range ≠ [] ∧ q.method ≠ .head := by
        rw [Bool.and_eq_true] at hq
        refine ⟨by simpa using hq.1, by simpa using hq.2⟩
      split at h
      · rename_i off len hp
        have hsel := parseByteRange_sound hp
        have hlen : off + len ≤ content.length := by
          generalize q.range = v at hsel
          generalize content.length = n at hsel
          cases hsel <;> omega
        rw [if_neg (by omega)] at h
        rw [if_neg hq1.2] at h
        refine ⟨_, h.symm, .inr (.inr ⟨hd', hm, .inl ⟨hr, hq1.1, hq1.2, .inl ⟨off, len, hsel, ?_⟩⟩⟩)⟩
        simp only [hr, if_true]
        split <;> simp
      · rename_i hp
        refine ⟨_, h.symm, .inr (.inr ⟨hd', hm, .inl ⟨hr, hq1.1, hq1.2, .inr ⟨?_, rfl, rfl, rfl⟩⟩⟩)⟩
        rintro ⟨a, l, hs⟩
        rw [parseByteRange_complete hs] at hp; cases hp
    · rw [if_neg hq] at h
      have hq1 : q.range = [] ∨ q.method = .head := by
        by_cases hx : q.range = []
        · exact .inl hx
        · right
          simpa [hx] using hq
      simp only [hr, if_true] at h
      by_cases hh : q.method = .head
      · rw [if_pos hh] at h
        refine ⟨_, h.symm, .inr (.inr ⟨hd', hm, .inr ⟨.inr hq1, ?_⟩⟩)⟩
        rw [if_pos hh]
        split <;> simp
      · rw [if_neg hh] at h
        refine ⟨_, h.symm, .inr (.inr ⟨hd', hm, .inr ⟨.inr hq1, ?_⟩⟩)⟩
        rw [if_neg hh]
        split <;> simp
  · rw [if_neg hr] at h
    simp only [if_neg hr] at h
    have hr' : o.ranges = false := by simpa using hr
    by_cases hh : q.method = .head
    · rw [if_pos hh] at h
      refine ⟨_, h.symm, .inr (.inr ⟨hd', hm, .inr ⟨.inl hr', ?_⟩⟩)⟩
      rw [if_pos hh]
      split <;> simp
    · rw [if_neg hh] at h
      refine ⟨_, h.symm, .inr (.inr ⟨hd', hm, .inr ⟨.inl hr', ?_⟩⟩)⟩
      rw [if_neg hh]
      split <;> simp

/-- The conditions under which a file is reported as not modified. -/
def Fresh (o : Options) (q : Request) (j1 j2 : Int) (content : Bytes) (mtime : Int) : Prop :=
  (o.etags = true ∧ q.ifNoneMatch ≠ [] ∧
    ifNoneMatchContains q.ifNoneMatch (etagOf content.length (Date.toTimeT (mtime + j1))) = true) ∨
  (o.lastModified = true ∧ q.ifModifiedSince ≠ [] ∧
    ∃ t, Date.parseHttpDate q.ifModifiedSince = some t ∧ Date.toTimeT (mtime + j2) ≤ t)

theorem serveRegular_cases {fs : FS} {o : Options} {q : Request} {j1 j2 : Int} {r : Response} {pc p : List Bytes} {content : Bytes}
    {mtime : Int} {out : Outcome} (h : serveRegular fs o q j1 j2 r pc p content mtime = out) :
    (Fresh o q j1 j2 content mtime ∧ ∃ resp, out = .done resp ∧ resp.status = 304 ∧ resp.body = [] ∧
      resp.contentType = none ∧ resp.contentLength = none ∧
      (o.etags = true → resp.etag = some (etagOf content.length (Date.toTimeT (mtime + j1))))) ∨
    (¬ Fresh o q j1 j2 content mtime ∧ ∃ r3 : Response, serveFile fs o q r3 pc p content = out ∧
      r3.contentRange = r.contentRange ∧
      (o.etags = true → r3.etag = some (etagOf content.length (Date.toTimeT (mtime + j1))))) := by
  unfold serveRegular at h
  simp only at h
  by_cases h1 : (o.etags && !q.ifNoneMatch.isEmpty &&
      ifNoneMatchContains q.ifNoneMatch (etagOf content.length (Date.toTimeT (mtime + j1)))) = true
  · rw [if_pos h1] at h
    rw [Bool.and_eq_true, Bool.and_eq_true] at h1
    refine .inl ⟨.inl ⟨h1.1.1, by simpa using h1.1.2, h1.2⟩, _, h.symm, rfl, rfl, rfl, rfl, ?_⟩
    intro he; simp [he]
  rw [if_neg h1] at h
  by_cases h2 : (o.lastModified && !q.ifModifiedSince.isEmpty &&
unmodifiedSince q.ifModifiedSince (Date.toTimeT (mtime + j2))) = true
  · rw [if_pos h2] at h
    rw [Bool.and_eq_true, Bool.and_eq_true] at h2
    refine .inl ⟨.inr ⟨h2.1.1, by simpa using h2.1.2, ?_⟩, _, h.symm, rfl, rfl, rfl, rfl, ?_⟩
    · revert h2
      unfold unmodifiedSince
      cases Date.parseHttpDate q.ifModifiedSince with
      | none => rintro ⟨-, h⟩; cases h
      | some t => rintro ⟨-, h⟩; exact ⟨t, rfl, of_decide_eq_true h⟩
    · intro he; cases o.lastModified <;> simp [he]
  rw [if_neg h2] at h
  refine .inr ⟨?_, _, h, ?_, ?_⟩
  · rintro (⟨a, b, c⟩ | ⟨a, b, t, c, d⟩)
    · apply h1; simp [a, b, c]
    · apply h2; simp [a, b, c, d, unmodifiedSince]
  · cases o.lastModified <;> cases o.ranges <;> cases o.etags <;> rfl
  · intro he; cases o.lastModified <;> cases o.ranges <;> simp [he]

end Verif.Static
