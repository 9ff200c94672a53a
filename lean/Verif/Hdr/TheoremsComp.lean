import Verif.Hdr.TheoremsNeg
import Verif.Hdr.SpecComp
import Verif.Wire.Lemmas

/-! # C111: compressed responses; C112: compressed requests -/

namespace Verif.Hdr
open Verif.Utility Verif.Utility.Spec Verif.Wire Verif.Parse Verif.Mid

/-! ## `Body::compress` -/

/-- The loop ends; it has written everything, or it has run out of input after filling more than the size of the body. -/
theorem compressLoop_spec (n : Nat) (p : Prov) (fuel k i o size : Nat) (ho : o = min size p.out.length) (hi : i = n → n + 32 ≤ o ∨ o = p.out.length)
    (hf : (p.out.length - o) + 1 ≤ fuel ∨ (p.out.length = o ∧ size = o ∧ 1 ≤ fuel)) (hs : size = 0 ∨ n + 32 ≤ size) :
    ∃ o', compressLoop n p fuel k i o size = some o' ∧ o' ≤ p.out.length ∧ (o' = p.out.length ∨ n + 32 ≤ o') := by
  induction fuel generalizing k i o size with
  | zero => omega
  | succ fuel ih =>
    rw [compressLoop]
    by_cases h : i = n
    · rw [if_pos (by simpa using h)]
      refine ⟨o, rfl, by omega, ?_⟩
      rcases hi h with h | h <;> omega
    · rw [if_neg (by simpa using h)]
      simp only []
      generalize hS : size + (n + 32) = S
      have hw : o + min (S - o) (p.out.length - o) = min S p.out.length := by omega
      by_cases hd : (o + min (S - o) (p.out.length - o) == p.out.length && (decide (min (S - o) (p.out.length - o) < S - o) || p.eager k)) = true
      · rw [if_pos hd]
        simp only [Bool.and_eq_true, beq_iff_eq] at hd
        exact ⟨_, rfl, by omega, .inl hd.1⟩
      · rw [if_neg hd]
        apply ih
        · exact hw
        · intro _; omega
        · by_cases hlt : S < p.out.length
          · left; omega
          · have hfull : o + min (S - o) (p.out.length - o) = p.out.length := by omega
            have hns : ¬ (min (S - o) (p.out.length - o) < S - o) := by
              intro hx
              apply hd
              rw [hfull]
              simp [hx]
            rcases Nat.eq_zero_or_pos fuel with h0 | h0
            · exfalso; omega
            · right; omega
        · right; omega

theorem compress_out (n : Nat) (p : Prov) : n ≠ 0 → ∃ o, compressLoop n p (calls p) 0 0 0 0 = some o ∧ o ≤ p.out.length ∧ (o = p.out.length ∨ n + 32 ≤ o) := by
  intro hn
  apply compressLoop_spec
  · omega
  · intro h; exact absurd h.symm hn
  · left; unfold calls; omega
  · left; rfl

theorem split_token {e : Bytes} (h : Token e) : splitString e b!",; \t" = [e] := by
  obtain ⟨fs, h1, h2⟩ := C06_split_string_exact e b!",; \t"
  have := fieldsP_unique h1 (.last h.2)
  rw [h2, this]
  simp [h.1]

theorem getCompressor_token (make : Bytes → Option (Bytes → Prov)) (e : Bytes) (h : Token e) :
    (∃ f, getCompressor make e = .provider f ∧ make e = some f) ∨ getCompressor make e = .null ∨ getCompressor make e = .throws := by
  unfold getCompressor
  rw [split_token h]
  simp only [List.findSome?_cons, List.findSome?_nil]
  by_cases hc : (iequals e b!"chunked" || iequals e b!"identity") = true
  · rw [if_pos hc]
    simp only []
    right
    split
    · exact .inl rfl
    · split
      · exact .inl rfl
      · exact .inr rfl
  · rw [if_neg hc]
    cases make e with
    | some f => left; exact ⟨f, rfl, rfl⟩
    | none =>
      right
      simp only []
      split
      · exact .inl rfl
      · split
        · exact .inl rfl
        · exact .inr rfl

/-- C111: `compress` answers with an output that decodes to the body, or with one longer than the body. -/
theorem C111_compress (make : Bytes → Option (Bytes → Prov)) (dec : Bytes → Bytes → Option Bytes) (hd : Decodable make dec) (body e b : Bytes) (n : Nat)
    (he : Token e) (h : compress make body e = some (b, n)) : b.length = n ∧ (b = body ∨ dec e b = some body ∨ body.length + 32 ≤ n) := by
  unfold compress at h
  by_cases h0 : (body.isEmpty || e.isEmpty) = true
  · rw [if_pos h0] at h; injection h with h; injection h with h1 h2; subst h1 h2; exact ⟨rfl, .inl rfl⟩
  · rw [if_neg h0] at h
    have hb : body.length ≠ 0 := by
      intro hx; apply h0; simp [List.length_eq_zero_iff.mp hx]
    rcases getCompressor_token make e he with ⟨f, h1, h2⟩ | h1 | h1
    · rw [h1] at h
      simp only [] at h
      obtain ⟨o, ho, hle, hfin⟩ := compress_out body.length (f body) hb
      rw [ho] at h
      simp only [] at h
      injection h with h
      injection h with h3 h4
      subst h3 h4
      refine ⟨by simp; omega, ?_⟩
      rcases hfin with hfin | hfin
      · right; left
        rw [hfin, List.take_length]
        exact (hd e f body h2).1
      · right; right; exact hfin
    · rw [h1] at h; injection h with h; injection h with h1 h2; subst h1 h2; exact ⟨rfl, .inl rfl⟩
    · rw [h1] at h; cases h

theorem find_congr {h : Headers} {a b : Bytes} (e : SameName a b) : find h a = find h b := by
  have : iequals a b = true := (same_iff _ _).mpr e
  unfold find
  congr 1
  congr 1
  funext x
  rw [iequals_comm, iequals_congr this, iequals_comm]

theorem kept_refl (r : CResp) : Kept r r := ⟨rfl, rfl, fun _ _ => rfl, .inl rfl⟩

/-- C111: whatever the request accepts and whatever the library does within its contract, the response is sent as it was, or it is sent
in a coding that the client accepts with a non-zero quality, decodes to the same octets, is shorter, and is declared with `Content-Encoding`, `Vary`
and the right `Content-Length`; nothing else changes. -/
theorem C111_faithful (make : Bytes → Option (Bytes → Prov)) (dec : Bytes → Bytes → Option Bytes) (hd : Decodable make dec) (o : COptions)
    (hp : ∀ p ∈ o.prefs, Token p) (accept : Bytes) (r : CResp) :
    Kept r (compressResponse make o accept r) ∨
    (∃ e l q, e ∈ o.prefs ∧ Listed accept l ∧ Weight l e q ∧ 0 < q ∧ valuesOf r.headers b!"Content-Encoding" = none ∧ o.minSize ≤ r.body.length ∧
      Coded dec e r (compressResponse make o accept r)) := by
  unfold compressResponse
  by_cases h0 : r.body.isEmpty = true
  · rw [if_pos h0]; exact .inl (kept_refl r)
  rw [if_neg h0]
  by_cases h1 : (decide (r.body.length < o.minSize) || (find r.headers b!"Content-Encoding").isSome || precompressed (mediaType r.headers)) = true
  · rw [if_pos h1]; exact .inl (kept_refl r)
  rw [if_neg h1]
  simp only [Bool.or_eq_true, decide_eq_true_eq, not_or, Bool.not_eq_true] at h1
  obtain ⟨⟨h1, h2⟩, _⟩ := h1
  have hce : find r.headers b!"Content-Encoding" = none := by simpa using h2
  simp only []
  by_cases he : (selectEncoding accept o.prefs).isEmpty = true
  · rw [if_pos he]; exact .inl (kept_refl r)
  rw [if_neg he]
  have hne : selectEncoding accept o.prefs ≠ [] := by simpa using he
  obtain ⟨hmem, l, q, hl, hw, hq⟩ := C109_acceptable accept o.prefs hne
  generalize selectEncoding accept o.prefs = e at *
  cases hc : compress make r.body e with
  | none => exact .inl (kept_refl r)
  | some bn =>
    obtain ⟨b, n⟩ := bn
    simp only []
    obtain ⟨hlen, hcase⟩ := C111_compress make dec hd r.body e b n (hp e hmem) hc
    by_cases hlt : (n > 0 && decide (n < r.body.length)) = true
    · rw [if_pos hlt]
      right
      simp only [gt_iff_lt, Bool.and_eq_true, decide_eq_true_eq] at hlt
      have hdec : dec e b = some r.body := by
        rcases hcase with h | h | h
        · rw [h] at hlen; omega
        · exact h
        · omega
      refine ⟨e, l, q, hmem, hl, hw, hq, hce, by omega, rfl, hdec, by show b.length < _; omega, ?_, ?_, ?_, ?_⟩
      · show find (setHeader (push (setHeader r.headers b!"Content-Encoding" e) b!"Vary" b!"Accept-Encoding") b!"Content-Length" (Date.decNat n)) b!"Content-Encoding" = _
        rw [find_setHeader, if_neg (by decide), find_push, if_neg (by decide), find_setHeader, if_pos (by decide)]
      · refine ⟨(find r.headers b!"Vary").getD [], ?_, rfl⟩
        show find (setHeader (push (setHeader r.headers b!"Content-Encoding" e) b!"Vary" b!"Accept-Encoding") b!"Content-Length" (Date.decNat n)) b!"Vary" = _
        rw [find_setHeader, if_neg (by decide), find_push, if_pos (by decide), find_setHeader, if_neg (by decide)]
      · refine ⟨Date.decNat n, ?_, ?_⟩
        · show find (setHeader (push (setHeader r.headers b!"Content-Encoding" e) b!"Vary" b!"Accept-Encoding") b!"Content-Length" (Date.decNat n)) b!"Content-Length" = _
          rw [find_setHeader, if_pos (by decide)]
        · show Spec.Decimal _ b.length
          rw [hlen]; exact decNat_decimal n
      · intro m hm
        unfold Touched at hm
        have h3 : ∀ k, ¬ SameName m k → iequals k m = false := by
          intro k hk
          cases hx : iequals k m with
          | false => rfl
          | true => exact absurd ((same_iff _ _).mp hx).symm hk
        show find (setHeader (push (setHeader r.headers b!"Content-Encoding" e) b!"Vary" b!"Accept-Encoding") b!"Content-Length" (Date.decNat n)) m = _
        rw [find_setHeader, h3 _ (fun h => hm (.inr (.inr h))), if_neg (by simp), find_push, h3 _ (fun h => hm (.inr (.inl h))), if_neg (by simp),
          find_setHeader, h3 _ (fun h => hm (.inl h)), if_neg (by simp)]
        rfl
    · rw [if_neg hlt]
      left
      by_cases hpos : n > 0
      · rw [if_pos hpos]
        refine ⟨rfl, rfl, ?_, ?_⟩
        · intro m hm
          show find (removeHeader (removeHeader r.headers b!"Content-Encoding") b!"Content-Length") m = find r.headers m
          rw [find_removeHeader, if_neg, find_removeHeader]
          · by_cases hx : iequals b!"Content-Encoding" m = true
            · rw [if_pos hx, find_congr ((same_iff _ _).mp hx).symm, hce]
            · rw [if_neg hx]
          · intro hx; exact hm ((same_iff _ _).mp hx).symm
        · right
          show find (removeHeader (removeHeader r.headers b!"Content-Encoding") b!"Content-Length") b!"Content-Length" = none
          rw [find_removeHeader, if_pos (by decide)]
      · exfalso
        have hn : n = 0 := by omega
        subst hn
        have hb : b = [] := List.length_eq_zero_iff.mp hlen
        subst hb
        rcases hcase with h | h | h
        · rw [← h] at h0; exact h0 rfl
        · -- the library would have compressed to nothing
          unfold compress at hc
          rw [if_neg (by
            simp only [Bool.or_eq_true, not_or]
            exact ⟨h0, he⟩)] at hc
          rcases getCompressor_token make e (hp e hmem) with ⟨f, h1, h2⟩ | h1 | h1
          · rw [h1] at hc
            simp only [] at hc
            have hbl : r.body.length ≠ 0 := by intro hx; apply h0; simp [List.length_eq_zero_iff.mp hx]
            obtain ⟨o', ho, hle, hfin⟩ := compress_out r.body.length (f r.body) hbl
            rw [ho] at hc
            simp only [] at hc
            injection hc with hc
            injection hc with _ h4
            subst h4
            have := (hd e f r.body h2).2
            rcases hfin with hfin | hfin
            · exact this (List.length_eq_zero_iff.mp hfin.symm)
            · omega
          · rw [h1] at hc; injection hc with hc; injection hc with hc; rw [hc] at h0; exact h0 rfl
          · rw [h1] at hc; cases hc
        · omega

/-! ### A library for the examples: one text of 100 octets has a short code -/

/-- The body of the examples. -/
def big : Bytes := List.replicate 2000 65

/-- A code that shortens `big`. -/
def toyEnc (b : Bytes) : Bytes := if b = big then [0] else 1 :: b

/-- Its decoder. -/
def toyDec (b : Bytes) : Option Bytes := match b with
  | [0] => some big
  | 1 :: b => some b
  | _ => none

/-- A library that knows `gzip` only. -/
def toyMake (e : Bytes) : Option (Bytes → Prov) := if e = b!"gzip" then some (fun b => { out := toyEnc b }) else none

theorem toy_decodable : Decodable toyMake (fun _ => toyDec) := by
  intro e f b h
  unfold toyMake at h
  split at h
  · injection h with h
    subst h
    show toyDec (toyEnc b) = some b ∧ toyEnc b ≠ []
    unfold toyEnc
    split
    · next hb => rw [hb]; exact ⟨rfl, by simp⟩
    · exact ⟨rfl, by simp⟩
  · cases h

/-- A response of the examples. -/
def toyResp : CResp := { body := big, headers := [(b!"Content-Type", [b!"text/plain"])] }

theorem big_len : big.length = 2000 := List.length_replicate

theorem big_ne : big.isEmpty = false := by
  cases h : big with
  | nil => have := big_len; rw [h] at this; cases this
  | cons _ _ => rfl

theorem toy_compress : compress toyMake big b!"gzip" = some ([0], 1) := by
  unfold compress
  rw [big_ne]
  have : getCompressor toyMake b!"gzip" = .provider (fun b => { out := toyEnc b }) := by
    unfold getCompressor
    rw [split_token ⟨by decide, by decide⟩]
    simp only [List.findSome?_cons, List.findSome?_nil]
    rw [if_neg (by decide)]
    rfl
  rw [if_neg (by decide), this]
  simp only []
  have h2 : toyEnc big = [0] := by unfold toyEnc; rw [if_pos rfl]
  rw [h2, big_len]
  decide

theorem toy_result (h : Headers) (st : Nat) (hce : find h b!"Content-Encoding" = none) (hpre : precompressed (mediaType h) = false) :
    (compressResponse toyMake {} b!"gzip" { status := st, headers := h, body := big }).body = [0] := by
  unfold compressResponse
  have hs : selectEncoding b!"gzip" [b!"gzip", b!"deflate"] = b!"gzip" := by decide +kernel
  simp only [big_ne, big_len, hce, hpre, hs, toy_compress, Option.isSome_none, Bool.or_false]
  rw [if_neg (by simp), if_neg (by decide), if_neg (by simp), if_pos (by decide)]

example : (compressResponse toyMake {} b!"gzip" toyResp).body = [0] := toy_result _ _ (by decide) (by decide +kernel)

/-- C111, refuted: a partial response (206 with `Content-Range`) is compressed too, so that its range no longer refers to the octets of the
representation it names, and a strong entity tag is kept although the octets change. -/
theorem C111_partial_content_refuted :
    let r : CResp := { status := 206, body := big, headers := [(b!"Content-Range", [b!"bytes 0-1999/5000"]), (b!"ETag", [b!"\"v1\""])] }
    let r' := compressResponse toyMake {} b!"gzip" r
    r'.body = [0] ∧ r'.status = 206 ∧ valuesOf r'.headers b!"Content-Range" = some [b!"bytes 0-1999/5000"] ∧ valuesOf r'.headers b!"ETag" = some [b!"\"v1\""] := by
  intro r r'
  have hb : r'.body = [0] := toy_result _ _ (by decide) (by decide +kernel)
  refine ⟨hb, ?_⟩
  have hpr : ∀ p ∈ ({} : COptions).prefs, Token p := by
    intro p hp
    have : p = b!"gzip" ∨ p = b!"deflate" := by simpa using hp
    rcases this with rfl | rfl <;> exact ⟨by decide, by decide⟩
  rcases C111_faithful toyMake _ toy_decodable {} hpr b!"gzip" r with h | ⟨e, l, q, _, _, _, _, _, _, h⟩
  · obtain ⟨h1, _, h3, _⟩ := h
    exact ⟨h1, h3 _ (by unfold SameName; decide), h3 _ (by unfold SameName; decide)⟩
  · obtain ⟨h1, _, _, _, _, _, h7⟩ := h
    exact ⟨h1, h7 _ (by unfold Touched SameName; decide), h7 _ (by unfold Touched SameName; decide)⟩

/-- A library whose output is cut: it takes all the input in its first call although the output does not fit. -/
def wordy (b : Bytes) : Prov := { out := List.replicate 100 7 ++ b, take := fun _ => b.length }

/-- C111, refuted for `compress` alone: if the library has read all its input before all output fits, the output is cut and not reported. -/
theorem C111_cut_refuted : ∃ (make : Bytes → Option (Bytes → Prov)) (dec : Bytes → Bytes → Option Bytes), Decodable make dec ∧
    ∃ b n, compress make b!"text" b!"gzip" = some (b, n) ∧ dec b!"gzip" b = none := by
  refine ⟨fun e => if e = b!"gzip" then some wordy else none, fun _ b => if b.take 100 = List.replicate 100 7 then some (b.drop 100) else none, ?_, ?_⟩
  · intro e f b h
    simp only [] at h
    split at h
    · injection h with h
      subst h
      simp [wordy]
    · cases h
  · refine ⟨(wordy b!"text").out.take 36, 36, ?_, ?_⟩
    · have : getCompressor (fun e => if e = b!"gzip" then some wordy else none) b!"gzip" = .provider wordy := by
        unfold getCompressor
        rw [split_token ⟨by decide, by decide⟩]
        simp only [List.findSome?_cons, List.findSome?_nil]
        rw [if_neg (by decide)]
        rfl
      unfold compress
      rw [if_neg (by decide), this]
      simp only []
      have h2 : compressLoop b!"text".length (wordy b!"text") (calls (wordy b!"text")) 0 0 0 0 = some 36 := by decide +kernel
      rw [h2]
    · simp only []
      decide +kernel

/-! ## `Body::uncompress` -/

/-- What the loop of `uncompress` has allocated stays within the limit and one more round; what it returns is within the limit. -/
theorem uncompressLoop_bound (n : Nat) (p : DProv) (hn : 0 < n) (fuel k i o size : Nat) (ho : o = min size p.out.length) (hm : o ≤ MAX_BODY_SIZE)
    (hs : size ≤ MAX_BODY_SIZE + n * 2) (hfull : i ≠ n → size = o) :
    match uncompressLoop n p fuel k i o size with
    | .ok o' s => o' ≤ MAX_BODY_SIZE ∧ s ≤ MAX_BODY_SIZE + n * 2
    | .limit s => s ≤ MAX_BODY_SIZE + n * 2
    | .bad s => s ≤ MAX_BODY_SIZE + n * 2
    | .more => True := by
  induction fuel generalizing k i o size with
  | zero =>
    rw [uncompressLoop]
    by_cases h : i = n
    · rw [if_pos (by simpa using h)]; exact ⟨hm, hs⟩
    · rw [if_neg (by simpa using h)]; trivial
  | succ fuel ih =>
    rw [uncompressLoop]
    by_cases h : i = n
    · rw [if_pos (by simpa using h)]; exact ⟨hm, hs⟩
    · rw [if_neg (by simpa using h)]
      simp only []
      have hsz := hfull h
      generalize hS : size + n * 2 = S
      have hS' : S ≤ MAX_BODY_SIZE + n * 2 := by omega
      have hw : o + min (S - o) (p.out.length - o) = min S p.out.length := by omega
      by_cases hb : p.bad k = true
      · rw [if_pos hb]; exact hS'
      rw [if_neg hb]
      by_cases hlim : o + min (S - o) (p.out.length - o) > MAX_BODY_SIZE
      · rw [if_pos hlim]; exact hS'
      rw [if_neg hlim]
      by_cases hd : (p.complete && o + min (S - o) (p.out.length - o) == p.out.length && (decide (min (S - o) (p.out.length - o) < S - o) || p.eager k)) = true
      · rw [if_pos hd]; exact ⟨by omega, hS'⟩
      rw [if_neg hd]
      apply ih
      · exact hw
      · omega
      · exact hS'
      · intro hi
        by_cases hsp : min (S - o) (p.out.length - o) < S - o
        · exfalso
          by_cases hc : p.complete = true
          · apply hd
            have : o + min (S - o) (p.out.length - o) = p.out.length := by omega
            rw [this, hc]; simp [hsp]
          · rw [if_neg hc, if_pos (by simpa using hsp)] at hi
            exact hi rfl
        · omega

/-- A decompressor that is within its contract: it does not throw. -/
theorem uncompressLoop_done (n : Nat) (p : DProv) (hn : 0 < n) (hbad : ∀ k, p.bad k = false) (hmax : p.out.length ≤ MAX_BODY_SIZE)
    (fuel k i o size : Nat) (ho : o = min size p.out.length) (hi : p.complete = true → i < n) (hin : i = n → o = p.out.length)
    (hf : i = n ∨ (p.out.length - o) + 1 ≤ fuel ∨ (p.out.length = o ∧ size = o ∧ 1 ≤ fuel)) (hst : p.complete = false → ∀ k, p.take k = 0) :
    ∃ s, uncompressLoop n p fuel k i o size = .ok p.out.length s := by
  induction fuel generalizing k i o size with
  | zero =>
    have h : i = n := by omega
    rw [uncompressLoop, if_pos (by simpa using h), hin h]; exact ⟨_, rfl⟩
  | succ fuel ih =>
    rw [uncompressLoop]
    by_cases h : i = n
    · rw [if_pos (by simpa using h), hin h]; exact ⟨_, rfl⟩
    rw [if_neg (by simpa using h)]
    simp only []
    rw [hbad k, if_neg (by simp)]
    generalize hS : size + n * 2 = S
    have hw : o + min (S - o) (p.out.length - o) = min S p.out.length := by omega
    rw [if_neg (by omega)]
    by_cases hd : (p.complete && o + min (S - o) (p.out.length - o) == p.out.length && (decide (min (S - o) (p.out.length - o) < S - o) || p.eager k)) = true
    · rw [if_pos hd]
      simp only [Bool.and_eq_true, beq_iff_eq] at hd
      rw [hd.1.2]; exact ⟨_, rfl⟩
    rw [if_neg hd]
    apply ih
    · exact hw
    · intro hc
      have := hi hc
      rw [if_pos hc]
      omega
    · intro hi'
      by_cases hc : p.complete = true
      · exfalso
        rw [if_pos hc] at hi'
        have := hi hc
        omega
      · have hc' : p.complete = false := by simpa using hc
        rw [if_neg hc] at hi'
        by_cases hsp : min (S - o) (p.out.length - o) < S - o
        · omega
        · exfalso
          rw [if_neg (by simpa using hsp), hst hc' k] at hi'
          omega
    · by_cases hlt : S < p.out.length
      · right; left; omega
      · have hfull : o + min (S - o) (p.out.length - o) = p.out.length := by omega
        by_cases hc : p.complete = true
        · have hns : ¬ (min (S - o) (p.out.length - o) < S - o) := by
            intro hx; apply hd; rw [hfull, hc]; simp [hx]
          right; right; omega
        · rcases Nat.lt_or_ge S (p.out.length + 1) with h1 | h1
          · right; right; omega
          · left
            rw [if_neg hc, if_pos (by simp; omega)]

/-- C112: a decompressed body is never larger than the limit of 100 MiB, and decompressing never allocates more than that and twice the
compressed body. -/
theorem C112_bounded (make : Bytes → Option (Bytes → DProv)) (body encoding : Bytes) (b : Bytes) (h : uncompress make body encoding = .ok b) :
    b.length ≤ 100 * 1024 * 1024 ∨ b = body := by
  unfold uncompress at h
  by_cases h0 : (body.isEmpty || encoding.isEmpty) = true
  · rw [if_pos h0] at h; injection h with h; exact .inr h.symm
  rw [if_neg h0] at h
  left
  have hb : 0 < body.length := by
    apply List.length_pos_iff.mpr; intro hx; apply h0; simp [hx]
  cases hg : getDecompressor make encoding with
  | none => rw [hg] at h; cases h
  | some f =>
    rw [hg] at h
    simp only [] at h
    have := uncompressLoop_bound body.length (f body) hb (dcalls (f body)) 0 0 0 0 (by omega) (by simp) (by omega) (by intro _; rfl)
    cases hl : uncompressLoop body.length (f body) (dcalls (f body)) 0 0 0 0 with
    | ok o s =>
      rw [hl] at h this
      simp only [] at h this
      injection h with h
      rw [← h]
      have h1 := this.1
      unfold MAX_BODY_SIZE at h1
      have := List.length_take_le o (f body).out
      omega
    | limit s => rw [hl] at h; cases h
    | bad s => rw [hl] at h; cases h
    | more => rw [hl] at h; cases h

/-- C112: the memory a decompression takes is bounded whatever the stream claims. -/
theorem C112_allocation (n : Nat) (p : DProv) (hn : 0 < n) (fuel : Nat) (s : Nat)
    (h : (∃ o, uncompressLoop n p fuel 0 0 0 0 = .ok o s) ∨ uncompressLoop n p fuel 0 0 0 0 = .limit s ∨ uncompressLoop n p fuel 0 0 0 0 = .bad s) :
    s ≤ 100 * 1024 * 1024 + 2 * n := by
  have := uncompressLoop_bound n p hn fuel 0 0 0 0 (by omega) (by simp) (by omega) (by intro _; rfl)
  have e : MAX_BODY_SIZE + n * 2 = 100 * 1024 * 1024 + 2 * n := by unfold MAX_BODY_SIZE; omega
  rw [e] at this
  rcases h with ⟨o, h⟩ | h | h
  · rw [h] at this; exact this.2
  · rw [h] at this; exact this
  · rw [h] at this; exact this

/-- C112: a complete stream within the limit is decompressed whole, however the library cuts its work into calls. -/
theorem C112_whole (make : Bytes → Option (Bytes → DProv)) (body encoding : Bytes) (f : Bytes → DProv) (hb : body ≠ []) (he : encoding ≠ [])
    (hg : getDecompressor make encoding = some f) (hc : (f body).complete = true) (hbad : ∀ k, (f body).bad k = false)
    (hmax : (f body).out.length ≤ 100 * 1024 * 1024) : uncompress make body encoding = .ok (f body).out := by
  unfold uncompress
  rw [if_neg (by simp [hb, he]), hg]
  simp only []
  have hl : 0 < body.length := List.length_pos_iff.mpr hb
  obtain ⟨s, h⟩ := uncompressLoop_done body.length (f body) hl hbad (by unfold MAX_BODY_SIZE; omega) (dcalls (f body)) 0 0 0 0 (by omega) (fun _ => hl)
    (by intro h; omega) (by right; left; unfold dcalls; omega) (by rw [hc]; intro h; cases h)
  rw [h]
  simp

/-- C112: one coding that the library knows is undone by it. -/
theorem C112_single (make : Bytes → Option (Bytes → DProv)) (e : Bytes) (f : Bytes → DProv) (h : Token e) (hm : make e = some f) :
    getDecompressor make e = some f := by
  unfold getDecompressor
  have : splitString e b!", \t" = [e] := by
    obtain ⟨fs, h1, h2⟩ := C06_split_string_exact e b!", \t"
    have := fieldsP_unique h1 (.last (fun c hc hx => h.2 c hc (by simp at hx ⊢; rcases hx with h | h | h <;> simp [h])))
    rw [h2, this]
    simp [h.1]
  rw [this]
  simp [decompressorLoop, hm]

/-- C112: several codings that the library knows are refused. -/
theorem C112_several (make : Bytes → Option (Bytes → DProv)) (ts : List Bytes) (d : Option (Bytes → DProv)) :
    (if d.isSome then 1 else 0) + (ts.filter (fun t => (make t).isSome)).length ≥ 2 → decompressorLoop make ts d = none := by
  induction ts generalizing d with
  | nil => intro h; cases d <;> simp at h
  | cons t ts ih =>
    intro h
    rw [decompressorLoop]
    cases hm : make t with
    | some f =>
      simp only []
      by_cases hd : d.isSome = true
      · rw [if_pos hd]
      · rw [if_neg hd]
        apply ih
        rw [List.filter_cons_of_pos (by rw [hm]; rfl)] at h
        rw [if_neg hd] at h
        simp at h ⊢
        omega
    | none =>
      simp only []
      split
      · rfl
      · apply ih
        rw [List.filter_cons_of_neg (by rw [hm]; simp)] at h
        exact h

/-- C112: a request passed on after decompression carries the decompressed body, no `Content-Encoding`, and a `Content-Length` of that body if it
had one; other headers are kept. -/
theorem C112_request (make : Bytes → Option (Bytes → DProv)) (r r' : CReq) (h : decompressRequest make r = .pass r') :
    (r' = r ∧ (r.body = [] ∨ header r.headers b!"Content-Encoding" = [])) ∨
    (uncompress make r.body (header r.headers b!"Content-Encoding") = .ok r'.body ∧ valuesOf r'.headers b!"Content-Encoding" = none ∧
      (valuesOf r.headers b!"Content-Length" ≠ none → ∃ t, valuesOf r'.headers b!"Content-Length" = some [t] ∧ Spec.Decimal t r'.body.length) ∧
      (valuesOf r.headers b!"Content-Length" = none → valuesOf r'.headers b!"Content-Length" = none) ∧
      ∀ n, ¬ SameName n b!"Content-Encoding" → ¬ SameName n b!"Content-Length" → valuesOf r'.headers n = valuesOf r.headers n) := by
  unfold decompressRequest at h
  by_cases hce : ((find r.headers b!"Content-Encoding").isSome && !(header r.headers b!"Content-Encoding").isEmpty) = true
  · rw [if_pos hce] at h
    simp only [] at h
    by_cases h0 : (r.body.isEmpty || (header r.headers b!"Content-Encoding").isEmpty) = true
    · rw [if_pos h0] at h
      injection h with h
      left
      refine ⟨h.symm, ?_⟩
      simpa using h0
    rw [if_neg h0] at h
    cases hu : uncompress make r.body (header r.headers b!"Content-Encoding") with
    | error x => rw [hu] at h; cases x <;> cases h
    | ok b =>
      rw [hu] at h
      simp only [] at h
      injection h with h
      subst h
      right
      have hcl : find (removeHeader r.headers b!"Content-Encoding") b!"Content-Length" = find r.headers b!"Content-Length" := by
        rw [find_removeHeader, if_neg (by decide)]
      have hother : ∀ n k, ¬ SameName n k → iequals k n = false := by
        intro n k hk
        cases hx : iequals k n with
        | false => rfl
        | true => exact absurd ((same_iff _ _).mp hx).symm hk
      unfold valuesOf
      rw [hcl]
      refine ⟨rfl, ?_, ?_, ?_, ?_⟩
      · simp only []
        split
        · rw [find_setHeader, if_neg (by decide), find_removeHeader, if_pos (by decide)]
        · rw [find_removeHeader, if_pos (by decide)]
      · intro hx
        refine ⟨Date.decNat b.length, ?_, decNat_decimal _⟩
        simp only []
        rw [if_pos (by rw [Option.isSome_iff_ne_none]; exact hx), find_setHeader, if_pos (by decide)]
      · intro hx
        simp only []
        rw [hx, if_neg (by simp), hcl, hx]
      · intro n h1 h2
        simp only []
        split
        · rw [find_setHeader, hother _ _ h2, if_neg (by simp), find_removeHeader, hother _ _ h1, if_neg (by simp)]
        · rw [find_removeHeader, hother _ _ h1, if_neg (by simp)]
  · rw [if_neg hce] at h
    injection h with h
    left
    refine ⟨h.symm, ?_⟩
    right
    simp only [Bool.and_eq_true, not_and, Bool.not_eq_true', Bool.not_eq_false] at hce
    cases hf : find r.headers b!"Content-Encoding" with
    | none => unfold header; rw [hf]; rfl
    | some v => have := hce (by rw [hf]; rfl); simpa using this

/-- C112: a decompression that fails is answered, not passed on. -/
theorem C112_refused (make : Bytes → Option (Bytes → DProv)) (r : CReq) (x : Exc) (hb : r.body ≠ [])
    (h : uncompress make r.body (header r.headers b!"Content-Encoding") = .error x) : ∃ s, decompressRequest make r = .answer s ∧ (s = 400 ∨ s = 500) := by
  unfold decompressRequest
  have he : header r.headers b!"Content-Encoding" ≠ [] := by
    intro hx
    rw [hx] at h
    unfold uncompress at h
    rw [if_pos (by simp)] at h
    cases h
  have hs : (find r.headers b!"Content-Encoding").isSome = true := by
    cases hf : find r.headers b!"Content-Encoding" with
    | none => exfalso; apply he; unfold header; rw [hf]; rfl
    | some v => rfl
  rw [if_pos (by rw [hs]; simp [he])]
  simp only []
  rw [if_neg (by simp [hb, he]), h]
  cases x
  · exact ⟨400, rfl, .inl rfl⟩
  · exact ⟨500, rfl, .inr rfl⟩

/-- A stream that expands to `big`, and the same stream cut off. -/
def toyUn (complete : Bool) (e : Bytes) : Option (Bytes → DProv) := if e = b!"gzip" then some (fun _ => { out := big, complete := complete }) else none

/-- The request of the examples. -/
def toyReq (ce : Bytes) : CReq := { body := b!"xyz", headers := [(b!"Content-Encoding", [ce]), (b!"Content-Length", [b!"3"])] }

example : uncompress (toyUn true) b!"xyz" b!"gzip" = .ok big :=
  C112_whole (toyUn true) b!"xyz" b!"gzip" _ (by decide) (by decide) (C112_single (toyUn true) b!"gzip" _ ⟨by decide, by decide⟩ rfl) rfl (fun _ => rfl)
    (by show big.length ≤ _; rw [big_len]; decide)

/-- C112, refuted for a stream that is cut off: what there is of it is taken for the whole body, without an error. -/
theorem C112_truncated_refuted (make : Bytes → Option (Bytes → DProv)) (body encoding : Bytes) (f : Bytes → DProv) (hb : body ≠ []) (he : encoding ≠ [])
    (hg : getDecompressor make encoding = some f) (hc : (f body).complete = false) (ht : ∀ k, (f body).take k = 0) (hbad : ∀ k, (f body).bad k = false)
    (hmax : (f body).out.length ≤ 100 * 1024 * 1024) : uncompress make body encoding = .ok (f body).out := by
  unfold uncompress
  rw [if_neg (by simp [hb, he]), hg]
  simp only []
  have hl : 0 < body.length := List.length_pos_iff.mpr hb
  obtain ⟨s, h⟩ := uncompressLoop_done body.length (f body) hl hbad (by unfold MAX_BODY_SIZE; omega) (dcalls (f body)) 0 0 0 0 (by omega)
    (by rw [hc]; intro h; cases h) (by intro h; omega) (by right; left; unfold dcalls; omega) (fun _ => ht)
  rw [h]
  simp

example : uncompress (toyUn false) b!"xyz" b!"gzip" = .ok big :=
  C112_truncated_refuted (toyUn false) b!"xyz" b!"gzip" _ (by decide) (by decide) (C112_single (toyUn false) b!"gzip" _ ⟨by decide, by decide⟩ rfl) rfl (fun _ => rfl)
    (fun _ => rfl) (by show big.length ≤ _; rw [big_len]; decide)

/-- C112, refuted for several codings: one that the library does not know is ignored, so that the handler gets a body still coded in it
without a `Content-Encoding`. -/
theorem C112_unknown_coding_refuted : ∃ r', decompressRequest (toyUn true) (toyReq b!"br, gzip") = .pass r' ∧
    uncompress (toyUn true) b!"xyz" b!"gzip" = .ok r'.body ∧ valuesOf r'.headers b!"Content-Encoding" = none := by
  have hg : getDecompressor (toyUn true) b!"br, gzip" = some (fun _ => { out := big, complete := true }) := by
    unfold getDecompressor
    have : splitString b!"br, gzip" b!", \t" = [b!"br", b!"gzip"] := by decide +kernel
    rw [this]
    have h1 : toyUn true b!"br" = none := by unfold toyUn; rw [if_neg (by decide)]
    have h2 : toyUn true b!"gzip" = some (fun _ => { out := big, complete := true }) := by unfold toyUn; rw [if_pos rfl]
    rw [decompressorLoop, h1]
    simp only []
    rw [if_neg (by decide), decompressorLoop, h2]
    rfl
  have hu : uncompress (toyUn true) b!"xyz" b!"br, gzip" = .ok big :=
    C112_whole (toyUn true) b!"xyz" b!"br, gzip" _ (by decide) (by decide) hg rfl (fun _ => rfl) (by show big.length ≤ _; rw [big_len]; decide)
  have hu2 : uncompress (toyUn true) b!"xyz" b!"gzip" = .ok big :=
    C112_whole (toyUn true) b!"xyz" b!"gzip" _ (by decide) (by decide) (C112_single (toyUn true) b!"gzip" _ ⟨by decide, by decide⟩ rfl) rfl (fun _ => rfl)
      (by show big.length ≤ _; rw [big_len]; decide)
  cases hd : decompressRequest (toyUn true) (toyReq b!"br, gzip") with
  | answer s =>
    exfalso
    unfold decompressRequest at hd
    have h1 : header (toyReq b!"br, gzip").headers b!"Content-Encoding" = b!"br, gzip" := by decide +kernel
    have h2 : (find (toyReq b!"br, gzip").headers b!"Content-Encoding").isSome = true := by decide +kernel
    have h3 : (toyReq b!"br, gzip").body = b!"xyz" := rfl
    rw [h1, h2, h3, if_pos (by decide)] at hd
    simp only [] at hd
    rw [if_neg (by decide), hu] at hd
    cases hd
  | pass r' =>
    refine ⟨r', rfl, ?_⟩
    rcases C112_request _ _ _ hd with ⟨_, h | h⟩ | ⟨h1, h2, _⟩
    · cases h
    · have : header (toyReq b!"br, gzip").headers b!"Content-Encoding" = b!"br, gzip" := by decide +kernel
      rw [this] at h; cases h
    · refine ⟨?_, h2⟩
      have h3 : header (toyReq b!"br, gzip").headers b!"Content-Encoding" = b!"br, gzip" := by decide +kernel
      rw [h3] at h1
      have h4 : uncompress (toyUn true) b!"xyz" b!"br, gzip" = .ok r'.body := h1
      rw [hu] at h4
      rw [hu2, h4]

/-- C112, refuted for `identity`: a request that says its body is not coded is refused. -/
theorem C112_identity_refuted (c : Bool) : decompressRequest (toyUn c) (toyReq b!"identity") = .answer 400 := by
  have hg : getDecompressor (toyUn c) b!"identity" = none := by
    unfold getDecompressor
    have : splitString b!"identity" b!", \t" = [b!"identity"] := by decide +kernel
    rw [this]
    have h1 : toyUn c b!"identity" = none := by unfold toyUn; rw [if_neg (by decide)]
    rw [decompressorLoop, h1]
    simp only []
    rw [if_neg (by decide)]
    rfl
  have hu : uncompress (toyUn c) b!"xyz" b!"identity" = .error .runtime := by
    unfold uncompress
    rw [if_neg (by decide), hg]
  unfold decompressRequest
  have h1 : header (toyReq b!"identity").headers b!"Content-Encoding" = b!"identity" := by decide +kernel
  have h2 : (find (toyReq b!"identity").headers b!"Content-Encoding").isSome = true := by decide +kernel
  have h3 : (toyReq b!"identity").body = b!"xyz" := rfl
  rw [h1, h2, h3, if_pos (by decide)]
  simp only []
  rw [if_neg (by decide), hu]

end Verif.Hdr
