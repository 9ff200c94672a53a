import Verif.Auth.Lemmas

/-! # C103: credentials in a header -/

namespace Verif.Auth
open Verif.Utility

theorem low_scheme_head {ws : UInt8 → Bool} {scheme s : Bytes} (hws : ∀ c, ws c = ws (low c)) (hs : SchemeOk ws scheme) (h : s.map low = scheme.map low) :
    ∃ c, s.head? = some c ∧ ws c = false := by
  obtain ⟨c, h1, h2, h3⟩ := hs
  cases scheme with
  | nil => cases h1
  | cons d scheme =>
    simp at h1; subst h1
    cases s with
    | nil => simp at h
    | cons e s =>
      refine ⟨e, rfl, ?_⟩
      simp only [List.map_cons, List.cons.injEq] at h
      rw [hws, h.1]; exact h3

theorem ws6_low (c : UInt8) : ws6 c = ws6 (low c) := by
  have : ∀ c : UInt8, ws6 c = ws6 (low c) := forall_byte (by decide +kernel)
  exact this c

theorem ws5_low (c : UInt8) : ws5 c = ws5 (low c) := by
  have : ∀ c : UInt8, ws5 c = ws5 (low c) := forall_byte (by decide +kernel)
  exact this c

theorem Trimmed.ne {p : UInt8 → Bool} {t : Bytes} (h : Trimmed p t) : t ≠ [] := by
  obtain ⟨c, e, _⟩ := h
  intro z; rw [z] at e; cases e

theorem Trimmed.head {p : UInt8 → Bool} {t : Bytes} (h : Trimmed p t) : ∀ c, t.head? = some c → p c = false := by
  obtain ⟨c, e, k, _⟩ := h
  intro d hd; rw [e] at hd; cases hd; exact k

theorem Trimmed.last {p : UInt8 → Bool} {t : Bytes} (h : Trimmed p t) : ∀ c, t.getLast? = some c → p c = false := by
  obtain ⟨_, _, _, d, e, k⟩ := h
  intro c hc; rw [e] at hc; cases hc; exact k

theorem take_left' (a b : Bytes) (n : Nat) (h : a.length = n) : (a ++ b).take n = a := by subst h; simp
theorem drop_left' (a b : Bytes) (n : Nat) (h : a.length = n) : (a ++ b).drop n = b := by subst h; simp

/-- **C103 (manager).** The token taken from a header value is exactly the one in `ws* scheme ws+ token ws*`, with the scheme in
any case; every other value gives none. -/
theorem C103_header_exact (scheme header token : Bytes) (hs : SchemeOk ws6 scheme) :
    (extractHeader scheme header = token ∧ token ≠ []) ↔ Credentials ws6 ws6 scheme header token := by
  constructor
  · rintro ⟨h, hne⟩
    unfold extractHeader at h
    obtain ⟨a, ea, ha⟩ := split_ws ws6 header
    simp only [] at h
    generalize hv : header.dropWhile ws6 = v at *
    split at h
    · exact absurd h.symm hne
    split at h
    · exact absurd h.symm hne
    rename_i h0 h1
    split at h
    · exact absurd h.symm hne
    rename_i h2
    split at h
    · exact absurd h.symm hne
    rename_i h3
    split at h
    · exact absurd h.symm hne
    rename_i h4
    have h2 : iequals (v.take scheme.length) scheme = true := by simpa using h2
    have h3 : ws6 (v.getD scheme.length 0) = true := by simpa using h3
    have h4 : (v.drop scheme.length).dropWhile ws6 ≠ [] := by simpa using h4
    have hlen : scheme.length < v.length := by omega
    obtain ⟨b, bs, eb⟩ : ∃ b bs, v.drop scheme.length = b :: bs := by
      cases hd : v.drop scheme.length with
      | nil => rw [List.drop_eq_nil_iff] at hd; omega
      | cons b bs => exact ⟨b, bs, rfl⟩
    have hb : ws6 b = true := by
      have : v.getD scheme.length 0 = b := by
        rw [List.getD_eq_getElem?_getD, ← List.head?_drop, eb]; rfl
      rw [← this]; exact h3
    rw [eb, List.dropWhile_cons, if_pos hb] at h h4
    obtain ⟨bs1, e1, a1⟩ := split_ws ws6 bs
    obtain ⟨z, e2, a2⟩ := dropEnd_split ws6 (bs.dropWhile ws6)
    rw [h] at e2
    obtain ⟨c, hc, pc⟩ := head_dropWhile ws6 bs h4
    have hl := dropEnd_last ws6 (bs.dropWhile ws6) (by rw [h]; exact hne)
    have hh := dropEnd_head ws6 (bs.dropWhile ws6) (by rw [h]; exact hne)
    rw [h] at hl hh
    refine ⟨a, v.take scheme.length, b, bs1, z, ?_, ha, (iequals_low _ _).mp h2, hb, a1, ⟨c, hh.trans hc, pc, hl⟩, a2⟩
    have : v = v.take scheme.length ++ v.drop scheme.length := (List.take_append_drop _ _).symm
    have e4 : v = v.take scheme.length ++ ((b :: bs1) ++ token ++ z) := by
      conv => lhs; rw [this]
      rw [eb]
      congr 1
      rw [List.cons_append, List.cons_append]
      congr 1
      rw [List.append_assoc, ← e2]; exact e1
    conv => lhs; rw [ea]
    conv => lhs; rw [e4]
    simp [List.append_assoc]
  · rintro ⟨a, s, b, bs, z, e, ha, hsl, hb, hbs, ht, hz⟩
    refine ⟨?_, ht.ne⟩
    obtain ⟨c, hc, pc⟩ := low_scheme_head ws6_low hs hsl
    have hlen : s.length = scheme.length := by simpa using congrArg List.length hsl
    have hv : header.dropWhile ws6 = s ++ ((b :: bs) ++ token ++ z) := by
      rw [e]
      have : a ++ s ++ (b :: bs) ++ token ++ z = a ++ (s ++ ((b :: bs) ++ token ++ z)) := by simp
      rw [this]
      apply dropWhile_app _ _ _ ha
      intro d hd
      cases s with
      | nil => cases hc
      | cons f s => simp at hd hc; rw [← hd, hc]; exact pc
    have htl : 0 < token.length := List.length_pos_iff.mpr ht.ne
    unfold extractHeader
    simp only []
    rw [hv, if_neg (by simp), if_neg (by simp; omega), take_left' _ _ _ hlen, if_neg, if_neg, drop_left' _ _ _ hlen]
    · have e5 : ((b :: bs) ++ token ++ z).dropWhile ws6 = token ++ z := by
        rw [List.append_assoc]
        apply dropWhile_app
        · intro d hd
          rcases List.mem_cons.mp hd with k | k
          · subst k; exact hb
          · exact hbs d k
        · intro d hd
          apply ht.head
          cases token with
          | nil => exact absurd rfl ht.ne
          | cons f token => exact hd
      rw [e5, if_neg (by simp [ht.ne])]
      exact dropEnd_app _ _ _ hz ht.last
    · rw [List.getD_eq_getElem?_getD, List.getElem?_append_right (by omega)]
      have : scheme.length - s.length = 0 := by omega
      rw [this]
      simp [hb]
    · rw [(iequals_low _ _).mpr hsl]; simp

/-- **C103 (JWT middleware).** With a scheme, the token taken from a header value is exactly the one in
`ws* scheme SP ws* token ws*`. -/
theorem C103_jwt_header_exact (scheme header token : Bytes) (hs : SchemeOk ws5 scheme) :
    jwtHeader scheme header = some token ↔ Credentials ws5 (fun c => c == 32) scheme header token := by
  have hsne : scheme ≠ [] := by
    obtain ⟨c, h, _⟩ := hs; intro e; rw [e] at h; cases h
  constructor
  · intro h
    unfold jwtHeader at h
    split at h
    · cases h
    simp only [] at h
    obtain ⟨a, ea, ha⟩ := split_ws ws5 header
    obtain ⟨z, ez, hz⟩ := dropEnd_split ws5 (header.dropWhile ws5)
    have hlast := dropEnd_last ws5 (header.dropWhile ws5)
    generalize dropEnd ws5 (header.dropWhile ws5) = v at *
    split at h
    · cases h
    rename_i hv
    have hv : v ≠ [] := by simpa using hv
    rw [if_neg (by simpa using hsne)] at h
    split at h
    · rename_i h1
      rw [Bool.and_eq_true] at h1
      have hlen : scheme.length < v.length := by simpa using h1.1
      have hl2 : (v.take scheme.length).map low = scheme.map low := by
        have : asciiToLower = low := funext low_eq
        rw [← this]; simpa using h1.2
      split at h
      · cases h
      rename_i h3
      have h3 : v.getD scheme.length 0 = 32 := by simpa using h3
      split at h
      · cases h
      rename_i h4
      have h4 : (v.drop scheme.length).dropWhile ws5 ≠ [] := by simpa using h4
      simp only [Option.some.injEq] at h
      obtain ⟨b, bs, eb⟩ : ∃ b bs, v.drop scheme.length = b :: bs := by
        cases hd : v.drop scheme.length with
        | nil => rw [List.drop_eq_nil_iff] at hd; omega
        | cons b bs => exact ⟨b, bs, rfl⟩
      have hb : b = 32 := by
        have : v.getD scheme.length 0 = b := by
          rw [List.getD_eq_getElem?_getD, ← List.head?_drop, eb]; rfl
        rw [← this]; exact h3
      subst hb
      rw [eb, List.dropWhile_cons, if_pos (by decide)] at h h4
      obtain ⟨bs1, e1, a1⟩ := split_ws ws5 bs
      rw [h] at e1
      obtain ⟨c, hc, pc⟩ := head_dropWhile ws5 bs h4
      rw [h] at hc
      have hne : token ≠ [] := by rw [← h]; exact h4
      have e4 : v = v.take scheme.length ++ ((32 :: bs1) ++ token) := by
        conv => lhs; rw [← List.take_append_drop scheme.length v]
        rw [eb, e1]; rfl
      refine ⟨a, v.take scheme.length, 32, bs1, z, ?_, ha, hl2, rfl, a1, ⟨c, hc, pc, ?_⟩, hz⟩
      · conv => lhs; rw [ea, ez]
        conv => lhs; rw [e4]
        simp [List.append_assoc]
      · obtain ⟨d, hd, pd⟩ := hlast hv
        refine ⟨d, ?_, pd⟩
        rw [e4, ← List.append_assoc, List.getLast?_append] at hd
        cases hg : token.getLast? with
        | none => rw [List.getLast?_eq_none_iff] at hg; exact absurd hg hne
        | some f => rw [hg] at hd; simpa using hd
    · cases h
  · rintro ⟨a, s, b, bs, z, e, ha, hsl, hb, hbs, ht, hz⟩
    have hb : b = 32 := by simpa using hb
    subst hb
    obtain ⟨c, hc, pc⟩ := low_scheme_head ws5_low hs hsl
    have hlen : s.length = scheme.length := by simpa using congrArg List.length hsl
    have hv : header.dropWhile ws5 = s ++ ((32 :: bs) ++ token) ++ z := by
      rw [e]
      have : a ++ s ++ (32 :: bs) ++ token ++ z = a ++ (s ++ ((32 :: bs) ++ token) ++ z) := by simp
      rw [this]
      apply dropWhile_app _ _ _ ha
      intro d hd
      cases s with
      | nil => cases hc
      | cons f s => simp at hd hc; rw [← hd, hc]; exact pc
    have hv2 : dropEnd ws5 (header.dropWhile ws5) = s ++ ((32 :: bs) ++ token) := by
      rw [hv]
      apply dropEnd_app _ _ _ hz
      intro d hd
      apply ht.last
      rw [← List.append_assoc, List.getLast?_append] at hd
      cases hg : token.getLast? with
      | none => rw [List.getLast?_eq_none_iff] at hg; exact absurd hg ht.ne
      | some f => rw [hg] at hd; simpa using hd
    unfold jwtHeader
    simp only []
    rw [if_neg (by rw [e]; simp), hv2, if_neg (by simp), if_neg (by simpa using hsne), take_left' _ _ _ hlen, drop_left' _ _ _ hlen, if_pos, if_neg]
    · have e5 : ((32 :: bs) ++ token).dropWhile ws5 = token := by
        apply dropWhile_app
        · intro d hd
          rcases List.mem_cons.mp hd with k | k
          · subst k; decide
          · exact hbs d k
        · exact ht.head
      rw [e5, if_neg (by simp [ht.ne])]
    · rw [List.getD_eq_getElem?_getD, List.getElem?_append_right (by omega)]
      have : scheme.length - s.length = 0 := by omega
      rw [this]
      simp
    · have : asciiToLower = low := funext low_eq
      rw [this, hsl]
      simp; omega

/-- The hypotheses are met, and the two middlewares agree on ordinary values. -/
example : SchemeOk ws6 b!"Bearer" ∧ SchemeOk ws5 b!"Bearer" ∧ extractHeader b!"Bearer" b!"  bEaReR  \t a.b.c \r\n" = b!"a.b.c" ∧
    jwtHeader b!"Bearer" b!"  bEaReR  \t a.b.c \r\n" = some b!"a.b.c" ∧ extractHeader b!"Bearer" b!"Bearertoken" = [] ∧
    jwtHeader b!"Bearer" b!"Bearer\ttoken" = none ∧ extractHeader b!"Bearer" b!"Bearer\ttoken" = b!"token" := by
  refine ⟨⟨c!"B", rfl, by decide, by decide⟩, ⟨c!"B", rfl, by decide, by decide⟩, ?_⟩
  decide

end Verif.Auth
