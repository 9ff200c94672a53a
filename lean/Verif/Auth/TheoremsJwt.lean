import Verif.Auth.TheoremsAuth
import Verif.Auth.TheoremsToken

/-! # C105: algorithm and key come from the configuration; C106: JWT middleware before the auth middleware -/

namespace Verif.Auth
open Verif.Utility

/-! ## C105 -/

theorem iequals_iff (a b : Bytes) : iequals a b = true ↔ a.map low = b.map low := iequals_low a b

theorem name_inj (a b : Alg) (h : a.name.map low = b.name.map low) : a = b := by
  revert h
  cases a <;> cases b <;> decide

/-- **C105.** An algorithm name is recognised exactly if it is one of the ten, in any case; there is no default. -/
theorem C105_algorithm_names (s : Bytes) (a : Alg) : algOf s = some a ↔ s.map low = a.name.map low := by
  constructor
  · intro h
    unfold algOf at h
    repeat' split at h
    all_goals first
      | (cases h; rename_i k; exact (iequals_iff _ _).mp k)
      | cases h
  · intro h
    have hn : ∀ b : Alg, b ≠ a → iequals s b.name = false := by
      intro b hb
      cases hi : iequals s b.name with
      | false => rfl
      | true => exact absurd (name_inj _ _ (((iequals_iff _ _).mp hi).symm.trans h)) hb
    have hy : iequals s a.name = true := (iequals_iff _ _).mpr h
    unfold algOf
    cases a <;> (
      simp only [Alg.name] at hy
      first
      | rw [if_pos hy]
      | (have h1 := hn .hs256 (by decide); have h2 := hn .hs384 (by decide); simp only [Alg.name] at h1 h2; rw [if_neg (by simp [h1]), if_neg (by simp [h2]), if_pos hy])
      | skip)
    all_goals
      simp only [Alg.name] at *
      have n1 := hn .hs256; have n2 := hn .hs384; have n3 := hn .hs512; have n4 := hn .rs256; have n5 := hn .rs384
      have n6 := hn .rs512; have n7 := hn .es256; have n8 := hn .es384; have n9 := hn .es512
      simp_all

/-- **C105.** With signatures on, a token is accepted exactly if the library accepts it under the configured algorithm and the key
the configuration holds for it (the secret for HMAC, the public key otherwise), with the configured checks, and its claims name a user. -/
theorem C105_manager_exact (x : Ext) (o : Options) (now : Int) (t : Bytes) (u : User) (ho : o.requireSignature = true) :
    verifyToken x o now t = some u ↔
      ∃ v m, x.verify now t v = .ok m ∧ userOf x (parsedClaims x m) = some u ∧ v.alg = o.alg ∧
        ((o.alg = .hs256 ∨ o.alg = .hs384 ∨ o.alg = .hs512) → v.key = o.secretKey) ∧
        (¬ (o.alg = .hs256 ∨ o.alg = .hs384 ∨ o.alg = .hs512) → v.key = o.publicKey) ∧
        v.verifyExp = o.verifyExp ∧ v.verifyNbf = o.verifyNbf ∧ v.skew = o.skew ∧ v.subject = none ∧
        (o.verifyIss = true → v.issuer = some o.issuer) ∧ (o.verifyAud = true → v.audience = some o.audience) ∧
        (o.verifyIss = false → v.issuer = none) ∧ (o.verifyAud = false → v.audience = none) := by
  have hk : ∀ a : Alg, a.isHmac = true ↔ (a = .hs256 ∨ a = .hs384 ∨ a = .hs512) := by intro a; cases a <;> decide
  unfold verifyToken
  rw [if_pos ho]
  constructor
  · intro h
    cases hv : x.verify now t (verifyOptions o) with
    | error e => rw [hv] at h; cases h
    | ok m =>
      rw [hv] at h
      refine ⟨verifyOptions o, m, hv, h, rfl, ?_, ?_, rfl, rfl, rfl, rfl, ?_, ?_, ?_, ?_⟩
      · intro k; exact if_pos ((hk _).mpr k)
      · intro k; exact if_neg (fun j => k ((hk _).mp j))
      · intro k; exact if_pos k
      · intro k; exact if_pos k
      · intro k; exact if_neg (by simp [k])
      · intro k; exact if_neg (by simp [k])
  · rintro ⟨v, m, hv, hu, h1, h2, h3, h4, h5, h6, h7, h8, h9, h10, h11⟩
    have : v = verifyOptions o := by
      obtain ⟨va, vk, ve, vn, vs, vi, vau, vsu⟩ := v
      simp only [] at h1 h2 h3 h4 h5 h6 h7 h8 h9 h10 h11
      unfold verifyOptions
      congr 1
      · by_cases k : o.alg.isHmac = true
        · rw [if_pos k]; exact h2 ((hk _).mp k)
        · rw [if_neg k]; exact h3 (fun j => k ((hk _).mpr j))
      · cases hi : o.verifyIss with
        | true => exact h8 hi
        | false => exact h10 hi
      · cases hi : o.verifyAud with
        | true => exact h9 hi
        | false => exact h11 hi
    rw [← this, hv]
    exact hu

/-- **C105.** The factory for a JWT gate: an HMAC secret is never used as a public key nor the other way round, and an unknown
algorithm makes no middleware. -/
theorem C105_factory (secret name : Bytes) :
    (∀ a, name.map low = a.name.map low →
      ∃ m, jwtAuth secret name = some m ∧ m.options.alg = a ∧ m.options.requireSignature = true ∧ m.requireAuth = true ∧
        ((a = .hs256 ∨ a = .hs384 ∨ a = .hs512) → m.options.secretKey = secret ∧ m.options.publicKey = []) ∧
        (¬ (a = .hs256 ∨ a = .hs384 ∨ a = .hs512) → m.options.publicKey = secret ∧ m.options.secretKey = [])) ∧
    ((∀ a : Alg, name.map low ≠ a.name.map low) → jwtAuth secret name = none) := by
  constructor
  · intro a h
    unfold jwtAuth
    rw [(C105_algorithm_names _ _).mpr h]
    refine ⟨_, rfl, ?_⟩
    cases a <;> simp [Alg.isHmac]
  · intro h
    unfold jwtAuth
    cases hn : algOf name with
    | none => rfl
    | some a => exact absurd ((C105_algorithm_names _ _).mp hn) (h a)

theorem extract_iff (o : JwtOptions) (r : Req) (t : Bytes) (hs : o.location = .header → SchemeOk ws5 o.scheme) :
    jwtExtract o r = some t ↔ TokenAt o r t := by
  unfold jwtExtract TokenAt
  cases hl : o.location with
  | header => exact C103_jwt_header_exact _ _ _ (hs hl)
  | cookie =>
    simp only []
    split
    · rename_i h
      have h : r.cookie o.tokenName = [] := by simpa using h
      rw [h]
      constructor
      · intro k; cases k
      · rintro ⟨k, j⟩; exact absurd k.symm j
    · rename_i h
      constructor
      · intro k; cases k; exact ⟨rfl, by simpa using h⟩
      · rintro ⟨k, _⟩; rw [k]
  | query =>
    simp only []
    split
    · rename_i h
      have h : r.query o.tokenName = [] := by simpa using h
      rw [h]
      constructor
      · intro k; cases k
      · rintro ⟨k, j⟩; exact absurd k.symm j
    · rename_i h
      constructor
      · intro k; cases k; exact ⟨rfl, by simpa using h⟩
      · rintro ⟨k, _⟩; rw [k]

/-- The claims in the context: the library's, each read as the middleware reads it. -/
def claimsOf (x : Ext) (m : List (Bytes × Bytes)) : List (Bytes × J) := m.map (fun q => (q.1, jwtClaim x q.2))

theorem member_claims (x : Ext) (m : List (Bytes × Bytes)) (k : Bytes) : member k (claimsOf x m) = (m.lookup k).map (jwtClaim x) := by
  induction m with
  | nil => rfl
  | cons p m ih =>
    obtain ⟨n, v⟩ := p
    unfold claimsOf at *
    rw [List.map_cons, member, List.lookup_cons]
    by_cases h : k = n
    · subst h; simp
    · have h1 : (k == n) = false := by simpa using h
      have h2 : (n == k) = false := by simpa using fun e => h e.symm
      rw [h1, h2]
      exact ih

theorem accepted_iff (x : Ext) (o : JwtOptions) (now : Int) (t : Bytes) (m : List (Bytes × Bytes)) :
    Accepted x o now t m ↔ ∃ a, x.jwtAlg o.algorithm = some a ∧ x.verify now t (jwtVerifyOptions o a) = .ok m := by
  constructor
  · rintro ⟨v, h, h1, h2, h3, h4, h5, h6, h7, h8, h9, h10, h11⟩
    refine ⟨v.alg, h1, ?_⟩
    have : v = jwtVerifyOptions o v.alg := by
      obtain ⟨va, vk, ve, vn, vs, vi, vau, vsu⟩ := v
      simp only [] at h1 h2 h3 h4 h5 h6 h7 h8 h9 h10 h11
      unfold jwtVerifyOptions
      congr 1
      · cases hi : o.verifyIss with
        | true => exact h6 hi
        | false => exact h9 hi
      · cases hi : o.verifyAud with
        | true => exact h7 hi
        | false => exact h10 hi
      · cases hi : o.verifySub with
        | true => exact h8 hi
        | false => exact h11 hi
    rw [← this]; exact h
  · rintro ⟨a, h1, h⟩
    refine ⟨_, h, h1, rfl, rfl, rfl, rfl, ?_, ?_, ?_, ?_, ?_, ?_⟩
    · intro k; exact if_pos k
    · intro k; exact if_pos k
    · intro k; exact if_pos k
    · intro k; exact if_neg (by simp [k])
    · intro k; exact if_neg (by simp [k])
    · intro k; exact if_neg (by simp [k])

theorem jwtVerify_iff (x : Ext) (o : JwtOptions) (now : Int) (t : Bytes) (p : List (Bytes × J)) :
    jwtVerify x o now t = .ok p ↔ ∃ m, Accepted x o now t m ∧ IssuedOk x o now m ∧ p = claimsOf x m := by
  have key : ∀ a m, x.jwtAlg o.algorithm = some a → x.verify now t (jwtVerifyOptions o a) = .ok m →
      (jwtVerify x o now t = .ok p ↔ IssuedOk x o now m ∧ p = claimsOf x m) := by
    intro a m h1 h2
    unfold jwtVerify
    rw [h1]
    simp only []
    rw [h2]
    simp only []
    have hc : m.map (fun q => (q.1, jwtClaim x q.2)) = claimsOf x m := rfl
    rw [hc, member_claims]
    unfold IssuedOk
    cases hv : o.verifyIat with
    | false => simp [eq_comm]
    | true =>
      rw [if_pos rfl]
      cases hl : m.lookup b!"iat" with
      | none => simp [eq_comm]
      | some s =>
        simp only [Option.map_some]
        cases hi : intClaim x (jwtClaim x s) with
        | none =>
          simp only []
          constructor
          · intro h; cases h
          · rintro ⟨h, _⟩
            obtain ⟨i, h, _⟩ := h (by trivial) s rfl
            rw [hi] at h; cases h
        | some i =>
          simp only []
          split
          · rename_i hgt
            constructor
            · intro h; cases h
            · rintro ⟨h, _⟩
              obtain ⟨j, h, hle⟩ := h (by trivial) s rfl
              rw [hi] at h; cases h; omega
          · rename_i hle
            constructor
            · intro h; cases h
              exact ⟨fun _ s' e => by cases e; exact ⟨i, hi, by omega⟩, rfl⟩
            · rintro ⟨_, h⟩; rw [h]
  constructor
  · intro h
    cases h1 : x.jwtAlg o.algorithm with
    | none => unfold jwtVerify at h; rw [h1] at h; cases h
    | some a =>
      cases h2 : x.verify now t (jwtVerifyOptions o a) with
      | error e => unfold jwtVerify at h; rw [h1] at h; simp only [] at h; rw [h2] at h; cases h
      | ok m =>
        obtain ⟨k1, k2⟩ := (key a m h1 h2).mp h
        exact ⟨m, (accepted_iff x o now t m).mpr ⟨a, h1, h2⟩, k1, k2⟩
  · rintro ⟨m, h, k⟩
    obtain ⟨a, h1, h2⟩ := (accepted_iff x o now t m).mp h
    exact (key a m h1 h2).mpr k

/-- Everything the JWT middleware checks of a request, with the claims it finds. -/
def Valid (x : Ext) (o : JwtOptions) (validator : Option (List (Bytes × J) → Validated)) (now : Int) (r : Req) (p : List (Bytes × J)) : Prop :=
  ∃ t m, TokenAt o r t ∧ Accepted x o now t m ∧ IssuedOk x o now m ∧ p = claimsOf x m ∧
    (∀ k ∈ o.required, ∃ s, m.lookup k = some s) ∧ (∀ f, validator = some f → f p = .accepted)

theorem missing_iff (x : Ext) (rs : List Bytes) (m : List (Bytes × Bytes)) :
    missingClaim rs (claimsOf x m) = false ↔ ∀ k ∈ rs, ∃ s, m.lookup k = some s := by
  unfold missingClaim
  rw [List.any_eq_false]
  constructor
  · intro h k hk
    have := h k hk
    rw [member_claims] at this
    cases hl : m.lookup k with
    | none => rw [hl] at this; simp at this
    | some s => exact ⟨s, rfl⟩
  · intro h k hk
    obtain ⟨s, hs⟩ := h k hk
    rw [member_claims, hs]; simp

theorem jwt_valid (x : Ext) (o : JwtOptions) (validator : Option (List (Bytes × J) → Validated)) (success : List (Bytes × J) → Bool)
    (now : Int) (r : Req) (p : List (Bytes × J)) (hs : o.location = .header → SchemeOk ws5 o.scheme) (h : Valid x o validator now r p) :
    jwtProcess x o validator success now r = if success p then .pass p else .failed p := by
  obtain ⟨t, m, h1, h2, h3, h4, h5, h6⟩ := h
  unfold jwtProcess
  rw [(extract_iff o r t hs).mpr h1]
  simp only []
  rw [(jwtVerify_iff x o now t p).mpr ⟨m, h2, h3, h4⟩]
  simp only []
  rw [h4, if_neg (by rw [(missing_iff x _ m).mpr h5]; simp), ← h4]
  cases validator with
  | none => rfl
  | some f => simp only []; rw [h6 f rfl]; rfl

theorem jwt_invalid (x : Ext) (o : JwtOptions) (validator : Option (List (Bytes × J) → Validated)) (success : List (Bytes × J) → Bool)
    (now : Int) (r : Req) (hs : o.location = .header → SchemeOk ws5 o.scheme) (h : ∀ p, ¬ Valid x o validator now r p) :
    ∃ e, jwtProcess x o validator success now r = .refused e := by
  unfold jwtProcess
  cases h1 : jwtExtract o r with
  | none => exact ⟨_, rfl⟩
  | some t =>
    simp only []
    cases h2 : jwtVerify x o now t with
    | error e => exact ⟨_, rfl⟩
    | ok p =>
      simp only []
      obtain ⟨m, ha, hi, hp⟩ := (jwtVerify_iff x o now t p).mp h2
      cases h3 : missingClaim o.required p with
      | true => exact ⟨_, rfl⟩
      | false =>
        have base : (∀ f, validator = some f → f p = .accepted) → False := fun hf =>
          h p ⟨t, m, (extract_iff o r t hs).mp h1, ha, hi, hp, (missing_iff x _ m).mp (by rw [← hp]; exact h3), hf⟩
        rw [if_neg (by simp)]
        cases validator with
        | none => exact (base (fun f e => by cases e)).elim
        | some f =>
          simp only []
          cases hf : f p with
          | accepted => exact (base (fun g e => by cases e; exact hf)).elim
          | refused e => cases e <;> exact ⟨_, rfl⟩
          | threw => exact ⟨_, rfl⟩

theorem valid_unique (x : Ext) (o : JwtOptions) (validator : Option (List (Bytes × J) → Validated)) (now : Int) (r : Req) (p q : List (Bytes × J))
    (hs : o.location = .header → SchemeOk ws5 o.scheme) (h : Valid x o validator now r p) (k : Valid x o validator now r q) : p = q := by
  have a := jwt_valid x o validator (fun _ => true) now r p hs h
  have b := jwt_valid x o validator (fun _ => true) now r q hs k
  rw [a] at b
  simpa using b

/-- **C105.** The JWT middleware passes a request on exactly if the token at the configured place was accepted by the library under
the configured algorithm, key and checks, was not issued in the future, has the required claims, and the application's validator
accepted it; the claims passed on are those of that token. -/
theorem C105_jwt_exact (x : Ext) (o : JwtOptions) (validator : Option (List (Bytes × J) → Validated)) (success : List (Bytes × J) → Bool)
    (now : Int) (r : Req) (p : List (Bytes × J)) (hs : o.location = .header → SchemeOk ws5 o.scheme) :
    jwtProcess x o validator success now r = .pass p ↔ Valid x o validator now r p ∧ success p = true := by
  constructor
  · intro h
    by_cases k : ∃ q, Valid x o validator now r q
    · obtain ⟨q, k⟩ := k
      rw [jwt_valid x o validator success now r q hs k] at h
      split at h
      · cases h; rename_i k2; exact ⟨k, k2⟩
      · cases h
    · obtain ⟨e, he⟩ := jwt_invalid x o validator success now r hs (fun q h => k ⟨q, h⟩)
      rw [he] at h; cases h
  · rintro ⟨h, k⟩
    rw [jwt_valid x o validator success now r p hs h, if_pos k]

/-- **C105.** Any other request is answered: 500 if a valid one's success handler threw, 401 otherwise. -/
theorem C105_jwt_refused (x : Ext) (o : JwtOptions) (validator : Option (List (Bytes × J) → Validated)) (success : List (Bytes × J) → Bool)
    (now : Int) (r : Req) (hs : o.location = .header → SchemeOk ws5 o.scheme) :
    (jwtStatus (jwtProcess x o validator success now r) = some 401 ↔ ∀ p, ¬ Valid x o validator now r p) ∧
    (jwtStatus (jwtProcess x o validator success now r) = some 500 ↔ ∃ p, Valid x o validator now r p ∧ success p = false) := by
  by_cases k : ∃ q, Valid x o validator now r q
  · obtain ⟨q, k⟩ := k
    have hu : ∀ p, Valid x o validator now r p → p = q := fun p h => valid_unique x o validator now r p q hs h k
    rw [jwt_valid x o validator success now r q hs k]
    cases hq : success q with
    | true =>
      simp only [if_true]
      refine ⟨⟨(fun h => by cases h), fun h => absurd k (h q)⟩, ⟨(fun h => by cases h), ?_⟩⟩
      rintro ⟨p, h1, h2⟩
      rw [hu p h1, hq] at h2; cases h2
    | false =>
      rw [if_neg (by simp)]
      refine ⟨⟨fun h => by simp [jwtStatus] at h, fun h => absurd k (h q)⟩, ⟨fun _ => ⟨q, k, hq⟩, fun _ => rfl⟩⟩
  · have k : ∀ p, ¬ Valid x o validator now r p := fun p h => k ⟨p, h⟩
    obtain ⟨e, he⟩ := jwt_invalid x o validator success now r hs k
    rw [he]
    refine ⟨⟨fun _ => k, fun _ => rfl⟩, ⟨fun h => by simp [jwtStatus] at h, ?_⟩⟩
    rintro ⟨p, h, _⟩
    exact absurd h (k p)

/-- The hypotheses are met, and a token under another key is refused. -/
example :
    let o : JwtOptions := { secret := b!"k", required := [b!"sub"] }
    let x := extOf b!"t" b!"k" [(b!"sub", b!"ann")]
    let r : Req := { header := fun _ => b!"Bearer t", cookie := fun _ => [], query := fun _ => [] }
    SchemeOk ws5 o.scheme ∧ (∃ p, Valid x o none 0 r p) ∧ ¬ (∃ p, Valid (extOf b!"t" b!"other" [(b!"sub", b!"ann")]) o none 0 r p) := by
  have hs : SchemeOk ws5 b!"Bearer" := ⟨c!"B", rfl, by decide, by decide⟩
  refine ⟨hs, ?_, ?_⟩
  · refine ⟨[(b!"sub", .str b!"ann")], ?_⟩
    refine ((C105_jwt_exact _ _ none (fun _ => true) 0 _ _ (fun _ => hs)).mp ?_).1
    rfl
  · rintro ⟨p, h⟩
    have := jwt_valid _ _ none (fun _ => true) 0 _ p (fun _ => hs) h
    have e : jwtProcess (extOf b!"t" b!"other" [(b!"sub", b!"ann")]) { secret := b!"k", required := [b!"sub"] } none (fun _ => true) 0
      { header := fun _ => b!"Bearer t", cookie := fun _ => [], query := fun _ => [] } = .refused .signature := rfl
    rw [e] at this
    simp at this

/-! ## C106 -/

theorem claim_str (x : Ext) (s : Bytes) (h : NotScalar x s) : jwtClaim x s = .str s := by
  obtain ⟨h1, h2, h3, h4⟩ := h
  unfold jwtClaim
  rw [if_neg (by simpa using h1), if_neg (by simpa using h2), h3]
  simp only []
  cases s with
  | nil => rfl
  | cons c s =>
    obtain ⟨a, b⟩ := h4 c rfl
    have b : (48 ≤ c && c ≤ 57) = false := b
    have a : (c == 45) = false := by simpa using a
    simp only [a, b, Bool.or_self, Bool.false_and, Bool.false_eq_true, if_false]

theorem strMember_claims (x : Ext) (m : List (Bytes × Bytes)) (k : Bytes) (h : ∀ s, m.lookup k = some s → NotScalar x s) :
    strMember k (claimsOf x m) = (m.lookup k).getD [] := by
  unfold strMember
  rw [member_claims]
  cases hl : m.lookup k with
  | none => rfl
  | some s => simp only [Option.map_some]; rw [claim_str x s (h s hl)]; rfl

/-- The property: the user the auth middleware sees behind the JWT middleware is the subject of the token. -/
def C106_full : Prop :=
  ∀ (x : Ext) (m : List (Bytes × Bytes)) (c : Ctx) (s : Bytes), c.user = none → c.jwtPayload = some (.obj (claimsOf x m)) →
    m.lookup b!"sub" = some s → s ≠ [] → ∃ u, Upstream x c u ∧ u.id = s

/-- It holds for subjects and user names that do not look like numbers or truth values; roles written as a JSON array are kept. -/
theorem C106_identity_partial (x : Ext) (m : List (Bytes × Bytes)) (c : Ctx) (s : Bytes) (hu : c.user = none)
    (hp : c.jwtPayload = some (.obj (claimsOf x m))) (hs : m.lookup b!"sub" = some s) (hne : s ≠ []) (hn : NotScalar x s)
    (hname : ∀ n, m.lookup b!"username" = some n → NotScalar x n) :
    ∃ u, Upstream x c u ∧ u.id = s ∧ u.username = (m.lookup b!"username").getD [] ∧
      ∀ t l, m.lookup b!"roles" = some t → NotScalar x t → x.parse t = some (.arr l) → Names l u.roles := by
  have h1 : strMember b!"sub" (claimsOf x m) = s := by
    rw [strMember_claims x m _ (fun s' h => by rw [hs] at h; cases h; exact hn), hs]; rfl
  have h2 := strMember_claims x m b!"username" hname
  cases hj : userFromJwt x (.obj (claimsOf x m)) with
  | none =>
    unfold userFromJwt at hj
    simp only [h1] at hj
    rw [if_neg] at hj
    · cases hj
    · cases s with
      | nil => exact absurd rfl hne
      | cons _ _ => simp
  | some u =>
    refine ⟨u, .inr ⟨fun v hv => by (rw [hu] at hv; cases hv), _, hp, (userFromJwt_iff _ _ _).mp hj⟩, ?_⟩
    unfold userFromJwt at hj
    simp only [h1, h2] at hj
    rw [if_neg] at hj
    · simp only [Option.some.injEq] at hj
      subst hj
      refine ⟨rfl, rfl, ?_⟩
      intro t l ht hnt hpt
      simp only []
      unfold rolesOf
      rw [member_claims, ht, Option.map_some, claim_str x t hnt]
      simp only []
      rw [hpt]
      exact (strings_iff _ _).mp rfl
    · cases s with
      | nil => exact absurd rfl hne
      | cons _ _ => simp

/-- A subject that reads as a number is dropped: unless the token has a user name, a valid token is answered 401 where
authentication is required and there is no `Authorization` header (a token in a cookie, say). -/
theorem C106_numeric_subject (x : Ext) (mw : Mw) (now i : Int) (m : List (Bytes × Bytes)) (c : Ctx) (s : Bytes) (hu : c.user = none)
    (hp : c.jwtPayload = some (.obj (claimsOf x m))) (hs : m.lookup b!"sub" = some s) (hi : x.toInt s = some i)
    (hb : s ≠ b!"true" ∧ s ≠ b!"false") (hname : m.lookup b!"username" = none) (hreq : mw.requireAuth = true) (hh : c.header mw.options.headerName = []) :
    process x mw now c = .answer 401 := by
  have hc : ctxUser x c = none := by
    unfold ctxUser
    rw [hu, hp]
    simp only [Option.bind_some]
    unfold userFromJwt
    have h1 : strMember b!"sub" (claimsOf x m) = [] := by
      unfold strMember
      rw [member_claims, hs, Option.map_some]
      unfold jwtClaim
      rw [if_neg (by simpa using hb.1), if_neg (by simpa using hb.2), hi]
    have h2 : strMember b!"username" (claimsOf x m) = [] := by
      unfold strMember
      rw [member_claims, hname]
      rfl
    simp only [h1, h2]
    rfl
  unfold process
  rw [hc]
  simp only []
  rw [if_pos (by simp [hh]), if_pos hreq]

/-- A library for which `42` is a number. -/
def numExt : Ext where
  parse _ := none
  dump _ := []
  create _ _ := []
  verify _ _ _ := .ok [(b!"sub", b!"42")]
  decode _ := none
  jwtAlg s := algOf s
  toInt s := if s == b!"42" then some 42 else none
  toDouble _ := none

theorem C106_refuted : ¬ C106_full := by
  intro h
  obtain ⟨u, hu, e⟩ := h numExt [(b!"sub", b!"42")] { header := fun _ => [], jwtPayload := some (.obj (claimsOf numExt [(b!"sub", b!"42")])) } b!"42" rfl rfl rfl (by simp)
  have := (ctxUser_iff _ _ _).mpr hu
  revert this
  intro k
  cases k

/-- The hypotheses are met: the middlewares in sequence, for the subject `ann`. -/
example : NotScalar numExt b!"ann" ∧
    process numExt {} 0 { header := fun _ => [], jwtPayload := some (.obj (claimsOf numExt [(b!"sub", b!"ann")])) } = .pass (some { id := b!"ann" }) ∧
    process numExt {} 0 { header := fun _ => [], jwtPayload := some (.obj (claimsOf numExt [(b!"sub", b!"42")])) } = .answer 401 := by
  refine ⟨⟨by decide, by decide, by decide, ?_⟩, by decide, by decide⟩
  intro c h; cases h; decide

end Verif.Auth
