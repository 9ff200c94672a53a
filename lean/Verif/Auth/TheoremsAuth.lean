import Verif.Auth.TheoremsHeader

/-! # C100, C101: who is let through -/

namespace Verif.Auth
open Verif.Utility

theorem hasRole_iff (u : User) (r : Bytes) : u.hasRole r = true ↔ r ∈ u.roles := by
  simp [User.hasRole]

theorem authorise_pass (m : Mw) (u v : User) : authorise m u = .pass (some v) ↔ u = v ∧ Authorised m u := by
  unfold authorise Authorised User.hasAll User.hasAny
  cases hr : m.roles with
  | nil => simp
  | cons r rs =>
    cases ha : m.allRoles <;> simp [hasRole_iff]
    · split
      · rename_i h; simp [h]
      · rename_i h; simp; rintro rfl; simpa using h
    · split
      · rename_i h; simp [h.1]; exact fun _ => h.2
      · rename_i h; simp; rintro rfl; simpa using h

theorem authorise_cases (m : Mw) (u : User) : authorise m u = .pass (some u) ∨ (authorise m u = .answer 403 ∧ ¬ Authorised m u) := by
  by_cases h : authorise m u = .pass (some u)
  · exact .inl h
  · refine .inr ⟨?_, fun k => h ((authorise_pass m u u).mpr ⟨rfl, k⟩)⟩
    unfold authorise at *
    generalize (if m.allRoles then u.hasAll m.roles else u.hasAny m.roles) = b at *
    cases b <;> cases he : m.roles.isEmpty <;> simp [he] at *

theorem strings_iff (l : List J) (r : List Bytes) : strings l = r ↔ Names l r := by
  induction l generalizing r with
  | nil =>
    constructor
    · intro h; subst h; exact .nil
    · intro h; cases h; rfl
  | cons j l ih =>
    by_cases hj : ∃ s, j = .str s
    · obtain ⟨s, rfl⟩ := hj
      rw [strings]
      constructor
      · intro h; subst h; exact .str ((ih _).mp rfl)
      · intro h
        cases h with
        | str h => rw [(ih _).mpr h]
        | other h _ => exact absurd rfl (h s)
    · have hn : ∀ s, j ≠ .str s := fun s h => hj ⟨s, h⟩
      have : strings (j :: l) = strings l := by
        cases j <;> first | rfl | exact absurd rfl (hn _)
      rw [this]
      constructor
      · intro h; exact .other hn ((ih _).mp h)
      · intro h
        cases h with
        | str h => exact absurd rfl (hn _)
        | other _ h => exact (ih _).mpr h

theorem textAt_iff (p : List (Bytes × J)) (k v : Bytes) : strMember k p = v ↔ TextAt p k v := by
  unfold strMember TextAt
  cases h : member k p with
  | none => simp [eq_comm]
  | some j => cases j <;> simp [eq_comm]

theorem userFromJwt_iff (x : Ext) (j : J) (u : User) : userFromJwt x j = some u ↔ NamedBy x j u := by
  unfold userFromJwt
  cases j with
  | obj p =>
    simp only []
    have hr : ∀ r, rolesOf x p = r ↔
      ((∃ l, (member b!"roles" p = some (.arr l) ∨ ∃ t, member b!"roles" p = some (.str t) ∧ x.parse t = some (.arr l)) ∧ Names l r) ∨
       (r = [] ∧ ∀ l, member b!"roles" p ≠ some (.arr l) ∧ ∀ t, member b!"roles" p = some (.str t) → x.parse t ≠ some (.arr l))) := by
      intro r
      unfold rolesOf
      generalize member b!"roles" p = m
      match m with
      | some (.arr l) => simp [strings_iff]
      | some (.str s) =>
        cases hs : x.parse s with
        | none => simp [hs, eq_comm]
        | some v => cases v <;> simp [hs, ← strings_iff, eq_comm]
      | none => simp [eq_comm]
      | some .null => simp [eq_comm]
      | some (.bool _) => simp [eq_comm]
      | some (.num _) => simp [eq_comm]
      | some (.float _ _) => simp [eq_comm]
      | some (.obj _) => simp [eq_comm]
    constructor
    · intro h
      by_cases he : ((strMember b!"sub" p).isEmpty && (strMember b!"username" p).isEmpty) = true
      · rw [if_pos he] at h; cases h
      · rw [if_neg he] at h
        injection h with h
        subst h
        refine ⟨p, rfl, (textAt_iff _ _ _).mp rfl, (textAt_iff _ _ _).mp rfl, ?_, rfl, (hr _).mp rfl⟩
        simp only [Bool.and_eq_true, not_and, List.isEmpty_iff] at he
        by_cases h1 : strMember b!"sub" p = []
        · exact .inr (he h1)
        · exact .inl h1
    · rintro ⟨q, e, h1, h2, h3, h4, h5⟩
      injection e with e
      subst e
      rw [if_neg, (hr _).mpr h5, (textAt_iff _ _ _).mpr h1, (textAt_iff _ _ _).mpr h2, ← h4]
      rw [(textAt_iff _ _ _).mpr h1, (textAt_iff _ _ _).mpr h2]
      simp only [Bool.and_eq_true, List.isEmpty_iff, not_and]
      intro h6
      rcases h3 with h | h
      · exact absurd h6 h
      · exact h
  | _ =>
    simp only []
    constructor
    · intro h; cases h
    · rintro ⟨p, e, _⟩; cases e

theorem ctxUser_iff (x : Ext) (c : Ctx) (u : User) : ctxUser x c = some u ↔ Upstream x c u := by
  unfold ctxUser Upstream
  cases hu : c.user with
  | none =>
    constructor
    · intro h
      right
      obtain ⟨j, hj, h⟩ := Option.bind_eq_some_iff.mp h
      exact ⟨(fun v h => by cases h), j, hj, (userFromJwt_iff _ _ _).mp h⟩
    · rintro (⟨h, _⟩ | ⟨_, j, hj, h⟩)
      · cases h
      · simp only []; rw [hj]; exact (userFromJwt_iff _ _ _).mpr h
  | some w =>
    simp only []
    by_cases hw : w.id = [] ∧ w.username = []
    · rw [if_neg (by simp [hw.1, hw.2])]
      constructor
      · intro h
        right
        obtain ⟨j, hj, h⟩ := Option.bind_eq_some_iff.mp h
        exact ⟨fun v h => by (cases h; exact hw), j, hj, (userFromJwt_iff _ _ _).mp h⟩
      · rintro (⟨h, k⟩ | ⟨_, j, hj, h⟩)
        · cases h; rcases k with k | k
          · exact absurd hw.1 k
          · exact absurd hw.2 k
        · rw [hj]; exact (userFromJwt_iff _ _ _).mpr h
    · rw [if_pos]
      · constructor
        · intro h; cases h
          refine .inl ⟨rfl, ?_⟩
          by_cases h1 : u.id = []
          · exact .inr (fun h2 => hw ⟨h1, h2⟩)
          · exact .inl h1
        · rintro (⟨h, _⟩ | ⟨k, _⟩)
          · exact h
          · exact absurd (k w rfl) hw
      · cases h1 : w.id with
        | nil => cases h2 : w.username with
          | nil => exact absurd ⟨h1, h2⟩ hw
          | cons _ _ => simp
        | cons _ _ => simp

theorem presented_iff (x : Ext) (o : Options) (now : Int) (c : Ctx) (u : User) (hs : SchemeOk ws6 o.scheme) :
    Presented x o now c u ↔ ∃ t, extractHeader o.scheme (c.header o.headerName) = t ∧ t ≠ [] ∧ verifyToken x o now t = some u := by
  constructor
  · rintro ⟨t, h, k⟩
    have := (C103_header_exact _ _ _ hs).mpr h
    exact ⟨t, this.1, this.2, k⟩
  · rintro ⟨t, h1, h2, k⟩
    exact ⟨t, (C103_header_exact _ _ _ hs).mp ⟨h1, h2⟩, k⟩

theorem extract_nil (s : Bytes) : extractHeader s [] = [] := rfl

/-- The authenticated user of a request, whatever it may do: the one an earlier middleware left, or else the one of the token. -/
def Authenticated (x : Ext) (m : Mw) (now : Int) (c : Ctx) (u : User) : Prop :=
  Upstream x c u ∨ ((∀ v, ¬ Upstream x c v) ∧ Presented x m.options now c u)

theorem process_auth {x : Ext} {m : Mw} {now : Int} {c : Ctx} {u : User} (hs : SchemeOk ws6 m.options.scheme) (h : Authenticated x m now c u) :
    process x m now c = authorise m u := by
  unfold process
  rcases h with h | ⟨h1, h2⟩
  · rw [(ctxUser_iff x c u).mpr h]
  · have : ctxUser x c = none := by
      cases hc : ctxUser x c with
      | none => rfl
      | some v => exact absurd ((ctxUser_iff x c v).mp hc) (h1 v)
    rw [this]
    obtain ⟨t, e, ne, v⟩ := (presented_iff x _ now c u hs).mp h2
    simp only []
    rw [if_neg, e, if_neg (by simpa using ne), v]
    intro k
    have k : c.header m.options.headerName = [] := by simpa using k
    rw [k, extract_nil] at e
    exact ne e.symm

theorem process_anon {x : Ext} {m : Mw} {now : Int} {c : Ctx} (hs : SchemeOk ws6 m.options.scheme) (h : ∀ u, ¬ Authenticated x m now c u) :
    process x m now c = if m.requireAuth = false ∧ c.header m.options.headerName = [] then .pass none else .answer 401 := by
  unfold process
  have hn : ctxUser x c = none := by
    cases hc : ctxUser x c with
    | none => rfl
    | some v => exact absurd (.inl ((ctxUser_iff x c v).mp hc)) (h v)
  rw [hn]
  have hup : ∀ v, ¬ Upstream x c v := by
    intro v k
    rw [(ctxUser_iff x c v).mpr k] at hn; cases hn
  simp only []
  by_cases h1 : c.header m.options.headerName = []
  · rw [if_pos (by simp [h1])]
    cases m.requireAuth <;> simp [h1]
  · rw [if_neg (by simpa using h1)]
    have hif : (if m.requireAuth = false ∧ c.header m.options.headerName = [] then Verdict.pass none else .answer 401) = .answer 401 := if_neg (fun k => h1 k.2)
    rw [hif]
    by_cases h2 : (extractHeader m.options.scheme (c.header m.options.headerName)).isEmpty = true
    · rw [if_pos h2]
    · rw [if_neg h2]
      cases hv : verifyToken x m.options now (extractHeader m.options.scheme (c.header m.options.headerName)) with
      | none => rfl
      | some u =>
        exact absurd (.inr ⟨hup, (presented_iff x _ now c u hs).mpr ⟨_, rfl, by simpa using h2, hv⟩⟩) (h u)

theorem authenticated_unique {x : Ext} {m : Mw} {now : Int} {c : Ctx} {u v : User} (hs : SchemeOk ws6 m.options.scheme)
    (h : Authenticated x m now c u) (k : Authenticated x m now c v) : u = v := by
  rcases h with h | ⟨h1, h2⟩ <;> rcases k with k | ⟨k1, k2⟩
  · have a := (ctxUser_iff x c u).mpr h
    rw [(ctxUser_iff x c v).mpr k] at a; cases a; rfl
  · exact absurd h (k1 u)
  · exact absurd k (h1 v)
  · obtain ⟨t, e, _, h⟩ := (presented_iff x _ now c u hs).mp h2
    obtain ⟨t', e', _, h'⟩ := (presented_iff x _ now c v hs).mp k2
    subst e; subst e'
    rw [h] at h'; cases h'; rfl

/-- **C100.** A request passes with a user exactly if that user is the one an earlier middleware established, or there is none and
the request presents a token for the user, and the user has the required roles. -/
theorem C100_admitted_exact (x : Ext) (m : Mw) (now : Int) (c : Ctx) (u : User) (hs : SchemeOk ws6 m.options.scheme) :
    process x m now c = .pass (some u) ↔ Authenticated x m now c u ∧ Authorised m u := by
  constructor
  · intro h
    by_cases k : ∃ v, Authenticated x m now c v
    · obtain ⟨v, k⟩ := k
      rw [process_auth hs k] at h
      obtain ⟨e, ha⟩ := (authorise_pass m v u).mp h
      subst e; exact ⟨k, ha⟩
    · rw [process_anon hs (fun u h => k ⟨u, h⟩)] at h
      split at h <;> cases h
  · rintro ⟨h, k⟩
    rw [process_auth hs h]
    exact (authorise_pass m u u).mpr ⟨rfl, k⟩

/-- **C100.** A request passes without a user exactly if authentication is optional, nobody is authenticated, and the header is
absent (a token that fails to verify never passes). -/
theorem C100_anonymous_exact (x : Ext) (m : Mw) (now : Int) (c : Ctx) (hs : SchemeOk ws6 m.options.scheme) :
    process x m now c = .pass none ↔
      (∀ u, ¬ Authenticated x m now c u) ∧ m.requireAuth = false ∧ c.header m.options.headerName = [] := by
  constructor
  · intro h
    by_cases k : ∃ v, Authenticated x m now c v
    · obtain ⟨v, k⟩ := k
      rw [process_auth hs k] at h
      rcases authorise_cases m v with a | ⟨a, _⟩ <;> rw [a] at h <;> cases h
    · have k : ∀ u, ¬ Authenticated x m now c u := fun u h => k ⟨u, h⟩
      rw [process_anon hs k] at h
      refine ⟨k, ?_⟩
      split at h
      · assumption
      · cases h
  · rintro ⟨h, k⟩
    rw [process_anon hs h, if_pos k]

/-- **C100.** Everything else is answered: 403 for an authenticated user without the roles, 401 when nobody is authenticated. -/
theorem C100_refused_exact (x : Ext) (m : Mw) (now : Int) (c : Ctx) (n : Nat) (hs : SchemeOk ws6 m.options.scheme) :
    process x m now c = .answer n ↔
      (n = 403 ∧ ∃ u, Authenticated x m now c u ∧ ¬ Authorised m u) ∨
      (n = 401 ∧ (∀ u, ¬ Authenticated x m now c u) ∧ ¬ (m.requireAuth = false ∧ c.header m.options.headerName = [])) := by
  by_cases k : ∃ v, Authenticated x m now c v
  · obtain ⟨v, k⟩ := k
    rw [process_auth hs k]
    rcases authorise_cases m v with a | ⟨a, b⟩
    · have ha := ((authorise_pass m v v).mp a).2
      rw [a]
      constructor
      · intro h; cases h
      · rintro (⟨_, u, h, hn⟩ | ⟨_, h, _⟩)
        · rw [authenticated_unique hs h k] at hn; exact absurd ha hn
        · exact absurd k (h v)
    · rw [a]
      constructor
      · intro h; cases h; exact .inl ⟨rfl, v, k, b⟩
      · rintro (⟨e, _⟩ | ⟨_, h, _⟩)
        · rw [e]
        · exact absurd k (h v)
  · have k : ∀ u, ¬ Authenticated x m now c u := fun u h => k ⟨u, h⟩
    rw [process_anon hs k]
    split
    · rename_i h1
      constructor
      · intro h; cases h
      · rintro (⟨_, u, h, _⟩ | ⟨_, _, h⟩)
        · exact absurd h (k u)
        · exact absurd h1 h
    · rename_i h1
      constructor
      · intro h; cases h; exact .inr ⟨rfl, k, h1⟩
      · rintro (⟨_, u, h, _⟩ | ⟨e, _⟩)
        · exact absurd h (k u)
        · rw [e]

/-- A library that accepts one token only, `t`, under the key `k`. -/
def extOf (t k : Bytes) (claims : List (Bytes × Bytes)) : Ext where
  parse s := if s == b!"[\"admin\"]" then some (.arr [.str b!"admin"]) else none
  dump _ := []
  create _ _ := t
  verify _ s o := if s == t && o.key == k then .ok claims else .error .signature
  decode _ := none
  jwtAlg s := algOf s
  toInt _ := none
  toDouble _ := none

/-- The hypotheses are met: a signed token of an admin passes an admin gate; a user gets 403; no header gets 401. -/
example :
    let m : Mw := { options := { secretKey := b!"k" }, roles := [b!"admin"] }
    let x := extOf b!"t" b!"k" [(b!"sub", b!"ann"), (b!"roles", b!"[\"admin\"]")]
    let y := extOf b!"t" b!"k" [(b!"sub", b!"bob")]
    let c : Ctx := { header := fun _ => b!"Bearer t" }
    SchemeOk ws6 m.options.scheme ∧
    process x m 0 c = .pass (some { id := b!"ann", roles := [b!"admin"] }) ∧ process y m 0 c = .answer 403 ∧
    process x m 0 { header := fun _ => [] } = .answer 401 := by
  refine ⟨⟨c!"B", rfl, by decide, by decide⟩, ?_⟩
  decide

/-- What optional authentication with required roles promises: nobody passes without the roles. -/
def C100_roles_full : Prop :=
  ∀ (x : Ext) (m : Mw) (now : Int) (c : Ctx) (v : Option User), SchemeOk ws6 m.options.scheme → m.roles ≠ [] →
    process x m now c = .pass v → ∃ u, v = some u ∧ Authorised m u

/-- It holds when authentication is required ... -/
theorem C100_roles_partial (x : Ext) (m : Mw) (now : Int) (c : Ctx) (v : Option User) (hs : SchemeOk ws6 m.options.scheme)
    (hr : m.requireAuth = true) (h : process x m now c = .pass v) : ∃ u, v = some u ∧ Authorised m u := by
  cases v with
  | none => rw [((C100_anonymous_exact x m now c hs).mp h).2.1] at hr; cases hr
  | some u => exact ⟨u, rfl, ((C100_admitted_exact x m now c u hs).mp h).2⟩

/-- ... and not when it is optional: a request without a token passes the role gate. -/
theorem C100_roles_refuted : ¬ C100_roles_full := by
  intro h
  have := h (extOf [] [] []) { requireAuth := false, roles := [b!"admin"] } 0 { header := fun _ => [] } none
    ⟨c!"B", rfl, by decide, by decide⟩ (by simp) (by decide)
  obtain ⟨u, e, _⟩ := this
  cases e

/-! ## C101 -/

/-- What a role gate promises: the user it lets through comes from an earlier middleware. -/
def C101_full : Prop :=
  ∀ (x : Ext) (roles : List Bytes) (all : Bool) (now : Int) (c : Ctx) (u : User),
    process x (roleGate roles all) now c = .pass (some u) → Upstream x c u

theorem bearer_ok : SchemeOk ws6 b!"Bearer" := ⟨c!"B", rfl, by decide, by decide⟩

/-- With a user established before it the gate does what it should: that user, and only with the roles. -/
theorem C101_role_gate_partial (x : Ext) (roles : List Bytes) (all : Bool) (now : Int) (c : Ctx) (u v : User) (h : Upstream x c v)
    (hp : process x (roleGate roles all) now c = .pass (some u)) : u = v ∧ Authorised (roleGate roles all) v := by
  obtain ⟨a, b⟩ := (C100_admitted_exact x _ now c u bearer_ok).mp hp
  have := authenticated_unique (m := roleGate roles all) bearer_ok a (.inl h)
  subst this
  exact ⟨rfl, b⟩

/-- Nobody passes the gate anonymously. -/
theorem C101_no_anonymous (x : Ext) (roles : List Bytes) (all : Bool) (now : Int) (c : Ctx) : process x (roleGate roles all) now c ≠ .pass none := by
  intro h
  cases ((C100_anonymous_exact x _ now c bearer_ok).mp h).2.1

/-- Without one, whoever can make a token that verifies under HS256 with the empty key passes with the roles he wrote into it. -/
theorem C101_empty_key (x : Ext) (roles : List Bytes) (all : Bool) (now : Int) (c : Ctx) (u : User) (t : Bytes) (claims : List (Bytes × Bytes))
    (hup : ∀ v, ¬ Upstream x c v) (hc : Credentials ws6 ws6 b!"Bearer" (c.header b!"Authorization") t)
    (hv : x.verify now t { alg := .hs256, key := [], verifyExp := true, verifyNbf := true, skew := 0 } = .ok claims)
    (hu : userOf x (parsedClaims x claims) = some u) (ha : Authorised (roleGate roles all) u) :
    process x (roleGate roles all) now c = .pass (some u) := by
  apply (C100_admitted_exact x _ now c u bearer_ok).mpr
  refine ⟨.inr ⟨hup, t, hc, ?_⟩, ha⟩
  have hv : x.verify now t (verifyOptions (roleGate roles all).options) = .ok claims := hv
  unfold verifyToken
  rw [if_pos (show (roleGate roles all).options.requireSignature = true from rfl), hv]
  exact hu

theorem C101_refuted : ¬ C101_full := by
  intro h
  have := h (extOf b!"t" [] [(b!"sub", b!"eve"), (b!"roles", b!"[\"admin\"]")]) [b!"admin"] false 0 { header := fun _ => b!"Bearer t" }
    { id := b!"eve", roles := [b!"admin"] } (by decide)
  rcases this with ⟨h, _⟩ | ⟨_, j, h, _⟩ <;> cases h

end Verif.Auth
