import Verif.Auth.Lemmas

/-! # C102: token round trip; C104: claims when signatures are not checked -/

namespace Verif.Auth
open Verif.Utility

/-! ## C102 -/

/-- How a string claim comes back: as what its text means as JSON, if it is a JSON text. -/
def readBack (x : Ext) (s : Bytes) : Bytes := match x.parse s with
  | none => s
  | some (.str t) => t
  | some _ => []

theorem member_append (k : Bytes) (a b : List (Bytes × J)) : member k (a ++ b) = (member k a).or (member k b) := by
  induction a with
  | nil => simp [member]
  | cons p a ih =>
    obtain ⟨n, v⟩ := p
    rw [List.cons_append, member, member, ih]
    split <;> simp

/-- The claims of a token after verification. -/
def back (x : Ext) (v : J) : J := match x.parse (flat x v) with | some j => j | none => .str (flat x v)

theorem parsed_payload (x : Ext) (l : List (Bytes × J)) :
    parsedClaims x (l.map (fun p => (p.1, flat x p.2))) = l.map (fun p => (p.1, back x p.2)) := by
  unfold parsedClaims back
  rw [List.map_map]
  rfl

theorem member_back (x : Ext) (k : Bytes) (l : List (Bytes × J)) :
    member k (l.map (fun p => (p.1, back x p.2))) = (member k l).map (back x) := by
  induction l with
  | nil => rfl
  | cons p l ih =>
    obtain ⟨n, v⟩ := p
    simp only [List.map_cons, member]
    split
    · rfl
    · exact ih

theorem payload_sub (o : Options) (now : Int) (u : User) : member b!"sub" (payloadOf o now u) = some (.str u.id) := rfl

theorem payload_rest (o : Options) (now : Int) (u : User) (k : Bytes) (h : k ∉ [b!"sub", b!"iat", b!"exp", b!"iss", b!"aud"]) :
    member k (payloadOf o now u) = member k ([(b!"username", J.str u.username), (b!"roles", J.arr (u.roles.map J.str))]
      ++ (if u.metadata.isEmpty then [] else [(b!"metadata", J.obj (u.metadata.map (fun p => (p.1, J.str p.2))))])) := by
  simp only [List.mem_cons, List.not_mem_nil, or_false, not_or] at h
  obtain ⟨h1, h2, h3, h4, h5⟩ := h
  have e : ∀ (n : Bytes) v l, k ≠ n → member k ((n, v) :: l) = member k l := by
    intro n v l hn
    rw [member, if_neg]
    intro hb; exact hn (beq_iff_eq.mp hb).symm
  unfold payloadOf
  simp only [List.append_assoc, member_append]
  have hn : member k [] = none := rfl
  have i1 : member k [(b!"sub", J.str u.id), (b!"iat", J.num now)] = none := by rw [e _ _ _ h1, e _ _ _ h2, hn]
  have i2 : member k (if o.verifyExp then [(b!"exp", J.num (now + o.expiration))] else []) = none := by
    split
    · rw [e _ _ _ h3, hn]
    · rfl
  have i3 : member k (if o.verifyIss then [(b!"iss", J.str o.issuer)] else []) = none := by
    split
    · rw [e _ _ _ h4, hn]
    · rfl
  have i4 : member k (if o.verifyAud then [(b!"aud", J.str o.audience)] else []) = none := by
    split
    · rw [e _ _ _ h5, hn]
    · rfl
  rw [i1, i2, i3, i4]
  rfl

theorem payload_username (o : Options) (now : Int) (u : User) : member b!"username" (payloadOf o now u) = some (.str u.username) := by
  rw [payload_rest _ _ _ _ (by decide)]; rfl

theorem payload_roles (o : Options) (now : Int) (u : User) : member b!"roles" (payloadOf o now u) = some (.arr (u.roles.map J.str)) := by
  rw [payload_rest _ _ _ _ (by decide)]; rfl

theorem payload_meta (o : Options) (now : Int) (u : User) : member b!"metadata" (payloadOf o now u) =
    if u.metadata.isEmpty then none else some (.obj (u.metadata.map (fun p => (p.1, J.str p.2)))) := by
  rw [payload_rest _ _ _ _ (by decide)]
  split <;> rfl

theorem rolesUntil_map (l : List Bytes) : rolesUntil (l.map J.str) = l := by
  induction l with
  | nil => rfl
  | cons a l ih => rw [List.map_cons, rolesUntil, ih]

theorem strMember_back (x : Ext) (k : Bytes) (l : List (Bytes × J)) (s : Bytes) (h : member k l = some (.str s)) :
    strMember k (l.map (fun p => (p.1, back x p.2))) = readBack x s := by
  unfold strMember
  rw [member_back, h]
  simp only [Option.map_some, back, flat, readBack]
  cases x.parse s with
  | none => rfl
  | some j => cases j <;> rfl

theorem flat_map_str (x : Ext) (l : List (Bytes × Bytes)) : (l.map (fun p => (p.1, J.str p.2))).map (fun q => (q.1, flat x q.2)) = l := by
  rw [List.map_map]
  conv => rhs; rw [← List.map_id l]
  rfl

/-- **C102.** What verification returns for a token the manager made, whatever the identity is: roles and metadata as they were,
the identifier and the user name as their JSON reading (nothing at all if both read back empty). -/
theorem C102_readback_exact (x : Ext) (o : Options) (now later : Int) (u : User) (hsig : o.requireSignature = true)
    (hx : Faithful x o now later u) :
    verifyToken x o later (generate x o now u) =
      if readBack x u.id = [] ∧ readBack x u.username = [] then none
      else some { u with id := readBack x u.id, username := readBack x u.username } := by
  obtain ⟨h1, h2, h3⟩ := hx
  unfold verifyToken
  rw [if_pos hsig, h1]
  simp only []
  rw [parsed_payload]
  unfold userOf
  simp only []
  rw [strMember_back x _ _ _ (payload_sub o now u), strMember_back x _ _ _ (payload_username o now u)]
  have hr : claimRoles x ((payloadOf o now u).map (fun p => (p.1, back x p.2))) = u.roles := by
    unfold claimRoles
    rw [member_back, payload_roles]
    simp only [Option.map_some, back, flat]
    rw [h2]
    exact rolesUntil_map _
  have hm : claimMeta x ((payloadOf o now u).map (fun p => (p.1, back x p.2))) = u.metadata := by
    unfold claimMeta
    rw [member_back, payload_meta]
    by_cases he : u.metadata = []
    · simp [he]
    · rw [if_neg (by simpa using he)]
      simp only [Option.map_some, back, flat]
      rw [h3]
      exact flat_map_str x _
  rw [hr, hm]
  by_cases hb : readBack x u.id = [] ∧ readBack x u.username = []
  · rw [if_pos hb, if_pos (by simp [hb.1, hb.2])]
  · rw [if_neg hb, if_neg]
    intro k
    rw [Bool.and_eq_true] at k
    exact hb ⟨by simpa using k.1, by simpa using k.2⟩

/-- The property: whoever a token is made for is who it verifies for. -/
def C102_full : Prop :=
  ∀ (x : Ext) (o : Options) (now later : Int) (u : User), o.requireSignature = true → u.id ≠ [] → Faithful x o now later u →
    verifyToken x o later (generate x o now u) = some u

/-- It holds for identifiers and user names that are not JSON texts. -/
theorem C102_round_trip_partial (x : Ext) (o : Options) (now later : Int) (u : User) (hsig : o.requireSignature = true) (hid : u.id ≠ [])
    (hx : Faithful x o now later u) (h1 : x.parse u.id = none) (h2 : x.parse u.username = none) :
    verifyToken x o later (generate x o now u) = some u := by
  rw [C102_readback_exact x o now later u hsig hx]
  have a : readBack x u.id = u.id := by unfold readBack; rw [h1]
  have b : readBack x u.username = u.username := by unfold readBack; rw [h2]
  rw [a, b, if_neg (fun h => hid h.1)]

/-- A user known by a numeric identifier only cannot use his token. -/
theorem C102_numeric_id_refused (x : Ext) (o : Options) (now later : Int) (u : User) (i : Int) (hsig : o.requireSignature = true)
    (hx : Faithful x o now later u) (h1 : x.parse u.id = some (.num i)) (h2 : x.parse u.username = none) (h3 : u.username = []) :
    verifyToken x o later (generate x o now u) = none := by
  rw [C102_readback_exact x o now later u hsig hx, if_pos]
  unfold readBack
  rw [h1, h2]
  exact ⟨rfl, h3⟩

/-- A user whose identifier is a quoted name verifies as the user of that name. -/
theorem C102_quoted_id_confused (x : Ext) (o : Options) (now later : Int) (u : User) (victim : Bytes) (hv : victim ≠ []) (hsig : o.requireSignature = true)
    (hx : Faithful x o now later u) (h1 : x.parse u.id = some (.str victim)) (h2 : x.parse u.username = none) :
    verifyToken x o later (generate x o now u) = some { u with id := victim } := by
  rw [C102_readback_exact x o now later u hsig hx]
  have a : readBack x u.id = victim := by unfold readBack; rw [h1]
  have b : readBack x u.username = u.username := by unfold readBack; rw [h2]
  rw [a, b, if_neg (fun h => hv h.1)]

/-- A library that gives back what was put in, with just enough JSON for the examples. -/
def toyExt (claims : List (Bytes × Bytes)) : Ext where
  parse s := if s == b!"[]" then some (.arr []) else if s == b!"{}" then some (.obj []) else if s == b!"42" then some (.num 42)
    else if s == b!"\"admin\"" then some (.str b!"admin") else none
  dump j := match j with | .arr _ => b!"[]" | .obj _ => b!"{}" | _ => b!"0"
  create _ _ := b!"t"
  verify _ _ _ := .ok claims
  decode _ := none
  jwtAlg s := algOf s
  toInt _ := none
  toDouble _ := none

def toyFor (u : User) : Ext := toyExt ((payloadOf {} 0 u).map (fun p => (p.1, flat (toyExt []) p.2)))

theorem C102_refuted : ¬ C102_full := by
  intro h
  have := h (toyFor { id := b!"\"admin\"" }) {} 0 0 { id := b!"\"admin\"" } rfl (by simp) ⟨rfl, rfl, rfl⟩
  rw [C102_quoted_id_confused _ _ _ _ _ b!"admin" (by simp) rfl ⟨rfl, rfl, rfl⟩ rfl rfl] at this
  revert this
  decide

/-- The hypotheses are met: by an ordinary user, a numeric identifier, and a quoted one. -/
example :
    Faithful (toyFor { id := b!"ann" }) {} 0 0 { id := b!"ann" } ∧
    verifyToken (toyFor { id := b!"ann" }) {} 0 (generate (toyFor { id := b!"ann" }) {} 0 { id := b!"ann" }) = some { id := b!"ann" } ∧
    verifyToken (toyFor { id := b!"42" }) {} 0 (generate (toyFor { id := b!"42" }) {} 0 { id := b!"42" }) = none :=
  ⟨⟨rfl, rfl, rfl⟩, C102_round_trip_partial _ _ _ _ _ rfl (by simp) ⟨rfl, rfl, rfl⟩ rfl rfl,
   C102_numeric_id_refused _ _ _ _ _ 42 rfl ⟨rfl, rfl, rfl⟩ rfl rfl rfl⟩

/-! ## C104 -/

theorem digits_iff (s : Bytes) (n m : Nat) :
    digits s n = some m ↔ All isDigit s ∧ m = s.foldl (fun n c => n * 10 + (c.toNat - 48)) n := by
  induction s generalizing n with
  | nil =>
    simp only [digits, List.foldl_nil, Option.some.injEq]
    exact ⟨fun h => ⟨(fun c hc => by cases hc), h.symm⟩, fun h => h.2.symm⟩
  | cons c s ih =>
    rw [digits, List.foldl_cons]
    have hc : isDigit c = (48 ≤ c && c ≤ 57) := rfl
    by_cases h : isDigit c = true
    · rw [if_pos (by rw [hc] at h; exact h), ih]
      simp [All, h]
    · rw [if_neg (by rw [hc] at h; exact h)]
      simp only [All, List.mem_cons, forall_eq_or_imp]
      constructor
      · intro h; cases h
      · intro k; exact absurd k.1.1 h

theorem fromChars_iff (s : Bytes) (i : Int) : fromChars s = some i ↔ Numeral s i := by
  unfold Numeral
  cases s with
  | nil => simp [fromChars]
  | cons c t =>
    unfold fromChars
    simp only []
    by_cases hc : c = 45
    · subst hc
      rw [if_pos (by decide)]
      have nd : ¬ All isDigit (45 :: t) := by
        intro h; have := h 45 (List.mem_cons_self ..); revert this; decide
      by_cases ht : t = []
      · subst ht
        simp [nd]
      · rw [if_neg (by simpa using ht)]
        constructor
        · intro h
          cases hd : digits t 0 with
          | none => rw [hd] at h; cases h
          | some n =>
            rw [hd] at h
            simp only [] at h
            split at h
            · rename_i hn
              cases h
              obtain ⟨a, b⟩ := (digits_iff t 0 n).mp hd
              exact ⟨by omega, by omega, .inr ⟨t, rfl, ht, a, by rw [b]; rfl⟩⟩
            · cases h
        · rintro ⟨h1, h2, ⟨_, k, _⟩ | ⟨d, e, _, k, hi⟩⟩
          · exact absurd k nd
          · cases e
            rw [(digits_iff t 0 _).mpr ⟨k, rfl⟩]
            simp only []
            have hi : i = -((List.foldl (fun n c => n * 10 + (c.toNat - 48)) 0 t : Nat) : Int) := hi
            rw [if_pos (by omega), hi]
    · rw [if_neg (by simpa using hc)]
      constructor
      · intro h
        cases hd : digits (c :: t) 0 with
        | none => rw [hd] at h; cases h
        | some n =>
          rw [hd] at h
          simp only [] at h
          split at h
          · rename_i hn
            cases h
            obtain ⟨a, b⟩ := (digits_iff (c :: t) 0 n).mp hd
            exact ⟨by omega, by omega, .inl ⟨by simp, a, by rw [b]; rfl⟩⟩
          · cases h
      · rintro ⟨h1, h2, ⟨_, k, hi⟩ | ⟨d, e, _, k, hi⟩⟩
        · rw [(digits_iff (c :: t) 0 _).mpr ⟨k, rfl⟩]
          simp only []
          have hi : i = ((List.foldl (fun n c => n * 10 + (c.toNat - 48)) 0 (c :: t) : Nat) : Int) := hi
          rw [if_pos (by omega), hi]
        · cases e; exact absurd rfl hc

/-- **C104.** Strings are read exactly as 64-bit decimal numerals. -/
theorem C104_numeral_exact (s : Bytes) (i : Int) : timeClaim (.str s) = some i ↔ Numeral s i := fromChars_iff s i

theorem timeClaim_iff (c : J) (i : Int) (h : ∀ n, c = .num n → n < 9223372036854775808) : timeClaim c = some i ↔ Denotes c i := by
  unfold Denotes
  cases c with
  | num n =>
    have := h n rfl
    simp only [timeClaim, wrap64]
    rw [if_neg (by omega)]
    simp
  | str s => simp [timeClaim, fromChars_iff]
  | null => simp [timeClaim]
  | bool _ => simp [timeClaim]
  | float _ _ => simp [timeClaim]
  | arr _ => simp [timeClaim]
  | obj _ => simp [timeClaim]

theorem expOk_iff (o : Options) (now : Int) (p : List (Bytes × J)) (h : TimesSigned p) :
    expOk o now p = true ↔ (o.verifyExp = true → ∀ c, member b!"exp" p = some c → ∃ e, Denotes c e ∧ now ≤ e + o.skew) := by
  unfold expOk
  cases o.verifyExp with
  | false => simp
  | true =>
    rw [if_pos rfl]
    cases hm : member b!"exp" p with
    | none => simp
    | some c =>
      have hd := fun i => timeClaim_iff c i (fun n hn => h _ n (.inl rfl) (hn ▸ hm))
      simp only []
      cases ht : timeClaim c with
      | none =>
        simp only [Bool.false_eq_true, false_iff]
        intro k
        obtain ⟨e, he, _⟩ := k (by trivial) c rfl
        rw [← hd, ht] at he; cases he
      | some e =>
        have de := (hd e).mp ht
        simp only []
        constructor
        · intro k _ d e'; cases e'
          exact ⟨e, de, by simp at k; omega⟩
        · intro k
          obtain ⟨e', he, hk⟩ := k (by trivial) c rfl
          rw [← hd, ht] at he; cases he
          simp; omega

theorem nbfOk_iff (o : Options) (now : Int) (p : List (Bytes × J)) (h : TimesSigned p) :
    nbfOk o now p = true ↔ (o.verifyNbf = true → ∀ c, member b!"nbf" p = some c → ∃ n, Denotes c n ∧ n ≤ now + o.skew) := by
  unfold nbfOk
  cases o.verifyNbf with
  | false => simp
  | true =>
    rw [if_pos rfl]
    cases hm : member b!"nbf" p with
    | none => simp
    | some c =>
      have hd := fun i => timeClaim_iff c i (fun n hn => h _ n (.inr rfl) (hn ▸ hm))
      simp only []
      cases ht : timeClaim c with
      | none =>
        simp only [Bool.false_eq_true, false_iff]
        intro k
        obtain ⟨e, he, _⟩ := k (by trivial) c rfl
        rw [← hd, ht] at he; cases he
      | some e =>
        have de := (hd e).mp ht
        simp only []
        constructor
        · intro k _ d e'; cases e'
          exact ⟨e, de, by simp at k; omega⟩
        · intro k
          obtain ⟨e', he, hk⟩ := k (by trivial) c rfl
          rw [← hd, ht] at he; cases he
          simp; omega

theorem issOk_iff (o : Options) (p : List (Bytes × J)) :
    issOk o p = true ↔ (o.verifyIss = true → member b!"iss" p = some (.str o.issuer)) := by
  unfold issOk
  cases o.verifyIss with
  | false => simp
  | true =>
    rw [if_pos rfl]
    cases hm : member b!"iss" p with
    | none => simp
    | some c => cases c <;> simp

theorem audOk_iff (o : Options) (p : List (Bytes × J)) :
    audOk o p = true ↔ (o.verifyAud = true → member b!"aud" p = some (.str o.audience) ∨ ∃ l, member b!"aud" p = some (.arr l) ∧ J.str o.audience ∈ l) := by
  unfold audOk
  cases o.verifyAud with
  | false => simp
  | true =>
    rw [if_pos rfl]
    cases hm : member b!"aud" p with
    | none => simp
    | some c =>
      cases c with
      | arr l =>
        simp only [List.any_eq_true]
        constructor
        · rintro ⟨j, hj, k⟩ _
          refine .inr ⟨l, rfl, ?_⟩
          cases j <;> simp [isAud] at k
          subst k; exact hj
        · intro k
          rcases k (by trivial) with k | ⟨l', e, k⟩
          · cases k
          · cases e; exact ⟨_, k, by simp [isAud]⟩
      | _ => simp

/-- The property: with signatures switched off the configured claims are still enforced. -/
def C104_full : Prop :=
  ∀ (x : Ext) (o : Options) (now : Int) (t : Bytes) (u : User) (s : Bytes) (p : List (Bytes × J)), o.requireSignature = false →
    x.decode t = some s → x.parse s = some (.obj p) →
    (verifyToken x o now t = some u ↔ ClaimsOk o now p ∧ userOf x p = some u)

/-- It holds for claims whose times fit a signed 64-bit number. -/
theorem C104_claims_partial (x : Ext) (o : Options) (now : Int) (t : Bytes) (u : User) (s : Bytes) (p : List (Bytes × J))
    (ho : o.requireSignature = false) (hd : x.decode t = some s) (hp : x.parse s = some (.obj p)) (hts : TimesSigned p) :
    verifyToken x o now t = some u ↔ ClaimsOk o now p ∧ userOf x p = some u := by
  unfold verifyToken ClaimsOk
  rw [if_neg (by simp [ho]), hd, Option.bind_some, hp, ← expOk_iff o now p hts, ← nbfOk_iff o now p hts, ← issOk_iff, ← audOk_iff]
  simp only []
  cases expOk o now p <;> cases nbfOk o now p <;> cases issOk o p <;> cases audOk o p <;> simp

/-- A token that is not an object of claims is refused. -/
theorem C104_not_claims (x : Ext) (o : Options) (now : Int) (t : Bytes) (ho : o.requireSignature = false)
    (h : ∀ s p, x.decode t = some s → x.parse s ≠ some (.obj p)) : verifyToken x o now t = none := by
  unfold verifyToken
  rw [if_neg (by simp [ho])]
  cases hd : x.decode t with
  | none => rfl
  | some s =>
    rw [Option.bind_some]
    cases hp : x.parse s with
    | none => rfl
    | some j =>
      cases j with
      | obj p => exact absurd hp (h s p hd)
      | _ => rfl

/-- Any `nbf` from 2^63 on is accepted now: it is read as a time before 1970. -/
theorem C104_nbf_wraps (o : Options) (now i : Int) (p : List (Bytes × J)) (hm : member b!"nbf" p = some (.num i)) (h1 : 9223372036854775808 ≤ i)
    (h2 : i < 18446744073709551616) (hnow : 0 ≤ now) (hskew : 0 ≤ o.skew) : nbfOk o now p = true := by
  unfold nbfOk
  split
  · rw [hm]
    simp only [timeClaim, wrap64]
    rw [if_pos (by omega)]
    simp; omega
  · rfl

/-- A token active from 2^63 seconds on. -/
def futureExt : Ext where
  parse _ := some (.obj [(b!"sub", .str b!"ann"), (b!"nbf", .num 9223372036854775808)])
  dump _ := []
  create _ _ := []
  verify _ _ _ := .error .other
  decode _ := some b!"{}"
  jwtAlg _ := none
  toInt _ := none
  toDouble _ := none

theorem C104_refuted : ¬ C104_full := by
  intro h
  have h := h futureExt { requireSignature := false } 1700000000 b!"t" { id := b!"ann" } b!"{}"
    [(b!"sub", .str b!"ann"), (b!"nbf", .num 9223372036854775808)] rfl rfl rfl
  obtain ⟨⟨_, k, _⟩, _⟩ := h.mp (by decide)
  obtain ⟨n, hd, hn⟩ := k rfl _ rfl
  rcases hd with hd | ⟨_, hd, _⟩
  · cases hd; simp at hn
  · cases hd

/-- The hypotheses are met. -/
example : TimesSigned [(b!"sub", .str b!"ann"), (b!"exp", .num 1700000000)] ∧ Numeral b!"-12" (-12) ∧ ¬ Numeral b!"+12" 12 := by
  refine ⟨?_, ?_, ?_⟩
  · rintro k i (rfl | rfl) h
    · cases h; decide
    · cases h
  · exact (fromChars_iff _ _).mp rfl
  · rw [← fromChars_iff]; decide

end Verif.Auth
