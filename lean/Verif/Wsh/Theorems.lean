import Verif.Wsh.Lemmas

/-! # C180-C183. The WebSocket handshake -/

namespace Verif.Wsh

open Verif.Parse (header push)

theorem token_ink {t : Bytes} (h : Token t) : ∀ c ∈ t, c ≠ 32 ∧ c ≠ 9 ∧ c ≠ 44 := by
  intro c hc
  obtain ⟨h1, h2, h3⟩ := h.2 c hc
  refine ⟨fun e => ?_, fun e => ?_, fun e => ?_⟩ <;> subst e
  · simp at h1
  · simp at h1
  · exact h3 (by decide)

theorem enc_tight {c : Crypto} (hc : Lawful c) (x : Bytes) : Tight (c.enc x) := tight_of_ink (fun ch h => isWs_false (hc.ink x ch h))

theorem thirteen (v : Bytes) : iequal (trim v) b!"13" = true ↔ Is v b!"13" := by
  rw [iequal_iff, is_trim_iff (tight_of_ink (by decide))]
  constructor
  · intro h
    have hl := congrArg List.length h
    have d : ∀ c k : Byte, low c = k → (k = 49 ∨ k = 51) → c = k := by
      intro c k h hk
      unfold low at h
      split at h
      · rename_i hc
        exfalso
        have := congrArg UInt8.toNat h
        rcases hk with e | e <;> subst e <;> simp at this <;> omega
      · exact h
    match hv : trim v, h, hl with
    | [], h, hl => simp at hl
    | [x], h, hl => simp at hl
    | [x, y], h, hl =>
      have h : [low x, low y] = [49, 51] := h
      injection h with h1 h2
      injection h2 with h2 _
      rw [d x 49 h1 (.inl rfl), d y 51 h2 (.inr rfl)]
    | x :: y :: z :: l, h, hl => simp at hl
  · intro h; rw [h]

theorem populate_eq {c : Crypto} {q : Req} {r s : Resp} (h : populate c q r = some s) : q.get = true ∧ q.upgrade = true ∧ iequal (header q.headers b!"Upgrade") b!"websocket" = true ∧ hasToken (header q.headers b!"Connection") b!"Upgrade" = true ∧
    (∃ d, d.length = 16 ∧ c.enc d = trim (header q.headers b!"Sec-WebSocket-Key")) ∧ iequal (trim (header q.headers b!"Sec-WebSocket-Version")) b!"13" = true ∧
    s = { r with status := 101, headers := push (push (push r.headers b!"Upgrade" b!"websocket") b!"Connection" b!"Upgrade") b!"Sec-WebSocket-Accept" (acceptKey c (trim (header q.headers b!"Sec-WebSocket-Key"))) } := by
  unfold populate at h
  split at h
  · cases h
  rename_i h1
  split at h
  · cases h
  rename_i h2
  split at h
  · cases h
  rename_i h3
  split at h
  · cases h
  rename_i h4
  dsimp only at h
  split at h
  · cases h
  split at h
  · cases h
  split at h
  · cases h
  rename_i d hd
  split at h
  · cases h
  rename_i h5
  split at h
  · cases h
  rename_i h6
  split at h
  · cases h
  rename_i h7
  exact ⟨by simpa using h1, by simpa using h2, by simpa using h3, by simpa using h4, ⟨d, by simpa using h5, by simpa using h6⟩, by simpa using h7, (Option.some.inj h).symm⟩

theorem upgrade_ok : ∀ c ∈ (b!"Upgrade").map low, c ≠ 32 ∧ c ≠ 9 ∧ c ≠ 44 := by decide

/-- C180. A server accepts exactly the valid upgrade requests: GET, an upgrade to `websocket`, `upgrade` among the elements of `Connection`, version 13, and a key that is the base64 of 16 octets. -/
theorem C180_accepts (c : Crypto) (hc : Lawful c) (q : Req) (r : Resp) : (∃ s, populate c q r = some s) ↔ ∃ key, ValidRequest c q key := by
  constructor
  · rintro ⟨s, h⟩
    obtain ⟨h1, h2, h3, h4, ⟨d, h5, h6⟩, h7, -⟩ := populate_eq h
    exact ⟨_, h1, h2, (iequal_iff _ _).1 h3, (hasToken_iff _ (by decide) upgrade_ok _).1 h4, trim_is _, ⟨d, h5, h6.symm⟩, (thirteen _).1 h7⟩
  · rintro ⟨key, h1, h2, h3, h4, h5, ⟨d, h6, h7⟩, h8⟩
    subst h7
    have hk := (is_trim_iff (enc_tight hc d)).1 h5
    have hl := hc.len d h6
    apply Option.isSome_iff_exists.1
    · unfold populate
      have a3 : iequal (header q.headers b!"Upgrade") b!"websocket" = true := (iequal_iff _ _).2 h3
      have a4 := (hasToken_iff (b!"Upgrade") (by decide) upgrade_ok _).2 h4
      have a8 := (thirteen _).2 h8
      have ne : (c.enc d).isEmpty = false := by cases h : c.enc d with
        | nil => rw [h] at hl; cases hl
        | cons => rfl
      simp only [h1, h2, a3, a4, a8, hk, hc.dec, hl, h6, ne, Bool.not_true, Bool.false_eq_true, if_false, bne_self_eq_false]
      rfl

/-- C180. The response to the key `key` is 101 with the fields of the response so far, `Upgrade: websocket`, `Connection: Upgrade` and the answer to the key; a refused request does not touch the response. -/
theorem C180_response (c : Crypto) (hc : Lawful c) (q : Req) (r : Resp) (key : Bytes) (h : ValidRequest c q key) :
    populate c q r = some { r with status := 101, headers := push (push (push r.headers b!"Upgrade" b!"websocket") b!"Connection" b!"Upgrade") b!"Sec-WebSocket-Accept" (answer c key) } := by
  obtain ⟨s, hs⟩ := (C180_accepts c hc q r).2 ⟨key, h⟩
  obtain ⟨-, -, -, -, -, -, e⟩ := populate_eq hs
  obtain ⟨-, -, -, -, h5, ⟨d, -, h7⟩, -⟩ := h
  subst h7
  rw [(is_trim_iff (enc_tight hc d)).1 h5] at e
  rw [hs, e]; rfl

/-- C181. A client takes a response exactly if it is valid for its own key, and names no subprotocol or exactly one that the client offered; that one is the negotiated one. -/
theorem C181_takes (c : Crypto) (hc : Lawful c) (key : Bytes) (offered : List Bytes) (ht : ∀ p ∈ offered, Token p) (r : Resp) (s : Bytes) :
    onResponse c key offered r = some s ↔ ValidResponse c r key ∧ ((s = [] ∧ Blank (header r.headers b!"Sec-WebSocket-Protocol")) ∨ (s ∈ offered ∧ Is (header r.headers b!"Sec-WebSocket-Protocol") s)) := by
  have ho : ∀ p ∈ offered, p ≠ [] ∧ ∀ ch ∈ p, ch ≠ 32 ∧ ch ≠ 9 ∧ ch ≠ 44 := fun p hp => ⟨(ht p hp).1, fun ch h => token_ink (ht p hp) ch h⟩
  have hval : validate c r key = true ↔ ValidResponse c r key := by
    unfold validate ValidResponse
    have e1 := iequal_iff (header r.headers b!"Upgrade") b!"websocket"
    have e2 := hasToken_iff (b!"Upgrade") (by decide) upgrade_ok (header r.headers b!"Connection")
    have e3 : (if (trim (header r.headers b!"Sec-WebSocket-Accept")).isEmpty then false else constEqual (trim (header r.headers b!"Sec-WebSocket-Accept")) (acceptKey c key)) = true ↔ Is (header r.headers b!"Sec-WebSocket-Accept") (answer c key) := by
      rw [is_trim_iff (show Tight (answer c key) from enc_tight hc _)]
      have ne : answer c key ≠ [] := hc.some_ _ (hc.sha1 _)
      constructor
      · intro h
        split at h
        · cases h
        · exact (constEqual_iff _ _).1 h
      · intro h
        rw [h]
        cases ha : answer c key with
        | nil => exact absurd ha ne
        | cons x l =>
          simp only [List.isEmpty_cons, Bool.false_eq_true, if_false]
          rw [constEqual_iff, ← ha]; rfl
    have m : (b!"websocket").map low = b!"websocket" := by decide
    have m' : (b!"Upgrade").map low = b!"upgrade" := by decide
    rw [m] at e1
    rw [m'] at e2
    rw [← e1, ← e2, ← e3]
    cases r.upgrade <;> cases iequal (header r.headers b!"Upgrade") b!"websocket" <;> cases hasToken (header r.headers b!"Connection") b!"Upgrade" <;> by_cases h : r.status = 101 <;> simp [h]
  have trim_nil : ∀ v, trim v = [] ↔ Blank v := by
    intro v
    rw [← is_trim_iff ⟨fun _ h => (by cases h), fun _ h => (by cases h)⟩]
    constructor
    · rintro ⟨a, b, e, ha, hb⟩
      rw [e, List.append_nil]
      intro ch h
      rcases List.mem_append.1 h with h | h
      · exact ha _ h
      · exact hb _ h
    · intro h; exact ⟨v, [], by simp, h, fun _ h => (by cases h)⟩
  have to : ∀ p ∈ offered, Tight p := fun p hp => tight_of_ink (fun ch h => isWs_false ⟨((ho p hp).2 ch h).1, ((ho p hp).2 ch h).2.1⟩)
  unfold onResponse
  by_cases hv : validate c r key = true
  · rw [hv]
    simp only [Bool.not_true, Bool.false_eq_true, if_false, hval.1 hv, true_and]
    have tt := trim_tight (header r.headers b!"Sec-WebSocket-Protocol")
    have ti := trim_is (header r.headers b!"Sec-WebSocket-Protocol")
    have tn := trim_nil (header r.headers b!"Sec-WebSocket-Protocol")
    have tis : ∀ p ∈ offered, Is (header r.headers b!"Sec-WebSocket-Protocol") p ↔ trim (header r.headers b!"Sec-WebSocket-Protocol") = p := fun p hp => is_trim_iff (to p hp)
    generalize trim (header r.headers b!"Sec-WebSocket-Protocol") = x at *
    cases x with
    | nil =>
      simp only [List.isEmpty_nil, Bool.not_true, Bool.false_eq_true, if_false, Option.some.injEq]
      constructor
      · intro e; exact .inl ⟨e.symm, tn.1 rfl⟩
      · rintro (⟨e, _⟩ | ⟨hm, hi⟩)
        · exact e.symm
        · exact absurd ((tis s hm).1 hi).symm (ho s hm).1
    | cons y x =>
      have hb : ¬ Blank (header r.headers b!"Sec-WebSocket-Protocol") := fun h => by cases tn.2 h
      simp only [List.isEmpty_cons, Bool.not_false, if_true, hb, and_false, false_or]
      by_cases hcm : (c!"," : Byte) ∈ y :: x
      · rw [if_pos (by simp only [Bool.or_eq_true, List.contains_iff_mem]; exact .inl hcm)]
        constructor
        · intro h; cases h
        · rintro ⟨hm, hi⟩
          rw [(tis s hm).1 hi] at hcm
          exact absurd rfl ((ho s hm).2 _ hcm).2.2
      · have e1 := (takeWhile_comma (y :: x) [] hcm (.inl rfl)).1
        rw [List.append_nil] at e1
        have e2 : trim (y :: x) = y :: x := trim_of_is ⟨[], [], by simp, fun _ h => (by cases h), fun _ h => (by cases h)⟩ tt
        rw [e1, e2]
        by_cases hoff : offered = []
        · subst hoff
          simp
        · have : ((y :: x).contains 44 || offered.isEmpty) = false := by
            rw [Bool.or_eq_false_iff]
            refine ⟨by rw [← Bool.not_eq_true, List.contains_iff_mem]; exact hcm, by cases offered with | nil => exact absurd rfl hoff | cons => rfl⟩
          rw [this]
          simp only [Bool.false_eq_true, if_false]
          by_cases hm : y :: x ∈ offered
          · have : offered.any (· == y :: x) = true := List.any_eq_true.2 ⟨_, hm, by simp⟩
            rw [this]
            simp only [Bool.not_true, Bool.false_eq_true, if_false, Option.some.injEq]
            constructor
            · intro e; subst e; exact ⟨hm, ti⟩
            · rintro ⟨h1, h2⟩; exact (tis s h1).1 h2
          · have : offered.any (· == y :: x) = false := by
              rw [← Bool.not_eq_true, List.any_eq_true]
              rintro ⟨p, hp, e⟩
              simp only [beq_iff_eq] at e
              exact hm (e ▸ hp)
            rw [this]
            simp only [Bool.not_false, if_true]
            constructor
            · intro h; cases h
            · rintro ⟨h1, h2⟩; exact absurd ((tis s h1).1 h2 ▸ h1) hm
  · have : validate c r key = false := by simpa using hv
    rw [this]
    simp only [Bool.not_false, if_true]
    constructor
    · intro h; cases h
    · rintro ⟨h, _⟩; exact absurd (hval.2 h) hv

theorem isTokenChar_iff (c : Byte) : isTokenChar c = true ↔ 33 ≤ c.toNat ∧ c.toNat ≤ 126 ∧ c ∉ b!"\"(),/:;<=>?@[\\]{}" := by
  have : ∀ n : Fin 256, isTokenChar (UInt8.ofNat n.val) = true ↔ 33 ≤ (UInt8.ofNat n.val).toNat ∧ (UInt8.ofNat n.val).toNat ≤ 126 ∧ UInt8.ofNat n.val ∉ b!"\"(),/:;<=>?@[\\]{}" := by decide +kernel
  have h := this ⟨c.toNat, c.toNat_lt⟩
  simpa using h

/-- C181. Exactly tokens can be offered as subprotocols. -/
theorem C181_offered (ps o : List Bytes) : setSubprotocols ps = some o ↔ o = ps ∧ ∀ p ∈ ps, Token p := by
  have e : ∀ p : Bytes, isValidToken p = true ↔ Token p := by
    intro p
    unfold isValidToken Token
    rw [Bool.and_eq_true, List.all_eq_true]
    refine and_congr ?_ ⟨fun h c hc => (isTokenChar_iff c).1 (h c hc), fun h c hc => (isTokenChar_iff c).2 (h c hc)⟩
    cases p <;> simp
  unfold setSubprotocols
  by_cases h : ps.all isValidToken = true
  · rw [if_pos h]
    rw [List.all_eq_true] at h
    constructor
    · intro k; exact ⟨(Option.some.inj k).symm, fun p hp => (e p).1 (h p hp)⟩
    · rintro ⟨k, -⟩; rw [k]
  · rw [if_neg h]
    constructor
    · intro k; cases k
    · rintro ⟨-, k⟩; exact absurd (List.all_eq_true.2 (fun p hp => (e p).2 (k p hp))) h

theorem trim_blank (v : Bytes) : trim (32 :: v) = trim v := by
  unfold trim; rw [List.dropWhile_cons, if_pos (by decide)]

theorem hasToken_blank (v tok : Bytes) : hasToken (32 :: v) tok = hasToken v tok := by
  rw [hasToken, hasToken]
  have e1 : (32 :: v).takeWhile (· != 44) = 32 :: v.takeWhile (· != 44) := by rw [List.takeWhile_cons, if_pos (by decide)]
  have e2 : (32 :: v).dropWhile (· != 44) = v.dropWhile (· != 44) := by rw [List.dropWhile_cons, if_pos (by decide)]
  rw [e1, trim_blank]
  split
  · rfl
  · split
    · rename_i h
      rw [e2] at h
      split
      · rfl
      · rename_i h'; rw [h] at h'; cases h'
    · rename_i h
      rw [e2] at h
      split
      · rename_i h'; rw [h] at h'; cases h'
      · rename_i h'; rw [h] at h'; cases h'; rfl

theorem hasToken_join (tok : Bytes) : ∀ ps : List Bytes, (∀ p ∈ ps, Token p) → hasToken (join ps) tok = ps.any (fun p => iequal p tok)
  | [], _ => by rw [join, hasToken]; rfl
  | [p], h => by
    have hp := h p (by simp)
    have ink := token_ink hp
    have e := takeWhile_comma p [] (fun hm => (ink _ hm).2.2 rfl) (.inl rfl)
    rw [List.append_nil] at e
    have et : trim p = p := trim_of_is ⟨[], [], by simp, fun _ h => (by cases h), fun _ h => (by cases h)⟩ (tight_of_ink (fun c hc => isWs_false ⟨(ink c hc).1, (ink c hc).2.1⟩))
    rw [join, hasToken, e.1, et]
    have ne : p.isEmpty = false := by cases hq : p with
      | nil => exact absurd hq hp.1
      | cons => rfl
    rw [ne]
    cases hi : iequal p tok
    · simp only [Bool.not_false, Bool.and_false, Bool.false_eq_true, if_false]
      split
      · simp [hi]
      · rename_i h'; rw [e.2] at h'; cases h'
    · simp [hi]
  | p :: q :: ps, h => by
    have hp := h p (by simp)
    have ink := token_ink hp
    have ej : join (p :: q :: ps) = p ++ c!"," :: 32 :: join (q :: ps) := by
      show p ++ b!", " ++ join (q :: ps) = _
      rw [List.append_assoc]; rfl
    have e := takeWhile_comma p (c!"," :: 32 :: join (q :: ps)) (fun hm => (ink _ hm).2.2 rfl) (.inr rfl)
    have et : trim p = p := trim_of_is ⟨[], [], by simp, fun _ h => (by cases h), fun _ h => (by cases h)⟩ (tight_of_ink (fun c hc => isWs_false ⟨(ink c hc).1, (ink c hc).2.1⟩))
    have ne : p.isEmpty = false := by cases hq : p with
      | nil => exact absurd hq hp.1
      | cons => rfl
    rw [ej, hasToken, e.1, et, ne]
    have ih := hasToken_join tok (q :: ps) (fun x hx => h x (List.mem_cons_of_mem _ hx))
    cases hi : iequal p tok
    · simp only [Bool.not_false, Bool.and_false, Bool.false_eq_true, if_false]
      split
      · rename_i h'; rw [e.2] at h'; cases h'
      · rename_i h'; rw [e.2] at h'; cases h'
        rw [hasToken_blank, ih]; simp [hi]
    · simp [hi]

theorem request_protocol (key host : Bytes) (ps : List Bytes) : header (request key host ps).headers b!"Sec-WebSocket-Protocol" = join ps := by
  unfold request
  dsimp only
  cases ps with
  | nil => rfl
  | cons p ps => rfl

/-- C181. The list in the request offers exactly the subprotocols that were set. -/
theorem C181_offer (key host : Bytes) (ps : List Bytes) (hp : ∀ p ∈ ps, Token p) (t : Bytes) (ht : Token t) :
    ListHas (header (request key host ps).headers b!"Sec-WebSocket-Protocol") (t.map low) ↔ ∃ p ∈ ps, p.map low = t.map low := by
  rw [request_protocol]
  have hk : ∀ c ∈ t.map low, c ≠ 32 ∧ c ≠ 9 ∧ c ≠ 44 := by
    intro c hc
    obtain ⟨x, hx, e⟩ := List.mem_map.1 hc
    have := token_ink ht x hx
    subst e
    unfold low
    split
    · refine ⟨fun e => ?_, fun e => ?_, fun e => ?_⟩ <;> (have := congrArg UInt8.toNat e; simp at this; omega)
    · exact this
  rw [← hasToken_iff t ht.1 hk, hasToken_join t ps hp, List.any_eq_true]
  constructor
  · rintro ⟨p, h1, h2⟩; exact ⟨p, h1, (iequal_iff _ _).1 h2⟩
  · rintro ⟨p, h1, h2⟩; exact ⟨p, h1, (iequal_iff _ _).2 h2⟩

/-- C181. A client and a server of this library agree: the request of a client is accepted whatever its host and its subprotocols, and the client takes the response, with the subprotocol the server chose, if any. -/
theorem C181_pair (c : Crypto) (hc : Lawful c) (nonce host : Bytes) (hn : nonce.length = 16) (offered : List Bytes) (ht : ∀ p ∈ offered, Token p) (chosen : Option Bytes) (hs : ∀ p, chosen = some p → p ∈ offered) :
    ∃ r, populate c (request (c.enc nonce) host offered) { headers := match chosen with | none => [] | some p => [(b!"Sec-WebSocket-Protocol", [p])] } = some r ∧
      onResponse c (c.enc nonce) offered { r with upgrade := true } = some (chosen.getD []) := by
  have self : ∀ x : Bytes, Is x x := fun x => ⟨[], [], by simp, fun _ h => (by cases h), fun _ h => (by cases h)⟩
  have lu : ListHas b!"Upgrade" b!"upgrade" := ⟨[], b!"Upgrade", [], rfl, .inl rfl, .inl rfl, b!"Upgrade", self _, by decide⟩
  have hq : ∀ (hs : Wire.Headers), hs = push (push (push (push (push [] b!"Upgrade" b!"websocket") b!"Connection" b!"Upgrade") b!"Sec-WebSocket-Key" (c.enc nonce)) b!"Sec-WebSocket-Version" b!"13") b!"host" host →
      ∀ (t : Wire.Headers), (t = [] ∨ t = [(b!"Sec-WebSocket-Protocol", [join offered])]) → ValidRequest c { headers := hs ++ t } (c.enc nonce) := by
    intro hs e t ht
    have e : hs = [(b!"Upgrade", [b!"websocket"]), (b!"Connection", [b!"Upgrade"]), (b!"Sec-WebSocket-Key", [c.enc nonce]), (b!"Sec-WebSocket-Version", [b!"13"]), (b!"host", [host])] := by
      rw [e]; rfl
    subst e
    refine ⟨rfl, rfl, ?_, lu, self _, ⟨nonce, hn, rfl⟩, self _⟩
    show (b!"websocket").map low = _
    decide
  have hv : ValidRequest c (request (c.enc nonce) host offered) (c.enc nonce) := by
    unfold request
    dsimp only
    split
    · have := hq _ rfl [] (.inl rfl)
      rw [List.append_nil] at this; exact this
    · exact hq _ rfl _ (.inr rfl)
  refine ⟨_, C180_response c hc _ _ _ hv, ?_⟩
  rw [C181_takes c hc _ _ ht]
  cases chosen with
  | none =>
    refine ⟨⟨rfl, rfl, ?_, lu, self _⟩, .inl ⟨rfl, ?_⟩⟩
    · show (b!"websocket").map low = _; decide
    · intro ch h; cases h
  | some p =>
    refine ⟨⟨rfl, rfl, ?_, lu, self _⟩, .inr ⟨hs p rfl, self _⟩⟩
    show (b!"websocket").map low = _; decide

end Verif.Wsh
