import Verif.Wsh.Theorems
import Verif.Wsh.Base64

/-! # C182, C183. `accept_upgrade`, and the `Host` of a client -/

namespace Verif.Wsh

open Verif.Parse (header push)

/-- What the hook made of a request and a response. -/
def hooked (hook : Option Hook) (q : Req) (r : Resp) : Bool × Req × Resp :=
  match hook with
  | none => (true, q, r)
  | some f => ((f q r).1.getD false, (f q r).2.1, (f q r).2.2)

theorem accept_unfold (c : Crypto) (hook : Option Hook) (s : Sess) (q : Req) (r : Resp) : acceptUpgrade c hook s q r =
    if !(hooked hook q r).1 then (false, { s with log := .closeAfterDeliver :: .wrote (if (hooked hook q r).2.2.status == 0 then { (hooked hook q r).2.2 with status := 400 } else (hooked hook q r).2.2) :: s.log })
    else match populate c (hooked hook q r).2.1 (hooked hook q r).2.2 with
      | none => (false, { s with log := .closeAfterDeliver :: .wrote { (hooked hook q r).2.2 with status := 400 } :: s.log })
      | some r' => (true, if s.spawned then { s with upgraded := true, log := .wrote r' :: s.log } else { s with upgraded := true, spawned := true, log := .spawned :: .wrote r' :: s.log }) := by
  cases hook <;> rfl

/-- C182. An upgrade succeeds exactly if the hook allows it and what the hook left is a valid request; then 101 with the answer to the key is written, and `run` is started, if it was not before. -/
theorem C182_accepted (c : Crypto) (hc : Lawful c) (hook : Option Hook) (s : Sess) (q : Req) (r : Resp) :
    ((acceptUpgrade c hook s q r).1 = true ↔ (hooked hook q r).1 = true ∧ ∃ key, ValidRequest c (hooked hook q r).2.1 key) ∧
    ((acceptUpgrade c hook s q r).1 = true → ∃ key, ValidRequest c (hooked hook q r).2.1 key ∧ ∃ r', r'.status = 101 ∧
      r'.headers = push (push (push (hooked hook q r).2.2.headers b!"Upgrade" b!"websocket") b!"Connection" b!"Upgrade") b!"Sec-WebSocket-Accept" (answer c key) ∧
      (acceptUpgrade c hook s q r).2.log = (if s.spawned then [] else [.spawned]) ++ .wrote r' :: s.log ∧ (acceptUpgrade c hook s q r).2.spawned = true) := by
  rw [accept_unfold]
  generalize hooked hook q r = x
  obtain ⟨al, q, r⟩ := x
  dsimp only
  cases al with
  | false => simp
  | true =>
    simp only [Bool.not_true, Bool.false_eq_true, if_false, true_and]
    have acc := C180_accepts c hc q r
    cases hp : populate c q r with
    | none =>
      dsimp only
      refine ⟨⟨fun h => (by cases h), fun h => ?_⟩, fun h => (by cases h)⟩
      obtain ⟨x, hx⟩ := acc.2 h
      rw [hp] at hx; cases hx
    | some r' =>
      dsimp only
      obtain ⟨key, hk⟩ := acc.1 ⟨r', hp⟩
      refine ⟨⟨fun _ => ⟨key, hk⟩, fun _ => rfl⟩, fun _ => ⟨key, hk, r', ?_, ?_, ?_, ?_⟩⟩
      · rw [C180_response c hc q r key hk] at hp; cases hp; rfl
      · rw [C180_response c hc q r key hk] at hp; cases hp; rfl
      · cases s.spawned <;> rfl
      · cases h : s.spawned <;> simp [h]

/-- C182. Without a hook a refused request is answered with 400, and the connection is closed after that; `run` is not started. -/
theorem C182_refused (c : Crypto) (s : Sess) (q : Req) (r : Resp) (h : (acceptUpgrade c none s q r).1 = false) :
    (acceptUpgrade c none s q r).2.log = .closeAfterDeliver :: .wrote { r with status := 400 } :: s.log ∧ (acceptUpgrade c none s q r).2.spawned = s.spawned ∧ (acceptUpgrade c none s q r).2.upgraded = s.upgraded := by
  rw [accept_unfold] at h ⊢
  simp only [hooked, Bool.not_true, Bool.false_eq_true, if_false] at h ⊢
  cases hp : populate c q r with
  | none => exact ⟨rfl, rfl, rfl⟩
  | some r' => rw [hp] at h; cases h

/-- C182. A refusal, by the hook or because the request is not valid, writes one response and closes the connection after that; `run` is not started. It has the fields the hook left; its status is 400 if the request is not valid,
else the one the hook set. -/
theorem C182_refusal (c : Crypto) (hc : Lawful c) (hook : Option Hook) (s : Sess) (q : Req) (r : Resp) (h : (acceptUpgrade c hook s q r).1 = false) :
    ∃ r', (acceptUpgrade c hook s q r).2 = { s with log := .closeAfterDeliver :: .wrote r' :: s.log } ∧ r'.headers = (hooked hook q r).2.2.headers ∧
      ((hooked hook q r).1 = true → r'.status = 400 ∧ ∀ key, ¬ ValidRequest c (hooked hook q r).2.1 key) ∧
      ((hooked hook q r).1 = false → r'.status = if (hooked hook q r).2.2.status = 0 then 400 else (hooked hook q r).2.2.status) := by
  rw [accept_unfold] at h ⊢
  revert h
  generalize hooked hook q r = x
  obtain ⟨al, q, r⟩ := x
  dsimp only
  cases al with
  | false =>
    intro _
    refine ⟨_, rfl, ?_, fun h => (by cases h), fun _ => ?_⟩
    · split <;> rfl
    · by_cases h0 : r.status = 0 <;> simp [h0]
  | true =>
    simp only [Bool.not_true, Bool.false_eq_true, if_false]
    cases hp : populate c q r with
    | none =>
      intro _
      refine ⟨_, rfl, rfl, fun _ => ⟨rfl, fun key hk => ?_⟩, fun h => (by cases h)⟩
      obtain ⟨x, hx⟩ := (C180_accepts c hc q r).2 ⟨key, hk⟩
      rw [hp] at hx; cases hx
    | some r' => intro h; cases h

/-- One call after the other. -/
def accepts (c : Crypto) (s : Sess) : List (Option Hook × Req × Resp) → Sess
  | [] => s
  | (hook, q, r) :: l => accepts c (acceptUpgrade c hook s q r).2 l

/-- C182. However often upgrades are tried on a session, `run` is started at most once, and only after 101 was written. -/
theorem C182_once (c : Crypto) (l : List (Option Hook × Req × Resp)) : ((accepts c {} l).log.filter (fun e => match e with | .spawned => true | _ => false)).length ≤ 1 ∧
    ∀ a b, (accepts c {} l).log = a ++ .spawned :: b → ∃ r b', b = .wrote r :: b' ∧ r.status = 101 := by
  suffices ∀ s : Sess, (s.log.filter (fun e => match e with | .spawned => true | _ => false)).length = (if s.spawned then 1 else 0) → (∀ a b, s.log = a ++ .spawned :: b → ∃ r b', b = .wrote r :: b' ∧ r.status = 101) →
      ((accepts c s l).log.filter (fun e => match e with | .spawned => true | _ => false)).length ≤ 1 ∧ ∀ a b, (accepts c s l).log = a ++ .spawned :: b → ∃ r b', b = .wrote r :: b' ∧ r.status = 101 by
    refine this {} rfl ?_
    intro a b h; cases a <;> cases h
  induction l with
  | nil =>
    intro s h1 h2
    refine ⟨?_, h2⟩
    show (s.log.filter _).length ≤ 1
    rw [h1]; split <;> omega
  | cons x l ih =>
    obtain ⟨hook, q, r⟩ := x
    intro s h1 h2
    refine ih _ ?_ ?_
    · rw [accept_unfold]
      split
      · exact h1
      · cases populate c (hooked hook q r).2.1 (hooked hook q r).2.2 with
        | none => exact h1
        | some r' =>
          dsimp only
          cases hs : s.spawned with
          | true => rw [hs] at h1; simpa [hs] using h1
          | false => rw [hs] at h1; simpa [hs] using h1
    · have two : ∀ (e1 e2 : Ev), (∀ (r : Resp), e1 ≠ .spawned) → e2 ≠ .spawned → ∀ a b, e1 :: e2 :: s.log = a ++ .spawned :: b → ∃ r b', b = .wrote r :: b' ∧ r.status = 101 := by
        intro e1 e2 n1 n2 a b h
        match a, h with
        | [], h => injection h with h _; exact absurd h (n1 {})
        | [_], h => injection h with _ h; injection h with h _; exact absurd h n2
        | _ :: _ :: a, h => injection h with _ h; injection h with _ h; exact h2 a b h
      rw [accept_unfold]
      split
      · exact two _ _ (fun _ h => (by cases h)) (fun h => (by cases h))
      · cases hp : populate c (hooked hook q r).2.1 (hooked hook q r).2.2 with
        | none => exact two _ _ (fun _ h => (by cases h)) (fun h => (by cases h))
        | some r' =>
          have st : r'.status = 101 := by
            obtain ⟨-, -, -, -, -, -, e⟩ := populate_eq hp
            rw [e]
          dsimp only
          cases s.spawned with
          | true =>
            intro a b h
            cases a with
            | nil => cases h
            | cons e a => injection h with _ h; exact h2 a b h
          | false =>
            intro a b h
            match a, h with
            | [], h => injection h with _ h; exact ⟨r', s.log, h.symm, st⟩
            | [_], h => injection h with _ h; injection h with h _; cases h
            | _ :: _ :: a, h => injection h with _ h; injection h with _ h; exact h2 a b h

/-- A valid request, and its answer. -/
def sampleCrypto : Crypto := { enc := Base64.enc, dec := Base64.dec, sha1 := fun x => x.take 20 ++ [0] }

example : Lawful sampleCrypto := Base64.lawful _ (fun x h => by simp at h)

example : ValidRequest sampleCrypto (request b!"dGhlIHNhbXBsZSBub25jZQ==" b!"a" [b!"chat", b!"v2"]) b!"dGhlIHNhbXBsZSBub25jZQ==" := by
  have self : ∀ x : Bytes, Is x x := fun x => ⟨[], [], by simp, fun _ h => (by cases h), fun _ h => (by cases h)⟩
  exact ⟨rfl, rfl, by decide, ⟨[], b!"Upgrade", [], rfl, .inl rfl, .inl rfl, b!"Upgrade", self _, by decide⟩, self _, ⟨b!"the sample nonce", rfl, by decide +kernel⟩, self _⟩

example : (acceptUpgrade sampleCrypto none {} (request b!"dGhlIHNhbXBsZSBub25jZQ==" b!"a" []) {}).1 = true := by decide +kernel
example : (acceptUpgrade sampleCrypto none {} (request b!"dGhlIHNhbXBsZSBub25jZQ=" b!"a" []) {}).1 = false := by decide +kernel
example : (setSubprotocols [b!"chat", b!"v2"]).isSome = true ∧ join [b!"chat", b!"v2"] = b!"chat, v2" := by decide +kernel
example : onResponse sampleCrypto b!"k" [] { status := 200 } = none := by decide +kernel

/-- C182, a counterexample to "a refused upgrade is answered with an error": a hook that refuses, or throws, and does not set a status makes the session answer 200. (The test for status 0 is never true: a response starts with 200.) -/
theorem C182_refused_ok_partial (c : Crypto) (s : Sess) (q : Req) : (acceptUpgrade c (some fun q r => (some false, q, r)) s q {}).2.log = .closeAfterDeliver :: .wrote { status := 200 } :: s.log ∧
    (acceptUpgrade c (some fun q r => (none, q, r)) s q {}).2.log = .closeAfterDeliver :: .wrote { status := 200 } :: s.log := ⟨rfl, rfl⟩

/-- C183. The `Host` of a client's request: the host of the URI, in brackets if it has a colon and none of its own, and the port, unless there is none or it is the default of the scheme. -/
theorem C183_host (scheme host port : Bytes) :
    let tail := if port = [] ∨ ((scheme = b!"ws" ∨ scheme = b!"http") ∧ port = b!"80") ∨ ((scheme = b!"wss" ∨ scheme = b!"https") ∧ port = b!"443") then [] else c!":" :: port
    ((c!":" ∉ host ∨ ∃ h, host = c!"[" :: (h ++ [c!"]"])) → hostValue scheme host port = host ++ tail) ∧
    (c!":" ∈ host → (∀ h, host ≠ c!"[" :: (h ++ [c!"]"])) → hostValue scheme host port = c!"[" :: host ++ c!"]" :: tail) := by
  intro tail
  have ht : ∀ h : Bytes, (if port.isEmpty then h else
      if !((scheme == b!"ws" || scheme == b!"http") && port == b!"80") && !((scheme == b!"wss" || scheme == b!"https") && port == b!"443") then h ++ c!":" :: port else h) = h ++ tail := by
    intro h
    by_cases hp : port = []
    · simp [tail, hp]
    · have : port.isEmpty = false := by cases port with | nil => exact absurd rfl hp | cons => rfl
      rw [this]
      simp only [Bool.false_eq_true, if_false, tail, hp, false_or]
      by_cases hd : ((scheme = b!"ws" ∨ scheme = b!"http") ∧ port = b!"80") ∨ ((scheme = b!"wss" ∨ scheme = b!"https") ∧ port = b!"443")
      · rw [if_pos hd, if_neg, List.append_nil]
        simp only [Bool.and_eq_true, Bool.not_eq_true', Bool.and_eq_false_iff, Bool.or_eq_false_iff, beq_eq_false_iff_ne, ne_eq]
        rintro ⟨h1, h2⟩
        rcases hd with ⟨a, b⟩ | ⟨a, b⟩
        · rcases h1 with h1 | h1
          · rcases a with a | a
            · exact h1.1 a
            · exact h1.2 a
          · exact h1 b
        · rcases h2 with h1 | h1
          · rcases a with a | a
            · exact h1.1 a
            · exact h1.2 a
          · exact h1 b
      · rw [if_neg hd, if_pos]
        simp only [Bool.and_eq_true, Bool.not_eq_true']
        refine ⟨?_, ?_⟩
        · rw [← Bool.not_eq_true]
          intro h'
          simp only [Bool.and_eq_true, Bool.or_eq_true, beq_iff_eq] at h'
          exact hd (.inl h')
        · rw [← Bool.not_eq_true]
          intro h'
          simp only [Bool.and_eq_true, Bool.or_eq_true, beq_iff_eq] at h'
          exact hd (.inr h')
  unfold hostValue
  dsimp only
  rw [ht]
  refine ⟨?_, ?_⟩
  · intro hh
    congr 1
    rw [if_neg]
    rcases hh with hh | ⟨h, hh⟩
    · simp [hh]
    · rw [hh]
      simp [List.getLast?_cons]
  · intro h1 h2
    have hne : host ≠ [] := by intro h; rw [h] at h1; cases h1
    rw [if_pos]
    · simp
    · simp only [Bool.and_eq_true, Bool.not_eq_true', List.contains_iff_mem, h1, and_true]
      rw [← Bool.not_eq_true]
      intro hb
      simp only [Bool.and_eq_true, decide_eq_true_eq, beq_iff_eq] at hb
      obtain ⟨⟨hl, hf⟩, hg⟩ := hb
      cases host with
      | nil => exact hne rfl
      | cons a l =>
        simp only [List.head?_cons, Option.some.injEq] at hf
        subst hf
        cases l with
        | nil => simp at hl
        | cons b l =>
          rw [List.getLast?_cons_cons] at hg
          refine h2 ((b :: l).dropLast) ?_
          congr 1
          have : (b :: l).getLast (by simp) = c!"]" := by
            rw [List.getLast?_eq_some_getLast (by simp)] at hg
            exact Option.some.inj hg
          rw [← this, List.dropLast_concat_getLast]

example : hostValue b!"wss" b!"fe80::1" b!"8443" = b!"[fe80::1]:8443" ∧ hostValue b!"wss" b!"a.example" b!"443" = b!"a.example" := by decide

end Verif.Wsh
