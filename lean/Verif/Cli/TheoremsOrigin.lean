import Verif.Cli.OriginSpec
import Verif.Auth.TheoremsToken
import Verif.Utility.Theorems

/-! C135 (origins) and C136 (preparation of requests). -/

namespace Verif.Cli

open Verif Verif.Utility Verif.Utility.Spec Verif.Wire Verif.Parse Verif.Mid

theorem eqLoop_iff (l r : Bytes) (h : l.length = r.length) : eqLoop l r = true ↔ SameText l r := by
  have hl : asciiToLower = lower := funext lower_eq
  unfold SameText
  induction l generalizing r with
  | nil => cases r <;> simp_all [eqLoop]
  | cons a l ih =>
    cases r with
    | nil => simp at h
    | cons b r =>
      rw [eqLoop, hl]
      have := ih r (by simpa using h)
      by_cases hab : lower a = lower b <;> simp [hab, this]

theorem schemeEq_iff (l r : Bytes) : schemeEq l r = true ↔ SameText l r := by
  unfold schemeEq
  by_cases h : l.length = r.length
  · simp only [h, bne_self_eq_false, Bool.false_eq_true, if_false]
    exact eqLoop_iff l r h
  · have : (l.length != r.length) = true := by simpa using h
    rw [if_pos this]
    refine ⟨fun h => by simp at h, fun h2 => absurd (by simpa using congrArg List.length h2) h⟩

theorem hostEq_iff (l r : Bytes) : hostEq l r = true ↔ SameText l r := schemeEq_iff l r

theorem portNumber_iff (u : Uri) (n : Nat) : effectivePortNumber u = some n ↔ PortOf u n := by
  have e80 : Auth.digits b!"80" 0 = some 80 := by decide
  have e443 : Auth.digits b!"443" 0 = some 443 := by decide
  have n1 : ∀ s, SameText s b!"http" → ¬ SameText s b!"https" := by
    intro s h1 h2; rw [SameText, h1] at h2; revert h2; decide
  have n2 : ∀ s, SameText s b!"http" → ¬ SameText s b!"wss" := by
    intro s h1 h2; rw [SameText, h1] at h2; revert h2; decide
  have n3 : ∀ s, SameText s b!"ws" → ¬ SameText s b!"https" := by
    intro s h1 h2; rw [SameText, h1] at h2; revert h2; decide
  have n4 : ∀ s, SameText s b!"ws" → ¬ SameText s b!"wss" := by
    intro s h1 h2; rw [SameText, h1] at h2; revert h2; decide
  unfold effectivePortNumber effectivePort PortOf DefaultPort
  by_cases hp : u.port = []
  · simp only [hp, List.isEmpty_nil, Bool.not_true, Bool.false_eq_true, if_false, true_and, ne_eq, not_true_eq_false,
      false_and, or_false, Bool.or_eq_true, schemeEq_iff]
    have c1 : ((schemeEq u.scheme b!"http" || schemeEq u.scheme b!"ws") = true) ↔
        (SameText u.scheme b!"http" ∨ SameText u.scheme b!"ws") := by rw [Bool.or_eq_true, schemeEq_iff, schemeEq_iff]
    have c2 : ((schemeEq u.scheme b!"https" || schemeEq u.scheme b!"wss") = true) ↔
        (SameText u.scheme b!"https" ∨ SameText u.scheme b!"wss") := by rw [Bool.or_eq_true, schemeEq_iff, schemeEq_iff]
    by_cases h1 : SameText u.scheme b!"http" ∨ SameText u.scheme b!"ws"
    · rw [if_pos (c1.2 h1), e80]
      have hn : ¬ (SameText u.scheme b!"https" ∨ SameText u.scheme b!"wss") := by
        rcases h1 with h | h
        · exact fun h' => h'.elim (n1 _ h) (n2 _ h)
        · exact fun h' => h'.elim (n3 _ h) (n4 _ h)
      simp [h1, hn]
      constructor <;> exact Eq.symm
    · rw [if_neg (mt c1.1 h1)]
      by_cases h2 : SameText u.scheme b!"https" ∨ SameText u.scheme b!"wss"
      · rw [if_pos (c2.2 h2), e443]
        simp [h1, h2]
        constructor <;> exact Eq.symm
      · rw [if_neg (mt c2.1 h2)]
        simp [h1, h2]
  · have he : u.port.isEmpty = false := by cases h : u.port <;> simp_all
    simp only [he, Bool.not_false, if_true, hp, false_and, false_or, ne_eq, not_false_eq_true, true_and, Bool.false_eq_true, if_false]
    have hd := fun m => Auth.digits_iff u.port 0 m
    cases hc : Auth.digits u.port 0 with
    | none =>
      simp only [reduceCtorEq, false_iff]
      rintro ⟨ha, hv, -⟩
      have := (hd n).2 ⟨ha, hv.symm⟩
      rw [hc] at this; simp at this
    | some v =>
      obtain ⟨ha, hv⟩ := (hd v).1 hc
      have hv' : Auth.decVal u.port = v := hv.symm
      simp only [Bool.or_eq_true, decide_eq_true_eq]
      by_cases hb : v ≥ 4294967296 ∨ v > 65535
      · rw [if_pos hb]
        simp only [reduceCtorEq, false_iff]
        rintro ⟨-, rfl, h3⟩
        omega
      · rw [if_neg hb]
        simp only [Option.some.injEq]
        exact ⟨fun h => ⟨ha, hv'.trans h, by omega⟩, fun h => hv'.symm.trans h.2.1⟩

/-- C135: two URIs are taken to have the same origin exactly when their schemes and hosts are equal up
to case and both have the same valid port, written or by default. -/
theorem C135_same_iff (a b : Uri) : same a b = true ↔ SameOrigin a b := by
  unfold same SameOrigin
  simp only [Bool.and_eq_true, schemeEq_iff, hostEq_iff, beq_iff_eq, and_assoc]
  refine and_congr_right fun _ => and_congr_right fun _ => ?_
  constructor
  · rintro ⟨h1, -, h3⟩
    obtain ⟨n, hn⟩ := Option.isSome_iff_exists.1 h1
    exact ⟨n, (portNumber_iff a n).1 hn, (portNumber_iff b n).1 (h3 ▸ hn)⟩
  · rintro ⟨n, h1, h2⟩
    rw [(portNumber_iff a n).2 h1, (portNumber_iff b n).2 h2]
    simp

/-- A URI has at most one port. -/
theorem C135_port_unique (u : Uri) (n m : Nat) (h1 : PortOf u n) (h2 : PortOf u m) : n = m := by
  have a := (portNumber_iff u n).2 h1
  have b := (portNumber_iff u m).2 h2
  rw [a] at b
  exact Option.some.inj b

/-- C135: being of the same origin is symmetric and transitive, and reflexive on the URIs that have a port. -/
theorem C135_equivalence :
    (∀ a, same a a = true ↔ ∃ n, PortOf a n) ∧
    (∀ a b, same a b = same b a) ∧
    (∀ a b c, same a b = true → same b c = true → same a c = true) := by
  refine ⟨fun a => ?_, fun a b => ?_, fun a b c h1 h2 => ?_⟩
  · rw [C135_same_iff]
    exact ⟨fun h => h.2.2.imp fun _ h => h.1, fun h => ⟨rfl, rfl, h.imp fun _ h => ⟨h, h⟩⟩⟩
  · have : ∀ a b, SameOrigin a b → SameOrigin b a := fun a b h =>
      ⟨h.1.symm, h.2.1.symm, h.2.2.imp fun _ h => ⟨h.2, h.1⟩⟩
    rw [Bool.eq_iff_iff, C135_same_iff, C135_same_iff]
    exact ⟨this a b, this b a⟩
  · rw [C135_same_iff] at *
    obtain ⟨s1, t1, n, p1, p2⟩ := h1
    obtain ⟨s2, t2, m, q1, q2⟩ := h2
    have := C135_port_unique b n m p2 q1
    exact ⟨s1.trans s2, t1.trans t2, n, p1, this ▸ q2⟩

/-- C135: a URI that writes the default port of its scheme has the origin of the one that leaves it out;
paths and queries do not matter. -/
theorem C135_default_port (h p q p' q' : Bytes) :
    same ⟨b!"http", h, b!"80", p, q⟩ ⟨b!"HTTP", h, [], p', q'⟩ = true ∧
    same ⟨b!"https", h, b!"443", p, q⟩ ⟨b!"https", h, [], p', q'⟩ = true ∧
    same ⟨b!"https", h, b!"80", p, q⟩ ⟨b!"http", h, [], p', q'⟩ = false ∧
    same ⟨b!"https", h, b!"80", p, q⟩ ⟨b!"https", h, [], p', q'⟩ = false := by
  have hh : hostEq h h = true := (hostEq_iff h h).2 rfl
  unfold same
  simp only [hh]
  exact ⟨rfl, rfl, rfl, rfl⟩

theorem C135_example :
    same ⟨b!"https", b!"Example.com", [], b!"/a", []⟩ ⟨b!"HTTPS", b!"example.COM", b!"0443", b!"/b", b!"q=1"⟩ = true ∧
    same ⟨b!"https", b!"example.com", b!"443 ", [], []⟩ ⟨b!"https", b!"example.com", b!"443", [], []⟩ = false ∧
    same ⟨b!"https", b!"example.com", b!"65979", [], []⟩ ⟨b!"https", b!"example.com", b!"443", [], []⟩ = false := by
  refine ⟨by decide, by decide, by decide⟩

/-! ### C136 -/

/-- The URI a request is sent with: its own if it has a host, else the absolute form completed from the
base URI. -/
def completed (k : Kind) (parse : Bytes → Uri) (base u : Uri) : Uri :=
  if u.host ≠ [] then u else parse (AbsoluteText (if k = .h3 then b!"https" else base.scheme) base u)

theorem ensure_eq (k : Kind) (parse : Bytes → Uri) (base : Uri) (r : Rq) :
    ensureAbsolute k parse base r = { r with uri := completed k parse base r.uri } := by
  unfold ensureAbsolute completed
  by_cases h : r.uri.host = []
  · simp only [h, List.isEmpty_nil, Bool.not_true, Bool.false_eq_true, if_false, ne_eq, not_true_eq_false]
    congr 2
    unfold AbsoluteText
    have e : ∀ l : Bytes, l.isEmpty = decide (l = []) := by intro l; cases l <;> rfl
    simp only [e]
    by_cases h1 : base.port = [] <;> by_cases h2 : r.uri.path = [] <;> by_cases h3 : r.uri.query = [] <;>
      simp [h1, h2, h3] <;> cases k <;> rfl
  · have : r.uri.host.isEmpty = false := by cases h' : r.uri.host <;> simp_all
    simp [this, h]

theorem find_addIfAbsent (h : Headers) (k v n : Bytes) :
    find (addIfAbsent h k v) n = if (find h k).isSome = false ∧ iequals k n = true then some [v] else find h n := by
  unfold addIfAbsent
  cases hk : (find h k).isSome
  · simp [find_setHeader]
  · simp

/-- C136: whatever the parser of URIs does, a request that is accepted is sent with a URI that has a
host and the origin of the client (and, for HTTP/2 and HTTP/3, the scheme https): its own, or the one completed from the base. -/
theorem C136_accepted (k : Kind) (parse : Bytes → Uri) (ua ae : Bytes) (base : Uri) (r r' : Rq)
    (hr : prepareRequest k parse ua ae base r = .ok r') :
    r'.uri = completed k parse base r.uri ∧ r'.uri.host ≠ [] ∧ SameOrigin r'.uri base ∧
    (k ≠ .h1 → SameText r'.uri.scheme b!"https" ∧ r'.headers = r.headers) := by
  unfold prepareRequest at hr
  rw [ensure_eq] at hr
  dsimp only at hr
  split at hr
  · cases hr
  next h0 =>
  have h0' : (completed k parse base r.uri).host ≠ [] := by
    intro h; rw [h] at h0; exact h0 rfl
  cases k with
  | h1 =>
    dsimp only at hr
    split at hr
    · cases hr
    next h1 =>
    simp only [Bool.not_eq_true', Bool.not_eq_false] at h1
    injection hr with hr
    subst hr
    exact ⟨rfl, h0', (C135_same_iff _ _).1 h1, fun h => absurd rfl h⟩
  | h2 =>
    dsimp only at hr
    split at hr
    · cases hr
    next h2 =>
    split at hr
    · cases hr
    next h1 =>
    simp only [Bool.not_eq_true', Bool.not_eq_false] at h1 h2
    injection hr with hr
    subst hr
    exact ⟨rfl, h0', (C135_same_iff _ _).1 h1, fun _ => ⟨(schemeEq_iff _ _).1 h2, rfl⟩⟩
  | h3 =>
    dsimp only at hr
    split at hr
    · cases hr
    next h2 =>
    split at hr
    · cases hr
    next h1 =>
    simp only [Bool.not_eq_true', Bool.not_eq_false] at h1 h2
    injection hr with hr
    subst hr
    exact ⟨rfl, h0', (C135_same_iff _ _).1 h1, fun _ => ⟨(schemeEq_iff _ _).1 h2, rfl⟩⟩

/-- C136: and a request with such a URI is never refused. -/
theorem C136_not_refused (k : Kind) (parse : Bytes → Uri) (ua ae : Bytes) (base : Uri) (r : Rq)
    (hh : (completed k parse base r.uri).host ≠ [])
    (ho : SameOrigin (completed k parse base r.uri) base)
    (hs : k ≠ .h1 → SameText base.scheme b!"https") :
    ∃ r', prepareRequest k parse ua ae base r = .ok r' := by
  unfold prepareRequest
  rw [ensure_eq]
  have h1 : (completed k parse base r.uri).host.isEmpty = false := by
    cases h : (completed k parse base r.uri).host <;> simp_all
  have h2 := (C135_same_iff _ _).2 ho
  dsimp only
  simp only [h1, h2, Bool.false_eq_true, if_false, Bool.not_true]
  cases k with
  | h1 => exact ⟨_, rfl⟩
  | h2 => rw [(schemeEq_iff _ _).2 (ho.1.trans (hs (by simp)))]; exact ⟨_, rfl⟩
  | h3 => rw [(schemeEq_iff _ _).2 (ho.1.trans (hs (by simp)))]; exact ⟨_, rfl⟩

/-- C136: a request that names no host goes to the origin of the client, if the parser reads the scheme,
the host and the port of the text it is given. -/
theorem C136_relative_accepted (k : Kind) (parse : Bytes → Uri) (ua ae : Bytes) (base : Uri) (r : Rq) (n : Nat)
    (hu : r.uri.host = []) (hb : base.host ≠ []) (hp : PortOf base n)
    (hs : k ≠ .h1 → SameText base.scheme b!"https")
    (hparse : ∀ s, SameText s base.scheme → (parse (AbsoluteText s base r.uri)).scheme = s ∧
      (parse (AbsoluteText s base r.uri)).host = base.host ∧ (parse (AbsoluteText s base r.uri)).port = base.port) :
    ∃ r', prepareRequest k parse ua ae base r = .ok r' := by
  have key : ∀ s, SameText s base.scheme → (parse (AbsoluteText s base r.uri)).host ≠ [] ∧
      SameOrigin (parse (AbsoluteText s base r.uri)) base := by
    intro s hs
    obtain ⟨h1, h2, h3⟩ := hparse s hs
    refine ⟨by rw [h2]; exact hb, by rw [h1]; exact hs, by rw [h2]; rfl, n, ?_, hp⟩
    unfold PortOf DefaultPort at hp ⊢
    rw [h1, h3]
    unfold SameText at hs ⊢
    rw [hs]
    exact hp
  have hc : completed k parse base r.uri = parse (AbsoluteText (if k = .h3 then b!"https" else base.scheme) base r.uri) := by
    unfold completed; rw [if_neg (by simpa using hu)]
  have hst : SameText (if k = .h3 then b!"https" else base.scheme) base.scheme := by
    split
    · next h => exact Eq.symm (hs (by rw [h]; decide))
    · rfl
  have := key _ hst
  exact C136_not_refused k parse ua ae base r (by rw [hc]; exact this.1) (by rw [hc]; exact this.2) hs

/-- C136: an HTTP/1.1 request keeps every header its author gave, in whatever case, and gets `Host`,
`User-Agent` and `Accept-Encoding` only where they are missing, and no other header. -/
theorem C136_headers (parse : Bytes → Uri) (ua ae : Bytes) (base : Uri) (r r' : Rq)
    (hr : prepareRequest .h1 parse ua ae base r = .ok r') (name : Bytes) :
    (∀ vs, find r.headers name = some vs → find r'.headers name = some vs) ∧
    (find r.headers name = none →
      (SameText b!"Host" name → find r'.headers name = some [hostHeaderValue base]) ∧
      (SameText b!"User-Agent" name → find r'.headers name = some [ua]) ∧
      (SameText b!"Accept-Encoding" name → find r'.headers name = some [ae]) ∧
      (¬ SameText b!"Host" name → ¬ SameText b!"User-Agent" name → ¬ SameText b!"Accept-Encoding" name →
        find r'.headers name = none)) := by
  unfold prepareRequest at hr
  rw [ensure_eq] at hr
  dsimp only at hr
  split at hr
  · cases hr
  split at hr
  · cases hr
  injection hr with hr
  subst hr
  dsimp only
  have cong : ∀ (h : Headers) (a b : Bytes), iequals a b = true → find h a = find h b := by
    intro h a b hab
    unfold find
    congr 1
    congr 1
    funext e
    have hab' := (C04_iequals_exact a b).1 hab
    rw [Bool.eq_iff_iff, C04_iequals_exact, C04_iequals_exact, hab']
  have i1 : iequals b!"Host" b!"User-Agent" = false := by decide
  have i2 : iequals b!"Host" b!"Accept-Encoding" = false := by decide
  have i3 : iequals b!"User-Agent" b!"Accept-Encoding" = false := by decide
  have st : ∀ a b, SameText a b ↔ iequals a b = true := fun a b => (C04_iequals_exact a b).symm
  simp only [find_addIfAbsent, i1, i2, i3, st, Bool.false_eq_true, and_false, if_false]
  have x1 : iequals b!"Host" name = true → iequals b!"User-Agent" name = false ∧ iequals b!"Accept-Encoding" name = false := by
    intro h
    have h' := (C04_iequals_exact _ _).1 h
    constructor <;> rw [← Bool.not_eq_true, C04_iequals_exact, ← h'] <;> decide
  have x2 : iequals b!"User-Agent" name = true → iequals b!"Accept-Encoding" name = false := by
    intro h
    have h' := (C04_iequals_exact _ _).1 h
    rw [← Bool.not_eq_true, C04_iequals_exact, ← h']; decide
  constructor
  · intro vs hv
    have hne : ∀ k, iequals k name = true → (find r.headers k).isSome = true := by
      intro k hk; rw [cong _ _ _ hk, hv]; rfl
    by_cases h1 : iequals b!"Host" name = true
    · simp [h1, x1 h1, hne _ h1, hv]
    · by_cases h2 : iequals b!"User-Agent" name = true
      · simp [h2, x2 h2, hne _ h2, hv, h1]
      · by_cases h3 : iequals b!"Accept-Encoding" name = true
        · simp [h1, h2, hne _ h3, hv]
        · simp [h1, h2, h3, hv]
  · intro hv
    have hno : ∀ k, iequals k name = true → (find r.headers k).isSome = false := by
      intro k hk; rw [cong _ _ _ hk, hv]; rfl
    refine ⟨fun h => ?_, fun h => ?_, fun h => ?_, fun h1 h2 h3 => ?_⟩
    · simp [h, x1 h, hno _ h]
    · simp [h, x2 h, hno _ h]
    · simp [h, hno _ h]
    · simp [h1, h2, h3, hv]

/-- C136: the `Host` header of a client: the host, between brackets if it is an IPv6 literal without
them, followed by the port unless there is none or it is the default port of http or https. -/
theorem C136_host_header (u : Uri) :
    ∃ h p, hostHeaderValue u = h ++ p ∧
      (58 ∉ u.host ∨ Bracketed u.host → h = u.host) ∧
      (58 ∈ u.host → ¬ Bracketed u.host → h = b!"[" ++ u.host ++ b!"]") ∧
      ((u.port = [] ∨ (SameText u.scheme b!"http" ∧ u.port = b!"80") ∨ (SameText u.scheme b!"https" ∧ u.port = b!"443")) → p = []) ∧
      (¬ (u.port = [] ∨ (SameText u.scheme b!"http" ∧ u.port = b!"80") ∨ (SameText u.scheme b!"https" ∧ u.port = b!"443")) →
        p = b!":" ++ u.port) := by
  have hbr : (decide (2 ≤ u.host.length) && u.host.head? == some 91 && u.host.getLast? == some 93) = true ↔ Bracketed u.host := by
    unfold Bracketed
    simp only [Bool.and_eq_true, decide_eq_true_eq, beq_iff_eq]
    constructor
    · rintro ⟨⟨h1, h2⟩, h3⟩
      cases hu : u.host with
      | nil => simp [hu] at h1
      | cons a t =>
        rw [hu] at h1 h2 h3
        have ha : a = 91 := by simpa using h2
        have ht : t ≠ [] := by intro h; simp [h] at h1
        rw [List.getLast?_cons_of_ne_nil ht] at h3
        refine ⟨t.dropLast, ?_⟩
        have hl := List.getLast?_eq_some_iff.1 h3
        obtain ⟨ys, rfl⟩ := hl
        rw [ha]; simp
    · rintro ⟨m, hm⟩
      rw [hm]
      refine ⟨⟨by simp, rfl⟩, ?_⟩
      exact List.getLast?_eq_some_iff.2 ⟨91 :: m, rfl⟩
  have hp : ∃ p, (∀ h : Bytes, (if u.port.isEmpty then h
      else if !(schemeEq u.scheme b!"http" && u.port == b!"80") && !(schemeEq u.scheme b!"https" && u.port == b!"443")
        then h ++ [58] ++ u.port else h) = h ++ p) ∧
      ((u.port = [] ∨ (SameText u.scheme b!"http" ∧ u.port = b!"80") ∨ (SameText u.scheme b!"https" ∧ u.port = b!"443")) → p = []) ∧
      (¬ (u.port = [] ∨ (SameText u.scheme b!"http" ∧ u.port = b!"80") ∨ (SameText u.scheme b!"https" ∧ u.port = b!"443")) →
        p = b!":" ++ u.port) := by
    have e : ∀ l : Bytes, l.isEmpty = decide (l = []) := by intro l; cases l <;> rfl
    have c : ((!(schemeEq u.scheme b!"http" && u.port == b!"80") && !(schemeEq u.scheme b!"https" && u.port == b!"443")) = true) ↔
        ¬ ((SameText u.scheme b!"http" ∧ u.port = b!"80") ∨ (SameText u.scheme b!"https" ∧ u.port = b!"443")) := by
      rw [← schemeEq_iff, ← schemeEq_iff]
      cases schemeEq u.scheme b!"http" <;> cases schemeEq u.scheme b!"https" <;> simp
    by_cases hd : u.port = [] ∨ (SameText u.scheme b!"http" ∧ u.port = b!"80") ∨ (SameText u.scheme b!"https" ∧ u.port = b!"443")
    · refine ⟨[], fun h => ?_, fun _ => rfl, fun h => absurd hd h⟩
      rw [e]
      by_cases h0 : u.port = []
      · simp [h0]
      · have : ¬ _ := fun h => (c.1 h) (hd.resolve_left h0)
        rw [if_neg (by simpa using h0), if_neg this]; simp
    · refine ⟨b!":" ++ u.port, fun h => ?_, fun h => absurd h hd, fun _ => rfl⟩
      rw [e, if_neg (by simpa using fun h => hd (.inl h)), if_pos (c.2 fun h => hd (.inr h)), List.append_assoc]
  obtain ⟨p, hp1, hp2, hp3⟩ := hp
  refine ⟨_, p, hp1 _, ?_, ?_, hp2, hp3⟩
  · intro h
    rw [if_neg]
    intro hc
    simp only [Bool.and_eq_true, Bool.not_eq_true', List.contains_iff_mem] at hc
    rcases h with h | h
    · exact h hc.2
    · rw [hbr.2 h] at hc; simp at hc
  · intro h1 h2
    rw [if_pos]
    · have : (decide (2 ≤ u.host.length) && u.host.head? == some 91 && u.host.getLast? == some 93) = false := by
        rw [← Bool.not_eq_true, hbr]; exact h2
      rw [this]
      simpa using h1

/-- A parser of URIs for the example. -/
def exampleParse (_ : Bytes) : Uri := ⟨b!"https", b!"::1", b!"8443", b!"/x", []⟩

theorem C136_example :
    prepareRequest .h1 exampleParse b!"qb" b!"gzip" ⟨b!"https", b!"::1", b!"8443", [], []⟩
      ⟨⟨[], [], [], b!"/x", []⟩, [(b!"user-agent", [b!"me"])]⟩ =
      .ok ⟨⟨b!"https", b!"::1", b!"8443", b!"/x", []⟩,
        [(b!"user-agent", [b!"me"]), (b!"Host", [b!"[::1]:8443"]), (b!"Accept-Encoding", [b!"gzip"])]⟩ ∧
    prepareRequest .h2 exampleParse b!"qb" b!"gzip" ⟨b!"https", b!"::1", b!"8443", [], []⟩
      ⟨⟨b!"https", b!"other", [], b!"/x", []⟩, []⟩ = .error .otherOrigin ∧
    (match prepareRequest .h3 exampleParse b!"qb" b!"gzip" ⟨b!"http", b!"a", [], [], []⟩
      ⟨⟨b!"http", b!"a", [], b!"/x", []⟩, []⟩ with | .error e => e = .notHttps | .ok _ => False) := by
  refine ⟨rfl, rfl, rfl⟩

end Verif.Cli
