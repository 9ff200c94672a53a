import Verif.Cors.Spec
import Verif.Utility.Theorems

/-! # Cross-origin requests: C85-C87 -/

namespace Verif.Cors
open Verif.Utility Verif.Wire Verif.Parse Verif.Mid
open Verif.Utility.Spec (IsFields IsTrim)
open Verif.Wire.Spec (SameName)

/-! ## C85: which origins are let in -/

theorem compile_mem (x : Regex) (l : List Bytes) (p : Bytes) :
    p ∈ compile x l ↔ p ∈ l ∧ p.length ≤ 1024 ∧ x.compiles p = true := by
  induction l with
  | nil => simp [compile]
  | cons a l ih =>
    have hm : MAX_REGEX_PATTERN_LENGTH = 1024 := rfl
    unfold compile
    by_cases h1 : a.length > MAX_REGEX_PATTERN_LENGTH
    · rw [if_pos h1, ih]
      constructor
      · rintro ⟨h, h2⟩; exact ⟨List.mem_cons_of_mem _ h, h2⟩
      · rintro ⟨h, h2, h3⟩
        rcases List.mem_cons.1 h with rfl | h
        · omega
        · exact ⟨h, h2, h3⟩
    · rw [if_neg h1]
      by_cases h2 : x.compiles a = true
      · rw [if_pos h2, List.mem_cons, ih, List.mem_cons]
        constructor
        · rintro (rfl | ⟨h, h3⟩)
          · exact ⟨Or.inl rfl, by omega, h2⟩
          · exact ⟨Or.inr h, h3⟩
        · rintro ⟨rfl | h, h3⟩
          · exact Or.inl rfl
          · exact Or.inr ⟨h, h3⟩
      · rw [if_neg h2, ih]
        constructor
        · rintro ⟨h, h3⟩; exact ⟨List.mem_cons_of_mem _ h, h3⟩
        · rintro ⟨h, h3, h4⟩
          rcases List.mem_cons.1 h with rfl | h
          · exact absurd h4 h2
          · exact ⟨h, h3, h4⟩

/-- The options stand for a rule. -/
def Stands (x : Regex) (o : Options) : Rule → Prop
  | .origins l => o.strategy = .exact ∧ o.origins = l
  | .patterns l => o.strategy = .regex ∧ o.origins = l ∧ (o.compiled = true → o.patterns = compile x (l.take 100))
  | .matcher f => o.strategy = .function ∧ o.matcher = f

theorem stands_configure (x : Regex) (o : Options) (r : Rule) : Stands x (configure o r) r := by
  cases r with
  | origins l => exact ⟨rfl, rfl⟩
  | patterns l => exact ⟨rfl, rfl, fun h => by simp [configure, Options.setPatterns] at h⟩
  | matcher f => exact ⟨rfl, rfl⟩

theorem stands_ask {x : Regex} {o : Options} {r : Rule} (h : Stands x o r) (q : Bytes) : Stands x (isOriginAllowed x o q).2 r := by
  unfold isOriginAllowed
  split
  · exact h
  split
  · exact h
  cases r with
  | origins l => obtain ⟨h1, h2⟩ := h; rw [h1]; exact ⟨h1, h2⟩
  | matcher f =>
    obtain ⟨h1, h2⟩ := h
    rw [h1]
    cases hf : o.matcher with
    | none => exact ⟨h1, by rw [← h2]⟩
    | some g => exact ⟨h1, by rw [← h2]⟩
  | patterns l =>
    obtain ⟨h1, h2, h3⟩ := h
    rw [h1]
    show Stands x (ensureCompiled x o) _
    unfold ensureCompiled
    split
    · exact ⟨h1, h2, fun _ => by show compile x (o.origins.take 100) = _; rw [h2]⟩
    · exact ⟨h1, h2, h3⟩

theorem stands_after {x : Regex} : ∀ (ops : List Op) {o : Options} {r : Rule}, Stands x o r → Stands x (after x o ops) (inForce r ops)
  | [], _, _, h => h
  | .configure r' :: ops, o, _, _ => stands_after ops (stands_configure x o r')
  | .ask q :: ops, _, _, h => stands_after ops (stands_ask h q)

theorem allowed_iff {x : Regex} {o : Options} {r : Rule} (h : Stands x o r) (origin : Bytes) :
    (isOriginAllowed x o origin).1 = true ↔ Permits x r origin := by
  unfold isOriginAllowed Permits
  have hm : MAX_ORIGIN_LENGTH = 2048 := rfl
  by_cases h0 : origin = []
  · simp [h0]
  by_cases hl : origin.length > MAX_ORIGIN_LENGTH
  · rw [if_neg (by simpa using h0), if_pos hl]
    simp only [Bool.false_eq_true, false_iff]
    rintro ⟨_, h2, _⟩; omega
  rw [if_neg (by simpa using h0), if_neg hl]
  have hl' : origin.length ≤ 2048 := by omega
  simp only [ne_eq, h0, not_false_eq_true, hl', true_and]
  cases r with
  | origins l =>
    obtain ⟨h1, h2⟩ := h
    rw [h1, h2]
    simp only []
    by_cases hs : l.contains b!"*" = true
    · rw [if_pos hs]; simp at hs; simp [hs]
    · rw [if_neg hs]; simp at hs; simp [hs]
  | matcher f =>
    obtain ⟨h1, h2⟩ := h
    rw [h1, h2]
    simp only []
    cases f with
    | none => simp
    | some g =>
      simp only [Option.some.injEq, exists_eq_left']
      cases g origin with
      | none => simp
      | some b => simp
  | patterns l =>
    obtain ⟨h1, h2, h3⟩ := h
    rw [h1]
    simp only []
    have hp : (ensureCompiled x o).patterns = compile x (l.take 100) := by
      unfold ensureCompiled
      rw [h1]
      cases hc : o.compiled with
      | true => simp; exact h3 hc
      | false => simp; rw [h2]; rfl
    rw [hp, List.any_eq_true]
    constructor
    · rintro ⟨p, hp, hm⟩
      rw [compile_mem] at hp
      refine ⟨p, hp.1, hp.2.1, hp.2.2, ?_⟩
      unfold regexMatch at hm
      rw [if_neg hl] at hm
      cases hx : x.isMatch p origin with
      | none => rw [hx] at hm; simp at hm
      | some b => rw [hx] at hm; simp at hm; rw [hm]
    · rintro ⟨p, hp, hlen, hc, hm⟩
      refine ⟨p, (compile_mem ..).2 ⟨hp, hlen, hc⟩, ?_⟩
      unfold regexMatch
      rw [if_neg hl, hm]; rfl

/-- C85: however the options were configured and used before, an origin is let in exactly if the rule configured
last permits it - questions asked in between (which fill the cache of compiled patterns) and earlier
configurations make no difference.  Until anything is configured, nothing is let in. -/
theorem C85_last_rule_decides (x : Regex) (o : Options) (hs : o.strategy = .exact) (h0 : o.origins = []) (ops : List Op) (origin : Bytes) :
    (isOriginAllowed x (after x o ops) origin).1 = true ↔ Permits x (inForce (.origins []) ops) origin :=
  allowed_iff (stands_after ops (r := .origins []) ⟨hs, h0⟩) origin

/-- C85: an origin of an exact list is compared octet by octet, without case folding or prefix matching. -/
theorem C85_exact (x : Regex) (l : List Bytes) (hw : b!"*" ∉ l) (origin : Bytes) :
    (isOriginAllowed x (secure l) origin).1 = true ↔ origin ∈ l ∧ origin ≠ [] ∧ origin.length ≤ 2048 := by
  have : Stands x (secure l) (.origins l) := ⟨rfl, rfl⟩
  rw [allowed_iff this]
  simp only [Permits]
  constructor
  · rintro ⟨a, b, c | c⟩
    · exact absurd c hw
    · exact ⟨c, a, b⟩
  · rintro ⟨a, b, c⟩; exact ⟨b, c, Or.inr a⟩

/-! ## C86: what is granted -/

theorem ensure_same (x : Regex) (o : Options) (q : Bytes) :
    (isOriginAllowed x o q).2 = o ∨ (isOriginAllowed x o q).2 = ensureCompiled x o := by
  unfold isOriginAllowed
  split
  · exact .inl rfl
  split
  · exact .inl rfl
  cases o.strategy with
  | exact => exact .inl rfl
  | regex => exact .inr rfl
  | function => cases o.matcher <;> exact .inl rfl

/-- Asking changes nothing but the cache. -/
theorem ask_keeps (x : Regex) (o : Options) (q : Bytes) :
    (isOriginAllowed x o q).2.origins = o.origins ∧ (isOriginAllowed x o q).2.strategy = o.strategy ∧
    (isOriginAllowed x o q).2.credentials = o.credentials ∧ (isOriginAllowed x o q).2.methods = o.methods ∧
    (isOriginAllowed x o q).2.headers = o.headers ∧ (isOriginAllowed x o q).2.expose = o.expose ∧
    (isOriginAllowed x o q).2.maxAge = o.maxAge := by
  rcases ensure_same x o q with h | h <;> rw [h]
  · simp
  · unfold ensureCompiled; split <;> simp

def ACAO : Bytes := b!"Access-Control-Allow-Origin"
def ACAC : Bytes := b!"Access-Control-Allow-Credentials"

/-- The names the middleware sets after the grant do not clash with the ones of the grant. -/
theorem names_differ : ∀ n ∈ [ACAO, ACAC], ∀ k ∈ [b!"Vary", b!"Access-Control-Allow-Methods", b!"Access-Control-Allow-Headers",
    b!"Access-Control-Max-Age", b!"Access-Control-Expose-Headers"], iequals k n = false := by decide +kernel

theorem find_allowHeaders (o req h) (n : Bytes) (hn : iequals b!"Access-Control-Allow-Headers" n = false) (hv : iequals b!"Vary" n = false) :
    find (allowHeaders o req h) n = find h n := by
  unfold allowHeaders
  split
  · split
    · rw [find_push, hv, if_neg (by simp), find_setHeader, hn, if_neg (by simp)]
    · rw [find_setHeader, hn, if_neg (by simp)]
  · split
    · rw [find_setHeader, hn, if_neg (by simp)]
    · rfl

theorem find_preflight (o q r) (n : Bytes) (hn : n ∈ [ACAO, ACAC]) : find (preflight o q r).headers n = find r.headers n := by
  have d := names_differ n hn
  have d1 := d b!"Vary" (by simp)
  have d2 := d b!"Access-Control-Allow-Methods" (by simp)
  have d3 := d b!"Access-Control-Allow-Headers" (by simp)
  have d4 := d b!"Access-Control-Max-Age" (by simp)
  unfold preflight
  simp only []
  split
  · simp only [find_push, d1, Bool.false_eq_true, if_false]
  · simp only [find_setHeader, find_push, find_allowHeaders _ _ _ n d3 d1, d1, d2, d4, Bool.false_eq_true, if_false]

/-- The final headers, for the two names of the grant. -/
theorem find_process (x : Regex) (o : Options) (q : Request) (r : Response) (n : Bytes) (hn : n ∈ [ACAO, ACAC]) :
    find (process x o q r).2.1.headers n =
      if header q.headers b!"Origin" = [] then find r.headers n
      else find (grant (isOriginAllowed x o (header q.headers b!"Origin")).2 (header q.headers b!"Origin")
        (isOriginAllowed x o (header q.headers b!"Origin")).1 r).headers n := by
  have d := names_differ n hn
  have d5 := d b!"Access-Control-Expose-Headers" (by simp)
  unfold process
  simp only []
  by_cases h0 : header q.headers b!"Origin" = []
  · rw [if_pos (by simpa using h0), if_pos h0]
  rw [if_neg (by simpa using h0), if_neg h0]
  split
  · rfl
  · split
    · exact find_preflight _ _ _ n hn
    · split
      · simp only [find_setHeader, d5, Bool.false_eq_true, if_false]
      · rfl

theorem acao_acac : iequals ACAO ACAC = false ∧ iequals ACAC ACAO = false ∧ iequals ACAO ACAO = true ∧ iequals ACAC ACAC = true := by decide +kernel

theorem find_grant (o origin allowed) (r : Response) :
    find (grant o origin allowed r).headers ACAO =
      (if allowed then some [if wildcard o && !o.credentials then b!"*" else origin] else find r.headers ACAO) ∧
    find (grant o origin allowed r).headers ACAC =
      (if allowed && o.credentials then some [b!"true"] else find r.headers ACAC) := by
  obtain ⟨a1, a2, a3, a4⟩ := acao_acac
  have d1 := names_differ ACAO (by simp) b!"Vary" (by simp)
  have d2 := names_differ ACAC (by simp) b!"Vary" (by simp)
  unfold grant
  simp only []
  change find (push (if allowed = true then (if o.credentials = true then setHeader (setHeader r.headers ACAO _) ACAC _ else setHeader r.headers ACAO _) else r.headers) _ _) ACAO = _ ∧
    find (push (if allowed = true then (if o.credentials = true then setHeader (setHeader r.headers ACAO _) ACAC _ else setHeader r.headers ACAO _) else r.headers) _ _) ACAC = _
  rw [find_push, find_push, d1, d2]
  simp only [Bool.false_eq_true, if_false]
  cases allowed with
  | false => simp
  | true =>
    cases hc : o.credentials with
    | true => simp [find_setHeader, a1, a2, a3, a4]
    | false => simp [find_setHeader, a1, a2, a3, a4]

theorem after_keeps (x : Regex) : ∀ (ops : List Op) (o : Options),
    (after x o ops).credentials = o.credentials ∧ (after x o ops).methods = o.methods ∧
    (after x o ops).headers = o.headers ∧ (after x o ops).expose = o.expose ∧ (after x o ops).maxAge = o.maxAge
  | [], _ => ⟨rfl, rfl, rfl, rfl, rfl⟩
  | .configure r :: ops, o => by
    have := after_keeps x ops (configure o r)
    cases r <;> exact this
  | .ask q :: ops, o => by
    have := after_keeps x ops (isOriginAllowed x o q).2
    obtain ⟨_, _, h3, h4, h5, h6, h7⟩ := ask_keeps x o q
    rw [h3, h4, h5, h6, h7] at this
    exact this

theorem wildcard_iff {x o rule} (h : Stands x o rule) : wildcard o = true ↔ ∃ l, rule = .origins l ∧ b!"*" ∈ l := by
  unfold wildcard
  cases rule with
  | origins l => obtain ⟨h1, h2⟩ := h; simp [h1, h2]
  | patterns l => obtain ⟨h1, _⟩ := h; simp [h1]
  | matcher f => obtain ⟨h1, _⟩ := h; simp [h1]

/-- C86: on a response that carried no grant, `Access-Control-Allow-Origin` and `Access-Control-Allow-Credentials`
end up as follows.  Without an `Origin`, or for one the rule in force does not permit: neither.  For a permitted
one: `*` if the configured list contains `*` and credentials are off, otherwise the origin itself; and `true`
exactly if credentials are on. Each once. -/
theorem C86_grant (x : Regex) (o : Options) (hs : o.strategy = .exact) (h0 : o.origins = []) (ops : List Op) (q : Request) (r : Response)
    (h1 : Absent r.headers b!"Access-Control-Allow-Origin") (h2 : Absent r.headers b!"Access-Control-Allow-Credentials")
    (rule : Rule) (hrule : rule = inForce (.origins []) ops) (origin : Bytes) (horigin : origin = header q.headers b!"Origin")
    (out : Response) (hout : out = (process x (after x o ops) q r).2.1) :
    (¬ Permits x rule origin →
      Absent out.headers b!"Access-Control-Allow-Origin" ∧ Absent out.headers b!"Access-Control-Allow-Credentials") ∧
    (Permits x rule origin →
      ((∃ l, rule = .origins l ∧ b!"*" ∈ l) ∧ o.credentials = false → find out.headers b!"Access-Control-Allow-Origin" = some [b!"*"]) ∧
      (¬ ((∃ l, rule = .origins l ∧ b!"*" ∈ l) ∧ o.credentials = false) → find out.headers b!"Access-Control-Allow-Origin" = some [origin]) ∧
      find out.headers b!"Access-Control-Allow-Credentials" = if o.credentials then some [b!"true"] else none) := by
  change (_ → find out.headers ACAO = none ∧ find out.headers ACAC = none) ∧ (_ → (_ → find out.headers ACAO = _) ∧ (_ → find out.headers ACAO = _) ∧ find out.headers ACAC = _)
  change find r.headers ACAO = none at h1
  change find r.headers ACAC = none at h2
  have st : Stands x (after x o ops) rule := hrule ▸ stands_after ops (r := .origins []) ⟨hs, h0⟩
  have hal := allowed_iff st origin
  have hc := (after_keeps x ops o).1
  generalize after x o ops = o' at *
  have hcc := (ask_keeps x o' origin).2.2.1
  have hw : wildcard (isOriginAllowed x o' origin).2 = wildcard o' := by
    unfold wildcard
    rw [(ask_keeps x o' origin).1, (ask_keeps x o' origin).2.1]
  have hwi := wildcard_iff st
  have f1 := find_process x o' q r ACAO (by simp)
  have f2 := find_process x o' q r ACAC (by simp)
  rw [← hout, ← horigin] at f1 f2
  obtain ⟨g1, g2⟩ := find_grant (isOriginAllowed x o' origin).2 origin (isOriginAllowed x o' origin).1 r
  rw [g1] at f1
  rw [g2] at f2
  rw [hw, hcc, hc] at f1
  rw [hcc, hc] at f2
  constructor
  · intro hp
    have hf : (isOriginAllowed x o' origin).1 = false := by
      cases h : (isOriginAllowed x o' origin).1 with
      | false => rfl
      | true => exact absurd (hal.1 h) hp
    rw [f1, f2, hf, h1, h2]
    simp
  · intro hp
    have hne : origin ≠ [] := hp.1
    rw [if_neg hne, hal.2 hp] at f1 f2
    rw [f1, f2, h2]
    simp only [if_true, Bool.true_and]
    refine ⟨?_, ?_, trivial⟩
    · rintro ⟨a, b⟩
      rw [hwi.2 a, b]; rfl
    · intro h
      have : (wildcard o' && !o.credentials) = false := by
        cases hx : wildcard o' with
        | false => rfl
        | true =>
          cases hy : o.credentials with
          | true => rfl
          | false => exact absurd ⟨hwi.1 hx, hy⟩ h
      rw [this]; rfl

/-- C86: `*` and credentials are never granted together. -/
theorem C86_no_wildcard_credentials (x : Regex) (o : Options) (hs : o.strategy = .exact) (h0 : o.origins = []) (ops : List Op) (q : Request) (r : Response)
    (h1 : Absent r.headers b!"Access-Control-Allow-Origin") (h2 : Absent r.headers b!"Access-Control-Allow-Credentials")
    (hstar : header q.headers b!"Origin" ≠ b!"*")
    (hg : find (process x (after x o ops) q r).2.1.headers b!"Access-Control-Allow-Origin" = some [b!"*"]) :
    Absent (process x (after x o ops) q r).2.1.headers b!"Access-Control-Allow-Credentials" := by
  obtain ⟨a, b⟩ := C86_grant x o hs h0 ops q r h1 h2 _ rfl _ rfl _ rfl
  by_cases hp : Permits x (inForce (.origins []) ops) (header q.headers b!"Origin")
  · obtain ⟨b1, b2, b3⟩ := b hp
    by_cases hx : (∃ l, inForce (.origins []) ops = .origins l ∧ b!"*" ∈ l) ∧ o.credentials = false
    · unfold Absent; rw [b3, hx.2]; rfl
    · rw [b2 hx] at hg
      simp at hg
      exact absurd hg hstar
  · exact (a hp).2

/-- But `*` in the list together with credentials grants every origin credentials, by reflecting it. -/
theorem C86_reflects_with_credentials (x : Regex) (o : Options) (hs : o.strategy = .exact) (h0 : o.origins = []) (hc : o.credentials = true)
    (q : Request) (r : Response) (h1 : Absent r.headers b!"Access-Control-Allow-Origin") (h2 : Absent r.headers b!"Access-Control-Allow-Credentials")
    (ho : header q.headers b!"Origin" ≠ []) (hl : (header q.headers b!"Origin").length ≤ 2048) :
    find (process x (o.setOrigins [b!"*"]) q r).2.1.headers b!"Access-Control-Allow-Origin" = some [header q.headers b!"Origin"] ∧
    find (process x (o.setOrigins [b!"*"]) q r).2.1.headers b!"Access-Control-Allow-Credentials" = some [b!"true"] := by
  obtain ⟨_, b⟩ := C86_grant x o hs h0 [.configure (.origins [b!"*"])] q r h1 h2 _ rfl _ rfl _ rfl
  obtain ⟨_, b2, b3⟩ := b ⟨ho, hl, Or.inl (by simp)⟩
  refine ⟨b2 (by simp [hc]), ?_⟩
  rw [hc] at b3
  exact b3

/-- C86: with an `Origin` in the request, caches are always told that the response depends on it - granted or
not, preflight or not. -/
theorem C86_vary (x : Regex) (o : Options) (q : Request) (r : Response) (ho : header q.headers b!"Origin" ≠ []) :
    ∃ vs, find (process x o q r).2.1.headers b!"Vary" = some vs ∧ b!"Origin" ∈ vs := by
  have nv : ∀ k ∈ [b!"Access-Control-Allow-Methods", b!"Access-Control-Allow-Headers", b!"Access-Control-Max-Age",
    b!"Access-Control-Expose-Headers"], iequals k b!"Vary" = false := by decide +kernel
  have vv : iequals b!"Vary" b!"Vary" = true := by decide +kernel
  have n1 := nv b!"Access-Control-Allow-Methods" (by simp)
  have n2 := nv b!"Access-Control-Allow-Headers" (by simp)
  have n3 := nv b!"Access-Control-Max-Age" (by simp)
  have n4 := nv b!"Access-Control-Expose-Headers" (by simp)
  have hg : ∀ o origin allowed, ∃ vs, find (grant o origin allowed r).headers b!"Vary" = some vs ∧ b!"Origin" ∈ vs := by
    intro o origin allowed
    unfold grant
    simp only []
    rw [find_push, vv, if_pos rfl]
    exact ⟨_, rfl, by simp⟩
  have hp : ∀ (h : Headers) v, (∃ vs, find h b!"Vary" = some vs ∧ b!"Origin" ∈ vs) →
      ∃ vs, find (push h b!"Vary" v) b!"Vary" = some vs ∧ b!"Origin" ∈ vs := by
    rintro h v ⟨vs, h1, h2⟩
    rw [find_push, vv, if_pos rfl, h1]
    exact ⟨_, rfl, by simp [h2]⟩
  unfold process
  simp only []
  rw [if_neg (by simpa using ho)]
  split
  · exact hg ..
  · split
    · unfold preflight
      simp only []
      split
      · exact hp _ _ (hg ..)
      · show ∃ vs, find (setHeader (allowHeaders _ _ _) b!"Access-Control-Max-Age" _) _ = _ ∧ _
        rw [find_setHeader, n3, if_neg (by simp)]
        unfold allowHeaders
        have base : ∃ vs, find (setHeader (push (grant (isOriginAllowed x o (header q.headers b!"Origin")).2 (header q.headers b!"Origin")
            (isOriginAllowed x o (header q.headers b!"Origin")).1 r).headers b!"Vary" b!"Access-Control-Request-Method") b!"Access-Control-Allow-Methods"
            (join (isOriginAllowed x o (header q.headers b!"Origin")).2.methods b!", ")) b!"Vary" = some vs ∧ b!"Origin" ∈ vs := by
          rw [find_setHeader, n1, if_neg (by simp)]
          exact hp _ _ (hg ..)
        split
        · split
          · apply hp
            rw [find_setHeader, n2, if_neg (by simp)]
            exact base
          · rw [find_setHeader, n2, if_neg (by simp)]
            exact base
        · split
          · rw [find_setHeader, n2, if_neg (by simp)]
            exact base
          · exact base
    · split
      · rw [find_setHeader, n4, if_neg (by simp)]
        exact hg ..
      · exact hg ..

/-! ## C87: preflights -/

/-- The elements of a list header: separated by commas, blanks around them dropped, empty ones dropped. -/
def IsList (s : Bytes) (elems : List Bytes) : Prop :=
  ∃ fields trimmed : List Bytes, IsFields c!"," s fields ∧ trimmed.length = fields.length ∧
    (∀ (i : Nat) f t, fields[i]? = some f → trimmed[i]? = some t → IsTrim f t) ∧ elems = trimmed.filter (· ≠ [])

theorem splitAndTrim_isList (s : Bytes) : IsList s (splitAndTrim s c!",") := by
  obtain ⟨f, t, h1, _, h3, h4, h5⟩ := C05_split_trim_exact s c!","
  exact ⟨f, t, h1, h3, h4, h5⟩

/-- C87: exactly the preflights of permitted origins are answered by the middleware (`OPTIONS` with a non-empty
`Access-Control-Request-Method`); everything else goes on to the application with status and body untouched. -/
theorem C87_who_answers (x : Regex) (o : Options) (hs : o.strategy = .exact) (h0 : o.origins = []) (ops : List Op) (q : Request) (r : Response) :
    ((process x (after x o ops) q r).2.2 = .answered ↔
      Permits x (inForce (.origins []) ops) (header q.headers b!"Origin") ∧ q.isOptions = true ∧
        header q.headers b!"Access-Control-Request-Method" ≠ []) ∧
    ((process x (after x o ops) q r).2.2 = .goOn →
      (process x (after x o ops) q r).2.1.status = r.status ∧ (process x (after x o ops) q r).2.1.body = r.body) := by
  have st : Stands x (after x o ops) (inForce (.origins []) ops) := stands_after ops (r := .origins []) ⟨hs, h0⟩
  have hal := allowed_iff st (header q.headers b!"Origin")
  generalize after x o ops = o' at *
  unfold process
  simp only []
  by_cases hne : header q.headers b!"Origin" = []
  · rw [if_pos (by simpa using hne)]
    simp only [reduceCtorEq, false_iff, true_implies, and_self, and_true]
    rintro ⟨h, _⟩; exact h.1 hne
  rw [if_neg (by simpa using hne)]
  cases ha : (isOriginAllowed x o' (header q.headers b!"Origin")).1 with
  | false =>
    rw [ha] at hal
    simp only [Bool.not_false, if_true, reduceCtorEq, false_iff]
    refine ⟨?_, fun _ => ⟨rfl, rfl⟩⟩
    rintro ⟨h, _⟩; exact absurd (hal.2 h) (by simp)
  | true =>
    have hp := hal.1 ha
    simp only [Bool.not_true, Bool.false_eq_true, if_false]
    by_cases hpre : (q.isOptions && !(header q.headers b!"Access-Control-Request-Method").isEmpty) = true
    · rw [if_pos hpre]
      simp at hpre
      simp [hp, hpre]
    · rw [if_neg hpre]
      have hnot : ¬ (q.isOptions = true ∧ header q.headers b!"Access-Control-Request-Method" ≠ []) := by
        intro h; apply hpre; simp [h.1, h.2]
      split <;> simp only [reduceCtorEq, false_iff, true_implies] <;>
        exact ⟨fun h => hnot h.2, rfl, rfl⟩

/-- C87: the answer to a preflight.  If the requested method is configured (ASCII case ignored): 204, all the
configured methods, the configured maximum age, and as allowed headers exactly the requested names that are
configured, in the order and spelling of the request (all the configured names if none was requested). Otherwise:
403 and none of these headers.  The body is empty. -/
theorem C87_preflight (x : Regex) (o : Options) (q : Request) (r : Response) (ha : (process x o q r).2.2 = .answered)
    (hm : Absent r.headers b!"Access-Control-Allow-Methods") (hh : Absent r.headers b!"Access-Control-Allow-Headers")
    (out : Response) (hout : out = (process x o q r).2.1) :
    out.body = [] ∧
    ((∃ m ∈ o.methods, SameName m (header q.headers b!"Access-Control-Request-Method")) →
      out.status = 204 ∧
      find out.headers b!"Access-Control-Allow-Methods" = some [b!", ".intercalate o.methods] ∧
      find out.headers b!"Access-Control-Max-Age" = some [decimal o.maxAge] ∧
      (header q.headers b!"Access-Control-Request-Headers" = [] →
        find out.headers b!"Access-Control-Allow-Headers" = if o.headers = [] then none else some [b!", ".intercalate o.headers]) ∧
      (header q.headers b!"Access-Control-Request-Headers" ≠ [] →
        ∃ elems granted, IsList (header q.headers b!"Access-Control-Request-Headers") elems ∧
          granted.Sublist elems ∧ (∀ e ∈ elems, e ∈ granted ↔ ∃ c ∈ o.headers, SameName e c) ∧
          find out.headers b!"Access-Control-Allow-Headers" = some [b!", ".intercalate granted])) ∧
    (¬ (∃ m ∈ o.methods, SameName m (header q.headers b!"Access-Control-Request-Method")) →
      out.status = 403 ∧ Absent out.headers b!"Access-Control-Allow-Methods" ∧ Absent out.headers b!"Access-Control-Allow-Headers") := by
  have nn : ∀ k ∈ [b!"Access-Control-Allow-Methods", b!"Access-Control-Allow-Headers", b!"Access-Control-Max-Age"],
      ∀ n ∈ [b!"Access-Control-Allow-Methods", b!"Access-Control-Allow-Headers", b!"Access-Control-Max-Age", b!"Vary",
        b!"Access-Control-Allow-Origin", b!"Access-Control-Allow-Credentials"],
      iequals n k = decide (n = k) := by decide +kernel
  -- the grant does not touch these names
  have hg : ∀ o origin allowed n, n ∈ [b!"Access-Control-Allow-Methods", b!"Access-Control-Allow-Headers"] →
      find (grant o origin allowed r).headers n = find r.headers n := by
    intro o origin allowed n hn
    have hn' : n ∈ [b!"Access-Control-Allow-Methods", b!"Access-Control-Allow-Headers", b!"Access-Control-Max-Age"] := by
      simp at hn ⊢; rcases hn with h | h <;> simp [h]
    have v1 : iequals b!"Vary" n = false := by rw [nn n hn' b!"Vary" (by simp)]; simp at hn; rcases hn with rfl | rfl <;> decide
    have v2 : iequals b!"Access-Control-Allow-Origin" n = false := by
      rw [nn n hn' b!"Access-Control-Allow-Origin" (by simp)]; simp at hn; rcases hn with rfl | rfl <;> decide
    have v3 : iequals b!"Access-Control-Allow-Credentials" n = false := by
      rw [nn n hn' b!"Access-Control-Allow-Credentials" (by simp)]; simp at hn; rcases hn with rfl | rfl <;> decide
    unfold grant
    simp only []
    rw [find_push, v1, if_neg (by simp)]
    split
    · split
      · rw [find_setHeader, v3, if_neg (by simp), find_setHeader, v2, if_neg (by simp)]
      · rw [find_setHeader, v2, if_neg (by simp)]
    · rfl
  have hk := ask_keeps x o (header q.headers b!"Origin")
  -- the answer is `preflight`
  have hpre : ∃ o' r', out = preflight o' q r' ∧ o'.methods = o.methods ∧ o'.headers = o.headers ∧ o'.maxAge = o.maxAge ∧
      find r'.headers b!"Access-Control-Allow-Methods" = none ∧ find r'.headers b!"Access-Control-Allow-Headers" = none := by
    unfold process at ha hout
    simp only [] at ha hout
    split at ha
    · simp at ha
    · rename_i h1
      rw [if_neg h1] at hout
      split at ha
      · simp at ha
      · rename_i h2
        rw [if_neg h2] at hout
        split at ha
        · rename_i h3
          rw [if_pos h3] at hout
          exact ⟨_, _, hout, hk.2.2.2.1, hk.2.2.2.2.1, hk.2.2.2.2.2.2, (hg _ _ _ _ (by simp)).trans hm, (hg _ _ _ _ (by simp)).trans hh⟩
        · split at ha <;> simp at ha
  obtain ⟨o', r', he, e1, e2, e3, e4, e5⟩ := hpre
  have hany : (o'.methods.any fun c => iequals c (header q.headers b!"Access-Control-Request-Method")) = true ↔
      ∃ m ∈ o.methods, SameName m (header q.headers b!"Access-Control-Request-Method") := by
    rw [e1, List.any_eq_true]
    simp only [C04_iequals_exact, SameName]
  unfold preflight at he
  simp only [] at he
  have mm : iequals b!"Access-Control-Allow-Methods" b!"Access-Control-Allow-Methods" = true := by decide +kernel
  have xx : iequals b!"Access-Control-Allow-Headers" b!"Access-Control-Allow-Headers" = true := by decide +kernel
  have aa : iequals b!"Access-Control-Max-Age" b!"Access-Control-Max-Age" = true := by decide +kernel
  have vm : iequals b!"Vary" b!"Access-Control-Allow-Methods" = false := by decide +kernel
  have vh : iequals b!"Vary" b!"Access-Control-Allow-Headers" = false := by decide +kernel
  have mh : iequals b!"Access-Control-Allow-Methods" b!"Access-Control-Allow-Headers" = false := by decide +kernel
  have hm' : iequals b!"Access-Control-Allow-Headers" b!"Access-Control-Allow-Methods" = false := by decide +kernel
  have am : iequals b!"Access-Control-Max-Age" b!"Access-Control-Allow-Methods" = false := by decide +kernel
  have ah : iequals b!"Access-Control-Max-Age" b!"Access-Control-Allow-Headers" = false := by decide +kernel
  by_cases hmeth : ∃ m ∈ o.methods, SameName m (header q.headers b!"Access-Control-Request-Method")
  · rw [hany.2 hmeth] at he
    simp only [Bool.not_true, Bool.false_eq_true, if_false] at he
    rw [he]
    refine ⟨rfl, fun _ => ⟨rfl, ?_, ?_, ?_, ?_⟩, fun h => absurd hmeth h⟩
    · show find (setHeader _ _ _) _ = _
      rw [find_setHeader, am, if_neg (by simp), find_allowHeaders _ _ _ _ hm' vm, find_setHeader, mm, if_pos rfl, join_eq, e1]
    · show find (setHeader _ _ _) _ = _
      rw [find_setHeader, aa, if_pos rfl, e3]
    · intro hr
      show find (setHeader _ _ _) _ = _
      rw [find_setHeader, ah, if_neg (by simp)]
      unfold allowHeaders
      rw [hr]
      simp only [List.isEmpty_nil, Bool.not_true, Bool.false_eq_true, if_false]
      rw [e2]
      by_cases hnil : o.headers = []
      · rw [if_pos hnil, if_neg (by simp [hnil]), find_setHeader, mh, if_neg (by simp), find_push, vh, if_neg (by simp), e5]
      · rw [if_neg hnil, if_pos (by simp [hnil]), find_setHeader, xx, if_pos rfl, join_eq]
    · intro hr
      refine ⟨_, approved o' (header q.headers b!"Access-Control-Request-Headers"), splitAndTrim_isList _, ?_, ?_, ?_⟩
      · unfold approved
        split
        · exact List.nil_sublist _
        · exact List.filter_sublist
      · intro e he
        unfold approved
        rw [e2]
        by_cases hnil : o.headers = []
        · simp [hnil]
        · rw [if_neg (by simpa using hnil), List.mem_filter]
          simp [he, C04_iequals_exact, SameName]
      · show find (setHeader _ _ _) _ = _
        rw [find_setHeader, ah, if_neg (by simp)]
        unfold allowHeaders
        rw [if_pos (by simpa using hr)]
        by_cases hnil : approved o' (header q.headers b!"Access-Control-Request-Headers") = []
        · rw [if_neg (by simp [hnil]), find_setHeader, xx, if_pos rfl, hnil]; rfl
        · rw [if_pos (by simpa using hnil), find_push, vh, if_neg (by simp), find_setHeader, xx, if_pos rfl, join_eq]
  · have : (o'.methods.any fun c => iequals c (header q.headers b!"Access-Control-Request-Method")) = false := by
      cases hx : (o'.methods.any fun c => iequals c (header q.headers b!"Access-Control-Request-Method")) with
      | false => rfl
      | true => exact absurd (hany.1 hx) hmeth
    rw [this] at he
    simp only [Bool.not_false, if_true] at he
    rw [he]
    refine ⟨rfl, fun h => absurd h hmeth, fun _ => ⟨rfl, ?_, ?_⟩⟩
    · show find (push _ _ _) _ = none
      rw [find_push, vm, if_neg (by simp), e4]
    · show find (push _ _ _) _ = none
      rw [find_push, vh, if_neg (by simp), e5]

/-- C87: no other header of the response is touched, whoever answers; and without an `Origin` nothing is. -/
theorem C87_frame (x : Regex) (o : Options) (q : Request) (r : Response) :
    (header q.headers b!"Origin" = [] → (process x o q r).2.1 = r ∧ (process x o q r).2.2 = .goOn) ∧
    (∀ name : Bytes, (∀ k ∈ [b!"Vary", b!"Access-Control-Allow-Origin", b!"Access-Control-Allow-Credentials", b!"Access-Control-Allow-Methods",
        b!"Access-Control-Allow-Headers", b!"Access-Control-Max-Age", b!"Access-Control-Expose-Headers"], ¬ SameName k name) →
      find (process x o q r).2.1.headers name = find r.headers name) := by
  constructor
  · intro h
    unfold process
    simp only []
    rw [if_pos (by simpa using h)]
    exact ⟨rfl, rfl⟩
  · intro n hn
    have hf : ∀ k ∈ [b!"Vary", b!"Access-Control-Allow-Origin", b!"Access-Control-Allow-Credentials", b!"Access-Control-Allow-Methods",
        b!"Access-Control-Allow-Headers", b!"Access-Control-Max-Age", b!"Access-Control-Expose-Headers"], iequals k n = false := by
      intro k hk
      cases hx : iequals k n with
      | false => rfl
      | true => exact absurd ((C04_iequals_exact k n).1 hx) (hn k hk)
    have v := hf b!"Vary" (by simp)
    have a1 := hf b!"Access-Control-Allow-Origin" (by simp)
    have a2 := hf b!"Access-Control-Allow-Credentials" (by simp)
    have a3 := hf b!"Access-Control-Allow-Methods" (by simp)
    have a4 := hf b!"Access-Control-Allow-Headers" (by simp)
    have a5 := hf b!"Access-Control-Max-Age" (by simp)
    have a6 := hf b!"Access-Control-Expose-Headers" (by simp)
    have hg : ∀ o origin allowed, find (grant o origin allowed r).headers n = find r.headers n := by
      intro o origin allowed
      unfold grant
      simp only []
      rw [find_push, v, if_neg (by simp)]
      split
      · split
        · rw [find_setHeader, a2, if_neg (by simp), find_setHeader, a1, if_neg (by simp)]
        · rw [find_setHeader, a1, if_neg (by simp)]
      · rfl
    have hp : ∀ o r', find (preflight o q r').headers n = find r'.headers n := by
      intro o r'
      unfold preflight
      simp only []
      split
      · show find (push _ _ _) _ = _
        rw [find_push, v, if_neg (by simp)]
      · show find (setHeader _ _ _) _ = _
        rw [find_setHeader, a5, if_neg (by simp), find_allowHeaders _ _ _ _ a4 v, find_setHeader, a3, if_neg (by simp),
          find_push, v, if_neg (by simp)]
    unfold process
    simp only []
    split
    · rfl
    · split
      · exact hg ..
      · split
        · exact (hp ..).trans (hg ..)
        · split
          · show find (setHeader _ _ _) _ = _
            rw [find_setHeader, a6, if_neg (by simp)]; exact hg ..
          · exact hg ..

/-- C87: an ordinary request of a permitted origin tells which headers a script may read, if any are configured. -/
theorem C87_expose (x : Regex) (o : Options) (q : Request) (r : Response) (hp : (isOriginAllowed x o (header q.headers b!"Origin")).1 = true)
    (ha : (process x o q r).2.2 = .goOn) (he : o.expose ≠ []) :
    find (process x o q r).2.1.headers b!"Access-Control-Expose-Headers" = some [b!", ".intercalate o.expose] := by
  have hk := ask_keeps x o (header q.headers b!"Origin")
  have ee : iequals b!"Access-Control-Expose-Headers" b!"Access-Control-Expose-Headers" = true := by decide +kernel
  have hne : header q.headers b!"Origin" ≠ [] := by
    intro h; rw [h] at hp; simp [isOriginAllowed] at hp
  unfold process at ha ⊢
  simp only [] at ha ⊢
  rw [if_neg (by simpa using hne), hp] at ha ⊢
  simp only [Bool.not_true, Bool.false_eq_true, if_false] at ha ⊢
  split at ha
  · simp at ha
  · rename_i h
    rw [if_neg h, if_pos (by rw [hk.2.2.2.2.2.1]; simpa using he)]
    show find (setHeader _ _ _) _ = _
    rw [find_setHeader, ee, if_pos rfl, join_eq, hk.2.2.2.2.2.1]

/-! ## the hypotheses are met -/

def noRegex : Regex := ⟨fun _ => false, fun _ _ => none⟩

/-- A preflight of a permitted origin. -/
example :
    let o := after noRegex { headers := [b!"X-Token"], credentials := true } [.configure (.patterns [b!"a"]), .ask b!"b", .configure (.origins [b!"http://a"])]
    let q : Request := ⟨true, [(b!"origin", [b!"http://a"]), (b!"Access-Control-Request-Method", [b!"post"]), (b!"Access-Control-Request-Headers", [b!"x-token"])]⟩
    (process noRegex o q ⟨200, b!"x", []⟩).2.2 = .answered ∧
    find (process noRegex o q ⟨200, b!"x", []⟩).2.1.headers b!"Access-Control-Allow-Origin" = some [b!"http://a"] ∧
    (process noRegex o q ⟨200, b!"x", []⟩).2.1.status = 204 := by decide +kernel

/-- A request of an origin that is not permitted. -/
example :
    let q : Request := ⟨false, [(b!"origin", [b!"http://b"])]⟩
    (process noRegex (secure [b!"http://a"]) q ⟨200, b!"x", []⟩).2.2 = .goOn ∧
    find (process noRegex (secure [b!"http://a"]) q ⟨200, b!"x", []⟩).2.1.headers b!"Access-Control-Allow-Origin" = none := by decide +kernel

end Verif.Cors
