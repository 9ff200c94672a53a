import Verif.Sec.Spec
import Verif.Wire.Spec

/-! C194: the configured security headers are on every response, whatever handlers do. C195: the nonce. -/

namespace Verif.Sec

open Verif.Wire (Headers find)
open Verif.Parse (setHeader)
open Verif.Utility (iequals iequals_comm iequals_congr)
open Verif.Mid (find_setHeader)
open Spec

/-- What becomes of the policy. -/
def cspVal (o : Opts) (s : S) : Option Bytes :=
  if o.nonceOn then (nonceOf s).map fun n => o.csp.getD (defaultCsp n) else o.csp

/-- The headers that are set, in order. -/
def sets (o : Opts) (s : S) : List (Bytes × Option Bytes) :=
  [(b!"Strict-Transport-Security", if s.scheme = b!"https" then o.hsts else none),
   (b!"X-Content-Type-Options", if o.nosniff then some b!"nosniff" else none),
   (b!"X-Frame-Options", o.frame),
   (b!"Content-Security-Policy", cspVal o s),
   (b!"Content-Security-Policy-Report-Only", o.cspReport),
   (b!"Referrer-Policy", o.referrer),
   (b!"Permissions-Policy", o.permissions),
   (b!"Cross-Origin-Opener-Policy", o.coop),
   (b!"Cross-Origin-Embedder-Policy", o.coep),
   (b!"Cross-Origin-Resource-Policy", o.corp),
   (b!"X-Permitted-Cross-Domain-Policies", o.crossDomain)]

theorem cspStep_eq (o : Opts) (s : S) (h : Headers) : cspStep o s h = setOpt b!"Content-Security-Policy" (cspVal o s) h := by
  unfold cspStep cspVal
  cases o.nonceOn <;> simp
  cases nonceOf s <;> cases o.csp <;> simp [setOpt]

theorem secHook_eq (o : Opts) (s : S) : (secHook o s).headers = (sets o s).foldl (fun h e => setOpt e.1 e.2 h) s.headers := by
  unfold secHook sets
  simp only [List.foldl_cons, List.foldl_nil, cspStep_eq]
  by_cases hs : s.scheme = b!"https" <;> cases hn : o.nosniff <;> simp [hs, setOpt]

theorem find_setOpt (k : Bytes) (v : Option Bytes) (h : Headers) (n : Bytes) :
    find (setOpt k v h) n = match v with | some x => if iequals k n then some [x] else find h n | none => find h n := by
  cases v with
  | none => rfl
  | some x => exact find_setHeader h k x n

theorem fold_other (l : List (Bytes × Option Bytes)) (h : Headers) (n : Bytes) (hn : ∀ e ∈ l, e.2.isSome → iequals e.1 n = false) :
    find (l.foldl (fun h e => setOpt e.1 e.2 h) h) n = find h n := by
  induction l generalizing h with
  | nil => rfl
  | cons e l ih =>
    rw [List.foldl_cons, ih _ (fun e' he' => hn e' (List.mem_cons_of_mem _ he')), find_setOpt]
    have := hn e (by simp)
    cases hv : e.2 with
    | none => rfl
    | some x => simp [this (by simp [hv])]

theorem fold_set (l : List (Bytes × Option Bytes)) (hd : l.Pairwise (fun a b => iequals a.1 b.1 = false)) (h : Headers) {n v : Bytes}
    (hm : (n, some v) ∈ l) (m : Bytes) (hnm : iequals n m = true) : find (l.foldl (fun h e => setOpt e.1 e.2 h) h) m = some [v] := by
  induction l generalizing h with
  | nil => cases hm
  | cons e l ih =>
    obtain ⟨h1, h2⟩ := List.pairwise_cons.1 hd
    rw [List.foldl_cons]
    rcases List.mem_cons.1 hm with rfl | hm
    · rw [fold_other, find_setOpt]
      · simp [hnm]
      · intro e he _
        have := h1 e he
        rw [iequals_comm]
        rw [iequals_congr hnm e.1] at this
        exact this
    · exact ih h2 _ hm

theorem sets_pairwise (o : Opts) (s : S) : (sets o s).Pairwise (fun a b => iequals a.1 b.1 = false) := by
  have : ((sets o s).map (·.1)).Pairwise (fun a b => iequals a b = false) := by
    simp only [sets, List.map_cons, List.map_nil]
    decide
  rw [List.pairwise_map] at this
  exact this

theorem promises_iff (o : Opts) (s : S) (n v : Bytes) : Promises o s.scheme (nonceOf s) n v ↔ (n, some v) ∈ sets o s := by
  constructor
  · intro h
    cases h with
    | hsts h1 h2 => simp [sets, h1, h2]
    | nosniff h1 => simp [sets, h1]
    | frame h1 => simp [sets, h1]
    | csp h1 h2 =>
      have : cspVal o s = some v := by
        unfold cspVal
        by_cases hn : o.nonceOn = true
        · rw [if_pos hn, h1]
          obtain ⟨x, hx⟩ := Option.isSome_iff_exists.1 (h2 hn)
          rw [hx]; rfl
        · rw [if_neg hn, h1]
      simp [sets, this]
    | @cspNonce nn h1 h2 h3 =>
      have : cspVal o s = some (defaultCsp nn) := by
        unfold cspVal; rw [if_pos h2, h1, h3]; rfl
      simp [sets, this]
    | cspReport h1 => simp [sets, h1]
    | referrer h1 => simp [sets, h1]
    | permissions h1 => simp [sets, h1]
    | coop h1 => simp [sets, h1]
    | coep h1 => simp [sets, h1]
    | corp h1 => simp [sets, h1]
    | crossDomain h1 => simp [sets, h1]
  · intro h
    unfold sets at h
    simp only [List.mem_cons, Prod.mk.injEq, List.not_mem_nil, or_false] at h
    rcases h with ⟨rfl, h⟩ | ⟨rfl, h⟩ | ⟨rfl, h⟩ | ⟨rfl, h⟩ | ⟨rfl, h⟩ | ⟨rfl, h⟩ | ⟨rfl, h⟩ | ⟨rfl, h⟩ | ⟨rfl, h⟩ | ⟨rfl, h⟩ | ⟨rfl, h⟩
    · by_cases hs : s.scheme = b!"https"
      · rw [if_pos hs] at h; exact .hsts h.symm hs
      · rw [if_neg hs] at h; cases h
    · by_cases hs : o.nosniff = true
      · rw [if_pos hs] at h; cases h; exact .nosniff hs
      · rw [if_neg hs] at h; cases h
    · exact .frame h.symm
    · unfold cspVal at h
      by_cases hn : o.nonceOn = true
      · rw [if_pos hn] at h
        cases hx : nonceOf s with
        | none => rw [hx] at h; cases h
        | some x =>
          rw [hx] at h
          cases hc : o.csp with
          | none => rw [hc] at h; cases h; exact .cspNonce hc hn rfl
          | some c => rw [hc] at h; cases h; exact .csp hc (fun _ => rfl)
      · rw [if_neg hn] at h; exact .csp h.symm (fun e => absurd e hn)
    · exact .cspReport h.symm
    · exact .referrer h.symm
    · exact .permissions h.symm
    · exact .coop h.symm
    · exact .coep h.symm
    · exact .corp h.symm
    · exact .crossDomain h.symm

/-- C194: the hook sets every header that is promised to the promised value alone, whatever was there before and however its name was written. -/
theorem C194_hook_sets {o : Opts} {s : S} {n v : Bytes} (h : Promises o s.scheme (nonceOf s) n v) (m : Bytes) (hm : Wire.Spec.SameName n m) :
    find (secHook o s).headers m = some [v] := by
  rw [secHook_eq]
  exact fold_set _ (sets_pairwise o s) _ ((promises_iff o s n v).1 h) m ((Utility.C04_iequals_exact _ _).2 hm)

/-- C194: and leaves every other header alone. -/
theorem C194_hook_only {o : Opts} {s : S} (m : Bytes) (h : ∀ n v, Promises o s.scheme (nonceOf s) n v → ¬ Wire.Spec.SameName n m) :
    find (secHook o s).headers m = find s.headers m ∧ (secHook o s).scheme = s.scheme ∧ (secHook o s).data = s.data := by
  refine ⟨?_, rfl, rfl⟩
  rw [secHook_eq]
  refine fold_other _ _ _ fun e he hs => ?_
  obtain ⟨v, hv⟩ := Option.isSome_iff_exists.1 hs
  cases hi : iequals e.1 m with
  | false => rfl
  | true => exact absurd ((Utility.C04_iequals_exact _ _).1 hi) (h e.1 v ((promises_iff o s e.1 v).2 (by rw [← hv]; exact he)))

/-- C194: one configuration promises at most one value for a header. -/
theorem C194_one_value {o : Opts} {sc : Bytes} {no : Option Bytes} {n m v w : Bytes} (h : Promises o sc no n v) (h' : Promises o sc no m w)
    (hm : Wire.Spec.SameName n m) : v = w := by
  let s : S := { scheme := sc, data := fun _ => no.map Val.text }
  have e : nonceOf s = no := by cases no <;> rfl
  have a := C194_hook_sets (o := o) (s := s) (by rw [e]; exact h) m hm
  have b := C194_hook_sets (o := o) (s := s) (n := m) (by rw [e]; exact h') m rfl
  rw [a] at b
  simpa using b

theorem run_hooks (t : T) (ops : List Op) : (run t ops).hooks = t.hooks ++ hooksOf ops := by
  induction ops generalizing t with
  | nil => simp [run, hooksOf]
  | cons x ops ih =>
    show (run (op t x) ops).hooks = _
    rw [ih]
    cases x <;> simp [op, hooksOf]

theorem runHooks_find {n : Bytes} (hs : List (S → S)) (h : ∀ f ∈ hs, Leaves n f) (s : S) : find (runHooks hs s).headers n = find s.headers n := by
  induction hs generalizing s with
  | nil => rfl
  | cons f hs ih =>
    show find (runHooks hs (f s)).headers n = _
    rw [ih (fun g hg => h g (List.mem_cons_of_mem _ hg)), h f (by simp)]

theorem runHooks_keeps (hs : List (S → S)) (h : ∀ f ∈ hs, Keeps f) (s : S) : (runHooks hs s).scheme = s.scheme ∧ nonceOf (runHooks hs s) = nonceOf s := by
  induction hs generalizing s with
  | nil => exact ⟨rfl, rfl⟩
  | cons f hs ih =>
    obtain ⟨a, b⟩ := ih (fun g hg => h g (List.mem_cons_of_mem _ hg)) (f s)
    obtain ⟨c, d⟩ := h f (by simp) s
    exact ⟨a.trans c, b.trans d⟩

theorem secHook_keeps (o : Opts) : Keeps (secHook o) := fun _ => ⟨rfl, rfl⟩

/-- What user code does between the operations keeps scheme and nonce. -/
def KeepsOp : Op → Prop
  | .act f => Keeps f
  | .hook f => Keeps f
  | .sec o _ => o.nonceOn = false

theorem run_keeps (t : T) (ops : List Op) (h : ∀ x ∈ ops, KeepsOp x) : (run t ops).s.scheme = t.s.scheme ∧ nonceOf (run t ops).s = nonceOf t.s := by
  induction ops generalizing t with
  | nil => exact ⟨rfl, rfl⟩
  | cons x ops ih =>
    obtain ⟨a, b⟩ := ih (op t x) (fun y hy => h y (List.mem_cons_of_mem _ hy))
    have hx := h x (by simp)
    have : (op t x).s.scheme = t.s.scheme ∧ nonceOf (op t x).s = nonceOf t.s := by
      cases x with
      | act f => exact hx t.s
      | hook f => exact ⟨rfl, rfl⟩
      | sec o n =>
        have : o.nonceOn = false := hx
        simp [op, this]
    exact ⟨a.trans this.1, b.trans this.2⟩

/-- C194: whatever handlers do to the response before it is sent, in whatever order middlewares and hooks were added: a header promised by the middleware, for what the context holds when its hook is run, is sent with the promised value alone, unless a hook that was added after it changes that very header. -/
theorem C194_sent (t : T) (before after : List Op) (o : Opts) (nonce : Bytes) {n v : Bytes}
    (h : let s := runHooks (t.hooks ++ hooksOf before) (run t (before ++ .sec o nonce :: after)).s
      Promises o s.scheme (nonceOf s) n v)
    (hl : ∀ f ∈ hooksOf after, Leaves n f) : find (send (run t (before ++ .sec o nonce :: after))).headers n = some [v] := by
  have hh : (run t (before ++ .sec o nonce :: after)).hooks = (t.hooks ++ hooksOf before) ++ secHook o :: hooksOf after := by
    rw [run_hooks]
    have : ∀ a b, hooksOf (a ++ b) = hooksOf a ++ hooksOf b := by
      intro a b
      induction a with
      | nil => rfl
      | cons x a ih => cases x <;> simp [hooksOf, ih]
    rw [this]; simp [hooksOf]
  unfold send
  rw [hh]
  unfold runHooks at h ⊢
  rw [List.foldl_append, List.foldl_cons]
  have := runHooks_find (n := n) (hooksOf after) hl (secHook o ((t.hooks ++ hooksOf before).foldl (fun s f => f s) (run t (before ++ .sec o nonce :: after)).s))
  unfold runHooks at this
  rw [this]
  exact C194_hook_sets h n rfl

/-- C195: the policy that is sent names the nonce that was made for this request, as long as user code leaves the nonce and the scheme alone; and every handler after the middleware finds that nonce in the context. -/
theorem C195_nonce_sent (t : T) (before after : List Op) (o : Opts) (nonce : Bytes) (ho : o.nonceOn = true)
    (ha : ∀ x ∈ after, KeepsOp x) (hb : ∀ f ∈ t.hooks ++ hooksOf before, Keeps f) (hl : ∀ f ∈ hooksOf after, Leaves b!"Content-Security-Policy" f) :
    nonceOf (run t (before ++ .sec o nonce :: after)).s = some nonce ∧
    find (send (run t (before ++ .sec o nonce :: after))).headers b!"Content-Security-Policy" = some [o.csp.getD (defaultCsp nonce)] := by
  have hrun : run t (before ++ .sec o nonce :: after) = run (op (run t before) (.sec o nonce)) after := by
    unfold run; rw [List.foldl_append, List.foldl_cons]
  have hn : nonceOf (run t (before ++ .sec o nonce :: after)).s = some nonce := by
    rw [hrun, (run_keeps _ after ha).2]
    simp [op, ho, nonceOf]
  refine ⟨hn, C194_sent t before after o nonce ?_ hl⟩
  simp only
  rw [(runHooks_keeps _ hb _).2, hn]
  cases hc : o.csp with
  | none => exact .cspNonce hc ho rfl
  | some v => exact .csp hc (fun _ => rfl)

/-- C195: but with nonces enabled, a configured policy is not sent at all if the context holds no nonce when the response is sent: a handler that overwrites the entry with something that is no `std::string` turns the policy off. -/
theorem C195_false_policy_without_nonce : ∃ (o : Opts) (t : T) (f : S → S), o.csp.isSome = true ∧ o.nonceOn = true ∧
    find (send (run t [.sec o b!"0123", .act f])).headers b!"Content-Security-Policy" = none :=
  ⟨{ csp := some b!"default-src 'none'", nonceOn := true }, {}, fun s => { s with data := fun _ => some (.other 1) }, rfl, rfl, by decide⟩

/-- The defaults, over https: six headers and the policy. -/
example : (send (run { s := { scheme := b!"https", headers := [(b!"x-frame-options", [b!"ALLOW", b!"x"])] } } [.sec secureDefaults []])).headers.map (·.1) =
    [b!"x-frame-options", b!"Strict-Transport-Security", b!"X-Content-Type-Options", b!"Content-Security-Policy", b!"Referrer-Policy", b!"Cross-Origin-Opener-Policy", b!"X-Permitted-Cross-Domain-Policies"] := by decide

example : Promises secureDefaults b!"https" none b!"X-Frame-Options" b!"SAMEORIGIN" := .frame rfl

/-- The hypotheses of the theorems are met: a handler that sets headers, and a hook of another middleware. -/
example : Keeps (fun s => { s with headers := setHeader s.headers b!"Server-Timing" b!"x" }) ∧
    Leaves b!"Content-Security-Policy" (fun s => { s with headers := setHeader s.headers b!"Server-Timing" b!"x" }) := by
  refine ⟨fun _ => ⟨rfl, rfl⟩, fun s => ?_⟩
  show find (setHeader s.headers _ _) _ = _
  rw [find_setHeader]
  rfl

end Verif.Sec
