import Verif.Cap.Spec

/-! C192: only a request whose token the verification service vouches for gets past the reCAPTCHA middleware. C193: the token of the request and the secret, and nothing else, reach the service. -/

namespace Verif.Cap

open Verif.Context (Ctx Act Ev State step run starts FirstTask NoTask CompletesOnce)
open Verif.Valid (Json)
open Spec

theorem isNumber_iff (v : Json) : isNumber v = true ↔ IsNum v := by
  unfold IsNum
  cases v <;> simp [isNumber]

/-- C192: the verdict on the answer of the service is exactly the specification. -/
theorem C192_verdict (x : Ext) (o : Opts) (p : Reply) : refuses o (parseReply x p) = false ↔ Vouches x o p := by
  unfold Vouches Has
  by_cases h2 : p.status = 200
  · cases hj : x.parse p.body with
    | none => simp [parseReply, h2, hj, refuses]
    | some j =>
      cases j with
      | obj m =>
        cases hs : Valid.get m b!"success" with
        | none => cases hn : Valid.get m b!"score" with
          | none => simp [parseReply, h2, hj, hs, hn, refuses]
          | some n => by_cases hnum : isNumber n = true <;> simp [parseReply, h2, hj, hs, hn, hnum, refuses]
        | some v =>
          cases v with
          | bool s =>
            cases hn : Valid.get m b!"score" with
            | none => cases s <;> cases hk : o.kind <;> simp [parseReply, h2, hj, hs, hn, refuses, hk]
            | some n =>
              by_cases hnum : isNumber n = true
              · have hI := (isNumber_iff n).1 hnum
                cases s <;> cases hk : o.kind <;> simp [parseReply, h2, hj, hs, hn, refuses, hk, hnum, hI, Rat.not_lt]
              · have hI : ¬ IsNum n := fun h => hnum ((isNumber_iff n).2 h)
                cases s <;> cases hk : o.kind <;> simp [parseReply, h2, hj, hs, hn, refuses, hk, hnum, hI, Rat.not_lt]
          | _ => simp [parseReply, h2, hj, hs, refuses]
      | _ => simp [parseReply, h2, hj, refuses]
  · simp [parseReply, h2, refuses]

theorem live_of {c : Ctx} (hc : c.cancelled = false) (hs : c.state ≠ .finalised) : (c.cancelled || c.state == State.finalised) = false := by
  simp [hc, hs]

theorem onReply_pass {x : Ext} {o : Opts} {p : Reply} {c : Ctx} (hc : c.cancelled = false) (hs : c.state ≠ .finalised) (h : Vouches x o p) :
    onReply x o p c = step c (.complete .continue) := by
  unfold onReply
  rw [live_of hc hs, (C192_verdict x o p).2 h]
  rfl

theorem onReply_refuse {x : Ext} {o : Opts} {p : Reply} {c : Ctx} (hc : c.cancelled = false) (hs : c.state ≠ .finalised) (h : ¬ Vouches x o p) :
    onReply x o p c = refuse 403 c := by
  unfold onReply
  rw [live_of hc hs]
  have : refuses o (parseReply x p) = true := by
    cases hr : refuses o (parseReply x p)
    · exact absurd ((C192_verdict x o p).1 hr) h
    · rfl
  rw [this]
  rfl

theorem refuse_eq (n : Nat) {c : Ctx} (hdead : c.dead = false) (hc : c.cancelled = false) (hs : c.state ≠ .finalised) :
    refuse n c = Context.finalize { c with status := n, inFlight := false, lastResult := .complete, count := c.count + 1 } := by
  have hs1 : (c.state == State.finalised) = false := by simpa using hs
  simp [refuse, step, hdead, Context.complete, hc, hs1]

theorem refuse_starts (n : Nat) (c : Ctx) : starts (refuse n c).trace = starts c.trace := by
  have key : ∀ d : Ctx, starts (Context.finalize d).trace = starts d.trace := by
    intro d; unfold Context.finalize; split
    · rfl
    · split <;> simp [starts]
  unfold refuse step
  by_cases hd : c.dead = true
  · simp [hd]
  · simp only [Bool.not_eq_true] at hd
    simp only [hd]
    simp only [Bool.false_eq_true, if_false, hd, Context.complete]
    split
    · rfl
    · split
      · split
        · rw [key]
        · rfl
      · rw [key]

/-- What a refusal is: the status is set, no task starts, and the request is finalised with that status, at once or (inside a deferral scope) when the scope is left. -/
theorem refuse_spec (n : Nat) {c : Ctx} (hdead : c.dead = false) (hc : c.cancelled = false) (hs : c.state ≠ .finalised) :
    (refuse n c).status = n ∧ starts (refuse n c).trace = starts c.trace ∧
    (c.depth = 0 → (refuse n c).trace = c.trace ++ [.finalised n] ∧ (refuse n c).state = .finalised) ∧
    (c.depth ≠ 0 → (refuse n c).trace = c.trace ∧ (refuse n c).pending = true) := by
  have hs1 : (c.state == State.finalised) = false := by simpa using hs
  refine ⟨?_, refuse_starts n c, fun hd => ?_, fun hd => ?_⟩
  · rw [refuse_eq n hdead hc hs]; unfold Context.finalize; split
    · rfl
    · split <;> rfl
  · rw [refuse_eq n hdead hc hs]; simp [Context.finalize, hs1, hd]
  · have : c.depth > 0 := by omega
    rw [refuse_eq n hdead hc hs]; simp [Context.finalize, hs1, this]

/-- C192: if the service vouches for the token, the next task of the chain starts. -/
theorem C192_passes {x : Ext} {o : Opts} {p : Reply} {c : Ctx} (hdead : c.dead = false) (hc : c.cancelled = false) (hs : c.state ≠ .finalised)
    (h : Vouches x o p) {j : Nat} (hj : FirstTask c.chain (c.idx + 1) j) :
    (onReply x o p c).trace = c.trace ++ [.start c.curErr j] ∧ (onReply x o p c).status = c.status := by
  rw [onReply_pass hc hs h]
  refine ⟨(Context.C39_continue_starts_next c hdead hc hs j hj).1, ?_⟩
  have hs1 : (c.state == State.finalised) = false := by simpa using hs
  simp only [step, hdead, Context.complete, hc, hs1, Context.proceed, Context.doneOrCancelled]
  simp only [Bool.false_eq_true, if_false, Bool.and_false, Bool.false_and, Bool.or_false, Bool.false_or]
  split
  · rfl
  · unfold Context.finalize; split
    · rfl
    · split <;> rfl

/-- C192: if it does not, whatever it answered, the response is 403 and no task starts. -/
theorem C192_refuses {x : Ext} {o : Opts} {p : Reply} {c : Ctx} (hdead : c.dead = false) (hc : c.cancelled = false) (hs : c.state ≠ .finalised)
    (h : ¬ Vouches x o p) :
    (onReply x o p c).status = 403 ∧ starts (onReply x o p c).trace = starts c.trace ∧
    (c.depth = 0 → (onReply x o p c).trace = c.trace ++ [.finalised 403] ∧ (onReply x o p c).state = .finalised) ∧
    (c.depth ≠ 0 → (onReply x o p c).trace = c.trace ∧ (onReply x o p c).pending = true) := by
  rw [onReply_refuse hc hs h]; exact refuse_spec 403 hdead hc hs

/-- C192: nor does one start later, whatever happens. -/
theorem C192_refuses_forever {x : Ext} {o : Opts} {p : Reply} {c : Ctx} (hdead : c.dead = false) (hc : c.cancelled = false) (hs : c.state ≠ .finalised)
    (h : ¬ Vouches x o p) (hd : c.depth = 0) (as : List Act) : starts (run (onReply x o p c) as).trace = starts c.trace := by
  obtain ⟨-, h2, h3, -⟩ := C192_refuses hdead hc hs h
  rw [Context.C39_none_after_termination _ as (.inr (h3 hd).2), h2]

/-- C192: not even inside a deferral scope, provided that nobody completes the request a second time. -/
theorem C192_refuses_forever_deferred {x : Ext} {o : Opts} {p : Reply} {c : Ctx} (hdead : c.dead = false) (hc : c.cancelled = false) (hs : c.state ≠ .finalised)
    (hst : c.started = true) (hfl : c.inFlight = true) (h : ¬ Vouches x o p) (as : List Act)
    (ho : CompletesOnce (step c (.setStatus 403)) (.complete .complete :: as)) : starts (run (onReply x o p c) as).trace = starts c.trace := by
  rw [onReply_refuse hc hs h]
  have e : step c (.setStatus 403) = { c with status := 403 } := by simp [step, hdead]
  have := Context.C39_none_after_complete (step c (.setStatus 403)) (by rw [e]; exact hst) (by rw [e]; exact hfl) (by rw [e]; exact hdead) as ho
  rw [e] at this
  unfold refuse
  rw [e]
  exact this

/-- C192: an answer that comes after the request was cancelled or finalised changes nothing. -/
theorem C192_late (x : Ext) (o : Opts) (p : Reply) {c : Ctx} (h : c.cancelled = true ∨ c.state = .finalised) : onReply x o p c = c := by
  unfold onReply
  rw [if_pos (by rcases h with h | h <;> simp [h])]

/-- C192: so whenever an answer makes a task start, the service vouched for the token. -/
theorem C192_only (x : Ext) (o : Opts) (p : Reply) (c : Ctx) (h : starts (onReply x o p c).trace ≠ starts c.trace) : Vouches x o p := by
  by_cases hv : Vouches x o p
  · exact hv
  · exfalso
    by_cases ho : c.cancelled = true ∨ c.state = .finalised
    · exact h (by rw [C192_late x o p ho])
    · simp only [not_or, Bool.not_eq_true] at ho
      exact h (by rw [onReply_refuse ho.1 ho.2 hv]; exact refuse_starts 403 c)

/-- C192: the action and the host name that the service reports do not matter. -/
theorem C192_action_ignored (o : Opts) (v : Verdict) (a h : Bytes) : refuses o { v with action := a, hostname := h } = refuses o v := rfl

/-- C193: the token is the one of the specification. -/
theorem token_iff (x : Ext) (o : Opts) (r : Rq) (t : Bytes) (ht : t ≠ []) : extract x o r = some t ↔ Token x o r t := by
  unfold extract Token
  cases hl : o.loc with
  | header =>
    simp only
    by_cases h : r.header o.field = []
    · simp [h, ht]
    · simp [h]; exact ⟨fun e => e.symm, fun e => e.symm⟩
  | query =>
    simp only
    by_cases h : r.query o.field = []
    · simp [h, ht]
    · simp [h]; exact ⟨fun e => e.symm, fun e => e.symm⟩
  | body =>
    simp only
    by_cases hb : r.body = []
    · simp [jsonToken, formToken, hb]
    · have hform : formToken x o r = some t ↔ ∃ ts, Frm.get (Frm.read x.codec r.body) o.field = t :: ts := by
        unfold formToken Frm.getFirst
        rw [if_neg hb]
        cases hg : Frm.get (Frm.read x.codec r.body) o.field with
        | nil => simp
        | cons a as =>
          simp only [List.head?_cons]
          by_cases ha : a = []
          · simp [ha]; exact fun e => ht (by first | exact e | exact e.symm)
          · simp [ha]
      have hjson : ∀ s, jsonToken x o r = some s ↔ ∃ m, x.parse r.body = some (.obj m) ∧ Has m o.field (.str s) := by
        intro s
        unfold jsonToken Has
        rw [if_neg hb]
        constructor
        · intro h
          split at h
          · rename_i m hm
            split at h
            · rename_i t' ht'; cases h; exact ⟨m, hm, ht'⟩
            · cases h
          · cases h
        · rintro ⟨m, hm, hs⟩
          rw [hm]; simp only [hs]
      cases hj : jsonToken x o r with
      | some s =>
        obtain ⟨m, hm, hs⟩ := (hjson s).1 hj
        simp only [Option.some.injEq]
        constructor
        · rintro rfl; exact ⟨hb, .inl ⟨m, hm, hs⟩⟩
        · rintro ⟨-, h | h⟩
          · have := (hjson t).2 h; rw [hj] at this; exact Option.some.inj this
          · exact absurd hs (h.1 m s hm)
      | none =>
        simp only
        rw [hform]
        constructor
        · intro h
          exact ⟨hb, .inr ⟨fun m s hm hs => (by have := (hjson s).2 ⟨m, hm, hs⟩; rw [hj] at this; cases this), h⟩⟩
        · rintro ⟨-, h | h⟩
          · have := (hjson t).2 h; rw [hj] at this; cases this
          · exact h.2

/-- C193: a request with a token is held while exactly that token is verified; nothing happens to it until the answer comes. -/
theorem C193_token_sent (x : Ext) (o : Opts) (r : Rq) (c : Ctx) {t : Bytes} (ht : t ≠ []) (h : Token x o r t) :
    process x o r c = (c, some (build x.codec o.secret t none)) := by
  unfold process
  rw [(token_iff x o r t ht).2 h]
  simp [ht]

/-- C193: a request without a token is answered with 400; nothing is sent to the service and no task starts. -/
theorem C193_no_token (x : Ext) (o : Opts) (r : Rq) {c : Ctx} (hdead : c.dead = false) (hc : c.cancelled = false) (hs : c.state ≠ .finalised)
    (h : ∀ t, t ≠ [] → ¬ Token x o r t) :
    (process x o r c).2 = none ∧ (process x o r c).1.status = 400 ∧ starts (process x o r c).1.trace = starts c.trace ∧
    (c.depth = 0 → (process x o r c).1.trace = c.trace ++ [.finalised 400] ∧ (process x o r c).1.state = .finalised) ∧
    (c.depth ≠ 0 → (process x o r c).1.trace = c.trace ∧ (process x o r c).1.pending = true) := by
  have e : process x o r c = (refuse 400 c, none) := by
    unfold process
    cases he : extract x o r with
    | none => rfl
    | some t =>
      simp only
      by_cases ht : t = []
      · rw [if_pos ht]
      · exact absurd ((token_iff x o r t ht).1 he) (h t ht)
  rw [e]
  exact ⟨rfl, refuse_spec 400 hdead hc hs⟩

theorem not_unreserved (s : Bytes) (h : ∀ x ∈ s, Utility.Spec.Unreserved x) : c!"&" ∉ s ∧ c!"=" ∉ s := by
  constructor <;> intro hm <;> have := h _ hm <;> revert this <;> unfold Utility.Spec.Unreserved <;> decide

/-- The bodies of the middleware are those of a form. -/
theorem read_pairs {c : Frm.Codec} (hc : Frm.Spec.CodecOk c) (kvs : List (Bytes × Bytes)) (hne : kvs ≠ []) (hk : ∀ e ∈ kvs, ∀ x ∈ e.1, Utility.Spec.Unreserved x) (k : Bytes) :
    Frm.get (Frm.read c ([c!"&"].intercalate (kvs.map fun e => e.1 ++ [c!"="] ++ c.enc e.2))) k = if k = [] then [] else Frm.Spec.values kvs k := by
  unfold Frm.read
  rw [Frm.readLoop_eq c (hc.plain [] (by simp)), Frm.get_addAll, Frm.split_join]
  · rw [List.map_map]
    have : kvs.map (Frm.says c ∘ fun e : Bytes × Bytes => e.1 ++ [c!"="] ++ c.enc e.2) = kvs := by
      conv => rhs; rw [← List.map_id kvs]
      refine List.map_congr_left fun e he => ?_
      have h1 := (not_unreserved e.1 (hk e he)).2
      show Frm.says c (e.1 ++ [c!"="] ++ c.enc e.2) = e
      unfold Frm.says
      rw [show e.1 ++ [c!"="] ++ c.enc e.2 = e.1 ++ c!"=" :: c.enc e.2 by simp, Frm.findChar_app h1]
      simp only [hc.plain _ (hk e he), hc.inv]
    rw [this]
    simp [Frm.get]
  · simpa using hne
  · intro s hs hm
    obtain ⟨e, he, rfl⟩ := List.mem_map.1 hs
    rcases List.mem_append.1 hm with hm | hm
    · rcases List.mem_append.1 hm with hm | hm
      · exact (not_unreserved e.1 (hk e he)).1 hm
      · simp at hm
    · exact hc.amp _ hm

/-- C193: what the service reads in the body: the secret, the token and, if given, the address; whatever bytes the token contains, it cannot add or replace a parameter. -/
theorem C193_no_injection {c : Frm.Codec} (hc : Frm.Spec.CodecOk c) (secret t : Bytes) (ip : Option Bytes) (k : Bytes) :
    Frm.get (Frm.read c (build c secret t ip)) k =
      if k = b!"secret" then [secret] else if k = b!"response" then [t]
      else if k = b!"remoteip" then (match ip with | some a => if a = [] then [] else [a] | none => []) else [] := by
  have nd : b!"secret" ≠ ([] : Bytes) ∧ b!"response" ≠ ([] : Bytes) ∧ b!"remoteip" ≠ ([] : Bytes) ∧ b!"secret" ≠ b!"response" ∧ b!"secret" ≠ b!"remoteip" ∧ b!"response" ≠ b!"remoteip" := by decide
  have u : (∀ x ∈ b!"secret", Utility.Spec.Unreserved x) ∧ (∀ x ∈ b!"response", Utility.Spec.Unreserved x) ∧ (∀ x ∈ b!"remoteip", Utility.Spec.Unreserved x) := by
    unfold Utility.Spec.Unreserved; decide
  have two : build c secret t none = [c!"&"].intercalate ([(b!"secret", secret), (b!"response", t)].map fun e => e.1 ++ [c!"="] ++ c.enc e.2) := by
    simp [build, List.intercalate, List.intersperse]
  have h2 : Frm.get (Frm.read c (build c secret t none)) k = if k = b!"secret" then [secret] else if k = b!"response" then [t] else [] := by
    rw [two, read_pairs hc _ (by simp) (by
      intro e he; simp only [List.mem_cons, List.not_mem_nil, or_false] at he
      rcases he with rfl | rfl
      · exact u.1
      · exact u.2.1)]
    unfold Frm.Spec.values
    by_cases k0 : k = []
    · subst k0; rw [if_pos rfl, if_neg nd.1.symm, if_neg nd.2.1.symm]
    · rw [if_neg k0]
      by_cases k1 : k = b!"secret"
      · subst k1; simp [nd]
      · by_cases k2 : k = b!"response"
        · subst k2; simp [nd]
        · rw [if_neg k1, if_neg k2]; simp [Ne.symm k1, Ne.symm k2]
  have h2' : Frm.get (Frm.read c (build c secret t none)) k = if k = b!"secret" then [secret] else if k = b!"response" then [t] else if k = b!"remoteip" then [] else [] := by
    rw [h2]; simp
  cases ip with
  | none => exact h2'
  | some a =>
    by_cases ha : a = []
    · have : build c secret t (some a) = build c secret t none := by simp [build, ha]
      rw [this, h2']; simp [ha]
    · have three : build c secret t (some a) = [c!"&"].intercalate ([(b!"secret", secret), (b!"response", t), (b!"remoteip", a)].map fun e => e.1 ++ [c!"="] ++ c.enc e.2) := by
        simp [build, List.intercalate, List.intersperse, ha]
      rw [three, read_pairs hc _ (by simp) (by
        intro e he; simp only [List.mem_cons, List.not_mem_nil, or_false] at he
        rcases he with rfl | rfl | rfl
        · exact u.1
        · exact u.2.1
        · exact u.2.2)]
      simp only [ha, if_false]
      unfold Frm.Spec.values
      by_cases k0 : k = []
      · subst k0; rw [if_pos rfl, if_neg nd.1.symm, if_neg nd.2.1.symm, if_neg nd.2.2.1.symm]
      · rw [if_neg k0]
        by_cases k1 : k = b!"secret"
        · subst k1; simp [nd]
        · by_cases k2 : k = b!"response"
          · subst k2; simp [nd]
          · by_cases k3 : k = b!"remoteip"
            · subst k3; simp [nd]
            · rw [if_neg k1, if_neg k2, if_neg k3]; simp [Ne.symm k1, Ne.symm k2, Ne.symm k3]

/-- C193: and two tokens are never sent as the same body. -/
theorem C193_injective {c : Frm.Codec} (hc : Frm.Spec.CodecOk c) {s s' t t' : Bytes} {ip ip' : Option Bytes} (h : build c s t ip = build c s' t' ip') : s = s' ∧ t = t' := by
  have h1 := C193_no_injection hc s t ip b!"secret"
  have h2 := C193_no_injection hc s t ip b!"response"
  rw [h, C193_no_injection hc] at h1 h2
  have : b!"response" ≠ b!"secret" := by decide
  simp only [if_true, this, if_false, List.cons.injEq, and_true] at h1 h2
  exact ⟨h1.symm, h2.symm⟩

def exExt : Ext where
  parse s := if s = b!"yes" then some (.obj [(b!"success", .bool true), (b!"score", .flt (9/10))])
    else if s = b!"{" then some (.obj [(b!"g-recaptcha-response", .str b!"tok&secret=x")]) else none
  toFloat j := match j with | .flt q => q | _ => 0
  codec := Frm.utilityCodec

example : Vouches exExt { secret := b!"s", kind := .v3 } ⟨200, b!"yes"⟩ :=
  (C192_verdict _ _ _).1 (by decide +kernel)

example : ¬ Vouches exExt { secret := b!"s", minScore := 19/20 } ⟨200, b!"yes"⟩ := fun h => by
  have := (C192_verdict _ _ _).2 h
  revert this; decide +kernel

example : Token exExt { secret := b!"s" } { body := b!"{" } b!"tok&secret=x" := (token_iff _ _ _ _ (by decide +kernel)).1 (by decide +kernel)

example : Token exExt { secret := b!"s", loc := .header, field := b!"X" } { header := fun _ => b!"t" } b!"t" := rfl

/-- A request that is at the middleware, the first task of two. -/
example : let c := run (Context.init none) [.start [true, true]]
    c.dead = false ∧ c.cancelled = false ∧ c.state ≠ .finalised ∧ c.depth = 0 ∧ c.started = true ∧ c.inFlight = true ∧
    starts (onReply exExt { secret := b!"s" } ⟨200, b!"yes"⟩ c).trace = [(false, 0), (false, 1)] ∧
    starts (onReply exExt { secret := b!"s" } ⟨200, b!"no"⟩ c).trace = [(false, 0)] := by decide +kernel

end Verif.Cap
