import Verif.Cli3.LemmasPolite
import Verif.Cli3.TheoremsOnce

/-! C160-C163 in polite runs, and what goes wrong in the others. -/

namespace Verif.Cli3

/-! ### Examples of polite runs -/

instance (s : St) (ch : Choice) : Decidable (Polite s ch) := by
  unfold Polite; split <;> infer_instance

/-- `PoliteRun`, computed. -/
def politeRun (s : St) : List Choice → Bool
  | [] => true
  | ch :: chs => decide (Polite s ch) && match s.step ch with | some s' => politeRun s' chs | none => true

theorem politeRun_spec (s : St) (chs : List Choice) (h : politeRun s chs = true) : PoliteRun s chs := by
  induction chs generalizing s with
  | nil => trivial
  | cons ch chs ih =>
    simp only [politeRun, Bool.and_eq_true, decide_eq_true_eq] at h
    refine ⟨h.1, fun s' e => ih s' ?_⟩
    rw [e] at h; exact h.2

/-- A polite run: a request is answered, its callback sends another; during the read in which that one is answered the connection is lost, the callback of
a queued request tries again, on a new connection; at the end the user disconnects. -/
def sampleRun : List Choice :=
  [.call (.push true), .go true, .event (.connected true), .go true, .go true, .go true, .go true, .go true, .go true,
   .event .data, .callback (.response 0), .call (.push true), .go true, .go true, .go true, .go true, .ret, .go true, .go true, .callback (.response 4), .event .closed, .ret, .go true, .go true,
   .call (.push true), .go true, .go true, .ret, .go true, .go true, .go true]

example : PoliteRun (St.init true 1 10) (sampleRun.take 24) := politeRun_spec _ _ (by decide)

/-! ### C160 -/

/-- C160 (partial). In a polite run no request is lost: each request given to `push_request` was completed exactly once or is held exactly once. -/
theorem C160_exactly_once_partial (auto : Bool) (ms mp : Nat) (chs : List Choice) (s : St) (h : (St.init auto ms mp).run chs = some s)
    (hp : PoliteRun (St.init auto ms mp) chs) (n : Nat) : (completions s.trace).count n + s.held.count n = if 1 ≤ n ∧ n ≤ pushes chs then 1 else 0 := by
  have h1 := C160_at_most_once auto ms mp chs s h n
  have h2 := (run_inv h (init_live auto ms mp) (init_inv auto ms mp) hp).2.lost
  rw [h2] at h1
  simpa using h1

/-- A `disconnect` whose failure callback sends another request, and a new connection on which the number of the stream of that request is used again. -/
def retryInDisconnect : List Choice :=
  [.call (.push true), .go true, .event (.connected true), .go true, .go true, .go true, .go true, .go true, .go true,   -- 1 is sent on stream 0
   .call .disconnect, .go true, .go true, .call (.push true), .go true, .go true, .go true, .go true, .ret, .go true, .go true, .go true,   -- 2 is sent on stream 4 of the old connection
   .call (.push true), .go true, .event (.connected true), .go true, .go true, .go true, .go true, .go true, .go true,   -- 3 is sent on stream 0 of the new one
   .call (.push true), .go true, .go true, .go true, .go true]   -- 4 on stream 4

/-- What is missing: the client is idle, request 4 was sent and is not held any more; its callback will never be called. -/
theorem C160_lost_partial : ∃ s, (St.init true 10 10).run retryInDisconnect = some s ∧ s.stack = [] ∧ .sent 4 2 4 ∈ s.trace ∧ 4 ∉ s.held ∧ 4 ∉ completions s.trace := by
  refine ⟨_, rfl, ?_⟩; decide

/-! ### C161 -/

theorem matched_spec {t : List Ev} (h : Matched t) {pre post : List Ev} {n k i : Nat} (e : t = pre ++ .done n (.response k i) :: post) : .sent n k i ∈ post := by
  induction pre generalizing t with
  | nil => subst e; exact h.1
  | cons x pre ih => subst e; exact ih h.2 rfl

/-- C161 (partial). In a polite run a request is only ever given a response that came on the connection and the stream on which that very request was
sent before. -/
theorem C161_own_response_partial (auto : Bool) (ms mp : Nat) (chs : List Choice) (s : St) (h : (St.init auto ms mp).run chs = some s)
    (hp : PoliteRun (St.init auto ms mp) chs) (later earlier : List Ev) (n k i : Nat) (ht : s.trace = later ++ .done n (.response k i) :: earlier) : .sent n k i ∈ earlier :=
  matched_spec (run_inv h (init_live auto ms mp) (init_inv auto ms mp) hp).2.matched ht

/-- What is missing: after the history above, request 2 is given the response to request 4. -/
theorem C161_mix_up_partial : ∃ s, (St.init true 10 10).run (retryInDisconnect ++ [.event .data, .callback (.response 4)]) = some s ∧
    .done 2 (.response 2 4) ∈ s.trace ∧ .sent 2 1 4 ∈ s.trace ∧ .sent 4 2 4 ∈ s.trace ∧ .sent 2 2 4 ∉ s.trace := by
  refine ⟨_, rfl, ?_⟩; decide

/-- The connections and streams of the requests that were sent. -/
def places (t : List Ev) : List (Nat × Nat) := t.filterMap fun | .sent _ k i => some (k, i) | _ => none

structure Placed (s : St) : Prop where
  nodup : (places s.trace ++ (subs s.stack).map fun c => (c.conn, c.stream)).Nodup
  old : ∀ p ∈ places s.trace ++ (subs s.stack).map fun c => (c.conn, c.stream), p.1 < s.conn ∨ p.1 = s.conn ∧ p.2 < s.nextStream

theorem Placed.keep {s t : St} (h : Placed s) (hp : places t.trace = places s.trace) (hs : (subs t.stack).Sublist (subs s.stack)) (hc : t.conn = s.conn) (hn : t.nextStream = s.nextStream) :
    Placed t := by
  have hsub : (places t.trace ++ (subs t.stack).map fun c => (c.conn, c.stream)).Sublist (places s.trace ++ (subs s.stack).map fun c => (c.conn, c.stream)) := by
    rw [hp]; exact (List.Sublist.refl _).append (hs.map _)
  exact ⟨hsub.nodup h.nodup, fun p hp => by rw [hc, hn]; exact h.old p (hsub.subset hp)⟩

theorem Placed.connect {s : St} (h : Placed s) (cb : Option Nat) {rest : List Frame} (hr : subs rest = subs s.stack) : Placed (s.connect cb rest) := by
  unfold St.connect
  repeat' split
  all_goals exact h.keep (by simp [St.enter, places]) (by rw [← hr]; simp [St.enter, subs, Frame.sub]) (by rfl) (by rfl)

theorem Placed.fail {s : St} (h : Placed s) {rest : List Frame} (hr : subs rest = subs s.stack) : Placed (s.connectionFailed rest) :=
  h.keep (by rfl) (by rw [← hr]; simp [St.connectionFailed, subs, Frame.sub]) (by rfl) (by rfl)

theorem Placed.failRequest {s : St} (h : Placed s) (sid st : Nat) {rest : List Frame} (hr : subs rest = subs s.stack) : Placed (s.failRequest sid st rest) := by
  unfold St.failRequest
  split
  all_goals exact h.keep (by simp [St.enter, places]) (by rw [← hr]; simp [St.enter, subs, Frame.sub]) (by rfl) (by rfl)

theorem Placed.giveUp {s : St} (h : Placed s) (n st : Nat) (b : Bool) : Placed (s.giveUp n st b) := by
  unfold St.giveUp
  split
  · exact h.keep (by simp [St.enter, places]) (by cases b <;> simp [St.enter, subs, Frame.sub]) (by rfl) (by rfl)
  · split
    · exact h
    · exact h.failRequest _ _ (by simp [subs, Frame.sub])

theorem step_placed {s : St} {ch : Choice} {s' : St} (hi : Placed s) (h : s.step ch = some s') : Placed s' := by
  cases (step_cases h).2 with
  | call c hs =>
    cases c with
    | push v =>
      simp only [St.doCall, St.push]
      split
      · exact hi.keep (by simp [St.enter, places]) (by simp [St.enter, subs, Frame.sub]) (by rfl) (by rfl)
      split
      · exact hi.keep (by simp [St.enter, places]) (by simp [St.enter, subs, Frame.sub]) (by rfl) (by rfl)
      split
      · exact hi.keep (by simp [St.enter, places]) (by simp [St.enter, subs, Frame.sub]) (by rfl) (by rfl)
      have h1 : Placed { s with total := s.total + 1, pending := s.pending ++ [⟨s.total + 1, 0, 0⟩] } := hi.keep rfl (.refl _) rfl rfl
      split
      · exact hi.keep (by rfl) (by simp [subs, Frame.sub]) (by rfl) (by rfl)
      split
      · exact h1.connect none rfl
      · exact h1
    | connect b =>
      cases b
      · exact hi.connect none rfl
      · have h1 : Placed { s with nextCb := s.nextCb + 1 } := hi.keep rfl (.refl _) rfl rfl
        exact h1.connect _ rfl
    | cancel n => exact hi.giveUp n 499 false
    | disconnect => exact hi.keep (by rfl) (by simp [St.doCall, subs, Frame.sub]) (by rfl) (by rfl)
  | event e _ he hs =>
    cases e with
    | connected ok =>
      simp only [St.doEvent] at he
      split at he
      · cases he
      split at he
      · cases he
        have hsb : subs (.bind :: s.stack) = subs s.stack := by simp [subs, Frame.sub]
        refine ⟨?_, fun p hp => ?_⟩
        · simp only [hsb]; exact hi.nodup
        · simp only [hsb] at hp
          have := hi.old p hp
          simp only; omega
      · cases he; exact hi.fail rfl
    | closed =>
      simp only [St.doEvent] at he
      split at he <;> cases he
      · exact hi.keep rfl (.refl _) rfl rfl
      · exact hi.fail (by simp [subs, Frame.sub])
    | data =>
      simp only [St.doEvent] at he
      split at he <;> cases he
      · exact hi
      · exact hi.keep (by rfl) (by simp [subs, Frame.sub]) (by rfl) (by rfl)
    | streamClosed sid =>
      simp only [St.doEvent, Option.some.injEq] at he; subst he
      exact hi.failRequest _ _ rfl
  | timer t _ he hs =>
    cases t with
    | connect j =>
      simp only [St.doTimer] at he
      split at he
      · cases he
      split at he
      · cases he; exact hi
      · cases he
        have h1 : Placed { s with trace := .late j s.attempts :: s.trace } := hi.keep (by simp [places]) (.refl _) rfl rfl
        exact h1.fail (by simp [subs, Frame.sub])
    | request n =>
      simp only [St.doTimer, Option.some.injEq] at he; subst he
      exact hi.giveUp n 408 true
  | ret r hs => exact hi.keep (by rfl) (by simp [hs, subs, Frame.sub]) (by rfl) (by rfl)
  | callback c j r hs =>
    cases c with
    | response sid =>
      simp only [St.doCallback]
      split
      · exact hi
      · exact hi.keep (by simp [St.enter, places]) (by simp [St.enter, subs, Frame.sub]) (by rfl) (by rfl)
    | shutdown => exact hi.keep (by rfl) (by simp [St.doCallback, subs, Frame.sub]) (by rfl) (by rfl)
  | go f r out hs hf =>
    cases f with
    | user => exact absurd rfl hf
    | procLoop =>
      simp only [St.runFrame]
      split
      · exact hi.keep (by rfl) (by simp [hs, subs, Frame.sub]) (by rfl) (by rfl)
      split
      · exact hi.keep (by rfl) (by simp [hs, subs, Frame.sub]) (by rfl) (by rfl)
      split
      · exact hi.keep (by rfl) (by simp [hs, subs, Frame.sub]) (by rfl) (by rfl)
      split
      · exact hi.keep rfl (.refl _) rfl rfl
      · next c ps _ _ _ _ =>
        have hsb : subs s.stack = subs r := by simp [hs, subs, Frame.sub]
        have hn := hi.nodup
        have ho := hi.old
        rw [hsb] at hn ho
        have hd : ∀ c : Ctx, subs (.submit c :: r) = c :: subs r := by intro c; simp [subs, Frame.sub]
        refine ⟨?_, fun p hp => ?_⟩
        · simp only [hd, List.map_cons]
          rw [List.perm_middle.nodup_iff, List.nodup_cons]
          refine ⟨fun e => ?_, hn⟩
          have := ho _ e
          simp only at this
          omega
        · simp only [hd, List.map_cons, List.mem_append, List.mem_cons] at hp
          simp only
          rcases hp with hp | rfl | hp
          · have := ho p (List.mem_append_left _ hp); omega
          · exact .inr ⟨rfl, by simp⟩
          · have := ho p (List.mem_append_right _ hp); omega
    | submit c =>
      have hsb : subs s.stack = c :: subs r := by simp [hs, subs, Frame.sub]
      have hq : subs (.procLoop :: r) = subs r := by simp [subs, Frame.sub]
      have key : Placed { s with trace := .sent c.call c.conn c.stream :: s.trace, stack := .procLoop :: r } := by
        have hn := hi.nodup
        have ho := hi.old
        rw [hsb, List.map_cons] at hn ho
        rw [List.perm_middle.nodup_iff] at hn
        refine ⟨?_, fun p hp => ?_⟩
        · simp only [hq, places, List.filterMap_cons, List.cons_append]
          exact hn
        · simp only [hq, places, List.filterMap_cons, List.cons_append] at hp
          refine ho p ?_
          simp only [List.mem_cons, List.mem_append] at hp ⊢
          rcases hp with hp | hp | hp
          · exact .inr (.inl hp)
          · exact .inl hp
          · exact .inr (.inr hp)
      simp only [St.runFrame]
      split
      · split
        · exact key.keep (by rfl) (.refl _) (by rfl) (by rfl)
        · exact key.keep (by rfl) (.refl _) (by rfl) (by rfl)
      · exact hi.keep (by rfl) (by rw [hsb]; simp [subs, Frame.sub]) (by rfl) (by rfl)
    | start =>
      simp only [St.runFrame]
      split
      · exact hi.keep (by rfl) (by simp [hs, subs, Frame.sub]) (by rfl) (by rfl)
      · exact hi.fail (by simp [hs, subs, Frame.sub])
    | reconnect =>
      simp only [St.runFrame]
      split
      · exact hi.connect none (by simp [hs, subs, Frame.sub])
      · exact hi.keep (by rfl) (by simp [hs, subs, Frame.sub]) (by rfl) (by rfl)
    | read j =>
      simp only [St.runFrame]
      split
      · exact hi.keep (by rfl) (by simp [St.connectionFailed, hs, subs, Frame.sub]) (by rfl) (by rfl)
      · exact hi.keep (by rfl) (by simp [hs, subs, Frame.sub]) (by rfl) (by rfl)
    | io => exact hi.keep (by rfl) (by simp [St.runFrame, hs, subs, Frame.sub]) (by rfl) (by rfl)
    | bind => exact hi.keep (by rfl) (by simp [St.runFrame, hs, subs, Frame.sub]) (by rfl) (by rfl)
    | reset c => exact hi.keep (by simp [St.runFrame, St.enter, places]) (by simp [St.runFrame, St.enter, hs, subs, Frame.sub]) (by rfl) (by rfl)
    | failAll => exact hi.keep (by rfl) (by simp [St.runFrame, hs, subs, Frame.sub]) (by rfl) (by rfl)
    | discEnd => exact hi.keep (by rfl) (by simp [St.runFrame, hs, subs, Frame.sub]) (by rfl) (by rfl)
    | process =>
      simp only [St.runFrame]
      split <;> exact hi.keep (by rfl) (by simp [hs, subs, Frame.sub]) (by rfl) (by rfl)
    | failList cs =>
      simp only [St.runFrame]
      split <;> exact hi.keep (by simp [St.enter, places]) (by simp [St.enter, hs, subs, Frame.sub]) (by rfl) (by rfl)
    | connLoop cs ok =>
      simp only [St.runFrame]
      split <;> exact hi.keep (by simp [St.enter, places]) (by simp [St.enter, hs, subs, Frame.sub]) (by rfl) (by rfl)
    | shutLoop =>
      simp only [St.runFrame]
      split <;> exact hi.keep (by simp [St.enter, places]) (by simp [St.enter, hs, subs, Frame.sub]) (by rfl) (by rfl)

theorem places_unique {t : List Ev} (hn : (places t).Nodup) {a b k i : Nat} (ha : .sent a k i ∈ t) (hb : .sent b k i ∈ t) : a = b := by
  induction t with
  | nil => cases ha
  | cons e t ih =>
    have hm : ∀ x, .sent x k i ∈ t → (k, i) ∈ places t := fun x hx => List.mem_filterMap.2 ⟨_, hx, rfl⟩
    have hn2 : (places t).Nodup := by
      cases e <;> simp only [places, List.filterMap_cons] at hn
      case sent => exact (List.nodup_cons.1 hn).2
      all_goals exact hn
    rcases List.mem_cons.1 ha with e1 | e1 <;> rcases List.mem_cons.1 hb with e2 | e2
    · rw [← e1] at e2; cases e2; rfl
    · subst e1
      have h2 : (places (.sent a k i :: t)).Nodup := hn
      simp only [places, List.filterMap_cons] at h2
      exact absurd (hm b e2) (List.nodup_cons.1 h2).1
    · subst e2
      have h2 : (places (.sent b k i :: t)).Nodup := hn
      simp only [places, List.filterMap_cons] at h2
      exact absurd (hm a e1) (List.nodup_cons.1 h2).1
    · exact ih hn2 e1 e2

/-- C161. In every history, no two requests are sent on the same stream of the same connection. -/
theorem C161_streams_unique (auto : Bool) (ms mp : Nat) (chs : List Choice) (s : St) (h : (St.init auto ms mp).run chs = some s) (a b k i : Nat)
    (ha : .sent a k i ∈ s.trace) (hb : .sent b k i ∈ s.trace) : a = b := by
  have hp : Placed s := run_induct (P := Placed) (fun s ch s' hi e => step_placed hi e) h ⟨by simp [St.init, places, subs], by simp [St.init, places, subs]⟩
  exact places_unique (List.nodup_append.1 hp.nodup).1 ha hb

/-! ### C162 -/

/-- C162 (partial). A polite run never crashes on a missing connection, never destroys a connection that is reading, and whenever the client is idle without a connection, no
request is on the wire. -/
theorem C162_no_crash_partial (auto : Bool) (ms mp : Nat) (chs : List Choice) (s : St) (h : (St.init auto ms mp).run chs = some s)
    (hp : PoliteRun (St.init auto ms mp) chs) : s.crashed = false ∧ s.freed = false ∧ (s.stack = [] → s.connected = false → s.active = []) := by
  obtain ⟨hl, hi⟩ := run_inv h (init_live auto ms mp) (init_inv auto ms mp) hp
  refine ⟨hi.crashed, hl.freed, fun hs hc => ?_⟩
  rcases List.eq_nil_or_concat s.active with e | ⟨l, a, e⟩
  · exact e
  · rcases hi.active (by simp [e]) with e | e
    · rw [hc] at e; cases e
    · rw [hs] at e; cases e

/-- What is missing: a request cannot be submitted; its callback disconnects and sends another; the loop goes on without a connection. -/
theorem C162_crash_partial : ∃ chs s, (St.init true 10 10).run chs = some s ∧ s.crashed = true :=
  ⟨[.call (.push true), .go true, .event (.connected true), .go true, .go true, .go true, .go true, .go false, .go true,
    .call .disconnect, .go true, .go true, .go true, .go true, .call (.push true), .go true, .ret, .go true], _, rfl, by decide⟩

/-- What is missing: the endpoint reports the loss of the connection from within a send outside of a read, as client.h says it can; the callback of the failed
request tries again; the loop goes on without a connection. -/
theorem C162_crash_in_send_partial : ∃ chs s, (St.init true 10 10).run chs = some s ∧ s.crashed = true :=
  ⟨[.call (.push true), .go true, .call (.push true), .event (.connected true), .go true, .go true, .go true, .go true, .event .closed, .go true, .go true, .go true,
    .call (.push true), .go true, .ret, .go true, .go true, .go true, .go true], _, rfl, by decide⟩

end Verif.Cli3
