import Verif.Wsc.Lemmas5

/-! # C175-C179. WebSocket coroutines -/

namespace Verif.Wsc

/-! ## C175. Frames -/

/-- C175. In every history the frames handed out are, in order and at most once each, frames that came on the connection. -/
theorem C175_in_order (sd : Side) (is : List Input) : (handed (run sd is).log).Sublist (arrived (run sd is).log) :=
  (List.sublist_append_left _ _).trans (All.run sd is).j.sub

/-- C175. If the unread frames never exceeded the limit, and no waiting coroutine was destroyed, no frame is lost: what was handed out is what came first. -/
theorem C175_none_lost (sd : Side) (is : List Input) (hf : Fits (run sd is).log) (hd : ∀ id, .destroyed id ∉ (run sd is).log) : handed (run sd is).log <+: arrived (run sd is).log :=
  ⟨_, ((All.run sd is).j.exact hf hd).1⟩

/-- C175. Under the same conditions a `receive` waits only while there is nothing unread. -/
theorem C175_waiting (sd : Side) (is : List Input) (hf : Fits (run sd is).log) (hd : ∀ id, .destroyed id ∉ (run sd is).log) (id : Nat) (hc : .call id .receive ∈ (run sd is).log) (hw : ∀ e ∈ (run sd is).log, e.answers id = false) :
    handed (run sd is).log = arrived (run sd is).log := by
  have a := All.run sd is
  have e0 : ends id (run sd is).log = 0 := by
    unfold ends
    rw [List.length_eq_zero_iff, List.filter_eq_nil_iff]
    intro e he h; rw [hw e he] at h; cases h
  have hr : (run sd is).recv = some id := by
    rcases a.w.open_ id .receive hc with h | h | h
    · omega
    · rcases (a.w.dead id h).2 with h | h
      · exact absurd h (hd id)
      · omega
    · exact h
  have hp := a.f.recv (by rw [hr]; simp)
  have := (a.j.exact hf hd).1
  rw [hp] at this
  simpa using this

/-- C175. Under the same conditions, while the connection is up, `receive` gives at once the first unread frame, if there is one. -/
theorem C175_next (sd : Side) (is : List Input) (hf : Fits (run sd is).log) (hd : ∀ id, .destroyed id ∉ (run sd is).log) (hl : losses (run sd is).log = 0) (f : Frame) (fs : List Frame)
    (hn : arrived (run sd is).log = handed (run sd is).log ++ f :: fs) :
    ∃ id, (run sd (is ++ [.call .receive])).log = .resumed id (.frame f) :: .call id .receive :: (run sd is).log := by
  have a := All.run sd is
  obtain ⟨e1, e2⟩ := a.j.exact hf hd
  rw [hl] at e2
  have hall : ∀ x ∈ (run sd is).pending, real x = true := by
    intro x hx
    cases h : real x with
    | true => rfl
    | false =>
      have : x ∈ (run sd is).pending.filter (fun f => !real f) := List.mem_filter.2 ⟨hx, by simp [h]⟩
      have := List.length_pos_of_mem this
      omega
  rw [List.filter_eq_self.2 hall, hn, List.append_cancel_left_eq] at e1
  refine ⟨(run sd is).next, ?_⟩
  have hrun : run sd (is ++ [.call .receive]) = step sd (run sd is) (.call .receive) := by simp [run]
  rw [hrun]
  show (receive ((run sd is).begin .receive) (run sd is).next).log = _
  have hnd : (run sd is).next ∉ (run sd is).done := fun h => absurd (a.w.freshD _ h) (by omega)
  have hnx : (run sd is).next ∉ (run sd is).dead := fun h => absurd (a.w.dead _ h).1 (by omega)
  have hb : ((run sd is).begin .receive).pending = f :: fs := e1
  unfold receive
  rw [hb]
  dsimp only
  unfold fire
  rw [if_neg (by simp [St.begin, St.add, hnd, hnx])]
  rfl

/-- Three frames, read one by one, the last by a coroutine that waited. -/
def reading : List Input := [.call .connect, .net .connected, .net (.message true b!"a"), .net (.ping b!"b"), .call .receive, .call .receive, .call .receive, .net (.closed [3, 232, 120])]

example : arrived (run .client reading).log = [{ kind := .message, payload := b!"a", isText := true }, { kind := .ping, payload := b!"b" }, { kind := .close, code := 1000, reason := b!"x" }] ∧
    handed (run .client reading).log = arrived (run .client reading).log := by decide +kernel

example : Fits (run .client reading).log ∧ ∀ id, .destroyed id ∉ (run .client reading).log := by
  refine ⟨?_, ?_⟩
  · have : (run .client reading).log = [.resumed 3 (.frame { kind := .close, code := 1000, reason := b!"x" }), .wroteClose [3, 232, 120], .net (.closed [3, 232, 120]), .call 3 .receive, .resumed 2 (.frame { kind := .ping, payload := b!"b" }), .call 2 .receive,
        .resumed 1 (.frame { kind := .message, payload := b!"a", isText := true }), .call 1 .receive, .net (.ping b!"b"), .net (.message true b!"a"), .resumed 0 (.connect true), .net .connected, .call 0 .connect] := by decide +kernel
    rw [this]
    refine ⟨by decide, by decide, by decide, by decide, by decide, by decide, by decide, by decide, by decide, by decide, by decide, by decide, by decide, trivial⟩
  · intro id h
    have : (run .client reading).log.all (fun e => match e with | .destroyed _ => false | _ => true) = true := by decide +kernel
    exact absurd (List.all_eq_true.1 this _ h) (by simp)

/-- A frame is unread; a coroutine waits for the next. -/
example : arrived (run .session [.net (.ping b!"a")]).log = handed (run .session [.net (.ping b!"a")]).log ++ [{ kind := .ping, payload := b!"a" }] ∧ losses (run .session [.net (.ping b!"a")]).log = 0 := by decide +kernel
example : (run .session [.net (.ping b!"a"), .call .receive, .call .receive]).log = [.call 1 .receive, .resumed 0 (.frame { kind := .ping, payload := b!"a" }), .call 0 .receive, .net (.ping b!"a")] := by decide +kernel

/-- Over the limit the oldest is dropped. -/
example : handed (run .session [.cap 1, .net (.ping b!"a"), .net (.ping b!"b"), .call .receive]).log = [{ kind := .ping, payload := b!"b" }] := by decide +kernel

/-! ## C176. Awaiters -/

/-- C176. A `co_await` ends at most once: it is resumed, or it throws, never both, never twice. -/
theorem C176_once (sd : Side) (is : List Input) (id : Nat) : ((run sd is).log.filter (Ev.answers id)).length ≤ 1 := (All.run sd is).w.once id

/-- C176. The result is that of a call that was made, of its type. -/
theorem C176_suits (sd : Side) (is : List Input) (id : Nat) (r : Result) (h : .resumed id r ∈ (run sd is).log) : ∃ c, .call id c ∈ (run sd is).log ∧ Suits c r := (All.run sd is).w.suits id r h

/-- C176. Results tell the truth: `connect` is true only when the connection has just been established; `connect` or `close_async` false, and a notice that the connection is gone, only after a final report or for a new
`connect`; `close_async` true only after the peer's Close or a final report. -/
theorem C176_true (sd : Side) (is : List Input) (a b : List Ev) (id : Nat) (r : Result) (h : (run sd is).log = a ++ .resumed id r :: b) : True_ sd b r := (Told.run sd is).at a id r b h

/-- C176. Nobody waits for a connection that is gone: after a final report every call is answered, or its coroutine was destroyed, until the next `connect`. -/
theorem C176_released (sd : Side) (is : List Input) (hl : lost sd (run sd is).log = true) (id : Nat) (c : Call) (hc : .call id c ∈ (run sd is).log) : (∃ e ∈ (run sd is).log, e.answers id = true) ∨ .destroyed id ∈ (run sd is).log := by
  have a := All.run sd is
  have ex : 1 ≤ ends id (run sd is).log → ∃ e ∈ (run sd is).log, e.answers id = true := by
    intro h
    unfold ends at h
    obtain ⟨e, he⟩ := List.exists_mem_of_length_pos h
    exact ⟨e, List.mem_filter.1 he⟩
  obtain ⟨h1, h2, h3⟩ := a.f.disc (by rw [a.f.lost]; exact hl)
  rcases a.w.open_ id c hc with h | h | h
  · exact .inl (ex h)
  · rcases (a.w.dead id h).2 with h | h
    · exact .inr h
    · exact .inl (ex h)
  · cases c with
    | connect => rw [h1] at h; cases h
    | receive => rw [h2] at h; cases h
    | close x y => rw [h3] at h; cases h

/-- Three coroutines wait; the connection is lost. -/
example : (run .client [.call .connect, .call .receive, .call (.close 1000 []), .net .disconnected]).log =
    [.resumed 2 (.close true), .resumed 1 (.frame {}), .resumed 0 (.connect false), .net .disconnected, .wroteClose [3, 232], .call 2 (.close 1000 []), .call 1 .receive, .call 0 .connect] := by decide +kernel

/-- A new `connect` releases those that wait for the old one. -/
example : (run .client [.call .connect, .call .receive, .call .connect, .net .connected]).log =
    [.resumed 2 (.connect true), .net .connected, .resumed 0 (.connect false), .resumed 1 (.frame {}), .call 2 .connect, .call 1 .receive, .call 0 .connect] := by decide +kernel

/-! ## C177. The queue -/

/-- C177. The queue of unread frames is never longer than the largest limit that was set (1024 at the start). -/
theorem C177_bounded (sd : Side) (is : List Input) : (run sd is).pending.length ≤ capMax (run sd is).log := (All.run sd is).f.len

/-- C177. While the queue is not longer than the limit, no report makes it longer than the limit. -/
theorem C177_limit (sd : Side) (is : List Input) (n : Net) (h : (run sd is).pending.length ≤ capOf (run sd is).log) : (run sd (is ++ [.net n])).pending.length ≤ capOf (run sd is).log := by
  have a := All.run sd is
  have a' := All.run sd (is ++ [.net n])
  have hrun : run sd (is ++ [.net n]) = step sd (run sd is) (.net n) := by simp [run]
  rw [hrun]
  rw [← a.f.cap] at h ⊢
  generalize run sd is = s at *
  have del : ∀ (t : St) (f : Frame), t.pending = s.pending → t.cap = s.cap → (deliver t f).pending.length ≤ s.cap := by
    intro t f h1 h2
    rcases deliver_cases t f with ⟨_, e⟩ | ⟨_, _, e⟩ | ⟨_, hc, e⟩ <;> rw [e]
    · rw [(take_fields t _).2.1.1, h1]; exact h
    · rw [h1]; exact h
    · dsimp only
      rw [h1, h2]
      rw [h2] at hc
      split
      · simp; omega
      · simp; omega
  have three : ∀ (t : St) (b : Bool), t.pending = s.pending → (takeClos (takeRecv (takeConn t (.connect false)) (.frame {})) (.close b)).pending.length ≤ s.cap := by
    intro t b h1
    rw [(takes_log sd t _ _ _).1, h1]; exact h
  show (onNet sd (s.add (.net n)) n).pending.length ≤ s.cap
  cases n with
  | connected => cases sd with
    | client => show (takeConn _ _).pending.length ≤ _; rw [(take_fields _ _).1.1]; exact h
    | session => exact h
  | error => cases sd with
    | client => exact three { s.add (.net .error) with disc := true } false rfl
    | session => exact h
  | message t p => exact del _ _ rfl rfl
  | ping p => exact del _ _ rfl rfl
  | pong p => exact del _ _ rfl rfl
  | closed p =>
    show (takeClos (deliver _ _) _).pending.length ≤ _
    rw [(take_fields _ _).2.2.1]
    split
    · exact del _ _ rfl rfl
    · exact del _ _ rfl rfl
  | disconnected => cases sd with
    | client => exact three { s.add (.net .disconnected) with disc := true, sent := false } true rfl
    | session =>
      show (takeClos (deliver _ _) _).pending.length ≤ _
      rw [(take_fields _ _).2.2.1]
      exact del _ _ rfl rfl
  | violation p => cases sd with
    | client => exact three { (s.add (.net (.violation p))).add (.wroteClose p) with sent := true, disc := true } false rfl
    | session => exact h

/-- A lower limit does not shorten the queue: a fresh frame takes the place of one old frame. -/
example : (run .client [.call .connect, .net (.ping b!"a"), .net (.ping b!"b"), .net (.ping b!"c"), .cap 1, .net (.ping b!"d")]).pending.length = 3 := by decide +kernel

/-! ## C178. Close frames -/

/-- C178, the part that holds. When the peer's Close comes it is answered with the same payload if no Close frame was written since the connection was begun or lost, and not otherwise: for every client, and for a session
whose peer broke no rule and whose closes had statuses that may be sent. Missing: sessions in general (`C178_no_echo_partial`), and that at most one Close frame is written at all (`C178_twice_partial`). -/
theorem C178_echo_partial (sd : Side) (is : List Input) (hs : sd = .client ∨ Plain (run sd is).log) (p : Bytes) :
    ∃ rs, (run sd (is ++ [.net (.closed p)])).log = rs ++ (if closes (run sd is).log = 0 then [.wroteClose p] else []) ++ .net (.closed p) :: (run sd is).log ∧ ∀ e ∈ rs, ∃ id r, e = .resumed id r := by
  have k := K.run sd is hs
  have hrun : run sd (is ++ [.net (.closed p)]) = step sd (run sd is) (.net (.closed p)) := by simp [run]
  rw [hrun]
  generalize run sd is = s at *
  have key : ∀ t : St, ∃ rs, (takeClos (deliver t (closeFrame p)) (.close true)).log = rs ++ t.log ∧ ∀ e ∈ rs, ∃ id r, e = .resumed id r := by
    intro t
    have h1 : ∃ rs, (deliver t (closeFrame p)).log = rs ++ t.log ∧ ∀ e ∈ rs, ∃ id r, e = .resumed id r := by
      rcases deliver_cases t (closeFrame p) with ⟨_, e⟩ | ⟨_, _, e⟩ | ⟨_, _, e⟩ <;> rw [e]
      · rcases takeRecv_log t (.frame (closeFrame p)) with h | ⟨id, _, h⟩
        · exact ⟨[], h, fun _ h => (by cases h)⟩
        · exact ⟨[_], h, fun e h => (by rw [List.mem_singleton] at h; exact ⟨_, _, h⟩)⟩
      · exact ⟨[], rfl, fun _ h => (by cases h)⟩
      · exact ⟨[], rfl, fun _ h => (by cases h)⟩
    obtain ⟨rs, e1, e2⟩ := h1
    rcases takeClos_log (deliver t (closeFrame p)) (.close true) with h | ⟨id, _, h⟩
    · exact ⟨rs, by rw [h, e1], e2⟩
    · refine ⟨_ :: rs, by rw [h, e1]; rfl, fun e he => ?_⟩
      rcases List.mem_cons.1 he with he | he
      · exact ⟨_, _, he⟩
      · exact e2 e he
  show ∃ rs, (takeClos (deliver (if (s.add (.net (.closed p))).sent then s.add (.net (.closed p)) else { (s.add (.net (.closed p))).add (.wroteClose p) with sent := true }) (closeFrame p)) (.close true)).log = _ ∧ _
  by_cases hz : closes s.log = 0
  · have : (s.add (.net (.closed p))).sent = false := by show s.sent = false; rw [k]; simp [hz]
    rw [this, if_pos hz]
    obtain ⟨rs, e1, e2⟩ := key { (s.add (.net (.closed p))).add (.wroteClose p) with sent := true }
    exact ⟨rs, by simp only [Bool.false_eq_true, if_false]; rw [e1]; simp [St.add], e2⟩
  · have : (s.add (.net (.closed p))).sent = true := by show s.sent = true; rw [k]; simp [hz]
    rw [this, if_neg hz]
    obtain ⟨rs, e1, e2⟩ := key (s.add (.net (.closed p)))
    exact ⟨rs, by simp only [if_true]; rw [e1]; simp [St.add], e2⟩

example : Plain (run .session [.net (.message true b!"a"), .call (.close 1000 b!"bye")]).log ∧ closes (run .session [.net (.message true b!"a"), .call (.close 1000 b!"bye")]).log = 1 := by
  have : (run .session [.net (.message true b!"a"), .call (.close 1000 b!"bye")]).log = [.wroteClose ([3, 232] ++ b!"bye"), .call 0 (.close 1000 b!"bye"), .net (.message true b!"a")] := by decide +kernel
  rw [this]
  refine ⟨⟨fun p h => ?_, fun id x y h => ?_⟩, rfl⟩
  · simp at h
  · simp only [List.mem_cons, reduceCtorEq, Ev.call.injEq, Call.close.injEq, false_or, List.not_mem_nil, or_false] at h
    obtain ⟨-, rfl, rfl⟩ := h
    decide +kernel

/-- C178, a counterexample: a `close_async` after the peer's Close has been answered writes a second Close frame. -/
theorem C178_twice_partial (sd : Side) : (run sd [.net (.closed [3, 232]), .call (.close 1000 [])]).log = [.wroteClose [3, 232], .call 0 (.close 1000 []), .wroteClose [3, 232], .net (.closed [3, 232])] := by
  cases sd <;> decide +kernel

/-- C178, a counterexample: a `close_async` with a status that may not be sent throws, and every later one throws too, while the connection is up and nothing is reported. -/
theorem C178_stuck_partial (sd : Side) (st : UInt16) (rs : Bytes) (h : Ws.messageClose st rs = none) (n : Nat) (st' : UInt16) (rs' : Bytes) :
    ∃ id, (run sd (.call (.close st rs) :: List.replicate (n + 1) (.call (.close st' rs')))).log.take 2 = [.threw id, .call id (.close st' rs')] := by
  have first : ∃ t, step sd {} (.call (.close st rs)) = t ∧ t.clos = some 0 ∧ t.disc = false := by
    refine ⟨_, rfl, ?_, ?_⟩
    · simp [step, St.begin, St.add, closeAsync, h, throw_]
    · simp [step, St.begin, St.add, closeAsync, h, throw_]
  obtain ⟨t, ht, hc, _⟩ := first
  have more : ∀ (m : Nat) (u : St), u.clos = some 0 → ∃ id, ((List.replicate (m + 1) (Input.call (.close st' rs'))).foldl (step sd) u).log.take 2 = [.threw id, .call id (.close st' rs')] := by
    intro m
    induction m with
    | zero =>
      intro u hu
      refine ⟨u.next, ?_⟩
      simp [List.replicate, step, St.begin, St.add, closeAsync, hu, throw_]
    | succ m ih =>
      intro u hu
      rw [List.replicate_succ, List.foldl_cons]
      apply ih
      simp [step, St.begin, St.add, closeAsync, hu, throw_]
  show ∃ id, ((List.replicate (n + 1) _).foldl (step sd) (step sd {} (.call (.close st rs)))).log.take 2 = _
  rw [ht]
  exact more n t hc

/-- 1005 may not be sent. -/
example : Ws.messageClose 1005 [] = none := by decide +kernel

/-- C178, a counterexample: after such a throw a session does not answer the peer's Close, though it wrote none. -/
theorem C178_no_echo_partial : (run .session [.call (.close 1005 []), .net (.closed [3, 232])]).log = [.net (.closed [3, 232]), .threw 0, .call 0 (.close 1005 [])] := by decide +kernel

/-! ## C179. One receiver -/

/-- C179. A `receive` while another waits throws, and nothing else happens: the other goes on waiting and is given the next frame. -/
theorem C179_second (sd : Side) (is : List Input) (j : Nat) (hj : .call j .receive ∈ (run sd is).log) (hw : ∀ e ∈ (run sd is).log, e.answers j = false) (hd : .destroyed j ∉ (run sd is).log) :
    (∃ id, (run sd (is ++ [.call .receive])).log = .threw id :: .call id .receive :: (run sd is).log) ∧
    ∀ t p, ∃ id, (run sd (is ++ [.call .receive, .net (.message t p)])).log = .resumed j (.frame { kind := .message, payload := p, isText := t }) :: .net (.message t p) :: .threw id :: .call id .receive :: (run sd is).log := by
  have a := All.run sd is
  have e0 : ends j (run sd is).log = 0 := by
    unfold ends
    rw [List.length_eq_zero_iff, List.filter_eq_nil_iff]
    intro e he h; rw [hw e he] at h; cases h
  have hnd : j ∉ (run sd is).dead := by
    intro h
    rcases (a.w.dead j h).2 with h | h
    · exact hd h
    · omega
  have hdn : j ∉ (run sd is).done := fun h => by have := a.w.done j h; omega
  have hr : (run sd is).recv = some j := by
    rcases a.w.open_ j .receive hj with h | h | h
    · omega
    · exact absurd h hnd
    · exact h
  have hp := a.f.recv (by rw [hr]; simp)
  have hdisc : (run sd is).disc = false := by
    cases h : (run sd is).disc with
    | false => rfl
    | true => have := (a.f.disc h).2.1; rw [hr] at this; cases this
  have hlt : j < (run sd is).next := a.w.fresh j _ hj
  have h1 : run sd (is ++ [.call .receive]) = step sd (run sd is) (.call .receive) := by simp [run]
  have h2 : ∀ t p, run sd (is ++ [.call .receive, .net (.message t p)]) = step sd (step sd (run sd is) (.call .receive)) (.net (.message t p)) := by simp [run]
  have h3 : step sd (run sd is) (.call .receive) = throw_ ((run sd is).begin .receive) (run sd is).next := by
    show receive _ _ = _
    unfold receive
    have e1 : ((run sd is).begin .receive).pending = [] := hp
    have e2 : ((run sd is).begin .receive).disc = false := hdisc
    have e3 : ((run sd is).begin .receive).recv = some j := hr
    rw [e1, e2, e3]
    rfl
  refine ⟨⟨(run sd is).next, by rw [h1, h3]; rfl⟩, fun t p => ⟨(run sd is).next, ?_⟩⟩
  rw [h2, h3]
  show (deliver _ _).log = _
  unfold deliver
  have e3 : ((throw_ ((run sd is).begin .receive) (run sd is).next).add (.net (.message t p))).recv = some j := hr
  rw [e3]
  dsimp only
  unfold fire
  rw [if_neg]
  · rfl
  · simp only [throw_, St.begin, St.add, List.contains_cons, Bool.or_eq_true, beq_iff_eq, List.contains_iff_mem, not_or]
    exact ⟨⟨by omega, hnd⟩, hdn⟩

example : .call 0 .receive ∈ (run .session [.call .receive]).log := by decide +kernel

/-- C179, a counterexample to "a receiver can be cancelled": once a waiting coroutine is destroyed, `receive` throws until the next frame, and that frame is given to nobody. -/
theorem C179_cancelled_partial (sd : Side) (t : Bool) (p : Bytes) : (run sd [.call .receive, .destroy 0, .call .receive, .net (.message t p), .call .receive]).log =
    [.call 2 .receive, .net (.message t p), .threw 1, .call 1 .receive, .destroyed 0, .call 0 .receive] := by
  cases sd <;> simp [run, step, St.begin, St.add, receive, throw_, onNet, deliver, fire]

end Verif.Wsc
