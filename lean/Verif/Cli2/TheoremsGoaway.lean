import Verif.Cli2.TheoremsConnect

/-! C141: a GOAWAY without error, `2/client.cpp` 493-541 and 758-772. -/

namespace Verif.Cli2

/-- Since the last connection was established, a GOAWAY without error came. -/
def goneAway : List Ev → Bool
  | [] => false
  | .goaway _ :: _ => true
  | .up :: _ => false
  | _ :: t => goneAway t

theorem goneAway_append (post pre : List Ev) (last : Nat) (h : .up ∉ post) : goneAway (post ++ .goaway last :: pre) = true := by
  induction post with
  | nil => rfl
  | cons e post ih =>
    simp only [List.mem_cons, not_or] at h
    have := ih h.2
    cases e <;> simp_all [goneAway]

/-- Frames that see to it that the connection is closed. -/
def Frame.closes : Frame → Bool
  | .disc | .gone | .lostEnd => true
  | _ => false

/-- Frames that notice that nothing is left on the wire. -/
def Frame.drains : Frame → Bool
  | .finish | .afterComplete => true
  | f => f.closes

structure Away (s : St) : Prop where
  /-- a GOAWAY is known as long as the connection is up -/
  flag : goneAway s.trace = true → s.isConnected = true → s.goaway = true
  /-- nothing is being sent after a GOAWAY -/
  quiet : goneAway s.trace = true → .sendLoop ∉ s.stack
  /-- requests are failed at once only if the connection is closed, too -/
  shut : s.isConnected = true → .failAll ∈ s.stack → ∃ f ∈ s.stack, f.closes = true
  /-- nothing left on the wire is noticed -/
  drained : s.isConnected = true → s.goaway = true → s.active = [] → ∃ f ∈ s.stack, f.drains = true
  /-- no send follows a GOAWAY on the same connection -/
  log : ∀ post pre n a st, s.trace = post ++ .sent n a st :: pre → goneAway pre = false

theorem away_init (auto : Bool) (ms mp : Nat) : Away (St.init auto ms mp) :=
  ⟨fun h => (by cases h), fun h => (by cases h), fun h => (by cases h), fun h => (by cases h), fun post pre n a st h => (by simp [St.init] at h)⟩

/-- An event that is neither a send, nor a GOAWAY, nor a new connection. -/
def Ev.plain : Ev → Bool
  | .done _ _ | .connected _ _ => true
  | _ => false

theorem away_log {s : St} {t : List Ev} (h : Away s) (ht : t = s.trace ∨ ∃ e, e.plain = true ∧ t = e :: s.trace) :
    goneAway t = goneAway s.trace ∧ ∀ post pre n a st, t = post ++ .sent n a st :: pre → goneAway pre = false := by
  rcases ht with rfl | ⟨e, he, rfl⟩
  · exact ⟨rfl, h.log⟩
  · refine ⟨by cases e <;> simp_all [goneAway, Ev.plain], ?_⟩
    intro post pre n a st hh
    cases post with
    | nil => simp at hh; rw [hh.1] at he; cases he
    | cons x post => simp at hh; exact h.log post pre n a st hh.2

/-- A step that keeps the flags and what is on the wire. `old` is the stack before, of which `f` was on top. -/
theorem away_keep {s s' : St} (h : Away s) (f rest : List Frame) (hs : s.stack = f ++ rest) (hf : ∀ x ∈ f, x.drains = false)
    (hc : s'.isConnected = s.isConnected) (hg : s'.goaway = s.goaway) (ha : s'.active = [] → s.active = [])
    (ht : s'.trace = s.trace ∨ ∃ e, e.plain = true ∧ s'.trace = e :: s.trace)
    (new : List Frame) (hst : s'.stack = new ++ rest) (hn : .sendLoop ∉ new ∨ .sendLoop ∈ s.stack ∨ goneAway s.trace = false)
    (hfa : .failAll ∉ new) : Away s' := by
  obtain ⟨g, l⟩ := away_log h ht
  have keep : ∀ p : Frame → Bool, (∀ x ∈ f, p x = false) → (∃ x ∈ s.stack, p x = true) → ∃ x ∈ s'.stack, p x = true := by
    rintro p hp ⟨x, hx, hx'⟩
    rw [hs] at hx
    rcases List.mem_append.1 hx with hx | hx
    · rw [hp x hx] at hx'; cases hx'
    · exact ⟨x, by rw [hst]; exact List.mem_append_right _ hx, hx'⟩
  refine ⟨?_, ?_, ?_, ?_, l⟩
  · rw [g, hc, hg]; exact h.flag
  · rw [g, hst]
    intro hh hm
    rcases List.mem_append.1 hm with hm | hm
    · rcases hn with hn | hn | hn
      · exact hn hm
      · exact h.quiet hh hn
      · rw [hh] at hn; cases hn
    · exact h.quiet hh (by rw [hs]; exact List.mem_append_right _ hm)
  · rw [hc, hst]
    intro h1 h2
    rcases List.mem_append.1 h2 with h2 | h2
    · exact absurd h2 hfa
    · rw [← hst]
      refine keep _ ?_ (h.shut h1 (by rw [hs]; exact List.mem_append_right _ h2))
      intro x hx
      have := hf x hx
      cases x <;> simp_all [Frame.drains, Frame.closes]
  · rw [hc, hg]
    intro h1 h2 h3
    exact keep _ hf (h.drained h1 h2 (ha h3))

/-- A step after which the connection is down. -/
theorem away_down {s s' : St} (h : Away s) (hc : s'.isConnected = false)
    (ht : s'.trace = s.trace ∨ ∃ e, e.plain = true ∧ s'.trace = e :: s.trace)
    (hq : .sendLoop ∈ s'.stack → .sendLoop ∈ s.stack) : Away s' := by
  obtain ⟨g, l⟩ := away_log h ht
  have no : s'.isConnected ≠ true := by rw [hc]; simp
  exact ⟨fun _ h => absurd h no, fun hh hm => h.quiet (g ▸ hh) (hq hm), fun h => absurd h no, fun h => absurd h no, l⟩

theorem away_connect {s : St} (h : Away s) (t : St) (cb : Option Nat) (f : List Frame) (rest : List Frame) (hs : s.stack = f ++ rest)
    (hf : ∀ x ∈ f, x.drains = false)
    (h1 : t.isConnected = s.isConnected) (h2 : t.goaway = s.goaway) (h3 : t.active = s.active) (h4 : t.trace = s.trace) :
    Away (t.connect cb rest) := by
  have key : ∀ u : St, u.isConnected = s.isConnected → u.goaway = s.goaway → u.active = s.active →
      (u.trace = s.trace ∨ ∃ e, e.plain = true ∧ u.trace = e :: s.trace) → (u.stack = rest ∨ u.stack = .user :: rest) → Away u := by
    intro u g1 g2 g3 g4 g5
    rcases g5 with g5 | g5
    · exact away_keep h f rest hs hf g1 g2 (by rw [g3]; exact id) g4 [] g5 (.inl (by simp)) (by simp)
    · exact away_keep h f rest hs hf g1 g2 (by rw [g3]; exact id) g4 [.user] g5 (.inl (by simp)) (by simp)
  unfold St.connect
  split
  · split
    · exact key _ h1 h2 h3 (.inr ⟨_, rfl, congrArg (_ :: ·) h4⟩) (.inr rfl)
    · exact key _ h1 h2 h3 (.inl h4) (.inl rfl)
  · split <;> exact key _ h1 h2 h3 (.inl h4) (.inl rfl)

theorem away_failRequest {s : St} (h : Away s) (sid status : Nat) (f : List Frame) (new rest : List Frame) (hs : s.stack = f ++ rest)
    (hf : ∀ x ∈ f, x.drains = false) (hn : ∀ x ∈ new, x ≠ .sendLoop ∧ x ≠ .failAll) : Away (s.failRequest sid status (new ++ rest)) := by
  have keep : ∀ (u : St) (p : Frame → Bool), (∀ x ∈ rest, x ∈ u.stack) → (∀ x ∈ f, p x = false) → (∃ x ∈ s.stack, p x = true) → ∃ x ∈ u.stack, p x = true := by
    rintro u p hu hp ⟨x, hx, hx'⟩
    rw [hs] at hx
    rcases List.mem_append.1 hx with hx | hx
    · rw [hp x hx] at hx'; cases hx'
    · exact ⟨x, hu x hx, hx'⟩
  have cl : ∀ x ∈ f, x.closes = false := by
    intro x hx
    have := hf x hx
    cases x <;> simp_all [Frame.drains, Frame.closes]
  unfold St.failRequest
  split
  · refine ⟨h.flag, ?_, ?_, ?_, h.log⟩
    · intro hh hm
      rcases List.mem_append.1 hm with hm | hm
      · exact (hn _ hm).1 rfl
      · exact h.quiet hh (by rw [hs]; exact List.mem_append_right _ hm)
    · intro e1 e2
      rcases List.mem_append.1 e2 with hm | hm
      · exact absurd rfl (hn _ hm).2
      · exact keep _ _ (fun x hx => List.mem_append_right _ hx) cl (h.shut e1 (by rw [hs]; exact List.mem_append_right _ hm))
    · intro e1 e2 e3
      exact keep _ _ (fun x hx => List.mem_append_right _ hx) hf (h.drained e1 e2 e3)
  · next c _ =>
    obtain ⟨g, l⟩ := away_log h (t := .done c.call (.error status) :: s.trace) (.inr ⟨_, rfl, rfl⟩)
    refine ⟨?_, ?_, ?_, fun _ _ _ => ⟨.finish, by simp [St.enter], rfl⟩, l⟩
    · intro hh; exact h.flag (g ▸ hh)
    · intro hh hm
      simp only [St.enter, List.mem_cons, reduceCtorEq, false_or] at hm
      rcases List.mem_append.1 hm with hm | hm
      · exact (hn _ hm).1 rfl
      · exact h.quiet (g ▸ hh) (by rw [hs]; exact List.mem_append_right _ hm)
    · intro e1 e2
      simp only [St.enter, List.mem_cons, reduceCtorEq, false_or] at e2
      rcases List.mem_append.1 e2 with hm | hm
      · exact absurd rfl (hn _ hm).2
      · exact keep _ _ (fun x hx => by simp [St.enter, hx]) cl (h.shut e1 (by rw [hs]; exact List.mem_append_right _ hm))

theorem away_frame {s : St} (h : Away s) (out : Send) (f : Frame) (rest : List Frame) (hs : s.stack = f :: rest) (hu : f ≠ .user) :
    Away (s.runFrame out rest f) := by
  have kp : f.drains = false → ∀ (new : List Frame) (s' : St), s'.isConnected = s.isConnected → s'.goaway = s.goaway → (s'.active = [] → s.active = []) →
      (s'.trace = s.trace ∨ ∃ e, e.plain = true ∧ s'.trace = e :: s.trace) → s'.stack = new ++ rest →
      (.sendLoop ∉ new ∨ .sendLoop ∈ s.stack ∨ goneAway s.trace = false) → .failAll ∉ new → Away s' :=
    fun hf new s' e1 e2 e3 e4 e5 e6 e7 => away_keep h [f] rest hs (by simpa using hf) e1 e2 e3 e4 new e5 e6 e7
  have sub : ∀ x, x ∈ rest → x ∈ s.stack := fun x hx => by rw [hs]; exact List.mem_cons_of_mem _ hx
  cases f with
  | user => exact absurd rfl hu
  | process =>
    simp only [St.runFrame]
    split
    · exact kp rfl [] _ rfl rfl id (.inl rfl) rfl (.inl (by simp)) (by simp)
    · next hb =>
      refine kp rfl [.sendLoop] _ rfl rfl id (.inl rfl) rfl (.inr (.inr ?_)) (by simp)
      simp only [Bool.or_eq_true, Bool.not_eq_true', not_or, Bool.not_eq_false, Bool.not_eq_true] at hb
      cases hg : goneAway s.trace
      · rfl
      · have := h.flag hg hb.1.1
        rw [hb.2] at this; cases this
  | sendLoop =>
    have hin : .sendLoop ∈ s.stack := by rw [hs]; exact List.mem_cons_self ..
    have hga : goneAway s.trace = false := by
      cases hg : goneAway s.trace
      · rfl
      · exact absurd hin (h.quiet hg)
    simp only [St.runFrame]
    split
    · exact kp rfl [] _ rfl rfl id (.inl rfl) rfl (.inl (by simp)) (by simp)
    split
    · exact kp rfl [] _ rfl rfl id (.inl rfl) rfl (.inl (by simp)) (by simp)
    split
    · exact kp rfl [.sendLoop] _ rfl rfl id (.inl rfl) hs (.inr (.inl hin)) (by simp)
    split
    · next c ps _ _ _ _ skip stream =>
      have base := kp rfl [.sendLoop] { s with stack := .sendLoop :: rest } rfl rfl id (.inl rfl) rfl (.inr (.inl hin)) (by simp)
      refine ⟨?_, ?_, base.shut, ?_, ?_⟩
      · intro hh; simp only [goneAway, hga] at hh; cases hh
      · intro hh; simp only [goneAway, hga] at hh; cases hh
      · intro _ _ e; simp at e
      · intro post pre n a st hh
        cases post with
        | nil => simp at hh; rw [← hh.2]; exact hga
        | cons x post => simp at hh; exact h.log post pre n a st hh.2
    · exact kp rfl [.sendFailed _, .sendLoop] _ rfl rfl id (.inl rfl) rfl (.inr (.inl hin)) (by simp)
    · refine ⟨h.flag, ?_, fun _ _ => ⟨.disc, by simp, rfl⟩, fun _ _ _ => ⟨.disc, by simp, rfl⟩, h.log⟩
      intro hh; rw [hga] at hh; cases hh
  | sendFailed c => exact kp rfl [.user, .countFailed] _ rfl rfl id (.inr ⟨_, rfl, rfl⟩) rfl (.inl (by simp)) (by simp)
  | countFailed => exact kp rfl [] _ rfl rfl id (.inl rfl) rfl (.inl (by simp)) (by simp)
  | failList cs status =>
    cases cs with
    | nil => exact kp rfl [] _ rfl rfl id (.inl rfl) rfl (.inl (by simp)) (by simp)
    | cons c cs => exact kp rfl [.user, .failList cs status] _ rfl rfl id (.inr ⟨_, rfl, rfl⟩) rfl (.inl (by simp)) (by simp)
  | failAll =>
    have hin : .failAll ∈ s.stack := by rw [hs]; exact List.mem_cons_self ..
    have cl : s.isConnected = true → ∃ x ∈ rest, x.closes = true := by
      intro hc
      obtain ⟨x, hx, hx'⟩ := h.shut hc hin
      rw [hs] at hx
      rcases List.mem_cons.1 hx with rfl | hx
      · cases hx'
      · exact ⟨x, hx, hx'⟩
    refine ⟨h.flag, ?_, ?_, ?_, h.log⟩
    · intro hh hm
      simp only [St.runFrame, St.failAll, List.mem_cons, reduceCtorEq, false_or] at hm
      exact h.quiet hh (sub _ hm)
    · intro hc _
      obtain ⟨x, hx, hx'⟩ := cl hc
      exact ⟨x, List.mem_cons_of_mem _ hx, hx'⟩
    · intro hc _ _
      obtain ⟨x, hx, hx'⟩ := cl hc
      exact ⟨x, List.mem_cons_of_mem _ hx, by cases x <;> simp_all [Frame.drains, Frame.closes]⟩
  | disc =>
    refine away_down h rfl (.inl rfl) ?_
    intro hm
    simp only [St.runFrame, St.failAll, List.mem_cons, reduceCtorEq, false_or] at hm
    exact sub _ hm
  | close => exact kp rfl [] _ rfl rfl id (.inl rfl) rfl (.inl (by simp)) (by simp)
  | afterComplete =>
    simp only [St.runFrame]
    have cl : .failAll ∈ rest → s.isConnected = true → ∃ x ∈ rest, x.closes = true := by
      intro hm hc
      obtain ⟨x, hx, hx'⟩ := h.shut hc (sub _ hm)
      rw [hs] at hx
      rcases List.mem_cons.1 hx with rfl | hx
      · cases hx'
      · exact ⟨x, hx, hx'⟩
    refine ⟨h.flag, ?_, ?_, ?_, h.log⟩
    · intro hh hm
      refine h.quiet hh (sub _ ?_)
      rcases List.mem_cons.1 hm with e | hm
      · split at e <;> cases e
      · exact hm
    · intro hc hm
      rcases List.mem_cons.1 hm with e | hm
      · split at e <;> cases e
      · obtain ⟨x, hx, hx'⟩ := cl hm hc
        exact ⟨x, List.mem_cons_of_mem _ hx, hx'⟩
    · intro hc hg _
      have hg : s.goaway = true := hg
      exact ⟨.finish, by simp [hg], rfl⟩
  | finish =>
    simp only [St.runFrame]
    split
    · next hb =>
      have cl : .failAll ∈ rest → s.isConnected = true → ∃ x ∈ rest, x.closes = true := by
        intro hm hc
        obtain ⟨x, hx, hx'⟩ := h.shut hc (sub _ hm)
        rw [hs] at hx
        rcases List.mem_cons.1 hx with rfl | hx
        · cases hx'
        · exact ⟨x, hx, hx'⟩
      refine ⟨h.flag, fun hh hm => h.quiet hh (sub _ hm), fun hc hm => cl hm hc, ?_, h.log⟩
      intro hc hg ha
      have hg : s.goaway = true := hg
      have ha : s.active = [] := ha
      rw [hg, ha] at hb
      simp at hb
    split
    · exact away_down h rfl (.inl rfl) (sub _)
    split
    · refine away_down h rfl (.inl rfl) ?_
      intro hm
      simp only [St.failAll, List.mem_cons, reduceCtorEq, false_or] at hm
      exact sub _ hm
    · refine away_down h rfl (.inl rfl) ?_
      intro hm
      simp only [List.mem_cons, reduceCtorEq, false_or] at hm
      exact sub _ hm
  | finishEnd => exact kp rfl [] _ rfl rfl id (.inl rfl) rfl (.inl (by simp)) (by simp)
  | connLoop cbs ok =>
    cases cbs with
    | nil => exact kp rfl [] _ rfl rfl id (.inl rfl) rfl (.inl (by simp)) (by simp)
    | cons k ks => exact kp rfl [.user, .connLoop ks ok] _ rfl rfl id (.inr ⟨_, rfl, rfl⟩) rfl (.inl (by simp)) (by simp)
  | reconnect =>
    simp only [St.runFrame]
    split
    · exact away_connect h s none [.reconnect] rest hs (by simp [Frame.drains, Frame.closes]) rfl rfl rfl rfl
    · exact kp rfl [] _ rfl rfl id (.inl rfl) rfl (.inl (by simp)) (by simp)
  | timeoutStreams ss =>
    cases ss with
    | nil => exact kp rfl [] _ rfl rfl id (.inl rfl) rfl (.inl (by simp)) (by simp)
    | cons sid ss =>
      exact away_failRequest h sid 408 [.timeoutStreams (sid :: ss)] [.timeoutStreams ss] rest hs (by simp [Frame.drains, Frame.closes]) (by simp)
  | timeoutPending expired kept =>
    simp only [St.runFrame]
    split
    · exact kp rfl [] _ rfl rfl id (.inl rfl) rfl (.inl (by simp)) (by simp)
    split
    · exact kp rfl [.user, .timeoutPending expired kept] _ rfl rfl id (.inr ⟨_, rfl, rfl⟩) rfl (.inl (by simp)) (by simp)
    · exact kp rfl [.timeoutPending _ _] _ rfl rfl id (.inl rfl) rfl (.inl (by simp)) (by simp)
  | timeoutEnd late =>
    simp only [St.runFrame]
    split
    · refine away_down h rfl (.inl rfl) ?_
      intro hm
      simp only [St.connectionFailed, List.mem_cons, reduceCtorEq, false_or] at hm
      exact sub _ hm
    · exact kp rfl [] _ rfl rfl id (.inl rfl) rfl (.inl (by simp)) (by simp)
  | lostEnd =>
    simp only [St.runFrame]
    split
    · split
      · refine away_down h rfl (.inl rfl) ?_
        intro hm
        simp only [St.failAll, List.mem_cons, reduceCtorEq, false_or] at hm
        exact sub _ hm
      · refine away_down h rfl (.inl rfl) ?_
        intro hm
        simp only [List.mem_cons, reduceCtorEq, false_or] at hm
        exact sub _ hm
    · refine away_down h rfl (.inl rfl) ?_
      intro hm
      simp only [St.failAll, List.mem_cons, reduceCtorEq, false_or] at hm
      exact sub _ hm
  | gone => exact away_down h rfl (.inl rfl) (sub _)

theorem away_step (s : St) (ch : Choice) (s' : St) (he : s.step ch = some s') (h : Away s) : Away s' := by
  have kp : ∀ (new : List Frame) (s' : St), s'.isConnected = s.isConnected → s'.goaway = s.goaway → (s'.active = [] → s.active = []) →
      (s'.trace = s.trace ∨ ∃ e, e.plain = true ∧ s'.trace = e :: s.trace) → s'.stack = new ++ s.stack →
      .sendLoop ∉ new → .failAll ∉ new → Away s' :=
    fun new s' e1 e2 e3 e4 e5 e6 e7 => away_keep h [] s.stack rfl (by simp) e1 e2 e3 e4 new e5 (.inl e6) e7
  have call : ∀ c, Away (s.doCall c) := by
    intro c
    cases c with
    | push v =>
      simp only [St.doCall, St.push]
      split
      · exact kp [.user] _ rfl rfl id (.inr ⟨_, rfl, rfl⟩) rfl (by simp) (by simp)
      split
      · exact kp [.user] _ rfl rfl id (.inr ⟨_, rfl, rfl⟩) rfl (by simp) (by simp)
      split
      · exact kp [.process] _ rfl rfl id (.inl rfl) rfl (by simp) (by simp)
      split
      · exact away_connect h _ none [] s.stack rfl (by simp) rfl rfl rfl rfl
      · exact kp [] _ rfl rfl id (.inl rfl) rfl (by simp) (by simp)
    | connect w =>
      simp only [St.doCall]
      split <;> exact away_connect h _ _ [] s.stack rfl (by simp) rfl rfl rfl rfl
    | disconnect => exact kp [.disc] _ rfl rfl id (.inl rfl) rfl (by simp) (by simp)
  unfold St.step at he
  split at he
  · cases he
  split at he
  · cases he; exact call _
  · next e hst =>
    have shut : ∀ (c : Frame) (new : List Frame) (t : St), c.closes = true → c ∈ new → t.stack = new → .sendLoop ∉ new → t.trace = s.trace →
        t.goaway = s.goaway → t.isConnected = s.isConnected → Away t := by
      intro c new t hc hm hn hl htr hg hi
      refine ⟨by rw [htr, hg, hi]; exact h.flag, fun _ h' => hl (hn ▸ h'), fun _ _ => ⟨c, hn ▸ hm, hc⟩, fun _ _ _ => ⟨c, hn ▸ hm, ?_⟩, by rw [htr]; exact h.log⟩
      cases c <;> simp_all [Frame.drains, Frame.closes]
    cases e <;> simp only [St.doEvent] at he
    case connector ok =>
      split at he
      · cases he
      split at he <;> cases he
      · exact kp [] _ rfl rfl id (.inl rfl) rfl (by simp) (by simp)
      · refine away_down h rfl (.inl rfl) ?_
        simp [St.connectionFailed, St.down, hst]
    case handshake ok =>
      split at he
      · cases he
      split at he <;> cases he
      · refine ⟨fun hh => (by cases hh), fun hh => (by cases hh), ?_, fun _ hg => (by cases hg), ?_⟩
        · simp [hst]
        · intro post pre n a st hh
          cases post with
          | nil => simp at hh
          | cons x post => simp at hh; exact h.log post pre n a st hh.2
      · refine away_down h rfl (.inl rfl) ?_
        simp [St.connectionFailed, St.down, hst]
    case response app r =>
      split at he
      · cases he; exact h
      · next c _ =>
        cases he
        obtain ⟨g, l⟩ := away_log h (t := .done c.call (.response r) :: s.trace) (.inr ⟨_, rfl, rfl⟩)
        exact ⟨fun hh => h.flag (g ▸ hh), by simp [St.enter, hst], by simp [St.enter, hst], fun _ _ _ => ⟨.afterComplete, by simp [St.enter], rfl⟩, l⟩
    case streamError sid =>
      cases he
      exact away_failRequest h sid 503 [] [] s.stack rfl (by simp) (by simp)
    case goaway last =>
      cases he
      refine ⟨fun _ _ => rfl, by simp [hst], by simp [hst], fun _ _ _ => ⟨.finish, by simp, rfl⟩, ?_⟩
      intro post pre n a st hh
      cases post with
      | nil => simp at hh
      | cons x post => simp at hh; exact h.log post pre n a st hh.2
    case goawayError => cases he; exact shut .disc [.failAll, .disc] _ rfl (by simp) (by simp [hst]) (by simp) rfl rfl rfl
    case connectionError => cases he; exact shut .disc [.failAll, .disc, .reconnect] _ rfl (by simp) (by simp [hst]) (by simp) rfl rfl rfl
    case timeout expired late =>
      cases he
      exact kp [.timeoutStreams _, .timeoutPending _ _, .timeoutEnd _] _ rfl rfl id (.inl rfl) rfl (by simp) (by simp)
    case disconnected =>
      split at he <;> cases he
      · exact shut .lostEnd [.connLoop s.cbs false, .lostEnd] _ rfl (by simp) (by simp [hst]) (by simp) rfl rfl rfl
      · exact shut .lostEnd [.lostEnd] _ rfl (by simp) (by simp [hst]) (by simp) rfl rfl rfl
    case dispose => cases he; exact shut .gone [.failAll, .gone] _ rfl (by simp) (by simp [hst]) (by simp) rfl rfl rfl
  · cases he; exact call _
  · next rest hst =>
    cases he
    exact away_keep h [.user] rest hst (by simp [Frame.drains, Frame.closes]) rfl rfl id (.inl rfl) [] rfl (.inl (by simp)) (by simp)
  · cases he
  · next f rest out hu hst => cases he; exact away_frame h out f rest hst (by rintro rfl; exact hu rfl)
  · cases he

theorem away_run (auto : Bool) (ms mp : Nat) (chs : List Choice) (s : St) (h : (St.init auto ms mp).run chs = some s) : Away s :=
  run_inv Away away_step _ chs s h (away_init ..)

/-- **C141** After a GOAWAY without error no request is sent until a new connection is established. -/
theorem C141_no_send (auto : Bool) (ms mp : Nat) (chs : List Choice) (s : St) (h : (St.init auto ms mp).run chs = some s)
    (post mid pre : List Ev) (n a st last : Nat) (ht : s.trace = post ++ .sent n a st :: (mid ++ .goaway last :: pre)) : .up ∈ mid := by
  have := (away_run auto ms mp chs s h).log post (mid ++ .goaway last :: pre) n a st ht
  by_cases hm : .up ∈ mid
  · exact hm
  · rw [goneAway_append mid pre last hm] at this; cases this

/-- **C141** After a GOAWAY without error the connection is kept only for requests that are still on the wire:
an idle client that is still connected has one. -/
theorem C141_closed_when_drained (auto : Bool) (ms mp : Nat) (chs : List Choice) (s : St) (h : (St.init auto ms mp).run chs = some s)
    (mid pre : List Ev) (last : Nat) (ht : s.trace = mid ++ .goaway last :: pre) (hup : .up ∉ mid)
    (hidle : s.stack = []) (hc : s.isConnected = true) : s.active ≠ [] := by
  have hw := away_run auto ms mp chs s h
  have hg : goneAway s.trace = true := by rw [ht]; exact goneAway_append mid pre last hup
  intro ha
  obtain ⟨f, hf, -⟩ := hw.drained hc (hw.flag hg hc) ha
  rw [hidle] at hf
  cases hf

/-! ### What becomes of the requests -/

/-- The rounds of a loop over requests whose callbacks return at once. -/
def rounds (n : Nat) : List Choice := (List.replicate n [Choice.go .refused, Choice.ret]).flatten

theorem run_append (s : St) (as bs : List Choice) : s.run (as ++ bs) = (s.run as).bind (·.run bs) := by
  induction as generalizing s with
  | nil => rfl
  | cons a as ih =>
    simp only [List.cons_append, St.run]
    split
    · exact ih _
    · rfl

/-- The callbacks of a list of requests, in order. -/
theorem run_failList (s : St) (cs : List Ctx) (status : Nat) (rest : List Frame) (hs : s.stack = .failList cs status :: rest)
    (hc : s.crashed = false) :
    s.run (rounds cs.length ++ [.go .refused]) =
      some { s with failed := s.failed + cs.length, stack := rest,
                    trace := (cs.map (fun c => Ev.done c.call (.error status))).reverse ++ s.trace } := by
  induction cs generalizing s with
  | nil =>
    simp [rounds, St.run, St.step, hs, hc, St.runFrame]
  | cons c cs ih =>
    have h1 : rounds (c :: cs).length ++ [.go .refused] = [.go .refused, .ret] ++ (rounds cs.length ++ [.go .refused]) := by
      simp [rounds, List.replicate_succ]
    rw [h1, run_append]
    have h2 : s.run [.go .refused, .ret] =
        some { s with failed := s.failed + 1, stack := .failList cs status :: rest, trace := .done c.call (.error status) :: s.trace } := by
      simp [St.run, St.step, hs, hc, St.runFrame, St.enter]
    rw [h2]
    simp only [Option.bind_some]
    have h3 := ih { s with failed := s.failed + 1, stack := .failList cs status :: rest, trace := .done c.call (.error status) :: s.trace } rfl hc
    rw [h3]
    simp [Nat.add_comm, Nat.add_left_comm]

/-- **C141** A GOAWAY without error fails with 503 exactly the requests on streams the server will not answer (in
the order of the map, see the model), and keeps the others on the wire; if none is left the connection is closed. (The callbacks
return at once; what they may call is covered by the other claims.) -/
theorem C141_failed_requests (s : St) (last : Nat) (hs : s.stack = []) (hc : s.crashed = false) :
    let bad := s.active.filter (fun c => c.stream > last)
    let good := s.active.filter (fun c => ¬ c.stream > last)
    ∃ s', s.run (.event (.goaway last) :: (rounds bad.length ++ [.go .refused])) = some s' ∧
      s'.trace = (bad.map (fun c => Ev.done c.call (.error 503))).reverse ++ .goaway last :: s.trace ∧
      s'.active = good ∧ s'.pending = s.pending ∧ s'.stack = [.finish] := by
  simp only [St.run]
  have e : s.step (.event (.goaway last)) = some { s with
      goaway := true
      active := s.active.filter (fun c => ¬ c.stream > last)
      stack := .failList (s.active.filter (fun c => c.stream > last)) 503 :: .finish :: s.stack
      trace := .goaway last :: s.trace } := by
    simp [St.step, hs, hc, St.doEvent]
  rw [e]
  simp only
  refine ⟨_, run_failList _ _ 503 (.finish :: s.stack) rfl hc, by simp, rfl, rfl, by simp [hs]⟩

/-- **C141** The queued requests survive: when the last request on the wire is answered after a GOAWAY, the
client closes the connection and, with automatic reconnection, keeps the queue and connects again. -/
theorem C141_queue_survives (s : St) (c : Ctx) (r : Nat) (hs : s.stack = []) (hc : s.crashed = false) (hg : s.goaway = true)
    (ha : s.active = [c]) (hp : s.pending ≠ []) (hauto : s.autoReconnect = true) :
    ∃ s', s.run [.event (.response c.app r), .ret, .go .refused, .go .refused, .event .disconnected, .go .refused, .go .refused] = some s' ∧
      s'.trace = .done c.call (.response r) :: s.trace ∧ s'.pending = s.pending ∧ s'.active = [] ∧ s'.stack = [] ∧
      s'.isConnected = false ∧ s'.isConnecting = true ∧ s'.attempts = s.attempts + 1 := by
  have hp' : s.pending.isEmpty = false := by cases h : s.pending <;> simp_all
  simp [St.run, St.step, hs, hc, St.doEvent, ha, St.enter, St.runFrame, hg, hp', hauto, St.connect]

/-- Three requests on the wire, one queued; GOAWAY with last stream 3; the two that remain are answered and the
queued one is sent on the new connection. -/
def demoGoaway : List Choice :=
  [.call (.push true), .call (.push true), .call (.push true), .call (.push true), .event (.connector true), .event (.handshake true),
   .go .refused, .go .refused, .go (.ok 0 1), .go (.ok 0 3), .go (.ok 0 5), .go .refused,
   .event (.goaway 3), .go .refused, .ret, .go .refused, .go .refused,
   .event (.response 1 8), .ret, .go .refused, .go .refused,
   .event (.response 2 9), .ret, .go .refused, .go .refused,
   .event .disconnected, .go .refused, .go .refused, .event (.connector true), .event (.handshake true), .go .refused, .go .refused, .go (.ok 0 1)]

theorem C141_example :
    ((St.init true 3 10).run demoGoaway).map (fun s => s.trace) =
      some [.sent 4 4 1, .up, .done 2 (.response 9), .done 1 (.response 8), .done 3 (.error 503), .goaway 3, .sent 3 3 5, .sent 2 2 3, .sent 1 1 1, .up] := by
  decide

end Verif.Cli2
