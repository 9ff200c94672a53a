import Verif.Cli3.TheoremsFree

/-! The invariant of polite runs. -/

namespace Verif.Cli3

/-- Frames that can be above the failing of all requests. -/
def Frame.quiet : Frame → Bool
  | .user | .connLoop _ _ | .start | .failList _ | .failAll => true
  | _ => false

/-- Frames that can be above the end of `disconnect`. -/
def Frame.closing : Frame → Bool
  | .user | .failList _ | .failAll => true
  | _ => false

def NoSending (l : List Frame) : Prop := ∀ f ∈ l, f.sending = false

def OkStack : List Frame → Prop
  | [] => True
  | f :: r => ((.failAll ∈ r → f.quiet = true) ∧ (.discEnd ∈ r → f.closing = true) ∧ (f = .discEnd → r = []) ∧
      (f.isRead = true → r.countP Frame.isRead = 0 → NoSending r)) ∧ OkStack r

def Frame.sub : Frame → List Ctx
  | .submit c => [c]
  | _ => []

/-- The requests being submitted. -/
def subs (l : List Frame) : List Ctx := l.flatMap Frame.sub

/-- Every response in the trace belongs to a request that was sent before on that connection and stream. -/
def Matched : List Ev → Prop
  | [] => True
  | e :: t => (match e with | .done n (.response k i) => .sent n k i ∈ t | _ => True) ∧ Matched t

def Ev.plain : Ev → Bool
  | .done _ (.response _ _) => false
  | _ => true

structure Inv (s : St) : Prop where
  ok : OkStack s.stack
  active : s.active ≠ [] → s.connected = true ∨ .failAll ∈ s.stack
  sending : s.connected = false → NoSending s.stack
  failing : .failAll ∈ s.stack → .discEnd ∈ s.stack ∨ s.connected = false
  reads : ∀ k, .read k ∈ s.stack → k = s.conn
  fresh : ∀ c ∈ s.active ++ subs s.stack, c.conn = s.conn ∧ c.stream < s.nextStream
  distinct : ((s.active ++ subs s.stack).map (·.stream)).Nodup
  sent : ∀ c ∈ s.active, .sent c.call c.conn c.stream ∈ s.trace
  disc : .discEnd ∈ s.stack → .failAll ∈ s.stack ∨ s.active = []
  lost : s.lost = []
  crashed : s.crashed = false
  matched : Matched s.trace

theorem matched_append {pre t : List Ev} (h : Matched t) (hp : ∀ e ∈ pre, e.plain = true) : Matched (pre ++ t) := by
  induction pre with
  | nil => exact h
  | cons e pre ih =>
    refine ⟨?_, ih fun e he => hp e (List.mem_cons_of_mem _ he)⟩
    have := hp e (List.mem_cons_self ..)
    split
    · cases this
    · trivial

theorem ok_user {l : List Frame} (h : OkStack l) : OkStack (.user :: l) :=
  ⟨⟨fun _ => rfl, fun _ => rfl, fun e => (by cases e), fun e => (by cases e)⟩, h⟩

theorem ok_plain {l : List Frame} {g : Frame} (h : OkStack l) (h1 : .failAll ∉ l) (h2 : .discEnd ∉ l) (h3 : g ≠ .discEnd) (h4 : g.isRead = false) : OkStack (g :: l) :=
  ⟨⟨fun e => absurd e h1, fun e => absurd e h2, fun e => absurd e h3, fun e => (by rw [h4] at e; cases e)⟩, h⟩

theorem ok_quiet {l : List Frame} {g : Frame} (h : OkStack l) (h1 : g.quiet = true) (h2 : .discEnd ∉ l) : OkStack (g :: l) :=
  ⟨⟨fun _ => h1, fun e => absurd e h2, fun e => (by subst e; cases h1), fun e => (by cases g <;> simp_all [Frame.quiet, Frame.isRead])⟩, h⟩

/-- Above the end of a disconnect and above the failing of all requests nothing is outside. -/
theorem ok_outside {s : St} (h : OkStack s.stack) (hs : s.stack = [] ∨ ∃ f r, s.stack = f :: r ∧ f.outside = true) :
    .failAll ∉ s.stack ∧ .discEnd ∉ s.stack := by
  rcases hs with hs | ⟨f, r, hs, ho⟩
  · simp [hs]
  · rw [hs] at h ⊢
    have h1 : .failAll ∉ r := fun e => by have := h.1.1 e; cases f <;> simp_all [Frame.quiet, Frame.outside]
    have h2 : .discEnd ∉ r := fun e => by have := h.1.2.1 e; cases f <;> simp_all [Frame.closing, Frame.outside]
    simp only [List.mem_cons, not_or]
    exact ⟨⟨fun e => (by subst e; cases ho), h1⟩, fun e => (by subst e; cases ho), h2⟩

theorem Inv.keep {s t : St} (h : Inv s) (hc : t.connected = s.connected) (hn : t.conn = s.conn) (hns : t.nextStream = s.nextStream) (hl : t.lost = s.lost)
    (hcr : t.crashed = s.crashed) (ha : t.active.Sublist s.active) (pre : List Ev) (htr : t.trace = pre ++ s.trace) (hpre : ∀ e ∈ pre, e.plain = true)
    (hok : OkStack t.stack) (hs : NoSending s.stack → NoSending t.stack) (hfa : .failAll ∈ t.stack ↔ .failAll ∈ s.stack)
    (hde : .discEnd ∈ t.stack ↔ .discEnd ∈ s.stack) (hrd : ∀ k, .read k ∈ t.stack → .read k ∈ s.stack) (hsub : (subs t.stack).Sublist (subs s.stack)) : Inv t := by
  have hcs : (t.active ++ subs t.stack).Sublist (s.active ++ subs s.stack) := ha.append hsub
  refine ⟨hok, fun e => ?_, fun e => hs (h.sending (by rw [← hc]; exact e)), fun e => ?_, fun k e => ?_, fun c e => ?_, (hcs.map _).nodup h.distinct,
    fun c e => ?_, fun e => ?_, by rw [hl]; exact h.lost, by rw [hcr]; exact h.crashed, by rw [htr]; exact matched_append h.matched hpre⟩
  · rw [hc, hfa]
    refine h.active fun e2 => ?_
    rw [e2] at ha; exact e (List.sublist_nil.1 ha)
  · rw [hc, hde]; exact h.failing (hfa.1 e)
  · rw [hn]; exact h.reads k (hrd k e)
  · rw [hn, hns]; exact h.fresh c (hcs.subset e)
  · rw [htr]; exact List.mem_append_right _ (h.sent c (ha.subset e))
  · rw [hfa]
    rcases h.disc (hde.1 e) with e | e
    · exact .inl e
    · rw [e] at ha; exact .inr (List.sublist_nil.1 ha)

/-- A user callback other than for a response. -/
theorem Inv.enter {s t : St} (h : Inv s) (hc : t.connected = s.connected) (hn : t.conn = s.conn) (hns : t.nextStream = s.nextStream) (hl : t.lost = s.lost)
    (hcr : t.crashed = s.crashed) (ha : t.active.Sublist s.active) (htr : t.trace = s.trace) (e : Ev) (he : e.plain = true) : Inv (t.enter e s.stack) :=
  h.keep hc hn hns hl hcr ha [e] (by simp [St.enter, htr]) (by simpa using he) (ok_user h.ok)
    (fun hs f hf => by rcases List.mem_cons.1 hf with rfl | hf; rfl; exact hs f hf)
    (by simp [St.enter]) (by simp [St.enter]) (by simp [St.enter]) (by simp [St.enter, subs, Frame.sub])

theorem Inv.connect {s : St} (h : Inv s) (cb : Option Nat) (hd : .discEnd ∉ s.stack) : Inv (s.connect cb s.stack) := by
  unfold St.connect
  split
  · split
    · exact h.enter (by rfl) (by rfl) (by rfl) (by rfl) (by rfl) (by exact .refl _) (by rfl) _ (by rfl)
    · exact h
  split
  · exact h.keep rfl rfl rfl rfl rfl (.refl _) [] rfl (by simp) h.ok id .rfl .rfl (fun _ e => e) (.refl _)
  · exact h.keep rfl rfl rfl rfl rfl (.refl _) [] rfl (by simp) (ok_quiet h.ok rfl hd)
      (fun hs f hf => by rcases List.mem_cons.1 hf with rfl | hf; rfl; exact hs f hf) (by simp) (by simp) (by simp) (by simp [subs, Frame.sub])

/-- Taking the top off. -/
theorem Inv.pop {s : St} {f : Frame} {r : List Frame} (h : Inv s) (hs : s.stack = f :: r) (h1 : f ≠ .failAll) (h2 : f ≠ .discEnd) : Inv { s with stack := r } := by
  have hok := h.ok; rw [hs] at hok
  refine h.keep rfl rfl rfl rfl rfl (.refl _) [] rfl (by simp) hok.2 (fun hn g hg => hn g (by rw [hs]; exact List.mem_cons_of_mem _ hg)) ?_ ?_ ?_ ?_
  · rw [hs]; simp [h1.symm]
  · rw [hs]; simp [h2.symm]
  · intro k e; rw [hs]; exact List.mem_cons_of_mem _ e
  · rw [hs]; simp only [subs, List.flatMap_cons]; exact List.sublist_append_right ..

/-- Frames on top that do nothing special. -/
theorem Inv.plain {s : St} (h : Inv s) (g : Frame) (h1 : .failAll ∉ s.stack) (h2 : .discEnd ∉ s.stack) (h3 : g ≠ .discEnd) (h4 : g.isRead = false)
    (h5 : g.sending = true → s.connected = true) (h6 : g.sub = []) (h7 : g ≠ .failAll) : Inv { s with stack := g :: s.stack } := by
  have hi : ∀ x : Frame, x ≠ g → (x ∈ g :: s.stack ↔ x ∈ s.stack) := by intro x hx; simp [hx]
  refine ⟨ok_plain h.ok h1 h2 h3 h4, fun e => ?_, fun e => ?_, fun e => ?_, fun k e => ?_, ?_, ?_, h.sent, fun e => ?_, h.lost, h.crashed, h.matched⟩
  · rcases h.active e with e | e
    · exact .inl e
    · exact absurd e h1
  · intro f hf
    rcases List.mem_cons.1 hf with rfl | hf
    · cases hx : f.sending with
      | false => rfl
      | true => have := h5 hx; have e : s.connected = false := e; rw [e] at this; cases this
    · exact h.sending e f hf
  · exact absurd ((hi _ h7.symm).1 e) h1
  · exact h.reads k ((hi _ (fun e => by rw [← e] at h4; cases h4)).1 e)
  · simpa [subs, h6] using h.fresh
  · simpa [subs, h6] using h.distinct
  · exact absurd ((hi _ h3.symm).1 e) h2

/-- The connection is given up. -/
theorem Inv.fail {s : St} (h : Inv s) (t : St) (rest : List Frame) (hr : s.stack = rest ∨ ∃ f, s.stack = f :: rest ∧ f.sending = false ∧ f.sub = []) (hns : NoSending rest)
    (hfa : .failAll ∉ rest ∨ s.connected = false) (hd : .discEnd ∉ rest) (hok : OkStack rest)
    (hn : t.conn = s.conn) (hn2 : t.nextStream = s.nextStream) (hl : t.lost = s.lost) (hcr : t.crashed = s.crashed)
    (ha : t.active = s.active) (pre : List Ev) (htr : t.trace = pre ++ s.trace) (hpre : ∀ e ∈ pre, e.plain = true) (top : List Frame) (ht : top = [] ∨ top = [.io] ∨ top = [.reconnect])
    (hft : top ≠ [] → .failAll ∉ rest) : Inv (t.connectionFailed (top ++ rest)) := by
  have hok2 : OkStack (top ++ rest) := by
    rcases ht with rfl | rfl | rfl
    · exact hok
    · exact ok_plain hok (hft (by simp)) hd (by simp) rfl
    · exact ok_plain hok (hft (by simp)) hd (by simp) rfl
  have hns2 : NoSending (top ++ rest) := by
    intro f hf
    rcases List.mem_append.1 hf with hf | hf
    · rcases ht with rfl | rfl | rfl <;> simp at hf <;> subst hf <;> rfl
    · exact hns f hf
  have hd2 : .discEnd ∉ top ++ rest := by
    rcases ht with rfl | rfl | rfl <;> simpa using hd
  have hrd : ∀ k, .read k ∈ top ++ rest → .read k ∈ s.stack := by
    intro k e
    have : .read k ∈ rest := by rcases ht with rfl | rfl | rfl <;> simpa using e
    rcases hr with hr | ⟨f, hr, -⟩ <;> rw [hr]
    · exact this
    · exact List.mem_cons_of_mem _ this
  have hsub : subs (.connLoop t.cbs false :: .failAll :: (top ++ rest)) = subs s.stack := by
    have : subs (top ++ rest) = subs rest := by rcases ht with rfl | rfl | rfl <;> simp [subs, Frame.sub]
    have h2 : subs rest = subs s.stack := by
      rcases hr with hr | ⟨f, hr, -, hf⟩ <;> rw [hr]
      simp [subs, hf]
    rw [← h2, ← this]; simp [subs, Frame.sub]
  refine ⟨?_, fun _ => .inr ?_, fun _ => ?_, fun _ => .inr rfl, fun k e => ?_, fun c e => ?_, ?_, fun c e => ?_, fun e => ?_, by exact hl.trans h.lost, hcr.trans h.crashed, ?_⟩
  · exact ok_quiet (ok_quiet hok2 rfl hd2) rfl (by
      simp only [List.mem_cons, not_or]; exact ⟨fun e => (by cases e), hd2⟩)
  · simp [St.connectionFailed]
  · intro f hf
    simp only [St.connectionFailed, List.mem_cons] at hf
    rcases hf with rfl | rfl | hf
    · rfl
    · rfl
    · exact hns2 f hf
  · have : Frame.read k ∈ Frame.connLoop t.cbs false :: .failAll :: (top ++ rest) := e
    simp only [List.mem_cons, reduceCtorEq, false_or] at this
    show k = t.conn
    rw [hn]; exact h.reads k (hrd k this)
  · show c.conn = t.conn ∧ c.stream < t.nextStream
    have e : c ∈ t.active ++ subs (.connLoop t.cbs false :: .failAll :: (top ++ rest)) := e
    rw [hsub, ha] at e
    rw [hn, hn2]; exact h.fresh c e
  · show ((t.active ++ subs (.connLoop t.cbs false :: .failAll :: (top ++ rest))).map (·.stream)).Nodup
    rw [hsub, ha]; exact h.distinct
  · show _ ∈ t.trace
    have e : c ∈ t.active := e
    rw [ha] at e
    rw [htr]; exact List.mem_append_right _ (h.sent c e)
  · have : Frame.discEnd ∈ Frame.connLoop t.cbs false :: .failAll :: (top ++ rest) := e
    simp only [List.mem_cons, reduceCtorEq, false_or] at this
    exact absurd this hd2
  · show Matched t.trace
    rw [htr]; exact matched_append h.matched hpre

theorem Inv.failRequest {s : St} (h : Inv s) (sid st : Nat) (rest : List Frame) (hr : rest = s.stack ∨ rest = .io :: .process :: s.stack)
    (hq : rest = s.stack ∨ .failAll ∉ s.stack ∧ .discEnd ∉ s.stack) : Inv (s.failRequest sid st rest) := by
  have base : Inv { s with stack := rest } := by
    rcases hr with rfl | hr
    · exact h
    · rcases hq with rfl | ⟨q1, q2⟩
      · exact h
      · have h1 := h.plain .process q1 q2 (by simp) rfl (fun e => by cases e) rfl (by simp)
        have h2 := h1.plain .io (by simpa using q1) (by simpa using q2) (by simp) rfl (fun e => by cases e) rfl (by simp)
        rw [hr]; exact h2
  unfold St.failRequest
  split
  · exact base
  · exact base.enter (by rfl) (by rfl) (by rfl) (by rfl) (by rfl) (by exact List.filter_sublist) (by rfl) _ (by rfl)

theorem Inv.giveUp {s : St} (h : Inv s) (n st : Nat) (b : Bool) (hq : .failAll ∉ s.stack ∧ .discEnd ∉ s.stack) : Inv (s.giveUp n st b) := by
  unfold St.giveUp
  split
  · cases b
    · exact h.enter (by rfl) (by rfl) (by rfl) (by rfl) (by rfl) (by exact .refl _) (by rfl) _ (by rfl)
    · have h1 := h.plain .process hq.1 hq.2 (by simp) rfl (fun e => by cases e) rfl (by simp)
      exact h1.enter (by rfl) (by rfl) (by rfl) (by rfl) (by rfl) (by exact .refl _) (by rfl) _ (by rfl)
  · split
    · exact h
    · exact h.failRequest _ st _ (.inr rfl) (.inr hq)

theorem Inv.push {s : St} (h : Inv s) (v : Bool) (hd : .discEnd ∉ s.stack) : Inv (s.push v) := by
  unfold St.push
  simp only
  split
  · exact h.enter (by rfl) (by rfl) (by rfl) (by rfl) (by rfl) (by exact .refl _) (by rfl) _ (by rfl)
  split
  · exact h.enter (by rfl) (by rfl) (by rfl) (by rfl) (by rfl) (by exact .refl _) (by rfl) _ (by rfl)
  split
  · exact h.enter (by rfl) (by rfl) (by rfl) (by rfl) (by rfl) (by exact .refl _) (by rfl) _ (by rfl)
  have h1 : Inv { s with total := s.total + 1, pending := s.pending ++ [⟨s.total + 1, 0, 0⟩] } :=
    h.keep rfl rfl rfl rfl rfl (.refl _) [] rfl (by simp) h.ok id .rfl .rfl (fun _ e => e) (.refl _)
  split
  · next hc =>
    have hf : .failAll ∉ s.stack := fun e => by
      rcases h.failing e with e | e
      · exact hd e
      · have hc : s.connected = true := hc
        rw [e] at hc; cases hc
    exact h1.plain .process hf hd (by simp) rfl (fun e => by cases e) rfl (by simp)
  split
  · exact h1.connect none hd
  · exact h1

theorem step_inv {s : St} {ch : Choice} {s' : St} (h : s.step ch = some s') (hl : Live s) (hi : Inv s) (hp : Polite s ch) : Inv s' := by
  cases (step_cases h).2 with
  | call c hs =>
    cases c with
    | push v => exact hi.push v hp
    | connect b =>
      unfold St.doCall
      simp only
      split
      · have h1 : Inv { s with nextCb := s.nextCb + 1 } := hi.keep rfl rfl rfl rfl rfl (.refl _) [] rfl (by simp) hi.ok id .rfl .rfl (fun _ e => e) (.refl _)
        exact h1.connect _ hp
      · exact hi.connect _ hp
    | cancel n => exact hi.giveUp n 499 false ⟨hp.2, hp.1⟩
    | disconnect =>
      have he : s.stack = [] := hp
      have hd : s.doCall .disconnect = { s with stack := [.failAll, .discEnd] } := by simp [St.doCall, he]
      rw [hd]
      have hfr := hi.fresh
      have hdi := hi.distinct
      rw [he] at hfr hdi
      refine ⟨?_, fun _ => .inr (by simp), fun _ f hf => ?_, fun _ => .inl (by simp), fun k e => by simp at e, by simpa [subs, Frame.sub] using hfr, by simpa [subs, Frame.sub] using hdi,
        hi.sent, fun _ => .inl (by simp), hi.lost, hi.crashed, hi.matched⟩
      · simp [OkStack, Frame.closing, Frame.isRead]
      · simp at hf; rcases hf with rfl | rfl <;> rfl
  | event e _ he hs =>
    obtain ⟨q1, q2⟩ := ok_outside hi.ok hs
    cases e with
    | connected ok =>
      simp only [St.doEvent] at he
      split at he
      · cases he
      next hc =>
      have hnc := hl.connecting (by simpa using hc)
      have hns := hi.sending hnc
      split at he
      · cases he
        have ha : s.active = [] := by
          rcases List.eq_nil_or_concat s.active with e | ⟨l, a, e⟩
          · exact e
          · rcases hi.active (by simp [e]) with e | e
            · rw [e] at hnc; cases hnc
            · exact absurd e q1
        have hsub : subs s.stack = [] := by
          unfold subs
          rw [List.flatMap_eq_nil_iff]
          intro f hf
          have := hns f hf
          cases f <;> simp_all [Frame.sending, Frame.sub]
        have hrd : ∀ k, .read k ∉ s.stack := by
          intro k e
          have : s.depth > 0 := by rw [hl.depth]; exact List.countP_pos_iff.2 ⟨_, e, rfl⟩
          have := hl.reading this; rw [hnc] at this; cases this
        refine ⟨ok_plain hi.ok q1 q2 (by simp) rfl, fun e => absurd ha e, fun e => (by cases e), fun e => ?_, fun k e => ?_, fun c e => ?_, ?_, fun c e => ?_, fun e => ?_, hi.lost, hi.crashed, hi.matched⟩
        · simp [q1] at e
        · simp [hrd] at e
        · have e : c ∈ s.active ++ subs (.bind :: s.stack) := e
          have : subs (.bind :: s.stack) = [] := by rw [← hsub]; simp [subs, Frame.sub]
          rw [ha, this] at e; cases e
        · have : subs (.bind :: s.stack) = [] := by rw [← hsub]; simp [subs, Frame.sub]
          show ((s.active ++ subs (.bind :: s.stack)).map (·.stream)).Nodup
          rw [ha, this]; simp
        · have e : c ∈ s.active := e
          rw [ha] at e; cases e
        · simp [q2] at e
      · cases he
        exact hi.fail s s.stack (.inl rfl) hns (.inl q1) q2 hi.ok rfl rfl rfl rfl rfl [] rfl (by simp) [] (.inl rfl) (by simp)
    | closed =>
      simp only [St.doEvent] at he
      split at he <;> cases he
      · exact hi.keep rfl rfl rfl rfl rfl (.refl _) [] rfl (by simp) hi.ok id .rfl .rfl (fun _ e => e) (.refl _)
      · next h0 =>
        exact hi.fail s s.stack (.inl rfl) (hp (by omega)) (.inl q1) q2 hi.ok rfl rfl rfl rfl rfl [] rfl (by simp) [.reconnect] (.inr (.inr rfl)) (fun _ => q1)
    | data =>
      simp only [St.doEvent] at he
      split at he <;> cases he
      · exact hi
      · refine ⟨⟨⟨fun e => absurd e q1, fun e => absurd e q2, fun e => (by cases e), fun _ e => ?_⟩, hi.ok⟩, fun e => ?_, fun e => ?_, fun e => ?_, fun k e => ?_, ?_, ?_, hi.sent, fun e => ?_, hi.lost, hi.crashed, hi.matched⟩
        · exact hp (by rw [hl.depth]; exact e)
        · rcases hi.active e with e | e
          · exact .inl e
          · exact absurd e q1
        · intro f hf
          rcases List.mem_cons.1 hf with rfl | hf
          · rfl
          · exact hi.sending e f hf
        · simp [q1] at e
        · simp at e
          rcases e with rfl | e
          · rfl
          · exact hi.reads k e
        · simpa [subs, Frame.sub] using hi.fresh
        · simpa [subs, Frame.sub] using hi.distinct
        · simp [q2] at e
    | streamClosed sid =>
      simp only [St.doEvent, Option.some.injEq] at he; subst he
      exact hi.failRequest _ _ _ (.inl rfl) (.inl rfl)
  | timer t _ he hs =>
    have q1 : .failAll ∉ s.stack := by simp [hs]
    have q2 : .discEnd ∉ s.stack := by simp [hs]
    cases t with
    | connect j =>
      simp only [St.doTimer] at he
      split at he
      · cases he
      split at he
      · cases he; exact hi
      · cases he
        exact hi.fail _ s.stack (.inl rfl) (fun f hf => by rw [hs] at hf; cases hf) (.inl q1) q2 hi.ok (by rfl) (by rfl) (by rfl) (by rfl) (by rfl) [.late j s.attempts] (by rfl) (by simp [Ev.plain]) [.io] (.inr (.inl rfl)) (fun _ => q1)
    | request n =>
      simp only [St.doTimer, Option.some.injEq] at he; subst he
      exact hi.giveUp n 408 true ⟨q1, q2⟩
  | ret r hs => exact hi.pop hs (by simp) (by simp)
  | callback c j r hs =>
    obtain ⟨q1, q2⟩ := ok_outside hi.ok (.inr ⟨_, _, hs, rfl⟩)
    cases c with
    | response sid =>
      simp only [St.doCallback]
      split
      · exact hi
      · next c hc =>
        have h1 := hi.plain .process q1 q2 (by simp) rfl (fun e => by cases e) rfl (by simp)
        have h2 := h1.plain .user (by simpa using q1) (by simpa using q2) (by simp) rfl (fun e => by cases e) rfl (by simp)
        have h3 : Inv { s with stack := .user :: .process :: s.stack, active := s.active.filter (·.stream ≠ sid), successful := s.successful + 1 } :=
          h2.keep rfl rfl rfl rfl rfl List.filter_sublist [] rfl (by simp) h2.ok id .rfl .rfl (fun _ e => e) (.refl _)
        have hm : c ∈ s.active := List.mem_of_find?_eq_some hc
        have hst : c.stream = sid := by simpa using List.find?_some hc
        have hcn : c.conn = j := by
          rw [(hi.fresh c (List.mem_append_left _ hm)).1, hi.reads j (by rw [hs]; simp)]
        have hsent := hi.sent c hm
        rw [hst, hcn] at hsent
        exact ⟨h3.ok, h3.active, h3.sending, h3.failing, h3.reads, h3.fresh, h3.distinct, fun d hd => List.mem_cons_of_mem _ (h3.sent d hd), h3.disc, h3.lost, h3.crashed, ⟨hsent, hi.matched⟩⟩
    | shutdown =>
      have h1 := hi.plain .shutLoop q1 q2 (by simp) rfl (fun e => by cases e) rfl (by simp)
      exact h1.keep rfl rfl rfl rfl rfl (.refl _) [] rfl (by simp) h1.ok id .rfl .rfl (fun _ e => e) (.refl _)
  | go f r out hs hf =>
    have hok := hi.ok
    rw [hs] at hok
    have nq : f.quiet = false → .failAll ∉ r := fun e1 e2 => by rw [hok.1.1 e2] at e1; cases e1
    have nc : f.closing = false → .discEnd ∉ r := fun e1 e2 => by rw [hok.1.2.1 e2] at e1; cases e1
    have conn : f.sending = true → s.connected = true := by
      intro e
      cases hc : s.connected with
      | true => rfl
      | false => have := hi.sending hc f (by rw [hs]; simp); rw [e] at this; cases this
    cases f with
    | user => exact absurd rfl hf
    | io => exact hi.pop hs (by simp) (by simp)
    | start =>
      have hc : s.connecting = true := hl.start (by rw [hs]; simp)
      have hnc := hl.connecting hc
      simp only [St.runFrame]
      split
      · exact hi.pop hs (by simp) (by simp)
      · exact hi.fail s r (.inr ⟨_, hs, rfl, rfl⟩) (fun f hf => hi.sending hnc f (by rw [hs]; exact List.mem_cons_of_mem _ hf)) (.inr hnc) (nc rfl) hok.2 rfl rfl rfl rfl rfl [] rfl (by simp) [] (.inl rfl) (by simp)
    | bind =>
      have h0 := hi.pop hs (by simp) (by simp)
      have h1 := h0.plain .process (nq rfl) (nc rfl) (by simp) rfl (fun e => by cases e) rfl (by simp)
      have h2 := h1.plain (.connLoop s.cbs true) (by simpa using nq rfl) (by simpa using nc rfl) (by simp) rfl (fun e => by cases e) rfl (by simp)
      exact h2.keep rfl rfl rfl rfl rfl (.refl _) [] rfl (by simp) h2.ok id .rfl .rfl (fun _ e => e) (.refl _)
    | process =>
      have h0 := hi.pop hs (by simp) (by simp)
      simp only [St.runFrame]
      split
      · exact h0
      · next hg =>
        simp only [Bool.or_eq_true, Bool.not_eq_true', not_or, Bool.not_eq_false] at hg
        exact h0.plain .procLoop (nq rfl) (nc rfl) (by simp) rfl (fun _ => hg.1.2) rfl (by simp)
    | procLoop =>
      have h0 := hi.pop hs (by simp) (by simp)
      simp only [St.runFrame]
      split
      · exact h0
      next c ps hps =>
      split
      · exact h0
      split
      · exact h0
      split
      · next hh =>
        have := conn rfl
        rw [← hl.h3] at this
        rw [this] at hh; cases hh
      · have hcn := conn rfl
        refine ⟨ok_plain hok.2 (nq rfl) (nc rfl) (by simp) rfl, fun _ => .inl hcn, fun e => ?_, fun e => ?_, fun k e => ?_, fun d e => ?_, ?_, hi.sent, fun e => ?_, hi.lost, hi.crashed, hi.matched⟩
        · have e : s.connected = false := e
          rw [hcn] at e; cases e
        · simp [nq rfl] at e
        · simp at e; exact h0.reads k e
        · show d.conn = s.conn ∧ d.stream < s.nextStream + 4
          have e : d ∈ s.active ++ ({ c with conn := s.conn, stream := s.nextStream } :: subs r) := e
          simp only [List.mem_append, List.mem_cons] at e
          rcases e with e | rfl | e
          · have := h0.fresh d (List.mem_append_left _ e); exact ⟨this.1, Nat.lt_add_right _ this.2⟩
          · exact ⟨rfl, by simp⟩
          · have := h0.fresh d (List.mem_append_right _ e); exact ⟨this.1, Nat.lt_add_right _ this.2⟩
        · show ((s.active ++ ({ c with conn := s.conn, stream := s.nextStream } :: subs r)).map (·.stream)).Nodup
          rw [(List.perm_middle.map _).nodup_iff]
          rw [List.map_cons, List.nodup_cons]
          refine ⟨fun e => ?_, h0.distinct⟩
          obtain ⟨d, hd, he⟩ := List.mem_map.1 e
          have := (h0.fresh d hd).2
          simp only at he this; omega
        · simp [nc rfl] at e
    | submit c =>
      have hcn := conn rfl
      have h0 := hi.pop hs (by simp) (by simp)
      have hsb : subs s.stack = c :: subs r := by rw [hs]; simp [subs, Frame.sub]
      have hdis := hi.distinct
      have hfr := hi.fresh
      rw [hsb] at hdis hfr
      simp only [St.runFrame]
      split
      · have hx : s.active.any (·.stream == c.stream) = false := by
          rw [Bool.eq_false_iff]
          intro e
          obtain ⟨d, hd, he⟩ := List.any_eq_true.1 e
          rw [List.map_append, List.nodup_append] at hdis
          exact hdis.2.2 d.stream (List.mem_map_of_mem hd) c.stream (by simp) (by simpa using he)
        rw [if_neg (by simp [hx])]
        have hpa : (s.active ++ [c] ++ subs (.procLoop :: r)) = s.active ++ c :: subs r := by simp [subs, Frame.sub]
        refine ⟨ok_plain hok.2 (nq rfl) (nc rfl) (by simp) rfl, fun _ => .inl hcn, fun e => ?_, fun e => ?_, fun k e => ?_, fun d e => ?_, ?_, fun d e => ?_, fun e => ?_, hi.lost, hi.crashed, ⟨trivial, hi.matched⟩⟩
        · have e : s.connected = false := e
          rw [hcn] at e; cases e
        · simp [nq rfl] at e
        · simp at e; exact h0.reads k e
        · have e : d ∈ s.active ++ [c] ++ subs (.procLoop :: r) := e
          rw [hpa] at e; exact hfr d e
        · show ((s.active ++ [c] ++ subs (.procLoop :: r)).map (·.stream)).Nodup
          rw [hpa]; exact hdis
        · have e : d ∈ s.active ++ [c] := e
          rcases List.mem_append.1 e with e | e
          · exact List.mem_cons_of_mem _ (hi.sent d e)
          · simp at e; subst e; exact List.mem_cons_self ..
        · simp [nc rfl] at e
      · have h1 := h0.plain .procLoop (nq rfl) (nc rfl) (by simp) rfl (fun _ => hcn) rfl (by simp)
        exact h1.plain (.reset c) (by simpa using nq rfl) (by simpa using nc rfl) (by simp) rfl (fun e => by cases e) rfl (by simp)
    | reset c => exact (hi.pop hs (by simp) (by simp)).enter (by rfl) (by rfl) (by rfl) (by rfl) (by rfl) (by exact .refl _) (by rfl) _ (by rfl)
    | failList cs =>
      simp only [St.runFrame]
      split
      · exact hi.pop hs (by simp) (by simp)
      · next c cs =>
        have h1 : Inv { s with stack := .failList cs :: r } := by
          refine hi.keep rfl rfl rfl rfl rfl (.refl _) [] rfl (by simp) ?_ ?_ (by rw [hs]; simp) (by rw [hs]; simp) (by rw [hs]; simp) (by rw [hs]; simp [subs, Frame.sub])
          · exact ⟨⟨fun _ => rfl, fun _ => rfl, fun e => (by cases e), fun e => (by cases e)⟩, hok.2⟩
          · intro hn f hf
            rcases List.mem_cons.1 hf with rfl | hf
            · rfl
            · exact hn f (by rw [hs]; exact List.mem_cons_of_mem _ hf)
        exact h1.enter (by rfl) (by rfl) (by rfl) (by rfl) (by rfl) (by exact .refl _) (by rfl) _ (by rfl)
    | failAll =>
      have hsub : subs s.stack = subs r := by rw [hs]; simp [subs, Frame.sub]
      refine ⟨⟨⟨fun _ => rfl, fun _ => rfl, fun e => (by cases e), fun e => (by cases e)⟩, hok.2⟩, fun e => absurd rfl e, fun e f hf => ?_, fun e => ?_, fun k e => ?_, fun d e => ?_, ?_, fun d e => ?_, fun e => .inr rfl, hi.lost, hi.crashed, hi.matched⟩
      · rcases List.mem_cons.1 hf with rfl | hf
        · rfl
        · exact hi.sending e f (by rw [hs]; exact List.mem_cons_of_mem _ hf)
      · rcases hi.failing (by rw [hs]; simp) with e | e
        · rw [hs] at e; simp at e; exact .inl (List.mem_cons_of_mem _ e)
        · exact .inr e
      · have e : .read k ∈ Frame.failList (s.active ++ s.pending) :: r := e
        simp at e; exact hi.reads k (by rw [hs]; simp [e])
      · have e : d ∈ [] ++ subs (Frame.failList (s.active ++ s.pending) :: r) := e
        simp only [subs, List.flatMap_cons, Frame.sub, List.nil_append] at e
        exact hi.fresh d (List.mem_append_right _ (by rw [hsub]; exact e))
      · have := hi.distinct
        rw [hsub, List.map_append, List.nodup_append] at this
        exact this.2.1
      · cases e
    | discEnd =>
      have hr : r = [] := hok.1.2.2.1 rfl
      subst hr
      have ha : s.active = [] := by
        rcases hi.disc (by rw [hs]; simp) with e | e
        · rw [hs] at e; simp at e
        · exact e
      refine ⟨by simp [St.runFrame, OkStack, Frame.isRead], fun e => absurd ha e, fun e f hf => ?_, fun e => ?_, fun k e => ?_, fun d e => ?_, ?_, fun d e => ?_, fun e => ?_, hi.lost, hi.crashed, hi.matched⟩
      · simp [St.runFrame] at hf; subst hf; rfl
      · simp [St.runFrame] at e
      · simp [St.runFrame] at e
      · have e : d ∈ s.active ++ subs [Frame.io] := e
        rw [ha] at e; simp [subs, Frame.sub] at e
      · show ((s.active ++ subs [Frame.io]).map (·.stream)).Nodup
        rw [ha]; simp [subs, Frame.sub]
      · have e : d ∈ s.active := e
        rw [ha] at e; cases e
      · simp [St.runFrame] at e
    | connLoop cbs ok =>
      simp only [St.runFrame]
      split
      · exact hi.pop hs (by simp) (by simp)
      · next c cs =>
        have h1 : Inv { s with stack := .connLoop cs ok :: r } := by
          refine hi.keep rfl rfl rfl rfl rfl (.refl _) [] rfl (by simp) ?_ ?_ (by rw [hs]; simp) (by rw [hs]; simp) (by rw [hs]; simp) (by rw [hs]; simp [subs, Frame.sub])
          · exact ⟨⟨fun _ => rfl, fun e => absurd e (nc rfl), fun e => (by cases e), fun e => (by cases e)⟩, hok.2⟩
          · intro hn f hf
            rcases List.mem_cons.1 hf with rfl | hf
            · rfl
            · exact hn f (by rw [hs]; exact List.mem_cons_of_mem _ hf)
        exact h1.enter (by rfl) (by rfl) (by rfl) (by rfl) (by rfl) (by exact .refl _) (by rfl) _ (by rfl)
    | reconnect =>
      have h0 := hi.pop hs (by simp) (by simp)
      simp only [St.runFrame]
      split
      · exact h0.connect none (nc rfl)
      · exact h0
    | read j =>
      have hdp : s.depth - 1 = r.countP Frame.isRead := by rw [hl.depth, hs, List.countP_cons_of_pos (by rfl)]; rfl
      simp only [St.runFrame]
      split
      · next h0 =>
        simp only [Bool.and_eq_true, decide_eq_true_eq] at h0
        exact hi.fail _ r (.inr ⟨_, hs, rfl, rfl⟩) (hok.1.2.2.2 rfl (by rw [← hdp]; exact h0.1)) (.inl (nq rfl)) (nc rfl) hok.2 (by rfl) (by rfl) (by rfl) (by rfl) (by rfl) [] (by rfl) (by simp) [.reconnect] (.inr (.inr rfl)) (fun _ => nq rfl)
      · have h0 := hi.pop hs (by simp) (by simp)
        exact h0.keep rfl rfl rfl rfl rfl (.refl _) [] rfl (by simp) h0.ok id .rfl .rfl (fun _ e => e) (.refl _)
    | shutLoop =>
      have h0 := hi.pop hs (by simp) (by simp)
      simp only [St.runFrame]
      split
      · exact h0
      · have h1 := h0.plain .shutLoop (nq rfl) (nc rfl) (by simp) rfl (fun e => by cases e) rfl (by simp)
        exact h1.enter (by rfl) (by rfl) (by rfl) (by rfl) (by rfl) (by exact .refl _) (by rfl) _ (by rfl)

theorem init_inv (auto : Bool) (ms mp : Nat) : Inv (St.init auto ms mp) := by
  refine ⟨trivial, fun e => absurd rfl e, fun _ f hf => ?_, fun e => ?_, fun k e => ?_, fun c e => ?_, ?_, fun c e => ?_, fun e => ?_, rfl, rfl, trivial⟩ <;>
    simp_all [St.init, subs]

theorem run_inv {s : St} {chs : List Choice} {s' : St} (h : s.run chs = some s') (hl : Live s) (hi : Inv s) (hp : PoliteRun s chs) : Live s' ∧ Inv s' := by
  induction chs generalizing s with
  | nil => simp [St.run] at h; subst h; exact ⟨hl, hi⟩
  | cons ch chs ih =>
    rw [St.run] at h
    split at h
    · next s1 e =>
      refine ih h (step_live e hl fun hc => ?_) (step_inv e hl hi hp.1) (hp.2 s1 e)
      subst hc
      have : s.stack = [] := hp.1
      rw [hl.depth, this]; rfl
    · cases h

end Verif.Cli3
