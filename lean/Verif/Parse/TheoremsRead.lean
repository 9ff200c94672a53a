import Verif.Parse.Read

/-! C78: the messages found on an HTTP/1.1 connection do not depend on how its bytes are split into reads. -/

namespace Verif.Parse

/-! ## what is assumed of the streaming engine -/

/-- The outcome of continuing after `n` octets. -/
def Outcome.shift {σ} (n : Nat) : Outcome σ → Outcome σ
  | .ok s => .ok s
  | .stop w p s => .stop w (n + p) s

/-- A streaming engine works octet by octet: it may be fed in pieces, and what follows the point where it
stops does not matter. It stops within its input, and the message head is complete once and for all. -/
structure Lawful {σ} (e : Engine σ) : Prop where
  empty : ∀ s, e.exec s [] = .ok s
  more : ∀ s a b s', e.exec s a = .ok s' → e.exec s (a ++ b) = (e.exec s' b).shift a.length
  stopped : ∀ s a b w p s', e.exec s a = .stop w p s' → e.exec s (a ++ b) = .stop w p s' ∧ p ≤ a.length
  resumed : ∀ s a s', e.exec (e.resume s) a = .ok s' → e.resume s' = s'
  head : ∀ s a s', e.headersDone s = false → e.exec s a = .ok s' → e.headersDone s' = false
  headStays : ∀ s a s', e.headersDone s = true → e.exec (e.resume s) a = .ok s' → e.headersDone s' = true ∧ e.hasTE s' = e.hasTE s
  start : e.headersDone e.start = false

variable {σ : Type} {e : Engine σ} {role : Role}

theorem drop_app {n : Nat} {a b : Bytes} (h : n ≤ a.length) : (a ++ b).drop n = a.drop n ++ b := by
  rw [List.drop_append_of_le_length h]

/-! ### one message -/

/-- After the head: a message or a failure is stable under more input, and waiting can be resumed. -/
theorem afterHead_app (l : Lawful e) (r : R σ) (buf x : Bytes) (ho : r.bodyOffset ≤ buf.length) (hd : e.headersDone r.eng = true) :
    (∀ n s b, afterHead e role r buf = .message n s b → afterHead e role r (buf ++ x) = .message n s b ∧ n ≤ buf.length) ∧
    (afterHead e role r buf = .dead → afterHead e role r (buf ++ x) = .dead) ∧
    (∀ r', afterHead e role r buf = .wait r' → getMessageSize e role r' (buf ++ x) = afterHead e role r (buf ++ x)) := by
  by_cases hf : (role.response && role.forbidden) = true
  · have h1 : ∀ b, afterHead e role r b = .message r.bodyOffset r.eng [] := by
      intro b; unfold afterHead; rw [if_pos hf]
    rw [h1, h1]
    refine ⟨?_, ?_, ?_⟩
    · rintro n s b h; cases h; exact ⟨rfl, ho⟩
    · intro h; cases h
    · intro r' h; cases h
  by_cases ht : e.hasTE r.eng = true
  · have h1 : ∀ b, afterHead e role r b = afterCoded e r b.length (e.exec (e.resume r.eng) (b.drop r.bodyOffset)) := by
      intro b; unfold afterHead; rw [if_neg hf, if_pos ht]
    cases hx : e.exec (e.resume r.eng) (buf.drop r.bodyOffset) with
    | stop w p s =>
      obtain ⟨h2, h3⟩ := l.stopped _ _ x _ _ _ hx
      rw [List.length_drop] at h3
      have e1 := h1 buf
      have e2 := h1 (buf ++ x)
      rw [hx] at e1
      rw [drop_app ho, h2] at e2
      rw [e1, e2]
      cases w with
      | complete =>
        refine ⟨?_, ?_, ?_⟩
        · rintro n s' b h
          simp only [afterCoded, Got.message.injEq] at h
          obtain ⟨rfl, rfl, rfl⟩ := h
          exact ⟨rfl, by omega⟩
        · intro h; cases h
        · intro r' h; cases h
      | paused => exact ⟨fun _ _ _ h => (by cases h), fun _ => rfl, fun _ h => by cases h⟩
      | error => exact ⟨fun _ _ _ h => (by cases h), fun _ => rfl, fun _ h => by cases h⟩
    | ok s =>
      have e1 := h1 buf
      rw [hx] at e1
      rw [e1]
      refine ⟨fun _ _ _ h => (by cases h), fun h => (by cases h), ?_⟩
      intro r' h
      simp only [afterCoded, Got.wait.injEq] at h
      subst h
      obtain ⟨g1, g2⟩ := l.headStays _ _ _ hd hx
      have g3 := l.resumed _ _ _ hx
      unfold getMessageSize
      rw [if_neg (by simp [g1])]
      have e2 := h1 (buf ++ x)
      rw [drop_app ho, l.more _ _ x _ hx] at e2
      rw [e2]
      unfold afterHead
      rw [if_neg hf, if_pos (show e.hasTE s = true from g2.trans ht)]
      simp only [g3, List.drop_left]
      cases e.exec s x with
      | ok s' => rfl
      | stop w p s' =>
        cases w with
        | complete =>
          simp only [Outcome.shift, List.length_drop, afterCoded]
          rw [show buf.length + p = r.bodyOffset + (buf.length - r.bodyOffset + p) by omega]
        | paused => rfl
        | error => rfl
  by_cases hn : (role.response && e.needsEof r.eng) = true
  · have h1 : ∀ (q : R σ) (b : Bytes), q.eng = r.eng → afterHead e role q b =
        if b.length - q.bodyOffset > MAX_BODY then .dead else .wait { q with closeDelimited := true } := by
      intro q b hq; unfold afterHead; rw [hq, if_neg hf, if_neg ht, if_pos hn]
    rw [h1 r buf rfl, h1 r (buf ++ x) rfl]
    by_cases hb : buf.length - r.bodyOffset > MAX_BODY
    · rw [if_pos hb, if_pos (by rw [List.length_append]; omega)]
      exact ⟨fun _ _ _ h => (by cases h), fun _ => rfl, fun _ h => by cases h⟩
    · rw [if_neg hb]
      refine ⟨fun _ _ _ h => (by cases h), fun h => (by cases h), ?_⟩
      intro r' h
      simp only [Got.wait.injEq] at h
      subst h
      unfold getMessageSize
      rw [if_neg (by simp [hd]), h1 { r with closeDelimited := true } _ rfl]
  · have h1 : ∀ b, afterHead e role r b = if b.length < r.bodyOffset + e.contentLength r.eng then .wait r
        else .message (r.bodyOffset + e.contentLength r.eng) r.eng ((b.drop r.bodyOffset).take (e.contentLength r.eng)) := by
      intro b; unfold afterHead; rw [if_neg hf, if_neg ht, if_neg hn]
    have e1 := h1 buf
    have e2 := h1 (buf ++ x)
    by_cases hb : buf.length < r.bodyOffset + e.contentLength r.eng
    · rw [if_pos hb] at e1
      rw [e1]
      refine ⟨fun _ _ _ h => (by cases h), fun h => (by cases h), ?_⟩
      intro r' h
      simp only [Got.wait.injEq] at h
      subst h
      unfold getMessageSize
      rw [if_neg (by simp [hd])]
    · rw [if_neg hb] at e1
      rw [if_neg (by rw [List.length_append]; omega), drop_app ho, List.take_append_of_le_length (by rw [List.length_drop]; omega)] at e2
      rw [e1, e2]
      refine ⟨?_, fun h => (by cases h), fun _ h => by cases h⟩
      rintro n s b h
      simp only [Got.message.injEq] at h
      obtain ⟨rfl, rfl, rfl⟩ := h
      exact ⟨rfl, by omega⟩

/-- From the start of a message: what is found is stable under more input, and waiting can be resumed. -/
theorem fresh_app (l : Lawful e) (buf x : Bytes) :
    (∀ n s b, getMessageSize e role (R.fresh e) buf = .message n s b →
      getMessageSize e role (R.fresh e) (buf ++ x) = .message n s b ∧ n ≤ buf.length) ∧
    (getMessageSize e role (R.fresh e) buf = .dead → getMessageSize e role (R.fresh e) (buf ++ x) = .dead) ∧
    (∀ r', getMessageSize e role (R.fresh e) buf = .wait r' →
      getMessageSize e role r' (buf ++ x) = getMessageSize e role (R.fresh e) (buf ++ x)) := by
  have h0 : e.headersDone (R.fresh e).eng = false := l.start
  have hun : ∀ b : Bytes, b ≠ [] → getMessageSize e role (R.fresh e) b = afterExec e role (R.fresh e) b (e.exec e.start b) := by
    intro b hb
    unfold getMessageSize
    rw [if_pos (by simp [h0]), if_neg (by simpa [R.fresh] using hb)]
    simp only [R.fresh, List.drop_zero]
  by_cases hb : buf = []
  · subst hb
    have e1 : getMessageSize e role (R.fresh e) [] = .wait (R.fresh e) := by
      unfold getMessageSize
      rw [if_pos (by simp [h0]), if_pos (by simp)]
    rw [e1]
    refine ⟨fun _ _ _ h => (by cases h), fun h => (by cases h), ?_⟩
    intro r' h
    simp only [Got.wait.injEq] at h
    subst h
    rfl
  · have e1 := hun buf hb
    have e2 := hun (buf ++ x) (by simp [hb])
    cases hx : e.exec e.start buf with
    | ok s =>
      rw [hx] at e1
      rw [e1]
      refine ⟨fun _ _ _ h => (by cases h), fun h => (by cases h), ?_⟩
      intro r' h
      simp only [afterExec, Got.wait.injEq] at h
      subst h
      have hs := l.head _ _ _ l.start hx
      rw [l.more _ _ x _ hx] at e2
      rw [e2]
      unfold getMessageSize
      rw [if_pos (by simp [hs])]
      by_cases hx0 : x = []
      · subst hx0
        rw [if_pos (by simp), l.empty]
        simp [Outcome.shift, afterExec]
      · rw [if_neg (by simpa using List.length_pos_iff.2 hx0)]
        simp only [List.drop_left]
        cases e.exec s x with
        | ok s' => rfl
        | stop w p s' =>
          simp only [Outcome.shift, afterExec, R.fresh, Nat.zero_add]
    | stop w p s =>
      obtain ⟨h2, h3⟩ := l.stopped _ _ x _ _ _ hx
      rw [hx] at e1
      rw [h2] at e2
      rw [e1, e2]
      by_cases hd : e.headersDone s = true
      · simp only [afterExec, hd, Bool.not_true, Bool.false_eq_true, if_false]
        exact afterHead_app l _ buf x (by simpa [R.fresh] using h3) hd
      · simp only [Bool.not_eq_true] at hd
        simp only [afterExec, hd, Bool.not_false, if_true]
        exact ⟨fun _ _ _ h => (by cases h), fun _ => trivial, fun _ h => by cases h⟩

/-! ### the whole connection -/

/-- The reader `r` stands for the octets `buf` of an unfinished message. -/
def Resumes (e : Engine σ) (role : Role) (r : R σ) (buf : Bytes) : Prop :=
  ∀ x, getMessageSize e role r (buf ++ x) = getMessageSize e role (R.fresh e) (buf ++ x)

theorem pump_congr {r r' : R σ} {buf : Bytes} (h : getMessageSize e role r buf = getMessageSize e role r' buf)
    {ms : List (σ × Bytes)} {fin} (p : Pump e role r buf ms fin) : Pump e role r' buf ms fin := by
  cases p with
  | wait g => exact .wait (h ▸ g)
  | dead g => exact .dead (h ▸ g)
  | message g t => exact .message (h ▸ g) t

theorem pump_functional {r : R σ} {buf : Bytes} {ms ms' : List (σ × Bytes)} {fin fin'} (p : Pump e role r buf ms fin)
    (p' : Pump e role r buf ms' fin') : ms = ms' ∧ fin = fin' := by
  induction p generalizing ms' fin' with
  | wait g =>
    cases p' with
    | wait g' => rw [g] at g'; cases g'; exact ⟨rfl, rfl⟩
    | dead g' => rw [g] at g'; cases g'
    | message g' _ => rw [g] at g'; cases g'
  | dead g =>
    cases p' with
    | wait g' => rw [g] at g'; cases g'
    | dead g' => exact ⟨rfl, rfl⟩
    | message g' _ => rw [g] at g'; cases g'
  | message g _ ih =>
    cases p' with
    | wait g' => rw [g] at g'; cases g'
    | dead g' => rw [g] at g'; cases g'
    | message g' t' =>
      rw [g] at g'; cases g'
      obtain ⟨rfl, rfl⟩ := ih t'
      exact ⟨rfl, rfl⟩

/-- What a pump found stays found when more octets follow, and the rest can be pumped later. -/
theorem pump_app (l : Lawful e) {r : R σ} {buf : Bytes} {ms : List (σ × Bytes)} {fin} (p : Pump e role r buf ms fin)
    (hr : Resumes e role r buf ∨ r = R.fresh e) (x : Bytes) :
    (fin = none → Pump e role (R.fresh e) (buf ++ x) ms none) ∧
    (∀ r' buf', fin = some (r', buf') → Resumes e role r' buf' ∧
      ∀ ms' fin', Pump e role (R.fresh e) (buf' ++ x) ms' fin' → Pump e role (R.fresh e) (buf ++ x) (ms ++ ms') fin') := by
  induction p with
  | @wait r r1 buf g =>
    have g0 : getMessageSize e role (R.fresh e) buf = .wait r1 := by
      rcases hr with hr | rfl
      · have := hr []; rw [List.append_nil] at this; rw [← this, g]
      · exact g
    refine ⟨fun h => by simp at h, ?_⟩
    intro r' buf' h
    simp only [Option.some.injEq, Prod.mk.injEq] at h
    obtain ⟨rfl, rfl⟩ := h
    exact ⟨fun y => (fresh_app l buf y).2.2 r1 g0, fun ms' fin' q => q⟩
  | @dead r buf g =>
    have g0 : getMessageSize e role (R.fresh e) buf = .dead := by
      rcases hr with hr | rfl
      · have := hr []; rw [List.append_nil] at this; rw [← this, g]
      · exact g
    exact ⟨fun _ => .dead ((fresh_app l buf x).2.1 g0), fun _ _ h => by simp at h⟩
  | @message r buf n s b ms fin g _ ih =>
    have g0 : getMessageSize e role (R.fresh e) buf = .message n s b := by
      rcases hr with hr | rfl
      · have := hr []; rw [List.append_nil] at this; rw [← this, g]
      · exact g
    obtain ⟨g1, g2⟩ := (fresh_app l buf x).1 n s b g0
    obtain ⟨i1, i2⟩ := ih (Or.inr rfl)
    constructor
    · intro h
      refine .message g1 ?_
      rw [drop_app g2]
      exact i1 h
    · intro r' buf' h
      obtain ⟨j1, j2⟩ := i2 r' buf' h
      refine ⟨j1, fun ms' fin' q => ?_⟩
      refine .message g1 ?_
      rw [drop_app g2]
      exact j2 ms' fin' q

/-- The messages of a connection, without its inner state: what was delivered, and whether it died. -/
theorem conn_pump (l : Lawful e) {r : R σ} {buf : Bytes} {reads : List Bytes} {ms : List (σ × Bytes)} {fin}
    (c : Conn e role r buf reads ms fin) (hr : Resumes e role r buf) :
    ∀ ms' fin', Pump e role (R.fresh e) (buf ++ reads.flatten) ms' fin' →
      (reads = [] → getMessageSize e role (R.fresh e) buf = .wait r → ms = ms') ∧
      (reads ≠ [] → ms = ms' ∧ (fin = none ↔ fin' = none)) := by
  induction c with
  | done =>
    intro ms' fin' p
    refine ⟨fun _ hw => ?_, fun h => absurd rfl h⟩
    simp only [List.flatten_nil, List.append_nil] at p
    exact (pump_functional (.wait hw) p).1
  | @died r buf read reads ms p =>
    intro ms' fin' p'
    refine ⟨fun h => by simp at h, fun _ => ?_⟩
    have hr' : Resumes e role r (buf ++ read) := by
      intro x; rw [List.append_assoc]; exact hr _
    have := (pump_app l p (Or.inl hr') reads.flatten).1 rfl
    rw [List.flatten_cons, ← List.append_assoc] at p'
    obtain ⟨h1, h2⟩ := pump_functional this p'
    exact ⟨h1, by simp [← h2]⟩
  | @read r buf read reads ms1 r' buf' ms2 fin p c ih =>
    intro ms' fin' p'
    refine ⟨fun h => by simp at h, fun _ => ?_⟩
    have hr' : Resumes e role r (buf ++ read) := by
      intro x; rw [List.append_assoc]; exact hr _
    obtain ⟨j1, j2⟩ := (pump_app l p (Or.inl hr') reads.flatten).2 r' buf' rfl
    rw [List.flatten_cons, ← List.append_assoc] at p'
    -- the pump after the first read leaves a reader that waits
    have hwait : getMessageSize e role (R.fresh e) buf' = .wait r' := by
      have key : ∀ {r : R σ} {buf : Bytes} {ms : List (σ × Bytes)} {fin}, Pump e role r buf ms fin →
          (getMessageSize e role r buf = getMessageSize e role (R.fresh e) buf) → ∀ r' buf', fin = some (r', buf') →
          getMessageSize e role (R.fresh e) buf' = .wait r' := by
        intro r buf ms fin p
        induction p with
        | wait g => intro h r' buf' hh; simp only [Option.some.injEq, Prod.mk.injEq] at hh; obtain ⟨rfl, rfl⟩ := hh; rw [← h, g]
        | dead g => intro _ _ _ hh; simp at hh
        | message g _ ih => intro _ r' buf' hh; exact ih rfl r' buf' hh
      refine key p ?_ r' buf' rfl
      have := hr' []
      simpa using this
    have hp : ∃ ms3 fin3, Pump e role (R.fresh e) (buf' ++ reads.flatten) ms3 fin3 := by
      have key : ∀ {r : R σ} {b : Bytes} {ms : List (σ × Bytes)} {fin}, Pump e role r b ms fin → Resumes e role r b ∨ r = R.fresh e →
          ∀ r' b', fin = some (r', b') → ∀ x ms' fin', Pump e role (R.fresh e) (b ++ x) ms' fin' →
          ∃ ms3 fin3, Pump e role (R.fresh e) (b' ++ x) ms3 fin3 := by
        intro r b ms fin p
        induction p with
        | wait g => intro _ r' b' hh x ms' fin' q; simp only [Option.some.injEq, Prod.mk.injEq] at hh; obtain ⟨rfl, rfl⟩ := hh; exact ⟨_, _, q⟩
        | dead g => intro _ _ _ hh; simp at hh
        | @message r b n s bd ms fin g _ ih =>
          intro hr r' b' hh x ms' fin' q
          have g0 : getMessageSize e role (R.fresh e) b = .message n s bd := by
            rcases hr with hr | rfl
            · have := hr []; rw [List.append_nil] at this; rw [← this, g]
            · exact g
          obtain ⟨g1, g2⟩ := (fresh_app l b x).1 n s bd g0
          cases q with
          | wait g' => rw [g1] at g'; cases g'
          | dead g' => rw [g1] at g'; cases g'
          | message g' t =>
            rw [g1] at g'; cases g'
            rw [drop_app g2] at t
            exact ih (Or.inr rfl) r' b' hh x _ _ t
      exact key p (Or.inl hr') r' buf' rfl reads.flatten ms' fin' p'
    obtain ⟨ms3, fin3, p3⟩ := hp
    obtain ⟨k1, k2⟩ := ih j1 ms3 fin3 p3
    obtain ⟨h1, h2⟩ := pump_functional (j2 ms3 fin3 p3) p'
    by_cases hreads : reads = []
    · subst hreads
      have h3 := k1 rfl hwait
      subst h3
      refine ⟨h1, ?_⟩
      simp only [List.flatten_nil, List.append_nil] at p3
      obtain ⟨q1, q2⟩ := pump_functional (.wait hwait) p3
      cases c
      rw [← h2, ← q2]
    · obtain ⟨h3, h4⟩ := k2 hreads
      subst h3
      exact ⟨h1, by rw [h4, h2]⟩

/-- A connection that has delivered nothing holds everything it has read, in a reader that waits. -/
theorem conn_end (l : Lawful e) {r : R σ} {buf : Bytes} {reads : List Bytes} {ms : List (σ × Bytes)} {r' : R σ} {buf' : Bytes}
    (c : Conn e role r buf reads ms (some (r', buf'))) (hr : Resumes e role r buf) (hms : ms = []) :
    buf' = buf ++ reads.flatten ∧ (reads ≠ [] → getMessageSize e role (R.fresh e) buf' = .wait r') := by
  generalize hfin : some (r', buf') = fin at c
  induction c with
  | done =>
    simp only [Option.some.injEq, Prod.mk.injEq] at hfin
    obtain ⟨rfl, rfl⟩ := hfin
    exact ⟨by simp, fun h => absurd rfl h⟩
  | died _ => simp at hfin
  | @read r buf read reads ms1 r1 buf1 ms2 fin p c ih =>
    obtain ⟨h1, h2⟩ := List.append_eq_nil_iff.1 hms
    subst h1
    have hr' : Resumes e role r (buf ++ read) := by
      intro x; rw [List.append_assoc]; exact hr _
    have j1 := ((pump_app l p (Or.inl hr') []).2 r1 buf1 rfl).1
    cases p with
    | wait g =>
      obtain ⟨i1, i2⟩ := ih j1 h2 hfin
      refine ⟨by rw [i1]; simp, fun _ => ?_⟩
      by_cases hre : reads = []
      · subst hre
        cases c
        simp only [Option.some.injEq, Prod.mk.injEq] at hfin
        obtain ⟨rfl, rfl⟩ := hfin
        have := hr' []
        rw [List.append_nil] at this
        rw [← this]; exact g
      · exact i2 hre

/-- C78: for a connection read in any pieces, the messages delivered, their bodies, and whether the
connection is refused are the same as if all octets had arrived in one read. -/
theorem C78_read_splitting (l : Lawful e) (reads : List Bytes) (hne : reads ≠ []) (ms ms' : List (σ × Bytes)) (fin fin')
    (h : Conn e role (R.fresh e) [] reads ms fin) (h' : Conn e role (R.fresh e) [] [reads.flatten] ms' fin') :
    ms = ms' ∧ (fin = none ↔ fin' = none) := by
  have hp : ∃ fin2, Pump e role (R.fresh e) ([] ++ reads.flatten) ms' fin2 ∧ (fin' = none ↔ fin2 = none) := by
    cases h' with
    | died p => exact ⟨none, p, by simp⟩
    | read p c => cases c; rw [List.append_nil]; exact ⟨_, p, by simp⟩
  obtain ⟨fin2, p, hf⟩ := hp
  obtain ⟨h1, h2⟩ := (conn_pump l h (fun x => rfl) ms' fin2 p).2 hne
  exact ⟨h1, h2.trans hf.symm⟩

/-! ## what is delivered -/

theorem fresh_head (l : Lawful e) {head : Bytes} {w : Stop} {s : σ} (h : e.exec e.start head = .stop w head.length s)
    (hd : e.headersDone s = true) (x : Bytes) :
    getMessageSize e role (R.fresh e) (head ++ x) =
      afterHead e role { eng := s, bodyOffset := head.length, headerParsed := 0, closeDelimited := false } (head ++ x) := by
  have hne : head ≠ [] := by
    rintro rfl
    rw [l.empty] at h; simp at h
  unfold getMessageSize
  have h0 : e.headersDone (R.fresh e).eng = false := l.start
  rw [if_pos (by simp [h0]), if_neg (by simp [R.fresh, hne])]
  simp only [R.fresh, List.drop_zero]
  rw [(l.stopped _ _ x _ _ _ h).1]
  simp only [afterExec, hd, Bool.not_true, Bool.false_eq_true, if_false, Nat.zero_add]

/-- C78, the content: the message that follows its head is delivered with exactly the octets its framing
assigns to it, and the octets after it are read as the next message. `head` is what the engine takes as the
head; the body is either coded, or has the length found in the head. -/
theorem C78_delivers (l : Lawful e) (head body rest : Bytes) (w : Stop) (s : σ)
    (h : e.exec e.start head = .stop w head.length s) (hd : e.headersDone s = true) (hf : (role.response && role.forbidden) = false)
    (ms : List (σ × Bytes)) (fin) (hrest : Pump e role (R.fresh e) rest ms fin) :
    (e.hasTE s = false → (role.response && e.needsEof s) = false → e.contentLength s = body.length →
      Pump e role (R.fresh e) (head ++ (body ++ rest)) ((s, body) :: ms) fin) ∧
    (∀ s', e.hasTE s = true → e.exec (e.resume s) body = .stop .complete body.length s' →
      Pump e role (R.fresh e) (head ++ (body ++ rest)) ((s', e.body s') :: ms) fin) := by
  constructor
  · intro h1 h2 h3
    refine .message (n := head.length + body.length) (s := s) (b := body) ?_ ?_
    · rw [fresh_head l h hd]
      unfold afterHead
      simp only [hf, h1, h2, Bool.false_eq_true, if_false, h3, List.length_append, List.drop_left]
      rw [if_neg (by omega), List.take_left]
    · rw [← List.append_assoc, ← List.length_append, List.drop_left]; exact hrest
  · intro s' h1 h2
    refine .message (n := head.length + body.length) (s := s') (b := e.body s') ?_ ?_
    · rw [fresh_head l h hd]
      unfold afterHead
      simp only [hf, h1, Bool.false_eq_true, if_false, if_true, List.drop_left]
      rw [(l.stopped _ _ rest _ _ _ h2).1]
      rfl
    · rw [← List.append_assoc, ← List.length_append, List.drop_left]; exact hrest

/-- C78, responses that must not have a body (to HEAD) end with their head. -/
theorem C78_forbidden (l : Lawful e) (head rest : Bytes) (w : Stop) (s : σ)
    (h : e.exec e.start head = .stop w head.length s) (hd : e.headersDone s = true) (hf : (role.response && role.forbidden) = true)
    (ms : List (σ × Bytes)) (fin) (hrest : Pump e role (R.fresh e) rest ms fin) :
    Pump e role (R.fresh e) (head ++ rest) ((s, []) :: ms) fin := by
  refine .message (n := head.length) ?_ (by rw [List.drop_left]; exact hrest)
  rw [fresh_head l h hd]
  unfold afterHead
  rw [if_pos hf]

/-- C78, responses delimited by the end of the connection: however they are read, nothing is delivered
before the connection ends, and then exactly the octets after the head are the body (up to 100 MiB; beyond,
the connection is refused). -/
theorem C78_until_close (l : Lawful e) (head body : Bytes) (w : Stop) (s : σ) (reads : List Bytes)
    (hr : reads.flatten = head ++ body) (h : e.exec e.start head = .stop w head.length s) (hd : e.headersDone s = true)
    (hf : (role.response && role.forbidden) = false) (ht : e.hasTE s = false) (hn : (role.response && e.needsEof s) = true)
    (ms : List (σ × Bytes)) (fin) (c : Conn e role (R.fresh e) [] reads ms fin) :
    ms = [] ∧ (body.length > 104857600 ↔ fin = none) ∧
    ∀ r buf, fin = some (r, buf) → flushEof e r buf = some (s, body) := by
  have hall : ∀ b, afterHead e role { eng := s, bodyOffset := head.length, headerParsed := 0, closeDelimited := false } (head ++ b) =
      if b.length > MAX_BODY then .dead
      else .wait { eng := s, bodyOffset := head.length, headerParsed := 0, closeDelimited := true } := by
    intro b
    unfold afterHead
    simp only [hf, ht, hn, Bool.false_eq_true, if_false, if_true, List.length_append, Nat.add_sub_cancel_left]
  have hm : MAX_BODY = 104857600 := rfl
  have hne : reads ≠ [] := by
    rintro rfl
    have : head = [] := by
      have := congrArg List.length hr
      simp at this
      exact List.length_eq_zero_iff.1 (by omega)
    subst this
    rw [l.empty] at h; simp at h
  by_cases hb : body.length > 104857600
  · have p : Pump e role (R.fresh e) ([] ++ reads.flatten) [] none := by
      refine .dead ?_
      rw [List.nil_append, hr, fresh_head l h hd, hall, if_pos (by rw [hm]; exact hb)]
    obtain ⟨h1, h2⟩ := (conn_pump l c (fun x => rfl) [] none p).2 hne
    have h3 : fin = none := h2.2 rfl
    exact ⟨h1, by simp [hb, h3], fun r buf hh => by rw [h3] at hh; simp at hh⟩
  · have p : Pump e role (R.fresh e) ([] ++ reads.flatten) [] (some (⟨s, head.length, 0, true⟩, head ++ body)) := by
      rw [List.nil_append, hr]
      refine .wait ?_
      rw [fresh_head l h hd, hall, if_neg (by rw [hm]; exact hb)]
    obtain ⟨h1, h2⟩ := (conn_pump l c (fun x => rfl) [] _ p).2 hne
    have h3 : fin ≠ none := fun hh => by simpa using h2.1 hh
    refine ⟨h1, by simp [hb, h3], ?_⟩
    intro r buf hh
    subst hh
    obtain ⟨g1, g2⟩ := conn_end l c (fun x => rfl) h1
    have g2 := g2 hne
    simp only [List.nil_append] at g1 g2
    rw [hr] at g1
    subst g1
    rw [fresh_head l h hd, hall, if_neg (by rw [hm]; exact hb)] at g2
    cases g2
    unfold flushEof
    simp only [hd, Bool.not_true, Bool.or_self, Bool.false_eq_true, if_false, List.length_append, List.drop_left]
    by_cases h0 : body = []
    · subst h0; simp
    · rw [if_pos (by have := List.length_pos_iff.2 h0; omega)]

/-- C78, an interrupted message: when the connection ends before the announced number of body octets came,
nothing is delivered, neither while reading nor at the end. -/
theorem C78_truncated (l : Lawful e) (head body : Bytes) (w : Stop) (s : σ) (reads : List Bytes)
    (hr : reads.flatten = head ++ body) (h : e.exec e.start head = .stop w head.length s) (hd : e.headersDone s = true)
    (hf : (role.response && role.forbidden) = false) (ht : e.hasTE s = false) (hn : (role.response && e.needsEof s) = false)
    (hshort : body.length < e.contentLength s)
    (ms : List (σ × Bytes)) (fin) (c : Conn e role (R.fresh e) [] reads ms fin) :
    ms = [] ∧ ∃ r, fin = some (r, head ++ body) ∧ flushEof e r (head ++ body) = none := by
  have hall : ∀ b : Bytes, b.length < e.contentLength s →
      afterHead e role { eng := s, bodyOffset := head.length, headerParsed := 0, closeDelimited := false } (head ++ b) =
      .wait { eng := s, bodyOffset := head.length, headerParsed := 0, closeDelimited := false } := by
    intro b hb
    unfold afterHead
    simp only [hf, ht, hn, Bool.false_eq_true, if_false, List.length_append]
    rw [if_pos (by omega)]
  have hne : reads ≠ [] := by
    rintro rfl
    have : head = [] := by
      have := congrArg List.length hr
      simp at this
      exact List.length_eq_zero_iff.1 (by omega)
    subst this
    rw [l.empty] at h; simp at h
  have p : Pump e role (R.fresh e) ([] ++ reads.flatten) [] (some (⟨s, head.length, 0, false⟩, head ++ body)) := by
    rw [List.nil_append, hr]
    refine .wait ?_
    rw [fresh_head l h hd, hall _ hshort]
  obtain ⟨h1, h2⟩ := (conn_pump l c (fun x => rfl) [] _ p).2 hne
  have h3 : fin ≠ none := fun hh => by simpa using h2.1 hh
  refine ⟨h1, ?_⟩
  cases fin with
  | none => exact absurd rfl h3
  | some rb =>
    obtain ⟨r, buf⟩ := rb
    obtain ⟨g1, g2⟩ := conn_end l c (fun x => rfl) h1
    have g2 := g2 hne
    simp only [List.nil_append] at g1 g2
    rw [hr] at g1
    subst g1
    rw [fresh_head l h hd, hall _ hshort] at g2
    cases g2
    exact ⟨_, rfl, by simp [flushEof]⟩

/-! ## a concrete engine -/

/-- One octet: go on, or stop. -/
inductive Step (σ : Type)
  | next (s : σ)
  | stop (why : Stop) (s : σ)

/-- Running an octet-by-octet machine. -/
def scan {σ} (step : σ → UInt8 → Step σ) : σ → Bytes → Outcome σ
  | s, [] => .ok s
  | s, c :: cs =>
    match step s c with
    | .next s' => (scan step s' cs).shift 1
    | .stop w s' => .stop w 1 s'

theorem shift_shift {σ} (a b : Nat) (o : Outcome σ) : (o.shift a).shift b = o.shift (b + a) := by
  cases o <;> simp [Outcome.shift, Nat.add_assoc]

theorem scan_more {σ} (step : σ → UInt8 → Step σ) (a : Bytes) : ∀ (s : σ) (b : Bytes) (s' : σ), scan step s a = .ok s' →
    scan step s (a ++ b) = (scan step s' b).shift a.length := by
  induction a with
  | nil => intro s b s' h; cases h; cases hb : scan step s b <;> simp [hb, Outcome.shift]
  | cons c a ih =>
    intro s b s' h
    simp only [List.cons_append, scan] at h ⊢
    cases hs : step s c with
    | stop w t => rw [hs] at h; simp at h
    | next t =>
      rw [hs] at h
      simp only at h ⊢
      cases ht : scan step t a with
      | stop w p u => rw [ht] at h; simp [Outcome.shift] at h
      | ok u =>
        rw [ht] at h
        simp only [Outcome.shift, Outcome.ok.injEq] at h
        subst h
        rw [ih t b u ht, shift_shift, List.length_cons, Nat.add_comm]

theorem scan_stop {σ} (step : σ → UInt8 → Step σ) (a : Bytes) : ∀ (s : σ) (b : Bytes) (w : Stop) (p : Nat) (s' : σ),
    scan step s a = .stop w p s' → scan step s (a ++ b) = .stop w p s' ∧ p ≤ a.length := by
  induction a with
  | nil => intro s b w p s' h; simp [scan] at h
  | cons c a ih =>
    intro s b w p s' h
    simp only [List.cons_append, scan] at h ⊢
    cases hs : step s c with
    | stop w' t =>
      rw [hs] at h
      simp only [Outcome.stop.injEq] at h ⊢
      exact ⟨h, by simp only [List.length_cons]; omega⟩
    | next t =>
      rw [hs] at h
      simp only at h ⊢
      cases ht : scan step t a with
      | ok u => rw [ht] at h; simp [Outcome.shift] at h
      | stop w' p' u =>
        rw [ht] at h
        obtain ⟨i1, i2⟩ := ih t b _ _ _ ht
        rw [i1]
        simp only [Outcome.shift, Outcome.stop.injEq] at h ⊢
        exact ⟨h, by simp only [List.length_cons]; omega⟩

/-- A toy engine: the head is one digit (the length of the body) `c` (a coded body that ends at `.`) or
`e` (a body until the end of the connection); anything else is an error. -/
structure Toy where
  headDone : Bool := false
  coded : Bool := false
  eof : Bool := false
  len : Nat := 0
  acc : Bytes := []
deriving DecidableEq

def toyStep (s : Toy) (c : UInt8) : Step Toy :=
  if !s.headDone then
    if c == c!"c" then .stop .paused { s with headDone := true, coded := true }
    else if c == c!"e" then .stop .paused { s with headDone := true, eof := true }
    else if c ≥ 48 && c ≤ 57 then .stop .paused { s with headDone := true, len := c.toNat - 48 }
    else .stop .error s
  else if c == c!"." then .stop .complete s
  else .next { s with acc := s.acc ++ [c] }

def toy : Engine Toy :=
  { start := {}, exec := scan toyStep, resume := id, headersDone := (·.headDone), hasTE := (·.coded), needsEof := (·.eof),
    contentLength := (·.len), body := (·.acc) }

theorem toy_keeps (a : Bytes) : ∀ (s s' : Toy), s.headDone = true → scan toyStep s a = .ok s' → s'.headDone = true ∧ s'.coded = s.coded := by
  induction a with
  | nil => intro s s' h e; cases e; exact ⟨h, rfl⟩
  | cons c a ih =>
    intro s s' h e
    simp only [scan, toyStep, h, Bool.not_true, Bool.false_eq_true, if_false] at e
    by_cases hc : (c == c!".") = true
    · rw [if_pos hc] at e; simp at e
    · rw [if_neg hc] at e
      simp only at e
      cases ht : scan toyStep { s with headDone := s.headDone, acc := s.acc ++ [c] } a with
      | stop w p u => simp only [h] at ht; rw [ht] at e; simp [Outcome.shift] at e
      | ok u =>
        have hi := ih _ u (by exact h) ht
        simp only [h] at ht
        rw [ht] at e
        simp only [Outcome.shift, Outcome.ok.injEq] at e
        subst e
        exact hi

theorem toy_lawful : Lawful toy where
  empty := fun _ => rfl
  more := fun s a b s' h => scan_more toyStep a s b s' h
  stopped := fun s a b w p s' h => scan_stop toyStep a s b w p s' h
  resumed := fun _ _ _ _ => rfl
  head := by
    intro s a s' h e
    cases a with
    | nil => cases e; exact h
    | cons c a =>
      have hh : s.headDone = false := h
      simp only [toy, scan, toyStep, hh, Bool.not_false, if_true] at e
      split at e
      · rename_i h1; split at h1
        · simp at h1
        · split at h1
          · simp at h1
          · split at h1 <;> simp at h1
      · simp at e
  headStays := fun s a s' h e => toy_keeps a s s' h e
  start := rfl

/-- C78's hypotheses are met: a length-delimited message followed by a coded one, in three reads. -/
example : ∃ ms r, Conn toy ⟨false, false⟩ (R.fresh toy) [] [b!"2a", b!"bcx", b!"y."] ms (some r) ∧ ms.map (·.2) = [b!"ab", b!"xy"] := by
  refine ⟨_, _, .read (.wait rfl) (.read (.message rfl (.wait rfl)) (.read (.message rfl (.wait rfl)) .done)), ?_⟩
  decide

/-- C78_until_close's hypotheses are met: a response without a length, in two reads. -/
example : ∃ r, Conn toy ⟨true, false⟩ (R.fresh toy) [] [b!"e2", b!"a."] [] (some (r, b!"e2a.")) ∧
    flushEof toy r b!"e2a." = some ({ headDone := true, eof := true }, b!"2a.") := by
  refine ⟨_, .read (.wait rfl) (.read (.wait rfl) .done), ?_⟩
  decide

/-- C78_truncated's hypotheses are met. -/
example : ∃ r, Conn toy ⟨false, false⟩ (R.fresh toy) [] [b!"3", b!"ab"] [] (some (r, b!"3ab")) ∧ flushEof toy r b!"3ab" = none := by
  refine ⟨_, .read (.wait rfl) (.read (.wait rfl) .done), ?_⟩
  decide

end Verif.Parse
