import Verif.Clp.LemmasResp
import Verif.Clp.LemmasSend

/-! What the client knows of its streams, against the log. -/

namespace Verif.Clp
open Verif.Stream
variable {x : Ext}

/-- Events of the client on a stream. -/
def Ev.about (j : Nat) : Ev → Bool
  | .request i _ _ _ | .trailers i _ | .data i _ _ | .response i _ _ _ | .streamError i _ => i == j
  | _ => false

theorem about_outcome {j : Nat} {e : Ev} (h : e.about j = false) : e.outcome j = false := by
  cases e <;> first | rfl | exact h

theorem about_ends {j : Nat} {e : Ev} (h : e.about j = false) : e.ends j = false := by
  cases e <;> first | rfl | exact h | (simp only [Ev.about] at h; simp [Ev.ends, h])

theorem about_body {j : Nat} {e : Ev} (h : e.about j = false) (l : List Ev) : bodyOn j (e :: l) = bodyOn j l := by
  cases e <;> first | rfl | (simp only [Ev.about, beq_eq_false_iff_ne, ne_eq] at h; simp [bodyOn, h])

theorem Ended.mono {j : Nat} {l l' : List Ev} (h : Ended j l) (hl : ∀ e ∈ l, e ∈ l') : Ended j l' := by
  rcases h with ⟨d, p, h⟩ | ⟨f, e, h⟩
  · exact .inl ⟨d, p, hl _ h⟩
  · exact .inr ⟨f, e, hl _ h⟩

theorem Swept.mono {j : Nat} {l l' : List Ev} (h : Swept j l) (hl : ∀ e ∈ l, e ∈ l') : Swept j l' := by
  obtain ⟨a, b, h1, h2⟩ := h
  exact ⟨a, b, h1, hl _ h2⟩

theorem ended_iff (j : Nat) (l : List Ev) : Ended j l ↔ ∃ e ∈ l, e.endedBy j = true := by
  constructor
  · rintro (⟨d, p, h⟩ | ⟨f, e, h⟩)
    · exact ⟨_, h, by simp [Ev.endedBy]⟩
    · exact ⟨_, h, by simp [Ev.endedBy]⟩
  · rintro ⟨e, h, h2⟩
    cases e with
    | rx i =>
      cases i <;> simp only [Ev.endedBy, Bool.and_eq_true, beq_iff_eq, Bool.false_eq_true] at h2
      · obtain ⟨h3, h4⟩ := h2; subst h3 h4; exact .inl ⟨_, _, h⟩
      · obtain ⟨h3, h4⟩ := h2; subst h3 h4; exact .inr ⟨_, _, h⟩
    | _ => simp [Ev.endedBy] at h2

structure StreamOk (l : List Ev) (j : Nat) (s : CStream) : Prop where
  req : ∃ b, Ev.request j s.req b (s.req.body.isEmpty && !announces s.req.headers) ∈ l
  one : ∀ q b f, Ev.request j q b f ∈ l → q = s.req
  out : s.dispatched = false → ∀ e ∈ l, e.outcome j = false
  disp : s.dispatched = true → ∃ e ∈ l, e.outcome j = true
  body : bodyOn j l = s.req.body.take s.offset
  off : s.offset ≤ s.req.body.length
  pend : s.pending = decide (s.offset < s.req.body.length)
  ends : s.endSent = false → ∀ e ∈ l, e.ends j = false
  ends' : s.endSent = true → ∃ e ∈ l, e.ends j = true
  early : s.offset < s.req.body.length → ∀ e ∈ l, e.ends j = true → ∃ b, e = .trailers j b
  tail : s.endSent = true → s.offset = s.req.body.length ∨ s.will = true
  wants : s.will = true → announces s.req.headers = true
  plain : s.will = false → announces s.req.headers = false ∨ s.offset = s.req.body.length
  endRecv : s.endRecv = true → Ended j l
  rst : s.rstRecv = true → Swept j l
  hcl : s.state = .halfClosedLocal → s.endSent = true
  hcr : s.state = .halfClosedRemote → s.endRecv = true
  closed : s.state = .closed → Swept j l ∨ s.endSent = true ∧ s.endRecv = true
  idle : s.state ≠ .idle
  rstSent : s.rstSent = false
  status : s.main = true → s.dispatched = false → 100 ≤ s.resp.status ∧ s.resp.status ≤ 999
  cl : s.dispatched = false → ClOk s.resp.headers s.cl
  noRst : since (Ev.cuts j) j l = false

theorem StreamOk.mono {l : List Ev} {j : Nat} {s : CStream} (h : StreamOk l j s) (e : Ev) (ha : e.about j = false) (hr : e.cuts j = false) : StreamOk (e :: l) j s := by
  have hl : ∀ a ∈ l, a ∈ e :: l := fun _ h => List.mem_cons_of_mem _ h
  have all : ∀ P : Ev → Prop, P e → (∀ a ∈ l, P a) → ∀ a ∈ e :: l, P a := fun P h1 h2 a h3 => by
    rcases List.mem_cons.1 h3 with h3 | h3
    · rw [h3]; exact h1
    · exact h2 a h3
  refine ⟨?_, fun q b f hm => ?_, fun hd => all _ (about_outcome ha) (h.out hd), fun hd => ?_, ?_, h.off, h.pend, fun he => all _ (about_ends ha) (h.ends he), fun he => ?_, fun ho => ?_, h.tail, h.wants, h.plain,
    fun he => (h.endRecv he).mono hl, fun hs => (h.rst hs).mono hl, h.hcl, h.hcr, fun hc => ?_, h.idle, h.rstSent, h.status, h.cl, ?_⟩
  · obtain ⟨b, hb⟩ := h.req; exact ⟨b, hl _ hb⟩
  · rcases List.mem_cons.1 hm with hm | hm
    · rw [← hm] at ha; simp [Ev.about] at ha
    · exact h.one q b f hm
  · obtain ⟨a, h1, h2⟩ := h.disp hd; exact ⟨a, hl _ h1, h2⟩
  · rw [about_body ha]; exact h.body
  · obtain ⟨a, h1, h2⟩ := h.ends' he; exact ⟨a, hl _ h1, h2⟩
  · refine all (fun a => a.ends j = true → ∃ b, a = .trailers j b) (fun h2 => ?_) (h.early ho)
    rw [about_ends ha] at h2; cases h2
  · rcases h.closed hc with h1 | h1
    · exact .inl (h1.mono hl)
    · exact .inr h1
  · simp [since, hr, h.noRst]

/-- Changes that leave the stream as it is to the application. -/
theorem StreamOk.same {l : List Ev} {j : Nat} {s s' : CStream} (h : StreamOk l j s) (m : Same l j s s') : StreamOk l j s' := by
  have hcl := h.cl
  have hst := h.status
  refine ⟨by rw [m.req]; exact h.req, by rw [m.req]; exact h.one, by rw [m.dispatched]; exact h.out, by rw [m.dispatched]; exact h.disp, by rw [m.req, m.offset]; exact h.body, by rw [m.req, m.offset]; exact h.off, ?_,
    by rw [m.endSent]; exact h.ends, by rw [m.endSent]; exact h.ends', by rw [m.req, m.offset]; exact h.early, by rw [m.endSent, m.req, m.offset, m.will]; exact h.tail, by rw [m.req, m.will]; exact h.wants, by rw [m.req, m.offset, m.will]; exact h.plain,
    fun he => ?_, fun hr => ?_, fun hs => by rw [m.endSent]; exact h.hcl (m.hcl hs), fun hs => ?_, fun hc => ?_, fun hi => h.idle (m.idle hi), by rw [m.rstSent]; exact h.rstSent, ?_, ?_, h.noRst⟩
  · rw [m.req, m.offset]
    rcases m.pending with e | e
    · rw [e]; exact h.pend
    · exact e
  · rcases m.fin he with e | e
    · exact h.endRecv e
    · exact e
  · rcases m.rst hr with e | e
    · exact h.rst e
    · exact e
  · rcases m.hcr hs with e | e
    · exact m.keep (h.hcr e)
    · exact e
  · rcases m.closed hc with e | e | ⟨e1, e2⟩
    · rcases h.closed e with e | ⟨e1, e2⟩
      · exact .inl e
      · exact .inr ⟨by rw [m.endSent]; exact e1, m.keep e2⟩
    · rcases m.rst e with e | e
      · exact .inl (h.rst e)
      · exact .inl e
    · refine .inr ⟨?_, e1⟩
      rcases e2 with e2 | e2
      · exact e2
      · rw [m.endSent]; exact h.hcl e2
  · intro hm hd
    rw [m.dispatched] at hd
    rcases m.mainOk hm with e | ⟨fs, e⟩
    · rcases m.block with ⟨e1, _⟩ | ⟨fs, e1⟩
      · rw [e1]; exact hst e hd
      · rw [e] at e1
        rw [(respBlock_status s true fs _ _ e1).1 rfl]
        exact hst e hd
    · exact (respBlock_status s false fs _ _ e).2 rfl
  · intro hd
    rw [m.dispatched] at hd
    rcases m.block with ⟨e1, e2⟩ | ⟨fs, e1⟩
    · rw [e1, e2]; exact hcl hd
    · exact respBlock_cl s s.main fs _ _ e1 (hcl hd)

/-- Why a stream that was opened is not known any more. -/
structure Evid (j : Nat) (l : List Ev) : Prop where
  shut : since (Ev.resets j) j l = true ∨ Swept j l ∨ (∃ e ∈ l, e.ends j = true) ∧ Ended j l
  told : (∃ e ∈ l, e.outcome j = true) ∨ Ended j l ∨ Swept j l

theorem Evid.mono {j : Nat} {l : List Ev} (h : Evid j l) (a : Ev) : Evid j (a :: l) := by
  have hl : ∀ e ∈ l, e ∈ a :: l := fun _ h => List.mem_cons_of_mem _ h
  refine ⟨?_, ?_⟩
  · rcases h.shut with h1 | h1 | ⟨⟨e, h1, h2⟩, h3⟩
    · left; simp [since, h1]
    · exact .inr (.inl (h1.mono hl))
    · exact .inr (.inr ⟨⟨e, hl _ h1, h2⟩, h3.mono hl⟩)
  · rcases h.told with ⟨e, h1, h2⟩ | h1 | h1
    · exact .inl ⟨e, hl _ h1, h2⟩
    · exact .inr (.inl (h1.mono hl))
    · exact .inr (.inr (h1.mono hl))

theorem mem_since {P : Ev → Bool} {j : Nat} : ∀ {post pre : List Ev} {e : Ev}, P e = true → (∃ a ∈ pre, a.opens j = true) → since P j (post ++ e :: pre) = true
  | [], pre, e, h, h2 => by
    have : pre.any (Ev.opens j) = true := List.any_eq_true.2 h2
    simp [since, h, this]
  | a :: post, pre, e, h, h2 => by
    have := mem_since (post := post) h h2
    simp [since, this]

structure Core (c : Conn x) : Prop where
  streams : ∀ j s, c.get j = some s → StreamOk c.log j s
  fresh : ∀ j, c.next ≤ j → ∀ e ∈ c.log, e.about j = false
  live : ∀ j q b f, Ev.request j q b f ∈ c.log → (∃ s, c.get j = some s) ∨ Evid j c.log

/-- Only the log grows, by an event that is of no stream. -/
theorem Core.note {c c' : Conn x} (i : Core c) (e : Ev) (hl : c'.log = e :: c.log) (hg : c'.get = c.get) (hn : c.next ≤ c'.next) (ha : ∀ j, e.about j = false) (hr : ∀ j, e.cuts j = true → c.get j = none) : Core c' := by
  refine ⟨fun j s hs => ?_, fun j hj a h => ?_, fun j q b f h => ?_⟩
  · rw [hg] at hs
    rw [hl]
    refine (i.streams j s hs).mono e (ha j) ?_
    cases h : e.cuts j with
    | false => rfl
    | true => rw [hr j h] at hs; cases hs
  · rw [hl] at h
    rcases List.mem_cons.1 h with h | h
    · rw [h]; exact ha j
    · exact i.fresh j (by omega) a h
  · rw [hl] at h
    rcases List.mem_cons.1 h with h | h
    · have := ha j; rw [← h] at this; simp [Ev.about] at this
    · rw [hg, hl]
      rcases i.live j q b f h with h | h
      · exact .inl h
      · exact .inr (h.mono e)

theorem Core.same {c c' : Conn x} (i : Core c) (hl : c'.log = c.log) (hg : c'.get = c.get) (hn : c.next ≤ c'.next) : Core c' := by
  refine ⟨fun j s hs => ?_, fun j hj a h => ?_, fun j q b f h => ?_⟩
  · rw [hg] at hs; rw [hl]; exact i.streams j s hs
  · rw [hl] at h; exact i.fresh j (by omega) a h
  · rw [hl] at h ⊢; rw [hg]; exact i.live j q b f h

/-- One stream changes. -/
theorem Core.upd {c c' : Conn x} (i : Core c) (sid : Nat) (s s' : CStream) (hs : c.get sid = some s) (hl : c'.log = c.log) (hg : ∀ j, c'.get j = if j = sid then some s' else c.get j) (hn : c'.next = c.next)
    (hok : StreamOk c.log sid s') : Core c' := by
  refine ⟨fun j t ht => ?_, fun j hj a h => ?_, fun j q b f h => ?_⟩
  · rw [hg] at ht; rw [hl]
    split at ht
    · rename_i e; cases ht; rw [e]; exact hok
    · exact i.streams j t ht
  · rw [hl] at h; exact i.fresh j (by omega) a h
  · rw [hl] at h ⊢
    rcases i.live j q b f h with h | h
    · left
      rw [hg]
      split
      · exact ⟨s', rfl⟩
      · exact h
    · exact .inr h

/-- One stream changes, with an event of this stream. -/
theorem Core.updE {c c' : Conn x} (i : Core c) (sid : Nat) (s s' : CStream) (e : Ev) (w : sid < c.next) (hl : c'.log = e :: c.log) (hg : ∀ j, c'.get j = if j = sid then some s' else c.get j) (hn : c'.next = c.next)
    (he : ∀ j, j ≠ sid → e.about j = false) (hc : ∀ j, e.cuts j = false) (hq : ∀ j, e.opens j = false) (hs : c.get sid = some s) (hok : StreamOk (e :: c.log) sid s') : Core c' := by
  refine ⟨fun j t ht => ?_, fun j hj a h => ?_, fun j q b f h => ?_⟩
  · rw [hg] at ht; rw [hl]
    split at ht
    · rename_i e; cases ht; rw [e]; exact hok
    · rename_i e2; exact (i.streams j t ht).mono e (he j e2) (hc j)
  · rw [hl] at h
    rcases List.mem_cons.1 h with h | h
    · rw [h]; exact he j (by omega)
    · exact i.fresh j (by omega) a h
  · rw [hl] at h
    rcases List.mem_cons.1 h with h | h
    · have := hq j; rw [← h] at this; simp [Ev.opens] at this
    · rcases i.live j q b f h with h | h
      · left
        rw [hg]
        split
        · exact ⟨s', rfl⟩
        · exact h
      · rw [hl]; exact .inr (h.mono e)

/-- A stream is erased. -/
theorem Core.del {c c' : Conn x} (i : Core c) (sid : Nat) (s : CStream) (hs : c.get sid = some s) (hl : c'.log = c.log) (hg : ∀ j, c'.get j = if j = sid then none else c.get j) (hn : c'.next = c.next) (hev : Evid sid c.log) : Core c' := by
  refine ⟨fun j t ht => ?_, fun j hj a h => ?_, fun j q b f h => ?_⟩
  · rw [hg] at ht; rw [hl]
    split at ht
    · cases ht
    · exact i.streams j t ht
  · rw [hl] at h; exact i.fresh j (by omega) a h
  · rw [hl] at h ⊢
    by_cases e : j = sid
    · right; rw [e]; exact hev
    · rw [hg, if_neg e]; exact i.live j q b f h

/-- A stream is erased, with an event of this stream. -/
theorem Core.delE {c c' : Conn x} (i : Core c) (sid : Nat) (e : Ev) (w : sid < c.next) (hl : c'.log = e :: c.log) (hg : ∀ j, c'.get j = if j = sid then none else c.get j) (hn : c'.next = c.next)
    (he : ∀ j, j ≠ sid → e.about j = false) (hc : ∀ j, j ≠ sid → e.cuts j = false) (hq : ∀ j, e.opens j = false) (hev : Evid sid (e :: c.log)) : Core c' := by
  refine ⟨fun j t ht => ?_, fun j hj a h => ?_, fun j q b f h => ?_⟩
  · rw [hg] at ht; rw [hl]
    split at ht
    · cases ht
    · rename_i e2; exact (i.streams j t ht).mono e (he j e2) (hc j e2)
  · rw [hl] at h
    rcases List.mem_cons.1 h with h | h
    · rw [h]; exact he j (by omega)
    · exact i.fresh j (by omega) a h
  · rw [hl] at h
    rcases List.mem_cons.1 h with h | h
    · have := hq j; rw [← h] at this; simp [Ev.opens] at this
    · by_cases e2 : j = sid
      · right; rw [e2, hl]; exact hev
      · rw [hg, if_neg e2, hl]
        rcases i.live j q b f h with h | h
        · exact .inl h
        · exact .inr (h.mono e)

theorem ne_beq {i j : Nat} (h : j ≠ i) : (i == j) = false := by simp; omega

/-- A stream that is closed has its evidence. -/
theorem StreamOk.evid {l : List Ev} {j : Nat} {s : CStream} (h : StreamOk l j s) (hc : s.state = .closed ∨ s.rstSent = true ∨ s.rstRecv = true) : Evid j l := by
  have h1 : Swept j l ∨ s.endSent = true ∧ s.endRecv = true := by
    rcases hc with e | e | e
    · exact h.closed e
    · rw [h.rstSent] at e; cases e
    · exact .inl (h.rst e)
  rcases h1 with h1 | ⟨h1, h2⟩
  · exact ⟨.inr (.inl h1), .inr (.inr h1)⟩
  · exact ⟨.inr (.inr ⟨h.ends' h1, h.endRecv h2⟩), .inr (.inl (h.endRecv h2))⟩

/-- A stream is erased, with two events of this stream. -/
theorem Core.delE2 {c c' : Conn x} (i : Core c) (sid : Nat) (e e2 : Ev) (w : sid < c.next) (hl : c'.log = e2 :: e :: c.log) (hg : ∀ j, c'.get j = if j = sid then none else c.get j) (hn : c'.next = c.next)
    (he : ∀ j, j ≠ sid → e.about j = false ∧ e2.about j = false) (hc : ∀ j, j ≠ sid → e.cuts j = false ∧ e2.cuts j = false) (hq : ∀ j, e.opens j = false ∧ e2.opens j = false) (hev : Evid sid (e2 :: e :: c.log)) : Core c' := by
  refine ⟨fun j t ht => ?_, fun j hj a h => ?_, fun j q b f h => ?_⟩
  · rw [hg] at ht; rw [hl]
    split at ht
    · cases ht
    · rename_i n; exact ((i.streams j t ht).mono e (he j n).1 (hc j n).1).mono e2 (he j n).2 (hc j n).2
  · rw [hl] at h
    rcases List.mem_cons.1 h with h | h
    · rw [h]; exact (he j (by omega)).2
    · rcases List.mem_cons.1 h with h | h
      · rw [h]; exact (he j (by omega)).1
      · exact i.fresh j (by omega) a h
  · rw [hl] at h
    rcases List.mem_cons.1 h with h | h
    · have := (hq j).2; rw [← h] at this; simp [Ev.opens] at this
    · rcases List.mem_cons.1 h with h | h
      · have := (hq j).1; rw [← h] at this; simp [Ev.opens] at this
      · by_cases n : j = sid
        · right; rw [n, hl]; exact hev
        · rw [hg, if_neg n, hl]
          rcases i.live j q b f h with h | h
          · exact .inl h
          · exact .inr ((h.mono e).mono e2)

theorem StreamOk.opened {l : List Ev} {j : Nat} {s : CStream} (h : StreamOk l j s) : ∃ a ∈ l, a.opens j = true := by
  obtain ⟨b, hb⟩ := h.req
  exact ⟨_, hb, by simp [Ev.opens]⟩

theorem take_add (b : Bytes) (o k : Nat) : b.take o ++ (b.drop o).take k = b.take (o + k) := by rw [List.take_add]

theorem take_full {b : Bytes} {o : Nat} (h : b.length ≤ o) : b.take o = b := List.take_of_length_le h

/-- A stream after a chunk of its body. -/
theorem StreamOk.chunk {l : List Ev} {j : Nat} {s : CStream} (h : StreamOk l j s) (k : Nat) (fin : Bool) (hk : 0 < k) (h1 : s.offset + k ≤ s.req.body.length) (hf : fin = (s.offset + k == s.req.body.length && !s.will)) :
    StreamOk (.data j ((s.req.body.drop s.offset).take k) fin :: l) j (s.sent k fin) := by
  have hl : ∀ a ∈ l, a ∈ Ev.data j ((s.req.body.drop s.offset).take k) fin :: l := fun _ h => List.mem_cons_of_mem _ h
  have hfin : fin = true → s.offset + k = s.req.body.length ∧ s.will = false := by
    intro e
    rw [e] at hf
    have := hf.symm
    simp only [Bool.and_eq_true, beq_iff_eq, Bool.not_eq_true'] at this
    exact this
  have hns : fin = true → s.endSent = false := by
    intro e
    cases hs : s.endSent with
    | false => rfl
    | true =>
      rcases h.tail hs with t | t
      · omega
      · rw [(hfin e).2] at t; cases t
  refine ⟨?_, fun q b f hm => ?_, fun hd a ha => ?_, fun hd => ?_, ?_, h1, rfl, fun he a ha => ?_, fun he => ?_, fun ho a ha => ?_, fun he => ?_, h.wants, fun hw => ?_, fun he => (h.endRecv he).mono hl, fun hs => (h.rst hs).mono hl,
    fun hs => ?_, fun hs => ?_, fun hc => ?_, fun hi => ?_, h.rstSent, h.status, h.cl, ?_⟩
  · obtain ⟨b, hb⟩ := h.req; exact ⟨b, hl _ hb⟩
  · rcases List.mem_cons.1 hm with hm | hm
    · cases hm
    · exact h.one q b f hm
  · rcases List.mem_cons.1 ha with ha | ha
    · rw [ha]; rfl
    · exact h.out hd a ha
  · obtain ⟨a, h1, h2⟩ := h.disp hd; exact ⟨a, hl _ h1, h2⟩
  · simp only [bodyOn, if_true]
    rw [h.body]
    exact take_add _ _ _
  · have he : (s.endSent || fin) = false := he
    simp only [Bool.or_eq_false_iff] at he
    rcases List.mem_cons.1 ha with ha | ha
    · rw [ha]; simp [Ev.ends, he.2]
    · exact h.ends he.1 a ha
  · have he : (s.endSent || fin) = true := he
    simp only [Bool.or_eq_true] at he
    rcases he with he | he
    · obtain ⟨a, h1, h2⟩ := h.ends' he; exact ⟨a, hl _ h1, h2⟩
    · exact ⟨_, List.mem_cons_self, by simp [Ev.ends, he]⟩
  · have ho : s.offset + k < s.req.body.length := ho
    rcases List.mem_cons.1 ha with ha | ha
    · intro h2
      rw [ha] at h2
      simp only [Ev.ends, beq_self_eq_true, Bool.true_and] at h2
      have := (hfin h2).1
      omega
    · exact h.early (by omega) a ha
  · have he : (s.endSent || fin) = true := he
    simp only [Bool.or_eq_true] at he
    rcases he with he | he
    · rcases h.tail he with t | t
      · omega
      · exact .inr t
    · exact .inl (hfin he).1
  · rcases h.plain hw with t | t
    · exact .inl t
    · omega
  · have hs : (if fin then sendEnd s.state else s.state) = .halfClosedLocal := hs
    show (s.endSent || fin) = true
    cases fin with
    | true => simp
    | false => simp only [Bool.false_eq_true, if_false] at hs; simp [h.hcl hs]
  · have hs : (if fin then sendEnd s.state else s.state) = .halfClosedRemote := hs
    cases fin with
    | true => cases e : s.state <;> simp [e, sendEnd] at hs
    | false => exact h.hcr hs
  · have hc : (if fin then sendEnd s.state else s.state) = .closed := hc
    show Swept j _ ∨ (s.endSent || fin) = true ∧ s.endRecv = true
    cases fin with
    | true =>
      cases e : s.state <;> simp only [e, sendEnd, if_true] at hc <;> try cases hc
      · exact .inr ⟨by simp, h.hcr e⟩
      · rcases h.closed e with t | t
        · exact .inl (t.mono hl)
        · exact .inr ⟨by simp, t.2⟩
    | false =>
      rcases h.closed hc with t | t
      · exact .inl (t.mono hl)
      · exact .inr ⟨by simp [t.1], t.2⟩
  · have hi : (if fin then sendEnd s.state else s.state) = .idle := hi
    cases fin with
    | true =>
      cases e : s.state <;> simp only [e, sendEnd, if_true] at hi <;> try cases hi
      exact h.idle e
    | false => exact h.idle hi
  · simp [since, Ev.cuts, h.noRst]

/-- A stream after its trailers. -/
theorem StreamOk.trailed {l : List Ev} {j : Nat} {s : CStream} (h : StreamOk l j s) (block : Bytes) (st : State) (w : Bool) (he : s.endSent = false) (hw : s.will = true)
    (hst : st = .halfClosedLocal ∧ s.offset = s.req.body.length ∧ w = false ∨ st = sendEnd s.state ∧ w = true) :
    StreamOk (.trailers j block :: l) j { s with endSent := true, state := st, will := w } := by
  have hl : ∀ a ∈ l, a ∈ Ev.trailers j block :: l := fun _ h => List.mem_cons_of_mem _ h
  refine ⟨?_, fun q b f hm => ?_, fun hd a ha => ?_, fun hd => ?_, h.body, h.off, h.pend, fun he => (by cases he), fun _ => ⟨_, List.mem_cons_self, by simp [Ev.ends]⟩, fun ho a ha => ?_, fun _ => ?_, fun _ => h.wants hw, fun hw2 => ?_,
    fun he => (h.endRecv he).mono hl, fun hs => (h.rst hs).mono hl, fun _ => rfl, fun hs => ?_, fun hc => ?_, fun hi => ?_, h.rstSent, h.status, h.cl, ?_⟩
  · obtain ⟨b, hb⟩ := h.req; exact ⟨b, hl _ hb⟩
  · rcases List.mem_cons.1 hm with hm | hm
    · cases hm
    · exact h.one q b f hm
  · rcases List.mem_cons.1 ha with ha | ha
    · rw [ha]; rfl
    · exact h.out hd a ha
  · obtain ⟨a, h1, h2⟩ := h.disp hd; exact ⟨a, hl _ h1, h2⟩
  · rcases List.mem_cons.1 ha with ha | ha
    · intro _; exact ⟨block, ha⟩
    · intro h2; rw [h.ends he a ha] at h2; cases h2
  · rcases hst with ⟨_, h2, _⟩ | ⟨_, h2⟩
    · exact .inl h2
    · exact .inr h2
  · rcases hst with ⟨_, h2, _⟩ | ⟨_, h2⟩
    · exact .inr h2
    · have hw2 : w = false := hw2
      rw [hw2] at h2; cases h2
  · have hs : st = .halfClosedRemote := hs
    rcases hst with ⟨h1, _, _⟩ | ⟨h1, _⟩
    · rw [h1] at hs; cases hs
    · rw [h1] at hs; cases e : s.state <;> simp [e, sendEnd] at hs
  · have hc : st = .closed := hc
    rcases hst with ⟨h1, _, _⟩ | ⟨h1, _⟩
    · rw [h1] at hc; cases hc
    · rw [h1] at hc
      cases e : s.state <;> simp only [e, sendEnd] at hc <;> try cases hc
      · exact .inr ⟨rfl, h.hcr e⟩
      · rcases h.closed e with t | t
        · exact .inl (t.mono hl)
        · rw [he] at t; cases t.1
  · have hi : st = .idle := hi
    rcases hst with ⟨h1, _, _⟩ | ⟨h1, _⟩
    · rw [h1] at hi; cases hi
    · rw [h1] at hi
      cases e : s.state <;> simp only [e, sendEnd] at hi <;> try cases hi
      exact h.idle e
  · simp [since, Ev.cuts, h.noRst]

/-- A stream whose response was handed over. -/
theorem StreamOk.done {l : List Ev} {j : Nat} {s : CStream} (h : StreamOk l j s) (app : Nat) (r : Resp) (code : Nat) : StreamOk (.response j app r code :: l) j s.done := by
  have hl : ∀ a ∈ l, a ∈ Ev.response j app r code :: l := fun _ h => List.mem_cons_of_mem _ h
  refine ⟨?_, fun q b f hm => ?_, fun hd => (by cases hd), fun _ => ⟨_, List.mem_cons_self, by simp [Ev.outcome]⟩, h.body, h.off, h.pend, fun he a ha => ?_, fun he => ?_, fun ho a ha => ?_, h.tail, h.wants, h.plain,
    fun he => (h.endRecv he).mono hl, fun hs => (h.rst hs).mono hl, fun hs => ?_, fun hs => ?_, fun hc => ?_, fun hi => ?_, h.rstSent, fun _ hd => (by cases hd), fun hd => (by cases hd), ?_⟩
  · obtain ⟨b, hb⟩ := h.req; exact ⟨b, hl _ hb⟩
  · rcases List.mem_cons.1 hm with hm | hm
    · cases hm
    · exact h.one q b f hm
  · rcases List.mem_cons.1 ha with ha | ha
    · rw [ha]; rfl
    · exact h.ends he a ha
  · obtain ⟨a, h1, h2⟩ := h.ends' he; exact ⟨a, hl _ h1, h2⟩
  · rcases List.mem_cons.1 ha with ha | ha
    · intro h2; rw [ha] at h2; cases h2
    · exact h.early ho a ha
  · simp only [CStream.done] at hs ⊢
    split at hs
    · cases hs
    · split at hs
      · cases hs
      · exact h.hcl hs
  · simp only [CStream.done] at hs ⊢
    split at hs
    · cases hs
    · split at hs
      · rename_i e; exact e
      · exact h.hcr hs
  · simp only [CStream.done] at hc ⊢
    split at hc
    · rename_i e
      simp only [Bool.and_eq_true] at e
      exact .inr e
    · split at hc
      · cases hc
      · rcases h.closed hc with t | t
        · exact .inl (t.mono hl)
        · exact .inr t
  · simp only [CStream.done] at hi
    split at hi
    · cases hi
    · split at hi
      · cases hi
      · exact h.idle hi
  · simp [since, Ev.cuts, h.noRst]

/-- A new stream. -/
theorem StreamOk.new {l : List Ev} {c : Conn x} (q : Req) (block : Bytes) (hf : ∀ e ∈ l, e.about c.next = false) :
    StreamOk (.request c.next q block (q.body.isEmpty && !announces q.headers) :: l) c.next (newStream c q (q.body.isEmpty && !announces q.headers)) := by
  have hb : ∀ l : List Ev, (∀ e ∈ l, e.about c.next = false) → bodyOn c.next l = [] := by
    intro l
    induction l with
    | nil => intro _; rfl
    | cons a l ih => intro h; rw [about_body (h a (by simp))]; exact ih fun e he => h e (by simp [he])
  have hno : ∀ l : List Ev, (∀ e ∈ l, e.about c.next = false) → l.any (Ev.opens c.next) = false ∧ since (Ev.cuts c.next) c.next l = false := by
    intro l
    induction l with
    | nil => intro _; exact ⟨rfl, rfl⟩
    | cons a l ih =>
      intro h
      have h1 := ih fun e he => h e (by simp [he])
      have h2 : a.opens c.next = false := by
        have := h a (by simp)
        cases a <;> first | rfl | exact this
      simp [since, h1, h2]
  generalize hfin : (q.body.isEmpty && !announces q.headers) = fin
  refine ⟨⟨block, by rw [show (newStream c q fin).req = q from rfl, hfin]; exact List.mem_cons_self⟩, fun q' b f hm => ?_, fun _ a ha => ?_, fun hd => (by cases hd), ?_, Nat.zero_le _, ?_, fun he a ha => ?_, fun he => ?_, fun ho a ha => ?_, fun he => ?_, id, fun h => .inl h,
    fun h => (by cases h), fun h => (by cases h), fun h => ?_, fun h => ?_, fun h => ?_, fun h => ?_, rfl, fun h => (by cases h), fun _ e he => (by cases he), ?_⟩
  · rcases List.mem_cons.1 hm with hm | hm
    · cases hm; rfl
    · have := hf _ hm; simp [Ev.about] at this
  · rcases List.mem_cons.1 ha with ha | ha
    · rw [ha]; rfl
    · exact about_outcome (hf a ha)
  · simp only [bodyOn]
    rw [hb l hf]
    rfl
  · have hb2 : ∀ b : Bytes, (!b.isEmpty) = decide (0 < b.length) := by intro b; cases b <;> simp
    exact hb2 q.body
  · rcases List.mem_cons.1 ha with ha | ha
    · have he : fin = false := he
      rw [ha]; simp [Ev.ends, he]
    · exact about_ends (hf a ha)
  · have he : fin = true := he
    exact ⟨_, List.mem_cons_self, by simp [Ev.ends, he]⟩
  · have ho : 0 < q.body.length := ho
    intro h2
    rcases List.mem_cons.1 ha with ha | ha
    · rw [ha] at h2
      simp only [Ev.ends, beq_self_eq_true, Bool.true_and] at h2
      rw [h2] at hfin
      simp only [Bool.and_eq_true, List.isEmpty_iff] at hfin
      rw [hfin.1] at ho; cases ho
    · rw [about_ends (hf a ha)] at h2; cases h2
  · left
    have he : fin = true := he
    rw [he] at hfin
    simp only [Bool.and_eq_true, List.isEmpty_iff] at hfin
    simp [newStream, hfin.1]
  · have h : (if fin then State.halfClosedLocal else .open_) = .halfClosedLocal := h
    show fin = true
    cases fin with
    | true => rfl
    | false => cases h
  all_goals first
    | (simp [since, Ev.cuts, hno l hf]; done)
    | (simp only [newStream] at h; cases fin <;> cases h)

theorem since_head {P : Ev → Bool} {j : Nat} {a : Ev} {l : List Ev} (h : P a = true) (ho : ∃ e ∈ l, e.opens j = true) : since P j (a :: l) = true := by
  have : l.any (Ev.opens j) = true := List.any_eq_true.2 ho
  simp [since, h, this]

theorem opened_tail {j : Nat} {a : Ev} {l : List Ev} (h : ∃ e ∈ a :: l, e.opens j = true) (ha : a.opens j = false) : ∃ e ∈ l, e.opens j = true := by
  obtain ⟨e, h1, h2⟩ := h
  rcases List.mem_cons.1 h1 with h1 | h1
  · rw [h1, ha] at h2; cases h2
  · exact ⟨e, h1, h2⟩

theorem core_micro {c c' : Conn x} {p p' : Option In} (w : Wf c) (m : Micro c p c' p') (i : Core c) : Core c' := by
  cases m
  case take j hj hi => exact i.note (.rx j) rfl rfl (Nat.le_refl _) (fun _ => rfl) (fun _ h => by cases h)
  case takeGoaway last code hj => exact i.note (.rx (.goaway last code)) rfl rfl (Nat.le_refl _) (fun _ => rfl) (fun _ h => by cases h)
  case refuse j hj => exact i.note (.rx j) rfl rfl (Nat.le_refl _) (fun _ => rfl) (fun _ h => by cases h)
  case close last code ho =>
    have i1 : Core (c.add (.goaway last code)) := i.note _ rfl rfl (Nat.le_refl _) (fun _ => rfl) (fun _ h => by cases h)
    exact i1.note (.goawayEvent code last) rfl rfl (Nat.le_refl _) (fun _ => rfl) (fun _ h => by cases h)
  case note e h hw hr =>
    refine i.note e rfl rfl (Nat.le_refl _) (fun j => ?_) (fun j hj => ?_)
    · cases e <;> first | rfl | (simp [Ev.neutral] at h)
    · cases e <;> first | (cases hj; done) | skip
      rename_i a b
      have : a = j := by simpa [Ev.cuts] using hj
      rw [← this]; exact hr a b rfl
  case reply e h hc => rcases h with h | ⟨⟨d, h⟩, _⟩ <;> subst h <;> exact i.note _ rfl rfl (Nat.le_refl _) (fun _ => rfl) (fun _ h => by cases h)
  case burn e => exact i.same rfl rfl (by show c.next ≤ c.next + 2; omega)
  case opens q block e _ _ _ _ =>
    have ok := StreamOk.new (x := x) (c := c) q block (l := c.log) (i.fresh c.next (Nat.le_refl _))
    refine ⟨fun j s hs => ?_, fun j hj a h => ?_, fun j q' b f h => ?_⟩
    · replace hs : (if j = c.next then some (newStream c q (q.body.isEmpty && !announces q.headers)) else c.get j) = some s := hs
      split at hs
      · rename_i e; cases hs; rw [e]; exact ok
      · rename_i e
        exact (i.streams j s hs).mono _ (ne_beq e) rfl
    · have hj : c.next + 2 ≤ j := hj
      rcases List.mem_cons.1 h with h | h
      · rw [h]; exact ne_beq (by omega)
      · exact i.fresh j (by omega) a h
    · show (∃ s, (if j = c.next then some (newStream c q (q.body.isEmpty && !announces q.headers)) else c.get j) = some s) ∨ _
      split
      · exact .inl ⟨_, rfl⟩
      · rename_i e
        rcases List.mem_cons.1 h with h | h
        · cases h; exact absurd rfl e
        · rcases i.live j q' b f h with h | h
          · exact .inl h
          · exact .inr (h.mono _)
  case chunk sid s k fin hs hk h1 h2 h3 h4 hf ho ha =>
    exact i.updE sid s (s.sent k fin) (.data sid ((s.req.body.drop s.offset).take k) fin) (w.keys sid s hs).1 rfl (fun _ => rfl) rfl (fun j hj => ne_beq hj) (fun _ => rfl) (fun _ => rfl) hs ((i.streams sid s hs).chunk k fin hk h1 hf)
  case ownTrailers sid s block hs he hw hp _ _ =>
    have st := i.streams sid s hs
    have hoff : s.offset = s.req.body.length := by
      have h1 := st.pend; have h2 := st.off
      rw [hp] at h1
      have := (decide_eq_false_iff_not.1 h1.symm)
      omega
    exact i.updE sid s _ (.trailers sid block) (w.keys sid s hs).1 rfl (fun _ => rfl) rfl (fun j hj => ne_beq hj) (fun _ => rfl) (fun _ => rfl) hs (st.trailed block .halfClosedLocal false he hw (.inl ⟨rfl, hoff, rfl⟩))
  case apiTrailers sid s block hs he hw =>
    have st := (i.streams sid s hs).trailed block (sendEnd s.state) s.will he hw (.inr ⟨rfl, hw⟩)
    exact i.updE sid s _ (.trailers sid block) (w.keys sid s hs).1 rfl (fun _ => rfl) rfl (fun j hj => ne_beq hj) (fun _ => rfl) (fun _ => rfl) hs st
  case creditS sid s inc h0 hs =>
    have st := i.streams sid s hs
    exact i.upd sid s { s with peerW := s.peerW + (inc : Int) } hs rfl (fun _ => rfl) rfl ⟨st.req, st.one, st.out, st.disp, st.body, st.off, st.pend, st.ends, st.ends', st.early, st.tail, st.wants, st.plain, st.endRecv, st.rst, st.hcl, st.hcr, st.closed, st.idle, st.rstSent, st.status, st.cl, st.noRst⟩
  case shift v es hv =>
    refine ⟨fun j t ht => ?_, i.fresh, fun j q b f h => ?_⟩
    · simp only [Option.map_eq_some_iff] at ht
      obtain ⟨s, h1, h2⟩ := ht
      subst h2
      have st := i.streams j s h1
      exact ⟨st.req, st.one, st.out, st.disp, st.body, st.off, st.pend, st.ends, st.ends', st.early, st.tail, st.wants, st.plain, st.endRecv, st.rst, st.hcl, st.hcr, st.closed, st.idle, st.rstSent, st.status, st.cl, st.noRst⟩
    · rcases i.live j q b f h with ⟨s, h⟩ | h
      · left; simp [h]
      · exact .inr h
  case accept sid s d pad fin hs _ _ _ =>
    have st := i.streams sid s hs
    exact i.upd sid s (s.accept (d.length + pad) d) hs rfl (fun _ => rfl) rfl ⟨st.req, st.one, st.out, st.disp, st.body, st.off, st.pend, st.ends, st.ends', st.early, st.tail, st.wants, st.plain, st.endRecv, st.rst, st.hcl, st.hcr, st.closed, st.idle, st.rstSent, st.status, st.cl, st.noRst⟩
  case wu0 => exact i.note (.windowUpdate 0 c.processed) rfl rfl (Nat.le_refl _) (fun _ => rfl) (fun _ h => by cases h)
  case wuS sid s hs _ _ _ =>
    have i1 : Core (c.add (.windowUpdate sid s.processed)) := i.note _ rfl rfl (Nat.le_refl _) (fun _ => rfl) (fun _ h => by cases h)
    have st := i1.streams sid s hs
    exact i1.upd sid s { s with localW := s.localW + (s.processed : Int), processed := 0 } hs rfl (fun _ => rfl) rfl ⟨st.req, st.one, st.out, st.disp, st.body, st.off, st.pend, st.ends, st.ends', st.early, st.tail, st.wants, st.plain, st.endRecv, st.rst, st.hcl, st.hcr, st.closed, st.idle, st.rstSent, st.status, st.cl, st.noRst⟩
  case mark sid s s' hs h => exact i.upd sid s s' hs rfl (fun _ => rfl) rfl ((i.streams sid s hs).same h)
  case told sid s code hs hd hr ho =>
    obtain ⟨t, ht⟩ := hr
    have op := (i.streams sid s hs).opened
    rw [ht] at op
    refine i.delE sid (.streamError sid code) (w.keys sid s hs).1 rfl (fun _ => rfl) rfl (fun j hj => ne_beq hj) (fun _ _ => rfl) (fun _ => rfl) ⟨.inl ?_, .inl ⟨_, List.mem_cons_self, by simp [Ev.outcome]⟩⟩
    rw [ht]
    have := since_head (P := Ev.resets sid) (j := sid) (a := .rx (.rst sid code)) (l := t) (by simp [Ev.resets]) (opened_tail op rfl)
    simp [since] at this ⊢
    exact .inr this
  case cut sid s code hs hd ho =>
    have op := (i.streams sid s hs).opened
    refine i.delE2 sid (.rst sid code) (.streamError sid code) (w.keys sid s hs).1 rfl (fun _ => rfl) rfl (fun j hj => ⟨rfl, ne_beq hj⟩) (fun j hj => ⟨ne_beq hj, rfl⟩) (fun _ => ⟨rfl, rfl⟩) ⟨.inl ?_, .inl ⟨_, List.mem_cons_self, by simp [Ev.outcome]⟩⟩
    have := since_head (P := Ev.resets sid) (j := sid) (a := .rst sid code) (l := c.log) (by simp [Ev.resets]) op
    show since (Ev.resets sid) sid (_ :: _) = true
    rw [since, this]; simp
  case cutDone sid s code hs hd ho =>
    have op := (i.streams sid s hs).opened
    obtain ⟨a, h1, h2⟩ := (i.streams sid s hs).disp hd
    exact i.delE sid (.rst sid code) (w.keys sid s hs).1 rfl (fun _ => rfl) rfl (fun j hj => rfl) (fun j hj => ne_beq hj) (fun _ => rfl)
      ⟨.inl (since_head (by simp [Ev.resets]) op), .inl ⟨a, List.mem_cons_of_mem _ h1, h2⟩⟩
  case forget sid s hs hd hr =>
    obtain ⟨a, h1, h2⟩ := (i.streams sid s hs).disp hd
    refine i.del sid s hs rfl (fun _ => rfl) rfl ?_
    rcases hr with ⟨code, t, ht⟩ | hr
    · have op := (i.streams sid s hs).opened
      refine ⟨.inl ?_, .inl ⟨a, h1, h2⟩⟩
      rw [ht] at op ⊢
      exact since_head (by simp [Ev.resets]) (opened_tail op rfl)
    · exact (i.streams sid s hs).evid hr
  case lose sid s hs hd h => exact i.del sid s hs rfl (fun _ => rfl) rfl ((i.streams sid s hs).evid h)
  case dispatch sid s hs hd hm he ht ho hp hc =>
    have st := (i.streams sid s hs).done s.req.app s.resp (if s.rstRecv then s.err else NO_ERROR)
    cases ha : s.after with
    | none =>
      refine i.delE sid (.response sid s.req.app s.resp (if s.rstRecv then s.err else NO_ERROR)) (w.keys sid s hs).1 rfl (fun _ => rfl) rfl (fun j hj => ne_beq hj) (fun _ _ => rfl) (fun _ => rfl) ?_
      refine st.evid ?_
      unfold CStream.after at ha
      split at ha
      · rename_i h
        simp only [Bool.or_eq_true, beq_iff_eq] at h
        rcases h with (h | h) | h
        · exact .inl h
        · exact .inr (.inl h)
        · exact .inr (.inr h)
      · cases ha
    | some t =>
      have e : t = s.done := by
        unfold CStream.after at ha
        split at ha
        · cases ha
        · cases ha; rfl
      rw [e]
      exact i.updE sid s s.done (.response sid s.req.app s.resp (if s.rstRecv then s.err else NO_ERROR)) (w.keys sid s hs).1 rfl (fun _ => rfl) rfl (fun j hj => ne_beq hj) (fun _ => rfl) (fun _ => rfl) hs st
  all_goals exact i.same rfl rfl (Nat.le_refl _)

end Verif.Clp
