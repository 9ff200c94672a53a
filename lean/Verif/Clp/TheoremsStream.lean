import Verif.Clp.LemmasClaim

/-! C166: opening streams; C167: outcomes; C168: responses; C169: request bodies. -/

namespace Verif.Clp
open Verif.Stream
open Verif.Utility.Spec (lower)
variable {x : Ext}

/-- What every event satisfies, in relation to those before it. -/
def Claim (e : Ev) (pre : List Ev) : Prop := match e with
  | .request sid q _ fin => sid % 2 = 1 ∧ (∀ a ∈ pre, a.isGoaway = false) ∧ (∀ j q' b f, Ev.request j q' b f ∈ pre → j < sid) ∧ fin = (q.body.isEmpty && !announces q.headers) ∧
      ∃ m ∈ inForce 3 pre, ∀ js : List Nat, js.Nodup → (∀ j ∈ js, isOpen pre j = true) → js.length < m
  | .data sid d fin => ∃ q b, Ev.request sid q b false ∈ pre ∧ (bodyOn sid pre ++ d) <+: q.body ∧ (∀ a ∈ pre, a.ends sid = true → ∃ blk, a = .trailers sid blk) ∧
      (fin = true ↔ bodyOn sid pre ++ d = q.body ∧ announces q.headers = false) ∧ (fin = true → ∀ a ∈ pre, a.ends sid = false)
  | .trailers sid _ => ∃ q b f, Ev.request sid q b f ∈ pre ∧ announces q.headers = true ∧ ∀ a ∈ pre, a.ends sid = false
  | .response sid app r code => (∀ a ∈ pre, a.outcome sid = false) ∧ ∃ q b f, Ev.request sid q b f ∈ pre ∧ q.app = app ∧ r.body = gotOn sid pre ∧ 100 ≤ r.status ∧ r.status ≤ 999 ∧ (Ended sid pre ∧ code = 0 ∨ Swept sid pre) ∧
      (measured q.method r.status → ∀ h ∈ r.headers, h.1.map lower = b!"content-length" → ∀ v ∈ h.2, ∃ n, parseContentLength v = some n ∧ n.toNat = r.body.length)
  | .streamError sid code => (∀ a ∈ pre, a.outcome sid = false) ∧ (∃ q b f, Ev.request sid q b f ∈ pre) ∧ (Ev.rst sid code ∈ pre ∨ Ev.rx (.rst sid code) ∈ pre)
  | _ => True

structure Whole (c : Conn x) (p : Option In) : Prop where
  core : Core c
  got : c.ok = true → GotInv c p
  away : AwayInv c
  rst : c.ok = true → RstInv c p
  s3 : c.ok = true → SetInv 3 c p
  claims : Always Claim c.log

/-- Every open stream is one that counts. -/
theorem open_counts {c : Conn x} (w : Wf c) (i : Core c) (a : AwayInv c) (ho : c.ok = true) (hg : c.goawayRecv = false) (j : Nat) (h : isOpen c.log j = true) :
    j ∈ (List.range c.next).filter fun j => j % 2 != 0 && (match c.get j with | some s => s.counts | none => false) := by
  simp only [isOpen, Bool.and_eq_true, Bool.not_eq_true', List.any_eq_true, Bool.and_eq_false_iff] at h
  obtain ⟨⟨⟨e, he, hop⟩, hr⟩, hx⟩ := h
  have sw : ¬ Swept j c.log := fun ⟨l, k, _, hm⟩ => a.recv ho hg l k hm
  have shut : ¬ ((∃ e ∈ c.log, e.ends j = true) ∧ Ended j c.log) := by
    rintro ⟨h1, h2⟩
    rw [ended_iff] at h2
    rcases hx with hx | hx
    · rw [List.any_eq_true.2 h1] at hx; cases hx
    · rw [List.any_eq_true.2 h2] at hx; cases hx
  have hreq : ∃ q b f, Ev.request j q b f ∈ c.log := by
    cases e <;> simp only [Ev.opens, Bool.false_eq_true, beq_iff_eq] at hop
    subst hop; exact ⟨_, _, _, he⟩
  obtain ⟨q, b, f, hm⟩ := hreq
  rcases i.live j q b f hm with ⟨s, hs⟩ | ev
  · have st := i.streams j s hs
    have k := w.keys j s hs
    have hc : s.counts = true := by
      have h1 : s.state ≠ .closed := by
        intro e
        rcases st.closed e with t | t
        · exact sw t
        · exact shut ⟨st.ends' t.1, st.endRecv t.2⟩
      have h2 : s.rstRecv = false := by
        cases e : s.rstRecv with
        | false => rfl
        | true => exact absurd (st.rst e) sw
      simp [CStream.counts, st.idle, h1, st.rstSent, h2]
    simp only [List.mem_filter, List.mem_range]
    refine ⟨k.1, ?_⟩
    rw [hs]
    simp [hc, k.2]
  · rcases ev.shut with t | t | t
    · rw [t] at hr; cases hr
    · exact absurd t sw
    · exact absurd t shut

theorem claims_note {c c' : Conn x} {e : Ev} (h : Always Claim c.log) (hl : c'.log = e :: c.log) (he : Claim e c.log) : Always Claim c'.log := by rw [hl]; exact ⟨he, h⟩

theorem dispatched_none {l : List Ev} {j : Nat} (h : ∀ e ∈ l, e.outcome j = false) : ∀ a ∈ l, a.outcome j = false := h

theorem whole_micro {c c' : Conn x} {p p' : Option In} (w : Wf c) (m : Micro c p c' p') (i : Whole c p) : Whole c' p' := by
  refine ⟨core_micro w m i.core, got_micro w m i.got, away_micro m i.away, rst_micro w m i.rst, set_micro (.inl rfl) m i.s3, ?_⟩
  have h := i.claims
  cases m
  case note e hn hw hr => cases e <;> first | exact ⟨trivial, h⟩ | (simp [Ev.neutral] at hn)
  case reply e hn hc => rcases hn with hn | ⟨⟨d, hn⟩, _⟩ <;> subst hn <;> exact ⟨trivial, h⟩
  case opens q block e ho ha hg hm =>
    refine ⟨⟨w.odd, fun a ha => ?_, fun j q' b f hj => ?_, rfl, c.peerMaxConc, (i.s3 ho).via _ (through_mem _ _ _), fun js hn hjs => ?_⟩, h⟩
    · cases e : a.isGoaway with
      | false => rfl
      | true =>
        exfalso
        cases a <;> simp only [Ev.isGoaway, Bool.false_eq_true] at e
        · rename_i j
          cases j <;> simp only [Bool.false_eq_true] at e
          exact i.away.recv ho hg _ _ ha
        · exact i.away.wrote ho _ _ ha
    · cases Nat.lt_or_ge j c.next with
      | inl h1 => exact h1
      | inr h1 => have := i.core.fresh j h1 _ hj; simp [Ev.about] at this
    · refine Nat.lt_of_le_of_lt (List.Nodup.length_le_of_subset hn ?_) hm
      intro j hj
      exact open_counts w i.core i.away ho hg j (hjs j hj)
  case chunk sid s k fin hs hk h1 h2 h3 h4 hf ho ha =>
    have st := i.core.streams sid s hs
    have hb : bodyOn sid c.log ++ (s.req.body.drop s.offset).take k = s.req.body.take (s.offset + k) := by rw [st.body]; exact take_add _ _ _
    have hfull : s.req.body.take (s.offset + k) = s.req.body ↔ s.offset + k = s.req.body.length := by
      constructor
      · intro e
        have := congrArg List.length e
        simp at this
        omega
      · intro e; exact take_full (by omega)
    have hfin : fin = true ↔ s.offset + k = s.req.body.length ∧ s.will = false := by
      rw [hf]; simp
    refine ⟨?_, h⟩
    obtain ⟨b, hb2⟩ := st.req
    have hne : (s.req.body.isEmpty && !announces s.req.headers) = false := by
      cases e : s.req.body with
      | nil => rw [e] at h1; simp at h1; omega
      | cons a t => rfl
    rw [hne] at hb2
    refine ⟨s.req, b, hb2, ?_, st.early (by omega), ?_, fun e => ?_⟩
    · rw [hb]; exact List.take_prefix _ _
    · rw [hb, hfull, hfin]
      constructor
      · rintro ⟨e1, e2⟩
        refine ⟨e1, ?_⟩
        rcases st.plain e2 with t | t
        · exact t
        · omega
      · rintro ⟨e1, e2⟩
        refine ⟨e1, ?_⟩
        cases e : s.will with
        | false => rfl
        | true => rw [st.wants e] at e2; cases e2
    · have := hfin.1 e
      refine st.ends ?_
      cases e2 : s.endSent with
      | false => rfl
      | true =>
        rcases st.tail e2 with t | t
        · omega
        · rw [this.2] at t; cases t
  case ownTrailers sid s block hs he hw hp _ _ =>
    have st := i.core.streams sid s hs
    obtain ⟨b, hb⟩ := st.req
    exact ⟨⟨_, _, _, hb, st.wants hw, st.ends he⟩, h⟩
  case apiTrailers sid s block hs he hw =>
    have st := i.core.streams sid s hs
    obtain ⟨b, hb⟩ := st.req
    exact ⟨⟨_, _, _, hb, st.wants hw, st.ends he⟩, h⟩
  case told sid s code hs hd hr ho =>
    have st := i.core.streams sid s hs
    obtain ⟨b, hb⟩ := st.req
    obtain ⟨t, ht⟩ := hr
    exact ⟨⟨st.out hd, ⟨_, _, _, hb⟩, .inr (by show _ ∈ c.log; rw [ht]; simp)⟩, h⟩
  case cut sid s code hs hd ho =>
    have st := i.core.streams sid s hs
    obtain ⟨b, hb⟩ := st.req
    refine ⟨⟨fun a ha => ?_, ⟨_, _, _, List.mem_cons_of_mem _ hb⟩, .inl List.mem_cons_self⟩, trivial, h⟩
    rcases List.mem_cons.1 ha with ha | ha
    · rw [ha]; rfl
    · exact st.out hd a ha
  case dispatch sid s hs hd hm he ht ho hc hp =>
    have st := i.core.streams sid s hs
    obtain ⟨b, hb⟩ := st.req
    have hsm := st.status hm hd
    refine ⟨⟨st.out hd, _, _, _, hb, rfl, ?_, hsm.1, hsm.2, ?_, fun hmeas e hel hn v hv => ?_⟩, h⟩
    · have := (i.got ho).streams sid s hs hd
      have hpb : pendBody sid p = [] := by
        unfold pendBody
        split
        · exact absurd rfl (hp _ _ _ _)
        · rfl
      rw [hpb, List.append_nil] at this
      exact this
    · cases hr : s.rstRecv with
      | true => exact .inr (st.rst hr)
      | false =>
        left
        rw [hr] at he
        rcases he with he | he
        · exact ⟨st.endRecv he, rfl⟩
        · cases he
    · obtain ⟨n, h1, h2⟩ := st.cl hd e hel hn v hv
      refine ⟨n, h1, ?_⟩
      have hen : enforce s.req.method s.resp.status = true := by
        obtain ⟨m1, m2, m3, m4⟩ := hmeas
        simp only [enforce, Bool.and_eq_true, bne_iff_ne, ne_eq, Bool.not_eq_true', Bool.or_eq_false_iff, Bool.and_eq_false_iff, decide_eq_false_iff_not, beq_eq_false_iff_ne]
        refine ⟨m1, ⟨?_, m3⟩, m4⟩
        by_cases e1 : 100 ≤ s.resp.status
        · right; exact fun e2 => m2 ⟨e1, e2⟩
        · exact .inl e1
      have := hc hen
      rw [h2] at this
      simp only [mismatch, bne_eq_false_iff_eq] at this
      exact this.symm
  all_goals first | exact h | exact ⟨trivial, h⟩ | exact ⟨trivial, trivial, h⟩

theorem whole_run (d : x.D) (e : x.E) (is : List Input) : Whole (run (Conn.init d e) is) none :=
  run_ind (I := Whole) (fun _ _ _ _ w m i => whole_micro w m i) d e
    ⟨⟨fun j s h => by simp [Conn.init] at h, fun j _ a h => (by cases h), fun j q b f h => (by cases h)⟩, fun _ => ⟨fun j s h => by simp [Conn.init] at h, fun j _ _ => rfl⟩,
      ⟨fun _ _ l k h => (by cases h), fun _ l k h => (by cases h)⟩, fun _ j k h => (by cases h), fun _ => set_init 3 (.inl rfl) d e, trivial⟩ is

/-! ### C166 -/

/-- C166. In every history: a request is sent on an odd stream, higher than all before; never after a GOAWAY of either side; and so many streams are open that the server's limit in force is not exceeded with this one. -/
theorem C166_opening (d : x.D) (e : x.E) (is : List Input) (later earlier : List Ev) (sid : Nat) (q : Req) (block : Bytes) (fin : Bool)
    (h : (run (Conn.init d e) is).log = later ++ .request sid q block fin :: earlier) :
    sid % 2 = 1 ∧ (∀ j q' b f, Ev.request j q' b f ∈ earlier → j < sid) ∧ (∀ a ∈ earlier, a.isGoaway = false) ∧
      ∃ m ∈ inForce 3 earlier, ∀ js : List Nat, js.Nodup → (∀ j ∈ js, isOpen earlier j = true) → js.length < m := by
  have := always_split (whole_run d e is).claims h
  exact ⟨this.1, this.2.2.1, this.2.1, this.2.2.2.2⟩

/-! ### C167 -/

/-- C167. A response or a stream error is reported for a request that was sent, with its own tag, and only if nothing was reported for it before. A stream error has a RST_STREAM of one of the sides with its code. -/
theorem C167_one_outcome (d : x.D) (e : x.E) (is : List Input) (later earlier : List Ev) (sid : Nat) (ev : Ev) (h : (run (Conn.init d e) is).log = later ++ ev :: earlier) (ho : ev.outcome sid = true) :
    (∀ a ∈ earlier, a.outcome sid = false) ∧ (∃ q b f, Ev.request sid q b f ∈ earlier ∧ ∀ app r code, ev = .response sid app r code → app = q.app) ∧
      ∀ code, ev = .streamError sid code → Ev.rst sid code ∈ earlier ∨ Ev.rx (.rst sid code) ∈ earlier := by
  have c := always_split (whole_run d e is).claims h
  cases ev <;> simp only [Ev.outcome, Bool.false_eq_true, beq_iff_eq] at ho
  · subst ho
    obtain ⟨h1, q, b, f, h2, h3, _⟩ := c
    exact ⟨h1, ⟨q, b, f, h2, fun app r code e => by cases e; exact h3.symm⟩, fun code e => (by cases e)⟩
  · subst ho
    obtain ⟨h1, ⟨q, b, f, h2⟩, h3⟩ := c
    exact ⟨h1, ⟨q, b, f, h2, fun app r code e => (by cases e)⟩, fun code e => by cases e; exact h3⟩

/-- C167. A request whose stream the client resets has an outcome (unless the server ended the stream or disowned it by GOAWAY). -/
theorem C167_cut_reported (d : x.D) (e : x.E) (is : List Input) (later earlier : List Ev) (sid code : Nat) (q : Req) (b : Bytes) (f : Bool) (h : (run (Conn.init d e) is).log = later ++ .rst sid code :: earlier)
    (hq : Ev.request sid q b f ∈ earlier) : (∃ a ∈ (run (Conn.init d e) is).log, a.outcome sid = true) ∨ Ended sid (run (Conn.init d e) is).log ∨ Swept sid (run (Conn.init d e) is).log := by
  have w := (whole_run d e is).core
  rcases w.live sid q b f (by rw [h]; simp [hq]) with ⟨s, hs⟩ | ev
  · have := (w.streams sid s hs).noRst
    rw [h, mem_since (by simp [Ev.cuts]) ⟨_, hq, by simp [Ev.opens]⟩] at this
    cases this
  · exact ev.told

/-- C167. A request whose stream the server resets has an outcome as soon as the frame was worked on, and the connection is up (unless the server had ended the stream or disowned it by GOAWAY before). -/
theorem C167_reset_reported (d : x.D) (e : x.E) (is : List Input) (sid code : Nat) (q : Req) (b : Bytes) (f : Bool) (h : Ev.rx (.rst sid code) ∈ (run (Conn.init d e) is).log) (hq : Ev.request sid q b f ∈ (run (Conn.init d e) is).log)
    (hok : (run (Conn.init d e) is).ok = true) : (∃ a ∈ (run (Conn.init d e) is).log, a.outcome sid = true) ∨ Ended sid (run (Conn.init d e) is).log ∨ Swept sid (run (Conn.init d e) is).log := by
  have w := whole_run d e is
  rcases w.core.live sid q b f hq with ⟨s, hs⟩ | ev
  · rcases w.rst hok sid code h with h1 | h1
    · cases h1
    · rw [h1.1] at hs; cases hs
  · exact ev.told

/-! ### C168 -/

/-- C168. A response that is reported has exactly the body received on its stream until then, a status of three digits from 100, and comes when the server ended the stream, with code 0, or disowned it by GOAWAY. If the body is measured, every
content-length in it is the length of the body. -/
theorem C168_response (d : x.D) (e : x.E) (is : List Input) (later earlier : List Ev) (sid app code : Nat) (r : Resp) (h : (run (Conn.init d e) is).log = later ++ .response sid app r code :: earlier) :
    r.body = gotOn sid earlier ∧ 100 ≤ r.status ∧ r.status ≤ 999 ∧ (Ended sid earlier ∧ code = 0 ∨ Swept sid earlier) ∧
      ∃ q b f, Ev.request sid q b f ∈ earlier ∧ (measured q.method r.status → ∀ h ∈ r.headers, h.1.map lower = b!"content-length" → ∀ v ∈ h.2, ∃ n, parseContentLength v = some n ∧ n.toNat = r.body.length) := by
  obtain ⟨_, q, b, f, h1, _, h2, h3, h4, h5, h6⟩ := always_split (whole_run d e is).claims h
  exact ⟨h2, h3, h4, h5, q, b, f, h1, h6⟩

/-! ### C169 -/

/-- C169. With every DATA frame, what was written on the stream is a prefix of the body of its request; END_STREAM is on it exactly when the body is complete and no trailers were announced, and then there was none before; DATA
follows END_STREAM only if that was the application's trailers. -/
theorem C169_body_partial (d : x.D) (e : x.E) (is : List Input) (later earlier : List Ev) (sid : Nat) (body : Bytes) (fin : Bool) (h : (run (Conn.init d e) is).log = later ++ .data sid body fin :: earlier) :
    ∃ q b, Ev.request sid q b false ∈ earlier ∧ (bodyOn sid earlier ++ body) <+: q.body ∧ (fin = true ↔ bodyOn sid earlier ++ body = q.body ∧ announces q.headers = false) ∧ (fin = true → ∀ a ∈ earlier, a.ends sid = false) ∧
      ∀ a ∈ earlier, a.ends sid = true → ∃ blk, a = .trailers sid blk := by
  obtain ⟨q, b, h1, h2, h3, h4, h5⟩ := always_split (whole_run d e is).claims h
  exact ⟨q, b, h1, h2, h4, h5, h3⟩

/-- C169. HEADERS of a request ends the stream exactly when there is no body and no trailers are announced. Trailers are written only for a request that announced them, at most once, and only if the stream was not ended. -/
theorem C169_ends (d : x.D) (e : x.E) (is : List Input) (later earlier : List Ev) (ev : Ev) (h : (run (Conn.init d e) is).log = later ++ ev :: earlier) :
    (∀ sid q b f, ev = .request sid q b f → (f = true ↔ q.body = [] ∧ announces q.headers = false)) ∧
      ∀ sid blk, ev = .trailers sid blk → ∃ q b f, Ev.request sid q b f ∈ earlier ∧ announces q.headers = true ∧ ∀ a ∈ earlier, a.ends sid = false := by
  have c := always_split (whole_run d e is).claims h
  constructor
  · intro sid q b f e
    subst e
    rw [c.2.2.2.1]
    simp
  · intro sid blk e
    subst e
    exact c

end Verif.Clp
