import Verif.Srv.Recv

/-! # C92: what the client is allowed to send

Connection: 65535 octets plus the WINDOW_UPDATE frames the server wrote for stream 0. Stream: 65535 octets plus the
WINDOW_UPDATE frames it wrote for the stream. -/

namespace Verif.Srv
open Verif.Stream

variable {x : Ext}

/-! ## Specification -/

/-- Octets of DATA (padding included) the client sent on a stream. -/
def receivedOn (sid : Nat) : List Input → Nat
  | [] => 0
  | .data j d pad _ _ :: is => (if j = sid then d.length + pad else 0) + receivedOn sid is
  | _ :: is => receivedOn sid is

/-- The server has the stream and has not handed its request over yet. -/
def Receiving (c : Conn x) (sid : Nat) : Prop := ∃ s, c.find sid = some s ∧ s.dispatched = false

/-- What the server writes about a DATA frame that is within the windows and does not end the request: WINDOW_UPDATE, or, if
the body is longer than the request declared or than the limit, RST_STREAM. -/
def Ordinary (sid : Nat) (o : Out) : Prop :=
  (∃ j inc, o = .windowUpdate j inc) ∨ (∃ code, (code = PROTOCOL_ERROR ∨ code = ENHANCE_YOUR_CALM) ∧ (o = .rst sid code ∨ o = .streamError sid code))

theorem receivedOn_append (sid : Nat) (a b : List Input) : receivedOn sid (a ++ b) = receivedOn sid a + receivedOn sid b := by
  induction a with
  | nil => simp [receivedOn]
  | cons i a ih => cases i <;> simp [receivedOn, ih]; omega

/-! ## The connection -/

/-- **C92.** A connection that still processes frames has accepted no more DATA than it granted. -/
theorem C92_connection (d : x.D) (e : x.E) (is : List Input) (ha : (run (Conn.init (x := x) d e) is).alive = true) :
    received is ≤ 65535 + credits 0 (run (Conn.init (x := x) d e) is).out := by
  have := recvW_run d e is ha
  omega

theorem goaway_out {c : Conn x} (code : Nat) (h : c.active = true) :
    (goaway c code).out = c.out ++ [.goaway c.lastClient code, .goawayEvent code c.lastClient] := by
  unfold goaway
  rw [if_neg (by simp [h])]
  show c.out ++ [_] ++ [_] = _
  simp
  rfl

/-- **C92.** DATA beyond what was granted for the connection ends it with FLOW_CONTROL_ERROR. -/
theorem C92_connection_overrun (d : x.D) (e : x.E) (is : List Input) (ha : (run (Conn.init (x := x) d e) is).alive = true)
    {sid : Nat} (h0 : sid ≠ 0) (p : Bytes) (pad : Nat) (fin : Bool) (h : Script)
    (hn : 65535 + credits 0 (run (Conn.init (x := x) d e) is).out < received is + (p.length + pad)) :
    (∃ last, (run (Conn.init (x := x) d e) (is ++ [.data sid p pad fin h])).out =
      (run (Conn.init (x := x) d e) is).out ++ [.goaway last FLOW_CONTROL_ERROR, .goawayEvent FLOW_CONTROL_ERROR last]) ∧
    (run (Conn.init (x := x) d e) (is ++ [.data sid p pad fin h])).alive = false := by
  have hw := recvW_run d e is ha
  rw [run_snoc]
  generalize run (Conn.init (x := x) d e) is = c at *
  obtain ⟨c1, c2⟩ := alive_iff.mp ha
  have e1 : step c (.data sid p pad fin h) = goaway c FLOW_CONTROL_ERROR := by
    show onData c sid p pad fin h = _
    unfold onData
    simp only []
    rw [if_neg (by simp [c1, c2]), if_neg (by simp [h0]), if_pos]
    simp only [Bool.and_eq_true, decide_eq_true_eq]
    omega
  rw [e1]
  exact ⟨⟨c.lastClient, goaway_out _ c2⟩, goaway_dead _ _⟩

/-! ## A stream -/

theorem step_inN {i : Input} {ls : List Lab} (h : StepLabs i ls) (sid : Nat) (hd : ∀ d pad fin s, i ≠ .data sid d pad fin s) :
    sumL (inN sid) ls = 0 ∧ sumL (credN sid) ls = 0 := by
  cases i with
  | settings k ack es =>
    constructor <;> (apply sumL_zero; intro y hy; have := (h y hy).1; cases y <;> first | rfl | cases this)
  | data k d pad fin sc =>
    have hk : k ≠ sid := fun e => hd d pad fin sc (by rw [e])
    rcases h with e | e | e | ⟨es, rs, sl, k', e⟩ <;> subst e
    · exact ⟨rfl, rfl⟩
    · exact ⟨rfl, rfl⟩
    · exact ⟨by simp [sumL, inN, hk], rfl⟩
    · rw [sumL, sumL_append, sumL, inN_app sid (isApp_ended k'), inN_app sid (isApp_script sl),
        sumL, sumL_append, sumL, credN_app sid (isApp_ended k'), credN_app sid (isApp_script sl)]
      simp [inN, credN, hk]
  | headers k frag fin eh sc =>
    obtain ⟨rs, sl, e⟩ := h
    rcases e with e | e <;> subst e
    · exact ⟨inN_app sid (isApp_script sl), credN_app sid (isApp_script sl)⟩
    · rw [sumL, inN_app sid (isApp_script sl), sumL, credN_app sid (isApp_script sl)]
      exact ⟨rfl, rfl⟩
  | continuation k frag eh sc => exact ⟨inN_app sid (isApp_script h), credN_app sid (isApp_script h)⟩
  | app a =>
    have h : ls.Sublist a.labs := h
    have : ls.Sublist ([a].flatMap Act.labs) := by simpa using h
    exact ⟨inN_app sid (isApp_acts this), credN_app sid (isApp_acts this)⟩
  | windowUpdate k inc => rcases h with e | ⟨_, e⟩ | ⟨_, e⟩ <;> subst e <;> exact ⟨rfl, rfl⟩
  | rst k code => rcases h with e | e <;> subst e <;> exact ⟨rfl, rfl⟩
  | goaway last code => rcases h with e | e <;> subst e <;> exact ⟨rfl, rfl⟩
  | _ => have h : ls = [] := h; subst h; exact ⟨rfl, rfl⟩

/-- A stream of which the request is under assembly. -/
structure Fine (s : SStream) : Prop where
  idle : s.state ≠ .idle
  closed : s.state ≠ .closed
  rs : s.rstSent = false
  rr : s.rstRecv = false

theorem fine_of {c : Conn x} {sid : Nat} {s : SStream} (ho : sid % 2 = 1) (hok : AllOk c) (hs : c.find sid = some s) (hd : s.dispatched = false) : Fine s := by
  have core := (hok sid ho s hs).1
  have act : isActive s = true := (hok sid ho s hs).2
  refine ⟨?_, ?_, ?_, core.rr⟩
  · intro z; unfold isActive at act; rw [z] at act; simp at act
  · intro z; unfold isActive at act; rw [z] at act; simp at act
  · cases z : s.rstSent with
    | false => rfl
    | true => rw [core.rs z] at hd; cases hd

/-- A DATA frame is accepted and accounted for, or its stream is gone or has its request already. -/
theorem onData_win {c : Conn x} {sid : Nat} {d : Bytes} {pad : Nat} {fin : Bool} {h : Script} (hi : Inv0 c) (ho : sid % 2 = 1) (hok : AllOk c)
    (ha : (onData c sid d pad fin h).alive = true) {s : SStream} (hs : c.find sid = some s) (hd : s.dispatched = false) :
    ∃ ls, Path c ls (onData c sid d pad fin h) ∧
      ((sumL (inN sid) ls = d.length + pad ∧ sumL (credN sid) ls = d.length + pad) ∨ (onData c sid d pad fin h).find sid = none) := by
  have fine := fine_of ho hok hs hd
  have aliveC : c.ok = true ∧ c.active = true := by
    obtain ⟨ls, _, p⟩ := path_onData c sid d pad fin h hi
    exact alive_iff.mp (alive_path p ha)
  unfold onData at ha ⊢
  simp only [] at ha ⊢
  rw [if_neg (by simp [aliveC.1, aliveC.2])] at ha ⊢
  have h0 : sid ≠ 0 := by omega
  rw [if_neg (by simp [h0])] at ha ⊢
  split
  · rename_i h3; rw [if_pos h3, goaway_dead] at ha; cases ha
  rename_i h3
  rw [if_neg h3, hs] at ha
  rw [hs]
  simp only [] at ha ⊢
  rw [if_neg (by simp [fine.idle, fine.closed, fine.rs, fine.rr])] at ha ⊢
  split
  · refine ⟨[.dataRej (d.length + pad)], (((path_sendRst c sid STREAM_CLOSED true).tr (Path.one (.recv _ _))).tr' (path_condConn _)), Or.inr ?_⟩
    rw [find_condConn]
    exact sendRst_find (Or.inl aliveC.2)
  rename_i hr
  split
  · refine ⟨[.dataRej (d.length + pad)], (((path_sendRst c sid FLOW_CONTROL_ERROR true).tr (Path.one (.recv _ _))).tr' (path_condConn _)), Or.inr ?_⟩
    rw [find_condConn]
    exact sendRst_find (Or.inl aliveC.2)
  have hr : s.endRecv = false := by simpa using hr
  -- the frame is accepted
  unfold dataAccept
  simp only []
  have p : Path c [.dataIn sid (d.length + pad) d] ({ c with recvW := c.recvW - ((d.length + pad : Nat) : Int), ctl := 0 }.upd sid (fun s =>
        { s with localW := s.localW - ((d.length + pad : Nat) : Int), req := { s.req with body := s.req.body ++ d } })) := by
    refine Path.tr (b := { c with ctl := 0 }) (.one (.aux _ _ rfl rfl rfl rfl rfl rfl rfl (fun h => h) (fun h => h))) ?_
    exact .one (.dataIn _ sid (d.length + pad) d s hs hr)
  have hf1 : ({ c with recvW := c.recvW - ((d.length + pad : Nat) : Int), ctl := 0 }.upd sid (fun s =>
        { s with localW := s.localW - ((d.length + pad : Nat) : Int), req := { s.req with body := s.req.body ++ d } })).find sid ≠ none :=
    find_upd_isSome (c := { c with recvW := c.recvW - ((d.length + pad : Nat) : Int), ctl := 0 }) (by
      intro hn
      have hn : c.find sid = none := hn
      rw [hs] at hn; cases hn) (fun _ => rfl)
  have ha1 : ({ c with recvW := c.recvW - ((d.length + pad : Nat) : Int), ctl := 0 }.upd sid (fun s =>
        { s with localW := s.localW - ((d.length + pad : Nat) : Int), req := { s.req with body := s.req.body ++ d } })).active = true := aliveC.2
  generalize ({ c with recvW := c.recvW - ((d.length + pad : Nat) : Int), ctl := 0 } : Conn x).upd sid (fun s =>
        { s with localW := s.localW - ((d.length + pad : Nat) : Int), req := { s.req with body := s.req.body ++ d } }) = c1 at *
  have hi1 := hi.path p
  split
  · rename_i hn; exact absurd hn hf1
  · split
    · exact ⟨_, p.tr' (path_sendRst _ _ _ _), Or.inr (sendRst_find (Or.inl ha1))⟩
    · split
      · exact ⟨_, p.tr' (path_sendRst _ _ _ _), Or.inr (sendRst_find (Or.inl ha1))⟩
      · split
        · obtain ⟨ls, sl, q⟩ := path_dataEnd c1 sid (d.length + pad) h hi1 h0 hf1
          refine ⟨_, p.trans q, Or.inl ?_⟩
          simp only [List.cons_append, List.nil_append, sumL, inN, credN, inN_app sid (isApp_script sl), credN_app sid (isApp_script sl), if_true]
          omega
        · obtain ⟨ls, sl, el, q⟩ := path_creditStream c1 sid (d.length + pad) h0
          have el := el hf1
          subst el
          refine ⟨_, p.trans (q.tr' (path_condConn _)), Or.inl ?_⟩
          simp [sumL, inN, credN]

/-- The window of a stream of which the request is under assembly. -/
structure Win2 (c : Conn x) (sid : Nat) (is : List Input) (I C : Nat) : Prop where
  win : Win c sid I C
  all : ∀ s, c.find sid = some s → s.dispatched = false → I = receivedOn sid is ∧ C = I
  fresh : c.lastClient < sid → receivedOn sid is = 0

theorem win_run (hx : ∀ l, (x.order l).Perm l) (d : x.D) (e : x.E) (is : List Input) {sid : Nat} (ho : sid % 2 = 1)
    (ha : (run (Conn.init (x := x) d e) is).alive = true) :
    ∃ I C, Win2 (run (Conn.init (x := x) d e) is) sid is I C := by
  induction is using snocInd with
  | h0 =>
    refine ⟨0, 0, ⟨?_, fun _ => ?_⟩, ?_, fun _ => rfl⟩
    · intro s hs; simp [run, Conn.init, Conn.find] at hs
    · exact ⟨rfl, rfl, rfl, rfl⟩
    · intro s hs; simp [run, Conn.init, Conn.find] at hs
  | hs is i ih =>
    have hi := (Inv0.init (x := x) d e).run is
    have hk := Known.run (x := x) d e is
    have hrest := rest_run hx d e is
    rw [run_snoc] at ha ⊢
    obtain ⟨ls0, hl0, p0⟩ := path_step (run (Conn.init (x := x) d e) is) i hi
    have hc := alive_path p0 ha
    obtain ⟨I, C, h⟩ := ih hc
    have hok := hrest hc
    generalize run (Conn.init (x := x) d e) is = c at *
    have hb := (alive_iff.mp ha).1
    -- a stream under assembly after the input was there before, unless it is new
    have back : ∀ {ls : List Lab}, Path c ls (step c i) → Lab.opened sid ∉ ls → ∀ s, (step c i).find sid = some s → s.dispatched = false →
        ∃ s0, c.find sid = some s0 ∧ s0.dispatched = false := by
      intro ls p hop s hs hd
      obtain ⟨s0, hs0, k⟩ := path_later p ho hop hs
      refine ⟨s0, hs0, ?_⟩
      cases z : s0.dispatched with
      | false => rfl
      | true => rw [k.dispatched z] at hd; cases hd
    by_cases hd : ∃ b pad fin s, i = .data sid b pad fin s
    · obtain ⟨b, pad, fin, sc, e⟩ := hd
      subst e
      have er : receivedOn sid (is ++ [.data sid b pad fin sc]) = receivedOn sid is + (b.length + pad) := by
        rw [receivedOn_append]; simp [receivedOn]
      have hop : Lab.opened sid ∉ ls0 := fun hm => by
        have := opened_step (i := .data sid b pad fin sc) hl0 hm
        simp [headersIn] at this
      have fresh : (step c (.data sid b pad fin sc)).lastClient < sid → receivedOn sid (is ++ [.data sid b pad fin sc]) = 0 := by
        intro hlt
        exfalso
        obtain ⟨_, _, _, hle, _⟩ := onData_accept hi hk ho hok ha
        have := path_lastClient p0
        omega
      by_cases hs : ∃ s, c.find sid = some s ∧ s.dispatched = false
      · obtain ⟨s, hs, hdis⟩ := hs
        obtain ⟨ls, p, q⟩ := onData_win hi ho hok ha hs hdis
        refine ⟨_, _, h.win.path p ho hb, fun t ht htd => ?_, fresh⟩
        have hz := h.all s hs hdis
        rcases q with ⟨q1, q2⟩ | q
        · rw [er, q1, q2]; omega
        · rw [show step c (.data sid b pad fin sc) = onData c sid b pad fin sc from rfl, q] at ht; cases ht
      · refine ⟨_, _, h.win.path p0 ho hb, fun t ht htd => ?_, fresh⟩
        exact absurd (back p0 hop t ht htd) hs
    · have hd' : ∀ d pad fin s, i ≠ .data sid d pad fin s := fun b pad fin s e => hd ⟨b, pad, fin, s, e⟩
      have er : receivedOn sid [i] = 0 := by
        cases i with
        | data k b pad fin s =>
          have : k ≠ sid := fun e => hd' b pad fin s (by rw [e])
          simp [receivedOn, this]
        | _ => rfl
      obtain ⟨z1, z2⟩ := step_inN hl0 sid hd'
      have w := h.win.path p0 ho hb
      rw [z1, z2] at w
      refine ⟨_, _, w, fun t ht htd => ?_, fun hlt => ?_⟩
      · rw [receivedOn_append, er]
        by_cases hop : Lab.opened sid ∈ ls0
        · have hlt := path_opened p0 hop
          have := h.fresh hlt
          obtain ⟨f1, f2, _⟩ := h.win.fresh hlt
          omega
        · obtain ⟨s0, hs0, hd0⟩ := back p0 hop t ht htd
          have := h.all s0 hs0 hd0
          omega
      · rw [receivedOn_append, er]
        exact h.fresh (Nat.lt_of_le_of_lt (path_lastClient p0) hlt)

/-- **C92.** While a request is under assembly, the client may always send at least 32769 more octets on its stream: the
server's WINDOW_UPDATE frames for the stream keep up. -/
theorem C92_stream_window (hx : ∀ l, (x.order l).Perm l) (d : x.D) (e : x.E) (is : List Input) {sid : Nat} (ho : sid % 2 = 1)
    (ha : (run (Conn.init (x := x) d e) is).alive = true) (hr : Receiving (run (Conn.init (x := x) d e) is) sid) :
    receivedOn sid is + 32769 ≤ 65535 + credits sid (run (Conn.init (x := x) d e) is).out ∧
    credits sid (run (Conn.init (x := x) d e) is).out ≤ receivedOn sid is := by
  obtain ⟨I, C, h⟩ := win_run hx d e is ho ha
  obtain ⟨s, hs, hd⟩ := hr
  obtain ⟨h1, h2, h3, h4⟩ := h.win.at_ s hs
  obtain ⟨h5, h6⟩ := h.all s hs hd
  omega

/-- **C92.** While a request is under assembly, DATA beyond what was granted for its stream (but not for the connection) is
answered by RST_STREAM with FLOW_CONTROL_ERROR, and its octets are not lost for the connection window. -/
theorem C92_stream_overrun (hx : ∀ l, (x.order l).Perm l) (d : x.D) (e : x.E) (is : List Input) {sid : Nat} (ho : sid % 2 = 1)
    (ha : (run (Conn.init (x := x) d e) is).alive = true) (hr : Receiving (run (Conn.init (x := x) d e) is) sid)
    (hne : endedIn sid is = false) (p : Bytes) (pad : Nat) (fin : Bool) (h : Script)
    (hc : received is + (p.length + pad) ≤ 65535 + credits 0 (run (Conn.init (x := x) d e) is).out)
    (hn : 65535 + credits sid (run (Conn.init (x := x) d e) is).out < receivedOn sid is + (p.length + pad)) :
    (∃ os, (run (Conn.init (x := x) d e) (is ++ [.data sid p pad fin h])).out =
      (run (Conn.init (x := x) d e) is).out ++ .rst sid FLOW_CONTROL_ERROR :: os) ∧
    (run (Conn.init (x := x) d e) (is ++ [.data sid p pad fin h])).find sid = none := by
  obtain ⟨I, C, hw⟩ := win_run hx d e is ho ha
  obtain ⟨B, hasm⟩ := asm_run hx d e is ho
  have hrest := rest_run hx d e is ha
  have hrw := recvW_run d e is ha
  rw [run_snoc]
  generalize run (Conn.init (x := x) d e) is = c at *
  obtain ⟨s, hs, hd⟩ := hr
  have fine := fine_of ho hrest hs hd
  obtain ⟨h1, h2, h3, h4⟩ := hw.win.at_ s hs
  obtain ⟨h5, h6⟩ := hw.all s hs hd
  obtain ⟨c1, c2⟩ := alive_iff.mp ha
  have her : s.endRecv = false := by
    cases z : s.endRecv with
    | false => rfl
    | true => have := hasm.asm.ended s hs z; rw [hne] at this; cases this
  have e1 : step c (.data sid p pad fin h) = condConnUpdate (recvLess (sendRst c sid FLOW_CONTROL_ERROR) (p.length + pad)) := by
    show onData c sid p pad fin h = _
    unfold onData
    simp only []
    rw [if_neg (by simp [c1, c2]), if_neg (by simp; omega), if_neg (by simp; omega), hs]
    simp only []
    rw [if_neg (by simp [fine.idle, fine.closed, fine.rs, fine.rr]), if_neg (by simp [her]), if_pos (by simp; omega)]
  rw [e1]
  refine ⟨?_, ?_⟩
  · obtain ⟨os, ho⟩ : ∃ os, (sendRst c sid FLOW_CONTROL_ERROR).out = c.out ++ .rst sid FLOW_CONTROL_ERROR :: os := by
      unfold sendRst
      rw [if_neg (by simp [c2])]
      simp only []
      have e0 : (c.emit (.rst sid FLOW_CONTROL_ERROR)).find sid = some s := hs
      rw [e0]
      simp only [if_true]
      have tc : ∀ (b : Conn x), (tryClose b sid).out = b.out := by
        intro b
        unfold tryClose
        split
        · rfl
        split
        · simp only []
          split
          · split <;> rfl
          · split <;> rfl
        · rfl
      rw [tc]
      split
      · exact ⟨[_], by show c.out ++ [_] ++ [_] = _; simp; rfl⟩
      · exact ⟨[], rfl⟩
    obtain ⟨os', ho'⟩ : ∃ os', ∀ (b : Conn x), b = recvLess (sendRst c sid FLOW_CONTROL_ERROR) (p.length + pad) → (condConnUpdate b).out = b.out ++ os' := by
      generalize recvLess (sendRst c sid FLOW_CONTROL_ERROR) (p.length + pad) = b'
      unfold condConnUpdate sendWindowUpdate
      by_cases z : b'.recvW < 32767
      · simp only []
        by_cases z2 : (65535 - b'.recvW).toNat > 0
        · by_cases z3 : (!b'.ok || (65535 - b'.recvW).toNat == 0) = true
          · exact ⟨[], fun b hb => by subst hb; rw [if_pos z, if_pos z2, if_pos z3]; simp⟩
          · exact ⟨[_], fun b hb => by subst hb; rw [if_pos z, if_pos z2, if_neg z3]; rfl⟩
        · exact ⟨[], fun b hb => by subst hb; rw [if_pos z, if_neg z2]; simp⟩
      · exact ⟨[], fun b hb => by subst hb; rw [if_neg z]; simp⟩
    refine ⟨os ++ os', ?_⟩
    rw [ho' _ rfl]
    show (sendRst c sid FLOW_CONTROL_ERROR).out ++ os' = _
    rw [ho]; simp
  · rw [find_condConn]
    exact sendRst_find (Or.inl c2)

/-! ## DATA within the windows -/

/-- What is written between two moments. -/
def Grow (P : Out → Prop) (a b : Conn x) : Prop := ∃ os, b.out = a.out ++ os ∧ ∀ o ∈ os, P o

theorem Grow.refl {P : Out → Prop} (a : Conn x) : Grow P a a := ⟨[], by simp, by simp⟩

theorem Grow.same {P : Out → Prop} {a b : Conn x} (h : b.out = a.out) : Grow P a b := ⟨[], by simp [h], by simp⟩

theorem Grow.trans {P : Out → Prop} {a b c : Conn x} (h : Grow P a b) (k : Grow P b c) : Grow P a c := by
  obtain ⟨o1, e1, q1⟩ := h
  obtain ⟨o2, e2, q2⟩ := k
  refine ⟨o1 ++ o2, by rw [e2, e1, List.append_assoc], fun o ho => ?_⟩
  rcases List.mem_append.mp ho with h | h
  · exact q1 o h
  · exact q2 o h

theorem Grow.emit {P : Out → Prop} (a : Conn x) {o : Out} (h : P o) : Grow P a (a.emit o) := ⟨[o], rfl, by simp [h]⟩

theorem grow_wu {P : Out → Prop} (a : Conn x) (sid inc : Nat) (h : P (.windowUpdate sid inc)) : Grow P a (sendWindowUpdate a sid inc) := by
  unfold sendWindowUpdate
  split
  · exact .refl _
  · exact .emit _ h

theorem grow_condConn {P : Out → Prop} (a : Conn x) (h : ∀ inc, P (.windowUpdate 0 inc)) : Grow P a (condConnUpdate a) := by
  unfold condConnUpdate
  split
  · simp only []
    split
    · exact (grow_wu a 0 _ (h _)).trans (.same rfl)
    · exact .refl _
  · exact .refl _

theorem grow_credit {P : Out → Prop} (a : Conn x) (sid n : Nat) (h : ∀ inc, P (.windowUpdate sid inc)) : Grow P a (creditStream a sid n) := by
  unfold creditStream
  split
  · exact .refl _
  · simp only []
    split
    · exact (grow_wu a sid _ (h _)).trans (.same rfl)
    · exact .same rfl

theorem out_tryClose (b : Conn x) (sid : Nat) : (tryClose b sid).out = b.out := by
  unfold tryClose
  split
  · rfl
  split
  · simp only []
    split
    · split <;> rfl
    · split <;> rfl
  · rfl

theorem grow_sendRst {P : Out → Prop} (a : Conn x) (sid code : Nat) (b : Bool) (h1 : P (.rst sid code)) (h2 : P (.streamError sid code)) :
    Grow P a (sendRst a sid code b) := by
  unfold sendRst
  split
  · exact .refl _
  · simp only []
    split
    · exact .emit _ h1
    · refine (Grow.emit a h1).trans ?_
      rename_i s1 _
      generalize hd : (a.emit (.rst sid code)).upd sid (fun s => { s with state := .closed, rstSent := true, err := code }) = d
      refine (Grow.same (b := d) (by rw [← hd]; rfl)).trans ?_
      have e : ∀ q : Bool, Grow P d (if q = true then d.emit (.streamError sid code) else d) := by
        intro q; cases q
        · exact .refl _
        · exact .emit _ h2
      refine (e ((!s1.dispatched || !s1.endSent) && code != NO_ERROR)).trans ?_
      cases b
      · exact .refl _
      · exact .same (out_tryClose _ _)

/-- **C92.** While a request is under assembly, DATA within both windows that does not end it is not answered by a
connection error or a flow-control error: WINDOW_UPDATE frames are written, or RST_STREAM because the body is longer than
declared or than the limit. -/
theorem C92_stream_within (hx : ∀ l, (x.order l).Perm l) (d : x.D) (e : x.E) (is : List Input) {sid : Nat} (ho : sid % 2 = 1)
    (ha : (run (Conn.init (x := x) d e) is).alive = true) (hr : Receiving (run (Conn.init (x := x) d e) is) sid)
    (hne : endedIn sid is = false) (p : Bytes) (pad : Nat) (h : Script)
    (hc : received is + (p.length + pad) ≤ 65535 + credits 0 (run (Conn.init (x := x) d e) is).out)
    (hn : receivedOn sid is + (p.length + pad) ≤ 65535 + credits sid (run (Conn.init (x := x) d e) is).out) :
    ∃ os, (run (Conn.init (x := x) d e) (is ++ [.data sid p pad false h])).out = (run (Conn.init (x := x) d e) is).out ++ os ∧
      ∀ o ∈ os, Ordinary sid o := by
  obtain ⟨I, C, hw⟩ := win_run hx d e is ho ha
  obtain ⟨B, hasm⟩ := asm_run hx d e is ho
  have hrest := rest_run hx d e is ha
  have hrw := recvW_run d e is ha
  rw [run_snoc]
  generalize run (Conn.init (x := x) d e) is = c at *
  obtain ⟨s, hs, hd⟩ := hr
  have fine := fine_of ho hrest hs hd
  obtain ⟨h1, h2, h3, h4⟩ := hw.win.at_ s hs
  obtain ⟨h5, h6⟩ := hw.all s hs hd
  obtain ⟨c1, c2⟩ := alive_iff.mp ha
  have her : s.endRecv = false := by
    cases z : s.endRecv with
    | false => rfl
    | true => have := hasm.asm.ended s hs z; rw [hne] at this; cases this
  have e1 : step c (.data sid p pad false h) = dataAccept c sid (p.length + pad) p false h := by
    show onData c sid p pad false h = _
    unfold onData
    simp only []
    rw [if_neg (by simp [c1, c2]), if_neg (by simp; omega), if_neg (by simp; omega), hs]
    simp only []
    rw [if_neg (by simp [fine.idle, fine.closed, fine.rs, fine.rr]), if_neg (by simp [her]), if_neg (by simp; omega)]
  rw [e1]
  have key : Grow (Ordinary sid) c (dataAccept c sid (p.length + pad) p false h) := by
    unfold dataAccept
    simp only []
    generalize hd : ({ c with recvW := c.recvW - ((p.length + pad : Nat) : Int), ctl := 0 } : Conn x).upd sid (fun s =>
        { s with localW := s.localW - ((p.length + pad : Nat) : Int), req := { s.req with body := s.req.body ++ p } }) = c1
    refine (Grow.same (b := c1) (by rw [← hd]; rfl)).trans ?_
    split
    · exact .refl _
    · split
      · exact grow_sendRst _ _ _ _ (.inr ⟨_, .inr rfl, .inl rfl⟩) (.inr ⟨_, .inr rfl, .inr rfl⟩)
      · split
        · exact grow_sendRst _ _ _ _ (.inr ⟨_, .inl rfl, .inl rfl⟩) (.inr ⟨_, .inl rfl, .inr rfl⟩)
        · exact (grow_credit _ _ _ (fun _ => .inl ⟨_, _, rfl⟩)).trans (grow_condConn _ (fun _ => .inl ⟨_, _, rfl⟩))
  exact key

/-! ## The connection window is replenished -/

/-- The receive window of a connection that lives on does not shrink. -/
def Rise (a b : Conn x) : Prop := b.ok = true → a.ok = true ∧ a.recvW ≤ b.recvW

theorem Rise.refl (a : Conn x) : Rise a a := fun h => ⟨h, Int.le_refl _⟩

theorem Rise.trans {a b c : Conn x} (h : Rise a b) (k : Rise b c) : Rise a c := fun z => by
  obtain ⟨k1, k2⟩ := k z
  obtain ⟨h1, h2⟩ := h k1
  exact ⟨h1, Int.le_trans h2 k2⟩

theorem Rise.same {a b : Conn x} (h : b.ok = a.ok) (k : b.recvW = a.recvW) : Rise a b := fun z => ⟨by rw [← h]; exact z, by rw [k]⟩

theorem Rise.path {a b : Conn x} {l : List Lab} (p : Path a l b) (h : sumL recvN l = 0) : Rise a b := fun z => by
  have := path_recv p z
  refine ⟨(path_alive p).1 z, ?_⟩
  omega

theorem rise_dispatch (c : Conn x) (sid : Nat) (h : Script) : Rise c (dispatch c sid h) := by
  unfold dispatch
  split
  · exact .refl _
  · rename_i s _
    split
    · exact .refl _
    · split
      · split
        · exact .path (path_sendRst _ _ _ _) rfl
        · simp only []
          refine (Rise.same (b := (c.upd sid (fun s => { s with dispatched := true })).emit (.request sid s.req)) rfl rfl).trans ?_
          obtain ⟨ls, sl, p⟩ := path_acts h.acts ((c.upd sid (fun s => { s with dispatched := true })).emit (.request sid s.req))
          refine (Rise.path p (recvN_app (isApp_acts sl))).trans ?_
          split
          · exact .path (path_sendRst _ _ _ _) rfl
          · split
            · exact .refl _
            · split
              · exact .path (path_tryClose _ _) rfl
              · exact .refl _
      · exact .refl _

theorem room_condConn (c : Conn x) : 32767 ≤ (condConnUpdate c).recvW := by
  unfold condConnUpdate
  split
  · simp only []
    split
    · have e : (sendWindowUpdate c 0 (65535 - c.recvW).toNat).recvW = c.recvW := by unfold sendWindowUpdate; split <;> rfl
      show 32767 ≤ (sendWindowUpdate c 0 (65535 - c.recvW).toNat).recvW + _
      rw [e]; omega
    · omega
  · omega

theorem rst_out {c : Conn x} {sid code : Nat} (c2 : c.active = true) : ∃ os, (sendRst c sid code).out = c.out ++ .rst sid code :: os := by
  have q := path_sendRst c sid code true
  unfold sendRst
  rw [if_neg (by simp [c2])]
  simp only []
  split
  · exact ⟨[], rfl⟩
  · simp only [if_true]
    rw [out_tryClose]
    split
    · exact ⟨[_], by show c.out ++ [_] ++ [_] = _; simp; rfl⟩
    · exact ⟨[], rfl⟩

/-- A DATA frame leaves a connection that lives on with half of the window, or resets its stream for the length of the
body. -/
theorem onData_room {c : Conn x} (hc : c.alive = true) {sid : Nat} {p : Bytes} {pad : Nat} {fin : Bool} {h : Script}
    (ha : (onData c sid p pad fin h).alive = true) :
    32767 ≤ (onData c sid p pad fin h).recvW ∨
    ∃ code os, (code = PROTOCOL_ERROR ∨ code = ENHANCE_YOUR_CALM) ∧ (onData c sid p pad fin h).out = c.out ++ .rst sid code :: os := by
  obtain ⟨c1, c2⟩ := alive_iff.mp hc
  have dead : ∀ (a : Conn x) code, (goaway a code).alive = true → False := fun a code h => by
    rw [goaway_dead] at h; cases h
  have keep : ∀ {a b : Conn x}, b.alive = true → Rise a b → 32767 ≤ a.recvW → 32767 ≤ b.recvW := fun hb r k => by
    have := (r (alive_iff.mp hb).1).2
    omega
  unfold onData at ha ⊢
  simp only [] at ha ⊢
  rw [if_neg (by simp [c1, c2])] at ha ⊢
  split at ha
  · exact (dead _ _ ha).elim
  rename_i n2
  rw [if_neg n2]
  split at ha
  · exact (dead _ _ ha).elim
  rename_i n3
  rw [if_neg n3]
  cases hf : c.find sid with
  | none =>
    rw [hf] at ha
    simp only [] at ha ⊢
    unfold dataUnknown at ha ⊢
    split
    · rename_i z; rw [if_pos z] at ha; exact (dead _ _ ha).elim
    · exact .inl (room_condConn _)
  | some s =>
    rw [hf] at ha
    simp only [] at ha ⊢
    split
    · rename_i z
      rw [if_pos z] at ha
      left
      split
      · rename_i z2; rw [if_pos z2] at ha
        exact keep ha (.path (path_sendRst _ _ _ _) rfl) (room_condConn _)
      · exact room_condConn _
    · rename_i z
      rw [if_neg z] at ha
      split
      · exact .inl (room_condConn _)
      rename_i z; rw [if_neg z] at ha
      split
      · exact .inl (room_condConn _)
      rename_i z; rw [if_neg z] at ha
      unfold dataAccept at ha ⊢
      simp only [] at ha ⊢
      have o1 : (({ c with recvW := c.recvW - ((p.length + pad : Nat) : Int), ctl := 0 } : Conn x).upd sid (fun s =>
        { s with localW := s.localW - ((p.length + pad : Nat) : Int), req := { s.req with body := s.req.body ++ p } })).out = c.out := rfl
      have o2 : (({ c with recvW := c.recvW - ((p.length + pad : Nat) : Int), ctl := 0 } : Conn x).upd sid (fun s =>
        { s with localW := s.localW - ((p.length + pad : Nat) : Int), req := { s.req with body := s.req.body ++ p } })).active = true := c2
      have o3 : (({ c with recvW := c.recvW - ((p.length + pad : Nat) : Int), ctl := 0 } : Conn x).upd sid (fun s =>
        { s with localW := s.localW - ((p.length + pad : Nat) : Int), req := { s.req with body := s.req.body ++ p } })).find sid ≠ none :=
        find_upd_isSome (c := { c with recvW := c.recvW - ((p.length + pad : Nat) : Int), ctl := 0 }) (by
          intro hn
          have hn : c.find sid = none := hn
          rw [hf] at hn; cases hn) (fun _ => rfl)
      generalize (({ c with recvW := c.recvW - ((p.length + pad : Nat) : Int), ctl := 0 } : Conn x).upd sid (fun s =>
        { s with localW := s.localW - ((p.length + pad : Nat) : Int), req := { s.req with body := s.req.body ++ p } })) = b at *
      cases hb : b.find sid with
      | none => exact absurd hb o3
      | some t =>
        rw [hb] at ha
        simp only [] at ha ⊢
        split
        · obtain ⟨os, e⟩ := rst_out (c := b) (sid := sid) (code := ENHANCE_YOUR_CALM) o2
          exact .inr ⟨_, os, .inr rfl, by rw [e, o1]⟩
        rename_i z; rw [if_neg z] at ha
        split
        · obtain ⟨os, e⟩ := rst_out (c := b) (sid := sid) (code := PROTOCOL_ERROR) o2
          exact .inr ⟨_, os, .inl rfl, by rw [e, o1]⟩
        rename_i z; rw [if_neg z] at ha
        left
        split
        · rename_i z; rw [if_pos z] at ha
          unfold dataEnd at ha ⊢
          simp only [] at ha ⊢
          have room := room_condConn (creditStream (b.upd sid (fun s => { s with endRecv := true })) sid (p.length + pad))
          generalize condConnUpdate (creditStream (b.upd sid (fun s => { s with endRecv := true })) sid (p.length + pad)) = g at *
          refine keep ha ?_ room
          split
          · exact .refl _
          · rename_i t' _
            split
            · exact .path (path_sendRst _ _ _ _) rfl
            · have rd : Rise g (if t'.headersMain = true then dispatch g sid h else g) := by
                split
                · exact rise_dispatch _ _ _
                · exact .refl _
              generalize (if t'.headersMain = true then dispatch g sid h else g) = g' at *
              refine rd.trans ?_
              split
              · exact .refl _
              · split
                · exact (Rise.same (b := g'.upd sid (fun s => { s with state := .closed })) rfl rfl).trans (.path (path_tryClose _ _) rfl)
                · exact .same rfl rfl
        · exact room_condConn _

/-- **C92.** After a DATA frame that the connection survives, the client may send at least 32767 more octets on the
connection, unless the frame's stream was just reset because the body is longer than declared or than the limit. -/
theorem C92_connection_room_partial (d : x.D) (e : x.E) (is : List Input) (sid : Nat) (p : Bytes) (pad : Nat) (fin : Bool) (h : Script)
    (ha : (run (Conn.init (x := x) d e) (is ++ [.data sid p pad fin h])).alive = true) :
    received (is ++ [.data sid p pad fin h]) + 32767 ≤ 65535 + credits 0 (run (Conn.init (x := x) d e) (is ++ [.data sid p pad fin h])).out ∨
    ∃ code os, (code = PROTOCOL_ERROR ∨ code = ENHANCE_YOUR_CALM) ∧
      (run (Conn.init (x := x) d e) (is ++ [.data sid p pad fin h])).out = (run (Conn.init (x := x) d e) is).out ++ .rst sid code :: os := by
  have hw := recvW_run d e _ ha
  have hi := (Inv0.init (x := x) d e).run is
  rw [run_snoc] at *
  obtain ⟨ls, _, pp⟩ := path_step (run (Conn.init (x := x) d e) is) (.data sid p pad fin h) hi
  rcases onData_room (alive_path pp ha) ha with q | q
  · left
    have q : 32767 ≤ (step (run (Conn.init (x := x) d e) is) (.data sid p pad fin h)).recvW := q
    omega
  · exact .inr q

/-- **C92, refuted in general.** The octets of a DATA frame that is longer than the declared body are not given back to the
connection window: four such frames, each on its own stream, and the client may send nothing more on the whole
connection, with nothing under way that would give it more (any further DATA ends it, `C92_connection_overrun`). -/
theorem C92_stall_refuted :
    ∃ is : List Input, (run toy is).alive = true ∧ (run toy is).streams = [] ∧ credits 0 (run toy is).out = 0 ∧
      received is = 65535 := by
  refine ⟨[.headers 1 [0] false true {}, .data 1 (List.replicate 16384 7) 0 false {}, .headers 3 [0] false true {}, .data 3 (List.replicate 16384 7) 0 false {},
    .headers 5 [0] false true {}, .data 5 (List.replicate 16384 7) 0 false {}, .headers 7 [0] false true {}, .data 7 (List.replicate 16383 7) 0 false {}], ?_⟩
  decide +kernel

/-- The hypotheses of the theorems are met. -/
example : (run toy [.headers 1 [] false true {}, .data 1 b!"abc" 2 false {}]).alive = true ∧
    ((run toy [.headers 1 [] false true {}, .data 1 b!"abc" 2 false {}]).find 1).map (·.dispatched) = some false ∧
    endedIn 1 [.headers 1 [] false true {}, .data 1 b!"abc" 2 false {}] = false ∧
    receivedOn 1 [.headers 1 [] false true {}, .data 1 b!"abc" 2 false {}] = 5 ∧
    (run toy [.headers 1 [] false true {}, .data 1 b!"abc" 2 false {}]).out = [] := by decide

/-- A long body: the windows are replenished at half. -/
example : (run toy [.headers 1 [] false true {}, .data 1 (List.replicate 32800 7) 0 false {}]).out = [.windowUpdate 1 32800, .windowUpdate 0 32800] := by
  decide +kernel

end Verif.Srv
