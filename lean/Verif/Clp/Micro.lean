import Verif.Clp.Model

/-! The steps of a connection, cut into small ones. `p` is the frame that is being worked on and is not accounted for yet. -/

namespace Verif.Clp
open Verif.Stream
variable {x : Ext}

/-- The server ended the stream. -/
def Ended (sid : Nat) (l : List Ev) : Prop := (∃ d pad, Ev.rx (.data sid d pad true) ∈ l) ∨ ∃ f eh, Ev.rx (.headers sid f true eh) ∈ l

/-- A GOAWAY from the server says that it will not answer on this stream. -/
def Swept (sid : Nat) (l : List Ev) : Prop := ∃ last code, last < sid ∧ Ev.rx (.goaway last code) ∈ l

/-- Events of no account: no DATA, no grant of window, no reply, no outcome. -/
def Ev.neutral : Ev → Bool
  | .refused _ | .rst _ _ | .goawayEvent _ _ => true
  | _ => false

/-- Events that are frames written. -/
def Ev.written : Ev → Bool
  | .rx _ | .refused _ | .response _ _ _ _ | .streamError _ _ | .goawayEvent _ _ => false
  | _ => true

/-- Changes to what is known of a stream that leave bodies, windows and outcome alone. -/
structure Same (l : List Ev) (sid : Nat) (s s' : CStream) : Prop where
  req : s'.req = s.req
  peerW : s'.peerW = s.peerW
  localW : s'.localW = s.localW
  processed : s'.processed = s.processed
  endSent : s'.endSent = s.endSent
  rstSent : s'.rstSent = s.rstSent
  dispatched : s'.dispatched = s.dispatched
  will : s'.will = s.will
  offset : s'.offset = s.offset
  body : s'.resp.body = s.resp.body
  pending : s'.pending = s.pending ∨ s'.pending = decide (s.offset < s.req.body.length)
  fin : s'.endRecv = true → s.endRecv = true ∨ Ended sid l
  keep : s.endRecv = true → s'.endRecv = true
  rst : s'.rstRecv = true → s.rstRecv = true ∨ Swept sid l
  closed : s'.state = .closed → s.state = .closed ∨ s'.rstRecv = true ∨ s'.endRecv = true ∧ (s'.endSent = true ∨ s.state = .halfClosedLocal)
  hcl : s'.state = .halfClosedLocal → s.state = .halfClosedLocal
  idle : s'.state = .idle → s.state = .idle
  block : s'.resp = s.resp ∧ s'.cl = s.cl ∨ ∃ fs, respBlock s s.main fs = .ok (s'.resp, s'.cl)
  mainOk : s'.main = true → s.main = true ∨ ∃ fs, respBlock s false fs = .ok (s'.resp, s'.cl)
  hcr : s'.state = .halfClosedRemote → s.state = .halfClosedRemote ∨ s'.endRecv = true

/-- The frame may be forgotten. -/
def Droppable (c : Conn x) : In → Prop
  | .data sid _ _ _ => c.ok = true → c.get sid = none ∧ (sid % 2 = 1 → sid < c.next)
  | .goaway last code => c.ok = true → c.goawayRecv = true ∧ Ev.goawayEvent code last ∈ c.log
  | .settings ack es => c.ok = true → ack = true ∨ es = []
  | .rst sid _ => c.ok = true → c.get sid = none ∧ (sid % 2 = 1 → sid < c.next)
  | _ => True

/-- What remains of a stream whose response was handed over. -/
def CStream.after (s : CStream) : Option CStream := if s.done.state == .closed || s.done.rstSent || s.done.rstRecv then none else some s.done

inductive Micro : Conn x → Option In → Conn x → Option In → Prop
  | take (c : Conn x) (i : In) (h : c.ok = true) (hi : ∀ last code, i ≠ .goaway last code) : Micro c none (c.add (.rx i)) (some i)
  | takeGoaway (c : Conn x) (last code : Nat) (h : c.ok = true) : Micro c none { c.add (.rx (.goaway last code)) with goawayRecv := true } (some (.goaway last code))
  | refuse (c : Conn x) (i : In) (h : c.ok = true) : Micro c none { c.add (.rx i) with ok := false } none
  | drop (c : Conn x) (i : In) (h : Droppable c i) : Micro c (some i) c none
  | misc (c : Conn x) (p : Option In) (f : Bytes) (cs : Nat) (cc : Nat) (nd : Nat) (dc : x.D) (ec : x.E) : Micro c p { c with frag := f, curSid := cs, contCount := cc, need := nd, dec := dc, enc := ec } p
  | down (c : Conn x) (p : Option In) (a : Bool) : Micro c p { c with ok := false, active := a } p
  | close (c : Conn x) (p : Option In) (last code : Nat) (h : c.ok = true) : Micro c p { (c.add (.goaway last code)).add (.goawayEvent code last) with active := false, ok := false } p
  | note (c : Conn x) (p : Option In) (e : Ev) (h : e.neutral = true) (hw : e.written = true → c.ok = true)
      (hr : ∀ j k, e = .rst j k → c.get j = none) : Micro c p (c.add e) p
  | reply (c : Conn x) (e : Ev) (h : e = .settingsAck ∨ (∃ d, e = .pong d) ∧ c.ok = true) (hc : c.ctl + 1 ≤ 1000) : Micro c none { c.add e with ctl := c.ctl + 1 } none
  | over (c : Conn x) (p : Option In) (hc : c.ctl + 1 > 1000) : Micro c p { c with ctl := c.ctl + 1 } p
  | burn (c : Conn x) (p : Option In) (e : x.E) : Micro c p { c with next := c.next + 2, lastInit := c.next, enc := e } p
  | opens (c : Conn x) (p : Option In) (q : Req) (block : Bytes) (e : x.E) (ho : c.ok = true) (ha : c.active = true) (hg : c.goawayRecv = false) (hm : c.activeCount < c.peerMaxConc) :
      Micro c p (({ c with next := c.next + 2, lastInit := c.next, enc := e }.add (.request c.next q block (q.body.isEmpty && !announces q.headers))).put c.next
        (some (newStream c q (q.body.isEmpty && !announces q.headers)))) p
  | chunk (c : Conn x) (p : Option In) (sid : Nat) (s : CStream) (k : Nat) (fin : Bool) (hs : c.get sid = some s) (hk : 0 < k) (h1 : s.offset + k ≤ s.req.body.length) (h2 : k ≤ c.peerMaxFrame) (h3 : (k : Int) ≤ c.sendW)
      (h4 : (k : Int) ≤ s.peerW) (hf : fin = (s.offset + k == s.req.body.length && !s.will)) (ho : c.ok = true) (ha : c.active = true) :
      Micro c p { (c.add (.data sid ((s.req.body.drop s.offset).take k) fin)).put sid (some (s.sent k fin)) with sendW := c.sendW - (k : Int) } p
  | ownTrailers (c : Conn x) (p : Option In) (sid : Nat) (s : CStream) (block : Bytes) (hs : c.get sid = some s) (he : s.endSent = false) (hw : s.will = true) (hp : s.pending = false) (ho : c.ok = true) (ha : c.active = true) :
      Micro c p ((c.add (.trailers sid block)).put sid (some { s with endSent := true, state := .halfClosedLocal, will := false })) p
  | apiTrailers (c : Conn x) (sid : Nat) (s : CStream) (block : Bytes) (hs : c.get sid = some s) (he : s.endSent = false) (hw : s.will = true) :
      Micro c none ((c.add (.trailers sid block)).put sid (some { s with endSent := true, state := sendEnd s.state })) none
  | credit0 (c : Conn x) (inc : Nat) : Micro c (some (.windowUpdate 0 inc)) { c with sendW := c.sendW + (inc : Int) } none
  | creditS (c : Conn x) (sid : Nat) (s : CStream) (inc : Nat) (h0 : sid ≠ 0) (hs : c.get sid = some s) : Micro c (some (.windowUpdate sid inc)) (c.put sid (some { s with peerW := s.peerW + (inc : Int) })) none
  | setting (c : Conn x) (id : UInt16) (v : UInt32) (es : List (UInt16 × UInt32)) (e : x.E) (h : id ≠ 4) (hv : validateSetting id v = none) : Micro c (some (.settings false ((id, v) :: es)))
      { c with enc := e, peerMaxConc := if id = 3 then v.toNat else c.peerMaxConc, peerMaxFrame := if id = 5 then (H2.clampPeerMax v).toNat else c.peerMaxFrame } (some (.settings false es))
  | shift (c : Conn x) (v : UInt32) (es : List (UInt16 × UInt32)) (hv : validateSetting 4 v = none) : Micro c (some (.settings false ((4, v) :: es)))
      { c with initPeer := v.toNat, get := fun j => (c.get j).map fun s => { s with peerW := s.peerW + ((v.toNat : Int) - (c.initPeer : Int)) } } (some (.settings false es))
  | accept (c : Conn x) (sid : Nat) (s : CStream) (d : Bytes) (pad : Nat) (fin : Bool) (hs : c.get sid = some s) (hl : ((d.length + pad : Nat) : Int) ≤ s.localW) (hr : ((d.length + pad : Nat) : Int) ≤ c.recvW)
      (hst : s.state = .open_ ∨ s.state = .halfClosedLocal) :
      Micro c (some (.data sid d pad fin)) { (debit c (d.length + pad)).put sid (some (s.accept (d.length + pad) d)) with ctl := 0 } none
  | debit (c : Conn x) (sid : Nat) (d : Bytes) (pad : Nat) (fin : Bool) (h : Droppable c (.data sid d pad fin)) : Micro c (some (.data sid d pad fin)) (debit c (d.length + pad)) none
  | wu0 (c : Conn x) (p : Option In) (ho : c.ok = true) (hp : c.processed ≥ THRESHOLD) :
      Micro c p { c.add (.windowUpdate 0 c.processed) with recvW := c.recvW + (c.processed : Int), processed := 0 } p
  | wuS (c : Conn x) (p : Option In) (sid : Nat) (s : CStream) (hs : c.get sid = some s) (h0 : sid ≠ 0) (ho : c.ok = true) (hp : s.processed ≥ THRESHOLD) :
      Micro c p ((c.add (.windowUpdate sid s.processed)).put sid (some { s with localW := s.localW + (s.processed : Int), processed := 0 })) p
  | mark (c : Conn x) (p : Option In) (sid : Nat) (s : CStream) (s' : CStream) (hs : c.get sid = some s) (h : Same c.log sid s s') : Micro c p (c.put sid (some s')) p
  | told (c : Conn x) (p : Option In) (sid : Nat) (s : CStream) (code : Nat) (hs : c.get sid = some s) (hd : s.dispatched = false)
      (hr : ∃ t, c.log = Ev.rx (.rst sid code) :: t) (ho : c.ok = true) : Micro c p ((c.put sid none).add (.streamError sid code)) p
  | cut (c : Conn x) (p : Option In) (sid : Nat) (s : CStream) (code : Nat) (hs : c.get sid = some s) (hd : s.dispatched = false) (ho : c.ok = true) :
      Micro c p (((c.add (.rst sid code)).put sid none).add (.streamError sid code)) p
  | cutDone (c : Conn x) (p : Option In) (sid : Nat) (s : CStream) (code : Nat) (hs : c.get sid = some s) (hd : s.dispatched = true) (ho : c.ok = true) :
      Micro c p ((c.add (.rst sid code)).put sid none) p
  | forget (c : Conn x) (p : Option In) (sid : Nat) (s : CStream) (hs : c.get sid = some s) (hd : s.dispatched = true)
      (hr : (∃ code t, c.log = Ev.rx (.rst sid code) :: t) ∨ s.state = .closed ∨ s.rstSent = true ∨ s.rstRecv = true) : Micro c p (c.put sid none) p
  | lose (c : Conn x) (p : Option In) (sid : Nat) (s : CStream) (hs : c.get sid = some s) (hd : s.dispatched = false) (h : s.state = .closed ∨ s.rstSent = true ∨ s.rstRecv = true) : Micro c p (c.put sid none) p
  | dispatch (c : Conn x) (p : Option In) (sid : Nat) (s : CStream) (hs : c.get sid = some s) (hd : s.dispatched = false) (hm : s.main = true) (he : s.endRecv = true ∨ s.rstRecv = true)
      (ht : s.trailersExp = true → s.trailersRecv = true ∨ s.rstRecv = true) (ho : c.ok = true) (hp : ∀ sid d pad fin, p ≠ some (.data sid d pad fin)) (hc : enforce s.req.method s.resp.status = true → mismatch s.cl s.resp.body = false) :
      Micro c p { (c.put sid s.after).add (.response sid s.req.app s.resp (if s.rstRecv then s.err else NO_ERROR)) with ctl := 0 } p

inductive Steps : Conn x → Option In → Conn x → Option In → Prop
  | refl (c p) : Steps c p c p
  | cons {c p c1 p1 c2 p2} (h : Micro c p c1 p1) (t : Steps c1 p1 c2 p2) : Steps c p c2 p2

theorem Steps.trans {c c1 c2 : Conn x} {p p1 p2 : Option In} (h : Steps c p c1 p1) (t : Steps c1 p1 c2 p2) : Steps c p c2 p2 := by
  induction h with
  | refl => exact t
  | cons h _ ih => exact .cons h (ih t)

theorem Steps.one {c c1 : Conn x} {p p1 : Option In} (h : Micro c p c1 p1) : Steps c p c1 p1 := .cons h (.refl _ _)

theorem Steps.snoc {c c1 c2 : Conn x} {p p1 p2 : Option In} (h : Steps c p c1 p1) (t : Micro c1 p1 c2 p2) : Steps c p c2 p2 := h.trans (.one t)

/-- An invariant of the small steps. -/
theorem Steps.ind {I : Conn x → Option In → Prop} (hI : ∀ c p c' p', Micro c p c' p' → I c p → I c' p') {c c' : Conn x} {p p' : Option In} (h : Steps c p c' p') : I c p → I c' p' := by
  induction h with
  | refl => exact id
  | cons h _ ih => exact fun i => ih (hI _ _ _ _ h i)

/-! ### Facts on the model -/

@[simp] theorem put_get (c : Conn x) (sid : Nat) (o : Option CStream) (j : Nat) : (c.put sid o).get j = if j = sid then o else c.get j := rfl

theorem put_put (c : Conn x) (sid : Nat) (o o' : Option CStream) : (c.put sid o).put sid o' = c.put sid o' := by
  unfold Conn.put
  congr 1
  funext j
  by_cases h : j = sid <;> simp [h]

theorem put_self (c : Conn x) (sid : Nat) (s : CStream) (h : c.get sid = some s) : c.put sid (some s) = c := by
  unfold Conn.put
  have : (fun j => if j = sid then some s else c.get j) = c.get := by
    funext j
    by_cases e : j = sid <;> simp [e, h]
  rw [this]

theorem Same.refl (l : List Ev) (sid : Nat) (s : CStream) : Same l sid s s :=
  ⟨rfl, rfl, rfl, rfl, rfl, rfl, rfl, rfl, rfl, rfl, .inl rfl, .inl, id, .inl, .inl, id, id, .inl ⟨rfl, rfl⟩, .inl, .inl⟩

/-! ### The functions of the model as small steps -/

theorem goaway_steps (c : Conn x) (p : Option In) (code : Nat) : Steps c p (goaway c code) p := by
  unfold goaway
  split
  · exact .refl _ _
  · rename_i h
    exact .one (.close c p (if c.isEmpty then 0 else c.lastInit) code (by simpa using h))

theorem goaway_ok (c : Conn x) (code : Nat) : (goaway c code).ok = false := by
  unfold goaway
  split
  · rename_i h; simpa using h
  · rfl

theorem tryClose_steps (c : Conn x) (p : Option In) (sid : Nat) : Steps c p (tryClose c sid) p := by
  unfold tryClose
  split
  · exact .refl _ _
  · rename_i s hs
    split
    · rename_i h
      have h : s.state = .closed ∨ s.rstSent = true ∨ s.rstRecv = true := by
        simp only [Bool.or_eq_true, beq_iff_eq] at h
        rcases h with (h | h) | h
        · exact .inl h
        · exact .inr (.inl h)
        · exact .inr (.inr h)
      cases hd : s.dispatched with
      | true => exact .one (.forget c p sid s hs hd (.inr h))
      | false => exact .one (.lose c p sid s hs hd h)
    · exact .refl _ _

theorem pump_succ (m sid n : Nat) (s : CStream) (w : Int) (l : List Ev) : pump m sid (n + 1) s w l =
    (if s.offset < s.req.body.length then
      if (decide (w ≤ 0) || decide (s.peerW ≤ 0)) = true then (s, w, l)
      else if chunk s m w = 0 then (s, w, l)
      else pump m sid n (s.sent (chunk s m w) (s.offset + chunk s m w == s.req.body.length && !s.will)) (w - (chunk s m w : Int))
        (.data sid ((s.req.body.drop s.offset).take (chunk s m w)) (s.offset + chunk s m w == s.req.body.length && !s.will) :: l)
    else (s, w, l)) := by
  rw [pump]
  by_cases h : chunk s m w = 0
  · simp only [h, beq_self_eq_true, if_true]
  · simp only [h, if_false, beq_eq_false_iff_ne.mpr h, Bool.false_eq_true]

/-- The loop that sends a body. -/
theorem pump_steps (p : Option In) (sid : Nat) : ∀ (n : Nat) (c : Conn x) (s : CStream), c.get sid = some s → c.ok = true → c.active = true →
    Steps c p { c.put sid (some (pump c.peerMaxFrame sid n s c.sendW c.log).1) with sendW := (pump c.peerMaxFrame sid n s c.sendW c.log).2.1, log := (pump c.peerMaxFrame sid n s c.sendW c.log).2.2 } p ∧
      (pump c.peerMaxFrame sid n s c.sendW c.log).1.req = s.req := by
  intro n
  induction n with
  | zero =>
    intro c s hs ho ha
    simp only [pump]
    refine ⟨?_, trivial⟩
    rw [put_self c sid s hs]
    exact .refl _ _
  | succ n ih =>
    intro c s hs ho ha
    have base : Steps c p { c.put sid (some s) with sendW := c.sendW, log := c.log } p := by
      rw [put_self c sid s hs]; exact .refl _ _
    rw [pump_succ]
    split
    · split
      · exact ⟨base, rfl⟩
      · rename_i hlt hw
        split
        · exact ⟨base, rfl⟩
        · rename_i hk
          simp only [Bool.or_eq_true, decide_eq_true_eq, not_or, Int.not_le] at hw
          have k1 : chunk s c.peerMaxFrame c.sendW ≤ s.req.body.length - s.offset := Nat.min_le_left _ _
          have k2 : chunk s c.peerMaxFrame c.sendW ≤ c.peerMaxFrame := Nat.le_trans (Nat.min_le_right _ _) (Nat.min_le_left _ _)
          have k3 : chunk s c.peerMaxFrame c.sendW ≤ c.sendW.toNat := Nat.le_trans (Nat.min_le_right _ _) (Nat.le_trans (Nat.min_le_right _ _) (Nat.min_le_left _ _))
          have k4 : chunk s c.peerMaxFrame c.sendW ≤ s.peerW.toNat := Nat.le_trans (Nat.min_le_right _ _) (Nat.le_trans (Nat.min_le_right _ _) (Nat.min_le_right _ _))
          generalize hkk : chunk s c.peerMaxFrame c.sendW = k at *
          have m := Micro.chunk c p sid s k (s.offset + k == s.req.body.length && !s.will) hs (by omega) (by omega) k2 (by omega) (by omega) rfl ho ha
          generalize hfin : (s.offset + k == s.req.body.length && !s.will) = fin at *
          have := ih { (c.add (.data sid ((s.req.body.drop s.offset).take k) fin)).put sid (some (s.sent k fin)) with sendW := c.sendW - (k : Int) } (s.sent k fin)
            (by simp) ho ha
          refine ⟨.cons m ?_, this.2⟩
          have e := this.1
          simp only [Conn.add, Conn.put] at e ⊢
          rw [show (fun j => if j = sid then some (pump c.peerMaxFrame sid n (s.sent k fin) (c.sendW - ↑k) (Ev.data sid (List.take k (List.drop s.offset s.req.body)) fin :: c.log)).1 else if j = sid then some (s.sent k fin) else c.get j)
            = (fun j => if j = sid then some (pump c.peerMaxFrame sid n (s.sent k fin) (c.sendW - ↑k) (Ev.data sid (List.take k (List.drop s.offset s.req.body)) fin :: c.log)).1 else c.get j) from by
            funext j
            by_cases h : j = sid <;> simp [h]] at e
          exact e
    · exact ⟨base, rfl⟩

theorem sendBody_steps (c : Conn x) (p : Option In) (sid : Nat) (s : CStream) (hs : c.get sid = some s) (ho : c.ok = true) (ha : c.active = true) : Steps c p (sendBody c sid s) p := by
  unfold sendBody
  split
  · rename_i h
    refine .one (.mark c p sid s _ hs ⟨rfl, rfl, rfl, rfl, rfl, rfl, rfl, rfl, rfl, rfl, ?_, .inl, id, .inl, .inl, id, id, .inl ⟨rfl, rfl⟩, .inl, .inl⟩)
    simp only [Bool.or_eq_true, Bool.not_eq_true', List.isEmpty_iff] at h
    rcases h with h | h
    · exact .inl h.symm
    · right; simp [h]
  · obtain ⟨h1, h2⟩ := pump_steps p sid (s.req.body.length - s.offset) c s hs ho ha
    refine h1.trans ?_
    generalize hr : pump c.peerMaxFrame sid (s.req.body.length - s.offset) s c.sendW c.log = r at *
    have m := Micro.mark (x := x) { c.put sid (some r.1) with sendW := r.2.1, log := r.2.2 } p sid r.1 { r.1 with pending := decide (r.1.offset < s.req.body.length) } (by simp)
      ⟨rfl, rfl, rfl, rfl, rfl, rfl, rfl, rfl, rfl, rfl, .inr (by simp only; rw [h2]), .inl, id, .inl, .inl, id, id, .inl ⟨rfl, rfl⟩, .inl, .inl⟩
    refine .one ?_
    have e : Conn.put { c.put sid (some r.1) with sendW := r.2.1, log := r.2.2 } sid (some { r.1 with pending := decide (r.1.offset < s.req.body.length) })
        = { c.put sid (some { r.1 with pending := decide (r.1.offset < s.req.body.length) }) with sendW := r.2.1, log := r.2.2 } := by
      unfold Conn.put
      congr 1
      funext j
      by_cases h : j = sid <;> simp [h]
    rw [e] at m
    exact m

end Verif.Clp
