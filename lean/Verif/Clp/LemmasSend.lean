import Verif.Clp.Spec
import Verif.Clp.Micro3

namespace Verif.Clp
open Verif.Stream
variable {x : Ext}

theorem always_split {P : Ev → List Ev → Prop} : ∀ {l post pre : List Ev} {e : Ev}, Always P l → l = post ++ e :: pre → P e pre
  | _, [], _, _, h, rfl => h.1
  | _, _ :: _, _, _, h, rfl => always_split h.2 rfl

/-! ### Settings -/

/-- The entries of a SETTINGS frame that are still to be taken. -/
def restOf : Option In → List (UInt16 × UInt32)
  | some (.settings false es) => es
  | _ => []

/-- The client's copy of a setting. -/
def Conn.val (id : UInt16) (c : Conn x) : Nat := if id = 3 then c.peerMaxConc else if id = 4 then c.initPeer else c.peerMaxFrame

structure SetInv (id : UInt16) (c : Conn x) (p : Option In) : Prop where
  now : after id (c.val id) (restOf p) = current id c.log
  via : ∀ v ∈ through id (c.val id) (restOf p), v ∈ inForce id c.log

theorem through_mem (id : UInt16) (v : Nat) (es : List (UInt16 × UInt32)) : v ∈ through id v es := by
  cases es <;> simp [through]

theorem clamp_valid (v : UInt32) (h : validateSetting 5 v = none) : (H2.clampPeerMax v).toNat = v.toNat := by
  have h1 : ¬ (v < minMaxFrameSize ∨ v > maxFrameSizeLimit) := by
    intro h2
    simp only [validateSetting, show ((5 : UInt16) == 1) = false from rfl, show ((5 : UInt16) == 2) = false from rfl, show ((5 : UInt16) == 3) = false from rfl, show ((5 : UInt16) == 4) = false from rfl,
      show ((5 : UInt16) == 5) = true from rfl, Bool.false_eq_true, if_false, if_true] at h
    split at h
    · cases h
    · rename_i h3
      simp only [Bool.or_eq_true, decide_eq_true_eq] at h3
      exact h3 h2
  have e1 : minMaxFrameSize.toNat = 16384 := rfl
  have e2 : maxFrameSizeLimit.toNat = 16777215 := rfl
  have d1 : H2.DEFAULT_MAX_FRAME_SIZE.toNat = 16384 := rfl
  have d2 : H2.MAX_FRAME_SIZE_LIMIT.toNat = 16777215 := rfl
  simp only [UInt32.lt_iff_toNat_lt, gt_iff_lt, e1, e2, not_or, Nat.not_lt] at h1
  have m : min v H2.MAX_FRAME_SIZE_LIMIT = v := by
    show (if v ≤ H2.MAX_FRAME_SIZE_LIMIT then v else H2.MAX_FRAME_SIZE_LIMIT) = v
    rw [if_pos (by rw [UInt32.le_iff_toNat_le, d2]; exact h1.2)]
  unfold H2.clampPeerMax
  rw [m]
  show (if H2.DEFAULT_MAX_FRAME_SIZE ≤ v then v else H2.DEFAULT_MAX_FRAME_SIZE).toNat = v.toNat
  rw [if_pos (by rw [UInt32.le_iff_toNat_le, d1]; exact h1.1)]

theorem val_setting (c : Conn x) (id : UInt16) (hid : id = 3 ∨ id = 4 ∨ id = 5) (i : UInt16) (v : UInt32) (e : x.E) (h4 : i ≠ 4) (hv : validateSetting i v = none) :
    Conn.val (x := x) id { c with enc := e, peerMaxConc := if i = 3 then v.toNat else c.peerMaxConc, peerMaxFrame := if i = 5 then (H2.clampPeerMax v).toNat else c.peerMaxFrame }
      = if i = id then v.toNat else c.val id := by
  rcases hid with h | h | h <;> subst h
  · simp [Conn.val]
  · simp [Conn.val, h4]
  · simp only [Conn.val, show ¬((5 : UInt16) = 3) from by decide, show ¬((5 : UInt16) = 4) from by decide, if_false]
    split
    · rename_i h; subst h; exact clamp_valid v hv
    · rfl

theorem SetInv.same {id : UInt16} {c c' : Conn x} {p p' : Option In} (h : SetInv id c p) (hv : c'.val id = c.val id) (hl : current id c'.log = current id c.log ∧ inForce id c'.log = inForce id c.log)
    (hr : restOf p' = restOf p) : SetInv id c' p' := ⟨by rw [hv, hr, hl.1]; exact h.now, by rw [hv, hr, hl.2]; exact h.via⟩

theorem set_micro {id : UInt16} (hid : id = 3 ∨ id = 4 ∨ id = 5) {c c' : Conn x} {p p' : Option In} (m : Micro c p c' p') (i0 : c.ok = true → SetInv id c p) : c'.ok = true → SetInv id c' p' := by
  intro ho
  have up : c.ok = true := by
    cases ho2 : c.ok with
    | true => rfl
    | false => rw [stays_down (.one m) ho2] at ho; cases ho
  have i := i0 up
  clear i0
  cases m
  case take j hj hi =>
    have hn : c.val id = current id c.log := i.now
    cases j
    case settings ack es =>
      cases ack
      · exact ⟨by show after id (c.val id) es = after id (current id c.log) es; rw [hn], by show ∀ v ∈ through id (c.val id) es, v ∈ through id (current id c.log) es; rw [hn]; exact fun v h => h⟩
      · exact ⟨hn, by show ∀ v ∈ [c.val id], v ∈ [current id c.log]; rw [hn]; exact fun v h => h⟩
    all_goals exact ⟨hn, by show ∀ v ∈ [c.val id], v ∈ [current id c.log]; rw [hn]; exact fun v h => h⟩
  case takeGoaway last code _ =>
    have hn : c.val id = current id c.log := i.now
    exact ⟨hn, by show ∀ v ∈ [c.val id], v ∈ [current id c.log]; rw [hn]; exact fun v h => h⟩
  case refuse j _ => cases ho
  case drop j hd =>
    cases j
    case settings ack es =>
      rcases hd ho with h | h
      · subst h; exact ⟨i.now, i.via⟩
      · subst h; cases ack <;> exact ⟨i.now, i.via⟩
    all_goals exact ⟨i.now, i.via⟩
  case setting k v es e h4 hv =>
    have e2 := val_setting c id hid k v e h4 hv
    refine ⟨?_, ?_⟩
    · rw [e2]; exact i.now
    · rw [e2]; exact fun w hw => i.via w (List.mem_cons_of_mem _ hw)
  case shift v es hv =>
    have e2 : Conn.val id { c with initPeer := v.toNat, get := fun j => (c.get j).map fun s => { s with peerW := s.peerW + ((v.toNat : Int) - (c.initPeer : Int)) } } = if (4 : UInt16) = id then v.toNat else c.val id := by
      rcases hid with h | h | h <;> subst h <;> rfl
    refine ⟨?_, ?_⟩
    · rw [e2]; exact i.now
    · rw [e2]; exact fun w hw => i.via w (List.mem_cons_of_mem _ hw)
  case note e h hw hr => cases e <;> first | exact i.same rfl ⟨rfl, rfl⟩ rfl | (simp [Ev.neutral] at h)
  case reply e h hc => rcases h with h | ⟨⟨d, h⟩, _⟩ <;> subst h <;> exact i.same rfl ⟨rfl, rfl⟩ rfl
  all_goals exact i.same rfl ⟨rfl, rfl⟩ rfl

theorem set_init (id : UInt16) (hid : id = 3 ∨ id = 4 ∨ id = 5) (d : x.D) (e : x.E) : SetInv id (Conn.init d e) none := by
  rcases hid with h | h | h <;> subst h <;> exact ⟨rfl, fun v h => h⟩

/-! ### Send windows -/

/-- An increment of a WINDOW_UPDATE that is not taken yet. -/
def pend (sid : Nat) : Option In → Nat
  | some (.windowUpdate j inc) => if j = sid then inc else 0
  | _ => 0

structure SendInv (c : Conn x) (p : Option In) : Prop where
  conn : c.sendW + (sent c.log : Int) + (pend 0 p : Int) ≤ 65535 + (granted 0 c.log : Int)
  pos : 0 ≤ c.sendW
  streams : ∀ j s, c.get j = some s → s.peerW + ((bodyOn j c.log).length : Int) + (pend j p : Int) ≤ (c.initPeer : Int) + (granted j c.log : Int)
  fresh : ∀ j, c.next ≤ j → bodyOn j c.log = []
  known : ∀ j, pend j p ≤ granted j c.log

/-- A log with the same flow. -/
def Flow (l l' : List Ev) : Prop := sent l' = sent l ∧ ∀ j, bodyOn j l' = bodyOn j l ∧ granted j l' = granted j l

theorem flow_neutral (e : Ev) (l : List Ev) (h : e.neutral = true) : Flow l (e :: l) := by
  cases e <;> first | exact ⟨rfl, fun j => ⟨rfl, rfl⟩⟩ | (simp [Ev.neutral] at h)

theorem SendInv.keep {c c' : Conn x} {p p' : Option In} (h : SendInv c p) (hw : c'.sendW = c.sendW) (hi : c'.initPeer = c.initPeer) (hn : c.next ≤ c'.next) (hl : Flow c.log c'.log)
    (hp : ∀ j, pend j p' ≤ pend j p) (hs : ∀ j s', c'.get j = some s' → ∃ s, c.get j = some s ∧ s'.peerW ≤ s.peerW) : SendInv c' p' := by
  refine ⟨?_, by rw [hw]; exact h.pos, fun j s' hs' => ?_, fun j hj => ?_, fun j => ?_⟩
  · have := h.conn
    have := hp 0
    rw [hw, hl.1, (hl.2 0).2]; omega
  · obtain ⟨s, h1, h2⟩ := hs j s' hs'
    have := h.streams j s h1
    have := hp j
    rw [hi, (hl.2 j).1, (hl.2 j).2]; omega
  · rw [(hl.2 j).1]; exact h.fresh j (by omega)
  · rw [(hl.2 j).2]; exact Nat.le_trans (hp j) (h.known j)

theorem put_le {c : Conn x} {sid : Nat} {s : CStream} {o : Option CStream} (hs : c.get sid = some s) (ho : ∀ t, o = some t → t.peerW ≤ s.peerW) :
    ∀ j s', (c.put sid o).get j = some s' → ∃ s, c.get j = some s ∧ s'.peerW ≤ s.peerW := by
  intro j s' h
  rw [put_get] at h
  split at h
  · rename_i e; rw [e]; exact ⟨s, hs, ho s' h⟩
  · exact ⟨s', h, Int.le_refl _⟩

theorem get_le {c : Conn x} : ∀ j s', c.get j = some s' → ∃ s, c.get j = some s ∧ s'.peerW ≤ s.peerW := fun _ s' h => ⟨s', h, Int.le_refl _⟩

theorem flow_refl (l : List Ev) : Flow l l := ⟨rfl, fun _ => ⟨rfl, rfl⟩⟩

theorem after_peerW (s t : CStream) (h : s.after = some t) : t.peerW ≤ s.peerW := by
  unfold CStream.after at h
  split at h
  · cases h
  · cases h; exact Int.le_refl _

theorem send_micro {c c' : Conn x} {p p' : Option In} (w : Wf c) (m : Micro c p c' p') (i : SendInv c p) : SendInv c' p' := by
  cases m
  case take j hj hi =>
    cases j
    case windowUpdate sid inc =>
      refine ⟨?_, i.pos, fun j s hs => ?_, i.fresh, fun j => ?_⟩
      · have := i.conn
        simp only [pend] at this
        simp only [pend, Conn.add, sent, granted]
        split <;> omega
      · have := i.streams j s hs
        simp only [pend] at this
        simp only [pend, Conn.add, bodyOn, granted]
        split <;> omega
      · simp only [pend, Conn.add, granted]
        split <;> omega
    all_goals exact i.keep rfl rfl (Nat.le_refl _) ⟨rfl, fun _ => ⟨rfl, rfl⟩⟩ (fun _ => Nat.le_refl _) get_le
  case refuse j hj =>
    cases j
    case windowUpdate sid inc =>
      refine ⟨?_, i.pos, fun j s hs => ?_, i.fresh, fun j => ?_⟩
      · have := i.conn
        simp only [pend] at this
        simp only [pend, Conn.add, sent, granted]
        split <;> omega
      · have := i.streams j s hs
        simp only [pend] at this
        simp only [pend, Conn.add, bodyOn, granted]
        split <;> omega
      · simp only [pend, Conn.add, granted]
        split <;> omega
    all_goals exact i.keep rfl rfl (Nat.le_refl _) ⟨rfl, fun _ => ⟨rfl, rfl⟩⟩ (fun _ => Nat.le_refl _) get_le
  case drop j hd => exact i.keep rfl rfl (Nat.le_refl _) (flow_refl _) (fun _ => Nat.zero_le _) get_le
  case note e h hw hr => exact i.keep rfl rfl (Nat.le_refl _) (flow_neutral e c.log h) (fun _ => Nat.le_refl _) get_le
  case reply e h hc => rcases h with h | ⟨⟨d, h⟩, _⟩ <;> subst h <;> exact i.keep rfl rfl (Nat.le_refl _) ⟨rfl, fun _ => ⟨rfl, rfl⟩⟩ (fun _ => Nat.le_refl _) get_le
  case burn e => exact i.keep rfl rfl (by show c.next ≤ c.next + 2; omega) (flow_refl _) (fun _ => Nat.le_refl _) get_le
  case opens q block e _ _ _ _ =>
    refine ⟨i.conn, i.pos, fun j s hs => ?_, fun j hj => i.fresh j ?_, i.known⟩
    · rw [put_get] at hs
      split at hs
      · rename_i e
        cases hs
        have h1 : bodyOn j c.log = [] := i.fresh j (by omega)
        show (c.initPeer : Int) + ((bodyOn j c.log).length : Int) + (pend j p : Int) ≤ (c.initPeer : Int) + (granted j c.log : Int)
        rw [h1]
        have := i.known j
        simp; omega
      · exact i.streams j s hs
    · have : c.next + 2 ≤ j := hj
      omega
  case chunk sid s k fin hs hk h1 h2 h3 h4 hf ho ha =>
    have hlen : ((s.req.body.drop s.offset).take k).length = k := by simp; omega
    have hn := (w.keys sid s hs).1
    refine ⟨?_, ?_, fun j t ht => ?_, fun j hj => ?_, i.known⟩
    · have := i.conn
      show c.sendW - (k : Int) + ((((s.req.body.drop s.offset).take k).length + sent c.log : Nat) : Int) + (pend 0 p : Int) ≤ 65535 + (granted 0 c.log : Int)
      rw [hlen]; omega
    · show 0 ≤ c.sendW - (k : Int); omega
    · replace ht : (if j = sid then some (s.sent k fin) else c.get j) = some t := ht
      show t.peerW + (((if sid = j then bodyOn j c.log ++ (s.req.body.drop s.offset).take k else bodyOn j c.log)).length : Int) + (pend j p : Int) ≤ (c.initPeer : Int) + (granted j c.log : Int)
      split at ht
      · rename_i e
        subst e
        cases ht
        have := i.streams j s hs
        simp only [if_true, List.length_append, hlen]
        show s.peerW - (k : Int) + _ + _ ≤ _
        omega
      · rename_i e
        rw [if_neg (fun h => e h.symm)]
        exact i.streams j t ht
    · have hj : c.next ≤ j := hj
      show (if sid = j then bodyOn j c.log ++ (s.req.body.drop s.offset).take k else bodyOn j c.log) = []
      rw [if_neg (by omega)]
      exact i.fresh j hj
  case ownTrailers sid s block hs _ _ _ _ _ => exact i.keep (p' := p) rfl rfl (Nat.le_refl _) ⟨rfl, fun _ => ⟨rfl, rfl⟩⟩ (fun _ => Nat.le_refl _) (put_le (c := c) hs (fun t h => by cases h; exact Int.le_refl _))
  case apiTrailers sid s block hs _ _ => exact i.keep (p' := none) rfl rfl (Nat.le_refl _) ⟨rfl, fun _ => ⟨rfl, rfl⟩⟩ (fun _ => Nat.le_refl _) (put_le (c := c) hs (fun t h => by cases h; exact Int.le_refl _))
  case credit0 inc =>
    refine ⟨?_, ?_, fun j s hs => ?_, i.fresh, fun _ => Nat.zero_le _⟩
    · have := i.conn
      simp only [pend, if_true] at this
      show c.sendW + (inc : Int) + (sent c.log : Int) + ((0 : Nat) : Int) ≤ 65535 + (granted 0 c.log : Int)
      omega
    · have := i.pos
      show 0 ≤ c.sendW + (inc : Int); omega
    · have := i.streams j s hs
      show s.peerW + ((bodyOn j c.log).length : Int) + ((0 : Nat) : Int) ≤ (c.initPeer : Int) + (granted j c.log : Int)
      omega
  case creditS sid s inc h0 hs =>
    refine ⟨?_, i.pos, fun j t ht => ?_, i.fresh, fun _ => Nat.zero_le _⟩
    · have := i.conn
      show c.sendW + (sent c.log : Int) + ((0 : Nat) : Int) ≤ 65535 + (granted 0 c.log : Int)
      omega
    · rw [put_get] at ht
      show t.peerW + _ + ((0 : Nat) : Int) ≤ _
      split at ht
      · rename_i e
        subst e
        cases ht
        have := i.streams j s hs
        simp only [pend, if_true] at this
        show s.peerW + (inc : Int) + _ + _ ≤ (c.initPeer : Int) + (granted j c.log : Int)
        have e : (c.put j (some { s with peerW := s.peerW + (inc : Int) })).log = c.log := rfl
        rw [e]
        omega
      · have := i.streams j t ht
        show t.peerW + ((bodyOn j c.log).length : Int) + _ ≤ (c.initPeer : Int) + (granted j c.log : Int)
        omega
  case setting k v es e h4 hv => exact i.keep rfl rfl (Nat.le_refl _) (flow_refl _) (fun _ => Nat.le_refl _) get_le
  case shift v es hv =>
    refine ⟨i.conn, i.pos, fun j t ht => ?_, i.fresh, i.known⟩
    simp only [Option.map_eq_some_iff] at ht
    obtain ⟨s, h1, h2⟩ := ht
    have := i.streams j s h1
    subst h2
    show s.peerW + ((v.toNat : Int) - (c.initPeer : Int)) + _ + _ ≤ (v.toNat : Int) + _
    simp only [pend] at this ⊢
    omega
  case accept sid s d pad fin hs _ _ _ => exact i.keep (p' := none) rfl rfl (Nat.le_refl _) (flow_refl _) (fun _ => Nat.le_refl _) (put_le (c := c) hs (fun t h => by cases h; exact Int.le_refl _))
  case wuS sid s hs _ _ _ => exact i.keep (p' := p) rfl rfl (Nat.le_refl _) ⟨rfl, fun _ => ⟨rfl, rfl⟩⟩ (fun _ => Nat.le_refl _) (put_le (c := c) hs (fun t h => by cases h; exact Int.le_refl _))
  case mark sid s s' hs h => exact i.keep rfl rfl (Nat.le_refl _) (flow_refl _) (fun _ => Nat.le_refl _) (put_le hs (fun t e => by cases e; rw [h.peerW]; exact Int.le_refl _))
  case told sid s code hs _ _ _ => exact i.keep (p' := p) rfl rfl (Nat.le_refl _) ⟨rfl, fun _ => ⟨rfl, rfl⟩⟩ (fun _ => Nat.le_refl _) (put_le (c := c) hs (fun t h => by cases h))
  case cut sid s code hs _ _ => exact i.keep (p' := p) rfl rfl (Nat.le_refl _) ⟨rfl, fun _ => ⟨rfl, rfl⟩⟩ (fun _ => Nat.le_refl _) (put_le (c := c) hs (fun t h => by cases h))
  case cutDone sid s code hs _ _ => exact i.keep (p' := p) rfl rfl (Nat.le_refl _) ⟨rfl, fun _ => ⟨rfl, rfl⟩⟩ (fun _ => Nat.le_refl _) (put_le (c := c) hs (fun t h => by cases h))
  case forget sid s hs _ _ => exact i.keep (p' := p) rfl rfl (Nat.le_refl _) (flow_refl _) (fun _ => Nat.le_refl _) (put_le (c := c) hs (fun t h => by cases h))
  case lose sid s hs _ _ => exact i.keep (p' := p) rfl rfl (Nat.le_refl _) (flow_refl _) (fun _ => Nat.le_refl _) (put_le (c := c) hs (fun t h => by cases h))
  case dispatch sid s hs _ _ _ _ _ _ _ => exact i.keep (p' := p) rfl rfl (Nat.le_refl _) ⟨rfl, fun _ => ⟨rfl, rfl⟩⟩ (fun _ => Nat.le_refl _) (put_le (c := c) hs (after_peerW s))
  all_goals exact i.keep rfl rfl (Nat.le_refl _) ⟨rfl, fun _ => ⟨rfl, rfl⟩⟩ (fun _ => Nat.le_refl _) get_le

end Verif.Clp
