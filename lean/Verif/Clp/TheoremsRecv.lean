import Verif.Clp.TheoremsStream

/-! C170: the receive windows. -/

namespace Verif.Clp
open Verif.Stream
variable {x : Ext}

/-- The octets of a DATA frame that is not taken yet. -/
def pendLen : Option In → Nat
  | some (.data _ d pad _) => d.length + pad
  | _ => 0

def pendOn (j : Nat) : Option In → Nat
  | some (.data i d pad _) => if i = j then d.length + pad else 0
  | _ => 0

structure RecvInv (c : Conn x) (p : Option In) : Prop where
  conn : c.processed + advertised 0 c.log + pendLen p ≤ received c.log
  connW : 65535 + (advertised 0 c.log : Int) + (pendLen p : Int) ≤ c.recvW + (received c.log : Int)
  streams : ∀ j s, c.get j = some s → s.processed + advertised j c.log + pendOn j p ≤ receivedOn j c.log
  streamsW : ∀ j s, c.get j = some s → 65535 + (advertised j c.log : Int) + (pendOn j p : Int) ≤ s.localW + (receivedOn j c.log : Int)
  all : ∀ j, j ≠ 0 → advertised j c.log + pendOn j p ≤ receivedOn j c.log
  fresh : ∀ j, c.next ≤ j → advertised j c.log = 0

/-- A log with the same amounts received and granted. -/
def Calm (l l' : List Ev) : Prop := received l' = received l ∧ ∀ j, advertised j l' = advertised j l ∧ receivedOn j l' = receivedOn j l

theorem calm_refl (l : List Ev) : Calm l l := ⟨rfl, fun _ => ⟨rfl, rfl⟩⟩

theorem RecvInv.keep {c c' : Conn x} {p p' : Option In} (h : RecvInv c p) (h1 : c'.processed = c.processed) (h2 : c'.recvW = c.recvW) (hn : c.next ≤ c'.next) (hl : Calm c.log c'.log) (hp : pendLen p' ≤ pendLen p) (hpo : ∀ j, pendOn j p' ≤ pendOn j p)
    (hs : ∀ j s', c'.get j = some s' → ∃ s, c.get j = some s ∧ s'.processed = s.processed ∧ s'.localW = s.localW) : RecvInv c' p' := by
  refine ⟨?_, ?_, fun j s' hs' => ?_, fun j s' hs' => ?_, fun j hj => ?_, fun j hj => ?_⟩
  · have := h.conn
    rw [h1, hl.1, (hl.2 0).1]; omega
  · have := h.connW
    rw [h2, hl.1, (hl.2 0).1]; omega
  · obtain ⟨s, e1, e2, e3⟩ := hs j s' hs'
    have := h.streams j s e1
    have := hpo j
    rw [e2, (hl.2 j).1, (hl.2 j).2]; omega
  · obtain ⟨s, e1, e2, e3⟩ := hs j s' hs'
    have := h.streamsW j s e1
    have := hpo j
    rw [e3, (hl.2 j).1, (hl.2 j).2]; omega
  · have := h.all j hj
    have := hpo j
    rw [(hl.2 j).1, (hl.2 j).2]; omega
  · rw [(hl.2 j).1]; exact h.fresh j (by omega)

theorem put_recv {c : Conn x} {sid : Nat} {s : CStream} {o : Option CStream} (hs : c.get sid = some s) (ho : ∀ t, o = some t → t.processed = s.processed ∧ t.localW = s.localW) :
    ∀ j s', (if j = sid then o else c.get j) = some s' → ∃ s, c.get j = some s ∧ s'.processed = s.processed ∧ s'.localW = s.localW := by
  intro j s' h
  split at h
  · rename_i e; rw [e]; exact ⟨s, hs, ho s' h⟩
  · exact ⟨s', h, rfl, rfl⟩

theorem get_recv {c : Conn x} : ∀ j s', c.get j = some s' → ∃ s, c.get j = some s ∧ s'.processed = s.processed ∧ s'.localW = s.localW := fun _ s' h => ⟨s', h, rfl, rfl⟩

theorem calm_neutral (e : Ev) (l : List Ev) (h : e.neutral = true) : Calm l (e :: l) := by
  cases e <;> first | exact ⟨rfl, fun _ => ⟨rfl, rfl⟩⟩ | (simp [Ev.neutral] at h)

/-- A frame arrives. -/
theorem RecvInv.rx {c c' : Conn x} (i : In) (h : RecvInv c none) (hl : c'.log = .rx i :: c.log) (hg : c'.get = c.get) (h1 : c'.processed = c.processed) (h2 : c'.recvW = c.recvW) (hn : c'.next = c.next) : RecvInv c' (some i) := by
  cases i
  case data sid d pad fin =>
    have e1 : received c'.log = d.length + pad + received c.log := by rw [hl]; rfl
    have e2 : ∀ j, advertised j c'.log = advertised j c.log := fun j => by rw [hl]; rfl
    have e3 : ∀ j, receivedOn j c'.log = pendOn j (some (.data sid d pad fin)) + receivedOn j c.log := fun j => by
      rw [hl]; simp only [receivedOn, pendOn]; split <;> omega
    refine ⟨?_, ?_, fun j s hs => ?_, fun j s hs => ?_, fun j hj => ?_, fun j hj => ?_⟩
    · have := h.conn; rw [e1, e2, h1]; simp only [pendLen] at this ⊢; omega
    · have := h.connW; rw [e1, e2, h2]; simp only [pendLen] at this ⊢; omega
    · rw [hg] at hs; have := h.streams j s hs; rw [e2, e3]; simp only [show pendOn j none = 0 from rfl] at this; omega
    · rw [hg] at hs; have := h.streamsW j s hs; rw [e2, e3]; simp only [show pendOn j none = 0 from rfl] at this; omega
    · have := h.all j hj; rw [e2, e3]; simp only [show pendOn j none = 0 from rfl] at this; omega
    · rw [e2]; exact h.fresh j (by omega)
  all_goals exact h.keep h1 h2 (by omega) (by rw [hl]; exact ⟨rfl, fun _ => ⟨rfl, rfl⟩⟩) (Nat.le_refl _) (fun _ => Nat.le_refl _) (by rw [hg]; exact get_recv)

theorem recv_micro {c c' : Conn x} {p p' : Option In} (w : Wf c) (m : Micro c p c' p') (i : RecvInv c p) : RecvInv c' p' := by
  cases m
  case take j hj hi => exact i.rx j rfl rfl rfl rfl rfl
  case takeGoaway last code _ => exact i.rx (.goaway last code) rfl rfl rfl rfl rfl
  case refuse j hj =>
    have r := RecvInv.rx (c' := { c.add (.rx j) with ok := false }) j i rfl rfl rfl rfl rfl
    exact r.keep rfl rfl (Nat.le_refl _) (calm_refl _) (Nat.zero_le _) (fun _ => Nat.zero_le _) get_recv
  case drop j hd => exact i.keep rfl rfl (Nat.le_refl _) (calm_refl _) (Nat.zero_le _) (fun _ => Nat.zero_le _) get_recv
  case note e h hw hr => exact i.keep rfl rfl (Nat.le_refl _) (calm_neutral e c.log h) (Nat.le_refl _) (fun _ => Nat.le_refl _) get_recv
  case reply e h hc => rcases h with h | ⟨⟨d, h⟩, _⟩ <;> subst h <;> exact i.keep rfl rfl (Nat.le_refl _) ⟨rfl, fun _ => ⟨rfl, rfl⟩⟩ (Nat.le_refl _) (fun _ => Nat.le_refl _) get_recv
  case burn e => exact i.keep rfl rfl (by show c.next ≤ c.next + 2; omega) (calm_refl _) (Nat.le_refl _) (fun _ => Nat.le_refl _) get_recv
  case opens q block e _ _ _ _ =>
    have h0 : c.next ≠ 0 := by have := w.odd; omega
    refine ⟨i.conn, i.connW, fun j s hs => ?_, fun j s hs => ?_, i.all, fun j hj => i.fresh j ?_⟩
    · replace hs : (if j = c.next then some (newStream c q (q.body.isEmpty && !announces q.headers)) else c.get j) = some s := hs
      split at hs
      · rename_i e
        cases hs
        have := i.all j (by omega)
        show 0 + advertised j c.log + pendOn j p ≤ receivedOn j c.log
        omega
      · exact i.streams j s hs
    · replace hs : (if j = c.next then some (newStream c q (q.body.isEmpty && !announces q.headers)) else c.get j) = some s := hs
      split at hs
      · rename_i e
        cases hs
        have := i.all j (by omega)
        show 65535 + (advertised j c.log : Int) + (pendOn j p : Int) ≤ (INITIAL_WINDOW : Int) + (receivedOn j c.log : Int)
        simp only [INITIAL_WINDOW]
        omega
      · exact i.streamsW j s hs
    · have : c.next + 2 ≤ j := hj
      omega
  case chunk sid s k fin hs hk h1 h2 h3 h4 hf ho ha => exact i.keep (p' := p) rfl rfl (Nat.le_refl _) ⟨rfl, fun _ => ⟨rfl, rfl⟩⟩ (Nat.le_refl _) (fun _ => Nat.le_refl _) (put_recv hs (fun t h => by cases h; exact ⟨rfl, rfl⟩))
  case ownTrailers sid s block hs _ _ _ _ _ => exact i.keep (p' := p) rfl rfl (Nat.le_refl _) ⟨rfl, fun _ => ⟨rfl, rfl⟩⟩ (Nat.le_refl _) (fun _ => Nat.le_refl _) (put_recv hs (fun t h => by cases h; exact ⟨rfl, rfl⟩))
  case apiTrailers sid s block hs _ _ => exact i.keep (p' := none) rfl rfl (Nat.le_refl _) ⟨rfl, fun _ => ⟨rfl, rfl⟩⟩ (Nat.le_refl _) (fun _ => Nat.le_refl _) (put_recv hs (fun t h => by cases h; exact ⟨rfl, rfl⟩))
  case credit0 => exact i.keep rfl rfl (Nat.le_refl _) (calm_refl _) (Nat.le_refl _) (fun _ => Nat.le_refl _) get_recv
  case creditS sid s inc _ hs => exact i.keep (p' := none) rfl rfl (Nat.le_refl _) (calm_refl _) (Nat.le_refl _) (fun _ => Nat.le_refl _) (put_recv hs (fun t h => by cases h; exact ⟨rfl, rfl⟩))
  case setting => exact i.keep rfl rfl (Nat.le_refl _) (calm_refl _) (Nat.le_refl _) (fun _ => Nat.le_refl _) get_recv
  case shift v es hv =>
    refine i.keep rfl rfl (Nat.le_refl _) (calm_refl _) (Nat.le_refl _) (fun _ => Nat.le_refl _) (fun j t ht => ?_)
    simp only [Option.map_eq_some_iff] at ht
    obtain ⟨s, h1, h2⟩ := ht
    subst h2
    exact ⟨s, h1, rfl, rfl⟩
  case accept sid s d pad fin hs _ _ _ =>
    refine ⟨?_, ?_, fun j t ht => ?_, fun j t ht => ?_, fun j hj => ?_, i.fresh⟩
    · have := i.conn
      simp only [pendLen] at this
      show c.processed + (d.length + pad) + advertised 0 c.log + 0 ≤ received c.log
      omega
    · have := i.connW
      simp only [pendLen] at this
      show 65535 + (advertised 0 c.log : Int) + ((0 : Nat) : Int) ≤ c.recvW - ((d.length + pad : Nat) : Int) + (received c.log : Int)
      omega
    · replace ht : (if j = sid then some (s.accept (d.length + pad) d) else c.get j) = some t := ht
      show t.processed + advertised j c.log + 0 ≤ receivedOn j c.log
      split at ht
      · rename_i e; subst e; cases ht
        have := i.streams j s hs
        simp only [pendOn, if_true] at this
        show s.processed + (d.length + pad) + advertised j c.log + 0 ≤ receivedOn j c.log
        omega
      · have := i.streams j t ht; omega
    · replace ht : (if j = sid then some (s.accept (d.length + pad) d) else c.get j) = some t := ht
      show 65535 + (advertised j c.log : Int) + ((0 : Nat) : Int) ≤ t.localW + (receivedOn j c.log : Int)
      split at ht
      · rename_i e; subst e; cases ht
        have := i.streamsW j s hs
        simp only [pendOn, if_true] at this
        show 65535 + (advertised j c.log : Int) + ((0 : Nat) : Int) ≤ s.localW - ((d.length + pad : Nat) : Int) + (receivedOn j c.log : Int)
        omega
      · have := i.streamsW j t ht; omega
    · have := i.all j hj
      show advertised j c.log + 0 ≤ receivedOn j c.log
      omega
  case debit sid d pad fin hd =>
    refine ⟨?_, ?_, fun j t ht => ?_, fun j t ht => ?_, fun j hj => ?_, i.fresh⟩
    · have := i.conn
      simp only [pendLen] at this
      show c.processed + (d.length + pad) + advertised 0 c.log + 0 ≤ received c.log
      omega
    · have := i.connW
      simp only [pendLen] at this
      show 65535 + (advertised 0 c.log : Int) + ((0 : Nat) : Int) ≤ c.recvW - ((d.length + pad : Nat) : Int) + (received c.log : Int)
      omega
    · have := i.streams j t ht
      show t.processed + advertised j c.log + 0 ≤ receivedOn j c.log
      omega
    · have := i.streamsW j t ht
      show 65535 + (advertised j c.log : Int) + ((0 : Nat) : Int) ≤ t.localW + (receivedOn j c.log : Int)
      omega
    · have := i.all j hj
      show advertised j c.log + 0 ≤ receivedOn j c.log
      omega
  case wu0 ho hp =>
    have a0 : advertised 0 (.windowUpdate 0 c.processed :: c.log) = c.processed + advertised 0 c.log := by simp [advertised]
    have a : ∀ j, j ≠ 0 → advertised j (.windowUpdate 0 c.processed :: c.log) = advertised j c.log := fun j hj => by simp only [advertised]; rw [if_neg (by omega)]
    refine ⟨?_, ?_, fun j t ht => ?_, fun j t ht => ?_, fun j hj => ?_, fun j hj => ?_⟩
    · have := i.conn
      show 0 + advertised 0 (.windowUpdate 0 c.processed :: c.log) + _ ≤ received c.log
      rw [a0]; omega
    · have := i.connW
      show 65535 + (advertised 0 (.windowUpdate 0 c.processed :: c.log) : Int) + _ ≤ c.recvW + (c.processed : Int) + (received c.log : Int)
      rw [a0]; omega
    · have hj := (w.keys j t ht).2
      show t.processed + advertised j (.windowUpdate 0 c.processed :: c.log) + _ ≤ receivedOn j c.log
      rw [a j (by omega)]; exact i.streams j t ht
    · have hj := (w.keys j t ht).2
      show 65535 + (advertised j (.windowUpdate 0 c.processed :: c.log) : Int) + _ ≤ t.localW + (receivedOn j c.log : Int)
      rw [a j (by omega)]; exact i.streamsW j t ht
    · show advertised j (.windowUpdate 0 c.processed :: c.log) + _ ≤ receivedOn j c.log
      rw [a j hj]; exact i.all j hj
    · have hj : c.next ≤ j := hj
      have := w.odd
      show advertised j (.windowUpdate 0 c.processed :: c.log) = 0
      rw [a j (by omega)]; exact i.fresh j hj
  case wuS sid s hs h0 ho hp =>
    have a0 : advertised sid (.windowUpdate sid s.processed :: c.log) = s.processed + advertised sid c.log := by simp [advertised]
    have a : ∀ j, j ≠ sid → advertised j (.windowUpdate sid s.processed :: c.log) = advertised j c.log := fun j hj => by simp only [advertised]; rw [if_neg (by omega)]
    have st := i.streams sid s hs
    have stw := i.streamsW sid s hs
    refine ⟨?_, ?_, fun j t ht => ?_, fun j t ht => ?_, fun j hj => ?_, fun j hj => ?_⟩
    · show c.processed + advertised 0 (.windowUpdate sid s.processed :: c.log) + _ ≤ received c.log
      rw [a 0 (fun e => h0 e.symm)]; exact i.conn
    · show 65535 + (advertised 0 (.windowUpdate sid s.processed :: c.log) : Int) + _ ≤ c.recvW + (received c.log : Int)
      rw [a 0 (fun e => h0 e.symm)]; exact i.connW
    · replace ht : (if j = sid then some { s with localW := s.localW + (s.processed : Int), processed := 0 } else c.get j) = some t := ht
      show t.processed + advertised j (.windowUpdate sid s.processed :: c.log) + _ ≤ receivedOn j c.log
      split at ht
      · rename_i e; subst e; cases ht
        rw [a0]
        show 0 + _ + _ ≤ _
        omega
      · rename_i e; rw [a j e]; exact i.streams j t ht
    · replace ht : (if j = sid then some { s with localW := s.localW + (s.processed : Int), processed := 0 } else c.get j) = some t := ht
      show 65535 + (advertised j (.windowUpdate sid s.processed :: c.log) : Int) + _ ≤ t.localW + (receivedOn j c.log : Int)
      split at ht
      · rename_i e; subst e; cases ht
        rw [a0]
        show _ ≤ s.localW + (s.processed : Int) + _
        omega
      · rename_i e; rw [a j e]; exact i.streamsW j t ht
    · show advertised j (.windowUpdate sid s.processed :: c.log) + _ ≤ receivedOn j c.log
      by_cases e : j = sid
      · subst e; rw [a0]; omega
      · rw [a j e]; exact i.all j hj
    · have hj : c.next ≤ j := hj
      have := (w.keys sid s hs).1
      show advertised j (.windowUpdate sid s.processed :: c.log) = 0
      rw [a j (by omega)]; exact i.fresh j hj
  case mark sid s s' hs h => exact i.keep rfl rfl (Nat.le_refl _) (calm_refl _) (Nat.le_refl _) (fun _ => Nat.le_refl _) (put_recv hs (fun t e => by cases e; exact ⟨h.processed, h.localW⟩))
  case told sid s code hs _ _ _ => exact i.keep (p' := p) rfl rfl (Nat.le_refl _) ⟨rfl, fun _ => ⟨rfl, rfl⟩⟩ (Nat.le_refl _) (fun _ => Nat.le_refl _) (put_recv hs (fun t h => by cases h))
  case cut sid s code hs _ _ => exact i.keep (p' := p) rfl rfl (Nat.le_refl _) ⟨rfl, fun _ => ⟨rfl, rfl⟩⟩ (Nat.le_refl _) (fun _ => Nat.le_refl _) (put_recv hs (fun t h => by cases h))
  case cutDone sid s code hs _ _ => exact i.keep (p' := p) rfl rfl (Nat.le_refl _) ⟨rfl, fun _ => ⟨rfl, rfl⟩⟩ (Nat.le_refl _) (fun _ => Nat.le_refl _) (put_recv hs (fun t h => by cases h))
  case forget sid s hs _ _ => exact i.keep (p' := p) rfl rfl (Nat.le_refl _) (calm_refl _) (Nat.le_refl _) (fun _ => Nat.le_refl _) (put_recv hs (fun t h => by cases h))
  case lose sid s hs _ _ => exact i.keep (p' := p) rfl rfl (Nat.le_refl _) (calm_refl _) (Nat.le_refl _) (fun _ => Nat.le_refl _) (put_recv hs (fun t h => by cases h))
  case dispatch sid s hs _ _ _ _ _ _ _ =>
    refine i.keep (p' := p) rfl rfl (Nat.le_refl _) ⟨rfl, fun _ => ⟨rfl, rfl⟩⟩ (Nat.le_refl _) (fun _ => Nat.le_refl _) (put_recv hs (fun t h => ?_))
    unfold CStream.after at h
    split at h
    · cases h
    · cases h; exact ⟨rfl, rfl⟩
  all_goals exact i.keep rfl rfl (Nat.le_refl _) ⟨rfl, fun _ => ⟨rfl, rfl⟩⟩ (Nat.le_refl _) (fun _ => Nat.le_refl _) get_recv

/-- A WINDOW_UPDATE gives back what was received. -/
def Grant (e : Ev) (pre : List Ev) : Prop := match e with
  | .windowUpdate sid inc => 0 < inc ∧ (sid = 0 → advertised 0 pre + inc ≤ received pre) ∧ (sid ≠ 0 → advertised sid pre + inc ≤ receivedOn sid pre)
  | _ => True

theorem grant_micro {c c' : Conn x} {p p' : Option In} (w : Wf c) (m : Micro c p c' p') (i : RecvInv c p ∧ Always Grant c.log) : RecvInv c' p' ∧ Always Grant c'.log := by
  refine ⟨recv_micro w m i.1, ?_⟩
  have h := i.2
  cases m
  case wu0 ho hp =>
    have := i.1.conn
    exact ⟨⟨by simp only [THRESHOLD] at hp; omega, fun _ => by omega, fun h => absurd rfl h⟩, h⟩
  case wuS sid s hs h0 ho hp =>
    have := i.1.streams sid s hs
    exact ⟨⟨by simp only [THRESHOLD] at hp; omega, fun h => absurd h h0, fun _ => by omega⟩, h⟩
  case note e hn hw hr => cases e <;> first | exact ⟨trivial, h⟩ | (simp [Ev.neutral] at hn)
  case reply e hn hc => rcases hn with hn | ⟨⟨d, hn⟩, _⟩ <;> subst hn <;> exact ⟨trivial, h⟩
  all_goals first | exact h | exact ⟨trivial, h⟩ | exact ⟨trivial, trivial, h⟩

theorem recv_run (d : x.D) (e : x.E) (is : List Input) : RecvInv (run (Conn.init d e) is) none ∧ Always Grant (run (Conn.init d e) is).log :=
  run_ind (I := fun c p => RecvInv c p ∧ Always Grant c.log) (fun _ _ _ _ w m i => grant_micro w m i) d e
    ⟨⟨Nat.le_refl _, by simp [Conn.init, advertised, received, pendLen, INITIAL_WINDOW], fun j s h => by simp [Conn.init] at h, fun j s h => by simp [Conn.init] at h, fun j _ => Nat.le_refl _, fun j _ => rfl⟩, trivial⟩ is

/-- C170. In every history: a WINDOW_UPDATE of the client is for at least one octet, and with it the client has given back no more than it received, on the connection and on each stream. So the server never has leave to have more than 65535
octets on the way. -/
theorem C170_grants (d : x.D) (e : x.E) (is : List Input) (later earlier : List Ev) (sid inc : Nat) (h : (run (Conn.init d e) is).log = later ++ .windowUpdate sid inc :: earlier) :
    0 < inc ∧ (sid = 0 → advertised 0 earlier + inc ≤ received earlier) ∧ (sid ≠ 0 → advertised sid earlier + inc ≤ receivedOn sid earlier) := always_split (recv_run d e is).2 h

/-- C170. DATA within what the client granted is not refused: in every state in which the connection is up and the stream is open to the server, a DATA frame that fits into both windows, and into the limit and the content-length, is answered by
nothing but WINDOW_UPDATE, and added to the response. -/
theorem C170_honoured (dd : x.D) (e : x.E) (is : List Input) (c : Conn x) (hc : c = run (Conn.init dd e) is) (hok : c.ok = true) (hneed : c.need = 0) (sid : Nat) (s : CStream) (hs : c.get sid = some s)
    (hst : s.state = .open_ ∨ s.state = .halfClosedLocal) (hr : s.rstRecv = false) (d : Bytes) (pad : Nat) (h1 : receivedOn sid c.log + d.length + pad ≤ 65535 + advertised sid c.log) (h2 : received c.log + d.length + pad ≤ 65535 + advertised 0 c.log)
    (h3 : s.resp.body.length + d.length ≤ 104857600) (h4 : ∀ n, s.cl = some n → s.resp.body.length + d.length ≤ n) :
    (receive c (.data sid d pad false)).ok = true ∧ (∀ ev ∈ (receive c (.data sid d pad false)).log, ev ∈ c.log ∨ ev = .rx (.data sid d pad false) ∨ ∃ j inc, ev = .windowUpdate j inc) ∧
      ∃ t, (receive c (.data sid d pad false)).get sid = some t ∧ t.resp.body = s.resp.body ++ d := by
  have r := (recv_run (x := x) dd e is).1
  have wr := (whole_run (x := x) dd e is).core
  rw [← hc] at r wr
  have st := wr.streams sid s hs
  have w1 := r.streamsW sid s hs
  have w2 := r.connW
  simp only [pendOn, pendLen] at w1 w2
  have e1 : ¬ s.localW < ((d.length + pad : Nat) : Int) := by omega
  have e2 : ¬ c.recvW < ((d.length + pad : Nat) : Int) := by omega
  have e3 : (s.state == State.closed || s.rstSent || s.rstRecv) = false := by rcases hst with h | h <;> simp [h, hr, st.rstSent]
  have e4 : (s.state != State.open_ && s.state != State.halfClosedLocal) = false := by rcases hst with h | h <;> simp [h]
  have e5 : ¬ (s.resp.body ++ d).length > MAX_BODY_SIZE := by simp only [List.length_append, MAX_BODY_SIZE]; omega
  have e6 : overlong s.cl (s.resp.body ++ d) = false := by
    unfold overlong
    split
    · rename_i n hn
      have := h4 n hn
      simp only [List.length_append, decide_eq_false_iff_not]; omega
    · rfl
  have key : onData (c.add (.rx (.data sid d pad false))) sid d pad false =
      condConnUpdate (creditStream { (debit (c.add (.rx (.data sid d pad false))) (d.length + pad)).put sid (some (s.accept (d.length + pad) d)) with ctl := 0 } sid) := by
    have g : (c.add (.rx (.data sid d pad false))).get sid = some s := hs
    have e2' : ¬ (c.add (.rx (.data sid d pad false))).recvW < ((d.length + pad : Nat) : Int) := e2
    have e5' : decide ((s.accept (d.length + pad) d).resp.body.length > MAX_BODY_SIZE) = false := by simpa [CStream.accept] using e5
    have e6' : overlong (s.accept (d.length + pad) d).cl (s.accept (d.length + pad) d).resp.body = false := e6
    unfold onData
    simp only [g, e3, e4, e5', e6', if_neg e1, if_neg e2', Bool.false_eq_true, if_false, Bool.and_false]
  have rc : receive c (.data sid d pad false) = { onData (c.add (.rx (.data sid d pad false))) sid d pad false with need := c.need } := by
    unfold receive
    have ad : admits (c.add (.rx (.data sid d pad false))).need (.data sid d pad false) = true := by
      show (c.need == 0) = true
      simp [hneed]
    simp only [hok, Bool.not_true, Bool.false_eq_true, if_false, ad]
    rfl
  rw [rc, key]
  generalize hc1 : ({ (debit (c.add (.rx (.data sid d pad false))) (d.length + pad)).put sid (some (s.accept (d.length + pad) d)) with ctl := 0 } : Conn x) = c1
  have g1 : c1.get sid = some (s.accept (d.length + pad) d) := by rw [← hc1]; exact if_pos rfl
  have o1 : c1.ok = true := by rw [← hc1]; exact hok
  have l1 : c1.log = .rx (.data sid d pad false) :: c.log := by rw [← hc1]; rfl
  have q1 : (∀ ev ∈ (creditStream c1 sid).log, ev ∈ c.log ∨ ev = .rx (.data sid d pad false) ∨ ∃ j inc, ev = .windowUpdate j inc) ∧ ∃ t, (creditStream c1 sid).get sid = some t ∧ t.resp.body = s.resp.body ++ d := by
    have base : ∀ ev ∈ c1.log, ev ∈ c.log ∨ ev = .rx (.data sid d pad false) ∨ ∃ j inc, ev = .windowUpdate j inc := by
      intro ev hm
      rw [l1] at hm
      rcases List.mem_cons.1 hm with hm | hm
      · exact .inr (.inl hm)
      · exact .inl hm
    unfold creditStream
    rw [g1]
    dsimp only
    split
    · refine ⟨fun ev hm => ?_, _, if_pos rfl, rfl⟩
      rcases List.mem_cons.1 hm with hm | hm
      · exact .inr (.inr ⟨_, _, hm⟩)
      · exact base ev hm
    · exact ⟨base, _, g1, rfl⟩
  refine ⟨by rw [credit_ok]; exact o1, ?_⟩
  have o2 : (creditStream c1 sid).ok = true := by
    unfold creditStream
    rw [g1]
    dsimp only
    split <;> exact o1
  generalize creditStream c1 sid = c2 at *
  unfold condConnUpdate
  rw [o2]
  simp only [Bool.not_true, Bool.false_eq_true, if_false]
  split
  · refine ⟨fun ev hm => ?_, q1.2⟩
    rcases List.mem_cons.1 hm with hm | hm
    · exact .inr (.inr ⟨_, _, hm⟩)
    · exact q1.1 ev hm
  · exact q1

end Verif.Clp
