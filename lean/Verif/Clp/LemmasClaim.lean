import Verif.Clp.LemmasStream

/-! Bodies received, GOAWAY, and what every event satisfies. -/

namespace Verif.Clp
open Verif.Stream
variable {x : Ext}

/-- The body of a DATA frame that is not taken yet. -/
def pendBody (j : Nat) : Option In → Bytes
  | some (.data i d _ _) => if i = j then d else []
  | _ => []

structure GotInv (c : Conn x) (p : Option In) : Prop where
  streams : ∀ j s, c.get j = some s → s.dispatched = false → s.resp.body ++ pendBody j p = gotOn j c.log
  fresh : ∀ j, c.next ≤ j → j % 2 = 1 → gotOn j c.log = pendBody j p

theorem GotInv.keep {c c' : Conn x} {p p' : Option In} (h : GotInv c p) (hn : c.next ≤ c'.next) (hl : ∀ j, gotOn j c'.log = gotOn j c.log) (hp : ∀ j, pendBody j p' = pendBody j p)
    (hs : ∀ j s', c'.get j = some s' → s'.dispatched = false → ∃ s, c.get j = some s ∧ s.dispatched = false ∧ s'.resp.body = s.resp.body) : GotInv c' p' := by
  refine ⟨fun j s' hs' hd => ?_, fun j hj ho => ?_⟩
  · obtain ⟨s, h1, h2, h3⟩ := hs j s' hs' hd
    rw [h3, hl, hp]; exact h.streams j s h1 h2
  · rw [hl, hp]; exact h.fresh j (by omega) ho

theorem put_got {c : Conn x} {sid : Nat} {s : CStream} {o : Option CStream} (hs : c.get sid = some s) (ho : ∀ t, o = some t → t.dispatched = false → s.dispatched = false ∧ t.resp.body = s.resp.body) :
    ∀ j s', (if j = sid then o else c.get j) = some s' → s'.dispatched = false → ∃ s, c.get j = some s ∧ s.dispatched = false ∧ s'.resp.body = s.resp.body := by
  intro j s' h hd
  split at h
  · rename_i e; rw [e]; exact ⟨s, hs, ho s' h hd⟩
  · exact ⟨s', h, hd, rfl⟩

theorem get_got {c : Conn x} : ∀ j s', c.get j = some s' → s'.dispatched = false → ∃ s, c.get j = some s ∧ s.dispatched = false ∧ s'.resp.body = s.resp.body := fun _ s' h hd => ⟨s', h, hd, rfl⟩

theorem got_neutral (e : Ev) (l : List Ev) (h : e.neutral = true) : ∀ j, gotOn j (e :: l) = gotOn j l := by
  intro j
  cases e <;> first | rfl | (simp [Ev.neutral] at h)

theorem got_micro {c c' : Conn x} {p p' : Option In} (w : Wf c) (m : Micro c p c' p') (i0 : c.ok = true → GotInv c p) : c'.ok = true → GotInv c' p' := by
  intro ho
  have up : c.ok = true := by
    cases ho2 : c.ok with
    | true => rfl
    | false => rw [stays_down (.one m) ho2] at ho; cases ho
  have i := i0 up
  clear i0
  cases m
  case take j hj hi =>
    cases j
    case data sid d pad fin =>
      refine ⟨fun j s hs hd => ?_, fun j hn hodd => ?_⟩
      · have := i.streams j s hs hd
        simp only [pendBody, List.append_nil] at this
        simp only [pendBody, Conn.add, gotOn]
        split
        · rw [this]
        · rw [this, List.append_nil]
      · have := i.fresh j hn hodd
        simp only [pendBody] at this
        simp only [pendBody, Conn.add, gotOn, this]
        split <;> rfl
    all_goals exact i.keep (Nat.le_refl _) (fun _ => rfl) (fun _ => rfl) get_got
  case takeGoaway => exact i.keep (Nat.le_refl _) (fun _ => rfl) (fun _ => rfl) get_got
  case refuse => cases ho
  case drop j hd =>
    cases j
    case data sid d pad fin =>
      obtain ⟨h1, h2⟩ := hd up
      refine ⟨fun j s hs hd => ?_, fun j hn hodd => ?_⟩
      · have := i.streams j s hs hd
        have hne : ¬ sid = j := fun e => by rw [← e, h1] at hs; cases hs
        simpa [pendBody, hne, debit, Conn.put] using this
      · have := i.fresh j hn hodd
        have hne : ¬ sid = j := fun e => by have := h2 (by omega); omega
        simpa [pendBody, hne, debit, Conn.put] using this
    all_goals exact i.keep (Nat.le_refl _) (fun _ => rfl) (fun _ => rfl) get_got
  case debit sid d pad fin hd =>
      obtain ⟨h1, h2⟩ := hd up
      refine ⟨fun j s hs hd => ?_, fun j hn hodd => ?_⟩
      · have := i.streams j s hs hd
        have hne : ¬ sid = j := fun e => by
          replace hs : c.get j = some s := hs
          rw [← e, h1] at hs; cases hs
        simpa [pendBody, hne, debit, Conn.put] using this
      · replace hn : c.next ≤ j := hn
        have := i.fresh j hn hodd
        have hne : ¬ sid = j := fun e => by have := h2 (by omega); omega
        simpa [pendBody, hne, debit, Conn.put] using this
  case note e h hw hr => exact i.keep (Nat.le_refl _) (got_neutral e c.log h) (fun _ => rfl) get_got
  case reply e h hc => rcases h with h | ⟨⟨d, h⟩, _⟩ <;> subst h <;> exact i.keep (Nat.le_refl _) (fun _ => rfl) (fun _ => rfl) get_got
  case burn e => exact i.keep (by show c.next ≤ c.next + 2; omega) (fun _ => rfl) (fun _ => rfl) get_got
  case opens q block e _ _ _ _ =>
    refine ⟨fun j s hs hd => ?_, fun j hn hodd => i.fresh j ?_ hodd⟩
    · replace hs : (if j = c.next then some (newStream c q (q.body.isEmpty && !announces q.headers)) else c.get j) = some s := hs
      split at hs
      · rename_i e
        cases hs
        have := i.fresh j (by omega) (by rw [e]; exact w.odd)
        exact this.symm
      · exact i.streams j s hs hd
    · have : c.next + 2 ≤ j := hn
      omega
  case chunk sid s k fin hs hk h1 h2 h3 h4 hf ho ha => exact i.keep (p' := p) (Nat.le_refl _) (fun _ => rfl) (fun _ => rfl) (put_got hs (fun t h hd => by cases h; exact ⟨hd, rfl⟩))
  case ownTrailers sid s block hs _ _ _ _ _ => exact i.keep (p' := p) (Nat.le_refl _) (fun _ => rfl) (fun _ => rfl) (put_got hs (fun t h hd => by cases h; exact ⟨hd, rfl⟩))
  case apiTrailers sid s block hs _ _ => exact i.keep (p' := none) (Nat.le_refl _) (fun _ => rfl) (fun _ => rfl) (put_got hs (fun t h hd => by cases h; exact ⟨hd, rfl⟩))
  case credit0 inc => exact i.keep (Nat.le_refl _) (fun _ => rfl) (fun _ => rfl) get_got
  case creditS sid s inc h0 hs => exact i.keep (p' := none) (Nat.le_refl _) (fun _ => rfl) (fun _ => rfl) (put_got hs (fun t h hd => by cases h; exact ⟨hd, rfl⟩))
  case setting => exact i.keep (Nat.le_refl _) (fun _ => rfl) (fun _ => rfl) get_got
  case shift v es hv =>
    refine i.keep (Nat.le_refl _) (fun _ => rfl) (fun _ => rfl) (fun j t ht hd => ?_)
    simp only [Option.map_eq_some_iff] at ht
    obtain ⟨s, h1, h2⟩ := ht
    subst h2
    exact ⟨s, h1, hd, rfl⟩
  case accept sid s d pad fin hs _ _ _ =>
    refine ⟨fun j t ht hd => ?_, fun j hn hodd => ?_⟩
    · replace ht : (if j = sid then some (s.accept (d.length + pad) d) else c.get j) = some t := ht
      split at ht
      · rename_i e
        subst e
        cases ht
        have := i.streams j s hs hd
        simp only [pendBody, if_true] at this
        simp only [pendBody, List.append_nil]
        exact this
      · rename_i e
        have := i.streams j t ht hd
        have hne : ¬ sid = j := fun h => e h.symm
        simpa [pendBody, hne, debit, Conn.put] using this
    · have := i.fresh j hn hodd
      have hk := (w.keys sid s hs).1
      replace hn : c.next ≤ j := hn
      have hne : ¬ sid = j := by omega
      simpa [pendBody, hne, debit, Conn.put] using this
  case wuS sid s hs _ _ _ => exact i.keep (p' := p) (Nat.le_refl _) (fun _ => rfl) (fun _ => rfl) (put_got hs (fun t h hd => by cases h; exact ⟨hd, rfl⟩))
  case mark sid s s' hs h => exact i.keep (p' := p) (Nat.le_refl _) (fun _ => rfl) (fun _ => rfl) (put_got hs (fun t e hd => by cases e; rw [h.dispatched] at hd; exact ⟨hd, h.body⟩))
  case told sid s code hs _ _ _ => exact i.keep (p' := p) (Nat.le_refl _) (fun _ => rfl) (fun _ => rfl) (put_got hs (fun t h => by cases h))
  case cut sid s code hs _ _ => exact i.keep (p' := p) (Nat.le_refl _) (fun _ => rfl) (fun _ => rfl) (put_got hs (fun t h => by cases h))
  case cutDone sid s code hs _ _ => exact i.keep (p' := p) (Nat.le_refl _) (fun _ => rfl) (fun _ => rfl) (put_got hs (fun t h => by cases h))
  case forget sid s hs _ _ => exact i.keep (p' := p) (Nat.le_refl _) (fun _ => rfl) (fun _ => rfl) (put_got hs (fun t h => by cases h))
  case lose sid s hs _ _ => exact i.keep (p' := p) (Nat.le_refl _) (fun _ => rfl) (fun _ => rfl) (put_got hs (fun t h => by cases h))
  case dispatch sid s hs _ _ _ _ _ _ _ =>
    refine i.keep (p' := p) (Nat.le_refl _) (fun _ => rfl) (fun _ => rfl) (put_got hs (fun t h hd => ?_))
    unfold CStream.after at h
    split at h
    · cases h
    · cases h; cases hd
  all_goals exact i.keep (Nat.le_refl _) (fun _ => rfl) (fun _ => rfl) get_got

/-! ### GOAWAY -/

structure AwayInv (c : Conn x) : Prop where
  recv : c.ok = true → c.goawayRecv = false → ∀ last code, Ev.rx (.goaway last code) ∉ c.log
  wrote : c.ok = true → ∀ last code, Ev.goaway last code ∉ c.log

theorem AwayInv.note {c c' : Conn x} (i : AwayInv c) (e : Ev) (hl : c'.log = e :: c.log) (ho : c'.ok = c.ok) (hg : c'.goawayRecv = c.goawayRecv) (he : e.isGoaway = false) : AwayInv c' := by
  refine ⟨fun h1 h2 last code hm => ?_, fun h1 last code hm => ?_⟩ <;> rw [hl] at hm <;> rcases List.mem_cons.1 hm with hm | hm
  · rw [← hm] at he; cases he
  · exact i.recv (by rw [← ho]; exact h1) (by rw [← hg]; exact h2) last code hm
  · rw [← hm] at he; cases he
  · exact i.wrote (by rw [← ho]; exact h1) last code hm

theorem away_micro {c c' : Conn x} {p p' : Option In} (m : Micro c p c' p') (i : AwayInv c) : AwayInv c' := by
  cases m
  case take j hj hi =>
    refine i.note (.rx j) rfl rfl rfl ?_
    cases j <;> first | rfl | exact absurd rfl (hi _ _)
  case takeGoaway last code hj =>
    refine ⟨fun _ h => (by cases h), fun h1 l k hm => ?_⟩
    rcases List.mem_cons.1 hm with hm | hm
    · cases hm
    · exact i.wrote h1 l k hm
  case refuse j hj => exact ⟨fun h => (by cases h), fun h => (by cases h)⟩
  case down a => exact ⟨fun h => (by cases h), fun h => (by cases h)⟩
  case close => exact ⟨fun h => (by cases h), fun h => (by cases h)⟩
  case note e h hw hr => exact i.note e rfl rfl rfl (by cases e <;> first | rfl | (simp [Ev.neutral] at h))
  case reply e h hc => rcases h with h | ⟨⟨d, h⟩, _⟩ <;> subst h <;> exact i.note _ rfl rfl rfl rfl
  case opens => exact i.note _ rfl rfl rfl rfl
  case chunk => exact i.note _ rfl rfl rfl rfl
  case ownTrailers => exact i.note _ rfl rfl rfl rfl
  case apiTrailers => exact i.note _ rfl rfl rfl rfl
  case wu0 => exact i.note _ rfl rfl rfl rfl
  case wuS => exact i.note _ rfl rfl rfl rfl
  case told => exact i.note _ rfl rfl rfl rfl
  case cut sid s code _ _ _ =>
    have i1 : AwayInv (c.add (.rst sid code)) := i.note _ rfl rfl rfl rfl
    exact i1.note (.streamError sid code) rfl rfl rfl rfl
  case cutDone => exact i.note _ rfl rfl rfl rfl
  case dispatch => exact i.note _ rfl rfl rfl rfl
  all_goals exact ⟨i.recv, i.wrote⟩

/-! ### RST_STREAM received -/

def RstInv (c : Conn x) (p : Option In) : Prop := ∀ j k, Ev.rx (.rst j k) ∈ c.log → p = some (.rst j k) ∨ c.get j = none ∧ (j % 2 = 1 → j < c.next)

theorem RstInv.keep {c c' : Conn x} {p p' : Option In} (i : RstInv c p) (hl : ∀ j k, Ev.rx (.rst j k) ∈ c'.log → Ev.rx (.rst j k) ∈ c.log) (hp : ∀ j k, p = some (.rst j k) → p' = some (.rst j k)) (hn : c.next ≤ c'.next)
    (hg : ∀ j, c.get j = none → c'.get j = none) : RstInv c' p' := by
  intro j k h
  rcases i j k (hl j k h) with h | ⟨h1, h2⟩
  · exact .inl (hp j k h)
  · exact .inr ⟨hg j h1, fun ho => by have := h2 ho; omega⟩

theorem rx_cons {e : Ev} {l : List Ev} (he : ∀ i, e ≠ .rx i) : ∀ j k, Ev.rx (.rst j k) ∈ e :: l → Ev.rx (.rst j k) ∈ l := by
  intro j k h
  rcases List.mem_cons.1 h with h | h
  · exact absurd h.symm (he _)
  · exact h

theorem put_none {c : Conn x} {sid : Nat} {s : CStream} (o : Option CStream) (hs : c.get sid = some s) : ∀ j, c.get j = none → (if j = sid then o else c.get j) = none := by
  intro j h
  split
  · rename_i e; rw [e, hs] at h; cases h
  · exact h

theorem rst_micro {c c' : Conn x} {p p' : Option In} (w : Wf c) (m : Micro c p c' p') (i0 : c.ok = true → RstInv c p) : c'.ok = true → RstInv c' p' := by
  intro ho
  have up : c.ok = true := by
    cases ho2 : c.ok with
    | true => rfl
    | false => rw [stays_down (.one m) ho2] at ho; cases ho
  have i := i0 up
  clear i0
  cases m
  case take a hj hi =>
    intro j k h
    rcases List.mem_cons.1 h with h | h
    · cases h; exact .inl rfl
    · rcases i j k h with h | h
      · cases h
      · exact .inr h
  case takeGoaway last code hj => exact i.keep (fun j k h => by rcases List.mem_cons.1 h with h | h; · cases h
                                                                · exact h) (fun _ _ h => by cases h) (Nat.le_refl _) (fun _ h => h)
  case refuse => cases ho
  case down => cases ho
  case close => cases ho
  case drop a hd =>
    intro j k h
    rcases i j k h with h | h
    · cases h; exact .inr (hd up)
    · exact .inr h
  case note e h hw hr => exact i.keep (rx_cons (fun i e2 => by rw [e2] at h; cases h)) (fun _ _ h => h) (Nat.le_refl _) (fun _ h => h)
  case reply e h hc => exact i.keep (rx_cons (fun i e2 => by rw [e2] at h; simp at h)) (fun _ _ h => h) (Nat.le_refl _) (fun _ h => h)
  case burn e => exact i.keep (fun _ _ h => h) (fun _ _ h => h) (by show c.next ≤ c.next + 2; omega) (fun _ h => h)
  case opens q block e _ _ _ _ =>
    intro j k h
    rcases i j k (rx_cons (fun _ h => by cases h) j k h) with h | ⟨h1, h2⟩
    · exact .inl h
    · right
      refine ⟨?_, fun ho => by have := h2 ho; show j < c.next + 2; omega⟩
      show (if j = c.next then some (newStream c q (q.body.isEmpty && !announces q.headers)) else c.get j) = none
      rw [if_neg]
      · exact h1
      · intro e
        have := h2 (by rw [e]; exact w.odd)
        omega
  case chunk sid s k fin hs _ _ _ _ _ _ _ _ => exact i.keep (rx_cons (fun _ h => by cases h)) (fun _ _ h => h) (Nat.le_refl _) (put_none _ hs)
  case ownTrailers sid s block hs _ _ _ _ _ => exact i.keep (rx_cons (fun _ h => by cases h)) (fun _ _ h => h) (Nat.le_refl _) (put_none _ hs)
  case apiTrailers sid s block hs _ _ => exact i.keep (rx_cons (fun _ h => by cases h)) (fun _ _ h => h) (Nat.le_refl _) (put_none _ hs)
  case credit0 => exact i.keep (fun _ _ h => h) (fun _ _ h => by cases h) (Nat.le_refl _) (fun _ h => h)
  case creditS sid s inc _ hs => exact i.keep (fun _ _ h => h) (fun _ _ h => by cases h) (Nat.le_refl _) (put_none _ hs)
  case setting => exact i.keep (fun _ _ h => h) (fun _ _ h => by cases h) (Nat.le_refl _) (fun _ h => h)
  case shift => exact i.keep (fun _ _ h => h) (fun _ _ h => by cases h) (Nat.le_refl _) (fun _ h => by simp [h])
  case accept sid s d pad fin hs _ _ _ => exact i.keep (fun _ _ h => h) (fun _ _ h => by cases h) (Nat.le_refl _) (put_none _ hs)
  case debit => exact i.keep (fun _ _ h => h) (fun _ _ h => by cases h) (Nat.le_refl _) (fun _ h => h)
  case wu0 => exact i.keep (rx_cons (fun _ h => by cases h)) (fun _ _ h => h) (Nat.le_refl _) (fun _ h => h)
  case wuS sid s hs _ _ _ => exact i.keep (rx_cons (fun _ h => by cases h)) (fun _ _ h => h) (Nat.le_refl _) (put_none _ hs)
  case mark sid s s' hs _ => exact i.keep (fun _ _ h => h) (fun _ _ h => h) (Nat.le_refl _) (put_none _ hs)
  case told sid s code hs _ _ _ => exact i.keep (rx_cons (fun _ h => by cases h)) (fun _ _ h => h) (Nat.le_refl _) (put_none _ hs)
  case cut sid s code hs _ _ => exact i.keep (fun j k h => rx_cons (fun _ h => by cases h) j k (rx_cons (fun _ h => by cases h) j k h)) (fun _ _ h => h) (Nat.le_refl _) (put_none _ hs)
  case cutDone sid s code hs _ _ => exact i.keep (rx_cons (fun _ h => by cases h)) (fun _ _ h => h) (Nat.le_refl _) (put_none _ hs)
  case forget sid s hs _ _ => exact i.keep (fun _ _ h => h) (fun _ _ h => h) (Nat.le_refl _) (put_none _ hs)
  case lose sid s hs _ _ => exact i.keep (fun _ _ h => h) (fun _ _ h => h) (Nat.le_refl _) (put_none _ hs)
  case dispatch sid s hs _ _ _ _ _ _ _ => exact i.keep (rx_cons (fun _ h => by cases h)) (fun _ _ h => h) (Nat.le_refl _) (put_none _ hs)
  all_goals exact i.keep (fun _ _ h => h) (fun _ _ h => h) (Nat.le_refl _) (fun _ h => h)

end Verif.Clp
