import Verif.Cli.TheoremsConnect

namespace Verif.Cli

/-! ### Queued requests are not forgotten -/

/-- Frames that look after the queue when their turn comes. -/
def Frame.repairs : Frame → Bool
  | .process | .processTail | .failAll _ | .afterResponse _ | .afterConnect | .timeoutEnd | .afterDisconnected => true
  | _ => false

/-- Frames of `disconnect` and its callbacks. -/
def Frame.inDisc : Frame → Bool
  | .user | .failActive _ | .failAll _ | .discEnd => true
  | _ => false

/-- Frames possible after `disconnect` and before the next attempt to connect. -/
def Frame.calm (f : Frame) : Bool := f.inDisc || f == .process

def Frame.isUser : Frame → Bool
  | .user => true
  | _ => false

def Bottom : List Frame → Prop
  | [] => True
  | f :: l => (f = .discEnd → l = []) ∧ Bottom l

def Followed : List Frame → Prop
  | [] => True
  | f :: l => (f.isFailActive = true → ∃ g l', l = g :: l' ∧ g.repairs = true) ∧ Followed l

structure Base (s : St) : Prop where
  depth : s.depth = s.stack.countP Frame.isUser
  reset : s.deferredReset = false
  bottom : Bottom s.stack
  followed : Followed s.stack
  intent : s.intentional = true → s.isConnected = false ∧ (s.conn = none ∨ .discEnd ∈ s.stack) ∧ ∀ f ∈ s.stack, f.calm = true
  noconn : s.conn = none → s.intentional = true
  connecting : s.isConnecting = true → ∃ c, s.conn = some c ∧ c.attempt = true
  disc : .discEnd ∈ s.stack → s.isConnecting = false ∧ s.intentional = true ∧ ∀ f ∈ s.stack, f.inDisc = true
  actconn : s.active.isSome = true → s.conn.isSome = true
  lost : .afterDisconnected ∈ s.stack → s.isConnected = false

def Work (s : St) : Prop := s.pending = [] ∨ s.Advancing ∨ ∃ f ∈ s.stack, f.repairs = true

theorem base_pop {s : St} {f : Frame} {rest : List Frame} (hs : s.stack = f :: rest) (h : Base s) (hf : f.isUser = false)
    (hd : f ≠ .discEnd) : Base { s with stack := rest } := by
  obtain ⟨h1, h2, h3, h4, h5, h6, h7, h8, h9, h10⟩ := h
  rw [hs] at h1 h3 h4 h5 h8 h10
  refine ⟨?_, h2, h3.2, h4.2, ?_, h6, h7, ?_, h9, fun hm => h10 (List.mem_cons_of_mem _ hm)⟩
  · simpa [List.countP_cons, hf] using h1
  · intro hi
    obtain ⟨a, b, c⟩ := h5 hi
    refine ⟨a, ?_, fun g hg => c g (List.mem_cons_of_mem _ hg)⟩
    rcases b with b | b
    · exact .inl b
    · rcases List.mem_cons.1 b with b | b
      · exact absurd b.symm hd
      · exact .inr b
  · intro hm
    obtain ⟨a, b, c⟩ := h8 (List.mem_cons_of_mem _ hm)
    exact ⟨a, b, fun g hg => c g (List.mem_cons_of_mem _ hg)⟩

theorem base_enter {s : St} (e : Ev) (rest : List Frame) (h : Base { s with stack := rest }) : Base (s.enter e rest) := by
  obtain ⟨h1, h2, h3, h4, h5, h6, h7, h8, h9, h10⟩ := h
  refine ⟨?_, h2, ⟨by simp, h3⟩, ⟨by simp [Frame.isFailActive], h4⟩, ?_, h6, h7, ?_, h9, fun hm => h10 (by simpa [St.enter] using hm)⟩
  · simp only [St.enter, List.countP_cons, Frame.isUser] at h1 ⊢
    simp [h1]
  · intro hi
    obtain ⟨a, b, c⟩ := h5 hi
    refine ⟨a, ?_, ?_⟩
    · rcases b with b | b
      · exact .inl b
      · exact .inr (List.mem_cons_of_mem _ b)
    · intro g hg
      rcases List.mem_cons.1 hg with rfl | hg
      · rfl
      · exact c g hg
  · intro hm
    simp only [St.enter, List.mem_cons] at hm
    rcases hm with hm | hm
    · cases hm
    obtain ⟨a, b, c⟩ := h8 hm
    refine ⟨a, b, ?_⟩
    intro g hg
    rcases List.mem_cons.1 hg with rfl | hg
    · rfl
    · exact c g hg

theorem base_push {s : St} {f : Frame} {rest : List Frame} (h : Base { s with stack := rest })
    (h1 : f.isUser = false) (h2 : f ≠ .discEnd) (h3 : f.isFailActive = false)
    (h4 : s.intentional = true → f.calm = true) (h5 : .discEnd ∈ rest → f.inDisc = true)
    (h6 : f = .afterDisconnected → s.isConnected = false := by simp) :
    Base { s with stack := f :: rest } := by
  obtain ⟨g1, g2, g3, g4, g5, g6, g7, g8, g9, g10⟩ := h
  refine ⟨?_, g2, ⟨fun e => absurd e h2, g3⟩, ⟨by simp [h3], g4⟩, ?_, g6, g7, ?_, g9, ?_⟩
  · simp only [List.countP_cons, h1] at g1 ⊢
    simpa using g1
  · intro hi
    obtain ⟨a, b, c⟩ := g5 hi
    refine ⟨a, ?_, ?_⟩
    · rcases b with b | b
      · exact .inl b
      · exact .inr (List.mem_cons_of_mem _ b)
    · intro g hg
      rcases List.mem_cons.1 hg with rfl | hg
      · exact h4 hi
      · exact c g hg
  · intro hm
    simp only [List.mem_cons] at hm
    rcases hm with hm | hm
    · exact absurd hm.symm h2
    obtain ⟨a, b, c⟩ := g8 hm
    refine ⟨a, b, ?_⟩
    intro g hg
    rcases List.mem_cons.1 hg with rfl | hg
    · exact h5 hm
    · exact c g hg
  · intro hm
    rcases List.mem_cons.1 hm with hm | hm
    · exact h6 hm.symm
    · exact g10 hm

theorem base_connect {s : St} (cb : Option Nat) (rest : List Frame) (h : Base { s with stack := rest }) (hd : .discEnd ∉ rest) :
    Base (s.connect cb rest) := by
  unfold St.connect
  split
  · split
    · exact base_enter _ _ h
    · exact h
  · split
    · exact ⟨h.1, h.2, h.3, h.4, h.5, h.6, h.7, h.8, h.9, h.10⟩
    · obtain ⟨g1, g2, g3, g4, g5, g6, g7, g8, g9, g10⟩ := h
      exact ⟨g1, g2, g3, g4, by simp, by simp, by simp, fun hm => absurd hm hd, by simp, g10⟩

theorem connect_advancing (s : St) (cb : Option Nat) (rest : List Frame) (h1 : s.isConnected = false)
    (h2 : s.isConnecting = true → ∃ c, s.conn = some c ∧ c.attempt = true) : (s.connect cb rest).Advancing := by
  unfold St.connect
  rw [if_neg (by simp [h1])]
  split
  · next h =>
    obtain ⟨c, e1, e2⟩ := h2 h
    exact .inr (.inl ⟨c, e1, .inl e2⟩)
  · exact .inr (.inl ⟨_, rfl, .inl rfl⟩)

theorem base_failActive {s : St} (code : Nat) (rest : List Frame) (h : Base { s with stack := rest }) :
    Base (s.failActive code rest) := by
  unfold St.failActive
  split
  · exact h
  · apply base_enter
    obtain ⟨g1, g2, g3, g4, g5, g6, g7, g8, g9, g10⟩ := h
    exact ⟨g1, g2, g3, g4, g5, g6, g7, g8, by simp, g10⟩

theorem work_repairs {s : St} (h : ∃ f ∈ s.stack, f.repairs = true) : Work s := .inr (.inr h)

theorem failActive_stack (s : St) (code : Nat) (rest : List Frame) :
    (s.failActive code rest).stack = rest ∨ (s.failActive code rest).stack = .user :: rest := by
  unfold St.failActive; split
  · exact .inl rfl
  · exact .inr rfl

/-- Work that does not change the queue, the connection or the counters. -/
theorem work_pop {s s' : St} (h : Work s) (h1 : s'.pending = s.pending) (h2 : s'.active = s.active) (h3 : s'.conn = s.conn)
    (h4 : s'.isConnected = s.isConnected) (h5 : s'.reconnects = s.reconnects)
    (h6 : (∃ f ∈ s.stack, f.repairs = true) → ∃ f ∈ s'.stack, f.repairs = true) : Work s' := by
  rcases h with h | h | h
  · exact .inl (by rw [h1, h])
  · refine .inr (.inl ?_)
    unfold St.Advancing at h ⊢
    rw [h2, h3, h4, h5]
    exact h
  · exact .inr (.inr (h6 h))

theorem live_frame (s : St) (ok : Bool) (rest : List Frame) (f : Frame) (hs : s.stack = f :: rest) (hf : f ≠ .user)
    (hd : Disc s) (hb : Base s) (hw : Work s) : Base (s.runFrame ok rest f) ∧ Work (s.runFrame ok rest f) := by
  have hu : f.isUser = false := by cases f <;> first | rfl | exact absurd rfl hf
  have hpop : f ≠ .discEnd → Base { s with stack := rest } := fun h => base_pop hs hb hu h
  have hnd : f.inDisc = false → .discEnd ∉ rest := by
    intro e hm
    have := (hb.disc (by rw [hs]; exact List.mem_cons_of_mem _ hm)).2.2 f (by rw [hs]; exact List.mem_cons_self ..)
    rw [e] at this; cases this
  have hni : f.calm = false → s.intentional = false := by
    intro e
    cases hi : s.intentional with
    | false => rfl
    | true =>
      have := (hb.intent hi).2.2 f (by rw [hs]; exact List.mem_cons_self ..)
      rw [e] at this; cases this
  have hcn : s.intentional = false → s.conn.isSome = true := by
    intro hi
    cases hc : s.conn with
    | some c => rfl
    | none => rw [hb.noconn hc] at hi; cases hi
  have hw' : f.repairs = false → ∀ s' : St, s'.pending = s.pending → s'.active = s.active → s'.conn = s.conn →
      s'.isConnected = s.isConnected → s'.reconnects = s.reconnects → (∀ g ∈ rest, g ∈ s'.stack) → Work s' := by
    intro e s' a b c d e' g
    refine work_pop hw a b c d e' ?_
    rintro ⟨x, hx, hr⟩
    rw [hs] at hx
    rcases List.mem_cons.1 hx with rfl | hx
    · rw [e] at hr; cases hr
    · exact ⟨x, g x hx, hr⟩
  cases f with
  | user => exact absurd rfl hf
  | process =>
    replace hpop := hpop (by simp)
    replace hnd := hnd rfl
    simp only [St.runFrame]
    split
    · next ha => exact ⟨hpop, .inr (.inl (.inl ha))⟩
    · split
      · next hp => exact ⟨hpop, .inl hp⟩
      · split
        · next hc =>
          split
          · refine ⟨base_enter _ _ ?_, work_repairs ⟨.process, by simp [St.enter], rfl⟩⟩
            have := base_push (f := .process) hpop rfl (by simp) rfl (fun _ => rfl) (fun h => absurd h hnd)
            exact ⟨this.1, this.2, this.3, this.4, this.5, this.6, this.7, this.8, this.9, this.10⟩
          · split
            · refine ⟨base_connect _ _ hpop hnd, ?_⟩
              cases hcc : s.isConnected with
              | false => exact .inr (.inl (connect_advancing s none rest hcc hb.connecting))
              | true =>
                have hi : s.intentional = false := by
                  cases hi : s.intentional with
                  | false => rfl
                  | true => rw [(hb.intent hi).1] at hcc; cases hcc
                have h1 := hcn hi
                obtain ⟨c, e⟩ := Option.isSome_iff_exists.1 h1
                simp [hcc, St.usable, e] at hc
                refine .inr (.inl (.inr (.inl ⟨c, ?_, .inr (.inr ⟨?_, hc⟩)⟩)))
                · simp [St.connect, hcc, e]
                · simp [St.connect, hcc]
            · next h =>
              have h' : s.isConnecting = true := by simpa using h
              obtain ⟨c, e1, e2⟩ := hb.connecting h'
              exact ⟨hpop, .inr (.inl (.inr (.inl ⟨c, e1, .inl e2⟩)))⟩
        · next hc =>
          have hcs : s.conn.isSome = true := by
            cases e : s.conn with
            | some c => rfl
            | none => simp [St.usable, e] at hc
          split
          · refine ⟨?_, .inr (.inl (.inl rfl))⟩
            exact ⟨hpop.1, hpop.2, hpop.3, hpop.4, hpop.5, hpop.6, hpop.7, hpop.8, fun _ => hcs, hpop.10⟩
          · refine ⟨base_failActive _ _ ?_, work_repairs ⟨.processTail, ?_, rfl⟩⟩
            · have hi : s.intentional = false := by
                cases hi : s.intentional with
                | false => rfl
                | true => rw [(hb.intent hi).1] at hc; simp at hc
              have := base_push (f := .processTail) hpop rfl (by simp) rfl (fun h => by rw [hi] at h; cases h) (fun h => absurd h hnd)
              exact ⟨this.1, this.2, this.3, this.4, this.5, this.6, this.7, this.8, fun _ => hcs, this.10⟩
            · rcases failActive_stack { s with active := some _, pending := _, trace := _ } 400 (.processTail :: rest) with e | e <;>
                rw [e] <;> simp
  | processTail =>
    replace hpop := hpop (by simp)
    replace hnd := hnd rfl
    simp only [St.runFrame]
    split
    · next ha => exact ⟨hpop, .inr (.inl (.inl ha))⟩
    · exact ⟨base_push (f := .process) hpop rfl (by simp) rfl (fun _ => rfl) (fun h => absurd h hnd),
        work_repairs ⟨.process, by simp, rfl⟩⟩
  | failActive code =>
    replace hpop := hpop (by simp)
    refine ⟨base_failActive _ _ hpop, ?_⟩
    have hfo := hb.followed
    rw [hs] at hfo
    obtain ⟨g, l', e, hg⟩ := hfo.1 rfl
    refine work_repairs ⟨g, ?_, hg⟩
    simp only [St.runFrame]
    rcases failActive_stack s code rest with e2 | e2 <;> rw [e2, e] <;> simp
  | failAll code =>
    replace hpop := hpop (by simp)
    simp only [St.runFrame]
    split
    · next hp => exact ⟨hpop, .inl hp⟩
    · refine ⟨base_enter _ _ ?_, work_repairs ⟨.failAll code, by simp [St.enter], rfl⟩⟩
      have := base_push (f := .failAll code) hpop rfl (by simp) rfl (fun _ => rfl) (fun _ => rfl)
      exact ⟨this.1, this.2, this.3, this.4, this.5, this.6, this.7, this.8, this.9, this.10⟩
  | discEnd =>
    have hbot := hb.bottom
    rw [hs] at hbot
    have hr : rest = [] := hbot.1 rfl
    have hdep := hb.depth
    rw [hs, hr] at hdep
    simp [Frame.isUser] at hdep
    have hp : s.pending = [] := hd.top (by rw [hs]; rfl)
    have hm : .discEnd ∈ s.stack := by rw [hs]; exact List.mem_cons_self ..
    obtain ⟨d1, d2, d3⟩ := hb.disc hm
    have ha : s.active = none := by
      rcases hd.act hm with h | ⟨g, hg, e⟩
      · exact h
      · rw [hs] at hg; simp at hg; subst hg; cases e
    simp only [St.runFrame]
    rw [if_neg (by simp [St.closeConn, hdep])]
    subst hr
    refine ⟨⟨?_, ?_, ?_, ?_, ?_, ?_, ?_, ?_, ?_, by simp⟩, .inl hp⟩
    · simp [St.closeConn, hdep]
    · exact hb.reset
    · trivial
    · trivial
    · intro _; exact ⟨(hb.intent d2).1, .inl rfl, by simp⟩
    · intro _; exact d2
    · intro h; simp only [St.closeConn] at h; rw [d1] at h; cases h
    · simp
    · simp [St.closeConn, ha]
  | afterResponse ka =>
    replace hpop := hpop (by simp)
    replace hnd := hnd rfl
    replace hni := hni rfl
    simp only [St.runFrame]
    rw [if_neg (by simp [hni])]
    obtain ⟨c, e⟩ := Option.isSome_iff_exists.1 (hcn hni)
    split
    · refine ⟨⟨hpop.1, hpop.2, hpop.3, hpop.4, ?_, ?_, ?_, ?_, ?_, fun _ => rfl⟩, .inr (.inl (.inr (.inl ⟨{ c with closing := true }, ?_, .inr (.inl rfl)⟩)))⟩
      · intro h; simp only [St.closeConn] at h; rw [hni] at h; cases h
      · intro h; simp [St.closeConn, e] at h
      · intro h
        obtain ⟨c', e1, e2⟩ := hb.connecting h
        exact ⟨{ c' with closing := true }, by simp [St.closeConn, e1], e2⟩
      · intro h; exact absurd h hnd
      · intro _; simp [St.closeConn, e]
      · simp [St.closeConn, e]
    · exact ⟨base_push (f := .process) hpop rfl (by simp) rfl (fun _ => rfl) (fun h => absurd h hnd),
        work_repairs ⟨.process, by simp, rfl⟩⟩
  | connLoop cbs okk =>
    replace hpop := hpop (by simp)
    replace hnd := hnd rfl
    replace hni := hni rfl
    simp only [St.runFrame]
    split
    · exact ⟨hpop, hw' rfl _ rfl rfl rfl rfl rfl (fun g hg => hg)⟩
    · refine ⟨base_enter _ _ (base_push hpop rfl (by simp) rfl (fun h => by rw [hni] at h; cases h) (fun h => absurd h hnd)), ?_⟩
      exact hw' rfl _ rfl rfl rfl rfl rfl (fun g hg => by simp [St.enter, hg])
  | afterConnect =>
    replace hpop := hpop (by simp)
    replace hnd := hnd rfl
    replace hni := hni rfl
    simp only [St.runFrame]
    rw [if_neg (by simp [hni])]
    exact ⟨base_push (f := .process) hpop rfl (by simp) rfl (fun _ => rfl) (fun h => absurd h hnd),
      work_repairs ⟨.process, by simp, rfl⟩⟩
  | timeoutEnd =>
    replace hpop := hpop (by simp)
    replace hnd := hnd rfl
    replace hni := hni rfl
    obtain ⟨c, e⟩ := Option.isSome_iff_exists.1 (hcn hni)
    refine ⟨⟨hpop.1, hpop.2, hpop.3, hpop.4, ?_, ?_, ?_, ?_, ?_, hpop.10⟩, .inr (.inl (.inr (.inl ⟨{ c with closing := true }, ?_, .inr (.inl rfl)⟩)))⟩
    · intro h; simp only [St.runFrame, St.closeConn] at h; rw [hni] at h; cases h
    · intro h; simp [St.runFrame, St.closeConn, e] at h
    · intro h
      obtain ⟨c', e1, e2⟩ := hb.connecting h
      exact ⟨{ c' with closing := true }, by simp [St.runFrame, St.closeConn, e1], e2⟩
    · intro h; exact absurd h hnd
    · intro _; simp [St.runFrame, St.closeConn, e]
    · simp [St.runFrame, St.closeConn, e]
  | afterDisconnected =>
    replace hpop := hpop (by simp)
    replace hnd := hnd rfl
    replace hni := hni rfl
    simp only [St.runFrame]
    rw [if_neg (by simp [hni])]
    split
    · refine ⟨⟨hpop.1, hpop.2, hpop.3, hpop.4, hpop.5, hpop.6, hpop.7, hpop.8, hpop.9, hpop.10⟩, ?_⟩
      exact .inr (.inl (.inr (.inr ⟨Nat.succ_pos _, hb.lost (by rw [hs]; exact List.mem_cons_self ..)⟩)))
    · split
      · exact ⟨base_push (f := .failAll 503) hpop rfl (by simp) rfl (fun _ => rfl) (fun h => absurd h hnd),
          work_repairs ⟨.failAll 503, by simp, rfl⟩⟩
      · next h =>
        simp [St.hasWork] at h
        exact ⟨hpop, .inl h.2⟩

theorem live_call (s : St) (c : Call) (hu : s.stack.head? = none ∨ s.stack.head? = some .user) (hp : s.polite (.call c))
    (hd : Disc s) (hb : Base s) (hw : Work s) : Base (s.doCall c) ∧ Work (s.doCall c) := by
  have hb' : Base { s with stack := s.stack } := hb
  cases c with
  | push v =>
    have hnd : .discEnd ∉ s.stack := hp
    simp only [St.doCall, St.push]
    split
    · refine ⟨base_enter _ _ ⟨hb.1, hb.2, hb.3, hb.4, hb.5, hb.6, hb.7, hb.8, hb.9, hb.10⟩, ?_⟩
      exact work_pop hw rfl rfl rfl rfl rfl (fun ⟨f, hf, hr⟩ => ⟨f, by simp [St.enter, hf], hr⟩)
    · by_cases h : s.pending.length + (if s.active.isSome then 1 else 0) ≥ s.maxPending
      · rw [if_pos h]
        refine ⟨base_enter _ _ ⟨hb.1, hb.2, hb.3, hb.4, hb.5, hb.6, hb.7, hb.8, hb.9, hb.10⟩, ?_⟩
        exact work_pop hw rfl rfl rfl rfl rfl (fun ⟨f, hf, hr⟩ => ⟨f, by simp [St.enter, hf], hr⟩)
      · rw [if_neg h]
        refine ⟨?_, work_repairs ⟨.process, by simp, rfl⟩⟩
        have := base_push (f := .process) hb' rfl (by simp) rfl (fun _ => rfl) (fun h => absurd h hnd)
        exact ⟨this.1, this.2, this.3, this.4, this.5, this.6, this.7, this.8, this.9, this.10⟩
  | connect w =>
    have hnd : .discEnd ∉ s.stack := hp
    have key : ∀ (t : St) cb, Base t → Work t → t.stack = s.stack → Base (t.connect cb s.stack) ∧ Work (t.connect cb s.stack) := by
      intro t cb ht hwt hst
      have ht' : Base { t with stack := s.stack } := by rw [← hst]; exact ht
      refine ⟨base_connect _ _ ht' hnd, ?_⟩
      cases hc : t.isConnected with
      | false => exact .inr (.inl (connect_advancing t cb s.stack hc ht.connecting))
      | true =>
        unfold St.connect
        rw [if_pos hc]
        split
        · exact work_pop hwt rfl rfl rfl rfl rfl (fun ⟨f, hf, hr⟩ => ⟨f, by rw [hst] at hf; simp [St.enter, hf], hr⟩)
        · exact work_pop hwt rfl rfl rfl rfl rfl (fun ⟨f, hf, hr⟩ => ⟨f, by rw [hst] at hf; exact hf, hr⟩)
    simp only [St.doCall]
    split
    · exact key { s with nextCb := s.nextCb + 1 } _ ⟨hb.1, hb.2, hb.3, hb.4, hb.5, hb.6, hb.7, hb.8, hb.9, hb.10⟩
        (work_pop hw rfl rfl rfl rfl rfl id) rfl
    · exact key s _ hb hw rfl
  | disconnect =>
    have hs : s.stack = [] := hp
    have hdep := hb.depth
    rw [hs] at hdep
    simp at hdep
    refine ⟨⟨?_, hb.2, ?_, ?_, ?_, ?_, ?_, ?_, hb.9, ?_⟩, work_repairs ⟨.failAll 503, by simp [St.doCall, St.disconnect], rfl⟩⟩
    · simp [St.doCall, St.disconnect, hs, hdep, Frame.isUser]
    · simp [St.doCall, St.disconnect, hs, Bottom]
    · simp [St.doCall, St.disconnect, hs, Followed, Frame.isFailActive, Frame.repairs]
    · simp [St.doCall, St.disconnect, hs, Frame.calm, Frame.inDisc]
    · simp [St.doCall, St.disconnect]
    · simp [St.doCall, St.disconnect]
    · simp [St.doCall, St.disconnect, hs, Frame.inDisc]
    · simp [St.doCall, St.disconnect]

theorem live_event (s : St) (e : Event) (s' : St) (hs : s.stack = []) (h : s.doEvent e = some s')
    (hb : Base s) (hw : Work s) : Base s' ∧ Work s' := by
  have hdep := hb.depth
  rw [hs] at hdep
  simp at hdep
  have hni : ∀ c, s.conn = some c → s.intentional = false := by
    intro c e
    cases hi : s.intentional with
    | false => rfl
    | true =>
      rcases (hb.intent hi).2.1 with h | h
      · rw [e] at h; cases h
      · rw [hs] at h; cases h
  have hbs : Base { s with stack := [] } := by rw [← hs]; exact hb
  cases e <;> simp only [St.doEvent] at h
  case connectOk =>
    split at h <;> (try split at h) <;> cases h
    rename_i c hc _
    refine ⟨⟨?_, hb.2, ?_, ?_, ?_, ?_, ?_, ?_, ?_, ?_⟩, work_repairs ⟨.afterConnect, by simp, rfl⟩⟩ <;>
      simp [hs, hdep, Frame.isUser, Bottom, Followed, Frame.isFailActive]
  case connectFailed =>
    split at h <;> (try split at h) <;> cases h
    rename_i c hc _
    have := hni c hc
    refine ⟨⟨?_, hb.2, ?_, ?_, ?_, ?_, ?_, ?_, ?_, ?_⟩, work_repairs ⟨.failAll 503, by simp [St.connectionFailed], rfl⟩⟩ <;>
      simp [St.connectionFailed, hs, hdep, Frame.isUser, Bottom, Followed, Frame.isFailActive, Frame.repairs, this]
  case response r ka =>
    split at h <;> (try split at h) <;> cases h
    · exact ⟨hb, hw⟩
    · rename_i c hc _ ctx ha
      have hi := hni c hc
      refine ⟨?_, work_repairs ⟨.afterResponse ka, by simp [St.enter], rfl⟩⟩
      apply base_enter
      have := base_push (f := .afterResponse ka) hbs rfl (by simp) rfl (fun h => by rw [hi] at h; cases h) (by simp)
      rw [hs]
      exact ⟨this.1, this.2, this.3, this.4, this.5, this.6, this.7, this.8, by simp, this.10⟩
  case timeout =>
    split at h <;> (try split at h) <;> cases h
    · rename_i c hc _
      have := hni c hc
      have h9 := hb.9
      refine ⟨⟨?_, hb.2, ?_, ?_, ?_, ?_, ?_, ?_, ?_, ?_⟩, work_repairs ⟨.failAll 503, by simp [St.connectionFailed], rfl⟩⟩ <;>
        simp [St.connectionFailed, hs, hdep, Frame.isUser, Bottom, Followed, Frame.isFailActive, Frame.repairs, this, hc]
    · rename_i c hc _
      have hi := hni c hc
      have h7 := hb.7
      refine ⟨⟨?_, hb.2, ?_, ?_, ?_, ?_, ?_, ?_, ?_, ?_⟩, work_repairs ⟨.timeoutEnd, by simp, rfl⟩⟩ <;>
        simp_all [Frame.isUser, Bottom, Followed, Frame.isFailActive, Frame.repairs]
  case disconnected =>
    split at h <;> cases h
    rename_i c hc
    have hi := hni c hc
    refine ⟨⟨?_, hb.2, ?_, ?_, ?_, ?_, ?_, ?_, ?_, ?_⟩, work_repairs ⟨.afterDisconnected, by simp, rfl⟩⟩ <;>
      simp [hs, hdep, Frame.isUser, Bottom, Followed, Frame.isFailActive, Frame.repairs, hi]
  case socketClosed =>
    cases h
    refine ⟨⟨hb.1, hb.2, hb.3, hb.4, ?_, ?_, ?_, hb.8, ?_, hb.10⟩, ?_⟩
    · intro hi
      obtain ⟨a, b, c⟩ := hb.5 hi
      refine ⟨a, ?_, c⟩
      rcases b with b | b
      · exact .inl (by simp [b])
      · exact .inr b
    · intro h; exact hb.6 (by simpa using h)
    · intro h
      obtain ⟨c, e1, e2⟩ := hb.7 h
      exact ⟨{ c with isOpen := false }, by simp [e1], e2⟩
    · intro h; simpa using hb.9 h
    · rcases hw with h | (h | ⟨c, e1, e2⟩ | h) | h
      · exact .inl h
      · exact .inr (.inl (.inl h))
      · refine .inr (.inl (.inr (.inl ⟨{ c with isOpen := false }, by simp [e1], ?_⟩)))
        rcases e2 with h | h | ⟨h, _⟩
        · exact .inl h
        · exact .inr (.inl h)
        · exact .inr (.inr ⟨h, rfl⟩)
      · exact .inr (.inl (.inr (.inr h)))
      · exact .inr (.inr h)
  case pendingTimeout =>
    split at h <;> cases h
    · exact ⟨hb, hw⟩
    · refine ⟨?_, work_repairs ⟨.process, by simp [St.enter], rfl⟩⟩
      apply base_enter
      have := base_push (f := .process) hbs rfl (by simp) rfl (fun _ => rfl) (by simp)
      rw [hs]
      exact ⟨this.1, this.2, this.3, this.4, this.5, this.6, this.7, this.8, this.9, this.10⟩
  case deferredTick =>
    rw [if_pos (.inr hb.reset)] at h
    cases h
    exact ⟨hb, hw⟩
  case reconnect =>
    split at h
    · cases h
    · split at h
      · next hc =>
        cases h
        refine ⟨⟨hb.1, hb.2, hb.3, hb.4, hb.5, hb.6, hb.7, hb.8, hb.9, hb.10⟩, ?_⟩
        rcases hw with h | (h | h | h) | ⟨f, h, _⟩
        · exact .inl h
        · exact .inr (.inl (.inl h))
        · exact .inr (.inl (.inr (.inl h)))
        · simp only [h.2, Bool.false_or, Bool.or_eq_true] at hc
          rcases hc with hc | hc
          · obtain ⟨c, e1, e2⟩ := hb.connecting hc
            exact .inr (.inl (.inr (.inl ⟨c, e1, .inl e2⟩)))
          · simp [St.hasWork] at hc
            exact .inl hc.2
        · rw [hs] at h; cases h
      · next hc =>
        cases h
        simp only [Bool.or_eq_true, not_or] at hc
        have hc1 : s.isConnected = false := by simpa using hc.1.1
        have hc2 : s.isConnecting = false := by simpa using hc.1.2
        refine ⟨?_, .inr (.inl (connect_advancing _ _ _ hc1 (fun h => by rw [hc2] at h; cases h)))⟩
        unfold St.connect
        rw [if_neg (by simp [hc1]), if_neg (by simp [hc2])]
        exact ⟨hb.1, hb.2, hb.3, hb.4, by simp, by simp, by simp, by simp [hs], by simp, hb.10⟩

/-- What is preserved by the steps of a polite user. -/
theorem live_step (s : St) (ch : Choice) (s' : St) (h : s.step ch = some s') (hp : s.polite ch)
    (hd : Disc s) (hb : Base s) (hw : Work s) : Base s' ∧ Work s' := by
  unfold St.step at h
  split at h
  · next e => cases h; exact live_call s _ (.inl (by rw [e]; rfl)) hp hd hb hw
  · next e => exact live_event s _ _ e h hb hw
  · next e => cases h; exact live_call s _ (.inr (by rw [e]; rfl)) hp hd hb hw
  · next rest e =>
    cases h
    obtain ⟨h1, h2, h3, h4, h5, h6, h7, h8, h9, h10⟩ := hb
    rw [e] at h1 h3 h4 h5 h8 h10
    refine ⟨⟨?_, h2, h3.2, h4.2, ?_, h6, h7, ?_, h9, fun hm => h10 (List.mem_cons_of_mem _ hm)⟩, ?_⟩
    · simp [List.countP_cons, Frame.isUser] at h1
      simp [h1]
    · intro hi
      obtain ⟨a, b, c⟩ := h5 hi
      exact ⟨a, by simpa using b, fun g hg => c g (List.mem_cons_of_mem _ hg)⟩
    · intro hm
      obtain ⟨a, b, c⟩ := h8 (List.mem_cons_of_mem _ hm)
      exact ⟨a, b, fun g hg => c g (List.mem_cons_of_mem _ hg)⟩
    · refine work_pop hw rfl rfl rfl rfl rfl ?_
      rintro ⟨f, hf, hr⟩
      rw [e] at hf
      rcases List.mem_cons.1 hf with rfl | hf
      · cases hr
      · exact ⟨f, hf, hr⟩
  · cases h
  · next f rest ok hu e => cases h; exact live_frame s _ _ _ e (by rintro rfl; exact hu rfl) hd hb hw
  · cases h

theorem live_run (s : St) (chs : List Choice) (s' : St) (h : s.run chs = some s') (hp : s.politeRun chs)
    (hd : Disc s) (hb : Base s) (hw : Work s) : Base s' ∧ Work s' := by
  induction chs generalizing s with
  | nil => simp [St.run] at h; rw [← h]; exact ⟨hb, hw⟩
  | cons ch chs ih =>
    rw [St.run] at h
    split at h
    · next s1 e =>
      obtain ⟨h1, h2⟩ := live_step _ _ _ e hp.1 hd hb hw
      exact ih s1 h (hp.2 s1 e) (disc_step _ _ _ e hd) h1 h2
    · cases h

/-- **C131** For a user who does not call `disconnect` from callbacks nor the client from callbacks of
`disconnect`: whenever the client is idle and requests are queued, something is under way that will
lead to the next send or completion, and a request on the wire has a connection. Without that
restriction the statement is false (`C131_full_is_false`). -/
theorem C131_not_forgotten_partial (auto : Bool) (m : Nat) (chs : List Choice) (s : St)
    (h : (St.init auto m).run chs = some s) (hp : (St.init auto m).politeRun chs) (hidle : s.stack = []) :
    (s.pending ≠ [] → s.Advancing) ∧ (s.active.isSome = true → s.conn.isSome = true) := by
  have hb : Base (St.init auto m) := by
    refine ⟨?_, ?_, ?_, ?_, ?_, ?_, ?_, ?_, ?_, ?_⟩ <;> simp [St.init, Bottom, Followed]
  have hd : Disc (St.init auto m) := by
    refine ⟨?_, ?_, ?_, ?_⟩ <;> simp [St.init, Guarded]
  obtain ⟨h1, h2⟩ := live_run _ chs s h hp hd hb (.inl rfl)
  refine ⟨?_, h1.actconn⟩
  intro hne
  rcases h2 with h | h | ⟨f, hf, _⟩
  · exact absurd h hne
  · exact h
  · rw [hidle] at hf; cases hf

/-- The hypotheses are met: the example history of C126 is polite and ends idle. -/
theorem C131_example : (St.init true 10).politeRun demo ∧ ((St.init true 10).run demo).map (·.stack) = some [] := by
  refine ⟨?_, by decide⟩
  simp [demo, St.politeRun, St.polite, St.step, St.init, St.doCall, St.push, St.runFrame, St.connect, St.usable, fresh,
    St.doEvent, St.enter]

/-! ### When the user is not polite -/

/-- The queue of a client whose connecting flag is set while it has no connection object. -/
structure Stuck (s : St) : Prop where
  off : s.isConnected = false
  connecting : s.isConnecting = true
  conn : s.conn = none
  auto : s.autoReconnect = true
  active : s.active = none
  frames : ∀ f ∈ s.stack, f = .user ∨ f = .process

theorem stuck_step (s : St) (ch : Choice) (s' : St) (h : s.step ch = some s') (hnd : ch ≠ .call .disconnect) (hs : Stuck s) :
    Stuck s' ∧ sends s'.trace = sends s.trace ∧ connects s'.trace = connects s.trace := by
  obtain ⟨h1, h2, h3, h4, h5, h6⟩ := hs
  have call : ∀ c, c ≠ .disconnect → Stuck (s.doCall c) ∧ sends (s.doCall c).trace = sends s.trace ∧ connects (s.doCall c).trace = connects s.trace := by
    intro c hc
    cases c with
    | push v =>
      simp only [St.doCall, St.push]
      split
      · exact ⟨⟨h1, h2, h3, h4, h5, by simpa [St.enter] using h6⟩, rfl, rfl⟩
      · by_cases h : s.pending.length + (if s.active.isSome then 1 else 0) ≥ s.maxPending
        · rw [if_pos h]
          exact ⟨⟨h1, h2, h3, h4, h5, by simpa [St.enter] using h6⟩, rfl, rfl⟩
        · rw [if_neg h]
          exact ⟨⟨h1, h2, h3, h4, h5, by simpa using h6⟩, rfl, rfl⟩
    | connect w =>
      simp only [St.doCall, St.connect, h1, h2, Bool.false_eq_true, if_false, if_true]
      split <;> exact ⟨⟨rfl, rfl, h3, h4, h5, h6⟩, rfl, rfl⟩
    | disconnect => exact absurd rfl hc
  unfold St.step at h
  split at h
  · cases h; exact call _ (fun e => hnd (by rw [e]))
  · rename_i e _
    cases e <;> simp only [St.doEvent, h3] at h
    case pendingTimeout =>
      split at h <;> cases h
      · exact ⟨⟨h1, h2, h3, h4, h5, h6⟩, rfl, rfl⟩
      · exact ⟨⟨h1, h2, rfl, h4, h5, by simpa [St.enter] using h6⟩, rfl, rfl⟩
    case deferredTick =>
      split at h <;> cases h
      · exact ⟨⟨h1, h2, h3, h4, h5, h6⟩, rfl, rfl⟩
      · exact ⟨⟨h1, h2, rfl, h4, h5, h6⟩, rfl, rfl⟩
    case reconnect =>
      split at h
      · cases h
      · rw [if_pos (by simp [h2])] at h
        cases h
        exact ⟨⟨h1, h2, rfl, h4, h5, h6⟩, rfl, rfl⟩
    case socketClosed => cases h; exact ⟨⟨h1, h2, by simp, h4, h5, h6⟩, rfl, rfl⟩
    all_goals cases h
  · cases h; exact call _ (fun e => hnd (by rw [e]))
  · next rest e =>
    cases h
    exact ⟨⟨h1, h2, h3, h4, h5, fun f hf => h6 f (by rw [e]; exact List.mem_cons_of_mem _ hf)⟩, rfl, rfl⟩
  · cases h
  · next f rest ok hu e =>
    cases h
    have hr : ∀ g ∈ rest, g = .user ∨ g = .process := fun g hg => h6 g (by rw [e]; exact List.mem_cons_of_mem _ hg)
    rcases h6 f (by rw [e]; exact List.mem_cons_self ..) with rfl | rfl
    · exact absurd rfl hu
    · simp only [St.runFrame]
      rw [if_neg (by simp [h5])]
      split
      · exact ⟨⟨h1, h2, h3, h4, h5, hr⟩, rfl, rfl⟩
      · rw [if_pos (by simp [h1]), if_neg (by simp [h4]), if_neg (by simp [h2])]
        exact ⟨⟨h1, h2, h3, h4, h5, hr⟩, rfl, rfl⟩
  · cases h

/-- **C131, the finding.** From a stuck state no request is ever sent again and no connect callback is
invoked, whatever the user (short
of calling `disconnect`) and the network do: `connect` only adds to the list of waiting callbacks. -/
theorem C131_stuck_forever (s : St) (hs : Stuck s) (chs : List Choice) (hnd : .call .disconnect ∉ chs) (s' : St)
    (h : s.run chs = some s') : sends s'.trace = sends s.trace ∧ connects s'.trace = connects s.trace ∧ Stuck s' := by
  induction chs generalizing s with
  | nil => simp [St.run] at h; rw [← h]; exact ⟨rfl, rfl, hs⟩
  | cons ch chs ih =>
    rw [St.run] at h
    split at h
    · next s1 e =>
      obtain ⟨h1, h2, h2'⟩ := stuck_step _ _ _ e (fun e => hnd (by rw [e]; exact List.mem_cons_self ..)) hs
      obtain ⟨h3, h3', h4⟩ := ih s1 h1 (fun hm => hnd (List.mem_cons_of_mem _ hm)) h
      exact ⟨h3.trans h2, h3'.trans h2', h4⟩
    · cases h

/-- A response callback that calls `disconnect` and then `push_request`. -/
def reopen : List Choice :=
  [.call (.push true), .go true, .event .connectOk, .go true, .go true, .go true,
   .event (.response 7 true), .call .disconnect, .go true, .go true, .go true, .call (.push true), .go true, .ret, .go true,
   .go true, .event .deferredTick]

/-- **C131** The statement for every user is false: the history `reopen` ends idle and stuck, with the
second request queued; the deferred reset has destroyed the connection the second request was waiting
for. -/
theorem C131_full_is_false : ∃ s, (St.init true 10).run reopen = some s ∧ Stuck s ∧ s.stack = [] ∧ s.pending ≠ [] ∧ ¬ s.Advancing := by
  have h : ((St.init true 10).run reopen).map (fun s => (s.isConnected, s.isConnecting, s.conn, s.autoReconnect, s.active, s.stack,
      s.pending, s.reconnects)) = some (false, true, none, true, none, [], [⟨2, 2⟩], 0) := rfl
  cases hr : (St.init true 10).run reopen with
  | none => rw [hr] at h; cases h
  | some s =>
    rw [hr] at h
    simp only [Option.map_some, Option.some.injEq, Prod.mk.injEq] at h
    obtain ⟨h1, h2, h3, h4, h5, h6, h7, h8⟩ := h
    refine ⟨s, rfl, ⟨h1, h2, h3, h4, h5, by simp [h6]⟩, h6, by simp [h7], ?_⟩
    rintro (h | ⟨c, h, _⟩ | ⟨h, _⟩)
    · rw [h5] at h; cases h
    · rw [h3] at h; cases h
    · omega

end Verif.Cli
