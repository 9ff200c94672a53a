import Verif.Sv3.LemmasConn
import Verif.Sv3.LemmasClose

/-! Which events a step logs. -/

namespace Verif.Sv3

/-- The context `x` is given up because its stream or its connection was closed. -/
def Lost (t : St) (key : Nat × Nat) (x : Nat) : Prop := ∃ o, (key, o) ∈ t.sess ∧ (t.obj o).ctx = some x

def May (t : St) : In → Ev → Prop
  | .connected c h3, e => (h3 = true ∧ e = .created t.nk c) ∨ (h3 = false ∧ e = .close c 0x010c)
  | .dataBegin c, e => e = .created t.nk c ∨ ∃ k, e = .used k .readBegin
  | .dataEnd, e => (∃ k, e = .used k .readEnd) ∨ ∃ k, e = .freed k ∧ t.pop.depth = 0
  | .acked _, e => ∃ k, e = .used k .ack
  | .connClosed c, e => e = .connClosed c
  | .next, e => (∃ c n, e = .closedDone c n) ∨ (∃ k, e = .used k .notice) ∨ ∃ x c key ks n st, e = .cancel x ∧ t.stack = .closing c (key :: ks) n :: st ∧ Lost t key x
  | .streamClosed c s, e => e = .streamClosed c s ∨ ∃ x, e = .cancel x ∧ Lost t (c, s) x
  | .cancelEnd, _ => False
  | .h3Closed c s, e => e = .drained c s ∨ (∃ x, e = .hook x) ∨ e = .close c 0
  | .drained c s, e => e = .drained c s ∨ (∃ x, e = .hook x) ∨ e = .close c 0
  | .afterDispatch, e => ∃ k, e = .freed k ∧ t.depth = 0
  | .reqBegin s _, e => (∃ o c, e = .session o c s) ∨ ∃ x o, e = .start x o
  | .reqEnd found, e => (found = true ∧ ((∃ x o b, e = .attached x o b) ∨ ∃ x, e = .hook x)) ∨
      (found = false ∧ ∃ o x st, t.stack = .route o x :: st ∧ (e = .dropped (t.obj o).c (t.obj o).s ∨ ∃ k, ((t.obj o).c, k) ∈ t.conns ∧ (e = .used k .submit ∨ e = .submitted (t.obj o).c (t.obj o).s { status := 404 })))
  | .send o r, e => o < t.objs.length ∧ (e = .dropped (t.obj o).c (t.obj o).s ∨ ∃ k, ((t.obj o).c, k) ∈ t.conns ∧ (e = .used k .submit ∨ e = .submitted (t.obj o).c (t.obj o).s (finish (t.obj o).head r)))
  | .sendEnd _, e => (∃ c, e = .close c 0) ∨ ∃ c s, e = .reset c s 0x010e
  | .shutdown, e => e = .shutdown
  | .noticeEnd _, e => (∃ k, e = .used k .late) ∨ ∃ c, e = .goaway c ∨ e = .close c 0

def News (p : Ev → Prop) (t t' : St) : Prop := ∃ es, t'.log = es ++ t.log ∧ ∀ e ∈ es, p e

theorem News.none {p : Ev → Prop} {t t' : St} (h : t'.log = t.log) : News p t t' := ⟨[], h, fun _ h => by cases h⟩
theorem News.one {p : Ev → Prop} {t t' : St} (e : Ev) (h : t'.log = e :: t.log) (hp : p e) : News p t t' := ⟨[e], h, fun x hx => by rw [List.mem_singleton.1 hx]; exact hp⟩
theorem News.trans {p : Ev → Prop} {t t' t'' : St} (h : News p t t') (h' : News p t' t'') : News p t t'' := by
  obtain ⟨a, ha, ha'⟩ := h; obtain ⟨b, hb, hb'⟩ := h'
  refine ⟨b ++ a, by rw [hb, ha, List.append_assoc], fun e he => ?_⟩
  rcases List.mem_append.1 he with he | he
  · exact hb' e he
  · exact ha' e he

theorem news_ensure {p : Ev → Prop} (t : St) (c : Nat) (h : p (.created t.nk c)) : News p t (ensure t c).1 := by
  unfold ensure
  split
  · exact .none rfl
  · exact .one _ rfl h
theorem news_maybeFinish {p : Ev → Prop} (t : St) (c : Nat) (h : p (.close c 0)) : News p t (maybeFinish t c) := by
  unfold maybeFinish
  split
  · exact .none rfl
  split
  · exact .none rfl
  · exact .one _ rfl h
theorem news_markSent {p : Ev → Prop} (t : St) (o : Nat) (h : ∀ x, p (.hook x)) : News p t (markSent t o) := by
  unfold markSent
  split
  · exact .none rfl
  split
  · exact .none rfl
  · exact .one _ rfl (h _)
theorem news_attach {p : Ev → Prop} (t : St) (o x : Nat) (h : ∀ b, p (.attached x o b)) (h' : p (.hook x)) : News p t (attach t o x) := by
  unfold attach
  dsimp only
  split
  · exact ⟨[_, _], rfl, fun e he => by simp only [List.mem_cons, List.not_mem_nil, or_false] at he; rcases he with rfl | rfl; all_goals first | exact h' | exact h _⟩
  · exact .one _ rfl (h _)
theorem news_outputDrained {p : Ev → Prop} (t : St) (c s : Nat) (h : ∀ x, p (.hook x)) (h' : p (.close c 0)) : News p t (outputDrained t c s) := by
  unfold outputDrained
  refine News.trans ?_ (news_maybeFinish _ _ h')
  split
  · exact news_markSent _ _ h
  · exact .none rfl
theorem news_cancelErase {p : Ev → Prop} (t : St) (o : Nat) (key : Nat × Nat) (h : ∀ x, (t.obj o).ctx = some x → p (.cancel x)) : News p t (cancelErase t o key) := by
  unfold cancelErase
  split
  · exact .none rfl
  · rename_i x hx
    exact .one _ rfl (h x hx)
theorem news_sendResponse {p : Ev → Prop} (t : St) (c s : Nat) (r : Resp) (h : p (.dropped c s)) (h' : ∀ k, (c, k) ∈ t.conns → p (.used k .submit) ∧ p (.submitted c s r)) : News p t (sendResponse t c s r) := by
  unfold sendResponse
  split
  · exact .one _ rfl h
  · rename_i k hk
    refine ⟨[_, _], rfl, fun e he => ?_⟩
    simp only [List.mem_cons, List.not_mem_nil, or_false] at he
    rcases he with rfl | rfl
    · exact (h' k (get_mem hk)).2
    · exact (h' k (get_mem hk)).1
theorem news_reap {p : Ev → Prop} (t : St) (h : ∀ k, p (.freed k)) : News p t (reap t) := by
  refine ⟨_, rfl, fun e he => ?_⟩
  obtain ⟨x, -, rfl⟩ := List.mem_map.1 he
  exact h _

theorem step_news (t : St) (i : In) : News (May t i) t (step t i) := by
  cases i with
  | connected c h3 =>
    simp only [Sv3.step]
    split
    · rename_i h; exact news_ensure t c (.inl ⟨h, rfl⟩)
    · rename_i h; exact .one _ rfl (.inr ⟨by simpa using h, rfl⟩)
  | dataBegin c => exact (news_ensure t c (.inl rfl)).trans (.one _ rfl (.inr ⟨_, rfl⟩))
  | dataEnd =>
    simp only [Sv3.step]
    split
    · rename_i k c st hst
      have h1 : News (May t .dataEnd) t (t.pop.add (.used k .readEnd)) := .one _ rfl (.inl ⟨_, rfl⟩)
      split
      · rename_i hd
        have hd : t.pop.depth = 0 := by simpa [St.depth, St.add] using hd
        exact h1.trans (news_reap _ (fun k => .inr ⟨k, rfl, hd⟩))
      · exact h1
    · exact .none rfl
  | acked c =>
    simp only [Sv3.step]
    split
    · exact .one _ rfl ⟨_, rfl⟩
    · exact .none rfl
  | connClosed c => exact .one _ rfl rfl
  | next =>
    simp only [Sv3.step]
    split
    · split <;> exact .one _ rfl (.inl ⟨_, _, rfl⟩)
    · rename_i c key ks n st hst
      split
      · exact .none rfl
      · rename_i o ho
        exact News.trans (t' := t.pop.push (.closing c ks n)) (.none rfl) (news_cancelErase _ o key (fun x hx => .inr (.inr ⟨x, c, key, ks, n, st, rfl, hst, o, get_mem ho, hx⟩)))
    · exact .none rfl
    · split
      · exact .none rfl
      · exact .one _ rfl (.inr (.inl ⟨_, rfl⟩))
    · exact .none rfl
  | streamClosed c s =>
    simp only [Sv3.step]
    split
    · exact .one _ rfl (.inl rfl)
    · rename_i o ho
      exact News.trans (t' := t.add (.streamClosed c s)) (.one _ rfl (.inl rfl)) (news_cancelErase _ o _ (fun x hx => .inr ⟨x, rfl, o, get_mem ho, hx⟩))
  | cancelEnd =>
    simp only [Sv3.step]
    split <;> exact .none rfl
  | h3Closed c s =>
    exact News.trans (t' := t.add (.drained c s)) (.one _ rfl (.inl rfl)) (((news_outputDrained _ c s (fun x => .inr (.inl ⟨x, rfl⟩)) (.inr (.inr rfl))).trans (.none rfl)).trans (news_maybeFinish _ c (.inr (.inr rfl))))
  | drained c s =>
    exact News.trans (t' := t.add (.drained c s)) (.one _ rfl (.inl rfl)) (news_outputDrained _ c s (fun x => .inr (.inl ⟨x, rfl⟩)) (.inr (.inr rfl)))
  | afterDispatch =>
    simp only [Sv3.step]
    split
    · rename_i hd; exact news_reap _ (fun k => ⟨k, rfl, by simpa using hd⟩)
    · exact .none rfl
  | reqBegin s head =>
    simp only [Sv3.step]
    split
    · rename_i k c st hst
      have h1 : News (May t (.reqBegin s head)) t (ensureSession t c s).1 := by
        unfold ensureSession
        split
        · exact .none rfl
        · exact .one _ rfl (.inl ⟨_, _, rfl⟩)
      exact h1.trans (.one _ rfl (.inr ⟨_, _, rfl⟩))
    · exact .none rfl
  | reqEnd found =>
    simp only [Sv3.step]
    split
    · rename_i o x st hst
      split
      · rename_i hf
        exact News.trans (t' := t.pop) (.none rfl) (news_attach _ o x (fun b => .inl ⟨hf, .inl ⟨_, _, _, rfl⟩⟩) (.inl ⟨hf, .inr ⟨_, rfl⟩⟩))
      · rename_i hf
        have hf : found = false := by simpa using hf
        exact News.trans (t' := t.pop) (.none rfl) (news_sendResponse _ _ _ _ (.inr ⟨hf, o, x, st, hst, .inl rfl⟩)
          (fun k hk => ⟨.inr ⟨hf, o, x, st, hst, .inr ⟨k, hk, .inl rfl⟩⟩, .inr ⟨hf, o, x, st, hst, .inr ⟨k, hk, .inr rfl⟩⟩⟩))
    · exact .none rfl
  | send o r =>
    simp only [Sv3.step]
    split
    · rename_i ho
      exact news_sendResponse _ _ _ _ ⟨ho, .inl rfl⟩ (fun k hk => ⟨⟨ho, .inr ⟨k, hk, .inl rfl⟩⟩, ⟨ho, .inr ⟨k, hk, .inr rfl⟩⟩⟩)
    · exact .none rfl
  | sendEnd ok =>
    simp only [Sv3.step]
    split
    · split
      · exact News.trans (t' := t.pop) (.none rfl) (news_maybeFinish _ _ (.inl ⟨_, rfl⟩))
      · exact .one _ rfl (.inr ⟨_, _, rfl⟩)
    · exact .none rfl
  | shutdown => exact .one _ rfl rfl
  | noticeEnd d =>
    simp only [Sv3.step]
    split
    · rename_i c k cs st hst
      have h1 : News (May t (.noticeEnd d)) t { ((t.pop.add (.used k .late)).add (.goaway c)).push (.shut cs) with shut := ins t.shut c } :=
        ⟨[.goaway c, .used k .late], rfl, fun e he => by simp only [List.mem_cons, List.not_mem_nil, or_false] at he; rcases he with rfl | rfl; all_goals first | exact .inr ⟨c, .inl rfl⟩ | exact .inl ⟨k, rfl⟩⟩
      split
      · exact h1.trans (.one (.close c 0) rfl (.inr ⟨c, .inr rfl⟩))
      · exact h1
    · exact .none rfl

theorem news_mem {t t' : St} {p : Ev → Prop} (h : News p t t') {e : Ev} (h1 : e ∈ t'.log) : e ∈ t.log ∨ p e := by
  obtain ⟨es, e1, h2⟩ := h
  rw [e1] at h1
  rcases List.mem_append.1 h1 with h3 | h3
  · exact .inr (h2 _ h3)
  · exact .inl h3

theorem run_snoc (is : List In) (i : In) : run (is ++ [i]) = step (run is) i := run_append is [i]

/-- Which reports of a closure are behind the destruction of an object. -/
structure F (t : St) : Prop where
  closed : ∀ c, c ∈ t.closed → ∃ k a n b, (c, k) ∈ t.conns ∧ t.log = a ++ .closedDone c n :: b ∧ .created k c ∈ b
  freed : ∀ k, .freed k ∈ t.log → ∃ c a n b, t.log = a ++ .closedDone c n :: b ∧ .created k c ∈ b

theorem F.ext {t t' : St} (h : F t) (hc : ∀ e ∈ t.conns, e ∈ t'.conns) (hd : t'.closed = t.closed) {p : Ev → Prop} (hl : News p t t') (hp : ∀ k, ¬ p (.freed k)) : F t' := by
  refine ⟨fun c hx => ?_, fun k hk => ?_⟩
  · obtain ⟨k, a, n, b, h1, h2, h3⟩ := h.closed c (by rw [← hd]; exact hx)
    obtain ⟨es, e, -⟩ := hl
    exact ⟨k, es ++ a, n, b, hc _ h1, by rw [e, h2, List.append_assoc], h3⟩
  · rcases news_mem hl hk with h1 | h1
    · obtain ⟨c, a, n, b, h2, h3⟩ := h.freed k h1
      obtain ⟨es, e, -⟩ := hl
      exact ⟨c, es ++ a, n, b, by rw [e, h2, List.append_assoc], h3⟩
    · exact absurd h1 (hp k)

theorem F.reap {t : St} (h : F t) (hf : Fn t.conns) : F (Sv3.reap t) := by
  refine ⟨fun c hc => (by cases hc), fun k hk => ?_⟩
  have ext : ∀ c a n b, t.log = a ++ .closedDone c n :: b → .created k c ∈ b → ∃ c a n b, (Sv3.reap t).log = a ++ .closedDone c n :: b ∧ .created k c ∈ b := by
    intro c a n b h2 h3
    refine ⟨c, (t.conns.filter (fun e => t.closed.contains e.1)).map (fun e => .freed e.2) ++ a, n, b, ?_, h3⟩
    show _ ++ t.log = _
    rw [h2, List.append_assoc]
  have hk : Ev.freed k ∈ (t.conns.filter (fun e => t.closed.contains e.1)).map (fun e => Ev.freed e.2) ++ t.log := hk
  rcases List.mem_append.1 hk with hk | hk
  · obtain ⟨⟨c, k'⟩, h1, h2⟩ := List.mem_map.1 hk
    cases h2
    obtain ⟨h3, h4⟩ := List.mem_filter.1 h1
    obtain ⟨k2, a, n, b, h5, h6, h7⟩ := h.closed c (by simpa using h4)
    rw [hf c k2 k' h5 h3] at h7
    exact ext c a n b h6 h7
  · obtain ⟨c, a, n, b, h2, h3⟩ := h.freed k hk
    exact ext c a n b h2 h3

/-- The connections stay, and no closure is noted. -/
def Tab (t t' : St) : Prop := (∀ e ∈ t.conns, e ∈ t'.conns) ∧ t'.closed = t.closed

theorem Tab.eq {t t' : St} (h : t'.conns = t.conns) (h' : t'.closed = t.closed) : Tab t t' := ⟨fun e he => by rw [h]; exact he, h'⟩
theorem Tab.trans {t t' t'' : St} (h : Tab t t') (h' : Tab t' t'') : Tab t t'' := ⟨fun e he => h'.1 e (h.1 e he), h'.2.trans h.2⟩
theorem tab_ensure (t : St) (c : Nat) : Tab t (ensure t c).1 := by
  unfold ensure
  split
  · exact .eq rfl rfl
  · exact ⟨fun e he => List.mem_append_left _ he, rfl⟩
theorem tab_cancelErase (t : St) (o : Nat) (key : Nat × Nat) : Tab t (cancelErase t o key) := by
  unfold cancelErase
  split <;> exact .eq rfl rfl
theorem tab_sendResponse (t : St) (c s : Nat) (r : Resp) : Tab t (sendResponse t c s r) := by
  unfold sendResponse
  split <;> exact .eq rfl rfl
theorem Keeps.tab {t t' : St} (h : Keeps t t') : Tab t t' := .eq h.conns h.closed

theorem F.step {t : St} (h : F t) (hL : L t) (hR : R t) (i : In) : F (step t i) := by
  have hN := step_news t i
  have plain : Tab t (Sv3.step t i) → (∀ k, ¬ May t i (.freed k)) → F (Sv3.step t i) := fun ht hp => h.ext ht.1 ht.2 hN hp
  cases i with
  | connected c h3 =>
    refine plain ?_ (by intro k; simp [May])
    simp only [Sv3.step]
    split
    · exact tab_ensure t c
    · exact .eq rfl rfl
  | dataBegin c => exact plain ((tab_ensure t c).trans (.eq rfl rfl)) (by intro k; simp [May])
  | dataEnd =>
    simp only [Sv3.step]
    split
    · rename_i k c st hst
      have h1 : F (t.pop.add (.used k .readEnd)) := h.ext (fun _ he => he) rfl (p := fun e => e = .used k .readEnd) (.one _ rfl rfl) (fun _ e => by cases e)
      split
      · exact h1.reap hL.fn
      · exact h1
    · exact h
  | acked c =>
    refine plain ?_ (by intro k; simp [May])
    simp only [Sv3.step]
    split <;> exact .eq rfl rfl
  | connClosed c => exact plain (.eq rfl rfl) (by intro k; simp [May])
  | next =>
    have nf : ∀ k, ¬ May t .next (.freed k) := by intro k; simp [May]
    revert plain
    simp only [Sv3.step]
    intro plain
    split
    · rename_i c n st hst
      have key : ∀ (b : Bool), (b = true → ∃ k, (c, k) ∈ t.conns) → F { ({ t with closed := if b then t.closed ++ [c] else t.closed } : St).pop.add (.closedDone c n) with shut := t.shut.filter (· != c) } := by
        intro b hb
        refine ⟨fun d hd => ?_, fun k hk => ?_⟩
        · have hd : d ∈ (if b then t.closed ++ [c] else t.closed) := hd
          have old : d ∈ t.closed → ∃ k a n' b', (d, k) ∈ t.conns ∧ Ev.closedDone c n :: t.log = a ++ .closedDone d n' :: b' ∧ .created k d ∈ b' := by
            intro hd
            obtain ⟨k, a, n', b', h1, h2, h3⟩ := h.closed d hd
            exact ⟨k, .closedDone c n :: a, n', b', h1, by rw [h2]; rfl, h3⟩
          cases b with
          | false => exact old hd
          | true =>
            rcases List.mem_append.1 hd with hd | hd
            · exact old hd
            · rw [List.mem_singleton] at hd
              subst hd
              obtain ⟨k, hk⟩ := hb rfl
              exact ⟨k, [], n, t.log, hk, rfl, hR.made _ _ hk⟩
        · have hk : Ev.freed k ∈ Ev.closedDone c n :: t.log := hk
          rcases List.mem_cons.1 hk with hk | hk
          · cases hk
          obtain ⟨d, a, n', b', h2, h3⟩ := h.freed k hk
          exact ⟨d, .closedDone c n :: a, n', b', by show Ev.closedDone c n :: t.log = _; rw [h2]; rfl, h3⟩
      split
      · rename_i hs
        exact key true (fun _ => by
          cases hg : get t.conns c with
          | none => rw [hg] at hs; cases hs
          | some k => exact ⟨k, get_mem hg⟩)
      · exact key false (fun h => by cases h)
    · rename_i c key ks n st hst
      rw [hst] at plain
      refine plain ?_ nf
      dsimp only
      split
      · exact .eq rfl rfl
      · exact Tab.trans (t' := t.pop.push (.closing c ks n)) (.eq rfl rfl) (tab_cancelErase ..)
    · rename_i st hst
      rw [hst] at plain
      exact plain (.eq rfl rfl) nf
    · rename_i c cs st hst
      rw [hst] at plain
      refine plain ?_ nf
      dsimp only
      split <;> exact .eq rfl rfl
    · exact h
  | streamClosed c s =>
    refine plain ?_ (by intro k; simp [May])
    simp only [Sv3.step]
    split
    · exact .eq rfl rfl
    · exact Tab.trans (t' := t.add (.streamClosed c s)) (.eq rfl rfl) (tab_cancelErase ..)
  | cancelEnd =>
    refine plain ?_ (by intro k; simp [May])
    simp only [Sv3.step]
    split <;> exact .eq rfl rfl
  | h3Closed c s => exact plain (Tab.trans (t' := t.add (.drained c s)) (.eq rfl rfl) (((keeps_outputDrained _ c s).trans (.sess ..)).trans (keeps_maybeFinish _ c)).tab) (by intro k; simp [May])
  | drained c s => exact plain (Tab.trans (t' := t.add (.drained c s)) (.eq rfl rfl) (keeps_outputDrained _ c s).tab) (by intro k; simp [May])
  | afterDispatch =>
    simp only [Sv3.step]
    split
    · exact h.reap hL.fn
    · exact h
  | reqBegin s head =>
    refine plain ?_ (by intro k; simp [May])
    simp only [Sv3.step]
    split
    · refine Tab.trans (t' := (ensureSession t _ s).1) ?_ (.eq rfl rfl)
      unfold ensureSession
      split <;> exact .eq rfl rfl
    · exact .eq rfl rfl
  | reqEnd found =>
    refine plain ?_ (by intro k; simp [May])
    simp only [Sv3.step]
    split
    · split
      · exact Tab.trans (t' := t.pop) (.eq rfl rfl) (keeps_attach ..).tab
      · exact Tab.trans (t' := t.pop) (.eq rfl rfl) (tab_sendResponse ..)
    · exact .eq rfl rfl
  | send o r =>
    refine plain ?_ (by intro k; simp [May])
    simp only [Sv3.step]
    split
    · exact tab_sendResponse ..
    · exact .eq rfl rfl
  | sendEnd ok =>
    refine plain ?_ (by intro k; simp [May])
    simp only [Sv3.step]
    split
    · split
      · exact Tab.trans (t' := t.pop) (.eq rfl rfl) (keeps_maybeFinish ..).tab
      · exact .eq rfl rfl
    · exact .eq rfl rfl
  | shutdown => exact plain (.eq rfl rfl) (by intro k; simp [May])
  | noticeEnd d =>
    refine plain ?_ (by intro k; simp [May])
    simp only [Sv3.step]
    split
    · split <;> exact .eq rfl rfl
    · exact .eq rfl rfl

theorem F.run (is : List In) : F (run is) := by
  have : L (Sv3.run is) ∧ R (Sv3.run is) ∧ F (Sv3.run is) := by
    refine invariant (P := fun t => L t ∧ R t ∧ F t) ⟨L.init, R.init, fun _ h => (by cases h), fun _ h => (by cases h)⟩ ?_ is
    intro t i ⟨h1, h2, h3⟩
    exact ⟨h1.step i, h2.step i, h3.step h1 h2 i⟩
  exact this.2.2

/-- A session belongs to one stream. -/
theorem S.run (is : List In) : ∀ o c s c' s', .session o c s ∈ (run is).log → .session o c' s' ∈ (run is).log → c = c' ∧ s = s' := by
  have : (∀ o c s, .session o c s ∈ (Sv3.run is).log → o < (Sv3.run is).objs.length) ∧ ∀ o c s c' s', .session o c s ∈ (Sv3.run is).log → .session o c' s' ∈ (Sv3.run is).log → c = c' ∧ s = s' := by
    refine invariant (P := fun t => (∀ o c s, .session o c s ∈ t.log → o < t.objs.length) ∧ ∀ o c s c' s', .session o c s ∈ t.log → .session o c' s' ∈ t.log → c = c' ∧ s = s') ⟨fun _ _ _ h => (by cases h), fun _ _ _ _ _ h => (by cases h)⟩ ?_ is
    intro t i ⟨h1, h2⟩
    have hN := step_news t i
    have hF := step_fresh t i
    by_cases hi : ∃ s h, i = .reqBegin s h
    · obtain ⟨s, hd, rfl⟩ := hi
      revert hN hF
      simp only [Sv3.step]
      split
      · rename_i k c st hst
        unfold ensureSession
        cases hg : get t.sess (c, s) with
        | some o =>
          intro _ _
          refine ⟨fun o' c' s' h => ?_, fun o' c' s' c'' s'' h h' => ?_⟩
          · have h : Ev.session o' c' s' ∈ Ev.start _ _ :: t.log := h
            have := h1 o' c' s' ((List.mem_cons.1 h).resolve_left (by simp))
            simpa [St.push, St.add, St.setObj] using this
          · have h : Ev.session o' c' s' ∈ Ev.start _ _ :: t.log := h
            have h' : Ev.session o' c'' s'' ∈ Ev.start _ _ :: t.log := h'
            exact h2 _ _ _ _ _ ((List.mem_cons.1 h).resolve_left (by simp)) ((List.mem_cons.1 h').resolve_left (by simp))
        | none =>
          intro _ _
          have old : ∀ {o' c' s'}, Ev.session o' c' s' ∈ Ev.start t.nx t.objs.length :: Ev.session t.objs.length c s :: t.log → (o' = t.objs.length ∧ c' = c ∧ s' = s) ∨ Ev.session o' c' s' ∈ t.log := by
            intro o' c' s' h
            rcases List.mem_cons.1 ((List.mem_cons.1 h).resolve_left (by simp)) with h | h
            · cases h; exact .inl ⟨rfl, rfl, rfl⟩
            · exact .inr h
          refine ⟨fun o' c' s' h => ?_, fun o' c' s' c'' s'' h h' => ?_⟩
          · have : o' < t.objs.length + 1 := by
              rcases old h with ⟨h3, -⟩ | h3
              · omega
              · have := h1 o' c' s' h3; omega
            simpa [St.push, St.add, St.setObj] using this
          · rcases old h with ⟨e1, e2, e3⟩ | h3 <;> rcases old h' with ⟨e4, e5, e6⟩ | h4
            · exact ⟨e2.trans e5.symm, e3.trans e6.symm⟩
            · have := h1 _ _ _ h4; omega
            · have := h1 _ _ _ h3; omega
            · exact h2 _ _ _ _ _ h3 h4
      · intro _ _; exact ⟨h1, h2⟩
    · have no : ∀ o c s, .session o c s ∈ (Sv3.step t i).log → .session o c s ∈ t.log := by
        intro o c s h
        rcases news_mem hN h with h3 | h3
        · exact h3
        · exfalso
          cases i <;> first | (simp [May] at h3; done) | exact hi ⟨_, _, rfl⟩
      exact ⟨fun o c s h => Nat.lt_of_lt_of_le (h1 o c s (no _ _ _ h)) hF.2, fun o c s c' s' h h' => h2 o c s c' s' (no _ _ _ h) (no _ _ _ h')⟩
  exact this.2

end Verif.Sv3
