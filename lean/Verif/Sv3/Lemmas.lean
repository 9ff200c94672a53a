import Verif.Sv3.Spec

/-! Lemmas on the tables, and the invariants of the HTTP/3 server. -/

namespace Verif.Sv3

theorem get_mem [BEq α] [LawfulBEq α] {m : List (α × β)} {a : α} {b : β} (h : get m a = some b) : (a, b) ∈ m := by
  unfold get at h
  cases hf : m.find? (fun e => e.1 == a) with
  | none => rw [hf] at h; cases h
  | some e =>
    rw [hf] at h
    have h1 := List.find?_some hf
    have h2 := List.mem_of_find?_eq_some hf
    obtain ⟨x, y⟩ := e
    cases h
    have : x = a := by simpa using h1
    subst this; exact h2

theorem get_none [BEq α] [LawfulBEq α] {m : List (α × β)} {a : α} (h : get m a = none) (b : β) : (a, b) ∉ m := by
  unfold get at h
  intro hm
  rw [Option.map_eq_none_iff, List.find?_eq_none] at h
  have := h _ hm
  simp at this

/-- A key has one value. -/
def Fn (m : List (α × β)) : Prop := ∀ a b b', (a, b) ∈ m → (a, b') ∈ m → b = b'

theorem get_of_mem [BEq α] [LawfulBEq α] {m : List (α × β)} {a : α} {b : β} (hf : Fn m) (h : (a, b) ∈ m) : get m a = some b := by
  cases hg : get m a with
  | none => exact absurd h (get_none hg b)
  | some b' => rw [hf a b b' h (get_mem hg)]

theorem mem_del [BEq α] [LawfulBEq α] {m : List (α × β)} {a : α} {e : α × β} : e ∈ del m a ↔ e ∈ m ∧ e.1 ≠ a := by
  unfold del
  simp

theorem Fn.sub {m m' : List (α × β)} (h : Fn m) (hs : ∀ e ∈ m', e ∈ m) : Fn m' := fun a b b' h1 h2 => h a b b' (hs _ h1) (hs _ h2)

theorem Fn.snoc [BEq α] [LawfulBEq α] {m : List (α × β)} {a : α} {b : β} (h : Fn m) (hg : get m a = none) : Fn (m ++ [(a, b)]) := by
  intro x y z h1 h2
  simp only [List.mem_append, List.mem_singleton, Prod.mk.injEq] at h1 h2
  rcases h1 with h1 | ⟨e1, e2⟩ <;> rcases h2 with h2 | ⟨e3, e4⟩
  · exact h x y z h1 h2
  · subst e3; exact absurd h1 (get_none hg y)
  · subst e1; exact absurd h2 (get_none hg z)
  · rw [e2, e4]

/-- Which objects are alive. -/
structure L (t : St) : Prop where
  fn : Fn t.conns
  lt : ∀ c k, (c, k) ∈ t.conns → k < t.nk
  freedLt : ∀ k, .freed k ∈ t.log → k < t.nk
  live : ∀ c k, (c, k) ∈ t.conns → .freed k ∉ t.log
  inj : ∀ c c' k, (c, k) ∈ t.conns → (c', k) ∈ t.conns → c = c'
  reads : ∀ k c, .read k c ∈ t.stack → (c, k) ∈ t.conns
  uses : ∀ a k w b, t.log = a ++ .used k w :: b → w ≠ .late → .freed k ∉ b

/-- Only sessions, the stack without its reads, and other events change. -/
theorem L.frame {t t' : St} (h : L t) (hc : t'.conns = t.conns) (hn : t'.nk = t.nk) (hl : ∀ k, .freed k ∈ t'.log ↔ .freed k ∈ t.log)
    (hu : ∀ a k w b, t'.log = a ++ .used k w :: b → w ≠ .late → .freed k ∉ b) (hs : ∀ k c, .read k c ∈ t'.stack → .read k c ∈ t.stack) : L t' where
  fn := by rw [hc]; exact h.fn
  lt := by rw [hc, hn]; exact h.lt
  freedLt := fun k hk => by rw [hn]; exact h.freedLt k ((hl k).1 hk)
  live := fun c k hk hf => h.live c k (by rw [← hc]; exact hk) ((hl k).1 hf)
  inj := by rw [hc]; exact h.inj
  reads := fun k c hk => by rw [hc]; exact h.reads k c (hs k c hk)
  uses := hu

def Ev.quiet : Ev → Bool
  | .freed _ => false
  | .used _ w => w == .late
  | .created _ _ => false
  | _ => true

/-- Events that neither concern connection objects nor the state of a connection. -/
def Ev.calm : Ev → Bool
  | .freed _ => false
  | .used _ _ => false
  | .created _ _ => false
  | .closedDone _ _ => false
  | .goaway _ => false
  | _ => true

theorem Ev.calm.quiet {e : Ev} (h : e.calm = true) : e.quiet = true := by cases e <;> first | rfl | cases h

/-- Events that neither use nor destroy a connection object. -/
theorem L.quiet {t t' : St} (h : L t) (hc : t'.conns = t.conns) (hn : t'.nk = t.nk) (hl : ∃ es, t'.log = es ++ t.log ∧ ∀ e ∈ es, e.quiet = true) (hs : ∀ k c, .read k c ∈ t'.stack → .read k c ∈ t.stack) : L t' := by
  obtain ⟨es, e, hq⟩ := hl
  refine h.frame hc hn ?_ ?_ hs
  · intro k
    rw [e, List.mem_append]
    constructor
    · rintro (h' | h')
      · cases hq _ h'
      · exact h'
    · exact .inr
  · intro a k w b h' hw
    rw [e] at h'
    clear e
    induction es generalizing a with
    | nil => exact h.uses a k w b h' hw
    | cons x es ih =>
      cases a with
      | nil =>
        injection h' with h1 h2
        have := hq x (List.mem_cons_self ..)
        rw [h1] at this
        simp only [Ev.quiet, beq_iff_eq] at this
        exact absurd this hw
      | cons y a =>
        injection h' with h1 h2
        exact ih (fun e he => hq e (List.mem_cons_of_mem _ he)) a h2

/-- A connection object of the table is used. -/
theorem L.use {t : St} (h : L t) {c k : Nat} (hk : (c, k) ∈ t.conns) (w : Use) : L (t.add (.used k w)) := by
  refine h.frame rfl rfl ?_ ?_ (fun _ _ h => h)
  · intro k'
    show _ ∈ _ :: _ ↔ _
    rw [List.mem_cons]
    constructor
    · rintro (h' | h')
      · cases h'
      · exact h'
    · exact .inr
  · intro a k' w' b h' hw
    cases a with
    | nil => injection h' with h1 h2; cases h1; rw [← h2]; exact h.live c k hk
    | cons y a => injection h' with h1 h2; exact h.uses a k' w' b h2 hw

theorem L.ensure {t : St} (h : L t) (c : Nat) : L (ensure t c).1 ∧ (c, (ensure t c).2) ∈ (ensure t c).1.conns := by
  unfold Sv3.ensure
  cases hg : get t.conns c with
  | some k => exact ⟨h, get_mem hg⟩
  | none =>
    dsimp only
    refine ⟨{ fn := h.fn.snoc hg, lt := ?_, freedLt := ?_, live := ?_, inj := ?_, reads := ?_, uses := ?_ }, by simp⟩
    · intro c' k' hk
      simp only [List.mem_append, List.mem_singleton, Prod.mk.injEq] at hk
      show k' < t.nk + 1
      rcases hk with hk | ⟨-, rfl⟩
      · have := h.lt _ _ hk; omega
      · omega
    · intro k' hk
      have hk : Ev.freed k' ∈ Ev.created t.nk c :: t.log := hk
      rcases List.mem_cons.1 hk with hk | hk
      · cases hk
      · have := h.freedLt _ hk; show k' < t.nk + 1; omega
    · intro c' k' hk hf
      have hf : Ev.freed k' ∈ Ev.created t.nk c :: t.log := hf
      simp only [List.mem_append, List.mem_singleton, Prod.mk.injEq] at hk
      rcases List.mem_cons.1 hf with hf | hf
      · cases hf
      rcases hk with hk | ⟨-, rfl⟩
      · exact h.live _ _ hk hf
      · have := h.freedLt _ hf; omega
    · intro c1 c2 k' h1 h2
      simp only [List.mem_append, List.mem_singleton, Prod.mk.injEq] at h1 h2
      rcases h1 with h1 | ⟨e1, e2⟩ <;> rcases h2 with h2 | ⟨e3, e4⟩
      · exact h.inj _ _ _ h1 h2
      · have := h.lt _ _ h1; omega
      · have := h.lt _ _ h2; omega
      · rw [e1, e3]
    · intro k' c' hk
      exact List.mem_append_left _ (h.reads k' c' hk)
    · intro a k' w b h' hw
      have h' : Ev.created t.nk c :: t.log = a ++ .used k' w :: b := h'
      cases a with
      | nil => injection h' with h1 h2; cases h1
      | cons y a => injection h' with h1 h2; exact h.uses a k' w b h2 hw

theorem not_read_of_depth {t : St} (h : t.depth = 0) (k c : Nat) : .read k c ∉ t.stack := by
  intro hm
  unfold St.depth at h
  rw [List.length_eq_zero_iff, List.filter_eq_nil_iff] at h
  exact h _ hm rfl

theorem uses_freed (log : List Ev) (h : ∀ a k w b, log = a ++ .used k w :: b → w ≠ .late → .freed k ∉ b) (l : List (Nat × Nat)) :
    ∀ a k w b, l.map (fun e => Ev.freed e.2) ++ log = a ++ .used k w :: b → w ≠ .late → .freed k ∉ b := by
  induction l with
  | nil => exact h
  | cons x l ih =>
    intro a k w b h' hw
    cases a with
    | nil => injection h' with h1 h2; cases h1
    | cons y a => injection h' with h1 h2; exact ih a k w b h2 hw

theorem L.reap {t : St} (h : L t) (hd : t.depth = 0) : L (Sv3.reap t) := by
  have hfr : ∀ k, Ev.freed k ∈ (Sv3.reap t).log → Ev.freed k ∈ t.log ∨ ∃ c, (c, k) ∈ t.conns ∧ t.closed.contains c = true := by
    intro k hk
    simp only [Sv3.reap, List.mem_append, List.mem_map, List.mem_filter] at hk
    rcases hk with ⟨⟨c, k'⟩, ⟨h1, h2⟩, h3⟩ | hk
    · cases h3; exact .inr ⟨c, h1, h2⟩
    · exact .inl hk
  refine { fn := h.fn.sub (fun e he => (List.mem_filter.1 he).1), lt := fun c k hk => h.lt c k ((List.mem_filter.1 hk).1), freedLt := ?_, live := ?_, inj := ?_, reads := ?_, uses := ?_ }
  · intro k hk
    rcases hfr k hk with hk | ⟨c, hk, -⟩
    · exact h.freedLt k hk
    · exact h.lt c k hk
  · intro c k hk hf
    have hk : (c, k) ∈ t.conns ∧ (!t.closed.contains c) = true := List.mem_filter.1 hk
    rcases hfr k hf with hf | ⟨c', h1, h2⟩
    · exact h.live c k hk.1 hf
    · rw [h.inj _ _ _ hk.1 h1, h2] at hk; simp at hk
  · intro c c' k h1 h2
    exact h.inj c c' k ((List.mem_filter.1 h1).1) ((List.mem_filter.1 h2).1)
  · intro k c hk
    exact absurd hk (not_read_of_depth hd k c)
  · intro a k w b h' hw
    exact uses_freed t.log h.uses _ a k w b h' hw

/-- The part of a state a step of the sessions leaves alone. -/
structure Keeps (t t' : St) : Prop where
  conns : t'.conns = t.conns
  nk : t'.nk = t.nk
  closed : t'.closed = t.closed
  shut : t'.shut = t.shut
  stack : t'.stack = t.stack
  log : ∃ es, t'.log = es ++ t.log ∧ ∀ e ∈ es, e.calm = true

theorem Keeps.refl (t : St) : Keeps t t := ⟨rfl, rfl, rfl, rfl, rfl, [], rfl, fun _ h => by cases h⟩

theorem Keeps.trans {t t' t'' : St} (h : Keeps t t') (h' : Keeps t' t'') : Keeps t t'' := by
  obtain ⟨es, e, he⟩ := h.log
  obtain ⟨fs, f, hf⟩ := h'.log
  refine ⟨h'.conns.trans h.conns, h'.nk.trans h.nk, h'.closed.trans h.closed, h'.shut.trans h.shut, h'.stack.trans h.stack, fs ++ es, by rw [f, e, List.append_assoc], ?_⟩
  intro x hx
  rcases List.mem_append.1 hx with hx | hx
  · exact hf x hx
  · exact he x hx

theorem Keeps.add (t : St) (e : Ev) (h : e.calm = true) : Keeps t (t.add e) := ⟨rfl, rfl, rfl, rfl, rfl, [e], rfl, fun x hx => by rw [List.mem_singleton] at hx; rw [hx]; exact h⟩

theorem Keeps.setObj (t : St) (o : Nat) (v : Sess) : Keeps t (t.setObj o v) := ⟨rfl, rfl, rfl, rfl, rfl, [], rfl, fun _ h => by cases h⟩

theorem Keeps.sess (t : St) (m : List ((Nat × Nat) × Nat)) : Keeps t { t with sess := m } := ⟨rfl, rfl, rfl, rfl, rfl, [], rfl, fun _ h => by cases h⟩

theorem keeps_maybeFinish (t : St) (c : Nat) : Keeps t (maybeFinish t c) := by
  unfold maybeFinish
  split
  · exact .refl t
  split
  · exact .refl t
  · exact .add t _ rfl

theorem keeps_markSent (t : St) (o : Nat) : Keeps t (markSent t o) := by
  unfold markSent
  split
  · exact .refl t
  split
  · exact .setObj ..
  · exact (Keeps.setObj ..).trans (.add _ _ rfl)

theorem keeps_attach (t : St) (o x : Nat) : Keeps t (attach t o x) := by
  unfold attach
  dsimp only
  split
  · exact ((Keeps.add t _ rfl).trans (Keeps.setObj ..)).trans (.add _ _ rfl)
  · exact (Keeps.add t _ rfl).trans (Keeps.setObj ..)

theorem keeps_outputDrained (t : St) (c s : Nat) : Keeps t (outputDrained t c s) := by
  unfold outputDrained
  refine Keeps.trans ?_ (keeps_maybeFinish _ _)
  split
  · exact keeps_markSent ..
  · exact .refl t

theorem L.keeps {t t' : St} (h : L t) (k : Keeps t t') : L t' := h.quiet k.conns k.nk (let ⟨es, e, he⟩ := k.log; ⟨es, e, fun x hx => Ev.calm.quiet (he x hx)⟩) (fun _ _ hm => by rw [k.stack] at hm; exact hm)

theorem L.push {t : St} (h : L t) (f : Fr) (hf : ∀ k c, f ≠ .read k c) : L (t.push f) := by
  refine h.quiet rfl rfl ⟨[], rfl, fun _ h => by cases h⟩ ?_
  intro k c hm
  rcases List.mem_cons.1 hm with hm | hm
  · exact absurd hm.symm (hf k c)
  · exact hm

theorem L.pop {t : St} (h : L t) : L t.pop := h.quiet rfl rfl ⟨[], rfl, fun _ h => by cases h⟩ (fun _ _ hm => List.mem_of_mem_drop hm)

theorem L.cancelErase {t : St} (h : L t) (o : Nat) (key : Nat × Nat) : L (cancelErase t o key) := by
  unfold Sv3.cancelErase
  split
  · exact h.keeps (.sess ..)
  · exact (h.keeps (.add _ _ rfl)).push _ (fun _ _ e => by cases e)

theorem L.sendResponse {t : St} (h : L t) (c s : Nat) (r : Resp) : L (sendResponse t c s r) := by
  unfold Sv3.sendResponse
  split
  · exact h.keeps (.add _ _ rfl)
  · rename_i k hk
    exact ((h.use (get_mem hk) .submit).keeps (.add _ _ rfl)).push _ (fun _ _ e => by cases e)

theorem L.step {t : St} (h : L t) (i : In) : L (step t i) := by
  cases i with
  | connected c h3 =>
    simp only [Sv3.step]
    split
    · exact (h.ensure c).1
    · exact h.keeps (.add _ _ rfl)
  | dataBegin c =>
    simp only [Sv3.step]
    obtain ⟨h1, h2⟩ := h.ensure c
    have h3 := h1.use h2 .readBegin
    refine { h3 with reads := ?_ }
    intro k c' hm
    rcases List.mem_cons.1 hm with hm | hm
    · cases hm; exact h2
    · exact h1.reads k c' hm
  | dataEnd =>
    simp only [Sv3.step]
    split
    · rename_i k c st hst
      have hm := h.reads k c (by rw [hst]; exact List.mem_cons_self ..)
      have h1 : L (t.pop.add (.used k .readEnd)) := h.pop.use (c := c) hm _
      split
      · rename_i hd
        exact h1.reap (by simpa using hd)
      · exact h1
    · exact h
  | acked c =>
    simp only [Sv3.step]
    split
    · rename_i k hk; exact h.use (get_mem hk) _
    · exact h
  | connClosed c => exact (h.keeps (.add _ _ rfl)).push _ (fun _ _ e => by cases e)
  | next =>
    simp only [Sv3.step]
    split
    · rename_i c n st hst
      refine h.quiet ?_ ?_ ⟨[.closedDone c n], ?_, ?_⟩ ?_
      · dsimp only; split <;> rfl
      · dsimp only; split <;> rfl
      · dsimp only; split <;> rfl
      · intro e he; rw [List.mem_singleton] at he; rw [he]; rfl
      · intro k c' hm
        dsimp only at hm
        split at hm <;> exact List.mem_of_mem_drop hm
    · rename_i c key ks n st hst
      have h1 := h.pop.push (.closing c ks n) (fun _ _ e => by cases e)
      split
      · exact h1
      · exact h1.cancelErase ..
    · exact h.pop
    · rename_i c cs st hst
      split
      · exact h.pop.push _ (fun _ _ e => by cases e)
      · rename_i k hk
        exact ((h.pop.use (get_mem hk) .notice)).push _ (fun _ _ e => by cases e)
    · exact h
  | streamClosed c s =>
    simp only [Sv3.step]
    have h1 : L (t.add (.streamClosed c s)) := h.keeps (.add _ _ rfl)
    split
    · exact h1
    · exact h1.cancelErase ..
  | cancelEnd =>
    simp only [Sv3.step]
    split
    · exact (h.pop.keeps (.setObj ..)).keeps (.sess ..)
    · exact h
  | h3Closed c s =>
    simp only [Sv3.step]
    exact (((h.keeps (.add _ _ rfl)).keeps (keeps_outputDrained ..)).keeps (.sess ..)).keeps (keeps_maybeFinish ..)
  | drained c s =>
    simp only [Sv3.step]
    exact (h.keeps (.add _ _ rfl)).keeps (keeps_outputDrained ..)
  | afterDispatch =>
    simp only [Sv3.step]
    split
    · rename_i hd; exact h.reap (by simpa using hd)
    · exact h
  | reqBegin s head =>
    simp only [Sv3.step]
    split
    · rename_i k c st hst
      have h1 : L (ensureSession t c s).1 := by
        unfold ensureSession
        split
        · exact h
        · exact h.quiet rfl rfl ⟨[_], rfl, fun e he => by rw [List.mem_singleton] at he; rw [he]; rfl⟩ (fun _ _ h => h)
      have h2 := ((h1.keeps (.setObj _ (ensureSession t c s).2 { (ensureSession t c s).1.obj (ensureSession t c s).2 with head := head })).keeps (.add _ (.start (ensureSession t c s).1.nx (ensureSession t c s).2) rfl)).push (.route (ensureSession t c s).2 (ensureSession t c s).1.nx) (fun _ _ e => by cases e)
      exact h2.quiet rfl rfl ⟨[], rfl, fun _ h => by cases h⟩ (fun _ _ h => h)
    · exact h
  | reqEnd found =>
    simp only [Sv3.step]
    split
    · split
      · exact h.pop.keeps (keeps_attach ..)
      · exact h.pop.sendResponse ..
    · exact h
  | send o r =>
    simp only [Sv3.step]
    split
    · exact h.sendResponse ..
    · exact h
  | sendEnd ok =>
    simp only [Sv3.step]
    split
    · split
      · exact h.pop.keeps (keeps_maybeFinish ..)
      · exact h.pop.keeps (.add _ _ rfl)
    · exact h
  | shutdown => exact (h.keeps (.add _ _ rfl)).push _ (fun _ _ e => by cases e)
  | noticeEnd d =>
    simp only [Sv3.step]
    split
    · rename_i c k cs st hst
      have h1 : L (((t.pop.add (.used k .late)).add (.goaway c)).push (.shut cs)) := ((h.pop.quiet (t' := (t.pop.add (.used k .late)).add (.goaway c)) rfl rfl ⟨[.goaway c, .used k .late], rfl, by intro e he; simp only [List.mem_cons, List.not_mem_nil, or_false] at he; rcases he with he | he <;> rw [he] <;> rfl⟩ (fun _ _ h => h))).push _ (fun _ _ e => by cases e)
      have h2 : ∀ m, L { ((t.pop.add (.used k .late)).add (.goaway c)).push (.shut cs) with shut := m } := fun m => h1.quiet rfl rfl ⟨[], rfl, fun _ h => by cases h⟩ (fun _ _ h => h)
      split
      · exact (h2 _).keeps (.add _ (.close c 0) rfl)
      · exact h2 _
    · exact h

theorem L.init : L {} where
  fn := fun _ _ _ h => by cases h
  lt := fun _ _ h => by cases h
  freedLt := fun _ h => by cases h
  live := fun _ _ h => by cases h
  inj := fun _ _ _ h => by cases h
  reads := fun _ _ h => by cases h
  uses := fun a _ _ _ h => by cases a <;> cases h

/-- What holds in the beginning and after every step. -/
theorem invariant {P : St → Prop} (h0 : P {}) (hs : ∀ t i, P t → P (step t i)) (is : List In) : P (run is) := by
  suffices ∀ t, P t → P (is.foldl step t) from this {} h0
  induction is with
  | nil => intro t h; exact h
  | cons i is ih => intro t h; exact ih _ (hs t i h)

theorem L.run (is : List In) : L (run is) := invariant L.init (fun _ i h => h.step i) is

end Verif.Sv3
