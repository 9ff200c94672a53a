import Verif.Wsc.Lemmas3

namespace Verif.Wsc

/-! ### Frames -/

def real (f : Frame) : Bool := !(f.kind == .disconnected)

structure J (s : St) : Prop where
  sub : (handed s.log ++ s.pending.filter real).Sublist (arrived s.log)
  exact : Fits s.log → (∀ id, .destroyed id ∉ s.log) → handed s.log ++ s.pending.filter real = arrived s.log ∧ (s.pending.filter (fun f => !real f)).length ≤ losses s.log

theorem J.init : J {} := ⟨by simp [handed, arrived], fun _ _ => by simp [handed, arrived, losses]⟩

def Ev.quiet (e : Ev) : Prop := ∀ l, arrived (e :: l) = arrived l ∧ handed (e :: l) = handed l ∧ losses (e :: l) = losses l

theorem Fits.tail {e : Ev} {l : List Ev} (h : Fits (e :: l)) : Fits l := h.2

theorem J.same {s t : St} (j : J s) (hl : t.log = s.log ∨ ∃ e : Ev, e.quiet ∧ t.log = e :: s.log) (hp : t.pending = s.pending) : J t := by
  rcases hl with h | ⟨e, he, h⟩
  · exact ⟨by rw [h, hp]; exact j.sub, by rw [h, hp]; exact j.exact⟩
  · obtain ⟨a, b, c⟩ := he s.log
    constructor
    · rw [h, hp, a, b]; exact j.sub
    · rw [h, hp, a, b, c]
      exact fun hf hd => j.exact hf.tail (fun id hm => hd id (List.mem_cons_of_mem _ hm))

theorem quiet_connect (id : Nat) (b : Bool) : (Ev.resumed id (.connect b)).quiet := fun _ => ⟨rfl, rfl, rfl⟩
theorem quiet_close (id : Nat) (b : Bool) : (Ev.resumed id (.close b)).quiet := fun _ => ⟨rfl, rfl, rfl⟩
theorem quiet_notice (id : Nat) (f : Frame) (h : f.kind = .disconnected) : (Ev.resumed id (.frame f)).quiet := fun _ => ⟨rfl, by simp [handed, h], rfl⟩
theorem quiet_wrote (p : Bytes) : (Ev.wroteClose p).quiet := fun _ => ⟨rfl, rfl, rfl⟩
theorem quiet_threw (id : Nat) : (Ev.threw id).quiet := fun _ => ⟨rfl, rfl, rfl⟩
theorem quiet_destroyed (id : Nat) : (Ev.destroyed id).quiet := fun _ => ⟨rfl, rfl, rfl⟩
theorem quiet_cap (n : Nat) : (Ev.cap n).quiet := fun _ => ⟨rfl, rfl, rfl⟩
theorem quiet_call (id : Nat) (c : Call) (h : c ≠ .connect) : (Ev.call id c).quiet := by
  intro l
  cases c with
  | connect => exact absurd rfl h
  | receive => exact ⟨rfl, rfl, rfl⟩
  | close a b => exact ⟨rfl, rfl, rfl⟩
theorem quiet_net (n : Net) (h : frameOf n = none) (h' : n ≠ .disconnected) : (Ev.net n).quiet := by
  intro l
  cases n <;> simp_all [arrived, handed, losses, frameOf]

theorem J.takeConn {s : St} (j : J s) (b : Bool) : J (takeConn s (.connect b)) := by
  refine j.same ?_ (take_fields s _).1.1
  rcases takeConn_log s (.connect b) with h | ⟨id, _, h⟩
  · exact .inl h
  · exact .inr ⟨_, quiet_connect id b, h⟩

theorem J.takeRecv {s : St} (j : J s) : J (takeRecv s (.frame {})) := by
  refine j.same ?_ (take_fields s _).2.1.1
  rcases takeRecv_log s (.frame {}) with h | ⟨id, _, h⟩
  · exact .inl h
  · exact .inr ⟨_, quiet_notice id _ rfl, h⟩

theorem J.takeClos {s : St} (j : J s) (b : Bool) : J (takeClos s (.close b)) := by
  refine j.same ?_ (take_fields s _).2.2.1
  rcases takeClos_log s (.close b) with h | ⟨id, _, h⟩
  · exact .inl h
  · exact .inr ⟨_, quiet_close id b, h⟩

theorem filter_split (l : List Frame) : (l.filter real).length + (l.filter (fun f => !real f)).length = l.length := by
  induction l with
  | nil => rfl
  | cons a l ih => cases h : real a <;> simp [h] <;> omega

theorem real_false {f : Frame} (h : real f = false) : f.kind = .disconnected := by
  unfold real at h
  simpa using h

theorem real_true {f : Frame} (h : real f = true) : f.kind ≠ .disconnected := by
  unfold real at h
  simpa using h

/-- A frame, or a notice, comes. -/
theorem J.deliver {s t : St} (j : J s) (w : W t) (g : G t) (f : Frame) (hp : t.pending = s.pending) (he : t.recv ≠ none → t.pending = []) (ha : arrived t.log = arrived s.log ++ (if real f then [f] else [])) (hh : handed t.log = handed s.log)
    (hlo : losses t.log = losses s.log + (if real f then 0 else 1)) (hf : Fits t.log → Fits s.log) (hb : Fits t.log → (arrived t.log).length + losses t.log ≤ (handed t.log).length + t.cap)
    (hd : ∀ id, .destroyed id ∈ s.log → .destroyed id ∈ t.log) : J (deliver t f) := by
  have gap : Fits t.log → (∀ id, .destroyed id ∉ t.log) → t.pending.length + 1 ≤ t.cap ∧ handed s.log ++ s.pending.filter real = arrived s.log ∧ (s.pending.filter (fun f => !real f)).length ≤ losses s.log := by
    intro h1 h2
    obtain ⟨e1, e2⟩ := j.exact (hf h1) (fun id h => h2 id (hd id h))
    have b := hb h1
    rw [ha, hlo, hh] at b
    have l := congrArg List.length e1
    have f' := filter_split s.pending
    rw [hp]
    refine ⟨?_, e1, e2⟩
    rw [List.length_append] at l b
    cases hr : real f <;> simp [hr] at b <;> omega
  rcases deliver_cases t f with ⟨hr, h⟩ | ⟨hr, hc, h⟩ | ⟨hr, hc, h⟩ <;> rw [h]
  · have pe := he hr
    have ps : s.pending = [] := by rw [← hp, pe]
    have p' : (Wsc.takeRecv t (.frame f)).pending = [] := by rw [(take_fields t _).2.1.1, pe]
    have sub := j.sub
    rw [ps] at sub
    simp only [List.filter_nil, List.append_nil] at sub
    have h0 : (handed s.log).Sublist (arrived t.log) := by rw [ha]; exact sub.trans (List.sublist_append_left _ _)
    cases hrv : t.recv with
    | none => exact absurd hrv hr
    | some id =>
      have g0 := g.recv id hrv
      have lg : (Wsc.takeRecv t (.frame f)).log = t.log ∧ .destroyed id ∈ t.log ∨ (Wsc.takeRecv t (.frame f)).log = .resumed id (.frame f) :: t.log := by
        unfold Wsc.takeRecv; rw [hrv]
        show (Wsc.fire _ id _).log = _ ∧ _ ∨ (Wsc.fire _ id _).log = _
        unfold Wsc.fire
        split
        · rename_i hx
          left
          refine ⟨rfl, ?_⟩
          simp only [Bool.or_eq_true, List.contains_iff_mem] at hx
          rcases hx with hx | hx
          · rcases (w.dead id hx).2 with h | h
            · exact h
            · omega
          · have := w.done id hx; omega
        · right; rfl
      rcases lg with ⟨lg, hdd⟩ | lg
      · constructor
        · rw [lg, p', hh]; simpa using h0
        · rw [lg]; intro _ h2; exact absurd hdd (h2 id)
      · have hnd : handed (.resumed id (.frame f) :: t.log) = handed s.log ++ (if real f then [f] else []) := by
          cases hk : real f with
          | false => simp [handed, real_false hk, hh]
          | true => simp [handed, real_true hk, hh]
        have hna : arrived (.resumed id (.frame f) :: t.log) = arrived s.log ++ (if real f then [f] else []) := ha
        constructor
        · rw [lg, p', hnd, hna]
          simp only [List.filter_nil, List.append_nil]
          exact List.Sublist.append sub (List.Sublist.refl _)
        · rw [lg, p', hnd, hna]
          intro h1 h2
          obtain ⟨_, e1, _⟩ := gap h1.tail (fun id h => h2 id (List.mem_cons_of_mem _ h))
          rw [ps] at e1
          simp only [List.filter_nil, List.append_nil] at e1
          simp [e1]
  · constructor
    · rw [hp, hh, ha]; exact j.sub.trans (List.sublist_append_left _ _)
    · intro h1 h2; have := (gap h1 h2).1; omega
  · constructor
    · dsimp only
      rw [hp, hh, ha, List.filter_append, ← List.append_assoc]
      have e : List.filter real [f] = if real f then [f] else [] := by cases hk : real f <;> simp [hk]
      rw [e]
      refine List.Sublist.append ?_ (List.Sublist.refl _)
      split
      · exact (List.Sublist.append (List.Sublist.refl _) ((List.drop_sublist 1 _).filter real)).trans j.sub
      · exact j.sub
    · dsimp only
      intro h1 h2
      obtain ⟨e0, e1, e2⟩ := gap h1 h2
      rw [if_neg (by omega), hp, hh, ha, hlo, List.filter_append, List.filter_append, ← List.append_assoc, e1]
      have e : List.filter real [f] = if real f then [f] else [] := by cases hk : real f <;> simp [hk]
      rw [e]
      refine ⟨rfl, ?_⟩
      rw [List.length_append]
      cases hk : real f <;> simp [hk] <;> omega

theorem closeFrame_eq (p : Bytes) : frameOf (.closed p) = some (closeFrame p) := by
  unfold frameOf closeFrame
  rcases p with _ | ⟨a, _ | ⟨b, c⟩⟩
  · simp
  · simp
  · simp [Nat.mul_comm]; omega

theorem J.onNet {sd : Side} {s : St} (w : W s) (f : F sd s) (g : G s) (j : J s) (n : Net) : J (onNet sd (s.add (.net n)) n) := by
  have w1 := w.add (.net n) (fun _ => rfl) (fun _ _ h => by cases h) (fun _ _ h => by cases h)
  have g1 := g.add (.net n) (fun _ => rfl) (fun _ _ h => by cases h)
  have bound : ∀ l : List Ev, l ≠ [] → Fits l → (arrived l).length + losses l ≤ (handed l).length + capOf l := by
    intro l hl h
    cases l with
    | nil => exact absurd rfl hl
    | cons e l => exact h.1
  have come : ∀ x, frameOf n = some x → (∀ l, losses (.net n :: l) = losses l) → real x = true → J (Wsc.deliver (s.add (.net n)) x) := by
    intro x hx hl hr
    refine j.deliver w1 g1 x rfl (fun h => f.recv h) ?_ rfl ?_ (fun h => h.tail) ?_ (fun id h => List.mem_cons_of_mem _ h)
    · show arrived s.log ++ (frameOf n).toList = _; rw [hx, hr]; rfl
    · show losses (.net n :: s.log) = _; rw [hl, hr]; rfl
    · intro h
      have := bound _ (by simp [St.add]) h
      have hc : (s.add (.net n)).cap = capOf (s.add (.net n)).log := f.cap
      rw [hc]; exact this
  cases n with
  | connected => cases sd with
    | client => exact (j.same (t := s.add (.net .connected)) (.inr ⟨_, quiet_net .connected rfl (by simp), rfl⟩) rfl).takeConn _
    | session => exact j.same (.inr ⟨_, quiet_net .connected rfl (by simp), rfl⟩) rfl
  | error => cases sd with
    | client =>
      have : J { s.add (.net .error) with disc := true } := j.same (.inr ⟨_, quiet_net .error rfl (by simp), rfl⟩) rfl
      exact ((this.takeConn false).takeRecv).takeClos false
    | session => exact j.same (.inr ⟨_, quiet_net .error rfl (by simp), rfl⟩) rfl
  | message t p => exact come _ rfl (fun _ => rfl) rfl
  | ping p => exact come _ rfl (fun _ => rfl) rfl
  | pong p => exact come _ rfl (fun _ => rfl) rfl
  | closed p =>
    have hk : real (closeFrame p) = true := by unfold closeFrame real; split <;> rfl
    show J (Wsc.takeClos (Wsc.deliver (if (s.add (.net (.closed p))).sent then s.add (.net (.closed p)) else { (s.add (.net (.closed p))).add (.wroteClose p) with sent := true }) (closeFrame p)) (.close true))
    refine J.takeClos ?_ true
    split
    · exact come _ (closeFrame_eq p) (fun _ => rfl) hk
    · have w2 := (w1.add (.wroteClose p) (fun _ => rfl) (fun _ _ h => by cases h) (fun _ _ h => by cases h)).same (t := { (s.add (.net (.closed p))).add (.wroteClose p) with sent := true }) rfl rfl rfl rfl rfl rfl rfl
      have g2 := g1.add (.wroteClose p) (fun _ => rfl) (fun _ _ h => by cases h)
      have g2 : G { (s.add (.net (.closed p))).add (.wroteClose p) with sent := true } := ⟨g2.uniq, g2.recv⟩
      refine j.deliver w2 g2 _ rfl (fun h => f.recv h) ?_ rfl ?_ (fun h => h.tail.tail) ?_ (fun id h => List.mem_cons_of_mem _ (List.mem_cons_of_mem _ h))
      · show arrived s.log ++ (frameOf (.closed p)).toList = _; rw [closeFrame_eq, hk]; rfl
      · show losses s.log = _; rw [hk]; rfl
      · intro h
        have := bound _ (by simp [St.add]) h
        have hc : s.cap = capOf (.wroteClose p :: .net (.closed p) :: s.log) := f.cap
        show _ ≤ _ + s.cap
        rw [hc]; exact this
  | disconnected => cases sd with
    | client =>
      have : J { s.add (.net .disconnected) with disc := true, sent := false } := by
        refine ⟨?_, ?_⟩
        · show List.Sublist _ (arrived s.log ++ []); rw [List.append_nil]; exact j.sub
        · intro h1 h2
          obtain ⟨a, b⟩ := j.exact h1.tail (fun id h => h2 id (List.mem_cons_of_mem _ h))
          refine ⟨?_, Nat.le_succ_of_le b⟩
          show _ = arrived s.log ++ []; rw [List.append_nil]; exact a
      exact ((this.takeConn false).takeRecv).takeClos true
    | session =>
      have w2 := w1.same (t := { s.add (.net .disconnected) with disc := true, sent := false }) rfl rfl rfl rfl rfl rfl rfl
      have g2 : G { s.add (.net .disconnected) with disc := true, sent := false } := ⟨g1.uniq, g1.recv⟩
      refine J.takeClos (j.deliver w2 g2 {} rfl (fun h => f.recv h) ?_ rfl ?_ (fun h => h.tail) ?_ (fun id h => List.mem_cons_of_mem _ h)) true
      · rfl
      · rfl
      · intro h
        have := bound _ (by simp [St.add]) h
        have hc : s.cap = capOf (.net .disconnected :: s.log) := f.cap
        show _ ≤ _ + s.cap
        rw [hc]; exact this
  | violation p =>
    have j1 : J (s.add (.net (.violation p))) := j.same (.inr ⟨_, quiet_net (.violation p) rfl (by simp), rfl⟩) rfl
    have j2 : J ((s.add (.net (.violation p))).add (.wroteClose p)) := j1.same (.inr ⟨_, quiet_wrote p, rfl⟩) rfl
    cases sd with
    | client =>
      have : J { (s.add (.net (.violation p))).add (.wroteClose p) with sent := true, disc := true } := j2.same (.inl rfl) rfl
      exact ((this.takeConn false).takeRecv).takeClos false
    | session => exact j2

theorem J.begin {s t : St} (j : J s) (c : Call) (h : c ≠ .connect) (hl : t.log = (s.begin c).log) (hp : t.pending = s.pending) : J t :=
  j.same (.inr ⟨_, quiet_call _ c h, hl⟩) hp

theorem J.fireQ {s : St} (j : J s) (id : Nat) (r : Result) (h : (Ev.resumed id r).quiet) : J (fire s id r) := by
  refine j.same ?_ (fire_fields s id r).1
  rcases fire_log s id r with e | e
  · exact .inl e
  · exact .inr ⟨_, h, e⟩

theorem quiet_app (rs l : List Ev) (h : ∀ e ∈ rs, e.quiet) : arrived (rs ++ l) = arrived l ∧ handed (rs ++ l) = handed l ∧ losses (rs ++ l) = losses l := by
  induction rs with
  | nil => exact ⟨rfl, rfl, rfl⟩
  | cons e rs ih =>
    obtain ⟨a, b, c⟩ := ih (fun x hx => h x (List.mem_cons_of_mem _ hx))
    obtain ⟨a', b', c'⟩ := h e List.mem_cons_self (rs ++ l)
    exact ⟨by rw [List.cons_append, a', a], by rw [List.cons_append, b', b], by rw [List.cons_append, c', c]⟩

theorem J.step {sd : Side} {s : St} (w : W s) (f : F sd s) (g : G s) (j : J s) (i : Input) : J (step sd s i) := by
  cases i with
  | net n => exact j.onNet w f g n
  | cap n => exact j.same (.inr ⟨_, quiet_cap n, rfl⟩) rfl
  | destroy id =>
    show J (if id < s.next then _ else _)
    split
    · exact j.same (.inr ⟨_, quiet_destroyed id, rfl⟩) rfl
    · exact j
  | call c =>
    cases c with
    | connect =>
      cases sd with
      | session => exact j
      | client =>
        show J (connect (s.begin .connect) s.next)
        obtain ⟨rs, h1, h2⟩ := connect_log (s.begin .connect) s.next
        have hp : (connect (s.begin .connect) s.next).pending = [] := by
          rw [connect_eq]; dsimp only; rw [(take_fields _ _).1.1]
        have q : ∀ e ∈ rs, e.quiet := by
          intro e he
          obtain ⟨k, r, e1, h | h | h⟩ := h2 e he <;> subst e1 <;> subst h
          · exact quiet_connect k false
          · exact quiet_notice k _ rfl
          · exact quiet_close k false
        obtain ⟨a, b, c⟩ := quiet_app rs (s.begin .connect).log q
        constructor
        · rw [hp, h1, a, b]; simp [St.begin, St.add, handed, arrived]
        · rw [hp, h1, a, b, c]; intro _ _; simp [St.begin, St.add, handed, arrived, losses]
    | receive =>
      show J (receive (s.begin .receive) s.next)
      have jb : J (s.begin .receive) := j.begin .receive (by simp) rfl rfl
      unfold receive
      cases hp : (s.begin .receive).pending with
      | cons x xs =>
        dsimp only
        have hps : s.pending = x :: xs := hp
        have lg : (Wsc.fire { s.begin .receive with pending := xs } s.next (.frame x)).log = .resumed s.next (.frame x) :: (s.begin .receive).log := by
          unfold Wsc.fire
          have hnd : s.next ∉ s.done := fun h => absurd (w.freshD _ h) (by omega)
          have hnx : s.next ∉ s.dead := fun h => absurd (w.dead _ h).1 (by omega)
          rw [if_neg (by simp [St.begin, St.add, hnd, hnx])]
        have hnd : handed (.resumed s.next (.frame x) :: (s.begin .receive).log) = handed s.log ++ (if real x then [x] else []) := by
          cases hk : real x with
          | false => simp [handed, real_false hk, St.begin, St.add]
          | true => simp [handed, real_true hk, St.begin, St.add]
        have hfx : handed s.log ++ (if real x then [x] else []) ++ xs.filter real = handed s.log ++ s.pending.filter real := by
          rw [hps]; cases hk : real x <;> simp [hk]
        constructor
        · rw [lg, (fire_fields _ _ _).1, hnd]; dsimp only; rw [hfx]; exact j.sub
        · rw [lg, (fire_fields _ _ _).1, hnd]; dsimp only; rw [hfx]
          intro h1 h2
          obtain ⟨a, b⟩ := j.exact h1.tail.tail (fun id h => h2 id (List.mem_cons_of_mem _ (List.mem_cons_of_mem _ h)))
          refine ⟨a, ?_⟩
          rw [hps] at b
          refine Nat.le_trans (List.Sublist.length_le ?_) b
          exact (List.sublist_cons_self x xs).filter _
      | nil =>
        dsimp only
        split
        · exact jb.fireQ _ _ (quiet_notice _ _ rfl)
        · cases hr : (s.begin .receive).recv with
          | some k => exact jb.same (.inr ⟨_, quiet_threw _, rfl⟩) rfl
          | none => exact jb.same (.inl rfl) hp.symm
    | close a b =>
      show J (closeAsync sd (s.begin (.close a b)) s.next a b)
      have jb : J (s.begin (.close a b)) := j.begin (.close a b) (by simp) rfl rfl
      unfold closeAsync
      cases hc : (s.begin (.close a b)).clos with
      | some k => exact jb.same (.inr ⟨_, quiet_threw _, rfl⟩) rfl
      | none =>
        dsimp only
        split
        · exact jb.fireQ _ _ (quiet_close _ true)
        · cases Ws.messageClose a b with
          | none => exact jb.same (.inr ⟨_, quiet_threw _, rfl⟩) rfl
          | some m => exact jb.same (.inr ⟨_, quiet_wrote _, rfl⟩) rfl

/-! ### Every history -/

structure All (sd : Side) (s : St) : Prop where
  w : W s
  f : F sd s
  g : G s
  j : J s

theorem All.init (sd : Side) : All sd {} := ⟨W.init, F.init sd, G.init, J.init⟩
theorem All.step {sd : Side} {s : St} (a : All sd s) (i : Input) : All sd (step sd s i) := ⟨a.w.step i, a.f.step i, a.g.step a.w i, a.j.step a.w a.f a.g i⟩
theorem All.run (sd : Side) (is : List Input) : All sd (run sd is) := by
  unfold Wsc.run
  suffices ∀ s, All sd s → All sd (is.foldl (Wsc.step sd) s) from this _ (All.init sd)
  induction is with
  | nil => exact fun s a => a
  | cons i is ih => exact fun s a => ih _ (a.step i)

end Verif.Wsc
