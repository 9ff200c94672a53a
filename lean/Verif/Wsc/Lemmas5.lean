import Verif.Wsc.Lemmas4

namespace Verif.Wsc

/-! ### What results tell -/

def Told (sd : Side) : List Ev → Prop
  | [] => True
  | .resumed _ r :: l => True_ sd l r ∧ Told sd l
  | _ :: l => Told sd l

theorem Told.at {sd : Side} : ∀ {l : List Ev}, Told sd l → ∀ a id r b, l = a ++ .resumed id r :: b → True_ sd b r := by
  intro l
  induction l with
  | nil => intro _ a id r b h; cases a <;> cases h
  | cons e l ih =>
    intro h a id r b hl
    cases a with
    | nil => cases hl; exact h.1
    | cons x a =>
      cases hl
      refine ih ?_ a id r b rfl
      cases e <;> first | exact h | exact h.2

theorem Told.of {sd : Side} {s t : St} (h : Told sd s.log) (hl : t.log = s.log ∨ ∃ id r, True_ sd s.log r ∧ t.log = .resumed id r :: s.log) : Told sd t.log := by
  rcases hl with e | ⟨id, r, a, e⟩ <;> rw [e]
  · exact h
  · exact ⟨a, h⟩

theorem Told.fire {sd : Side} {s : St} (h : Told sd s.log) (id : Nat) (r : Result) (a : True_ sd s.log r) : Told sd (fire s id r).log := by
  refine Told.of (s := s) h ?_
  rcases fire_log s id r with e | e
  · exact .inl e
  · exact .inr ⟨id, r, a, e⟩

theorem Told.fireOpt {sd : Side} {s : St} (h : Told sd s.log) (w : Option Nat) (r : Result) (a : True_ sd s.log r) : Told sd (fireOpt s w r).log := by
  cases w with
  | none => exact h
  | some id => exact h.fire id r a

theorem fireOpt_keeps (sd : Side) (s : St) (w : Option Nat) (r : Result) : lost sd (fireOpt s w r).log = lost sd s.log ∧ closing (fireOpt s w r).log = closing s.log ∧ (renewing s.log = true → renewing (fireOpt s w r).log = true) := by
  rcases fireOpt_log s w r with h | ⟨id, _, h⟩ <;> rw [h]
  · exact ⟨rfl, rfl, id⟩
  · exact ⟨rfl, rfl, fun h => h⟩

/-- Three notices in a row. -/
theorem Told.three {sd : Side} {s : St} (h : Told sd s.log) (b : Bool) (hl : lost sd s.log = true) : Told sd (takeClos (takeRecv (takeConn s (.connect false)) (.frame {})) (.close b)).log := by
  have h1 : Told sd (takeConn s (.connect false)).log := Told.fireOpt (s := { s with conn := none }) h _ _ (.inl hl)
  have l1 : lost sd (takeConn s (.connect false)).log = true := by rw [takeConn, (fireOpt_keeps sd _ _ _).1]; exact hl
  have h2 : Told sd (takeRecv (takeConn s (.connect false)) (.frame {})).log := Told.fireOpt (s := { takeConn s (.connect false) with recv := none }) h1 _ _ (fun _ => .inl l1)
  have l2 : lost sd (takeRecv (takeConn s (.connect false)) (.frame {})).log = true := by rw [takeRecv, (fireOpt_keeps sd _ _ _).1]; exact l1
  exact Told.fireOpt (s := { takeRecv (takeConn s (.connect false)) (.frame {}) with clos := none }) h2 _ _ (by cases b; exact .inl l2; exact .inr l2)

theorem Told.deliver {sd : Side} {s : St} (h : Told sd s.log) (f : Frame) (hf : f.kind = .disconnected → lost sd s.log = true) : Told sd (deliver s f).log := by
  rcases deliver_cases s f with ⟨_, e⟩ | ⟨_, _, e⟩ | ⟨_, _, e⟩ <;> rw [e]
  · exact Told.fireOpt (s := { s with recv := none }) h _ _ (fun k => .inl (hf k))
  · exact h
  · exact h

theorem deliver_keeps (sd : Side) (s : St) (f : Frame) : lost sd (deliver s f).log = lost sd s.log ∧ closing (deliver s f).log = closing s.log := by
  rcases deliver_cases s f with ⟨_, e⟩ | ⟨_, _, e⟩ | ⟨_, _, e⟩ <;> rw [e]
  · exact ⟨(fireOpt_keeps sd _ _ _).1, (fireOpt_keeps sd _ _ _).2.1⟩
  · exact ⟨rfl, rfl⟩
  · exact ⟨rfl, rfl⟩

theorem Told.step {sd : Side} {s : St} (f : F sd s) (h : Told sd s.log) (i : Input) : Told sd (step sd s i).log := by
  cases i with
  | net n =>
    have h1 : Told sd (s.add (.net n)).log := h
    show Told sd (onNet sd (s.add (.net n)) n).log
    cases n with
    | connected => cases sd with
      | client => exact Told.fireOpt (s := { s.add (.net .connected) with conn := none }) h1 _ _ rfl
      | session => exact h1
    | error => cases sd with
      | client => exact Told.three (s := { s.add (.net .error) with disc := true }) h1 false rfl
      | session => exact h1
    | message t p => exact h1.deliver _ (fun k => by cases k)
    | ping p => exact h1.deliver _ (fun k => by cases k)
    | pong p => exact h1.deliver _ (fun k => by cases k)
    | closed p =>
      have key : ∀ t : St, Told sd t.log → closing t.log = true → Told sd (takeClos (Wsc.deliver t (closeFrame p)) (.close true)).log := by
        intro t h1 h2
        have h3 : Told sd (Wsc.deliver t (closeFrame p)).log := h1.deliver _ (fun k => by unfold closeFrame at k; split at k <;> cases k)
        exact Told.fireOpt (s := { Wsc.deliver t (closeFrame p) with clos := none }) h3 _ _ (.inl (by show closing (Wsc.deliver t (closeFrame p)).log = true; rw [(deliver_keeps sd _ _).2, h2]))
      refine key _ ?_ ?_
      · split
        · exact h1
        · exact h1
      · split
        · rfl
        · rfl
    | disconnected => cases sd with
      | client => exact Told.three (s := { s.add (.net .disconnected) with disc := true, sent := false }) h1 true rfl
      | session =>
        have h2 : Told .session (Wsc.deliver { s.add (.net .disconnected) with disc := true, sent := false } {}).log := Told.deliver (s := { s.add (.net .disconnected) with disc := true, sent := false }) h1 _ (fun _ => rfl)
        refine Told.fireOpt (s := { Wsc.deliver { s.add (.net .disconnected) with disc := true, sent := false } {} with clos := none }) h2 _ _ (.inr ?_)
        show lost .session (Wsc.deliver _ _).log = true
        rw [(deliver_keeps .session _ _).1]; rfl
    | violation p => cases sd with
      | client => exact Told.three (s := { (s.add (.net (.violation p))).add (.wroteClose p) with sent := true, disc := true }) h1 false rfl
      | session => exact h1
  | cap n => exact h
  | destroy id =>
    show Told sd (if id < s.next then _ else _ : St).log
    split
    · exact h
    · exact h
  | call c =>
    cases c with
    | connect =>
      cases sd with
      | session => exact h
      | client =>
        show Told .client (connect (s.begin .connect) s.next).log
        obtain ⟨rs, h1, h2⟩ := connect_log (s.begin .connect) s.next
        rw [h1]
        suffices Told .client (rs ++ (s.begin .connect).log) ∧ renewing (rs ++ (s.begin .connect).log) = true from this.1
        clear h1
        induction rs with
        | nil => exact ⟨h, rfl⟩
        | cons e rs ih =>
          obtain ⟨a, b⟩ := ih (fun x hx => h2 x (List.mem_cons_of_mem _ hx))
          obtain ⟨k, r, e1, h | h | h⟩ := h2 e List.mem_cons_self <;> subst e1 <;> subst h
          · exact ⟨⟨.inr b, a⟩, b⟩
          · exact ⟨⟨fun _ => .inr b, a⟩, b⟩
          · exact ⟨⟨.inr b, a⟩, b⟩
    | receive =>
      show Told sd (receive (s.begin .receive) s.next).log
      have hb : Told sd (s.begin .receive).log := h
      have lb : lost sd (s.begin .receive).log = s.disc := f.lost.symm
      unfold receive
      cases hp : (s.begin .receive).pending with
      | cons x xs =>
        refine Told.fire (s := { s.begin .receive with pending := xs }) hb _ _ (fun k => .inl ?_)
        show lost sd (s.begin .receive).log = true
        rw [lb]
        exact f.note x (by have : s.pending = x :: xs := hp; rw [this]; exact List.mem_cons_self) k
      | nil =>
        dsimp only
        split
        · rename_i hd
          exact Told.fire (s := s.begin .receive) hb _ _ (fun _ => .inl (by rw [lb]; exact hd))
        · cases hr : (s.begin .receive).recv with
          | some k => exact hb
          | none => exact hb
    | close a b =>
      show Told sd (closeAsync sd (s.begin (.close a b)) s.next a b).log
      have hb : Told sd (s.begin (.close a b)).log := h
      have lb : lost sd (s.begin (.close a b)).log = s.disc := f.lost.symm
      unfold closeAsync
      cases hc : (s.begin (.close a b)).clos with
      | some k => exact hb
      | none =>
        dsimp only
        split
        · rename_i hd
          exact Told.fire (s := s.begin (.close a b)) hb _ _ (.inr (by rw [lb]; exact hd))
        · cases Ws.messageClose a b with
          | none => exact hb
          | some m => exact hb

theorem Told.run (sd : Side) (is : List Input) : Told sd (run sd is).log := by
  unfold Wsc.run
  suffices ∀ s, All sd s → Told sd s.log → Told sd (is.foldl (Wsc.step sd) s).log from this _ (All.init sd) trivial
  induction is with
  | nil => exact fun s _ h => h
  | cons i is ih => exact fun s a h => ih _ (a.step i) (h.step a.f i)

/-! ### Close frames -/

def K (sd : Side) (s : St) : Prop := sd = .client ∨ Plain s.log → s.sent = decide (closes s.log ≠ 0)

theorem Plain.tail {e : Ev} {l : List Ev} (h : Plain (e :: l)) : Plain l :=
  ⟨fun p hp => h.1 p (List.mem_cons_of_mem _ hp), fun id a b hm => h.2 id a b (List.mem_cons_of_mem _ hm)⟩

theorem K.same {sd : Side} {s t : St} (k : K sd s) (hl : t.log = s.log ∨ ∃ e : Ev, (∀ l, closes (e :: l) = closes l) ∧ t.log = e :: s.log) (hs : t.sent = s.sent) : K sd t := by
  intro h
  rcases hl with e | ⟨x, hx, e⟩
  · rw [e, hs]; rw [e] at h; exact k h
  · rw [e, hs, hx]
    rw [e] at h
    exact k (h.imp id Plain.tail)

theorem K.fireOpt {sd : Side} {s : St} (k : K sd s) (w : Option Nat) (r : Result) : K sd (fireOpt s w r) := by
  refine k.same ?_ (fireOpt_fields s w r).2.2.2.2.2.2.1
  rcases fireOpt_log s w r with h | ⟨id, _, h⟩
  · exact .inl h
  · exact .inr ⟨_, fun _ => rfl, h⟩

theorem K.set {sd : Side} {s t : St} (k : K sd s) (h1 : t.log = s.log) (h2 : t.sent = s.sent) : K sd t := k.same (.inl h1) h2

theorem K.takes {sd : Side} {s : St} (k : K sd s) (r : Result) : K sd (takeConn s r) ∧ K sd (takeRecv s r) ∧ K sd (takeClos s r) :=
  ⟨K.fireOpt (k.set (t := { s with conn := none }) rfl rfl) _ _, K.fireOpt (k.set (t := { s with recv := none }) rfl rfl) _ _, K.fireOpt (k.set (t := { s with clos := none }) rfl rfl) _ _⟩

theorem K.deliver {sd : Side} {s : St} (k : K sd s) (f : Frame) : K sd (deliver s f) := by
  rcases deliver_cases s f with ⟨_, e⟩ | ⟨_, _, e⟩ | ⟨_, _, e⟩ <;> rw [e]
  · exact (k.takes _).2.1
  · exact k
  · exact k.set rfl rfl

theorem K.three {sd : Side} {s : St} (k : K sd s) (r1 r2 r3 : Result) : K sd (takeClos (takeRecv (takeConn s r1) r2) r3) :=
  (((k.takes r1).1.takes r2).2.1.takes r3).2.2

theorem K.step {sd : Side} {s : St} (k : K sd s) (i : Input) : K sd (step sd s i) := by
  cases i with
  | net n =>
    show K sd (onNet sd (s.add (.net n)) n)
    have add : (∀ l, closes (.net n :: l) = closes l) → K sd (s.add (.net n)) := fun h => k.same (.inr ⟨_, h, rfl⟩) rfl
    cases n with
    | connected => cases sd with
      | client => exact ((add (fun _ => rfl)).takes _).1
      | session => exact add (fun _ => rfl)
    | error => cases sd with
      | client => exact ((add (fun _ => rfl)).set (t := { s.add (.net .error) with disc := true }) rfl rfl).three _ _ _
      | session => exact add (fun _ => rfl)
    | message t p => exact (add (fun _ => rfl)).deliver _
    | ping p => exact (add (fun _ => rfl)).deliver _
    | pong p => exact (add (fun _ => rfl)).deliver _
    | closed p =>
      have key : K sd (if (s.add (.net (.closed p))).sent then s.add (.net (.closed p)) else { (s.add (.net (.closed p))).add (.wroteClose p) with sent := true }) := by
        split
        · exact add (fun _ => rfl)
        · intro _; simp [St.add, closes]
      exact ((key.deliver _).takes _).2.2
    | disconnected =>
      have key : K sd { s.add (.net .disconnected) with disc := true, sent := false } := by intro _; simp [St.add, closes]
      cases sd with
      | client => exact key.three _ _ _
      | session => exact ((key.deliver _).takes _).2.2
    | violation p => cases sd with
      | client =>
        have key : K .client { (s.add (.net (.violation p))).add (.wroteClose p) with sent := true, disc := true } := by intro _; simp [St.add, closes]
        exact key.three _ _ _
      | session =>
        intro h
        rcases h with h | h
        · cases h
        · exact absurd (by simp [onNet, onError, St.add]) (h.1 p)
  | cap n => exact k.same (.inr ⟨_, fun _ => rfl, rfl⟩) rfl
  | destroy id =>
    show K sd (if id < s.next then _ else _)
    split
    · exact k.same (.inr ⟨_, fun _ => rfl, rfl⟩) rfl
    · exact k
  | call c =>
    cases c with
    | connect =>
      cases sd with
      | session => exact k
      | client =>
        show K .client (connect (s.begin .connect) s.next)
        rw [connect_eq]
        refine K.set (s := takeConn { takeClos (takeRecv (s.begin .connect) (.frame {})) (.close false) with pending := [], disc := false, sent := false } (.connect false)) ?_ rfl rfl
        refine (K.takes ?_ _).1
        intro _
        have g : ∀ (u : St) (w : Option Nat) (r : Result), closes (Wsc.fireOpt u w r).log = closes u.log := by
          intro u w r
          rcases fireOpt_log u w r with h | ⟨id, _, h⟩ <;> rw [h]
          rfl
        dsimp only
        rw [takeClos, g]; dsimp only
        rw [takeRecv, g]
        simp [St.begin, St.add, closes]
    | receive =>
      show K sd (receive (s.begin .receive) s.next)
      have kb : K sd (s.begin .receive) := k.same (.inr ⟨_, fun _ => rfl, rfl⟩) rfl
      unfold receive
      cases hp : (s.begin .receive).pending with
      | cons x xs => exact K.fireOpt (kb.set (t := { s.begin .receive with pending := xs }) rfl rfl) (some s.next) (.frame x)
      | nil =>
        dsimp only
        split
        · exact kb.fireOpt (some s.next) (.frame {})
        · cases hr : (s.begin .receive).recv with
          | some _ => exact kb.same (.inr ⟨.threw s.next, fun _ => rfl, rfl⟩) rfl
          | none => exact kb.set rfl rfl
    | close a b =>
      show K sd (closeAsync sd (s.begin (.close a b)) s.next a b)
      have kb : K sd (s.begin (.close a b)) := k.same (.inr ⟨_, fun _ => rfl, rfl⟩) rfl
      unfold closeAsync
      cases hc : (s.begin (.close a b)).clos with
      | some _ => exact kb.same (.inr ⟨.threw s.next, fun _ => rfl, rfl⟩) rfl
      | none =>
        dsimp only
        split
        · exact kb.fireOpt (some s.next) (.close true)
        · cases hm : Ws.messageClose a b with
          | none =>
            cases sd with
            | client => exact kb.same (.inr ⟨.threw s.next, fun _ => rfl, rfl⟩) (by simp [throw_])
            | session =>
              intro h
              rcases h with h | h
              · cases h
              · exact absurd hm (h.2 s.next a b (by simp [throw_, St.begin, St.add]))
          | some m => intro _; simp [St.add, closes]

theorem K.run (sd : Side) (is : List Input) : K sd (run sd is) := by
  unfold Wsc.run
  suffices ∀ s, K sd s → K sd (is.foldl (Wsc.step sd) s) from this _ (fun _ => by simp [closes])
  induction is with
  | nil => exact fun s k => k
  | cons i is ih => exact fun s k => ih _ (k.step i)

end Verif.Wsc
