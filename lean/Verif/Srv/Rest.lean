import Verif.Srv.RespLemmas

/-! # Streams at rest

Between two inputs, on a live connection, every client stream in the table is active, and a response that is not
finished is blocked by a window. Shown function by function: each function touches one stream (`Fr`) and leaves that
stream in order. -/

namespace Verif.Srv
open Verif.Stream

variable {x : Ext}

/-- Only stream `sid` is touched. -/
structure Fr (sid : Nat) (c c' : Conn x) : Prop where
  find : ∀ k, k % 2 = 1 → k ≠ sid → c'.find k = c.find k
  frames : ∀ k, k ≠ sid → framesOn k c'.out = framesOn k c.out
  sendW : c'.sendW ≤ c.sendW
  maxF : c'.peerMaxFrame = c.peerMaxFrame

theorem Fr.refl (sid : Nat) (c : Conn x) : Fr sid c c := ⟨fun _ _ _ => rfl, fun _ _ => rfl, Int.le_refl _, rfl⟩

theorem Fr.trans {sid : Nat} {a b c : Conn x} (h : Fr sid a b) (k : Fr sid b c) : Fr sid a c :=
  ⟨fun j o e => (k.find j o e).trans (h.find j o e), fun j e => (k.frames j e).trans (h.frames j e), Int.le_trans k.sendW h.sendW,
    k.maxF.trans h.maxF⟩

theorem Fr.upd (sid : Nat) (c : Conn x) {f : SStream → SStream} (k : Keeps sid f) : Fr sid c (c.upd sid f) :=
  ⟨fun _ _ e => find_upd_other k e, fun _ _ => rfl, Int.le_refl _, rfl⟩

theorem Fr.withUpd {sid : Nat} (c : Conn x) {f : SStream → SStream} (k : ∀ s, (f s).id = s.id) : Fr sid c (c.upd sid f) :=
  Fr.upd sid c (keeps_with k)

theorem Fr.aux {sid : Nat} {c c' : Conn x} (h1 : c'.streams = c.streams) (h2 : c'.out = c.out) (h3 : c'.sendW = c.sendW)
    (h4 : c'.peerMaxFrame = c.peerMaxFrame) : Fr sid c c' :=
  ⟨fun _ _ _ => by unfold Conn.find; rw [h1], fun _ _ => by rw [h2], Int.le_of_eq h3, h4⟩

theorem Fr.erase (sid : Nat) (c : Conn x) : Fr sid c (c.erase sid) :=
  ⟨fun k _ e => by rw [find_erase, if_neg e], fun _ _ => rfl, Int.le_refl _, rfl⟩

/-- Something written that is no frame of another stream. -/
theorem Fr.emit {sid : Nat} (c : Conn x) {o : Out} (h : ∀ k, k ≠ sid → framesOn k [o] = []) : Fr sid c (c.emit o) :=
  ⟨fun _ _ _ => rfl, fun k e => by show framesOn k (c.out ++ [o]) = _; rw [framesOn_append, h k e, List.append_nil], Int.le_refl _, rfl⟩

theorem Fr.plain {sid : Nat} (c : Conn x) {o : Out} (h : Plain o = true) : Fr sid c (c.emit o) := Fr.emit c (fun k _ => framesOn_plain k h)

/-- What is true of the record of a stream: not reset by the client, reset by us only after its request was handed over,
and an unfinished response is blocked. -/
structure Core (F : Prop) (w : Int) (s : SStream) : Prop where
  rr : s.rstRecv = false
  rs : s.rstSent = true → s.dispatched = true
  le : s.offset ≤ s.body.length
  blk : F → s.endSent = false → s.pending = true ∧ s.offset < s.body.length ∧ (s.peerW ≤ 0 ∨ w ≤ 0)

/-- Stream `k`, if it is there, satisfies `P` and is in order. -/
def At (c : Conn x) (k : Nat) (P : SStream → Prop) : Prop :=
  ∀ s, c.find k = some s → Core (framesOn k c.out ≠ []) c.sendW s ∧ P s

abbrev Act1 (s : SStream) : Prop := isActive s = true
/-- Active, or closed with the response complete. -/
abbrev ActB (b : Bool) (s : SStream) : Prop := isActive s = true ∨ (b = true ∧ s.state = .closed ∧ s.endSent = true)
abbrev Act2 (s : SStream) : Prop := isActive s = true ∨ s.state = .closed

theorem Core.mono {F F' : Prop} {w w' : Int} {s : SStream} (h : Core F w s) (hf : F' → F) (hw : w' ≤ w) : Core F' w' s :=
  ⟨h.rr, h.rs, h.le, fun f e => by
    obtain ⟨a, b, c⟩ := h.blk (hf f) e
    exact ⟨a, b, by omega⟩⟩

theorem At.mono {c : Conn x} {k : Nat} {P Q : SStream → Prop} (h : At c k P) (hp : ∀ s, P s → Q s) : At c k Q :=
  fun s hs => ⟨(h s hs).1, hp s (h s hs).2⟩

theorem At.gone {c : Conn x} {k : Nat} {P : SStream → Prop} (h : c.find k = none) : At c k P := fun s hs => by rw [h] at hs; cases hs

theorem Fr.at {sid k : Nat} {c c' : Conn x} {P : SStream → Prop} (f : Fr sid c c') (ho : k % 2 = 1) (hk : k ≠ sid) (h : At c k P) : At c' k P := by
  intro s hs
  rw [f.find k ho hk] at hs
  refine ⟨(h s hs).1.mono ?_ f.sendW, (h s hs).2⟩
  rw [f.frames k hk]; exact id

/-- A step that changes neither the streams nor their frames. -/
theorem At.same {c c' : Conn x} {k : Nat} {P : SStream → Prop} (h : At c k P) (h1 : c'.find k = c.find k)
    (h2 : framesOn k c'.out = framesOn k c.out) (h3 : c'.sendW ≤ c.sendW) : At c' k P := by
  intro s hs
  rw [h1] at hs
  refine ⟨(h s hs).1.mono ?_ h3, (h s hs).2⟩
  rw [h2]; exact id

/-- An update of the record. -/
theorem At.upd {c : Conn x} {k : Nat} {P Q : SStream → Prop} {f : SStream → SStream} (h : At c k P) (hk : ∀ s, (f s).id = s.id)
    (hf : ∀ F w s, c.find k = some s → Core F w s → P s → Core F w (f s) ∧ Q (f s)) : At (c.upd k f) k Q := by
  intro s' hs'
  rcases find_upd_some hs' hk with ⟨_, t, ht, e⟩ | ⟨e, _⟩
  · subst e; exact hf _ _ t ht (h t ht).1 (h t ht).2
  · exact absurd rfl e

theorem Core.same {F : Prop} {w : Int} {s s' : SStream} (h : Core F w s)
    (e : (s'.rstRecv, s'.rstSent, s'.dispatched, s'.offset, s'.body, s'.endSent, s'.pending, s'.peerW) =
      (s.rstRecv, s.rstSent, s.dispatched, s.offset, s.body, s.endSent, s.pending, s.peerW)) : Core F w s' := by
  simp only [Prod.mk.injEq] at e
  obtain ⟨h1, h2, h3, h4, h5, h6, h7, h8⟩ := e
  refine ⟨by rw [h1]; exact h.rr, by rw [h2, h3]; exact h.rs, by rw [h4, h5]; exact h.le, ?_⟩
  rw [h4, h5, h6, h7, h8]; exact h.blk

/-! ## tryClose, sendRst, goaway -/

theorem tryClose_eq (c : Conn x) (sid : Nat) : (tryClose c sid).out = c.out ∧ (tryClose c sid).sendW = c.sendW ∧
    (tryClose c sid).peerMaxFrame = c.peerMaxFrame ∧
    ((tryClose c sid).streams = c.streams ∧ (∀ s, c.find sid = some s → s.state ≠ .closed) ∨ (tryClose c sid).streams = (c.erase sid).streams) := by
  unfold tryClose
  split
  · rename_i h; exact ⟨rfl, rfl, rfl, Or.inl ⟨rfl, fun s hs => by rw [h] at hs; cases hs⟩⟩
  · rename_i s hs
    split
    · simp only []
      split
      · split <;> exact ⟨rfl, rfl, rfl, Or.inr rfl⟩
      · split <;> exact ⟨rfl, rfl, rfl, Or.inr rfl⟩
    · rename_i h
      simp only [Bool.or_eq_true, beq_iff_eq, not_or] at h
      exact ⟨rfl, rfl, rfl, Or.inl ⟨rfl, fun t ht => by rw [hs] at ht; rw [← Option.some.inj ht]; exact h.1.1⟩⟩

theorem fr_tryClose (sid : Nat) (c : Conn x) : Fr sid c (tryClose c sid) := by
  obtain ⟨h1, h2, h3, h4⟩ := tryClose_eq c sid
  refine ⟨fun k ho e => ?_, fun _ _ => by rw [h1], Int.le_of_eq h2, h3⟩
  rcases h4 with ⟨h4, _⟩ | h4
  · unfold Conn.find; rw [h4]
  · have := (Fr.erase sid c).find k ho e
    unfold Conn.find at this ⊢; rw [h4]; exact this

theorem at_tryClose {c : Conn x} {sid : Nat} (h : At c sid Act2) : At (tryClose c sid) sid Act1 := by
  obtain ⟨h1, h2, h3, h4⟩ := tryClose_eq c sid
  rcases h4 with ⟨h4, h5⟩ | h4
  · have e : (tryClose c sid).find sid = c.find sid := by unfold Conn.find; rw [h4]
    intro s hs
    have hs' := hs
    rw [e] at hs'
    obtain ⟨k1, k2⟩ := At.same h e (by rw [h1]) (Int.le_of_eq h2) s hs
    exact ⟨k1, k2.resolve_right (h5 s hs')⟩
  · apply At.gone
    have : (c.erase sid).find sid = none := by rw [find_erase, if_pos rfl]
    unfold Conn.find at this ⊢; rw [h4]; exact this

theorem fr_sendRst (sid : Nat) (c : Conn x) (code : Nat) (b : Bool) : Fr sid c (sendRst c sid code b) := by
  unfold sendRst
  split
  · exact .refl _ _
  · simp only []
    have p0 : Fr sid c (c.emit (.rst sid code)) := .plain c rfl
    split
    · exact p0
    · rename_i s hs
      have p1 : Fr sid (c.emit (.rst sid code)) ((c.emit (.rst sid code)).upd sid (fun s => { s with state := .closed, rstSent := true, err := code })) :=
        .withUpd _ (fun _ => rfl)
      have p2 : ∀ (z : Bool) (d : Conn x), Fr sid d (if z = true then d.emit (.streamError sid code) else d) := fun z d => by
        split
        · exact .plain d rfl
        · exact .refl _ _
      have p3 : ∀ (d : Conn x), Fr sid d (if b = true then tryClose d sid else d) := fun d => by
        split
        · exact fr_tryClose _ _
        · exact .refl _ _
      exact ((p0.trans p1).trans (p2 _ _)).trans (p3 _)

theorem at_sendRst {c : Conn x} {sid code : Nat} {P : SStream → Prop} (ha : (sendRst c sid code).alive = true) : At (sendRst c sid code) sid P :=
  .gone (sendRst_find (Or.inl (alive_iff.mp (alive_path (path_sendRst c sid code true) ha)).2))

theorem fr_goaway (sid : Nat) (c : Conn x) (code : Nat) : Fr sid c (goaway c code) := by
  unfold goaway
  split
  · exact .refl _ _
  · simp only []
    refine ⟨fun _ _ _ => rfl, fun k _ => ?_, Int.le_refl _, rfl⟩
    show framesOn k ((c.out ++ [_]) ++ [_]) = _
    rw [framesOn_append, framesOn_append]; simp [framesOn]

theorem dead_at {c : Conn x} {k : Nat} {P : SStream → Prop} (h : c.alive = false) (ha : c.alive = true) : At c k P := by
  rw [h] at ha; cases ha

/-! ## Sending a body -/

/-- What the body loop leaves. -/
structure Pumped (s : SStream) (w : Int) (r : SStream × Int × List Out × Bool) : Prop where
  w : r.2.1 ≤ w
  outs : ∀ o ∈ r.2.2.1, ∃ d f, o = Out.data s.id d f
  same : (r.1.id, r.1.rstRecv, r.1.rstSent, r.1.dispatched, r.1.body, r.1.endRecv, r.1.isTrailers, r.1.hasTrailer) =
    (s.id, s.rstRecv, s.rstSent, s.dispatched, s.body, s.endRecv, s.isTrailers, s.hasTrailer)
  stop : r.2.2.2 = true → r.1.pending = true ∧ r.1.offset < s.body.length ∧ (r.1.peerW ≤ 0 ∨ r.2.1 ≤ 0) ∧ r.1.endSent = false ∧ r.1.state = s.state
  done : r.2.2.2 = false → r.1.offset = s.body.length ∧
    ((r.1.endSent = true ∧ r.1.state = .halfClosedLocal) ∨
      (r.1.endSent = false ∧ r.1.state = s.state ∧ (s.offset = s.body.length ∨ s.isTrailers = true)))

theorem pump_spec (b : Bool) (m : Nat) (hm : 0 < m) (n : Nat) (s : SStream) (w : Int) (hn : s.body.length - s.offset ≤ n) (hle : s.offset ≤ s.body.length)
    (he : s.endSent = false) : Pumped s w (pump b m n s w) := by
  induction n generalizing s w with
  | zero =>
    rw [pump]
    exact ⟨Int.le_refl _, by simp, rfl, fun h => (by cases h), fun _ => ⟨by show s.offset = _; omega, Or.inr ⟨he, rfl, Or.inl (by omega)⟩⟩⟩
  | succ n ih =>
    rw [pump]
    split
    · rename_i hlt
      split
      · rename_i hw
        simp only [Bool.or_eq_true, decide_eq_true_eq] at hw
        exact ⟨Int.le_refl _, by simp, rfl, fun _ => ⟨rfl, hlt, hw, he, rfl⟩, fun h => (by cases h)⟩
      · rename_i hw
        simp only [Bool.or_eq_true, decide_eq_true_eq, not_or] at hw
        simp only []
        generalize hk : min (s.body.length - s.offset) (min m (min s.peerW.toNat w.toNat)) = k at *
        have hk0 : 0 < k := by omega
        rw [if_neg (by simp; omega)]
        split
        · rename_i hf
          simp only [Bool.and_eq_true, beq_iff_eq] at hf
          exact ⟨by show w - (k : Int) ≤ w; omega, fun o ho => ⟨_, _, List.mem_singleton.mp ho⟩, rfl, fun h => (by cases h), fun _ => ⟨hf.1.1, Or.inl ⟨rfl, rfl⟩⟩⟩
        · rename_i hf
          simp only [he, Bool.and_false, Bool.not_false, Bool.and_true, Bool.and_eq_true, beq_iff_eq, Bool.not_eq_true'] at hf
          have h := ih { s with offset := s.offset + k, peerW := s.peerW - (k : Int) } (w - (k : Int)) (by
            show s.body.length - (s.offset + k) ≤ n
            omega) (by show s.offset + k ≤ s.body.length; omega) he
          refine ⟨Int.le_trans h.w (by omega), ?_, h.same, h.stop, fun e => ?_⟩
          · intro o ho
            rcases List.mem_cons.mp ho with e | e
            · exact ⟨_, _, e⟩
            · exact h.outs o e
          · obtain ⟨h1, h2⟩ := h.done e
            refine ⟨h1, ?_⟩
            rcases h2 with h2 | ⟨h2, h3, h4⟩
            · exact Or.inl h2
            · refine Or.inr ⟨h2, h3, Or.inr ?_⟩
              rcases h4 with h4 | h4
              · have h4 : s.offset + k = s.body.length := h4
                cases ht : s.isTrailers with
                | true => rfl
                | false => exact absurd ⟨h4, ht⟩ hf
              · exact h4
    · exact ⟨Int.le_refl _, by simp, rfl, fun h => (by cases h), fun _ => ⟨by show s.offset = _; omega, Or.inr ⟨he, rfl, Or.inl (by omega)⟩⟩⟩

theorem framesOn_datas {os : List Out} {sid k : Nat} (hk : k ≠ sid) (h : ∀ o ∈ os, ∃ d f, o = Out.data sid d f) : framesOn k os = [] := by
  induction os with
  | nil => rfl
  | cons o os ih =>
    obtain ⟨d, f, e⟩ := h o (List.mem_cons_self ..)
    subst e
    rw [framesOn, if_neg (fun e => hk e.symm)]
    exact ih (fun o ho => h o (List.mem_cons_of_mem _ ho))

theorem pump_outs (b : Bool) (m n : Nat) (s : SStream) (w : Int) :
    (pump b m n s w).2.1 ≤ w ∧ ∀ o ∈ (pump b m n s w).2.2.1, ∃ d f, o = Out.data s.id d f := by
  induction n generalizing s w with
  | zero => exact ⟨Int.le_refl _, fun o h => (by cases h)⟩
  | succ n ih =>
    rw [pump]
    split
    · split
      · exact ⟨Int.le_refl _, fun o h => (by cases h)⟩
      · simp only []
        split
        · exact ⟨Int.le_refl _, fun o h => (by cases h)⟩
        · generalize min (s.body.length - s.offset) (min m (min s.peerW.toNat w.toNat)) = k at *
          split
          · exact ⟨by show w - (k : Int) ≤ w; omega, fun o h => ⟨_, _, List.mem_singleton.mp h⟩⟩
          · have h := ih { s with offset := s.offset + k, peerW := s.peerW - (k : Int) } (w - (k : Int))
            refine ⟨Int.le_trans h.1 (by omega), fun o ho => ?_⟩
            rcases List.mem_cons.mp ho with e | e
            · exact ⟨_, _, e⟩
            · exact h.2 o e
    · exact ⟨Int.le_refl _, fun o h => (by cases h)⟩

theorem fr_runPump (c : Conn x) (b : Bool) (s : SStream) : Fr s.id c (runPump c b s).1 := by
  have h := pump_outs b c.peerMaxFrame (s.body.length - s.offset) s c.sendW
  have hid : (pump b c.peerMaxFrame (s.body.length - s.offset) s c.sendW).1.id = s.id := pump_id ..
  refine ⟨fun k _ e => ?_, fun k e => ?_, h.1, rfl⟩
  · exact find_upd_other (c := c) (sid := s.id) (fun _ _ => hid) e
  · show framesOn k (c.out ++ _) = _
    rw [framesOn_append, framesOn_datas e h.2, List.append_nil]

theorem runPump_find {c : Conn x} {b : Bool} {s : SStream} (hs : c.find s.id ≠ none) :
    (runPump c b s).1.find s.id = some (pump b c.peerMaxFrame (s.body.length - s.offset) s c.sendW).1 := by
  have hid : (pump b c.peerMaxFrame (s.body.length - s.offset) s c.sendW).1.id = s.id := pump_id ..
  cases h : c.find s.id with
  | none => exact absurd h hs
  | some t =>
    show (c.upd s.id _).find s.id = _
    rw [find_upd_same (c := c) (sid := s.id) (f := fun _ => (pump b c.peerMaxFrame (s.body.length - s.offset) s c.sendW).1) (fun _ _ => hid) h]

end Verif.Srv
