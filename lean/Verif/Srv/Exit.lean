import Verif.Srv.Rest8

/-! # How a stream leaves the table -/

namespace Verif.Srv
open Verif.Stream

variable {x : Ext}

/-- END_STREAM was written on the stream. -/
def Ended (c : Conn x) (sid : Nat) : Prop := ∃ o ∈ framesOn sid c.out, isFin o = true

theorem Ended.mono {a b : Conn x} {sid : Nat} {os : List Out} (h : Ended a sid) (e : b.out = a.out ++ os) : Ended b sid := by
  obtain ⟨o, ho, hf⟩ := h
  exact ⟨o, by rw [e, framesOn_append]; exact List.mem_append_left _ ho, hf⟩

theorem WasReset.mono {a b : Conn x} {sid : Nat} {os : List Out} (h : WasReset a sid) (e : b.out = a.out ++ os) : WasReset b sid := by
  obtain ⟨code, h⟩ := h
  exact ⟨code, by rw [e]; exact List.mem_append_left _ h⟩

/-- A stream that leaves the table in a small step was closed or reset, or the client sent GOAWAY. -/
theorem micro_gone {a b : Conn x} {l : List Lab} (m : Micro a l b) {j : Nat} (h : b.find j = none) :
    a.find j = none ∨ (∃ s, a.find j = some s ∧ (s.state == .closed || s.rstSent || s.rstRecv) = true) ∨ Lab.lost ∈ l := by
  have U : ∀ {c : Conn x} {sid : Nat} {f : SStream → SStream}, c.streams = a.streams → (c.upd sid f).find j = none → (∀ s, s.id = sid → (f s).id = s.id) → a.find j = none := by
    intro c sid f e h k
    rw [find_upd j (fun s hs => (k s hs).trans hs)] at h
    have hc' : ∀ i, c.find i = a.find i := fun i => by unfold Conn.find; rw [e]
    split at h
    · rename_i e; subst e; rw [hc'] at h; simpa using h
    · rw [hc'] at h; exact h
  cases m with
  | aux _ h1 h2 h3 h4 h5 h6 h7 h8 h9 _ => left; unfold Conn.find at h ⊢; rwa [h1] at h
  | erase sid hc =>
    rw [find_erase] at h
    split at h
    · rename_i e
      subst e
      cases hf : a.find j with
      | none => exact Or.inl rfl
      | some s => exact Or.inr (Or.inl ⟨s, rfl, hc s hf⟩)
    · exact Or.inl h
  | prune p hn => exact Or.inr (Or.inr (List.mem_singleton.mpr rfl))
  | soft sid f k hs hpo => exact Or.inl (U (c := a) rfl h (fun s e => (k s e).trans e.symm))
  | opened sid h1 h2 h3 h4 h5 =>
    left
    have h : (a.streams ++ [({ id := sid, peerW := a.initPeer } : SStream)]).find? (fun t => t.id == j) = none := h
    rw [find_append_list _ _ _ (by exact h3)] at h
    split at h
    · cases h
    · exact h
  | pushed sid parent h1 h2 h3 =>
    left
    have h : (a.streams ++ [({ id := sid, state := .reservedLocal, peerW := a.initPeer, parent := parent } : SStream)]).find? (fun t => t.id == j) = none := h
    rw [find_append_list _ _ _ (by exact h3)] at h
    split at h
    · cases h
    · exact h
  | data s k fin p hs hk hm hp hw ho he hf hf' hh hp' =>
    exact Or.inl (U (c := a) rfl h (fun t e => (by exact e.symm)))
  | setMax n _ => exact Or.inl h
  | plain o _ => exact Or.inl h
  | die code _ => exact Or.inl h
  | rstIn sid code => exact Or.inl (U (c := a) rfl h (fun _ _ => rfl))
  | ended sid => exact Or.inl (U (c := a) rfl h (fun _ _ => rfl))
  | rebody sid r b hb => exact Or.inl (U (c := a) rfl h (fun _ _ => rfl))
  | start sid r b s block hb hs he => exact Or.inl (U (c := a.emit (.headers sid block r.body.isEmpty)) rfl h (fun _ _ => rfl))
  | trail sid s hs he ho ht => exact Or.inl (U (c := a.emit (.headers sid [] true)) rfl h (fun _ _ => rfl))
  | recv n => exact Or.inl h
  | dataIn sid n d s hs he => exact Or.inl (U (c := { a with recvW := a.recvW - (n : Int) }) rfl h (fun _ _ => rfl))
  | credConn inc _ _ => exact Or.inl h
  | credKeep sid n p s hs hp _ => exact Or.inl (U (c := a) rfl h (fun _ _ => rfl))
  | credSend sid n p h0 s hs hp _ => exact Or.inl (U (c := { a with out := a.out ++ (if a.ok then [Out.windowUpdate sid p] else []) }) rfl h (fun _ _ => rfl))
  | grantConn inc _ => exact Or.inl h
  | grant sid inc s hs hp => exact Or.inl (U (c := a) rfl h (fun _ _ => rfl))
  | setInit new => exact Or.inl h
  | shift sid delta => exact Or.inl (U (c := a) rfl h (fun _ _ => rfl))
  | head sid hodd fs r cl hr => exact Or.inl (U (c := a) rfl h (fun _ _ => rfl))
  | trailers sid fs s hs hm hdrs ht => exact Or.inl (U (c := a) rfl h (fun _ _ => rfl))
  | request sid s hs hd h1 h2 h3 h4 h5 => exact Or.inl (U (c := a) (sid := sid) (f := fun s => { s with dispatched := true }) rfl h (fun _ _ => rfl))

/-- How the flags of a stream change in a small step. -/
structure Flags (a b : Conn x) (l : List Lab) (j : Nat) (t t' : SStream) : Prop where
  endSent : t'.endSent = true → t.endSent = true ∨ Ended b j
  rstSent : t'.rstSent = true → t.rstSent = true ∨ WasReset a j
  rstRecv : t'.rstRecv = true → t.rstRecv = true ∨ Lab.rstIn j ∈ l

theorem micro_flags {a b : Conn x} {l : List Lab} (m : Micro a l b) {j : Nat} {t' : SStream} (h : b.find j = some t') :
    (t'.endSent = false ∧ t'.rstSent = false ∧ t'.rstRecv = false) ∨ ∃ t, a.find j = some t ∧ Flags a b l j t t' := by
  have same : ∀ {t t' : SStream}, t'.endSent = t.endSent → t'.rstSent = t.rstSent → t'.rstRecv = t.rstRecv → Flags a b l j t t' := by
    intro t t' h1 h2 h3
    exact ⟨by rw [h1]; exact Or.inl, by rw [h2]; exact Or.inl, by rw [h3]; exact Or.inl⟩
  have keep : a.find j = some t' → (t'.endSent = false ∧ t'.rstSent = false ∧ t'.rstRecv = false) ∨ ∃ t, a.find j = some t ∧ Flags a b l j t t' :=
    fun h => Or.inr ⟨t', h, same rfl rfl rfl⟩
  have U : ∀ {c : Conn x} {sid : Nat} {f : SStream → SStream}, c.streams = a.streams → (c.upd sid f).find j = some t' → (∀ s, (f s).id = s.id) →
      (∀ t, a.find j = some t → sid = j → Flags a b l j t (f t)) →
      (t'.endSent = false ∧ t'.rstSent = false ∧ t'.rstRecv = false) ∨ ∃ t, a.find j = some t ∧ Flags a b l j t t' := by
    intro c sid f e h k q
    have hc' : ∀ i, c.find i = a.find i := fun i => by unfold Conn.find; rw [e]
    rcases find_upd_some h k with ⟨e, t, ht, et⟩ | ⟨e, ht⟩
    · rw [hc', ← e] at ht; rw [et]; exact Or.inr ⟨t, ht, q t ht e.symm⟩
    · rw [hc'] at ht; exact keep ht
  cases m with
  | aux _ h1 h2 h3 h4 h5 h6 h7 h8 h9 _ => apply keep; unfold Conn.find at h ⊢; rwa [h1] at h
  | erase sid hc => exact keep (find_erase_some h).2
  | prune p hn => exact keep (find_filter_some hn h).1
  | soft sid f k hs hpo =>
    rw [find_upd j k] at h
    split at h
    · rename_i e
      subst e
      cases hf : a.find j with
      | none => rw [hf] at h; cases h
      | some t =>
        rw [hf] at h
        have e := (Option.some.inj h).symm
        have q := hs t hf
        have qp := hpo t hf
        rw [e]
        exact Or.inr ⟨t, rfl, ⟨by rw [q.endSent]; exact Or.inl, qp.rstS, fun z => Or.inl (qp.rstR z)⟩⟩
    · exact keep h
  | opened sid h1 h2 h3 h4 h5 =>
    rcases find_app (c := a) (s := { id := sid, peerW := a.initPeer }) h3 h with ⟨e, et⟩ | ⟨e, ht⟩
    · subst et; exact Or.inl ⟨rfl, rfl, rfl⟩
    · exact keep ht
  | pushed sid parent h1 h2 h3 =>
    rcases find_app (c := a) (s := { id := sid, state := .reservedLocal, peerW := a.initPeer, parent := parent }) h3 h with ⟨e, et⟩ | ⟨e, ht⟩
    · subst et; exact Or.inl ⟨rfl, rfl, rfl⟩
    · exact keep ht
  | data s k fin p hs hk hm hp hw ho he hf hf' hh hp' =>
    have h' : (a.upd s.id (fun _ => { s with
              offset := s.offset + k
              peerW := s.peerW - (k : Int)
              endSent := s.endSent || fin
              state := if fin then .halfClosedLocal else s.state
              pending := p })).find j = some t' := h
    rcases find_updc_some hs (by rfl) h' with ⟨e, e'⟩ | ⟨_, e'⟩
    · subst e'
      subst e
      refine Or.inr ⟨s, hs, ⟨fun z => ?_, Or.inl, Or.inl⟩⟩
      have z : (s.endSent || fin) = true := z
      rw [Bool.or_eq_true] at z
      refine z.imp id (fun z => ⟨.data s.id ((s.body.drop s.offset).take k) fin, ?_, z⟩)
      show _ ∈ framesOn s.id (a.out ++ [_])
      rw [framesOn_append, framesOn_data]; simp
    · exact keep e'
  | setMax n _ => exact keep h
  | plain o _ => exact keep h
  | die code _ => exact keep h
  | rstIn sid code => exact U (c := a) rfl h (fun _ => rfl) (fun t _ e => ⟨Or.inl, Or.inl, fun _ => Or.inr (by rw [e]; exact List.mem_singleton.mpr rfl)⟩)
  | ended sid => exact U (c := a) rfl h (fun _ => rfl) (fun t _ e => same rfl rfl rfl)
  | rebody sid r b hb => exact U (c := a) rfl h (fun _ => rfl) (fun t _ e => same rfl rfl rfl)
  | start sid r b s block hb hs he =>
    refine U (c := a.emit (.headers sid block r.body.isEmpty)) rfl h (fun _ => rfl) (fun t _ e => ⟨fun z => ?_, Or.inl, Or.inl⟩)
    have z : (t.endSent || r.body.isEmpty) = true := z
    rw [Bool.or_eq_true] at z
    refine z.imp id (fun z => ⟨.headers sid block r.body.isEmpty, ?_, z⟩)
    show _ ∈ framesOn j (a.out ++ [_])
    rw [framesOn_append]; simp [framesOn, e]
  | trail sid s hs he ho ht =>
    refine U (c := a.emit (.headers sid [] true)) rfl h (fun _ => rfl) (fun t _ e => ⟨fun z => Or.inr ⟨.headers sid [] true, ?_, rfl⟩, Or.inl, Or.inl⟩)
    show _ ∈ framesOn j (a.out ++ [_])
    rw [framesOn_append]; simp [framesOn, e]
  | recv n => exact keep h
  | dataIn sid n d s hs he => exact U (c := { a with recvW := a.recvW - (n : Int) }) rfl h (fun _ => rfl) (fun t _ e => same rfl rfl rfl)
  | credConn inc _ _ => exact keep h
  | credKeep sid n p s hs hp _ => exact U (c := a) rfl h (fun _ => rfl) (fun t _ e => same rfl rfl rfl)
  | credSend sid n p h0 s hs hp _ => exact U (c := { a with out := a.out ++ (if a.ok then [Out.windowUpdate sid p] else []) }) rfl h (fun _ => rfl) (fun t _ e => same rfl rfl rfl)
  | grantConn inc _ => exact keep h
  | grant sid inc s hs hp => exact U (c := a) rfl h (fun _ => rfl) (fun t _ e => same rfl rfl rfl)
  | setInit new => exact keep h
  | shift sid delta => exact U (c := a) rfl h (fun _ => rfl) (fun t _ e => same rfl rfl rfl)
  | head sid hodd fs r cl hr => exact U (c := a) rfl h (fun _ => rfl) (fun t _ e => same rfl rfl rfl)
  | trailers sid fs s hs hm hdrs ht => exact U (c := a) rfl h (fun _ => rfl) (fun t _ e => same rfl rfl rfl)
  | request sid s hs hd h1 h2 h3 h4 h5 => exact U (c := a) (sid := sid) (f := fun s => { s with dispatched := true }) rfl h (fun _ => rfl) (fun t _ e => same rfl rfl rfl)

/-- How a client stream left the table. `X`: the client sent RST_STREAM for it, or GOAWAY. -/
structure Ex (c : Conn x) (sid : Nat) (X : Prop) : Prop where
  sent : ∀ s, c.find sid = some s → s.endSent = true → Ended c sid
  rst : ∀ s, c.find sid = some s → s.rstSent = true → WasReset c sid
  recv : ∀ s, c.find sid = some s → s.rstRecv = true → X
  gone : (framesOn sid c.out ≠ [] ∨ requestsOn sid c.out ≠ []) → c.find sid = none → Ended c sid ∨ WasReset c sid ∨ X

theorem Ex.mono {c : Conn x} {sid : Nat} {X Y : Prop} (h : Ex c sid X) (f : X → Y) : Ex c sid Y :=
  ⟨h.sent, h.rst, fun s hs hr => f (h.recv s hs hr), fun a b => (h.gone a b).imp id (Or.imp id f)⟩

theorem requestsOn_plain {o : Out} (sid : Nat) (h : Plain o = true) : requestsOn sid [o] = [] := by
  cases o <;> simp [Plain, requestsOn] at h ⊢

theorem Ex.micro {a b : Conn x} {l : List Lab} {sid : Nat} {X : Prop} (m : Micro a l b) (hi : Inv0 a) (h : Ex a sid X) 
    (hx : (Lab.rstIn sid ∈ l ∨ Lab.lost ∈ l) → X) : Ex b sid X := by
  obtain ⟨os, eo, w⟩ := micro_out m
  refine ⟨fun s hs he => ?_, fun s hs he => ?_, fun s hs he => ?_, fun hf hn => ?_⟩
  · rcases micro_flags m hs with ⟨e, _⟩ | ⟨t, ht, f⟩
    · rw [e] at he; cases he
    · rcases f.endSent he with k | k
      · exact (h.sent t ht k).mono eo
      · exact k
  · rcases micro_flags m hs with ⟨_, e, _⟩ | ⟨t, ht, f⟩
    · rw [e] at he; cases he
    · rcases f.rstSent he with k | k
      · exact (h.rst t ht k).mono eo
      · exact k.mono eo
  · rcases micro_flags m hs with ⟨_, _, e⟩ | ⟨t, ht, f⟩
    · rw [e] at he; cases he
    · rcases f.rstRecv he with k | k
      · exact h.recv t ht k
      · exact hx (Or.inl k)
  · rcases micro_gone m hn with k | ⟨s, hs, k⟩ | k
    · have hf' : framesOn sid a.out ≠ [] ∨ requestsOn sid a.out ≠ [] := by
        have z : framesOn sid os = [] ∧ requestsOn sid os = [] := by
          cases w with
          | nothing => exact ⟨rfl, rfl⟩
          | plain o ho => exact ⟨framesOn_plain sid ho, requestsOn_plain sid ho⟩
          | goaway code ha hb => exact ⟨rfl, rfl⟩
          | data j d fin s hs =>
            have : j ≠ sid := fun e => by subst e; rw [k] at hs; cases hs
            simp [framesOn, requestsOn, this]
          | headers j d fin s hs =>
            have : j ≠ sid := fun e => by subst e; rw [k] at hs; cases hs
            simp [framesOn, requestsOn, this]
          | window j inc hi ha => exact ⟨rfl, rfl⟩
          | request j s hs hd h1 h2 h3 h4 h5 hb =>
            have : j ≠ sid := fun e => by subst e; rw [k] at hs; cases hs
            simp [framesOn, requestsOn, this]
        rw [eo, framesOn_append, requestsOn_append, z.1, z.2, List.append_nil, List.append_nil] at hf
        exact hf
      rcases h.gone hf' k with k | k | k
      · exact Or.inl (k.mono eo)
      · exact Or.inr (Or.inl (k.mono eo))
      · exact Or.inr (Or.inr k)
    · have ok := hi.state _ _ hs
      simp only [Bool.or_eq_true, beq_iff_eq] at k
      have q : s.rstSent = true ∨ s.rstRecv = true ∨ s.endSent = true := by
        rcases k with (k | k) | k
        · rcases ok.closed k with k | k | k
          · exact Or.inl k
          · exact Or.inr (Or.inl k)
          · exact Or.inr (Or.inr k.1)
        · exact Or.inl k
        · exact Or.inr (Or.inl k)
      rcases q with q | q | q
      · exact Or.inr (Or.inl ((h.rst s hs q).mono eo))
      · exact Or.inr (Or.inr (h.recv s hs q))
      · exact Or.inl ((h.sent s hs q).mono eo)
    · exact Or.inr (Or.inr (hx (Or.inr k)))

theorem Ex.path {a b : Conn x} {l : List Lab} {sid : Nat} {X : Prop} (p : Path a l b) (hi : Inv0 a) (h : Ex a sid X)
    (hx : (Lab.rstIn sid ∈ l ∨ Lab.lost ∈ l) → X) : Ex b sid X := by
  induction p with
  | refl _ => exact h
  | step m _ ih =>
    refine ih (hi.micro m) (h.micro m hi (fun k => hx ?_)) (fun k => hx ?_)
    · exact k.imp (List.mem_append_left _) (List.mem_append_left _)
    · exact k.imp (List.mem_append_right _) (List.mem_append_right _)

/-- The client sent RST_STREAM for the stream, or GOAWAY. -/
def Input.leaves (sid : Nat) : Input → Bool
  | .rst j _ => j == sid
  | .goaway _ _ => true
  | _ => false

end Verif.Srv
