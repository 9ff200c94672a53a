import Verif.Srv.OutLemmas

/-! # The frames of one response -/

namespace Verif.Srv
open Verif.Stream

variable {x : Ext}

/-- The responses to stream `sid` among the labels. -/
def resps (sid : Nat) : List Lab → List Response
  | [] => []
  | .resp j r :: ls => if j = sid then r :: resps sid ls else resps sid ls
  | _ :: ls => resps sid ls

theorem resps_append (sid : Nat) (a b : List Lab) : resps sid (a ++ b) = resps sid a ++ resps sid b := by
  induction a with
  | nil => rfl
  | cons y a ih => cases y <;> simp only [List.cons_append, resps, ih]; split <;> simp

theorem framesOn_plain {o : Out} (sid : Nat) (h : Plain o = true) : framesOn sid [o] = [] := by
  cases o <;> simp [Plain, framesOn] at h ⊢

/-- What the record of the stream says about the frames sent so far. -/
structure Live (r : Response) (fs : List Out) (s : SStream) : Prop where
  body : s.body = r.body
  le : s.offset ≤ s.body.length
  sofar : payload fs = r.body.take s.offset
  has : s.hasTrailer = announces r
  isT : s.isTrailers = true → announces r = true
  open_ : s.endSent = false → ∀ o ∈ fs, isFin o = false

structure RI (c : Conn x) (sid : Nat) (rs : List Response) : Prop where
  pend : ∀ s, c.find sid = some s → (s.pending = true ∨ s.isTrailers = true) → framesOn sid c.out ≠ []
  fresh : c.lastClient < sid → framesOn sid c.out = [] ∧ c.find sid = none
  none : rs = [] → framesOn sid c.out = []
  one : ∀ r, rs = [r] → framesOn sid c.out = [] ∨
    (Answer sid r (framesOn sid c.out) ∧ ∀ s, c.find sid = some s → Live r (framesOn sid c.out) s)

/-- What a step that sends nothing on the stream may do to its record. -/
structure Quiet (F : Prop) (s s' : SStream) : Prop where
  body : s'.body = s.body
  offset : s'.offset = s.offset
  has : s'.hasTrailer = s.hasTrailer
  endSent : s'.endSent = s.endSent
  pending : s'.pending = true → s.pending = true ∨ F
  isT : s'.isTrailers = true → s.isTrailers = true ∨ (s.hasTrailer = true ∧ F)

theorem Quiet.same {F : Prop} (s s' : SStream)
    (h : (s'.body, s'.offset, s'.hasTrailer, s'.endSent, s'.pending, s'.isTrailers) = (s.body, s.offset, s.hasTrailer, s.endSent, s.pending, s.isTrailers)) :
    Quiet F s s' := by
  simp only [Prod.mk.injEq] at h
  obtain ⟨h1, h2, h3, h4, h5, h6⟩ := h
  exact ⟨h1, h2, h3, h4, by rw [h5]; exact Or.inl, by rw [h6]; exact Or.inl⟩

theorem Live.quiet {r : Response} {fs : List Out} {F : Prop} {s s' : SStream} (h : Live r fs s) (q : Quiet F s s') : Live r fs s' := by
  refine ⟨q.body.trans h.body, by rw [q.offset, q.body]; exact h.le, by rw [q.offset]; exact h.sofar, q.has.trans h.has,
    fun e => ?_, by rw [q.endSent]; exact h.open_⟩
  rcases q.isT e with e | ⟨e, _⟩
  · exact h.isT e
  · exact h.has.symm.trans e

theorem RI.quiet {a b : Conn x} {sid : Nat} {rs : List Response} (h : RI a sid rs)
    (hf : framesOn sid b.out = framesOn sid a.out) (hl : b.lastClient < sid → a.lastClient < sid)
    (hs : ∀ s', b.find sid = some s' →
      (framesOn sid a.out = [] ∧ s'.pending = false ∧ s'.isTrailers = false ∧ ¬ b.lastClient < sid) ∨
      ∃ s, a.find sid = some s ∧ Quiet (framesOn sid a.out ≠ []) s s') : RI b sid rs := by
  refine ⟨fun s' hs' hp => ?_, fun hl' => ?_, fun e => hf.trans (h.none e), fun r e => ?_⟩
  · rw [hf]
    rcases hs s' hs' with ⟨_, h1, h2, _⟩ | ⟨s, hsa, q⟩
    · rw [h1, h2] at hp; simp at hp
    · rcases hp with hp | hp
      · rcases q.pending hp with k | k
        · exact h.pend s hsa (Or.inl k)
        · exact k
      · rcases q.isT hp with k | ⟨_, k⟩
        · exact h.pend s hsa (Or.inr k)
        · exact k
  · obtain ⟨h1, h2⟩ := h.fresh (hl hl')
    refine ⟨hf.trans h1, ?_⟩
    cases hb : b.find sid with
    | none => rfl
    | some s' =>
      rcases hs s' hb with ⟨_, _, _, k⟩ | ⟨s, hsa, _⟩
      · exact absurd hl' k
      · rw [h2] at hsa; cases hsa
  · rcases h.one r e with k | ⟨k1, k2⟩
    · exact Or.inl (hf.trans k)
    · rcases hfa : framesOn sid a.out with _ | ⟨o, os⟩
      · exact Or.inl (hf.trans hfa)
      · refine Or.inr ⟨by rw [hf]; exact k1, fun s' hs' => ?_⟩
        rw [hf]
        rcases hs s' hs' with ⟨k, _⟩ | ⟨s, hsa, q⟩
        · rw [k] at hfa; cases hfa
        · exact (k2 s hsa).quiet q

theorem framesOn_data (sid : Nat) (d : Bytes) (f : Bool) : framesOn sid [.data sid d f] = [.data sid d f] := by simp [framesOn]

/-- A DATA frame goes out. -/
theorem Answer.data {sid : Nat} {r : Response} {fs : List Out} {s : SStream} {k : Nat} {fin : Bool} (h : Answer sid r fs) (l : Live r fs s)
    (hk : 0 < k) (ho : s.offset + k ≤ s.body.length) (he : s.endSent = false) (hf : fin = true → s.offset + k = s.body.length)
    (hf' : s.offset + k = s.body.length → s.isTrailers = false → fin = true) :
    Answer sid r (fs ++ [.data sid ((s.body.drop s.offset).take k) fin]) ∧ payload (fs ++ [.data sid ((s.body.drop s.offset).take k) fin]) = r.body.take (s.offset + k) := by
  have hb := l.body
  have e : payload (fs ++ [.data sid ((s.body.drop s.offset).take k) fin]) = r.body.take (s.offset + k) := by
    rw [payload_append, l.sofar, ← hb, List.take_add]
    simp [payload]
  have hle : s.offset + k ≤ r.body.length := by rw [← hb]; exact ho
  refine ⟨⟨?_, ?_, ?_, ?_⟩, e⟩
  · obtain ⟨block, rest, e1, e2⟩ := h.shape
    refine ⟨block, rest ++ [.data sid ((s.body.drop s.offset).take k) fin], by rw [e1]; rfl, fun o ho' => ?_⟩
    rcases List.mem_append.mp ho' with k' | k'
    · exact e2 o k'
    · rw [List.mem_singleton] at k'
      refine Or.inl ⟨_, _, k', fun e' => ?_⟩
      have := congrArg List.length e'
      rw [List.length_take, List.length_drop, List.length_nil] at this
      omega
  · rw [e]; exact List.take_prefix _ _
  · intro pre o post e1 e2
    rcases List.eq_nil_or_concat post with hp | ⟨q, z, hp⟩
    · subst hp
      refine ⟨rfl, ?_⟩
      have := List.append_inj_right' e1 rfl
      cases this
      rw [e, hf e2, hb, List.take_length]
    · rw [List.concat_eq_append] at hp
      subst hp
      have e3 : fs ++ [Out.data sid ((s.body.drop s.offset).take k) fin] = (pre ++ o :: q) ++ [z] := by rw [e1]; simp
      have e4 := List.append_inj_left' e3 rfl
      have := l.open_ he o (by rw [e4]; simp)
      rw [this] at e2; cases e2
  · intro hn hp
    refine ⟨_, List.mem_append_right _ (List.mem_singleton.mpr rfl), hf' ?_ ?_⟩
    · rw [e] at hp
      have := congrArg List.length hp
      rw [List.length_take] at this
      rw [hb]; omega
    · cases ht : s.isTrailers with
      | false => rfl
      | true => rw [l.isT ht] at hn; cases hn

theorem Answer.trail {sid : Nat} {r : Response} {fs : List Out} {s : SStream} (h : Answer sid r fs) (l : Live r fs s)
    (he : s.endSent = false) (ho : s.offset = s.body.length) (ht : s.isTrailers = true) :
    Answer sid r (fs ++ [.headers sid [] true]) := by
  have e : payload (fs ++ [.headers sid [] true]) = r.body := by
    rw [payload_append, l.sofar, ho, l.body, List.take_length]; simp [payload]
  refine ⟨?_, ?_, ?_, ?_⟩
  · obtain ⟨block, rest, e1, e2⟩ := h.shape
    refine ⟨block, rest ++ [.headers sid [] true], by rw [e1]; rfl, fun o ho' => ?_⟩
    rcases List.mem_append.mp ho' with k' | k'
    · exact e2 o k'
    · exact Or.inr ⟨List.mem_singleton.mp k', l.isT ht⟩
  · rw [e]; exact List.prefix_refl _
  · intro pre o post e1 e2
    rcases List.eq_nil_or_concat post with hp | ⟨q, z, hp⟩
    · exact ⟨hp, e⟩
    · rw [List.concat_eq_append] at hp
      subst hp
      have e3 : fs ++ [Out.headers sid [] true] = (pre ++ o :: q) ++ [z] := by rw [e1]; simp
      have e4 := List.append_inj_left' e3 rfl
      have := l.open_ he o (by rw [e4]; simp)
      rw [this] at e2; cases e2
  · intro hn _
    rw [l.isT ht] at hn; cases hn

theorem Answer.start (sid : Nat) (r : Response) (block : Bytes) : Answer sid r [.headers sid block r.body.isEmpty] := by
  refine ⟨⟨block, [], rfl, by simp⟩, by simp [payload], fun pre o post e1 e2 => ?_, fun _ hp => ?_⟩
  · cases pre with
    | nil =>
      simp only [List.nil_append, List.cons.injEq] at e1
      obtain ⟨e1, e3⟩ := e1
      subst e1
      refine ⟨e3.symm, ?_⟩
      have : r.body.isEmpty = true := e2
      rw [List.isEmpty_iff] at this
      rw [this]; rfl
    | cons p pre =>
      have := congrArg List.length e1
      simp at this
  · refine ⟨_, List.mem_singleton.mpr rfl, ?_⟩
    have : r.body = [] := hp.symm
    show r.body.isEmpty = true
    rw [this]; rfl

theorem RI.micro {a b : Conn x} {l : List Lab} {sid : Nat} {rs : List Response} (m : Micro a l b) (ho : sid % 2 = 1)
    (hi : Inv0 a) (h : RI a sid rs) : RI b sid (rs ++ resps sid l) := by
  have nl : ∀ {b : Conn x} {l}, resps sid l = [] → RI b sid rs → RI b sid (rs ++ resps sid l) := fun e k => by rw [e, List.append_nil]; exact k
  have keep : ∀ {b : Conn x} {l : List Lab}, resps sid l = [] → framesOn sid b.out = framesOn sid a.out →
      b.lastClient = a.lastClient → (∀ s', b.find sid = some s' → a.find sid = some s') → RI b sid (rs ++ resps sid l) := by
    intro b l e hf hl hs
    exact nl e (h.quiet hf (by rw [hl]; exact id) (fun s' hs' => Or.inr ⟨s', hs s' hs', .same _ _ rfl⟩))
  have U : ∀ {c : Conn x} {l : List Lab} {j : Nat} {f : SStream → SStream}, resps sid l = [] → c.streams = a.streams →
      framesOn sid c.out = framesOn sid a.out → c.lastClient = a.lastClient → (∀ s, (f s).id = s.id) →
      (∀ s, a.find sid = some s → Quiet (framesOn sid a.out ≠ []) s (f s)) → RI (c.upd j f) sid (rs ++ resps sid l) := by
    intro c l j f e hc hf hl k q
    refine nl e (h.quiet hf (by intro hh; rw [← hl]; exact hh) (fun s' hs' => Or.inr ?_))
    have hc' : ∀ i, c.find i = a.find i := fun i => by unfold Conn.find; rw [hc]
    rcases find_upd_some hs' k with ⟨e, t, ht, et⟩ | ⟨e, ht⟩
    · rw [hc', ← e] at ht; rw [et]; exact ⟨t, ht, q t ht⟩
    · rw [hc'] at ht; exact ⟨s', ht, .same _ _ rfl⟩
  have app : ∀ os, framesOn sid os = [] → framesOn sid (a.out ++ os) = framesOn sid a.out := fun os e => by
    rw [framesOn_append, e, List.append_nil]
  cases m with
  | aux _ h1 h2 h3 h4 h5 h6 h7 h8 h9 _ =>
    exact keep rfl (by rw [h6]) h7 (fun s' hs' => by unfold Conn.find at hs' ⊢; rwa [h1] at hs')
  | setMax n _ => exact keep rfl rfl rfl (fun _ h => h)
  | ended j => exact U (c := a) rfl rfl rfl rfl (fun _ => rfl) (fun s _ => .same _ _ rfl)
  | rstIn j code => exact U (c := a) rfl rfl rfl rfl (fun _ => rfl) (fun s _ => .same _ _ rfl)
  | plain o hp => exact keep rfl (app _ (framesOn_plain sid hp)) rfl (fun _ h => h)
  | die code _ => exact keep rfl (app _ rfl) rfl (fun _ h => h)
  | erase j => exact keep rfl rfl rfl (fun _ h => (find_erase_some h).2)
  | prune p hn => exact keep rfl rfl rfl (fun _ h => (find_filter_some hn h).1)
  | soft j f k hs hpo =>
    refine nl rfl (h.quiet rfl id (fun s' hs' => Or.inr ?_))
    rw [find_upd sid k] at hs'
    split at hs'
    · rename_i e
      subst e
      cases hfj : a.find sid with
      | none => rw [hfj] at hs'; cases hs'
      | some t =>
        rw [hfj] at hs'
        have e' := (Option.some.inj hs').symm
        have q := hs t hfj
        have qp := hpo t hfj
        rw [e']
        exact ⟨t, rfl, ⟨q.body, q.offset, q.has, q.endSent, qp.pending, qp.isT⟩⟩
    · exact ⟨s', hs', .same _ _ rfl⟩
  | opened j h1 h2 h3 h4 h5 =>
    refine nl rfl (h.quiet rfl (fun hl => by have hl : j < sid := hl; omega) (fun s' hs' => ?_))
    rcases find_app (c := a) (s := { id := j, peerW := a.initPeer }) h3 hs' with ⟨e, et⟩ | ⟨e, ht⟩
    · have e : sid = j := e
      subst e; subst et
      exact Or.inl ⟨(h.fresh h2).1, rfl, rfl, by show ¬ sid < sid; omega⟩
    · exact Or.inr ⟨s', ht, .same _ _ rfl⟩
  | pushed j parent h1 h2 h3 =>
    refine keep rfl rfl rfl (fun s' hs' => ?_)
    rcases find_app (c := a) (s := { id := j, state := .reservedLocal, peerW := a.initPeer, parent := parent }) h3 hs' with ⟨e, et⟩ | ⟨e, ht⟩
    · have e : sid = j := e
      omega
    · exact ht
  | data s k fin p hs hk hm hp hw hol he hf hf' hh hp' =>
    by_cases e : s.id = sid
    · subst e
      have he := he (hi.state _ _ hs)
      have hf' := hf' (hi.state _ _ hs)
      have hne : framesOn s.id a.out ≠ [] := by
        rcases hh with hh | hh
        · exact h.pend s hs (Or.inl hh)
        · exact hh
      have ef : framesOn s.id (a.out ++ [.data s.id ((s.body.drop s.offset).take k) fin]) =
        framesOn s.id a.out ++ [.data s.id ((s.body.drop s.offset).take k) fin] := by rw [framesOn_append, framesOn_data]
      refine nl rfl ⟨fun s' _ _ => ?_, fun hl => ?_, fun e => absurd (h.none e) hne, fun r er => ?_⟩
      · show framesOn s.id (a.out ++ _) ≠ []
        rw [ef]; simp
      · have := (h.fresh hl).2; rw [hs] at this; cases this
      · rcases h.one r er with k' | ⟨k1, k2⟩
        · exact absurd k' hne
        · have lv := k2 s hs
          obtain ⟨a1, a2⟩ := k1.data lv hk hol he hf hf'
          have lv' : Live r (framesOn s.id (a.out ++ [.data s.id ((s.body.drop s.offset).take k) fin])) { s with
              offset := s.offset + k
              peerW := s.peerW - (k : Int)
              endSent := s.endSent || fin
              state := if fin then .halfClosedLocal else s.state
              pending := p } := by
            rw [ef]
            refine ⟨lv.body, hol, a2, lv.has, lv.isT, fun e o ho' => ?_⟩
            have e : (s.endSent || fin) = false := e
            rw [Bool.or_eq_false_iff] at e
            rcases List.mem_append.mp ho' with z | z
            · exact lv.open_ e.1 o z
            · rw [List.mem_singleton] at z; subst z; exact e.2
          refine Or.inr ⟨?_, fun s' hs' => ?_⟩
          · show Answer s.id r (framesOn s.id (a.out ++ _))
            rw [ef]; exact a1
          · have h' : (a.upd s.id (fun _ => { s with
              offset := s.offset + k
              peerW := s.peerW - (k : Int)
              endSent := s.endSent || fin
              state := if fin then .halfClosedLocal else s.state
              pending := p })).find s.id = some s' := hs'
            rcases find_updc_some hs (by rfl) h' with ⟨_, e'⟩ | ⟨e', _⟩
            · subst e'; exact lv'
            · exact absurd rfl e'
    · refine nl rfl (h.quiet (app _ ?_) id (fun s' hs' => Or.inr ⟨s', ?_, .same _ _ rfl⟩))
      · simp [framesOn, e]
      · have h' : (a.upd s.id (fun _ => { s with
              offset := s.offset + k
              peerW := s.peerW - (k : Int)
              endSent := s.endSent || fin
              state := if fin then .halfClosedLocal else s.state
              pending := p })).find sid = some s' := hs'
        rcases find_updc_some hs (by rfl) h' with ⟨e', _⟩ | ⟨_, e'⟩
        · exact absurd e'.symm e
        · exact e'
  | rebody j r' b hb =>
    by_cases e : j = sid
    · subst e
      have el : resps j [Lab.resp j r'] = [r'] := by simp [resps]
      have hfind : ∀ s', (a.upd j (fun s => { s with body := r'.body, offset := 0, hasTrailer := b })).find j = some s' →
          ∃ s, a.find j = some s ∧ s'.pending = s.pending ∧ s'.isTrailers = s.isTrailers := by
        intro s' hs'
        rcases find_upd_some hs' (fun _ => rfl) with ⟨_, t, ht, et⟩ | ⟨e', _⟩
        · subst et; exact ⟨t, ht, rfl, rfl⟩
        · exact absurd rfl e'
      rw [el]
      refine ⟨fun s' hs' hp => ?_, fun hl => ?_, fun e => by simp at e, fun r er => ?_⟩
      · obtain ⟨s, hs, e1, e2⟩ := hfind s' hs'
        rw [e1, e2] at hp
        exact h.pend s hs hp
      · obtain ⟨h1, h2⟩ := h.fresh hl
        exact ⟨h1, find_upd_none (keeps_with (f := fun s => { s with body := r'.body, offset := 0, hasTrailer := b }) (fun _ => rfl)) h2⟩
      · cases rs with
        | nil => exact Or.inl (h.none rfl)
        | cons q qs => have := congrArg List.length er; simp at this
    · have el : resps sid [Lab.resp j r'] = [] := by simp [resps, e]
      refine nl el (h.quiet rfl id (fun s' hs' => Or.inr ⟨s', ?_, .same _ _ rfl⟩))
      rcases find_upd_some hs' (fun _ => rfl) with ⟨e', _⟩ | ⟨_, ht⟩
      · exact absurd e'.symm e
      · exact ht
  | start j r' b s block hb hs he =>
    by_cases e : j = sid
    · subst e
      have el : resps j [Lab.resp j r'] = [r'] := by simp [resps]
      have ef : framesOn j (a.out ++ [.headers j block r'.body.isEmpty]) = framesOn j a.out ++ [.headers j block r'.body.isEmpty] := by
        rw [framesOn_append]; simp [framesOn]
      rw [el]
      refine ⟨fun s' hs' hp => ?_, fun hl => ?_, fun e => by simp at e, fun r er => ?_⟩
      · show framesOn j (a.out ++ _) ≠ []
        rw [ef]; simp
      · have := (h.fresh hl).2; rw [hs] at this; cases this
      · cases rs with
        | cons q qs => have := congrArg List.length er; simp at this
        | nil =>
          have er : r = r' := by simpa using er.symm
          subst er
          have e0 := h.none rfl
          rw [e0, List.nil_append] at ef
          refine Or.inr ⟨?_, fun s' hs' => ?_⟩
          · show Answer j r (framesOn j (a.out ++ _))
            rw [ef]; exact Answer.start _ _ _
          · show Live r (framesOn j (a.out ++ _)) s'
            rw [ef]
            rcases find_upd_some (c := a.emit (.headers j block r.body.isEmpty)) hs' (fun _ => rfl) with ⟨_, t, ht, et⟩ | ⟨e', _⟩
            · have ht : a.find j = some t := ht
              subst et
              refine ⟨rfl, by simp, by simp [payload], hb, fun hT => ?_, fun hE o ho' => ?_⟩
              · exact absurd e0 (h.pend t ht (Or.inr hT))
              · have hE : (t.endSent || r.body.isEmpty) = false := hE
                rw [Bool.or_eq_false_iff] at hE
                rw [List.mem_singleton] at ho'; subst ho'; exact hE.2
            · exact absurd rfl e'
    · have el : resps sid [Lab.resp j r'] = [] := by simp [resps, e]
      refine nl el (h.quiet (app _ (by simp [framesOn, e])) id (fun s' hs' => Or.inr ⟨s', ?_, .same _ _ rfl⟩))
      rcases find_upd_some (c := a.emit (.headers j block r'.body.isEmpty)) hs' (fun _ => rfl) with ⟨e', _⟩ | ⟨_, ht⟩
      · exact absurd e'.symm e
      · exact ht
  | trail j s hs he hol ht =>
    by_cases e : j = sid
    · subst e
      have ef : framesOn j (a.out ++ [.headers j [] true]) = framesOn j a.out ++ [.headers j [] true] := by
        rw [framesOn_append]; simp [framesOn]
      have hne := h.pend s hs (Or.inr ht)
      refine nl rfl ⟨fun s' hs' hp => ?_, fun hl => ?_, fun e => absurd (h.none e) hne, fun r er => ?_⟩
      · show framesOn j (a.out ++ _) ≠ []
        rw [ef]; simp
      · have := (h.fresh hl).2; rw [hs] at this; cases this
      · rcases h.one r er with k' | ⟨k1, k2⟩
        · exact absurd k' hne
        · have lv := k2 s hs
          refine Or.inr ⟨?_, fun s' hs' => ?_⟩
          · show Answer j r (framesOn j (a.out ++ _))
            rw [ef]; exact k1.trail lv he hol ht
          · show Live r (framesOn j (a.out ++ _)) s'
            rw [ef]
            rcases find_upd_some (c := a.emit (.headers j [] true)) hs' (fun _ => rfl) with ⟨_, t, ht', et⟩ | ⟨e', _⟩
            · have ht' : a.find j = some t := ht'
              have : t = s := Option.some.inj (ht'.symm.trans hs)
              subst this
              subst et
              refine ⟨lv.body, lv.le, ?_, lv.has, fun z => (by cases z), fun z => (by cases z)⟩
              rw [payload_append, lv.sofar]; simp [payload]
            · exact absurd rfl e'
    · refine nl rfl (h.quiet (app _ (by simp [framesOn, e])) id (fun s' hs' => Or.inr ⟨s', ?_, .same _ _ rfl⟩))
      rcases find_upd_some (c := a.emit (.headers j [] true)) hs' (fun _ => rfl) with ⟨e', _⟩ | ⟨_, ht⟩
      · exact absurd e'.symm e
      · exact ht
  | recv n => exact keep rfl rfl rfl (fun _ h => h)
  | dataIn j n d s hs he => exact U (c := { a with recvW := a.recvW - (n : Int) }) rfl rfl rfl rfl (fun _ => rfl) (fun s _ => .same _ _ rfl)
  | credConn inc _ _ => exact keep rfl (app _ (by split <;> rfl)) rfl (fun _ h => h)
  | credKeep j n p s hs hp _ => exact U (c := a) rfl rfl rfl rfl (fun _ => rfl) (fun s _ => .same _ _ rfl)
  | credSend j n p h0 s hs hp _ =>
    exact U (c := { a with out := a.out ++ (if a.ok then [Out.windowUpdate j p] else []) }) rfl rfl (app _ (by split <;> rfl)) rfl (fun _ => rfl) (fun s _ => .same _ _ rfl)
  | grantConn inc _ => exact keep rfl rfl rfl (fun _ h => h)
  | grant j inc s hs hp => exact U (c := a) rfl rfl rfl rfl (fun _ => rfl) (fun s _ => .same _ _ rfl)
  | setInit new => exact keep rfl rfl rfl (fun _ h => h)
  | shift j delta => exact U (c := a) rfl rfl rfl rfl (fun _ => rfl) (fun s _ => .same _ _ rfl)
  | head j hodd fs r cl hr => exact U (c := a) rfl rfl rfl rfl (fun _ => rfl) (fun s _ => .same _ _ rfl)
  | trailers j fs s hs hm hdrs ht => exact U (c := a) rfl rfl rfl rfl (fun _ => rfl) (fun s _ => .same _ _ rfl)
  | request j s hs hd h1 h2 h3 h4 h5 =>
    have := U (c := { a with out := a.out ++ [.request j s.req] }) (l := []) (j := j) (f := fun s => { s with dispatched := true }) rfl rfl (app _ rfl) rfl (fun _ => rfl) (fun s _ => .same _ _ rfl)
    exact this

theorem RI.path {a b : Conn x} {l : List Lab} {sid : Nat} {rs : List Response} (p : Path a l b) (ho : sid % 2 = 1)
    (hi : Inv0 a) (h : RI a sid rs) : RI b sid (rs ++ resps sid l) := by
  induction p generalizing rs with
  | refl _ => simpa [resps] using h
  | step m _ ih =>
    rw [resps_append, ← List.append_assoc]
    exact ih (hi.micro m) (h.micro m ho hi)

theorem resps_acts (sid : Nat) (as : List Act) : resps sid (as.flatMap Act.labs) =
    ((as.flatMap Act.response).filter (fun p => p.1 = sid)).map (·.2) := by
  induction as with
  | nil => rfl
  | cons a as ih =>
    rw [List.flatMap_cons, List.flatMap_cons, resps_append, List.filter_append, List.map_append, ih]
    congr 1
    cases a <;> simp [Act.labs, Act.response, resps]
    split <;> simp [*]

theorem resps_sublist (sid : Nat) {a b : List Lab} (h : a.Sublist b) : (resps sid a).Sublist (resps sid b) := by
  induction h with
  | slnil => exact .slnil
  | cons y _ ih =>
    have : ∀ (y : Lab) (ls : List Lab), (resps sid ls).Sublist (resps sid (y :: ls)) := by
      intro y ls
      cases y <;> simp only [resps] <;> try exact List.Sublist.refl _
      split
      · exact List.sublist_cons_self _ _
      · exact List.Sublist.refl _
    exact ih.trans (this _ _)
  | cons_cons y _ ih =>
    cases y <;> simp only [resps] <;> try exact ih
    split
    · exact ih.cons_cons _
    · exact ih

theorem resps_set {es : List (UInt16 × UInt32)} {ls : List Lab} (sid : Nat) (h : ∀ y ∈ ls, SetLab es y) : resps sid ls = [] := by
  induction ls with
  | nil => rfl
  | cons y l ih =>
    have h1 := (h y (List.mem_cons_self ..)).1
    have := ih (fun z hz => h z (List.mem_cons_of_mem _ hz))
    cases y <;> simp [Lab.isSet] at h1 <;> simpa [resps] using this

theorem responsesOn_append (sid : Nat) (a b : List Input) : responsesOn sid (a ++ b) = responsesOn sid a ++ responsesOn sid b := by
  unfold responsesOn responses
  rw [List.flatMap_append, List.filter_append, List.map_append]

theorem resps_script (sid j : Nat) (fin : Bool) (sc : Script) : resps sid (sc.labs j fin) =
    ((sc.acts.flatMap Act.response).filter (fun p => p.1 = sid)).map (·.2) := by
  unfold Script.labs
  rw [resps_append, ← resps_acts]
  cases fin <;> simp [resps]

theorem resps_step {i : Input} {ls : List Lab} (sid : Nat) (h : StepLabs i ls) : (resps sid ls).Sublist (responsesOn sid [i]) := by
  have S : ∀ (as : List Act), as = i.acts → ls.Sublist (as.flatMap Act.labs) → (resps sid ls).Sublist (responsesOn sid [i]) := by
    intro as e hs
    have := resps_sublist sid hs
    rw [resps_acts] at this
    unfold responsesOn responses
    rw [List.flatMap_cons, List.flatMap_nil, List.append_nil, ← e]
    exact this
  cases i with
  | data j d pad fin sc =>
    rcases h with e | e | e | ⟨es, rs, sl, k, e⟩
    · subst e; exact List.nil_sublist _
    · subst e; exact List.nil_sublist _
    · subst e; exact List.nil_sublist _
    · subst e
      have := resps_sublist sid sl
      rw [resps_script] at this
      unfold responsesOn responses
      rw [List.flatMap_cons, List.flatMap_nil, List.append_nil]
      simp only [resps]
      rw [resps_append]
      have e0 : resps sid es = [] := by rcases k with k | ⟨_, k⟩ <;> subst k <;> rfl
      rw [e0]
      exact this
  | headers j frag fin eh sc =>
    obtain ⟨rs, sl, e⟩ := h
    have := resps_sublist sid sl
    rw [resps_script] at this
    unfold responsesOn responses
    rw [List.flatMap_cons, List.flatMap_nil, List.append_nil]
    rcases e with e | e <;> subst e <;> exact this
  | continuation j frag eh sc =>
    have := resps_sublist sid h
    rw [resps_script] at this
    unfold responsesOn responses
    rw [List.flatMap_cons, List.flatMap_nil, List.append_nil]
    exact this
  | settings j ack es => rw [resps_set sid h]; exact List.nil_sublist _
  | windowUpdate j inc =>
    rcases h with e | ⟨_, e⟩ | ⟨_, e⟩ <;> subst e <;> exact List.nil_sublist _
  | app a =>
    refine S [a] rfl ?_
    rw [List.flatMap_cons, List.flatMap_nil, List.append_nil]; exact h
  | rst j code => rcases h with e | e <;> subst e <;> exact List.nil_sublist _
  | goaway last code => rcases h with e | e <;> subst e <;> exact List.nil_sublist _
  | _ =>
    have e : ls = [] := h
    subst e; exact List.nil_sublist _

theorem ri_run (d : x.D) (e : x.E) (is : List Input) {sid : Nat} (ho : sid % 2 = 1) :
    ∃ rs, rs.Sublist (responsesOn sid is) ∧ RI (run (Conn.init (x := x) d e) is) sid rs := by
  induction is using snocInd with
  | h0 => exact ⟨[], List.nil_sublist _, ⟨fun s h => (by cases h), fun _ => ⟨rfl, rfl⟩, fun _ => rfl, fun r h => (by cases h)⟩⟩
  | hs is i ih =>
    obtain ⟨rs, sl, h⟩ := ih
    obtain ⟨ls, hl, p⟩ := path_step (run (Conn.init (x := x) d e) is) i ((Inv0.init d e).run is)
    refine ⟨rs ++ resps sid ls, ?_, ?_⟩
    · rw [responsesOn_append]; exact sl.append (resps_step sid hl)
    · rw [run_snoc]; exact h.path p ho ((Inv0.init d e).run is)

end Verif.Srv
