import Verif.Srv.Decomp

/-! # The functions of the model as paths of small steps (receiving) -/

namespace Verif.Srv
open Verif.Stream
open Verif.Wire (Headers)

variable {x : Ext}

local macro "softp" : tactic => `(tactic| refine ⟨rfl, rfl, rfl, rfl, rfl, rfl, rfl, rfl, rfl, rfl, rfl, rfl, rfl, ?_, ?_, ?_, rfl⟩)
local macro "auxp" : tactic => `(tactic| exact Path.one (Micro.aux _ _ rfl rfl rfl rfl rfl rfl rfl (fun h => h) (fun h => h)))

/-- The invariant every path keeps. -/
structure Inv0 (c : Conn x) : Prop where
  state : ∀ sid s, c.find sid = some s → StateOk s
  odd : ∀ sid s, c.find sid = some s → s.headersMain = true → sid % 2 = 1
  cur : CurOk c
  nodup : (c.streams.map (·.id)).Nodup

theorem upd_ids (c : Conn x) (sid : Nat) (f : SStream → SStream) (k : Keeps sid f) :
    (c.upd sid f).streams.map (·.id) = c.streams.map (·.id) := by
  unfold Conn.upd
  rw [List.map_map]
  apply List.map_congr_left
  intro s _
  show (if s.id == sid then f s else s).id = s.id
  split
  · rename_i h
    have h : s.id = sid := by simpa using h
    rw [k s h, h]
  · rfl

theorem nodup_app {c : Conn x} {s : SStream} (h : (c.streams.map (·.id)).Nodup) (hn : c.find s.id = none) :
    ((c.streams ++ [s]).map (·.id)).Nodup := by
  rw [List.map_append, List.nodup_append]
  refine ⟨h, by simp, ?_⟩
  intro a ha b hb
  rw [find_eq, List.find?_eq_none] at hn
  obtain ⟨t, ht, e⟩ := List.mem_map.mp ha
  have hb : b = s.id := by simpa using hb
  intro hab
  exact hn t ht (by simp only [beq_iff_eq]; rw [← hb, ← hab]; exact e)

theorem nodup_micro {a b : Conn x} {l : List Lab} (m : Micro a l b) (h : (a.streams.map (·.id)).Nodup) : (b.streams.map (·.id)).Nodup := by
  have U : ∀ (c : Conn x) sid f, c.streams = a.streams → (∀ s, (f s).id = s.id) → ((c.upd sid f).streams.map (·.id)).Nodup := by
    intro c sid f e k
    rw [upd_ids _ _ _ (fun s hs => (k s).trans hs), e]; exact h
  cases m with
  | aux _ h1 => rw [h1]; exact h
  | erase sid => exact h.sublist (List.filter_sublist.map _)
  | prune p hn => exact h.sublist (List.filter_sublist.map _)
  | soft sid f k hs => rw [upd_ids _ _ _ k]; exact h
  | opened sid h1 h2 h3 h4 h5 => exact nodup_app (s := { id := sid, peerW := a.initPeer }) h h3
  | pushed sid parent h1 h2 h3 => exact nodup_app (s := { id := sid, state := .reservedLocal, peerW := a.initPeer, parent := parent }) h h3
  | data s k fin p hs hk hm hp hw ho he hf =>
    show ((a.upd s.id _).streams.map (·.id)).Nodup
    rw [upd_ids]
    · exact h
    · exact fun _ _ => rfl
  | setMax | plain | die | recv | credConn | grantConn | setInit => exact h
  | rebody | credKeep | grant | shift | head | trailers | ended | rstIn => exact U a _ _ rfl (fun _ => rfl)
  | start => exact U (a.emit _) _ _ rfl (fun _ => rfl)
  | trail => exact U (a.emit _) _ _ rfl (fun _ => rfl)
  | request sid => exact U a sid (fun s => { s with dispatched := true }) rfl (fun _ => rfl)
  | dataIn => exact U { a with recvW := _ } _ _ rfl (fun _ => rfl)
  | credSend => exact U { a with out := _ } _ _ rfl (fun _ => rfl)

theorem Inv0.micro {a b : Conn x} {l : List Lab} (m : Micro a l b) (h : Inv0 a) : Inv0 b := by
  refine ⟨fun sid s hs => ?_, fun sid s hs hm => ?_, ?_, nodup_micro m h.nodup⟩
  · rcases micro_find m hs with ⟨_, e, _⟩ | ⟨_, ⟨p, e⟩, _⟩ | ⟨t, ht, k⟩
    · subst e; exact ⟨by simp, by simp, by simp, by simp, by simp⟩
    · subst e; exact ⟨by simp, by simp, by simp, by simp, by simp⟩
    · exact k.stateOk (h.state _ _ ht)
  · rcases micro_find m hs with ⟨_, e, _⟩ | ⟨_, ⟨p, e⟩, _⟩ | ⟨t, ht, k⟩
    · subst e; simp at hm
    · subst e; simp at hm
    · rcases k.odd hm with h1 | h1
      · exact h.odd _ _ ht h1
      · exact h1
  · have hc := h.cur
    cases m with
    | aux _ _ _ _ _ _ _ _ _ _ h10 => exact h10 hc
    | _ => exact hc

theorem Inv0.path {a b : Conn x} {l : List Lab} (p : Path a l b) (h : Inv0 a) : Inv0 b :=
  Path.induct (fun _ _ _ m h => Inv0.micro m h) p h

/-- A client stream found after a path that did not open it was there before. -/
theorem path_later {a b : Conn x} {l : List Lab} (p : Path a l b) {sid : Nat} (ho : sid % 2 = 1) (hl : Lab.opened sid ∉ l)
    {s' : SStream} (h : b.find sid = some s') : ∃ s, a.find sid = some s ∧ Later sid s s' := by
  induction p with
  | refl c => exact ⟨s', h, .refl _ _⟩
  | step m q ih =>
    rw [List.mem_append, not_or] at hl
    obtain ⟨t, ht, k⟩ := ih hl.2 h
    rcases micro_find m ht with ⟨_, _, e, _⟩ | ⟨_, _, e, _⟩ | ⟨u, hu, k'⟩
    · rw [e] at hl; simp at hl
    · omega
    · refine ⟨u, hu, k.id.trans k'.id, fun h => k.endRecv (k'.endRecv h), fun h => k.dispatched (k'.dispatched h),
        fun h => k.headersMain (k'.headersMain h), fun h => k.endSent (k'.endSent h), ?_, k.threshold.trans k'.threshold,
        fun h => k.stateOk (k'.stateOk h), fun h1 h2 => k'.early ?_ (k.early h1 h2), fun h => k'.idle (k.idle h)⟩
      rotate_right
      · cases h : t.endSent with
        | false => rfl
        | true => rw [k.endSent h] at h1; cases h1
      intro h
      rcases k.odd h with h | h
      · exact k'.odd h
      · exact Or.inr h

/-- The connection never comes back to life. -/
theorem path_alive {a b : Conn x} {l : List Lab} (p : Path a l b) : (b.ok = true → a.ok = true) ∧ (b.active = true → a.active = true) := by
  induction p with
  | refl c => exact ⟨id, id⟩
  | step m q ih =>
    cases m with
    | aux _ _ _ _ _ _ _ _ h8 h9 _ => exact ⟨fun h => h8 (ih.1 h), fun h => h9 (ih.2 h)⟩
    | die code h => exact ⟨ih.1, fun _ => h⟩
    | _ => exact ih

/-- The labels of a call of the request handler, perhaps after the end of the request. -/
def Script.labs (h : Script) (sid : Nat) (fin : Bool := false) : List Lab :=
  (if fin then [.ended sid] else []) ++ .req sid :: h.acts.flatMap Act.labs

theorem isApp_script {h : Script} {sid : Nat} {fin : Bool} {ls : List Lab} (sl : ls.Sublist (h.labs sid fin)) :
    ∀ y ∈ ls, Lab.isApp y = true := by
  intro y hm
  have := sl.mem hm
  unfold Script.labs at this
  rcases List.mem_append.mp this with k | k
  · cases fin <;> simp at k
    subst k; rfl
  · rcases List.mem_cons.mp k with k | k
    · subst k; rfl
    · exact isApp_acts (List.Sublist.refl _) y k

theorem labs_opened {sid : Nat} {ls : List Lab} (h : ∀ y ∈ ls, Lab.isApp y = true) : Lab.opened sid ∉ ls := fun hm => by
  have := h _ hm
  cases this

/-- After a RST_STREAM the stream is gone. -/
theorem tryClose_find {c : Conn x} {sid : Nat} (h : ∀ s, c.find sid = some s → (s.state == .closed || s.rstSent || s.rstRecv) = true) :
    (tryClose c sid).find sid = none := by
  unfold tryClose
  split
  · assumption
  · rename_i s hs
    rw [if_pos (h s hs)]
    have e : (c.erase sid).find sid = none := by rw [find_erase, if_pos rfl]
    simp only []
    split
    · split
      · exact e
      · exact e
    · split
      · exact e
      · exact e

theorem sendRst_find {c : Conn x} {sid code : Nat} (ha : c.active = true ∨ code = CANCEL) : (sendRst c sid code).find sid = none := by
  unfold sendRst
  split
  · rename_i h
    simp only [Bool.and_eq_true, Bool.not_eq_true', bne_iff_ne, ne_eq] at h
    rcases ha with ha | ha
    · rw [h.1] at ha; cases ha
    · exact absurd ha h.2
  · simp only []
    split
    · assumption
    · rename_i s hs
      simp only [if_true]
      apply tryClose_find
      intro t ht
      have e : ∀ (b : Bool) (d : Conn x), (if b = true then d.emit (.streamError sid code) else d).find sid = d.find sid := by
        intro b d; split <;> rfl
      rw [e] at ht
      rcases find_upd_some ht (fun _ => rfl) with ⟨_, u, _, e⟩ | ⟨h, _⟩
      · rw [e]; simp
      · exact absurd rfl h

theorem path_dispatch (c : Conn x) (sid : Nat) (h : Script)
    (hd : ∀ s, c.find sid = some s → s.dispatched = false → s.rstSent = false → s.rstRecv = false → c.ok = true → c.active = true →
      s.endRecv = true ∧ s.headersMain = true ∧ mismatch s.cl s.req.body = false) :
    ∃ ls, ls.Sublist (h.labs sid) ∧ Path c ls (dispatch c sid h) := by
  unfold dispatch
  split
  · exact ⟨[], by simp, .refl _⟩
  · rename_i s hs
    split
    · exact ⟨[], by simp, .refl _⟩
    · rename_i h1
      simp only [Bool.or_eq_true, not_or, Bool.not_eq_true] at h1
      split
      · rename_i h2
        simp only [Bool.and_eq_true] at h2
        split
        · exact ⟨[], by simp, path_sendRst _ _ _ _⟩
        · obtain ⟨e1, e2, e3⟩ := hd s hs h1.1.1 h1.1.2 h1.2 h2.1 h2.2
          have m := Path.one (Micro.request c sid s hs h1.1.1 e1 e2 e3 h2.1 h2.2)
          obtain ⟨ls, sl, p⟩ := path_acts h.acts ((c.upd sid (fun s => { s with dispatched := true })).emit (.request sid s.req))
          refine ⟨.req sid :: ls, sl.cons_cons _, m.trans (p.tr' ?_)⟩
          split
          · exact path_sendRst _ _ _ _
          · exact path_closeTail _ _
      · exact ⟨[], by simp, .refl _⟩

/-- After a dispatch on a live connection the stream is gone, dispatched or reset. -/
theorem dispatch_done (c : Conn x) (sid : Nat) (h : Script) (ho : sid % 2 = 1) (s' : SStream)
    (hs : (dispatch c sid h).find sid = some s') (hok : (dispatch c sid h).ok = true) (hac : (dispatch c sid h).active = true)
    (h1 : s'.dispatched = false) (h2 : s'.rstSent = false) (h3 : s'.rstRecv = false) : False := by
  unfold dispatch at hs hok hac
  split at hs
  · rename_i hn; rw [hn] at hs; cases hs
  · rename_i s hf
    rw [hf] at hok hac
    simp only [] at hok hac
    split at hs
    · rename_i hb
      have : s' = s := Option.some.inj (hs.symm.trans hf)
      subst this
      rw [h1, h2, h3] at hb; simp at hb
    · rename_i hb
      rw [if_neg hb] at hok hac
      split at hs
      · rename_i hal
        simp only [Bool.and_eq_true] at hal
        rw [if_pos (by simpa using hal)] at hok hac
        split at hs
        · rw [sendRst_find (Or.inl hal.2)] at hs; cases hs
        · rename_i hpe
          rw [if_neg hpe] at hok hac
          let c1 : Conn x := (c.upd sid (fun s => { s with dispatched := true })).emit (.request sid s.req)
          obtain ⟨ls, sl, p⟩ := path_acts h.acts c1
          have q : Path c1 ls (if h.throws = true then sendRst (List.foldl act c1 h.acts) sid INTERNAL_ERROR false
              else match (List.foldl act c1 h.acts).find sid with
                | none => List.foldl act c1 h.acts
                | some s => if s.state == .closed then tryClose (List.foldl act c1 h.acts) sid else List.foldl act c1 h.acts) := by
            refine p.tr' ?_
            split
            · exact path_sendRst _ _ _ _
            · exact path_closeTail _ _
          obtain ⟨t, ht, k⟩ := path_later q ho (labs_opened (isApp_acts sl)) hs
          have ht : (c.upd sid (fun s => { s with dispatched := true })).find sid = some t := ht
          rcases find_upd_some ht (fun _ => rfl) with ⟨_, u, _, e⟩ | ⟨h, _⟩
          · have := k.dispatched (by rw [e])
            rw [h1] at this; cases this
          · exact absurd rfl h
      · rename_i hal
        rw [if_neg hal] at hok hac
        exact hal (by rw [hok, hac]; rfl)

theorem path_processHead (c : Conn x) (sid : Nat) (ho : sid % 2 = 1) (fs : List Field) (h : Script) :
    ∃ ls, ls.Sublist (h.labs sid) ∧ Path c ls (processHead c sid fs h).1 := by
  unfold processHead
  split
  · exact ⟨[], by simp, path_sendRst _ _ _ _⟩
  · rename_i r cl hr
    have m := Path.one (Micro.head c sid ho fs r cl hr)
    simp only []
    split
    · exact ⟨[], by simp, m⟩
    · rename_i s hs
      split
      · rename_i he
        split
        · exact ⟨[], by simp, m.tr (path_sendRst _ _ _ _)⟩
        · rename_i hm
          obtain ⟨ls, sl, p⟩ := path_dispatch (c.upd sid (fun s => { s with headersMain := true, cl := cl, req := { r with body := s.req.body } })) sid h
            (fun t ht _ _ _ _ _ => by
              have : t = s := Option.some.inj (ht.symm.trans hs)
              subst this
              refine ⟨he, ?_, by simpa using hm⟩
              rcases find_upd_some ht (fun _ => rfl) with ⟨_, u, _, e⟩ | ⟨h, _⟩
              · rw [e]
              · exact absurd rfl h)
          exact ⟨ls, sl, m.tr p⟩
      · exact ⟨[], by simp, m⟩

theorem path_processTrailers (c : Conn x) (sid : Nat) (fs : List Field) (h : Script) (hm : ∀ s, c.find sid = some s → s.headersMain = true) :
    ∃ ls, ls.Sublist (h.labs sid) ∧ Path c ls (processTrailers c sid fs h).1 := by
  unfold processTrailers
  split
  · exact ⟨[], by simp, .refl _⟩
  · rename_i s hs
    split
    · exact ⟨[], by simp, path_sendRst _ _ _ _⟩
    · rename_i hdrs hh
      have m := Path.one (Micro.trailers c sid fs s hs (hm s hs) hdrs hh)
      simp only []
      split
      · exact ⟨[], by simp, m.tr (path_sendRst _ _ _ _)⟩
      · rename_i he
        split
        · exact ⟨[], by simp, m.tr (path_sendRst _ _ _ _)⟩
        · rename_i hmm
          split
          · obtain ⟨ls, sl, p⟩ := path_dispatch (c.upd sid (fun s => { s with trailersRecv := true, req := { s.req with headers := hdrs } })) sid h
              (fun t ht _ _ _ _ _ => by
                rcases find_upd_some ht (fun _ => rfl) with ⟨_, u, hu, e⟩ | ⟨h, _⟩
                · have : u = s := Option.some.inj (hu.symm.trans hs)
                  subst this
                  rw [e]
                  exact ⟨by simpa using he, hm u hs, by simpa using hmm⟩
                · exact absurd rfl h)
            exact ⟨ls, sl, m.tr p⟩
          · exact ⟨[], by simp, m⟩

theorem path_processBlock (c : Conn x) (sid : Nat) (ho : sid % 2 = 1) (tr : Bool) (h : Script)
    (hm : tr = true → ∀ s, c.find sid = some s → s.headersMain = true) :
    ∃ ls, ls.Sublist (h.labs sid) ∧ Path c ls (processBlock c sid tr h).1 := by
  unfold processBlock
  simp only []
  have a1 : Path c [] { c with dec := (x.decode c.dec c.frag).2 } := by auxp
  split
  · exact ⟨[], by simp, a1.tr (path_sendRst _ _ _ _)⟩
  · rename_i fs _
    have a2 : Path c [] ({ c with dec := (x.decode c.dec c.frag).2, frag := [] }.upd sid (fun s => { s with expecting := false })) := by
      refine Path.tr (b := { c with dec := (x.decode c.dec c.frag).2, frag := [] }) (by auxp) ?_
      exact Path.soft (fun s => soft_same _ _ rfl)
    split
    · obtain ⟨ls, sl, p⟩ := path_processHead ({ c with dec := (x.decode c.dec c.frag).2, frag := [] }.upd sid (fun s => { s with expecting := false })) sid ho fs h
      exact ⟨ls, sl, a2.tr p⟩
    · rename_i ht
      obtain ⟨ls, sl, p⟩ := path_processTrailers ({ c with dec := (x.decode c.dec c.frag).2, frag := [] }.upd sid (fun s => { s with expecting := false })) sid fs h
        (fun t htt => by
          rcases find_upd_some htt (fun _ => rfl) with ⟨_, u, hu, e⟩ | ⟨h, _⟩
          · rw [e]; exact hm (by simpa using ht) u hu
          · exact absurd rfl h)
      exact ⟨ls, sl, a2.tr p⟩

/-- After a header block that was accepted, an undispatched live stream has not ended. -/
theorem processBlock_done (c : Conn x) (sid : Nat) (ho : sid % 2 = 1) (tr : Bool) (h : Script) (s' : SStream)
    (hr : (processBlock c sid tr h).2 = true)
    (hs : (processBlock c sid tr h).1.find sid = some s') (hok : (processBlock c sid tr h).1.ok = true)
    (hac : (processBlock c sid tr h).1.active = true)
    (h1 : s'.dispatched = false) (h2 : s'.rstSent = false) (h3 : s'.rstRecv = false) : s'.endRecv = false := by
  unfold processBlock at hr hs hok hac
  simp only [] at hr hs hok hac
  split at hr
  · cases hr
  · rename_i fs hd
    rw [hd] at hs hok hac
    simp only [] at hs hok hac
    split at hr
    · rename_i htr
      rw [if_pos htr] at hs hok hac
      unfold processHead at hr hs hok hac
      split at hr
      · cases hr
      · rename_i r cl hrq
        rw [hrq] at hs hok hac
        simp only [] at hr hs hok hac
        split at hr
        · rename_i hn
          rw [hn] at hs
          simp only [] at hs
          rw [hn] at hs
          cases hs
        · rename_i t ht
          rw [ht] at hs hok hac
          simp only [] at hr hs hok hac
          split at hr
          · rename_i her
            rw [if_pos her] at hs hok hac
            split at hr
            · cases hr
            · rename_i hmm
              rw [if_neg hmm] at hs hok hac
              exact (dispatch_done _ _ _ ho s' hs hok hac h1 h2 h3).elim
          · rename_i her
            rw [if_neg her] at hs
            have : s' = t := Option.some.inj (hs.symm.trans ht)
            subst this
            simpa using her
    · rename_i htr
      rw [if_neg htr] at hs hok hac
      unfold processTrailers at hr hs hok hac
      split at hr
      · rename_i hn
        rw [hn] at hs
        simp only [] at hs
        rw [hn] at hs
        cases hs
      · rename_i t ht
        rw [ht] at hs hok hac
        simp only [] at hr hs hok hac
        split at hr
        · cases hr
        · rename_i hdrs hh
          rw [hh] at hs hok hac
          simp only [] at hr hs hok hac
          split at hr
          · cases hr
          · rename_i her
            rw [if_neg her] at hs hok hac
            split at hr
            · cases hr
            · rename_i hmm
              rw [if_neg hmm] at hs hok hac
              split at hr
              · rename_i hdd
                rw [if_pos hdd] at hs hok hac
                exact (dispatch_done _ _ _ ho s' hs hok hac h1 h2 h3).elim
              · rename_i hdd
                rw [if_neg hdd] at hs
                rcases find_upd_some hs (fun _ => rfl) with ⟨_, u, hu, e⟩ | ⟨h, _⟩
                · have : u = t := Option.some.inj (hu.symm.trans ht)
                  subst this
                  rw [e] at h1
                  have h1 : u.dispatched = false := h1
                  rw [h1] at hdd; simp at hdd
                · exact absurd rfl h

theorem path_clear (c : Conn x) : Path c [] (clearAssembly c) :=
  .one (.aux _ _ rfl rfl rfl rfl rfl rfl rfl (fun h => h) (fun h => h) (fun _ => Or.inl rfl))

/-! ## DATA -/

theorem sendWindowUpdate_eq (c : Conn x) (sid n : Nat) (h : 0 < n) :
    sendWindowUpdate c sid n = { c with out := c.out ++ (if c.ok then [Out.windowUpdate sid n] else []) } := by
  unfold sendWindowUpdate
  have hb : (n == 0) = false := by
    simp only [beq_eq_false_iff_ne]; omega
  rw [hb]
  by_cases hok : c.ok = true
  · have : (!c.ok || false) = false := by rw [hok]; rfl
    rw [this, if_pos hok]; rfl
  · have : (!c.ok || false) = true := by simpa using hok
    rw [this, if_neg hok, List.append_nil]; rfl

theorem path_creditStream (c : Conn x) (sid n : Nat) (h0 : sid ≠ 0) :
    ∃ ls, ls.Sublist [Lab.cred sid n] ∧ (c.find sid ≠ none → ls = [Lab.cred sid n]) ∧ Path c ls (creditStream c sid n) := by
  unfold creditStream
  split
  · rename_i hn; exact ⟨[], by simp, fun h => absurd hn h, .refl _⟩
  · rename_i s hs
    refine ⟨[.cred sid n], .refl _, fun _ => rfl, ?_⟩
    simp only []
    split
    · rename_i h
      simp only [Bool.and_eq_true, decide_eq_true_eq] at h
      have m := Micro.credSend c sid n (s.processed + n) h0 s hs rfl (by omega)
      have e := sendWindowUpdate_eq c sid (s.processed + n) (by omega)
      rw [e]
      exact .one m
    · rename_i h
      simp only [Bool.and_eq_true, decide_eq_true_eq] at h
      exact .one (Micro.credKeep c sid n (s.processed + n) s hs rfl (by omega))

theorem find_condConn (c : Conn x) (j : Nat) : (condConnUpdate c).find j = c.find j := by
  unfold condConnUpdate sendWindowUpdate
  simp only []
  split
  · split
    · split <;> rfl
    · rfl
  · rfl

theorem creditStream_find {c : Conn x} {sid n : Nat} {s' : SStream} (h : (creditStream c sid n).find sid = some s') :
    ∃ s, c.find sid = some s ∧ s'.endRecv = s.endRecv := by
  unfold creditStream at h
  split at h
  · rename_i hn; rw [hn] at h; cases h
  · rename_i s hs
    refine ⟨s, hs, ?_⟩
    simp only [] at h
    split at h
    · rcases find_upd_some h (fun _ => rfl) with ⟨_, u, hu, e⟩ | ⟨h, _⟩
      · have : (sendWindowUpdate c sid (s.processed + n)).find sid = c.find sid := by
          unfold sendWindowUpdate; split <;> rfl
        rw [this] at hu
        have : u = s := Option.some.inj (hu.symm.trans hs)
        subst this
        rw [e]
      · exact absurd rfl h
    · rcases find_upd_some h (fun _ => rfl) with ⟨_, u, hu, e⟩ | ⟨h, _⟩
      · have : u = s := Option.some.inj (hu.symm.trans hs)
        subst this
        rw [e]
      · exact absurd rfl h

theorem path_dataEnd (c : Conn x) (sid n : Nat) (h : Script) (hi : Inv0 c) (h0 : sid ≠ 0) (hf : c.find sid ≠ none) :
    ∃ ls, ls.Sublist (h.labs sid) ∧ Path c (Lab.ended sid :: Lab.cred sid n :: ls) (dataEnd c sid n h) := by
  unfold dataEnd
  simp only []
  have p1 : Path c [.ended sid] (c.upd sid (fun s => { s with endRecv := true })) := .one (.ended c sid)
  have hf1 : (c.upd sid (fun s => { s with endRecv := true })).find sid ≠ none := by
    exact find_upd_isSome hf (fun _ => rfl)
  have ends : ∀ s, (c.upd sid (fun s => { s with endRecv := true })).find sid = some s → s.endRecv = true := by
    intro s hs
    rcases find_upd_some hs (fun _ => rfl) with ⟨_, u, hu, e⟩ | ⟨h, _⟩
    · rw [e]
    · exact absurd rfl h
  generalize c.upd sid (fun s => { s with endRecv := true }) = c1 at *
  obtain ⟨l1, _, el, p2⟩ := path_creditStream c1 sid n h0
  have el := el hf1
  subst el
  have p3 := p2.tr' (path_condConn _)
  -- the stream still has ended
  have ends3 : ∀ s, (condConnUpdate (creditStream c1 sid n)).find sid = some s → s.endRecv = true := by
    intro s hs
    rw [find_condConn] at hs
    obtain ⟨u, hu, e⟩ := creditStream_find hs
    rw [e]; exact ends u hu
  generalize condConnUpdate (creditStream c1 sid n) = c3 at *
  have q : Path c [.ended sid, .cred sid n] c3 := p1.trans p3
  have hi3 := hi.path q
  split
  · exact ⟨[], by simp, q⟩
  · rename_i s hs
    split
    · exact ⟨[], by simp, q.tr' (path_sendRst _ _ _ _)⟩
    · rename_i hm
      have d : ∃ ls, ls.Sublist (h.labs sid) ∧ Path c3 ls (if s.headersMain = true then dispatch c3 sid h else c3) ∧
          ∀ t, (if s.headersMain = true then dispatch c3 sid h else c3).find sid = some t → t.endRecv = true := by
        by_cases hh : s.headersMain = true
        · rw [if_pos hh]
          obtain ⟨ls, sl, p⟩ := path_dispatch c3 sid h (fun t ht _ _ _ _ _ => by
            have : t = s := Option.some.inj (ht.symm.trans hs)
            subst this
            rw [hh] at hm
            exact ⟨ends3 t ht, hh, by simpa using hm⟩)
          refine ⟨ls, sl, p, fun t ht => ?_⟩
          obtain ⟨u, hu, k⟩ := path_later p (hi3.odd _ _ hs hh) (labs_opened (isApp_script sl)) ht
          exact k.endRecv (ends3 u hu)
        · rw [if_neg hh]
          exact ⟨[], by simp, .refl _, ends3⟩
      obtain ⟨ls, sl, p, ends4⟩ := d
      refine ⟨ls, sl, ?_⟩
      have q' : Path c (.ended sid :: .cred sid n :: ls) (if s.headersMain = true then dispatch c3 sid h else c3) := q.trans p
      generalize (if s.headersMain = true then dispatch c3 sid h else c3) = c4 at *
      refine q'.tr' ?_
      split
      · exact .refl _
      · rename_i t ht
        split
        · rename_i hes
          refine Path.tr ?_ (path_tryClose _ _)
          refine .softAt (fun _ => rfl) (fun u hu => ?_)
          have : u = t := Option.some.inj (hu.symm.trans ht)
          subst this
          exact soft_close _ (fun _ => ⟨hes, ends4 _ ht⟩)
        · rename_i hes
          refine .softAt (fun _ => rfl) (fun u hu => ?_)
          have : u = t := Option.some.inj (hu.symm.trans ht)
          subst this
          softp
          · intro k
            exact ⟨fun h => absurd h hes, by simp, fun _ => ends4 u ht, by simp, by simp⟩
          · simp [Early]
          · simp

theorem path_dataAccept (c : Conn x) (sid n : Nat) (d : Bytes) (fin : Bool) (h : Script) (hi : Inv0 c) (h0 : sid ≠ 0)
    (s0 : SStream) (hf : c.find sid = some s0) (hr : s0.endRecv = false) :
    ∃ ls, (ls = [] ∨ ∃ es rs, rs.Sublist (h.labs sid) ∧ (es = [] ∨ (fin = true ∧ es = [Lab.ended sid])) ∧ ls = es ++ Lab.cred sid n :: rs) ∧ Path c (Lab.dataIn sid n d :: ls) (dataAccept c sid n d fin h) := by
  unfold dataAccept
  simp only []
  have p : Path c [.dataIn sid n d] ({ c with recvW := c.recvW - (n : Int), ctl := 0 }.upd sid (fun s =>
        { s with localW := s.localW - (n : Int), req := { s.req with body := s.req.body ++ d } })) := by
    refine Path.tr (b := { c with ctl := 0 }) (by auxp) ?_
    exact .one (.dataIn _ sid n d s0 hf hr)
  have hf1 : ({ c with recvW := c.recvW - (n : Int), ctl := 0 }.upd sid (fun s =>
        { s with localW := s.localW - (n : Int), req := { s.req with body := s.req.body ++ d } })).find sid ≠ none :=
    find_upd_isSome (c := { c with recvW := c.recvW - (n : Int), ctl := 0 }) (by
      intro hn
      have hn : c.find sid = none := hn
      rw [hf] at hn; cases hn) (fun _ => rfl)
  generalize ({ c with recvW := c.recvW - (n : Int), ctl := 0 } : Conn x).upd sid (fun s =>
        { s with localW := s.localW - (n : Int), req := { s.req with body := s.req.body ++ d } }) = c1 at *
  have hi1 := hi.path p
  split
  · exact ⟨[], Or.inl rfl, p⟩
  · split
    · exact ⟨[], Or.inl rfl, p.tr' (path_sendRst _ _ _ _)⟩
    · split
      · exact ⟨[], Or.inl rfl, p.tr' (path_sendRst _ _ _ _)⟩
      · split
        · obtain ⟨ls, sl, q⟩ := path_dataEnd c1 sid n h hi1 h0 hf1
          exact ⟨_, Or.inr ⟨[.ended sid], ls, sl, Or.inr ⟨by assumption, rfl⟩, rfl⟩, p.trans q⟩
        · obtain ⟨ls, sl, el, q⟩ := path_creditStream c1 sid n h0
          have el := el hf1
          subst el
          exact ⟨_, Or.inr ⟨[], [], by simp, Or.inl rfl, rfl⟩, p.trans (q.tr' (path_condConn _))⟩

/-- The labels of a DATA frame. -/
def DataLabs (sid n : Nat) (d : Bytes) (fin : Bool) (h : Script) (ls : List Lab) : Prop :=
  ls = [] ∨ ls = [.dataRej n] ∨ ls = [.dataIn sid n d] ∨ 
    ∃ es rs, rs.Sublist (h.labs sid) ∧ (es = [] ∨ (fin = true ∧ es = [.ended sid])) ∧ ls = .dataIn sid n d :: (es ++ .cred sid n :: rs)

theorem path_onData (c : Conn x) (sid : Nat) (d : Bytes) (pad : Nat) (fin : Bool) (h : Script) (hi : Inv0 c) :
    ∃ ls, DataLabs sid (d.length + pad) d fin h ls ∧ Path c ls (onData c sid d pad fin h) := by
  have nil : ∀ {c' : Conn x}, Path c [] c' → ∃ ls, DataLabs sid (d.length + pad) d fin h ls ∧ Path c ls c' :=
    fun p => ⟨[], Or.inl rfl, p⟩
  have rej : ∀ {c' : Conn x}, Path c [.dataRej (d.length + pad)] c' → ∃ ls, DataLabs sid (d.length + pad) d fin h ls ∧ Path c ls c' :=
    fun p => ⟨_, Or.inr (Or.inl rfl), p⟩
  unfold onData
  simp only []
  split
  · exact nil (.refl _)
  split
  · exact nil (path_goaway _ _)
  rename_i h0
  have h0 : sid ≠ 0 := by simpa using h0
  split
  · exact nil (path_goaway _ _)
  split
  · unfold dataUnknown
    split
    · exact nil (path_goaway _ _)
    · exact rej ((Path.one (.recv c _)).tr' ((path_sendRst _ _ _ _).tr (path_condConn _)))
  · rename_i s hs
    split
    · have p := (Path.one (Micro.recv c (d.length + pad))).tr' (path_condConn _)
      split
      · exact rej (p.tr' (path_sendRst _ _ _ _))
      · exact rej p
    · split
      · exact rej (((path_sendRst c sid STREAM_CLOSED true).tr (Path.one (.recv _ _))).tr' (path_condConn _))
      · split
        · exact rej (((path_sendRst c sid FLOW_CONTROL_ERROR true).tr (Path.one (.recv _ _))).tr' (path_condConn _))
        · rename_i hr _
          obtain ⟨ls, e, p⟩ := path_dataAccept c sid (d.length + pad) d fin h hi h0 s hs (by simpa using hr)
          rcases e with e | ⟨es, rs, sl, k, e⟩
          · subst e; exact ⟨_, Or.inr (Or.inr (Or.inl rfl)), p⟩
          · subst e; exact ⟨_, Or.inr (Or.inr (Or.inr ⟨es, rs, sl, k, rfl⟩)), p⟩

end Verif.Srv
