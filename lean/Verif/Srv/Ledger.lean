import Verif.Srv.Exit

/-! # The exact ledger of the sending windows -/

namespace Verif.Srv
open Verif.Stream

variable {x : Ext}

local macro "auxp" : tactic => `(tactic| exact Path.one (Micro.aux _ _ rfl rfl rfl rfl rfl rfl rfl (fun h => h) (fun h => h)))

/-- What stream `sid` has sent plus what it may still send satisfies `B`, and is `W` if its window follows
SETTINGS_INITIAL_WINDOW_SIZE. -/
def Led (c : Conn x) (sid : Nat) (B : Int → Prop) (W : Int) : Prop :=
  ∀ s, c.find sid = some s → s.endSent = false →
    (Early s.state → s.peerW + octetsOn sid c.out = W) ∧ B (s.peerW + octetsOn sid c.out)

theorem micro_led {a b : Conn x} {l : List Lab} (m : Micro a l b) {sid : Nat} (ho : sid % 2 = 1)
    (ht : ∀ y ∈ l, Lab.touches sid y = false) {B : Int → Prop} {W : Int} (hf : Fresh a sid)
    (hi : Lab.opened sid ∈ l → a.lastClient < sid → (a.initPeer : Int) = W ∧ B (a.initPeer : Int)) (h : Led a sid B W) : Led b sid B W := by
  intro s' hs' hes
  rcases micro_peerW m ho ht hs' with ⟨e0, e1, e2, e3⟩ | ⟨s, hs, e, _⟩
  · have : Lab.opened sid ∈ l := by
      rcases micro_find m hs' with ⟨_, _, e, _⟩ | ⟨_, _, e, _⟩ | ⟨t, ht, _⟩
      · rw [e]; simp
      · omega
      · rw [e0] at ht; cases ht
    have := hi this e3
    rw [e1, e2, (hf e3).1]
    exact ⟨fun _ => by simpa using this.1, by simpa using this.2⟩
  · rw [e]
    rcases micro_find m hs' with ⟨e0, _⟩ | ⟨e0, _⟩ | ⟨t, ht, k⟩
    · rw [hs] at e0; cases e0
    · rw [hs] at e0; cases e0
    · have : s = t := Option.some.inj (hs.symm.trans ht)
      subst this
      have he : s.endSent = false := by
        cases h : s.endSent with
        | false => rfl
        | true => rw [k.endSent h] at hes; cases hes
      obtain ⟨k1, k2⟩ := h s hs he
      exact ⟨fun hy => k1 (k.early hes hy), k2⟩

theorem path_led {a b : Conn x} {l : List Lab} (p : Path a l b) {sid : Nat} (ho : sid % 2 = 1)
    (ht : ∀ y ∈ l, Lab.touches sid y = false) {B : Int → Prop} {W : Int} (hf : Fresh a sid)
    (hi : Lab.opened sid ∈ l → a.lastClient < sid → (a.initPeer : Int) = W ∧ B (a.initPeer : Int)) (h : Led a sid B W) :
    Led b sid B W ∧ b.initPeer = a.initPeer := by
  induction p with
  | refl c => exact ⟨h, rfl⟩
  | step m _ ih =>
    have t1 := fun y hy => ht y (List.mem_append_left _ hy)
    have t2 := fun y hy => ht y (List.mem_append_right _ hy)
    have e := micro_initPeer m (fun y hy n e => by have := t1 y hy; rw [e] at this; cases this)
    have hl := micro_last m
    obtain ⟨h1, h2⟩ := ih t2 (micro_fresh m ho hf) (by rw [e]; exact fun hy hl' => hi (List.mem_append_right _ hy) (by omega))
      (micro_led m ho t1 hf (fun hy => hi (List.mem_append_left _ hy)) h)
    exact ⟨h1, h2.trans e⟩

theorem shiftStream_led (c : Conn x) (delta : Int) {sid : Nat} (ho : sid % 2 = 1) (hi0 : Inv0 c) {B : Int → Prop} {W : Int}
    (hf : Fresh c sid) (hn : ∀ s, c.find sid = some s → s.state ≠ .idle) (h : Led c sid B W) (hm : B (W + delta)) :
    Led (shiftStream c delta sid).1 sid B (W + delta) ∧ (shiftStream c delta sid).1.initPeer = c.initPeer := by
  unfold shiftStream
  split
  · rename_i hc
    exact ⟨fun s hs => (by rw [hc] at hs; cases hs), rfl⟩
  · rename_i s hs
    have hok := hi0.state _ _ hs
    split
    · rename_i hst
      have b1 : Led (c.upd sid (fun s => { s with peerW := s.peerW + delta })) sid B (W + delta) := by
        intro s' hs' hes
        rcases find_upd_some hs' (fun _ => rfl) with ⟨_, t, ht, e⟩ | ⟨e, _⟩
        · have : t = s := Option.some.inj (ht.symm.trans hs)
          subst this; subst e
          obtain ⟨k1, k2⟩ := h t ht hes
          have hE : Early t.state := by
            cases hst' : t.state <;> rw [hst'] at hst <;> simp [Early] at hst ⊢
            have := hok.hcl hst'
            rw [this] at hes; cases hes
          have := k1 hE
          have e : t.peerW + delta + (octetsOn sid c.out : Int) = W + delta := by omega
          refine ⟨fun _ => e, ?_⟩
          show B (t.peerW + delta + (octetsOn sid c.out : Int))
          rw [e]; exact hm
        · exact absurd rfl e
      have f1 : Fresh (c.upd sid (fun s => { s with peerW := s.peerW + delta })) sid := fresh_upd (fun _ => rfl) hf
      have P : ∀ c', Path (c.upd sid (fun s => { s with peerW := s.peerW + delta })) [] c' →
          Led c' sid B (W + delta) ∧ c'.initPeer = c.initPeer :=
        fun c' p => path_led p ho (by simp) f1 (by simp) b1
      simp only []
      split
      · exact P _ ((path_sendRst _ _ _ _).tr (path_goaway _ _))
      · split
        · exact P _ (path_trySend _ _)
        · exact P _ (.refl _)
    · rename_i hst
      refine ⟨fun t ht hes => ?_, rfl⟩
      have : t = s := Option.some.inj (ht.symm.trans hs)
      subst this
      refine ⟨fun hE => ?_, (h t ht hes).2⟩
      rcases hE with e | e | e
      · exact absurd e (hn t ht)
      · rw [e] at hst; simp at hst
      · rw [e] at hst; simp at hst

theorem shiftStream_led_other (c : Conn x) (delta : Int) {j sid : Nat} (hj : j ≠ sid) (ho : sid % 2 = 1) {B : Int → Prop} {W : Int}
    (hf : Fresh c sid) (h : Led c sid B W) :
    Led (shiftStream c delta j).1 sid B W ∧ (shiftStream c delta j).1.initPeer = c.initPeer := by
  obtain ⟨ls, e, p⟩ := path_shiftStream c delta j
  refine path_led p ho ?_ hf ?_ h
  · rcases e with e | e <;> subst e <;> simp [Lab.touches, hj]
  · rcases e with e | e <;> subst e <;> simp

theorem shiftLoop_led {delta : Int} {sid : Nat} (ho : sid % 2 = 1) (ids : List Nat) (c : Conn x) (hi0 : Inv0 c) {B : Int → Prop} {W : Int}
    (hm : B (W + delta)) (hn : ids.Nodup) (hf : Fresh c sid) (hid : ∀ s, c.find sid = some s → s.state ≠ .idle)
    (h : Led c sid B (if sid ∈ ids then W else W + delta)) (ha : (shiftLoop delta ids c).active = true) :
    Led (shiftLoop delta ids c) sid B (W + delta) ∧ (shiftLoop delta ids c).initPeer = c.initPeer := by
  induction ids generalizing c with
  | nil => rw [shiftLoop]; exact ⟨by simpa using h, rfl⟩
  | cons j ids ih =>
    rw [shiftLoop] at ha ⊢
    rw [List.nodup_cons] at hn
    obtain ⟨ls, e, p⟩ := path_shiftStream c delta j
    have f1 := path_fresh p ho hf
    have i1 := hi0.path p
    have id1 : ∀ s, (shiftStream c delta j).1.find sid = some s → s.state ≠ .idle := by
      intro s' hs' hc
      obtain ⟨s, hs, k⟩ := path_later p ho (by rcases e with e | e <;> subst e <;> simp) hs'
      exact hid s hs (k.idle hc)
    split
    · rename_i hr
      rw [if_pos hr] at ha
      by_cases hj : j = sid
      · subst hj
        rw [if_pos (List.mem_cons_self ..)] at h
        obtain ⟨b1, e1⟩ := shiftStream_led c delta ho hi0 hf hid h hm
        obtain ⟨b2, e2⟩ := ih _ i1 hn.2 f1 id1 (by rw [if_neg hn.1]; exact b1) ha
        exact ⟨b2, e2.trans e1⟩
      · obtain ⟨b1, e1⟩ := shiftStream_led_other c delta hj ho hf h
        have hm : (sid ∈ j :: ids) ↔ sid ∈ ids := by
          rw [List.mem_cons]; exact ⟨fun h => h.resolve_left (fun e => hj e.symm), Or.inr⟩
        obtain ⟨b2, e2⟩ := ih _ i1 hn.2 f1 id1 (by simpa only [hm] using b1) ha
        exact ⟨b2, e2.trans e1⟩
    · rename_i hr
      rw [if_neg hr] at ha
      rw [shiftStream_stop c delta j (by simpa using hr)] at ha; cases ha

/-- What holds between inputs: the values of `ws` are the windows announced so far (and the default). -/
structure Paid (c : Conn x) (sid g : Nat) (ws : List Nat) : Prop where
  inv : Inv0 c
  fresh : Fresh c sid
  init : c.initPeer ∈ ws
  none : c.lastClient < sid → g = 0
  led : Led c sid (fun v => ∃ b ∈ ws, v = (b : Int) + g) ((c.initPeer : Int) + g)

theorem Led.mono {c : Conn x} {sid : Nat} {B B' : Int → Prop} {W : Int} (h : Led c sid B W) (f : ∀ v, B v → B' v) : Led c sid B' W :=
  fun s hs he => ⟨(h s hs he).1, f _ (h s hs he).2⟩

theorem Paid.mono {c : Conn x} {sid g : Nat} {ws ws' : List Nat} (h : Paid c sid g ws) (hs : ∀ w ∈ ws, w ∈ ws') : Paid c sid g ws' :=
  ⟨h.inv, h.fresh, hs _ h.init, h.none, h.led.mono (fun _ ⟨b, hb, e⟩ => ⟨b, hs b hb, e⟩)⟩

theorem path_last {a b : Conn x} {l : List Lab} (p : Path a l b) : a.lastClient ≤ b.lastClient := by
  induction p with
  | refl _ => exact Nat.le_refl _
  | step m _ ih => exact Nat.le_trans (micro_last m) ih

theorem Paid.path {a b : Conn x} {l : List Lab} {sid g : Nat} {ws : List Nat} (h : Paid a sid g ws) (ho : sid % 2 = 1) (p : Path a l b)
    (ht : ∀ y ∈ l, Lab.touches sid y = false) : Paid b sid g ws := by
  have hl := path_last p
  obtain ⟨h1, h2⟩ := path_led p ho ht h.fresh (fun _ hlt => by
    have := h.none hlt
    subst this
    exact ⟨by omega, _, h.init, by omega⟩) h.led
  exact ⟨h.inv.path p, path_fresh p ho h.fresh, by rw [h2]; exact h.init, fun k => h.none (by omega), by rw [h2]; exact h1⟩

theorem updateInitial_paid (hx : ∀ l, (x.order l).Perm l) {c : Conn x} {new sid g : Nat} {ws : List Nat} (ho : sid % 2 = 1) (h : Paid c sid g ws)
    (hid : ∀ s, c.find sid = some s → s.state ≠ .idle) (hw : new ∈ ws) (ha : (updateInitial c new).active = true)
    (p : ∃ l, Path c l (updateInitial c new)) : Paid (updateInitial c new) sid g ws := by
  have key : Led (updateInitial c new) sid (fun v => ∃ b ∈ ws, v = (b : Int) + g) ((new : Int) + g) ∧ (updateInitial c new).initPeer = new := by
    have i1 : Inv0 ({ c with initPeer := new } : Conn x) := h.inv.path (.one (.setInit c new))
    unfold updateInitial at ha ⊢
    simp only [] at ha ⊢
    have f1 : Fresh { c with initPeer := new } sid := h.fresh
    have h1 : Led { c with initPeer := new } sid (fun v => ∃ b ∈ ws, v = (b : Int) + g) ((c.initPeer : Int) + g) := h.led
    have hn := (hx (c.streams.map (·.id))).nodup_iff.mpr h.inv.nodup
    have e0 : (c.initPeer : Int) + g + ((new : Int) - (c.initPeer : Int)) = (new : Int) + g := by omega
    have := shiftLoop_led (x := x) (delta := (new : Int) - (c.initPeer : Int)) ho (x.order (c.streams.map (·.id)))
      { c with initPeer := new } i1 (W := (c.initPeer : Int) + g) (B := fun v => ∃ b ∈ ws, v = (b : Int) + g) ⟨new, hw, e0⟩ hn f1 hid (by
        split
        · exact h1
        · rename_i hni
          intro s hs
          exfalso
          apply hni
          rw [(hx _).mem_iff, List.mem_map]
          exact ⟨s, find_mem (c := c) hs, find_id (c := c) hs⟩) ha
    rw [e0] at this
    exact this
  obtain ⟨l, p⟩ := p
  have hl := path_last p
  exact ⟨h.inv.path p, path_fresh p ho h.fresh, by rw [key.2]; exact hw, fun k => h.none (by omega), by rw [key.2]; exact key.1⟩

theorem applySetting_paid (hx : ∀ l, (x.order l).Perm l) {c : Conn x} (id : UInt16) (v : UInt32) {sid g : Nat} {ws : List Nat} (ho : sid % 2 = 1)
    (h : Paid c sid g ws) (hn : NoIdle c sid) (hw : id = 4 → v.toNat ∈ ws) (ha : (applySetting c id v).active = true) :
    Paid (applySetting c id v) sid g ws := by
  by_cases h4 : id = 4
  · obtain ⟨ls, _, p⟩ := path_applySetting c id v
    have e4 : applySetting c id v = updateInitial c v.toNat := by subst h4; rfl
    rw [e4] at p ha ⊢
    exact updateInitial_paid hx ho h hn (hw h4) ha ⟨_, p⟩
  · have : ∃ ls, (∀ y ∈ ls, Lab.touches sid y = false) ∧ Path c ls (applySetting c id v) := by
      unfold applySetting
      have nil : ∀ {c' : Conn x}, Path c [] c' → ∃ ls, (∀ y ∈ ls, Lab.touches sid y = false) ∧ Path c ls c' := fun p => ⟨[], by simp, p⟩
      split
      · exact nil (by auxp)
      split
      · exact nil (by auxp)
      split
      · exact nil (by auxp)
      split
      · rename_i e; exact absurd (by simpa using e) h4
      split
      · refine ⟨[.setMax (H2.clampPeerMax v).toNat], by simp [Lab.touches], .one (.setMax _ _ ?_)⟩
        rw [H2.C24_peer_limit]; omega
      split
      · exact nil (by auxp)
      · exact nil (.refl _)
    obtain ⟨ls, ht, p⟩ := this
    exact h.path ho p ht

theorem settingsLoop_paid (hx : ∀ l, (x.order l).Perm l) (es : List (UInt16 × UInt32)) {c : Conn x} {sid g : Nat} {ws : List Nat} (ho : sid % 2 = 1)
    (h : Paid c sid g ws) (hn : NoIdle c sid) (hw : ∀ w ∈ windowsIn es, w ∈ ws)
    (ha : (settingsLoop es c).1.active = true) : Paid (settingsLoop es c).1 sid g ws := by
  induction es generalizing c with
  | nil => exact h
  | cons e es ih =>
    obtain ⟨id, v⟩ := e
    rw [settingsLoop] at ha ⊢
    split
    · exact h.path ho (path_goaway c _) (by simp)
    · rename_i hv
      rw [hv] at ha
      simp only [] at ha
      obtain ⟨ls, hs, p⟩ := path_applySetting c id v
      obtain ⟨ls', _, p'⟩ := path_settingsLoop es (applySetting c id v)
      refine ih (applySetting_paid hx id v ho h hn (fun h4 => hw _ (by rw [windowsIn, if_pos h4]; exact List.mem_cons_self ..)) ((path_alive p').2 ha))
        (hn.path ho p (set_not_opened (fun y hy => (hs y hy).1) sid)) (fun w hm => hw w ?_) ha
      rw [windowsIn]
      split
      · exact List.mem_cons_of_mem _ hm
      · exact hm

/-- One input. -/
theorem paid_step (hx : ∀ l, (x.order l).Perm l) {c : Conn x} (i : Input) {sid g : Nat} {ws : List Nat} (ho : sid % 2 = 1)
    (h : Paid c sid g ws) (hn : c.alive = true → NoIdle c sid) (hok : AllOk c) (ha : (step c i).alive = true) :
    Paid (step c i) sid (g + granted sid [i]) (ws ++ windows [i]) := by
  obtain ⟨ls, hl, p⟩ := path_step c i h.inv
  have hc := alive_path p ha
  have done : granted sid [i] = 0 → (∀ y ∈ ls, Lab.touches sid y = false) → Paid (step c i) sid (g + granted sid [i]) (ws ++ windows [i]) :=
    fun hg ht => by
      rw [hg, Nat.add_zero]
      exact (h.path ho p ht).mono (fun w hw => List.mem_append_left _ hw)
  cases i with
  | data j d pad fin sc =>
    apply done rfl
    rcases hl with e | e | e | ⟨es, rs, sl, k, e⟩ <;> subst e <;> simp [Lab.touches]
    intro y hy
    rcases hy with hy | e | hy
    · exact touches_resp sid (isApp_ended k) y hy
    · subst e; rfl
    · exact touches_resp sid (isApp_script sl) y hy
  | headers j frag fin eh sc =>
    apply done rfl
    obtain ⟨rs, sl, e | e⟩ := hl <;> subst e
    · exact touches_resp sid (isApp_script sl)
    · intro y hy
      rcases List.mem_cons.mp hy with e | e
      · subst e; rfl
      · exact touches_resp sid (isApp_script sl) y e
  | continuation j frag eh sc => exact done rfl (touches_resp sid (isApp_script hl))
  | app a =>
    have hl : ls.Sublist a.labs := hl
    have : ls.Sublist ([a].flatMap Act.labs) := by simpa using hl
    exact done rfl (touches_resp sid (isApp_acts this))
  | windowUpdate j inc =>
    by_cases hj : j = sid
    · subst hj
      have eg : granted j [Input.windowUpdate j inc] = inc := by simp [granted]
      have ew : ws ++ windows [Input.windowUpdate j inc] = ws := by simp [windows]
      rw [eg, ew]
      have ha : (onWindowUpdate c j inc).alive = true := ha
      show Paid (onWindowUpdate c j inc) j (g + inc) ws
      have h0' : ¬ ((j == 0) = true) := by simp; omega
      have gone : ∀ code, (sendRst c j code).alive = true → (∃ s, c.find j = some s) → Paid (sendRst c j code) j (g + inc) ws := by
        intro code ha' ⟨s, hs⟩
        have q := path_sendRst c j code true
        have e := sendRst_find (c := c) (sid := j) (code := code) (Or.inl (alive_iff.mp hc).2)
        have k := h.path ho q (by simp)
        refine ⟨k.inv, k.fresh, k.init, fun hlt => ?_, fun s hs => by rw [e] at hs; cases hs⟩
        have hll : c.lastClient ≤ _ := path_last q
        have := (h.fresh (by omega)).2
        rw [hs] at this; cases this
      unfold onWindowUpdate at ha ⊢
      split
      · rename_i h1
        rw [if_pos h1, if_neg h0'] at ha
        have e0 : inc = 0 := by simpa using h1
        subst e0
        exact h.path ho (path_sendRst _ _ _ _) (by simp)
      rename_i h1
      rw [if_neg h1, if_neg h0'] at ha
      cases hs : c.find j with
      | none =>
        rw [hs] at ha
        simp only [] at ha ⊢
        split
        · rename_i h3; rw [if_pos h3, goaway_dead] at ha; cases ha
        · rename_i h3
          exact ⟨h.inv, h.fresh, h.init, fun k => absurd k h3, fun s hs' => by rw [hs] at hs'; cases hs'⟩
      | some s =>
        rw [hs] at ha
        simp only [] at ha ⊢
        split
        · rename_i h3; rw [if_pos h3] at ha; exact gone _ ha ⟨s, hs⟩
        rename_i h3; rw [if_neg h3] at ha
        split
        · rename_i h4
          have := (hok j ho s hs).2
          have h4 : s.state = .closed := by simpa using h4
          unfold Act1 isActive at this
          rw [h4] at this; cases this
        rename_i h4; rw [if_neg h4] at ha
        split
        · rename_i h5; rw [if_pos h5] at ha; exact gone _ ha ⟨s, hs⟩
        · rename_i h5
          have p1 := Path.one (Micro.grant c j inc s hs (by omega))
          have b1 : Paid (c.upd j (fun s => { s with peerW := s.peerW + (inc : Int) })) j (g + inc) ws := by
            refine ⟨h.inv.path p1, path_fresh p1 ho h.fresh, h.init, fun hlt => ?_, fun s' hs' he' => ?_⟩
            · have hlt : c.lastClient < j := hlt
              have := (h.fresh hlt).2
              rw [hs] at this; cases this
            · rcases find_upd_some hs' (fun _ => rfl) with ⟨_, t, ht, e⟩ | ⟨e, _⟩
              · subst e
                obtain ⟨k1, b, hb, k2⟩ := h.led t ht he'
                refine ⟨fun hy => ?_, b, hb, ?_⟩
                · have := k1 hy
                  show t.peerW + (inc : Int) + (octetsOn j c.out : Int) = (c.initPeer : Int) + ((g + inc : Nat) : Int)
                  omega
                · show t.peerW + (inc : Int) + (octetsOn j c.out : Int) = (b : Int) + ((g + inc : Nat) : Int)
                  omega
              · exact absurd rfl e
          split
          · exact b1.path ho (path_trySend _ _) (by simp)
          · exact b1
    · refine done (by simp [granted, hj]) ?_
      rcases hl with e | ⟨h0, e⟩ | ⟨h0, e⟩ <;> subst e <;> simp [Lab.touches, hj]
  | settings j ack es =>
    have hw' : windows [Input.settings j ack es] = windowsIn es := by simp [windows]
    rw [hw']
    have key : Paid (onSettings c j ack es) sid g (ws ++ windowsIn es) := by
      have hm : Paid c sid g (ws ++ windowsIn es) := h.mono (fun w hw => List.mem_append_left _ hw)
      have nil : ∀ {c' : Conn x}, Path c [] c' → Paid c' sid g (ws ++ windowsIn es) := fun p => hm.path ho p (by simp)
      have ha : (onSettings c j ack es).alive = true := ha
      unfold onSettings at ha ⊢
      split
      · exact nil (.refl _)
      rename_i hal
      rw [if_neg hal] at ha
      split
      · exact nil (path_goaway _ _)
      rename_i g1
      rw [if_neg g1] at ha
      split
      · split
        · exact nil (.refl _)
        · exact nil (path_goaway _ _)
      rename_i g2
      rw [if_neg g2] at ha
      simp only [] at ha ⊢
      have p1 : Path (settingsLoop es c).1 [] { (settingsLoop es c).1 with ctl := (settingsLoop es c).1.ctl + 1 } := by auxp
      have tail : ∃ d, (if (!(settingsLoop es c).2) = true then (settingsLoop es c).1
          else if ({ (settingsLoop es c).1 with ctl := (settingsLoop es c).1.ctl + 1 } : Conn x).ctl > MAX_QUEUED_CONTROL_REPLIES then
            goaway { (settingsLoop es c).1 with ctl := (settingsLoop es c).1.ctl + 1 } ENHANCE_YOUR_CALM
          else Conn.emit { (settingsLoop es c).1 with ctl := (settingsLoop es c).1.ctl + 1 } .settingsAck) = d ∧
          Path (settingsLoop es c).1 [] d := by
        refine ⟨_, rfl, ?_⟩
        split
        · exact .refl _
        · split
          · exact p1.tr (path_goaway _ _)
          · exact p1.tr (.one (.plain _ _ rfl))
      obtain ⟨d, e, pd⟩ := tail
      rw [e] at ha ⊢
      refine Paid.path ?_ ho pd (by simp)
      exact settingsLoop_paid hx es ho hm (hn hc) (fun w hw => List.mem_append_right _ hw) (alive_iff.mp (alive_path pd ha)).2
    exact key
  | rst j code => rcases hl with e | e <;> subst e <;> exact done rfl (by simp [Lab.touches])
  | goaway last code => rcases hl with e | e <;> subst e <;> exact done rfl (by simp [Lab.touches])
  | _ => have hl : ls = [] := hl; subst hl; exact done rfl (by simp)

theorem noIdle_run (d : x.D) (e : x.E) (is : List Input) {sid : Nat} (ho : sid % 2 = 1) :
    (run (Conn.init (x := x) d e) is).alive = true → NoIdle (run (Conn.init (x := x) d e) is) sid := by
  induction is using snocInd with
  | h0 => intro _ s hs; simp [run, Conn.init, Conn.find] at hs
  | hs is i ih => rw [run_snoc]; exact noIdle_step i ((Inv0.init d e).run is) ho ih

theorem paid_run (hx : ∀ l, (x.order l).Perm l) (d : x.D) (e : x.E) (is : List Input) {sid : Nat} (ho : sid % 2 = 1)
    (ha : (run (Conn.init (x := x) d e) is).alive = true) :
    Paid (run (Conn.init (x := x) d e) is) sid (granted sid is) (65535 :: windows is) := by
  induction is using snocInd with
  | h0 =>
    have hf : ∀ s, (Conn.init (x := x) d e).find sid = some s → False := fun s h => by simp [Conn.init, Conn.find] at h
    exact ⟨Inv0.init d e, fun _ => ⟨rfl, rfl⟩, List.mem_cons_self .., fun _ => rfl, fun s hs => (hf s hs).elim⟩
  | hs is i ih =>
    rw [run_snoc] at ha ⊢
    rw [granted_append, windows_append]
    obtain ⟨_, _, p⟩ := path_step (run (Conn.init (x := x) d e) is) i ((Inv0.init d e).run is)
    have hal := alive_path p ha
    exact paid_step hx i ho (ih hal) (noIdle_run d e is ho) (rest_run hx d e is hal) ha

/-- The labels of an input grant what the client granted for the connection. -/
theorem conn_step {c : Conn x} (i : Input) (hi : Inv0 c) (ha : (step c i).alive = true) :
    ∃ ls, Path c ls (step c i) ∧ labConn ls = granted 0 [i] := by
  obtain ⟨ls, hl, p⟩ := path_step c i hi
  have hle := labConn_step hl
  cases i with
  | windowUpdate j inc =>
    by_cases hj : j = 0
    · subst hj
      have ha : (onWindowUpdate c 0 inc).alive = true := ha
      show ∃ ls, Path c ls (onWindowUpdate c 0 inc) ∧ _
      have hz : ((0 : Nat) == 0) = true := rfl
      unfold onWindowUpdate at ha ⊢
      split
      · rename_i h1; rw [if_pos h1, if_pos hz, goaway_dead] at ha; cases ha
      · rename_i h1
        rw [if_neg h1, if_pos hz] at ha
        split
        · rename_i h2; rw [if_pos h2, goaway_dead] at ha; cases ha
        · exact ⟨[.grantConn inc], (Path.one (.grantConn c inc (by omega))).tr' (path_sendAll _ _), by simp [labConn, granted]⟩
    · have : granted 0 [Input.windowUpdate j inc] = 0 := by simp [granted, hj]
      exact ⟨ls, p, by omega⟩
  | _ => exact ⟨ls, p, Nat.le_antisymm hle (Nat.zero_le _)⟩

/-- The connection window. -/
theorem sendW_run (d : x.D) (e : x.E) (is : List Input) (ha : (run (Conn.init (x := x) d e) is).alive = true) :
    (run (Conn.init (x := x) d e) is).sendW + octets (run (Conn.init (x := x) d e) is).out = 65535 + granted 0 is ∧
    0 ≤ (run (Conn.init (x := x) d e) is).sendW := by
  induction is using snocInd with
  | h0 => exact ⟨rfl, by show (0 : Int) ≤ 65535; decide⟩
  | hs is i ih =>
    rw [run_snoc] at ha ⊢
    rw [granted_append]
    obtain ⟨ls, p, e'⟩ := conn_step (c := run (Conn.init (x := x) d e) is) i ((Inv0.init d e).run is) ha
    obtain ⟨h1, h2⟩ := ih (alive_path p ha)
    obtain ⟨h3, h4⟩ := path_send p h2
    refine ⟨?_, h3⟩
    rw [h4, h1]
    omega

end Verif.Srv
