import Verif.Srv.TheoremsRequest

/-! # What the client may send: the receive windows -/

namespace Verif.Srv
open Verif.Stream

variable {x : Ext}

/-! ## Sums over labels -/

def sumL (f : Lab → Nat) : List Lab → Nat
  | [] => 0
  | y :: l => f y + sumL f l

theorem sumL_append (f : Lab → Nat) (a b : List Lab) : sumL f (a ++ b) = sumL f a + sumL f b := by
  induction a with
  | nil => simp [sumL]
  | cons y a ih => simp [sumL, ih]; omega

/-- Octets of DATA counted against the connection window. -/
def recvN : Lab → Nat
  | .dataIn _ n _ => n
  | .dataRej n => n
  | _ => 0

/-- Octets of DATA accepted on a stream. -/
def inN (sid : Nat) : Lab → Nat
  | .dataIn j n _ => if j = sid then n else 0
  | _ => 0

/-- Octets of DATA accounted for on a stream. -/
def credN (sid : Nat) : Lab → Nat
  | .cred j n => if j = sid then n else 0
  | _ => 0

theorem sumL_zero {f : Lab → Nat} {ls : List Lab} (h : ∀ y ∈ ls, f y = 0) : sumL f ls = 0 := by
  induction ls with
  | nil => rfl
  | cons y ls ih => rw [sumL, h y (List.mem_cons_self ..), ih (fun z hz => h z (List.mem_cons_of_mem _ hz))]

theorem recvN_app {ls : List Lab} (h : ∀ y ∈ ls, Lab.isApp y = true) : sumL recvN ls = 0 :=
  sumL_zero (fun y hy => by have := h y hy; cases y <;> first | rfl | cases this)

theorem inN_app {ls : List Lab} (sid : Nat) (h : ∀ y ∈ ls, Lab.isApp y = true) : sumL (inN sid) ls = 0 :=
  sumL_zero (fun y hy => by have := h y hy; cases y <;> first | rfl | cases this)

theorem credN_app {ls : List Lab} (sid : Nat) (h : ∀ y ∈ ls, Lab.isApp y = true) : sumL (credN sid) ls = 0 :=
  sumL_zero (fun y hy => by have := h y hy; cases y <;> first | rfl | cases this)

theorem credits_plain {o : Out} (sid : Nat) (h : Plain o = true) : credits sid [o] = 0 := by
  cases o <;> first | rfl | cases h

/-! ## The connection window -/

theorem micro_recv {a b : Conn x} {l : List Lab} (m : Micro a l b) (hb : b.ok = true) :
    b.recvW + (sumL recvN l : Nat) + (credits 0 a.out : Nat) = a.recvW + (credits 0 b.out : Nat) ∧ a.recvW ≤ b.recvW + (sumL recvN l : Nat) := by
  cases m with
  | aux _ h1 h2 h3 h4 h5 h6 h7 h8 h9 _ => rw [h3, h6]; simp [sumL]
  | plain o ho =>
    show a.recvW + _ + _ = a.recvW + (credits 0 (a.out ++ [o]) : Nat) ∧ _
    rw [credits_append, credits_plain 0 ho]; simp [sumL, Conn.emit]
  | die code ha =>
    show a.recvW + _ + _ = a.recvW + (credits 0 (a.out ++ [_]) : Nat) ∧ a.recvW ≤ a.recvW + _
    rw [credits_append]; simp [sumL, credits]
  | data s k fin p hs hk hm hp hw ho he hf hf' hh hp' =>
    show a.recvW + _ + _ = a.recvW + (credits 0 (a.out ++ [_]) : Nat) ∧ a.recvW ≤ a.recvW + _
    rw [credits_append]; simp [sumL, credits]
  | start sid r b s block hb hs he =>
    show a.recvW + _ + _ = a.recvW + (credits 0 (a.out ++ [_]) : Nat) ∧ a.recvW ≤ a.recvW + _
    rw [credits_append]; simp [sumL, credits, recvN]
  | trail sid s hs he ho ht =>
    show a.recvW + _ + _ = a.recvW + (credits 0 (a.out ++ [_]) : Nat) ∧ a.recvW ≤ a.recvW + _
    rw [credits_append]; simp [sumL, credits]
  | request sid s hs hd h1 h2 h3 h4 h5 =>
    show a.recvW + _ + _ = a.recvW + (credits 0 (a.out ++ [_]) : Nat) ∧ a.recvW ≤ a.recvW + _
    rw [credits_append]; simp [sumL, credits, recvN]
  | recv n =>
    show a.recvW - (n : Int) + _ + _ = _ ∧ a.recvW ≤ a.recvW - (n : Int) + _
    simp only [sumL, recvN]; omega
  | dataIn sid n d s hs he =>
    show a.recvW - (n : Int) + _ + _ = a.recvW + (credits 0 a.out : Nat) ∧ a.recvW ≤ a.recvW - (n : Int) + _
    simp only [sumL, recvN]; omega
  | credConn inc h hi =>
    have hb : a.ok = true := hb
    show a.recvW + (inc : Int) + _ + _ = a.recvW + (credits 0 (a.out ++ (if a.ok then [Out.windowUpdate 0 inc] else [])) : Nat) ∧ a.recvW ≤ a.recvW + (inc : Int) + _
    rw [if_pos hb, credits_append]
    simp only [credits, sumL, if_true]; omega
  | credSend sid n p h0 s hs hp _ =>
    have hb : a.ok = true := hb
    show a.recvW + _ + _ = a.recvW + (credits 0 (a.out ++ (if a.ok then [Out.windowUpdate sid p] else [])) : Nat) ∧ a.recvW ≤ a.recvW + _
    rw [if_pos hb, credits_append]
    simp [credits, sumL, h0, recvN]
  | _ =>
    show a.recvW + _ + _ = a.recvW + (credits 0 a.out : Nat) ∧ a.recvW ≤ a.recvW + _
    simp [sumL, recvN]

theorem path_recv {a b : Conn x} {l : List Lab} (p : Path a l b) (hb : b.ok = true) :
    b.recvW + (sumL recvN l : Nat) + (credits 0 a.out : Nat) = a.recvW + (credits 0 b.out : Nat) ∧ a.recvW ≤ b.recvW + (sumL recvN l : Nat) := by
  induction p with
  | refl _ => simp [sumL]
  | step m q ih =>
    have h1 := ih hb
    have h2 := micro_recv m ((path_alive q).1 hb)
    rw [sumL_append]
    omega

/-- The labels of a DATA frame that the connection survives. -/
theorem onData_recv {c : Conn x} {sid : Nat} {d : Bytes} {pad : Nat} {fin : Bool} {h : Script} (hi : Inv0 c)
    (ha : (onData c sid d pad fin h).alive = true) :
    ∃ ls, Path c ls (onData c sid d pad fin h) ∧ sumL recvN ls = d.length + pad ∧ (0 ≤ c.recvW → ((d.length + pad : Nat) : Int) ≤ c.recvW) := by
  have hc : c.alive = true := by
    obtain ⟨ls, _, p⟩ := path_onData c sid d pad fin h hi
    exact alive_path p ha
  obtain ⟨c1, c2⟩ := alive_iff.mp hc
  have rej : ∀ {c' : Conn x}, Path c [.dataRej (d.length + pad)] c' → (0 ≤ c.recvW → ((d.length + pad : Nat) : Int) ≤ c.recvW) →
      ∃ ls, Path c ls c' ∧ sumL recvN ls = d.length + pad ∧ (0 ≤ c.recvW → ((d.length + pad : Nat) : Int) ≤ c.recvW) :=
    fun p q => ⟨_, p, by simp [sumL, recvN], q⟩
  unfold onData at ha ⊢
  simp only [] at ha ⊢
  rw [if_neg (by simp [c1, c2])] at ha ⊢
  split
  · rename_i h0; rw [if_pos h0, goaway_dead] at ha; cases ha
  rename_i h0
  rw [if_neg h0] at ha
  have h0 : sid ≠ 0 := by simpa using h0
  split
  · rename_i h1; rw [if_pos h1, goaway_dead] at ha; cases ha
  rename_i h1
  rw [if_neg h1] at ha
  have hw : 0 ≤ c.recvW → ((d.length + pad : Nat) : Int) ≤ c.recvW := by
    intro z
    simp only [Bool.and_eq_true, decide_eq_true_eq] at h1
    omega
  split
  · rename_i hn
    rw [hn] at ha
    simp only [] at ha
    unfold dataUnknown at ha ⊢
    split
    · rename_i h2; rw [if_pos h2, goaway_dead] at ha; cases ha
    · exact rej ((Path.one (.recv c _)).tr' ((path_sendRst _ _ _ _).tr (path_condConn _))) hw
  · rename_i s hs
    split
    · have p := (Path.one (Micro.recv c (d.length + pad))).tr' (path_condConn _)
      split
      · exact rej (p.tr' (path_sendRst _ _ _ _)) hw
      · exact rej p hw
    · split
      · exact rej (((path_sendRst c sid STREAM_CLOSED true).tr (Path.one (.recv _ _))).tr' (path_condConn _)) hw
      · split
        · exact rej (((path_sendRst c sid FLOW_CONTROL_ERROR true).tr (Path.one (.recv _ _))).tr' (path_condConn _)) hw
        · rename_i hr _
          obtain ⟨ls, e, p⟩ := path_dataAccept c sid (d.length + pad) d fin h hi h0 s hs (by simpa using hr)
          refine ⟨_, p, ?_, hw⟩
          rcases e with e | ⟨es, rs, sl, k, e⟩
          · subst e; simp [sumL, recvN]
          · subst e
            rw [sumL, sumL_append, sumL, recvN_app (isApp_ended k), recvN_app (isApp_script sl)]
            simp [recvN]

theorem step_recvN {i : Input} {ls : List Lab} (h : StepLabs i ls) (hd : ∀ sid d pad fin s, i ≠ .data sid d pad fin s) : sumL recvN ls = 0 := by
  cases i with
  | settings k ack es =>
    apply sumL_zero
    intro y hy
    have := (h y hy).1
    cases y <;> first | rfl | cases this
  | data k d pad fin sc => exact absurd rfl (hd k d pad fin sc)
  | headers k frag fin eh sc =>
    obtain ⟨rs, sl, e⟩ := h
    rcases e with e | e <;> subst e
    · exact recvN_app (isApp_script sl)
    · rw [sumL, recvN_app (isApp_script sl)]; rfl
  | continuation k frag eh sc => exact recvN_app (isApp_script h)
  | app a =>
    have h : ls.Sublist a.labs := h
    have : ls.Sublist ([a].flatMap Act.labs) := by simpa using h
    exact recvN_app (isApp_acts this)
  | windowUpdate k inc => rcases h with e | ⟨_, e⟩ | ⟨_, e⟩ <;> subst e <;> rfl
  | rst k code => rcases h with e | e <;> subst e <;> rfl
  | goaway last code => rcases h with e | e <;> subst e <;> rfl
  | _ => have h : ls = [] := h; subst h; rfl

/-- The connection window of a working connection. -/
theorem recvW_run (d : x.D) (e : x.E) (is : List Input) (ha : (run (Conn.init (x := x) d e) is).alive = true) :
    (run (Conn.init (x := x) d e) is).recvW + (received is : Nat) = 65535 + (credits 0 (run (Conn.init (x := x) d e) is).out : Nat) ∧
    0 ≤ (run (Conn.init (x := x) d e) is).recvW := by
  induction is using snocInd with
  | h0 => exact ⟨rfl, by show (0 : Int) ≤ 65535; decide⟩
  | hs is i ih =>
    rw [run_snoc] at ha ⊢
    rw [received_append]
    have hi := (Inv0.init (x := x) d e).run is
    generalize run (Conn.init (x := x) d e) is = c at *
    by_cases hd : ∃ sid d pad fin s, i = .data sid d pad fin s
    · obtain ⟨sid, b, pad, fin, sc, e⟩ := hd
      subst e
      obtain ⟨ls, p, e1, e2⟩ := onData_recv hi ha
      obtain ⟨h1, h2⟩ := ih (alive_path p ha)
      obtain ⟨h3, h4⟩ := path_recv p (alive_iff.mp ha).1
      have e3 := e2 h2
      have er : received [Input.data sid b pad fin sc] = b.length + pad := by simp [received]
      show (onData c sid b pad fin sc).recvW + _ = 65535 + (credits 0 (onData c sid b pad fin sc).out : Nat) ∧ 0 ≤ (onData c sid b pad fin sc).recvW
      rw [er]
      rw [e1] at h3 h4
      omega
    · have hd' : ∀ sid d pad fin s, i ≠ .data sid d pad fin s := fun sid b pad fin s z => hd ⟨sid, b, pad, fin, s, z⟩
      obtain ⟨ls, hl, p⟩ := path_step c i hi
      have e1 := step_recvN hl hd'
      obtain ⟨h1, h2⟩ := ih (alive_path p ha)
      obtain ⟨h3, h4⟩ := path_recv p (alive_iff.mp ha).1
      have er : received [i] = 0 := by cases i <;> first | rfl | exact absurd rfl (hd' _ _ _ _ _)
      rw [er]
      rw [e1] at h3 h4
      omega

/-! ## The window of a stream -/

/-- How the window of a stream changes in a small step. -/
structure WinStep (l : List Lab) (j ca cb : Nat) (t t' : SStream) : Prop where
  thr : t'.threshold = t.threshold
  sum : t'.localW + (t'.processed : Int) + (sumL (inN j) l : Nat) = t.localW + (t.processed : Int) + (sumL (credN j) l : Nat)
  cred : t'.localW + (sumL (inN j) l : Nat) + (ca : Int) = t.localW + (cb : Int)
  small : t.threshold = 32767 → t.processed < 32767 → t'.processed < 32767

theorem micro_credits {a b : Conn x} {l : List Lab} (m : Micro a l b) {j : Nat} (hj : j ≠ 0) (h : ∀ n, Lab.cred j n ∉ l) :
    credits j b.out = credits j a.out := by
  cases m with
  | aux _ h1 h2 h3 h4 h5 h6 h7 h8 h9 _ => rw [h6]
  | plain o ho =>
    show credits j (a.out ++ [o]) = _
    rw [credits_append, credits_plain j ho]; rfl
  | die code ha => show credits j (a.out ++ [_]) = _; rw [credits_append]; rfl
  | data s k fin p hs hk hm hp hw ho he hf hf' hh hp' => show credits j (a.out ++ [_]) = _; rw [credits_append]; rfl
  | start sid r b s block hb hs he => show credits j (a.out ++ [_]) = _; rw [credits_append]; rfl
  | trail sid s hs he ho ht => show credits j (a.out ++ [_]) = _; rw [credits_append]; rfl
  | request sid s hs hd h1 h2 h3 h4 h5 => show credits j (a.out ++ [_]) = _; rw [credits_append]; rfl
  | credConn inc h hi =>
    show credits j (a.out ++ _) = _
    rw [credits_append]
    split
    · simp [credits, Ne.symm hj]
    · rfl
  | credSend sid n p h0 s hs hp _ =>
    have : sid ≠ j := fun e => h n (by rw [e]; exact List.mem_singleton.mpr rfl)
    show credits j (a.out ++ _) = _
    rw [credits_append]
    split
    · simp [credits, this]
    · rfl
  | _ => rfl

theorem micro_win {a b : Conn x} {l : List Lab} (m : Micro a l b) {j : Nat} (hj : j ≠ 0) (hb : b.ok = true) {t' : SStream} (h : b.find j = some t') :
    (a.find j = none ∧ t'.localW = 65535 ∧ t'.processed = 0 ∧ t'.threshold = 32767 ∧ sumL (inN j) l = 0 ∧ sumL (credN j) l = 0 ∧
      credits j b.out = credits j a.out) ∨
    ∃ t, a.find j = some t ∧ WinStep l j (credits j a.out) (credits j b.out) t t' := by
  have hcr := micro_credits m hj
  have same : ∀ {t t' : SStream}, sumL (inN j) l = 0 → sumL (credN j) l = 0 → (∀ n, Lab.cred j n ∉ l) → t'.localW = t.localW →
      t'.processed = t.processed → t'.threshold = t.threshold → WinStep l j (credits j a.out) (credits j b.out) t t' := by
    intro t t' h0 h1 h2 h3 h4 h5
    exact ⟨h5, by rw [h0, h1, h3, h4], by rw [h0, h3, hcr h2]; omega, by rw [h4]; exact fun _ => id⟩
  have keep : sumL (inN j) l = 0 → sumL (credN j) l = 0 → (∀ n, Lab.cred j n ∉ l) → a.find j = some t' →
    (a.find j = none ∧ t'.localW = 65535 ∧ t'.processed = 0 ∧ t'.threshold = 32767 ∧ sumL (inN j) l = 0 ∧ sumL (credN j) l = 0 ∧
      credits j b.out = credits j a.out) ∨
    ∃ t, a.find j = some t ∧ WinStep l j (credits j a.out) (credits j b.out) t t' :=
    fun h0 h1 h2 h => Or.inr ⟨t', h, same h0 h1 h2 rfl rfl rfl⟩
  have U : ∀ {c : Conn x} {sid : Nat} {f : SStream → SStream}, c.streams = a.streams → (c.upd sid f).find j = some t' → (∀ s, (f s).id = s.id) →
      (∀ t, a.find j = some t → sid = j → WinStep l j (credits j a.out) (credits j b.out) t (f t)) →
      (sid ≠ j → sumL (inN j) l = 0 ∧ sumL (credN j) l = 0 ∧ ∀ n, Lab.cred j n ∉ l) →
      (a.find j = none ∧ t'.localW = 65535 ∧ t'.processed = 0 ∧ t'.threshold = 32767 ∧ sumL (inN j) l = 0 ∧ sumL (credN j) l = 0 ∧
      credits j b.out = credits j a.out) ∨
      ∃ t, a.find j = some t ∧ WinStep l j (credits j a.out) (credits j b.out) t t' := by
    intro c sid f e h k q q'
    have hc' : ∀ i, c.find i = a.find i := fun i => by unfold Conn.find; rw [e]
    rcases find_upd_some h k with ⟨e, t, ht, et⟩ | ⟨e, ht⟩
    · rw [hc', ← e] at ht; rw [et]; exact Or.inr ⟨t, ht, q t ht e.symm⟩
    · rw [hc'] at ht
      obtain ⟨q1, q2, q3⟩ := q' (fun z => e z.symm)
      exact keep q1 q2 q3 ht
  cases m with
  | aux _ h1 h2 h3 h4 h5 h6 h7 h8 h9 _ => apply keep rfl rfl (by simp); unfold Conn.find at h ⊢; rwa [h1] at h
  | erase sid hc => exact keep rfl rfl (by simp) (find_erase_some h).2
  | prune p hn => exact keep rfl rfl (by simp) (find_filter_some hn h).1
  | soft sid f k hs hpo =>
    rw [find_upd j k] at h
    split at h
    · rename_i e
      subst e
      cases hf : a.find j with
      | none => rw [hf] at h; cases h
      | some t =>
        rw [hf] at h
        have e := (Option.some.inj h).symm
        have q := hs t hf
        rw [e]
        exact Or.inr ⟨t, rfl, same rfl rfl (by simp) q.localW q.processed q.threshold⟩
    · exact keep rfl rfl (by simp) h
  | opened sid h1 h2 h3 h4 h5 =>
    rcases find_app (c := a) (s := { id := sid, peerW := a.initPeer }) h3 h with ⟨e, et⟩ | ⟨e, ht⟩
    · have e : j = sid := e
      subst e; subst et; exact Or.inl ⟨h3, rfl, rfl, rfl, rfl, rfl, rfl⟩
    · exact keep rfl rfl (by simp) ht
  | pushed sid parent h1 h2 h3 =>
    rcases find_app (c := a) (s := { id := sid, state := .reservedLocal, peerW := a.initPeer, parent := parent }) h3 h with ⟨e, et⟩ | ⟨e, ht⟩
    · have e : j = sid := e
      subst e; subst et; exact Or.inl ⟨h3, rfl, rfl, rfl, rfl, rfl, rfl⟩
    · exact keep rfl rfl (by simp) ht
  | data s k fin p hs hk hm hp hw ho he hf hf' hh hp' =>
    have h' : (a.upd s.id (fun _ => { s with
          offset := s.offset + k
          peerW := s.peerW - (k : Int)
          endSent := s.endSent || fin
          state := if fin then .halfClosedLocal else s.state
          pending := p })).find j = some t' := h
    rcases find_updc_some hs (by rfl) h' with ⟨e, e'⟩ | ⟨e, h'⟩
    · subst e; subst e'
      exact Or.inr ⟨s, hs, same rfl rfl (by simp) rfl rfl rfl⟩
    · exact keep rfl rfl (by simp) h'
  | setMax n _ => exact keep rfl rfl (by simp) h
  | plain o _ => exact keep rfl rfl (by simp) h
  | die code _ => exact keep rfl rfl (by simp) h
  | rstIn sid code => exact U (c := a) rfl h (fun _ => rfl) (fun t _ e => same rfl rfl (by simp) rfl rfl rfl) (fun _ => ⟨rfl, rfl, by simp⟩)
  | ended sid => exact U (c := a) rfl h (fun _ => rfl) (fun t _ e => same rfl rfl (by simp) rfl rfl rfl) (fun _ => ⟨rfl, rfl, by simp⟩)
  | rebody sid r b hb => exact U (c := a) rfl h (fun _ => rfl) (fun t _ e => same rfl rfl (by simp) rfl rfl rfl) (fun _ => ⟨rfl, rfl, by simp⟩)
  | start sid r b s block hb hs he => exact U (c := a.emit (.headers sid block r.body.isEmpty)) rfl h (fun _ => rfl) (fun t _ e => same rfl rfl (by simp) rfl rfl rfl) (fun _ => ⟨rfl, rfl, by simp⟩)
  | trail sid s hs he ho ht => exact U (c := a.emit (.headers sid [] true)) rfl h (fun _ => rfl) (fun t _ e => same rfl rfl (by simp) rfl rfl rfl) (fun _ => ⟨rfl, rfl, by simp⟩)
  | recv n => exact keep rfl rfl (by simp) h
  | dataIn sid n d s hs he =>
    refine U (c := { a with recvW := a.recvW - (n : Int) }) rfl h (fun _ => rfl) (fun t ht e => ?_) (fun e => ⟨by simp [sumL, inN, e], rfl, by simp⟩)
    subst e
    have e1 : sumL (inN sid) [Lab.dataIn sid n d] = n := by simp [sumL, inN]
    have e2 : sumL (credN sid) [Lab.dataIn sid n d] = 0 := rfl
    refine ⟨rfl, ?_, ?_, fun _ => id⟩
    · show t.localW - (n : Int) + (t.processed : Int) + _ = _
      rw [e1, e2]; omega
    · show t.localW - (n : Int) + _ + _ = _
      rw [e1, hcr (by simp)]; omega
  | credConn inc _ _ => exact keep rfl rfl (by simp) h
  | credKeep sid n p s hs hp hlt =>
    refine U (c := a) rfl h (fun _ => rfl) (fun t ht e => ?_) (fun e => ⟨rfl, by simp [sumL, credN, e], by simp [Ne.symm e]⟩)
    subst e
    have : s = t := Option.some.inj (hs.symm.trans ht)
    subst this
    have e1 : sumL (inN sid) [Lab.cred sid n] = 0 := rfl
    have e2 : sumL (credN sid) [Lab.cred sid n] = n := by simp [sumL, credN]
    refine ⟨rfl, ?_, ?_, fun z _ => ?_⟩
    · show s.localW + (p : Int) + _ = _
      rw [e1, e2, hp]; omega
    · rw [e1]
      show s.localW + _ + (credits sid a.out : Int) = s.localW + (credits sid a.out : Int)
      omega
    · show p < 32767
      omega
  | credSend sid n p h0 s hs hp _ =>
    refine U (c := { a with out := a.out ++ (if a.ok then [Out.windowUpdate sid p] else []) }) rfl h (fun _ => rfl) (fun t ht e => ?_)
      (fun e => ⟨rfl, by simp [sumL, credN, e], by simp [Ne.symm e]⟩)
    subst e
    have : s = t := Option.some.inj (hs.symm.trans ht)
    subst this
    have hb : a.ok = true := hb
    have e1 : sumL (inN sid) [Lab.cred sid n] = 0 := rfl
    have e2 : sumL (credN sid) [Lab.cred sid n] = n := by simp [sumL, credN]
    refine ⟨rfl, ?_, ?_, fun z _ => by show (0 : Nat) < 32767; decide⟩
    · show s.localW + (p : Int) + 0 + _ = _
      rw [e1, e2, hp]; omega
    · rw [e1]
      show s.localW + (p : Int) + _ + (credits sid a.out : Int) = s.localW + (credits sid (a.out ++ (if a.ok then [Out.windowUpdate sid p] else [])) : Int)
      rw [if_pos hb, credits_append]
      simp only [credits, if_true]
      omega
  | grantConn inc _ => exact keep rfl rfl (by simp) h
  | grant sid inc s hs hp => exact U (c := a) rfl h (fun _ => rfl) (fun t _ e => same rfl rfl (by simp) rfl rfl rfl) (fun _ => ⟨rfl, rfl, by simp⟩)
  | setInit new => exact keep rfl rfl (by simp) h
  | shift sid delta => exact U (c := a) rfl h (fun _ => rfl) (fun t _ e => same rfl rfl (by simp) rfl rfl rfl) (fun _ => ⟨rfl, rfl, by simp⟩)
  | head sid hodd fs r cl hr => exact U (c := a) rfl h (fun _ => rfl) (fun t _ e => same rfl rfl (by simp) rfl rfl rfl) (fun _ => ⟨rfl, rfl, by simp⟩)
  | trailers sid fs s hs hm hdrs ht => exact U (c := a) rfl h (fun _ => rfl) (fun t _ e => same rfl rfl (by simp) rfl rfl rfl) (fun _ => ⟨rfl, rfl, by simp⟩)
  | request sid s hs hd h1 h2 h3 h4 h5 =>
    exact U (c := a) (sid := sid) (f := fun s => { s with dispatched := true }) rfl h (fun _ => rfl) (fun t _ e => same rfl rfl (by simp) rfl rfl rfl) (fun _ => ⟨rfl, rfl, by simp⟩)

/-- Where the window of a client stream stands: `I` octets accepted, `C` octets accounted for. -/
structure Win (c : Conn x) (sid I C : Nat) : Prop where
  at_ : ∀ s, c.find sid = some s → s.threshold = 32767 ∧ s.processed < 32767 ∧ s.localW + (s.processed : Int) + (I : Int) = 65535 + (C : Int) ∧
    s.localW + (I : Int) = 65535 + (credits sid c.out : Nat)
  fresh : c.lastClient < sid → I = 0 ∧ C = 0 ∧ c.find sid = none ∧ credits sid c.out = 0

theorem micro_inSome {a b : Conn x} {l : List Lab} (m : Micro a l b) {j : Nat} (h : a.find j = none) : sumL (inN j) l = 0 ∧ sumL (credN j) l = 0 ∧ ∀ n, Lab.cred j n ∉ l := by
  cases m with
  | dataIn sid n d s hs he =>
    have : sid ≠ j := fun e => by rw [e, h] at hs; cases hs
    exact ⟨by simp [sumL, inN, this], rfl, by simp⟩
  | credKeep sid n p s hs hp hlt =>
    have : sid ≠ j := fun e => by rw [e, h] at hs; cases hs
    exact ⟨rfl, by simp [sumL, credN, this], by simp [Ne.symm this]⟩
  | credSend sid n p h0 s hs hp _ =>
    have : sid ≠ j := fun e => by rw [e, h] at hs; cases hs
    exact ⟨rfl, by simp [sumL, credN, this], by simp [Ne.symm this]⟩
  | _ => exact ⟨rfl, rfl, by simp⟩

theorem Win.micro {a b : Conn x} {l : List Lab} {sid I C : Nat} (m : Micro a l b) (ho : sid % 2 = 1) (hb : b.ok = true) (h : Win a sid I C) :
    Win b sid (I + sumL (inN sid) l) (C + sumL (credN sid) l) := by
  have hj : sid ≠ 0 := by omega
  refine ⟨fun s hs => ?_, fun hlt => ?_⟩
  · rcases micro_win m hj hb hs with ⟨hn, e1, e2, e3, e4, e5, e6⟩ | ⟨t, ht, k⟩
    · have hlt : a.lastClient < sid := by
        rcases micro_find m hs with ⟨_, _, e, _⟩ | ⟨_, _, e, _⟩ | ⟨t', ht', _⟩
        · subst e
          cases m with
          | opened _ _ h2 => exact h2
        · omega
        · rw [hn] at ht'; cases ht'
      obtain ⟨f1, f2, f3, f4⟩ := h.fresh hlt
      refine ⟨e3, by omega, ?_, ?_⟩
      · rw [e1, e2, e4, e5, f1, f2]; rfl
      · rw [e1, e4, e6, f1, f4]
    · obtain ⟨h1, h2, h3, h4⟩ := h.at_ t ht
      have k1 := k.sum
      have k2 := k.cred
      refine ⟨k.thr.trans h1, k.small h1 h2, ?_, ?_⟩
      · omega
      · omega
  · obtain ⟨f1, f2, f3, f4⟩ := h.fresh (Nat.lt_of_le_of_lt (micro_last m) hlt)
    obtain ⟨g1, g2, g3⟩ := micro_inSome m f3
    refine ⟨by omega, by omega, ?_, by rw [micro_credits m hj g3]; exact f4⟩
    cases hbf : b.find sid with
    | none => rfl
    | some t =>
      rcases micro_find m hbf with ⟨_, _, e, _⟩ | ⟨_, _, e, _⟩ | ⟨t', ht', _⟩
      · subst e
        cases m with
        | opened => exact absurd hlt (Nat.lt_irrefl _)
      · omega
      · rw [f3] at ht'; cases ht'

theorem Win.path {a b : Conn x} {l : List Lab} {sid I C : Nat} (p : Path a l b) (ho : sid % 2 = 1) (hb : b.ok = true) (h : Win a sid I C) :
    Win b sid (I + sumL (inN sid) l) (C + sumL (credN sid) l) := by
  induction p generalizing I C with
  | refl c => exact h
  | step m q ih =>
    rw [sumL_append, sumL_append, ← Nat.add_assoc, ← Nat.add_assoc]
    exact ih hb (h.micro m ho ((path_alive q).1 hb))

end Verif.Srv
