import Verif.Srv.Decomp3
import Verif.Srv.Spec

/-! # Flow control towards the client: invariants -/

namespace Verif.Srv
open Verif.Stream
open Verif.Wire (Headers)

variable {x : Ext}

local macro "auxp" : tactic => `(tactic| exact Path.one (Micro.aux _ _ rfl rfl rfl rfl rfl rfl rfl (fun h => h) (fun h => h)))

/-! ## The connection window -/

def labConn : List Lab → Nat
  | [] => 0
  | .grantConn inc :: ls => inc + labConn ls
  | _ :: ls => labConn ls

theorem labConn_append (a b : List Lab) : labConn (a ++ b) = labConn a + labConn b := by
  induction a with
  | nil => simp [labConn]
  | cons o a ih => cases o <;> simp [labConn, ih]; omega

theorem octets_plain {o : Out} (h : Plain o = true) : octets [o] = 0 := by cases o <;> simp [Plain, octets] at h ⊢
theorem octetsOn_plain {o : Out} (sid : Nat) (h : Plain o = true) : octetsOn sid [o] = 0 := by cases o <;> simp [Plain, octetsOn] at h ⊢

theorem micro_send {a b : Conn x} {l : List Lab} (m : Micro a l b) (h : 0 ≤ a.sendW) :
    0 ≤ b.sendW ∧ b.sendW + octets b.out = a.sendW + octets a.out + labConn l := by
  cases m with
  | aux _ h1 h2 h3 h4 h5 h6 h7 h8 h9 _ => rw [h2, h6]; exact ⟨h, by simp [labConn]⟩
  | plain o ho =>
    refine ⟨h, ?_⟩
    show a.sendW + ((octets (a.out ++ [o]) : Nat) : Int) = _
    rw [octets_append, octets_plain ho]; simp [labConn]
  | die code ha =>
    refine ⟨h, ?_⟩
    show a.sendW + ((octets (a.out ++ [_]) : Nat) : Int) = _
    rw [octets_append]; simp [labConn, octets]
  | data s k fin p hs hk hm hp hw ho he hf hf' hh hp' =>
    refine ⟨by show 0 ≤ a.sendW - (k : Int); omega, ?_⟩
    show a.sendW - (k : Int) + ((octets (a.out ++ [_]) : Nat) : Int) = _
    rw [octets_append]
    have : ((s.body.drop s.offset).take k).length = k := by
      rw [List.length_take, List.length_drop]; omega
    simp only [octets, labConn, this]; omega
  | start sid r b s block hb hs he =>
    refine ⟨h, ?_⟩
    show a.sendW + ((octets (a.out ++ [_]) : Nat) : Int) = _
    rw [octets_append]; simp [labConn, octets]
  | trail sid s hs he ho ht =>
    refine ⟨h, ?_⟩
    show a.sendW + ((octets (a.out ++ [_]) : Nat) : Int) = _
    rw [octets_append]; simp [labConn, octets]
  | credConn inc _ _ =>
    refine ⟨h, ?_⟩
    show a.sendW + ((octets (a.out ++ _) : Nat) : Int) = _
    rw [octets_append]; split <;> simp [labConn, octets]
  | credSend sid n p h0 s hs hp _ =>
    refine ⟨h, ?_⟩
    show a.sendW + ((octets (a.out ++ _) : Nat) : Int) = _
    rw [octets_append]; split <;> simp [labConn, octets]
  | request sid s hs hd h1 h2 h3 h4 h5 =>
    refine ⟨h, ?_⟩
    show a.sendW + ((octets (a.out ++ [_]) : Nat) : Int) = _
    rw [octets_append]; simp [labConn, octets]
  | grantConn inc _ =>
    refine ⟨by show 0 ≤ a.sendW + (inc : Int); omega, ?_⟩
    show a.sendW + (inc : Int) + (octets a.out : Int) = _
    simp [labConn]; omega
  | _ => exact ⟨h, by simp [labConn]; try rfl⟩

theorem path_send {a b : Conn x} {l : List Lab} (p : Path a l b) (h : 0 ≤ a.sendW) :
    0 ≤ b.sendW ∧ b.sendW + octets b.out = a.sendW + octets a.out + labConn l := by
  induction p with
  | refl c => exact ⟨h, by simp [labConn]⟩
  | step m _ ih =>
    obtain ⟨h1, e1⟩ := micro_send m h
    obtain ⟨h2, e2⟩ := ih h1
    exact ⟨h2, by rw [labConn_append]; omega⟩

theorem labConn_resp {ls : List Lab} (h : ∀ y ∈ ls, Lab.isApp y = true) : labConn ls = 0 := by
  induction ls with
  | nil => rfl
  | cons y l ih =>
    have := h y (List.mem_cons_self ..)
    have ih := ih (fun z hz => h z (List.mem_cons_of_mem _ hz))
    cases y <;> simp [Lab.isApp] at this <;> simpa [labConn] using ih

theorem isApp_ended {es : List Lab} {sid : Nat} {fin : Bool} (k : es = [] ∨ (fin = true ∧ es = [Lab.ended sid])) :
    ∀ y ∈ es, Lab.isApp y = true := by
  rcases k with k | ⟨_, k⟩ <;> subst k <;> simp [Lab.isApp]

theorem labConn_set {ls : List Lab} (h : ∀ y ∈ ls, Lab.isSet y = true) : labConn ls = 0 := by
  induction ls with
  | nil => rfl
  | cons y l ih =>
    have := h y (List.mem_cons_self ..)
    have ih := ih (fun z hz => h z (List.mem_cons_of_mem _ hz))
    cases y <;> simp [Lab.isSet] at this <;> simpa [labConn] using ih

theorem labConn_step {i : Input} {ls : List Lab} (h : StepLabs i ls) : labConn ls ≤ granted 0 [i] := by
  cases i with
  | data sid d pad fin sc =>
    rcases h with e | e | e | ⟨es, rs, sl, k, e⟩ <;> subst e <;> simp [labConn]
    rw [labConn_append, labConn_resp (isApp_ended k)]
    simp only [labConn]
    rw [labConn_resp (isApp_script sl)]; exact Nat.zero_le _
  | headers sid frag fin eh sc =>
    obtain ⟨rs, sl, e | e⟩ := h <;> subst e
    · rw [labConn_resp (isApp_script sl)]; exact Nat.zero_le _
    · simp only [labConn]; rw [labConn_resp (isApp_script sl)]; exact Nat.zero_le _
  | continuation sid frag eh sc =>
    rw [labConn_resp (isApp_script h)]; exact Nat.zero_le _
  | settings sid ack es => rw [labConn_set (fun y hy => (h y hy).1)]; exact Nat.zero_le _
  | windowUpdate sid inc =>
    rcases h with e | ⟨h0, e⟩ | ⟨_, e⟩ <;> subst e
    · exact Nat.zero_le _
    · simp [labConn, granted, h0]
    · simp [labConn]
  | app a =>
    have h : ls.Sublist a.labs := h
    have : ls.Sublist ([a].flatMap Act.labs) := by simpa using h
    rw [labConn_resp (isApp_acts this)]; exact Nat.zero_le _
  | rst j code => rcases h with e | e <;> subst e <;> simp [labConn]
  | goaway last code => rcases h with e | e <;> subst e <;> simp [labConn]
  | _ => have h : ls = [] := h; subst h; exact Nat.zero_le _

/-! ## The window of a stream -/

/-- What stream `sid` has sent and may still send is within `M`, and (in case `S`) within `W` if its
window follows the settings. -/
structure Budget (c : Conn x) (sid : Nat) (S : Prop) (W M : Int) : Prop where
  live : ∀ s, c.find sid = some s → s.endSent = false →
    (S → Early s.state → s.peerW + octetsOn sid c.out ≤ W) ∧ s.peerW + octetsOn sid c.out ≤ M
  sent : (octetsOn sid c.out : Int) ≤ M

theorem Budget.mono {c : Conn x} {sid : Nat} {S S' : Prop} {W W' M M' : Int} (h : Budget c sid S W M) (hS : S' → S) (hw : W ≤ W') (hm : M ≤ M') :
    Budget c sid S' W' M' :=
  ⟨fun s hs he => ⟨fun a e => Int.le_trans ((h.live s hs he).1 (hS a) e) hw, Int.le_trans (h.live s hs he).2 hm⟩, Int.le_trans h.sent hm⟩

/-- A stream that was not opened yet has sent nothing. -/
def Fresh (c : Conn x) (sid : Nat) : Prop := c.lastClient < sid → octetsOn sid c.out = 0 ∧ c.find sid = none

/-- The labels that change the windows of stream `sid`. -/
def Lab.touches (sid : Nat) : Lab → Bool
  | .grant j _ => j == sid
  | .shift j _ => j == sid
  | .setInit _ => true
  | _ => false

/-- The window of a stream in a step that is no grant. -/
theorem micro_peerW {a b : Conn x} {l : List Lab} (m : Micro a l b) {sid : Nat} (ho : sid % 2 = 1)
    (ht : ∀ y ∈ l, Lab.touches sid y = false) {s' : SStream} (h : b.find sid = some s') :
    (a.find sid = none ∧ s'.peerW = a.initPeer ∧ octetsOn sid b.out = octetsOn sid a.out ∧ a.lastClient < sid) ∨
    ∃ s, a.find sid = some s ∧ s'.peerW + octetsOn sid b.out = s.peerW + octetsOn sid a.out ∧
      (octetsOn sid b.out : Int) ≤ max (octetsOn sid a.out : Int) (s.peerW + octetsOn sid a.out) := by
  have keep : ∀ s, a.find sid = some s → s'.peerW = s.peerW → octetsOn sid b.out = octetsOn sid a.out →
      (a.find sid = none ∧ s'.peerW = a.initPeer ∧ octetsOn sid b.out = octetsOn sid a.out ∧ a.lastClient < sid) ∨
      ∃ s, a.find sid = some s ∧ s'.peerW + octetsOn sid b.out = s.peerW + octetsOn sid a.out ∧
      (octetsOn sid b.out : Int) ≤ max (octetsOn sid a.out : Int) (s.peerW + octetsOn sid a.out) := by
    intro s hs e1 e2
    exact Or.inr ⟨s, hs, by rw [e1, e2], by rw [e2]; omega⟩
  have U : ∀ (c : Conn x) (j : Nat) (f : SStream → SStream), c.streams = a.streams → (c.upd j f).find sid = some s' →
      (∀ s, (f s).id = s.id) → (∀ s, (f s).peerW = s.peerW ∨ j ≠ sid) → octetsOn sid b.out = octetsOn sid a.out →
      (a.find sid = none ∧ s'.peerW = a.initPeer ∧ octetsOn sid b.out = octetsOn sid a.out ∧ a.lastClient < sid) ∨
      ∃ s, a.find sid = some s ∧ s'.peerW + octetsOn sid b.out = s.peerW + octetsOn sid a.out ∧
      (octetsOn sid b.out : Int) ≤ max (octetsOn sid a.out : Int) (s.peerW + octetsOn sid a.out) := by
    intro c j f hc h k q e2
    have hc' : ∀ i, c.find i = a.find i := fun i => by unfold Conn.find; rw [hc]
    rcases find_upd_some h k with ⟨e, t, ht, et⟩ | ⟨e, ht⟩
    · rw [hc'] at ht
      subst e
      refine keep t ht ?_ e2
      rw [et]
      rcases q t with q | q
      · exact q
      · exact absurd rfl q
    · rw [hc'] at ht
      exact keep s' ht rfl e2
  have app0 : ∀ os, (∀ o ∈ os, ∀ j d f, o ≠ Out.data j d f) → octetsOn sid (a.out ++ os) = octetsOn sid a.out := by
    intro os hos
    rw [octetsOn_append]
    have : octetsOn sid os = 0 := by
      induction os with
      | nil => rfl
      | cons o os ih =>
        have := hos o (List.mem_cons_self ..)
        have ih := ih (fun o ho => hos o (List.mem_cons_of_mem _ ho))
        cases o <;> simp only [octetsOn] <;> first | exact ih | exact absurd rfl (this _ _ _)
    omega
  cases m with
  | aux _ h1 h2 h3 h4 h5 h6 h7 h8 h9 _ =>
    unfold Conn.find at h; rw [h1] at h
    exact keep s' h rfl (by rw [h6])
  | setMax n _ => exact keep s' h rfl rfl
  | ended j => exact U a _ _ rfl h (fun _ => rfl) (fun _ => Or.inl rfl) rfl
  | rstIn j code => exact U a _ _ rfl h (fun _ => rfl) (fun _ => Or.inl rfl) rfl
  | plain o hp =>
    refine keep s' h rfl ?_
    show octetsOn sid (a.out ++ [o]) = _
    rw [octetsOn_append, octetsOn_plain sid hp]; rfl
  | die code _ => exact keep s' h rfl (app0 [_] (by simp))
  | erase j => exact keep s' (find_erase_some h).2 rfl rfl
  | prune p hn => exact keep s' (find_filter_some hn h).1 rfl rfl
  | soft j f k hs hpo =>
    rw [find_upd sid k] at h
    split at h
    · rename_i e
      cases hf : a.find j with
      | none => rw [hf] at h; cases h
      | some t =>
        rw [hf] at h
        have e' := (Option.some.inj h).symm
        have hq := hs t hf
        subst e
        exact keep t hf (by rw [e', hq.peerW]) rfl
    · exact keep s' h rfl rfl
  | opened j h1 h2 h3 h4 h5 =>
    rcases find_app (c := a) (s := { id := j, peerW := a.initPeer }) h3 h with ⟨e, et⟩ | ⟨e, ht⟩
    · have e : sid = j := e
      subst e
      exact Or.inl ⟨h3, by rw [et], rfl, h2⟩
    · exact keep s' ht rfl rfl
  | pushed j parent h1 h2 h3 =>
    rcases find_app (c := a) (s := { id := j, state := .reservedLocal, peerW := a.initPeer, parent := parent }) h3 h with ⟨e, et⟩ | ⟨e, ht⟩
    · have e : sid = j := e
      omega
    · exact keep s' ht rfl rfl
  | data s k fin p hs hk hm hp hw ho' he hf hf' hh hp' =>
    have e : ((s.body.drop s.offset).take k).length = k := by
      rw [List.length_take, List.length_drop]; omega
    have eo : octetsOn sid (a.out ++ [.data s.id ((s.body.drop s.offset).take k) fin]) = octetsOn sid a.out + (if s.id = sid then k else 0) := by
      rw [octetsOn_append]; simp only [octetsOn, e]; omega
    rcases find_updc_some hs (by rfl) h with ⟨e1, e2⟩ | ⟨e1, h'⟩
    · refine Or.inr ⟨s, by rw [e1]; exact hs, ?_, ?_⟩
      · show s'.peerW + (octetsOn sid (a.out ++ [_]) : Int) = _
        rw [eo, if_pos e1.symm, e2]
        show s.peerW - (k : Int) + _ = _
        omega
      · show (octetsOn sid (a.out ++ [_]) : Int) ≤ _
        rw [eo, if_pos e1.symm]
        omega
    · refine keep s' h' rfl ?_
      show octetsOn sid (a.out ++ [_]) = _
      rw [eo, if_neg (fun e => e1 e.symm)]; rfl
  | rebody => exact U a _ _ rfl h (fun _ => rfl) (fun _ => Or.inl rfl) rfl
  | start => exact U (a.emit _) _ _ rfl h (fun _ => rfl) (fun _ => Or.inl rfl) (app0 [_] (by simp))
  | trail => exact U (a.emit _) _ _ rfl h (fun _ => rfl) (fun _ => Or.inl rfl) (app0 [_] (by simp))
  | recv n => exact keep s' h rfl rfl
  | dataIn => exact U { a with recvW := _ } _ _ rfl h (fun _ => rfl) (fun _ => Or.inl rfl) rfl
  | credConn inc _ _ => exact keep s' h rfl (app0 _ (by split <;> simp))
  | credKeep => exact U a _ _ rfl h (fun _ => rfl) (fun _ => Or.inl rfl) rfl
  | credSend => exact U { a with out := _ } _ _ rfl h (fun _ => rfl) (fun _ => Or.inl rfl) (app0 _ (by split <;> simp))
  | grantConn inc _ => exact keep s' h rfl rfl
  | grant j inc s hs hp =>
    have := ht _ (List.mem_cons_self ..)
    simp only [Lab.touches, beq_eq_false_iff_ne] at this
    exact U a _ _ rfl h (fun _ => rfl) (fun _ => Or.inr this) rfl
  | setInit new => exact keep s' h rfl rfl
  | shift j delta =>
    have := ht _ (List.mem_cons_self ..)
    simp only [Lab.touches, beq_eq_false_iff_ne] at this
    exact U a _ _ rfl h (fun _ => rfl) (fun _ => Or.inr this) rfl
  | head => exact U a _ _ rfl h (fun _ => rfl) (fun _ => Or.inl rfl) rfl
  | trailers => exact U a _ _ rfl h (fun _ => rfl) (fun _ => Or.inl rfl) rfl
  | request j => exact U a j (fun s => { s with dispatched := true }) rfl h (fun _ => rfl) (fun _ => Or.inl rfl) (app0 [_] (by simp))

/-- What a stream has sent grows only while it is there, within its window. -/
theorem micro_sent {a b : Conn x} {l : List Lab} (m : Micro a l b) (sid : Nat) :
    octetsOn sid b.out = octetsOn sid a.out ∨
    ∃ s, a.find sid = some s ∧ (StateOk s → s.endSent = false) ∧ (octetsOn sid b.out : Int) ≤ s.peerW + octetsOn sid a.out := by
  have app0 : ∀ os, (∀ o ∈ os, ∀ j d f, o ≠ Out.data j d f) → octetsOn sid (a.out ++ os) = octetsOn sid a.out := by
    intro os hos
    rw [octetsOn_append]
    have : octetsOn sid os = 0 := by
      induction os with
      | nil => rfl
      | cons o os ih =>
        have := hos o (List.mem_cons_self ..)
        have ih := ih (fun o ho => hos o (List.mem_cons_of_mem _ ho))
        cases o <;> simp only [octetsOn] <;> first | exact ih | exact absurd rfl (this _ _ _)
    omega
  cases m with
  | aux _ h1 h2 h3 h4 h5 h6 h7 h8 h9 _ => exact Or.inl (by rw [h6])
  | plain o hp =>
    refine Or.inl ?_
    show octetsOn sid (a.out ++ [o]) = _
    rw [octetsOn_append, octetsOn_plain sid hp]; rfl
  | data s k fin p hs hk hm hp hw ho' he hf hf' hh hp' =>
    have e : ((s.body.drop s.offset).take k).length = k := by
      rw [List.length_take, List.length_drop]; omega
    have eo : octetsOn sid (a.out ++ [.data s.id ((s.body.drop s.offset).take k) fin]) = octetsOn sid a.out + (if s.id = sid then k else 0) := by
      rw [octetsOn_append]; simp only [octetsOn, e]; omega
    by_cases e1 : s.id = sid
    · refine Or.inr ⟨s, by rw [← e1]; exact hs, he, ?_⟩
      show (octetsOn sid (a.out ++ [_]) : Int) ≤ _
      rw [eo, if_pos e1]; omega
    · refine Or.inl ?_
      show octetsOn sid (a.out ++ [_]) = _
      rw [eo, if_neg e1]; rfl
  | die => exact Or.inl (app0 [_] (by simp))
  | start => exact Or.inl (app0 [_] (by simp))
  | trail => exact Or.inl (app0 [_] (by simp))
  | credConn inc _ _ => exact Or.inl (app0 _ (by split <;> simp))
  | credSend => exact Or.inl (app0 _ (by split <;> simp))
  | request => exact Or.inl (app0 [_] (by simp))
  | _ => exact Or.inl rfl

theorem micro_last {a b : Conn x} {l : List Lab} (m : Micro a l b) : a.lastClient ≤ b.lastClient := by
  cases m with
  | aux _ h1 h2 h3 h4 h5 h6 h7 h8 h9 _ => exact Nat.le_of_eq h7.symm
  | opened j h1 h2 h3 h4 h5 => exact Nat.le_of_lt h2
  | _ => exact Nat.le_refl _

theorem micro_opened {a b : Conn x} {l : List Lab} (m : Micro a l b) {j : Nat} (h : l = [.opened j]) : b.lastClient = j := by
  cases m with
  | opened j' h1 h2 h3 h4 h5 => cases h; rfl
  | _ => cases h

theorem micro_fresh {a b : Conn x} {l : List Lab} (m : Micro a l b) {sid : Nat} (ho : sid % 2 = 1) (h : Fresh a sid) : Fresh b sid := by
  intro hl
  have hla := Nat.lt_of_le_of_lt (micro_last m) hl
  obtain ⟨h1, h2⟩ := h hla
  refine ⟨?_, ?_⟩
  · rcases micro_sent m sid with e | ⟨s, hs, _⟩
    · rw [e, h1]
    · rw [h2] at hs; cases hs
  · cases hb : b.find sid with
    | none => rfl
    | some t =>
      rcases micro_find m hb with ⟨_, _, e, _⟩ | ⟨_, _, e, _⟩ | ⟨t', ht, _⟩
      · have := micro_opened m e; omega
      · omega
      · rw [h2] at ht; cases ht

theorem path_fresh {a b : Conn x} {l : List Lab} (p : Path a l b) {sid : Nat} (ho : sid % 2 = 1) (h : Fresh a sid) : Fresh b sid :=
  Path.induct (P := fun c => Fresh c sid) (fun _ _ _ m h => micro_fresh m ho h) p h

theorem micro_initPeer {a b : Conn x} {l : List Lab} (m : Micro a l b) (hl : ∀ y ∈ l, ∀ n, y ≠ Lab.setInit n) : b.initPeer = a.initPeer := by
  cases m with
  | aux _ h1 h2 h3 h4 h5 h6 h7 h8 h9 _ => exact h4
  | setInit n => exact absurd rfl (hl _ (List.mem_cons_self ..) n)
  | _ => rfl

/-- Without a grant for the stream the budget stays. -/
theorem micro_budget {a b : Conn x} {l : List Lab} (m : Micro a l b) {sid : Nat} (ho : sid % 2 = 1) (hi0 : Inv0 a)
    (ht : ∀ y ∈ l, Lab.touches sid y = false) {S : Prop} {W M : Int} (hf : Fresh a sid)
    (hi : Lab.opened sid ∈ l → (a.initPeer : Int) ≤ W ∧ (a.initPeer : Int) ≤ M) (h : Budget a sid S W M) :
    Budget b sid S W M := by
  constructor
  · intro s' hs' hes
    rcases micro_peerW m ho ht hs' with ⟨e0, e1, e2, e3⟩ | ⟨s, hs, e, _⟩
    · have : Lab.opened sid ∈ l := by
        rcases micro_find m hs' with ⟨_, _, e, _⟩ | ⟨_, _, e, _⟩ | ⟨t, ht, _⟩
        · rw [e]; simp
        · omega
        · rw [e0] at ht; cases ht
      have := hi this
      rw [e1, e2, (hf e3).1]
      exact ⟨fun _ _ => by simpa using this.1, by simpa using this.2⟩
    · rw [e]
      rcases micro_find m hs' with ⟨e0, _⟩ | ⟨e0, _⟩ | ⟨t, ht, k⟩
      · rw [hs] at e0; cases e0
      · rw [hs] at e0; cases e0
      · have : s = t := Option.some.inj (hs.symm.trans ht)
        subst this
        have he : s.endSent = false := by
          cases h : s.endSent with
          | false => rfl
          | true => rw [k.endSent h] at hes; cases hes
        obtain ⟨k1, k2⟩ := h.live s hs he
        exact ⟨fun ha hy => k1 ha (k.early hes hy), k2⟩
  · rcases micro_sent m sid with e | ⟨s, hs, he, e⟩
    · rw [e]; exact h.sent
    · have := (h.live s hs (he (hi0.state _ _ hs))).2; omega

theorem path_budget {a b : Conn x} {l : List Lab} (p : Path a l b) {sid : Nat} (ho : sid % 2 = 1) (hi0 : Inv0 a)
    (ht : ∀ y ∈ l, Lab.touches sid y = false) {S : Prop} {W M : Int} (hf : Fresh a sid)
    (hi : Lab.opened sid ∈ l → (a.initPeer : Int) ≤ W ∧ (a.initPeer : Int) ≤ M) (h : Budget a sid S W M) :
    Budget b sid S W M ∧ b.initPeer = a.initPeer := by
  induction p with
  | refl c => exact ⟨h, rfl⟩
  | step m _ ih =>
    have t1 := fun y hy => ht y (List.mem_append_left _ hy)
    have t2 := fun y hy => ht y (List.mem_append_right _ hy)
    have e := micro_initPeer m (fun y hy n e => by have := t1 y hy; rw [e] at this; cases this)
    obtain ⟨h1, h2⟩ := ih (Inv0.micro m hi0) t2 (micro_fresh m ho hf) (by rw [e]; exact fun hy => hi (List.mem_append_right _ hy))
      (micro_budget m ho hi0 t1 hf (fun hy => hi (List.mem_append_left _ hy)) h)
    exact ⟨h1, h2.trans e⟩

/-- A grant for the stream raises the budget by as much. -/
theorem budget_add {a : Conn x} {sid n : Nat} {S : Prop} {W M : Int} (h : Budget a sid S W M) :
    Budget (a.upd sid (fun s => { s with peerW := s.peerW + (n : Int) })) sid S (W + n) (M + n) := by
  constructor
  · intro s' hs' hes
    rcases find_upd_some hs' (fun _ => rfl) with ⟨_, t, ht, e⟩ | ⟨e, _⟩
    · subst e
      obtain ⟨k1, k2⟩ := h.live t ht hes
      refine ⟨fun ha hy => ?_, ?_⟩
      · have := k1 ha hy
        show t.peerW + (n : Int) + (octetsOn sid a.out : Int) ≤ _
        omega
      · show t.peerW + (n : Int) + (octetsOn sid a.out : Int) ≤ _
        omega
    · exact absurd rfl e
  · have := h.sent
    show (octetsOn sid a.out : Int) ≤ _
    omega

theorem fresh_upd {a : Conn x} {sid j : Nat} {f : SStream → SStream} (k : ∀ s, (f s).id = s.id) (h : Fresh a sid) : Fresh (a.upd j f) sid := by
  intro hl
  obtain ⟨h1, h2⟩ := h hl
  refine ⟨h1, ?_⟩
  cases hb : (a.upd j f).find sid with
  | none => rfl
  | some t =>
    rcases find_upd_some hb k with ⟨e, u, hu, _⟩ | ⟨_, hu⟩
    · rw [e] at h2; rw [h2] at hu; cases hu
    · rw [h2] at hu; cases hu

theorem shiftStream_budget (c : Conn x) (delta : Int) {sid : Nat} (ho : sid % 2 = 1) (hi0 : Inv0 c) {W M : Int}
    (hf : Fresh c sid) (hn : ∀ s, c.find sid = some s → s.state ≠ .idle) (h : Budget c sid True W M) (hm : W + delta ≤ M) :
    Budget (shiftStream c delta sid).1 sid True (W + delta) M ∧ (shiftStream c delta sid).1.initPeer = c.initPeer := by
  unfold shiftStream
  split
  · rename_i hc
    exact ⟨⟨fun s hs => (by rw [hc] at hs; cases hs), h.sent⟩, rfl⟩
  · rename_i s hs
    have hok := hi0.state _ _ hs
    split
    · rename_i hst
      have b1 : Budget (c.upd sid (fun s => { s with peerW := s.peerW + delta })) sid True (W + delta) M := by
        constructor
        · intro s' hs' hes
          rcases find_upd_some hs' (fun _ => rfl) with ⟨_, t, ht, e⟩ | ⟨e, _⟩
          · have : t = s := Option.some.inj (ht.symm.trans hs)
            subst this; subst e
            obtain ⟨k1, k2⟩ := h.live t ht hes
            have hE : Early t.state := by
              cases hst' : t.state <;> rw [hst'] at hst <;> simp [Early] at hst ⊢
              have := hok.hcl hst'
              rw [this] at hes; cases hes
            have := k1 trivial hE
            have e : t.peerW + delta + (octetsOn sid c.out : Int) ≤ W + delta := by omega
            exact ⟨fun _ _ => e, Int.le_trans e hm⟩
          · exact absurd rfl e
        · exact h.sent
      have f1 : Fresh (c.upd sid (fun s => { s with peerW := s.peerW + delta })) sid := fresh_upd (fun _ => rfl) hf
      have i1 : Inv0 (c.upd sid (fun s => { s with peerW := s.peerW + delta })) := hi0.path (.one (.shift c sid delta))
      have P : ∀ c', Path (c.upd sid (fun s => { s with peerW := s.peerW + delta })) [] c' →
          Budget c' sid True (W + delta) M ∧ c'.initPeer = c.initPeer :=
        fun c' p => path_budget p ho i1 (by simp) f1 (by simp) b1
      simp only []
      split
      · exact P _ ((path_sendRst _ _ _ _).tr (path_goaway _ _))
      · split
        · exact P _ (path_trySend _ _)
        · exact P _ (.refl _)
    · rename_i hst
      refine ⟨⟨fun t ht hes => ?_, h.sent⟩, rfl⟩
      have : t = s := Option.some.inj (ht.symm.trans hs)
      subst this
      refine ⟨fun _ hE => ?_, (h.live t ht hes).2⟩
      rcases hE with e | e | e
      · exact absurd e (hn t ht)
      · rw [e] at hst; simp at hst
      · rw [e] at hst; simp at hst

theorem shiftStream_other (c : Conn x) (delta : Int) {j sid : Nat} (hj : j ≠ sid) (ho : sid % 2 = 1) (hi0 : Inv0 c) {S : Prop} {W M : Int}
    (hf : Fresh c sid) (h : Budget c sid S W M) :
    Budget (shiftStream c delta j).1 sid S W M ∧ (shiftStream c delta j).1.initPeer = c.initPeer := by
  obtain ⟨ls, e, p⟩ := path_shiftStream c delta j
  refine path_budget p ho hi0 ?_ hf ?_ h
  · rcases e with e | e <;> subst e <;> simp [Lab.touches, hj]
  · rcases e with e | e <;> subst e <;> simp

theorem goaway_active (c : Conn x) (code : Nat) : (goaway c code).active = false := by
  unfold goaway
  split
  · rename_i h; simpa using h
  · rfl

/-- The loop only stops early when it closes the connection. -/
theorem shiftStream_stop (c : Conn x) (delta : Int) (j : Nat) (h : (shiftStream c delta j).2 = false) :
    (shiftStream c delta j).1.active = false := by
  unfold shiftStream at h ⊢
  split at h
  · cases h
  · split at h
    · rename_i hc
      rw [if_pos hc]
      simp only [] at h ⊢
      split at h
      · rename_i hc
        rw [if_pos hc]
        exact goaway_active _ _
      · split at h <;> cases h
    · cases h

theorem budget_dead {c : Conn x} {sid : Nat} {S : Prop} {W W' M : Int} (ha : c.active = false) (h : Budget c sid S W M) :
    Budget c sid (c.active = true) W' M :=
  ⟨fun s hs he => ⟨fun a => (by rw [ha] at a; cases a), (h.live s hs he).2⟩, h.sent⟩

theorem shiftLoop_budget {delta : Int} {sid : Nat} (ho : sid % 2 = 1) (ids : List Nat) (c : Conn x) (hi0 : Inv0 c) {W M : Int}
    (hm : W + delta ≤ M) (hn : ids.Nodup) (hf : Fresh c sid) (hid : ∀ s, c.find sid = some s → s.state ≠ .idle)
    (h : Budget c sid True (if sid ∈ ids then W else W + delta) M) :
    Budget (shiftLoop delta ids c) sid ((shiftLoop delta ids c).active = true) (W + delta) M ∧ (shiftLoop delta ids c).initPeer = c.initPeer := by
  induction ids generalizing c with
  | nil => rw [shiftLoop]; exact ⟨Budget.mono (by simpa using h) (fun _ => trivial) (Int.le_refl _) (Int.le_refl _), rfl⟩
  | cons j ids ih =>
    rw [shiftLoop]
    rw [List.nodup_cons] at hn
    obtain ⟨ls, e, p⟩ := path_shiftStream c delta j
    have f1 := path_fresh p ho hf
    have i1 := hi0.path p
    have id1 : ∀ s, (shiftStream c delta j).1.find sid = some s → s.state ≠ .idle := by
      intro s' hs' hc
      obtain ⟨s, hs, k⟩ := path_later p ho (by rcases e with e | e <;> subst e <;> simp) hs'
      exact hid s hs (k.idle hc)
    by_cases hj : j = sid
    · subst hj
      rw [if_pos (List.mem_cons_self ..)] at h
      obtain ⟨b1, e1⟩ := shiftStream_budget c delta ho hi0 hf hid h hm
      split
      · obtain ⟨b2, e2⟩ := ih _ i1 hn.2 f1 id1 (by rw [if_neg hn.1]; exact b1)
        exact ⟨b2, e2.trans e1⟩
      · exact ⟨b1.mono (fun _ => trivial) (Int.le_refl _) (Int.le_refl _), e1⟩
    · obtain ⟨b1, e1⟩ := shiftStream_other c delta hj ho hi0 hf h
      have hm : (sid ∈ j :: ids) ↔ sid ∈ ids := by
        rw [List.mem_cons]; exact ⟨fun h => h.resolve_left (fun e => hj e.symm), Or.inr⟩
      split
      · obtain ⟨b2, e2⟩ := ih _ i1 hn.2 f1 id1 (by simpa only [hm] using b1)
        exact ⟨b2, e2.trans e1⟩
      · rename_i hr
        exact ⟨budget_dead (shiftStream_stop c delta j (by simpa using hr)) b1, e1⟩

/-- The budget follows SETTINGS_INITIAL_WINDOW_SIZE. -/
theorem updateInitial_budget (hx : ∀ l, (x.order l).Perm l) (c : Conn x) (new : Nat) {sid g M : Nat} (ho : sid % 2 = 1) (hi0 : Inv0 c)
    (hf : Fresh c sid) (hid : ∀ s, c.find sid = some s → s.state ≠ .idle) (hw : new ≤ M)
    (h : Budget c sid True ((c.initPeer : Int) + g) ((M : Int) + g)) :
    Budget (updateInitial c new) sid ((updateInitial c new).active = true) ((new : Int) + g) ((M : Int) + g) ∧ (updateInitial c new).initPeer = new := by
  have i1 : Inv0 ({ c with initPeer := new } : Conn x) := hi0.path (.one (.setInit c new))
  unfold updateInitial
  simp only []
  have f1 : Fresh { c with initPeer := new } sid := hf
  have h1 : Budget { c with initPeer := new } sid True ((c.initPeer : Int) + g) ((M : Int) + g) := ⟨h.live, h.sent⟩
  have hn := (hx (c.streams.map (·.id))).nodup_iff.mpr hi0.nodup
  have := shiftLoop_budget (x := x) (delta := (new : Int) - (c.initPeer : Int)) ho (x.order (c.streams.map (·.id)))
    { c with initPeer := new } i1 (W := (c.initPeer : Int) + g) (M := (M : Int) + g) (by omega) hn f1 hid (by
      split
      · exact h1
      · rename_i hni
        refine ⟨fun s hs => ?_, h1.sent⟩
        exfalso
        apply hni
        rw [(hx _).mem_iff, List.mem_map]
        exact ⟨s, find_mem hs, find_id hs⟩)
  obtain ⟨b, e⟩ := this
  exact ⟨b.mono id (by omega) (by omega), e⟩

/-- What holds between inputs. -/
structure Sent (c : Conn x) (sid g M : Nat) : Prop where
  inv : Inv0 c
  fresh : Fresh c sid
  le : c.initPeer ≤ M
  budget : Budget c sid (c.active = true) ((c.initPeer : Int) + g) ((M : Int) + g)

theorem Sent.path {a b : Conn x} {l : List Lab} {sid g M : Nat} (h : Sent a sid g M) (ho : sid % 2 = 1) (p : Path a l b)
    (ht : ∀ y ∈ l, Lab.touches sid y = false) : Sent b sid g M := by
  have := h.le
  obtain ⟨h1, h2⟩ := path_budget p ho h.inv ht h.fresh (fun _ => ⟨by omega, by omega⟩) h.budget
  exact ⟨h.inv.path p, path_fresh p ho h.fresh, by rw [h2]; exact this, by
    rw [h2]; exact h1.mono (path_alive p).2 (Int.le_refl _) (Int.le_refl _)⟩

/-- No client stream is idle. -/
def NoIdle (c : Conn x) (sid : Nat) : Prop := ∀ s, c.find sid = some s → s.state ≠ .idle

theorem NoIdle.path {a b : Conn x} {l : List Lab} {sid : Nat} (h : NoIdle a sid) (ho : sid % 2 = 1) (p : Path a l b)
    (hl : Lab.opened sid ∉ l) : NoIdle b sid := by
  intro s' hs' e
  obtain ⟨s, hs, k⟩ := path_later p ho hl hs'
  exact h s hs (k.idle e)

theorem applySetting_sent (hx : ∀ l, (x.order l).Perm l) {c : Conn x} (id : UInt16) (v : UInt32) {sid g M : Nat} (ho : sid % 2 = 1)
    (h : Sent c sid g M) (hn : NoIdle c sid) (hw : id = 4 → v.toNat ≤ M ∧ c.active = true) :
    Sent (applySetting c id v) sid g M := by
  by_cases h4 : id = 4
  · obtain ⟨b, e⟩ := updateInitial_budget hx c v.toNat ho h.inv h.fresh hn (hw h4).1
      (h.budget.mono (fun _ => (hw h4).2) (Int.le_refl _) (Int.le_refl _))
    obtain ⟨ls, _, p⟩ := path_applySetting c id v
    have e4 : applySetting c id v = updateInitial c v.toNat := by subst h4; rfl
    rw [e4]
    rw [e4] at p
    exact ⟨h.inv.path p, path_fresh p ho h.fresh, by rw [e]; exact (hw h4).1, by rw [e]; exact b⟩
  · have : ∃ ls, (∀ y ∈ ls, Lab.touches sid y = false) ∧ Path c ls (applySetting c id v) := by
      unfold applySetting
      have nil : ∀ {c' : Conn x}, Path c [] c' → ∃ ls, (∀ y ∈ ls, Lab.touches sid y = false) ∧ Path c ls c' := fun p => ⟨[], by simp, p⟩
      split
      · exact nil (by auxp)
      split
      · exact nil (by auxp)
      split
      · exact nil (by auxp)
      split
      · rename_i e; exact absurd (by simpa using e) h4
      split
      · refine ⟨[.setMax (H2.clampPeerMax v).toNat], by simp [Lab.touches], .one (.setMax _ _ ?_)⟩
        rw [H2.C24_peer_limit]; omega
      split
      · exact nil (by auxp)
      · exact nil (.refl _)
    obtain ⟨ls, ht, p⟩ := this
    exact h.path ho p ht

theorem set_not_opened {ls : List Lab} (h : ∀ y ∈ ls, Lab.isSet y = true) (sid : Nat) : Lab.opened sid ∉ ls := by
  intro hm
  have := h _ hm
  cases this

theorem settingsLoop_sent (hx : ∀ l, (x.order l).Perm l) (es : List (UInt16 × UInt32)) {c : Conn x} {sid g M : Nat} (ho : sid % 2 = 1)
    (h : Sent c sid g M) (hn : NoIdle c sid) (hw : ∀ w ∈ windowsIn es, w ≤ M)
    (ha : (settingsLoop es c).1.active = true ∨ windowsIn es = [] ∨ ((windowsIn es).length = 1 ∧ c.active = true)) :
    Sent (settingsLoop es c).1 sid g M := by
  induction es generalizing c with
  | nil => exact h
  | cons e es ih =>
    obtain ⟨id, v⟩ := e
    rw [settingsLoop] at ha ⊢
    split
    · exact h.path ho (path_goaway c _) (by simp)
    · rename_i hv
      rw [hv] at ha
      simp only [] at ha
      obtain ⟨ls, hs, p⟩ := path_applySetting c id v
      obtain ⟨ls', _, p'⟩ := path_settingsLoop es (applySetting c id v)
      have hv : id = 4 → v.toNat ≤ M ∧ c.active = true := fun h4 => ⟨hw _ (by rw [windowsIn, if_pos h4]; exact List.mem_cons_self ..), by
        rcases ha with ha | ha | ha
        · exact (path_alive p).2 ((path_alive p').2 ha)
        · rw [windowsIn, if_pos h4] at ha; cases ha
        · exact ha.2⟩
      refine ih (applySetting_sent hx id v ho h hn hv) (hn.path ho p (set_not_opened (fun y hy => (hs y hy).1) sid)) (fun w hm => hw w ?_) ?_
      · rw [windowsIn]
        split
        · exact List.mem_cons_of_mem _ hm
        · exact hm
      · rw [windowsIn] at ha
        rcases ha with ha | ha | ha
        · exact Or.inl ha
        · split at ha
          · cases ha
          · exact Or.inr (Or.inl ha)
        · by_cases h4 : id = 4
          · rw [if_pos h4] at ha
            have : windowsIn es = [] := by
              have := ha.1
              simpa using this
            exact Or.inr (Or.inl this)
          · rw [if_neg h4] at ha
            refine Or.inr (Or.inr ⟨ha.1, ?_⟩)
            have : (applySetting c id v).active = c.active := by
              unfold applySetting
              repeat' split
              all_goals first | rfl | (rename_i e; exact absurd (by simpa using e) h4)
            rw [this]; exact ha.2

theorem touches_resp {ls : List Lab} (sid : Nat) (h : ∀ y ∈ ls, Lab.isApp y = true) : ∀ y ∈ ls, Lab.touches sid y = false := by
  intro y hy
  have := h y hy
  cases y <;> simp [Lab.isApp] at this <;> rfl

theorem alive_iff {c : Conn x} : c.alive = true ↔ c.ok = true ∧ c.active = true := by
  unfold Conn.alive; rw [Bool.and_eq_true]

theorem alive_path {a b : Conn x} {l : List Lab} (p : Path a l b) (h : b.alive = true) : a.alive = true := by
  rw [alive_iff] at h ⊢
  exact ⟨(path_alive p).1 h.1, (path_alive p).2 h.2⟩

theorem goaway_dead (c : Conn x) (code : Nat) : (goaway c code).alive = false := by
  unfold Conn.alive; rw [goaway_active, Bool.and_false]

theorem markHeaders_idle {c : Conn x} {sid : Nat} (fin eh : Bool) : NoIdle (markHeaders c sid fin eh) sid := by
  have one : NoIdle (c.upd sid (fun s => { s with state := if s.state == .idle then .open_ else s.state })) sid := by
    intro s' hs'
    rcases find_upd_some hs' (fun _ => rfl) with ⟨_, t, _, e⟩ | ⟨e, _⟩
    · rw [e]
      cases h : t.state <;> simp [h]
    · exact absurd rfl e
  unfold markHeaders
  split
  · intro s' hs' hc
    rcases find_upd_some hs' (fun _ => rfl) with ⟨_, t, ht, e⟩ | ⟨e, _⟩
    · have := one t ht
      rw [e] at hc
      have hc : (if eh = true then recvEnd t.state else t.state) = .idle := hc
      cases eh
      · exact this hc
      · cases h : t.state <;> rw [h] at hc this <;> simp [recvEnd] at hc this
    · exact absurd rfl e
  · exact one

theorem opened_resp {ls : List Lab} (sid : Nat) (h : ∀ y ∈ ls, Lab.isApp y = true) : Lab.opened sid ∉ ls := labs_opened h

/-- A HEADERS frame leaves its stream not idle, or kills the connection. -/
theorem headersOn_idle {c : Conn x} {s : SStream} {frag : Bytes} {fin eh : Bool} {h : Script} (hs : c.find s.id = some s) (ho : s.id % 2 = 1)
    (hn : s.state = .idle → s.expecting = false ∧ s.rstRecv = false ∧ s.rstSent = false)
    (ha : (headersOn c s frag fin eh h).alive = true) : NoIdle (headersOn c s frag fin eh h) s.id := by
  have clr : ∀ d : Conn x, d.alive = false → (clearAssembly d).alive = false := fun d h => h
  by_cases hi : s.state = .idle
  · obtain ⟨h1, h2, h3⟩ := hn hi
    unfold headersOn at ha ⊢
    simp only [h1, h2, h3, hi] at ha ⊢
    simp only [Bool.false_eq_true, if_false, Bool.or_false, show ((State.idle == State.closed) = true) = False by simp,
      show ((State.idle == State.halfClosedRemote) = true) = False by simp] at ha ⊢
    split at ha
    · rw [goaway_dead] at ha; cases ha
    · rename_i g1
      rw [if_neg g1]
      split at ha
      · rw [goaway_dead] at ha; cases ha
      · rename_i g2
        rw [if_neg g2]
        have n1 := markHeaders_idle (c := { c with ctl := 0, contCount := 0, curSid := s.id, frag := c.frag ++ frag }) (sid := s.id) fin eh
        split
        · obtain ⟨ls, sl, p⟩ := path_headersEnd (markHeaders { c with ctl := 0, contCount := 0, curSid := s.id, frag := c.frag ++ frag } s.id fin eh)
            s.id s.headersMain h ho (by
              intro t ht
              obtain ⟨u, hu, e⟩ := markHeaders_find ht
              have hu : c.find s.id = some u := hu
              rw [hs] at hu
              rw [e, ← Option.some.inj hu])
          exact n1.path ho p (opened_resp _ (isApp_script sl))
        · have p : Path (markHeaders { c with ctl := 0, contCount := 0, curSid := s.id, frag := c.frag ++ frag } s.id fin eh) []
              ((markHeaders { c with ctl := 0, contCount := 0, curSid := s.id, frag := c.frag ++ frag } s.id fin eh).upd s.id
                (fun s => { s with expecting := true })) := Path.soft (fun s => soft_same _ _ rfl)
          exact n1.path ho p (by simp)
  · obtain ⟨ls, sl, p⟩ := path_headersOn c s frag fin eh h hs ho
    refine NoIdle.path (a := c) ?_ ho p (opened_resp _ (isApp_script sl))
    intro t ht
    rw [hs] at ht
    rw [← Option.some.inj ht]; exact hi

/-- A HEADERS frame on a stream that is there opens none. -/
theorem path_onHeaders_old (c : Conn x) (sid : Nat) (frag : Bytes) (fin eh : Bool) (h : Script) (hf : ∃ s, c.find sid = some s) :
    ∃ ls, ls.Sublist (h.labs sid fin) ∧ Path c ls (onHeaders c sid frag fin eh h) := by
  have nil : ∀ {c' : Conn x}, Path c [] c' → ∃ ls, ls.Sublist (h.labs sid fin) ∧ Path c ls c' := fun p => ⟨[], by simp, p⟩
  obtain ⟨s, hs⟩ := hf
  unfold onHeaders
  split
  · exact nil (.refl _)
  split
  · exact nil (path_goaway _ _)
  split
  · exact nil (path_goaway _ _)
  · rename_i h2
    rw [hs]
    have e := find_id hs
    rw [← e]
    exact path_headersOn c s frag fin eh h (by rw [e]; exact hs) (by
      rw [e]
      have : ¬ sid % 2 = 0 := by simpa using h2
      omega)

theorem onHeaders_new {c : Conn x} {sid : Nat} {frag : Bytes} {fin eh : Bool} {h : Script} (hf : c.find sid = none) (ho : sid % 2 = 1)
    (ha : (onHeaders c sid frag fin eh h).alive = true) : NoIdle (onHeaders c sid frag fin eh h) sid := by
  have triv : ∀ {d : Conn x}, Path c [] d → NoIdle d sid := fun p s' hs' => by
    obtain ⟨s, hs, _⟩ := path_later p ho (by simp) hs'
    rw [hf] at hs; cases hs
  unfold onHeaders at ha ⊢
  split
  · exact triv (.refl _)
  · rename_i g1
    rw [if_neg g1] at ha
    split
    · exact triv (path_goaway _ _)
    · rename_i g2
      rw [if_neg g2] at ha
      split
      · exact triv (path_goaway _ _)
      · rename_i g3
        rw [if_neg g3] at ha
        simp only [hf] at ha ⊢
        split
        · exact triv (path_sendRst _ _ _ _)
        · rename_i g4
          rw [if_neg g4] at ha
          split
          · exact triv (path_sendRst _ _ _ _)
          · rename_i g5
            rw [if_neg g5] at ha
            split
            · exact triv (path_sendRst _ _ _ _)
            · rename_i g6
              rw [if_neg g6] at ha
              exact headersOn_idle (s := { id := sid, peerW := c.initPeer }) (by
                show ({ c with streams := c.streams ++ [_], lastClient := _ } : Conn x).find sid = _
                unfold Conn.find
                rw [find_append_list c.streams { id := sid, peerW := c.initPeer } sid hf, if_pos rfl]) ho (fun _ => ⟨rfl, rfl, rfl⟩) ha

theorem noIdle_step {c : Conn x} (i : Input) (hi : Inv0 c) {sid : Nat} (ho : sid % 2 = 1) (hn : c.alive = true → NoIdle c sid)
    (ha : (step c i).alive = true) : NoIdle (step c i) sid := by
  obtain ⟨ls, hl, p⟩ := path_step c i hi
  have hc := alive_path p ha
  have done : Lab.opened sid ∉ ls → NoIdle (step c i) sid := fun h => (hn hc).path ho p h
  cases i with
  | data j d pad fin sc =>
    apply done
    rcases hl with e | e | e | ⟨es, rs, sl, k, e⟩ <;> subst e <;> simp
    exact ⟨opened_resp sid (isApp_ended k), opened_resp sid (isApp_script sl)⟩
  | headers j frag fin eh sc =>
    obtain ⟨rs, sl, e | e⟩ := hl
    · subst e; exact done (opened_resp sid (isApp_script sl))
    · by_cases hj : j = sid
      · subst hj
        have ha : (onHeaders c j frag fin eh sc).alive = true := ha
        show NoIdle (onHeaders c j frag fin eh sc) j
        cases hf : c.find j with
        | some s =>
          refine NoIdle.path (hn hc) ho (path_onHeaders_old c j frag fin eh sc ⟨s, hf⟩).choose_spec.2 ?_
          exact opened_resp _ (isApp_script (path_onHeaders_old c j frag fin eh sc ⟨s, hf⟩).choose_spec.1)
        | none => exact onHeaders_new hf ho ha
      · apply done
        subst e
        intro hm
        rcases List.mem_cons.mp hm with e | e
        · exact hj (Lab.opened.inj e).symm
        · exact opened_resp sid (isApp_script sl) e
  | continuation j frag eh sc => exact done (opened_resp sid (isApp_script hl))
  | app a =>
    have hl : ls.Sublist a.labs := hl
    have : ls.Sublist ([a].flatMap Act.labs) := by simpa using hl
    exact done (opened_resp sid (isApp_acts this))
  | windowUpdate j inc =>
    rcases hl with e | ⟨h0, e⟩ | ⟨h0, e⟩ <;> subst e <;> exact done (by simp)
  | settings j ack es => exact done (set_not_opened (fun y hy => (hl y hy).1) sid)
  | rst j code => rcases hl with e | e <;> subst e <;> exact done (by simp [Lab.touches])
  | goaway last code => rcases hl with e | e <;> subst e <;> exact done (by simp [Lab.touches])
  | _ => have hl : ls = [] := hl; subst hl; exact done (by simp)

/-- One input. -/
theorem sent_step (hx : ∀ l, (x.order l).Perm l) {c : Conn x} (i : Input) {sid g M : Nat} (ho : sid % 2 = 1)
    (h : Sent c sid g M) (hn : c.alive = true → NoIdle c sid) (hw : ∀ w ∈ windows [i], w ≤ M)
    (ha : (step c i).alive = true ∨ (windows [i]).length ≤ 1) :
    Sent (step c i) sid (g + granted sid [i]) M := by
  have up : ∀ {c' : Conn x} g', g ≤ g' → Sent c' sid g M → Sent c' sid g' M :=
    fun g' hg k => ⟨k.inv, k.fresh, k.le, k.budget.mono id (by omega) (by omega)⟩
  obtain ⟨ls, hl, p⟩ := path_step c i h.inv
  have done : (∀ y ∈ ls, Lab.touches sid y = false) → Sent (step c i) sid (g + granted sid [i]) M :=
    fun ht => up _ (by omega) (h.path ho p ht)
  cases i with
  | data j d pad fin sc =>
    apply done
    rcases hl with e | e | e | ⟨es, rs, sl, k, e⟩ <;> subst e <;> simp [Lab.touches]
    intro y hy
    rcases hy with hy | e | hy
    · exact touches_resp sid (isApp_ended k) y hy
    · subst e; rfl
    · exact touches_resp sid (isApp_script sl) y hy
  | headers j frag fin eh sc =>
    apply done
    obtain ⟨rs, sl, e | e⟩ := hl <;> subst e
    · exact touches_resp sid (isApp_script sl)
    · intro y hy
      rcases List.mem_cons.mp hy with e | e
      · subst e; rfl
      · exact touches_resp sid (isApp_script sl) y e
  | continuation j frag eh sc => exact done (touches_resp sid (isApp_script hl))
  | app a =>
    have hl : ls.Sublist a.labs := hl
    have : ls.Sublist ([a].flatMap Act.labs) := by simpa using hl
    exact done (touches_resp sid (isApp_acts this))
  | windowUpdate j inc =>
    rcases hl with e | ⟨h0, e⟩ | ⟨h0, e⟩
    · subst e; exact done (by simp)
    · subst e; exact done (by simp [Lab.touches])
    · by_cases hj : j = sid
      · subst hj
        have key : Sent (onWindowUpdate c j inc) j (g + inc) M := by
          have nil : ∀ {c' : Conn x}, Path c [] c' → Sent c' j (g + inc) M := fun p => up _ (by omega) (h.path ho p (by simp))
          unfold onWindowUpdate
          have h0' : ¬ ((j == 0) = true) := by simpa using h0
          split
          · exact nil (path_sendRst _ _ _ _)
          split
          · split
            · exact nil (path_goaway _ _)
            · exact nil (.refl _)
          · rename_i s hs
            split
            · exact nil (path_sendRst _ _ _ _)
            split
            · split
              · exact nil (path_sendRst _ _ _ _)
              · exact nil (.refl _)
            split
            · exact nil (path_sendRst _ _ _ _)
            · rename_i hw'
              have p1 := Path.one (Micro.grant c j inc s hs (by omega))
              have b1 : Sent (c.upd j (fun s => { s with peerW := s.peerW + (inc : Int) })) j (g + inc) M :=
                ⟨h.inv.path p1, path_fresh p1 ho h.fresh, h.le, (budget_add h.budget).mono id (by show _ ≤ ((c.initPeer : Int) + _); omega) (by omega)⟩
              simp only []
              split
              · exact b1.path ho (path_trySend _ _) (by simp)
              · exact b1
        have : granted j [Input.windowUpdate j inc] = inc := by simp [granted]
        rw [this]; exact key
      · subst e; exact done (by simp [Lab.touches, hj])
  | settings j ack es =>
    have hw' : windows [Input.settings j ack es] = windowsIn es := by simp [windows]
    rw [hw'] at hw ha
    have key : Sent (onSettings c j ack es) sid g M := by
      have nil : ∀ {c' : Conn x}, Path c [] c' → Sent c' sid g M := fun p => h.path ho p (by simp)
      have ha : (onSettings c j ack es).alive = true ∨ (windowsIn es).length ≤ 1 := ha
      unfold onSettings at ha ⊢
      split
      · exact nil (.refl _)
      rename_i hal
      rw [if_neg hal] at ha
      have hal : c.alive = true := by
        rw [alive_iff]
        simpa using hal
      split
      · exact nil (path_goaway _ _)
      rename_i g1
      rw [if_neg g1] at ha
      split
      · split
        · exact nil (.refl _)
        · exact nil (path_goaway _ _)
      rename_i g2
      rw [if_neg g2] at ha
      simp only [] at ha ⊢
      have p1 : Path (settingsLoop es c).1 [] { (settingsLoop es c).1 with ctl := (settingsLoop es c).1.ctl + 1 } := by auxp
      have tail : ∃ d, (if (!(settingsLoop es c).2) = true then (settingsLoop es c).1
          else if ({ (settingsLoop es c).1 with ctl := (settingsLoop es c).1.ctl + 1 } : Conn x).ctl > MAX_QUEUED_CONTROL_REPLIES then
            goaway { (settingsLoop es c).1 with ctl := (settingsLoop es c).1.ctl + 1 } ENHANCE_YOUR_CALM
          else Conn.emit { (settingsLoop es c).1 with ctl := (settingsLoop es c).1.ctl + 1 } .settingsAck) = d ∧
          Path (settingsLoop es c).1 [] d := by
        refine ⟨_, rfl, ?_⟩
        split
        · exact .refl _
        · split
          · exact p1.tr (path_goaway _ _)
          · exact p1.tr (.one (.plain _ _ rfl))
      obtain ⟨d, e, pd⟩ := tail
      rw [e] at ha ⊢
      refine Sent.path ?_ ho pd (by simp)
      refine settingsLoop_sent hx es ho h (hn hal) hw ?_
      rcases ha with ha | ha
      · exact Or.inl (alive_iff.mp (alive_path pd ha)).2
      · cases hwe : windowsIn es with
        | nil => exact Or.inr (Or.inl rfl)
        | cons w ws =>
          rw [hwe] at ha
          have : (w :: ws).length = 1 := by
            simp only [List.length_cons] at ha ⊢
            omega
          exact Or.inr (Or.inr ⟨this, (alive_iff.mp hal).2⟩)
    exact up _ (by omega) key
  | rst j code => rcases hl with e | e <;> subst e <;> exact done (by simp [Lab.touches])
  | goaway last code => rcases hl with e | e <;> subst e <;> exact done (by simp [Lab.touches])
  | _ => have hl : ls = [] := hl; subst hl; exact done (by simp)

theorem sent_run (hx : ∀ l, (x.order l).Perm l) (d : x.D) (e : x.E) (is : List Input) {sid M : Nat} (ho : sid % 2 = 1)
    (hM : 65535 ≤ M) (hw : ∀ w ∈ windows is, w ≤ M) (ha : (run (Conn.init (x := x) d e) is).alive = true ∨ ∀ i ∈ is, (windows [i]).length ≤ 1) :
    Sent (run (Conn.init (x := x) d e) is) sid (granted sid is) M ∧
    ((run (Conn.init (x := x) d e) is).alive = true → NoIdle (run (Conn.init (x := x) d e) is) sid) := by
  induction is using snocInd with
  | h0 =>
    have hf : ∀ s, (Conn.init (x := x) d e).find sid = some s → False := fun s h => by simp [Conn.init, Conn.find] at h
    refine ⟨⟨Inv0.init d e, fun _ => ⟨rfl, rfl⟩, hM, ⟨fun s hs => (hf s hs).elim, ?_⟩⟩, fun _ s hs => (hf s hs).elim⟩
    show ((octetsOn sid [] : Nat) : Int) ≤ _
    simp [octetsOn]; omega
  | hs is i ih =>
    rw [run_snoc] at ha ⊢
    rw [windows_append] at hw
    rw [granted_append]
    obtain ⟨k, n⟩ := ih (fun w hm => hw w (List.mem_append_left _ hm)) (by
      rcases ha with ha | ha
      · obtain ⟨_, _, p⟩ := path_step (run (Conn.init (x := x) d e) is) i ((Inv0.init d e).run is)
        exact Or.inl (alive_path p ha)
      · exact Or.inr (fun i hi => ha i (List.mem_append_left _ hi)))
    refine ⟨sent_step hx i ho k n (fun w hm => hw w (List.mem_append_right _ hm)) ?_, noIdle_step i k.inv ho n⟩
    rcases ha with ha | ha
    · exact Or.inl ha
    · exact Or.inr (ha i (by simp))

end Verif.Srv
