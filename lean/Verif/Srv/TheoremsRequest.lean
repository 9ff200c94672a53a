import Verif.Srv.Req
import Verif.Srv.HeadSpec
import Verif.Srv.Real

/-! # C94: the requests the application sees -/

namespace Verif.Srv
open Verif.Stream
open Verif.Wire (Headers)

variable {x : Ext}

theorem dataOf_app {ls : List Lab} (h : ∀ y ∈ ls, Lab.isApp y = true) (sid : Nat) : dataOf sid ls = [] := by
  induction ls with
  | nil => rfl
  | cons y ls ih =>
    have h1 := h y (List.mem_cons_self ..)
    have h2 := ih (fun z hz => h z (List.mem_cons_of_mem _ hz))
    cases y <;> first | exact h2 | cases h1

theorem dataOf_none {ls : List Lab} (sid : Nat) (h : ∀ y ∈ ls, ∀ n d, y ≠ .dataIn sid n d) : dataOf sid ls = [] := by
  induction ls with
  | nil => rfl
  | cons y ls ih =>
    have h1 := h y (List.mem_cons_self ..)
    have h2 := ih (fun z hz => h z (List.mem_cons_of_mem _ hz))
    cases y with
    | dataIn j n d =>
      have : j ≠ sid := fun e => h1 n d (by rw [e])
      simp [dataOf, this, h2]
    | _ => exact h2

/-- The accepted DATA of a DATA frame. -/
theorem dataLabs_of {sid n : Nat} {d : Bytes} {fin : Bool} {h : Script} {ls : List Lab} (k : DataLabs sid n d fin h ls) (j : Nat) :
    dataOf j ls = [] ∨ (j = sid ∧ dataOf j ls = d ∧ ∃ r, ls = .dataIn sid n d :: r) := by
  rcases k with e | e | e | ⟨es, rs, sl, k', e⟩
  · subst e; exact Or.inl rfl
  · subst e; exact Or.inl rfl
  · subst e
    by_cases e : sid = j
    · subst e; exact Or.inr ⟨rfl, by simp [dataOf], _, rfl⟩
    · left; simp [dataOf, e]
  · have e1 : dataOf j (es ++ Lab.cred sid n :: rs) = [] := by
      apply dataOf_none
      intro y hy m b z
      subst z
      rcases List.mem_append.mp hy with hy | hy
      · have := isApp_ended k' _ hy; cases this
      · rcases List.mem_cons.mp hy with hy | hy
        · cases hy
        · have := isApp_script sl _ hy; cases this
    subst e
    by_cases e : sid = j
    · subst e; exact Or.inr ⟨rfl, by simp [dataOf, e1], _, rfl⟩
    · left; simp [dataOf, e, e1]

/-- Only DATA on the stream adds to its body. -/
theorem step_dataOf {i : Input} {ls : List Lab} (h : StepLabs i ls) (sid : Nat) (hd : ∀ d pad fin s, i ≠ .data sid d pad fin s) :
    dataOf sid ls = [] := by
  cases i with
  | settings k ack es =>
    apply dataOf_none
    intro y hy n d e
    have := (h y hy).1
    subst e; cases this
  | data k d pad fin sc =>
    rcases dataLabs_of h sid with e | ⟨e, _⟩
    · exact e
    · subst e; exact absurd rfl (hd d pad fin sc)
  | headers k frag fin eh sc =>
    obtain ⟨rs, sl, e⟩ := h
    rcases e with e | e <;> subst e
    · exact dataOf_app (isApp_script sl) sid
    · exact dataOf_app (isApp_script sl) sid
  | continuation k frag eh sc => exact dataOf_app (isApp_script h) sid
  | app a =>
    have h : ls.Sublist a.labs := h
    have : ls.Sublist ([a].flatMap Act.labs) := by simpa using h
    exact dataOf_app (isApp_acts this) sid
  | windowUpdate k inc => rcases h with e | ⟨_, e⟩ | ⟨_, e⟩ <;> subst e <;> rfl
  | rst k code => rcases h with e | e <;> subst e <;> rfl
  | goaway last code => rcases h with e | e <;> subst e <;> rfl
  | _ => have h : ls = [] := h; subst h; rfl

/-- END_STREAM comes from the client. -/
theorem step_ended {i : Input} {ls : List Lab} (h : StepLabs i ls) {sid : Nat} (hm : Lab.ended sid ∈ ls) : endedIn sid [i] = true := by
  have acts : ∀ {as : List Act}, Lab.ended sid ∈ as.flatMap Act.labs → False := by
    intro as k
    obtain ⟨a, _, ha⟩ := List.mem_flatMap.mp k
    cases a <;> simp [Act.labs] at ha
  have scr : ∀ {k : Nat} {fin : Bool} {sc : Script} {rs : List Lab}, rs.Sublist (sc.labs k fin) → Lab.ended sid ∈ rs → fin = true ∧ k = sid := by
    intro k fin sc rs sl hm
    have := sl.mem hm
    unfold Script.labs at this
    rcases List.mem_append.mp this with z | z
    · cases fin <;> simp at z
      exact ⟨rfl, z.symm⟩
    · rcases List.mem_cons.mp z with z | z
      · cases z
      · exact (acts z).elim
  cases i with
  | settings k ack es =>
    have := (h _ hm).1
    cases this
  | data k d pad fin sc =>
    rcases h with e | e | e | ⟨es, rs, sl, k', e⟩ <;> subst e <;> simp at hm
    rcases hm with hm | hm
    · rcases k' with k' | ⟨f, k'⟩
      · subst k'; cases hm
      · subst k'
        simp at hm
        simp [endedIn, f, hm]
    · have := scr sl hm
      cases this.1
  | headers k frag fin eh sc =>
    obtain ⟨rs, sl, e⟩ := h
    have : Lab.ended sid ∈ rs := by
      rcases e with e | e <;> subst e
      · exact hm
      · simpa using hm
    have := scr sl this
    simp [endedIn, this.1, this.2]
  | continuation k frag eh sc =>
    have := scr h hm
    cases this.1
  | app a =>
    have h : ls.Sublist a.labs := h
    have : ls.Sublist ([a].flatMap Act.labs) := by simpa using h
    exact (acts (this.mem hm)).elim
  | windowUpdate k inc => rcases h with e | ⟨_, e⟩ | ⟨_, e⟩ <;> subst e <;> simp at hm
  | rst k code => rcases h with e | e <;> subst e <;> simp at hm
  | goaway last code => rcases h with e | e <;> subst e <;> simp at hm
  | _ => have h : ls = [] := h; subst h; simp at hm

/-- A DATA frame is accepted, or its stream is gone or has its request already. -/
theorem onData_accept {c : Conn x} {sid : Nat} {d : Bytes} {pad : Nat} {fin : Bool} {h : Script} (hi : Inv0 c) (hk : Known c)
    (ho : sid % 2 = 1) (hok : AllOk c) (ha : (onData c sid d pad fin h).alive = true) :
    ∃ ls, DataLabs sid (d.length + pad) d fin h ls ∧ Path c ls (onData c sid d pad fin h) ∧ sid ≤ c.lastClient ∧
      (dataOf sid ls = d ∨ (onData c sid d pad fin h).find sid = none ∨ ∃ s, c.find sid = some s ∧ s.dispatched = true) := by
  obtain ⟨ls0, k0, p0⟩ := path_onData c sid d pad fin h hi
  have gone : ∀ {c1 c2 : Conn x}, c1.find sid = none → Path c1 [] c2 → c2.find sid = none := by
    intro c1 c2 hn p
    cases hf : c2.find sid with
    | none => rfl
    | some s =>
      obtain ⟨s', hs', _⟩ := path_later p ho (by simp) hf
      rw [hn] at hs'; cases hs'
  have hle : c.find sid ≠ none → sid ≤ c.lastClient := fun hs => by
    by_cases z : c.lastClient < sid
    · exact absurd (hk sid ho z) hs
    · omega
  have fin1 : sid ≤ c.lastClient → ((onData c sid d pad fin h).find sid = none ∨ ∃ s, c.find sid = some s ∧ s.dispatched = true) →
      ∃ ls, DataLabs sid (d.length + pad) d fin h ls ∧ Path c ls (onData c sid d pad fin h) ∧ sid ≤ c.lastClient ∧
      (dataOf sid ls = d ∨ (onData c sid d pad fin h).find sid = none ∨ ∃ s, c.find sid = some s ∧ s.dispatched = true) :=
    fun h1 h2 => ⟨ls0, k0, p0, h1, Or.inr h2⟩
  cases hs : c.find sid with
  | none =>
    rw [hs] at fin1
    have : sid ≤ c.lastClient := by
      by_cases z : c.lastClient < sid
      · exfalso
        unfold onData at ha
        simp only [] at ha
        split at ha
        · rename_i h1
          obtain ⟨a1, a2⟩ := alive_iff.mp ha
          rw [a1, a2] at h1; cases h1
        split at ha
        · rw [goaway_dead] at ha; cases ha
        split at ha
        · rw [goaway_dead] at ha; cases ha
        rw [hs] at ha
        simp only [] at ha
        unfold dataUnknown at ha
        rw [if_pos z, goaway_dead] at ha
        cases ha
      · omega
    refine fin1 this (Or.inl ?_)
    cases hf : (onData c sid d pad fin h).find sid with
    | none => rfl
    | some s =>
      have hop : Lab.opened sid ∉ ls0 := fun hm => by
        have := opened_step (i := .data sid d pad fin h) k0 hm
        simp [headersIn] at this
      obtain ⟨s', hs', _⟩ := path_later p0 ho hop hf
      rw [hs] at hs'; cases hs'
  | some s =>
    have hl := hle (by rw [hs]; simp)
    rw [hs] at fin1
    have core := (hok sid ho s hs).1
    have act := (hok sid ho s hs).2
    have act : isActive s = true := act
    have nst : s.state ≠ .idle ∧ s.state ≠ .closed := by
      constructor <;> (intro z; unfold isActive at act; rw [z] at act; simp at act)
    by_cases hdis : s.dispatched = true
    · exact fin1 hl (Or.inr ⟨s, rfl, hdis⟩)
    have hrs : s.rstSent = false := by
      cases z : s.rstSent with
      | false => rfl
      | true => exact absurd (core.rs z) hdis
    have hrr := core.rr
    clear k0 p0 fin1
    have nil : ∀ {c' : Conn x}, c'.alive = true → c' = goaway c c'.goawayLast → False := fun a e => by rw [e, goaway_dead] at a; cases a
    clear nil
    have aliveC : c.ok = true ∧ c.active = true := by
      obtain ⟨ls, _, p⟩ := path_onData c sid d pad fin h hi
      exact alive_iff.mp (alive_path p ha)
    unfold onData at ha ⊢
    simp only [] at ha ⊢
    rw [if_neg (by simp [aliveC.1, aliveC.2])] at ha ⊢
    have h0 : sid ≠ 0 := by omega
    rw [if_neg (by simp [h0])] at ha ⊢
    split
    · rename_i h3; rw [if_pos h3, goaway_dead] at ha; cases ha
    rename_i h3
    rw [if_neg h3, hs] at ha
    rw [hs]
    simp only [] at ha ⊢
    rw [if_neg (by simp [nst.1, nst.2, hrs, hrr])] at ha ⊢
    split
    · refine ⟨[.dataRej (d.length + pad)], Or.inr (Or.inl rfl), (((path_sendRst c sid STREAM_CLOSED true).tr (Path.one (.recv _ _))).tr' (path_condConn _)), hl, Or.inr (Or.inl ?_)⟩
      rw [find_condConn]
      exact sendRst_find (Or.inl aliveC.2)
    rename_i hr
    split
    · refine ⟨[.dataRej (d.length + pad)], Or.inr (Or.inl rfl), (((path_sendRst c sid FLOW_CONTROL_ERROR true).tr (Path.one (.recv _ _))).tr' (path_condConn _)), hl, Or.inr (Or.inl ?_)⟩
      rw [find_condConn]
      exact sendRst_find (Or.inl aliveC.2)
    obtain ⟨ls, e, p⟩ := path_dataAccept c sid (d.length + pad) d fin h hi h0 s hs (by simpa using hr)
    have key : DataLabs sid (d.length + pad) d fin h (.dataIn sid (d.length + pad) d :: ls) := by
      rcases e with e | ⟨es, rs, sl, k, e⟩
      · subst e; exact Or.inr (Or.inr (Or.inl rfl))
      · subst e; exact Or.inr (Or.inr (Or.inr ⟨es, rs, sl, k, rfl⟩))
    refine ⟨_, key, p, hl, Or.inl ?_⟩
    rcases dataLabs_of key sid with z | ⟨_, z, _⟩
    · have z' := z
      simp only [dataOf, if_true] at z'
      have := List.append_eq_nil_iff.mp z'
      rw [z, this.1]
    · exact z

theorem path_lastClient {a b : Conn x} {l : List Lab} (p : Path a l b) : a.lastClient ≤ b.lastClient := by
  induction p with
  | refl _ => exact Nat.le_refl _
  | step m _ ih => exact Nat.le_trans (micro_last m) ih

theorem path_opened {a b : Conn x} {l : List Lab} (p : Path a l b) {sid : Nat} (h : Lab.opened sid ∈ l) : a.lastClient < sid := by
  induction p with
  | refl _ => cases h
  | step m _ ih =>
    rcases List.mem_append.mp h with z | z
    · cases m with
      | opened j h1 h2 h3 h4 h5 =>
        cases List.mem_singleton.mp z
        exact h2
      | _ => simp at z
    · exact Nat.lt_of_le_of_lt (micro_last m) (ih z)

/-- Where a new request comes from. -/
theorem path_request {a b : Conn x} {l : List Lab} (p : Path a l b) (hi : Inv0 a) {sid : Nat} (h : requestsOn sid b.out ≠ requestsOn sid a.out) :
    a.alive = true ∧ sid % 2 = 1 ∧ Lab.req sid ∈ l ∧ (a.lastClient < sid ∨ ∃ s, a.find sid = some s ∧ s.dispatched = false) := by
  suffices h : ∃ l1 c1 s, Path a l1 c1 ∧ (∀ y ∈ l1, y ∈ l) ∧ Lab.req sid ∈ l ∧ c1.find sid = some s ∧ s.dispatched = false ∧
      s.headersMain = true ∧ c1.alive = true by
    obtain ⟨l1, c1, s, p1, hsub, hr, hs, hd, hm, hal⟩ := h
    have hodd := (hi.path p1).odd sid s hs hm
    refine ⟨alive_path p1 hal, hodd, hr, ?_⟩
    by_cases ho : Lab.opened sid ∈ l1
    · exact Or.inl (path_opened p1 ho)
    · obtain ⟨s0, hs0, k⟩ := path_later p1 hodd ho hs
      refine Or.inr ⟨s0, hs0, ?_⟩
      cases z : s0.dispatched with
      | false => rfl
      | true => rw [k.dispatched z] at hd; cases hd
  induction p with
  | refl _ => exact absurd rfl h
  | @step a b c l ls m q ih =>
    by_cases hq : requestsOn sid b.out = requestsOn sid a.out
    · rw [← hq] at h
      obtain ⟨l1, c1, s, p1, hsub, hr, rest⟩ := ih (hi.micro m) h
      exact ⟨l ++ l1, c1, s, .step m p1, fun y hy => (List.mem_append.mp hy).elim (List.mem_append_left _) (fun z => List.mem_append_right _ (hsub y z)),
        List.mem_append_right _ hr, rest⟩
    · refine ⟨[], a, ?_⟩
      cases m with
      | request j s hs hd h1 h2 h3 h4 h5 =>
        by_cases e : j = sid
        · subst e
          exact ⟨s, .refl _, by simp, List.mem_append_left _ (List.mem_singleton.mpr rfl), hs, hd, h2, alive_iff.mpr ⟨h4, h5⟩⟩
        · exfalso
          apply hq
          show requestsOn sid (a.out ++ [_]) = _
          rw [requestsOn_append]; simp [requestsOn, e]
      | aux _ h1 h2 h3 h4 h5 h6 h7 h8 h9 _ => exact absurd (by rw [h6]) hq
      | plain o ho =>
        exfalso; apply hq
        show requestsOn sid (a.out ++ [o]) = _
        rw [requestsOn_append, requestsOn_plain sid ho, List.append_nil]
      | die code ha =>
        exfalso; apply hq
        show requestsOn sid (a.out ++ [_]) = _
        rw [requestsOn_append]; simp [requestsOn]
      | data s k fin p hs hk hm hp hw ho he hf hf' hh hp' =>
        exfalso; apply hq
        show requestsOn sid (a.out ++ [_]) = _
        rw [requestsOn_append]; simp [requestsOn]
      | start sid' r b s block hb hs he =>
        exfalso; apply hq
        show requestsOn sid (a.out ++ [_]) = _
        rw [requestsOn_append]; simp [requestsOn]
      | trail sid' s hs he ho ht =>
        exfalso; apply hq
        show requestsOn sid (a.out ++ [_]) = _
        rw [requestsOn_append]; simp [requestsOn]
      | credConn inc _ _ =>
        exfalso; apply hq
        show requestsOn sid (a.out ++ _) = _
        rw [requestsOn_append]
        split <;> simp [requestsOn]
      | credSend sid' n p h0 s hs hp _ =>
        exfalso; apply hq
        show requestsOn sid (a.out ++ _) = _
        rw [requestsOn_append]
        split <;> simp [requestsOn]
      | _ => exact absurd rfl hq

theorem Known.run (d : x.D) (e : x.E) (is : List Input) : Known (run (Conn.init (x := x) d e) is) := by
  induction is using snocInd with
  | h0 => intro _ _ _; rfl
  | hs is i ih =>
    rw [run_snoc]
    obtain ⟨ls, hl, p⟩ := path_step (Verif.Srv.run (Conn.init (x := x) d e) is) i ((Inv0.init d e).run is)
    exact p.induct (fun _ _ _ m h => h.micro m) ih

/-- Where the request of a client stream stands after the inputs `is`. -/
structure Asm2 (c : Conn x) (sid : Nat) (is : List Input) (B : Bytes) : Prop where
  asm : Asm c sid B (endedIn sid is = true)
  body : c.alive = true → ∀ s, c.find sid = some s → s.dispatched = false → B = bodyIn sid is
  fresh : c.alive = true → c.lastClient < sid → bodyIn sid is = []

theorem asm_step (hx : ∀ l, (x.order l).Perm l) (d : x.D) (e : x.E) (is : List Input) (i : Input) {sid : Nat} (ho : sid % 2 = 1) {B : Bytes}
    (h : Asm2 (run (Conn.init (x := x) d e) is) sid is B) :
    ∃ B', Asm2 (run (Conn.init (x := x) d e) (is ++ [i])) sid (is ++ [i]) B' ∧
      (requestsOn sid (run (Conn.init (x := x) d e) (is ++ [i])).out ≠ requestsOn sid (run (Conn.init (x := x) d e) is).out → B' = bodyIn sid (is ++ [i])) := by
  have hi := (Inv0.init (x := x) d e).run is
  have hk := Known.run (x := x) d e is
  have hrest := rest_run hx d e is
  rw [run_snoc, bodyIn_append]
  generalize run (Conn.init (x := x) d e) is = c at *
  have asm : ∀ {ls : List Lab}, StepLabs i ls → Path c ls (step c i) → Asm (step c i) sid (B ++ dataOf sid ls) (endedIn sid (is ++ [i]) = true) := by
    intro ls hl p
    refine (h.asm.path p ho).congr rfl (fun z => ?_)
    rw [endedIn_append, Bool.or_eq_true]
    rcases z with z | z
    · exact Or.inl z
    · exact Or.inr (step_ended hl z)
  by_cases hd : ∃ b pad fin s, i = .data sid b pad fin s
  · obtain ⟨b, pad, fin, sc, e⟩ := hd
    subst e
    have eb : bodyIn sid [.data sid b pad fin sc] = b := by simp [bodyIn]
    by_cases ha : (step c (.data sid b pad fin sc)).alive = true
    · have hc : c.alive = true := by
        obtain ⟨ls, _, p⟩ := path_onData c sid b pad fin sc hi
        exact alive_path p ha
      obtain ⟨ls, hl, p, hle, hacc⟩ := onData_accept hi hk ho (hrest hc) ha
      refine ⟨_, ⟨asm hl p, fun _ s hs hd => ?_, fun _ hlt => ?_⟩, fun hq => ?_⟩
      · have hop : Lab.opened sid ∉ ls := fun hm => by
          have := opened_step (i := .data sid b pad fin sc) hl hm
          simp [headersIn] at this
        obtain ⟨s0, hs0, k⟩ := path_later p ho hop hs
        have hd0 : s0.dispatched = false := by
          cases z : s0.dispatched with
          | false => rfl
          | true => rw [k.dispatched z] at hd; cases hd
        rcases hacc with z | z | ⟨s', hs', z⟩
        · rw [bodyIn_append, eb, z, h.body hc s0 hs0 hd0]
        · rw [show (step c (.data sid b pad fin sc)) = onData c sid b pad fin sc from rfl, z] at hs; cases hs
        · rw [Option.some.inj (hs'.symm.trans hs0), hd0] at z; cases z
      · have := path_lastClient p
        have hlt : (onData c sid b pad fin sc).lastClient < sid := hlt
        omega
      · obtain ⟨_, _, hr, hfr⟩ := path_request p hi hq
        rcases dataLabs_of hl sid with z | ⟨_, z, _⟩
        · -- no request without accepted DATA, or empty DATA
          rcases hl with e | e | e | ⟨es, rs, sl, k', e⟩
          · subst e; cases hr
          · subst e; simp at hr
          · subst e; simp at hr
          · have hb : b = [] := by
              rw [e] at z
              simp only [dataOf, if_true] at z
              exact (List.append_eq_nil_iff.mp z).1
            rw [eb, z, hb]
            rcases hfr with z | ⟨s, hs, hd⟩
            · omega
            · rw [h.body hc s hs hd]
        · rw [eb, z]
          rcases hfr with z | ⟨s, hs, hd⟩
          · omega
          · rw [h.body hc s hs hd]
    · obtain ⟨ls, hl, p⟩ := path_onData c sid b pad fin sc hi
      refine ⟨_, ⟨asm hl p, fun z => absurd z ha, fun z => absurd z ha⟩, fun hq => ?_⟩
      obtain ⟨hc, _, hr, hfr⟩ := path_request p hi hq
      have hfr : ∃ s, c.find sid = some s ∧ s.dispatched = false := by
        rcases hfr with z | z
        · exfalso
          have hn := hk sid ho z
          rcases hl with e | e | e | ⟨es, rs, sl, k', e⟩
          · subst e; cases hr
          · subst e; simp at hr
          · subst e; simp at hr
          · -- DATA is accepted only on a stream in the table
            rw [e] at p
            have : ∀ {a b : Conn x} {l : List Lab}, Path a l b → ∀ {j n : Nat} {d : Bytes} {r : List Lab}, l = .dataIn j n d :: r → a.lastClient < j → j % 2 = 1 → Known a → False := by
              clear * -
              intro a b l p
              induction p with
              | refl _ => intro j n d r e; cases e
              | @step a b c l ls m q ih =>
                intro j n d r e hl ho hk
                cases l with
                | nil =>
                  rw [List.nil_append] at e
                  refine ih e ?_ ho (hk.micro m)
                  cases m with
                  | aux _ h1 h2 h3 h4 h5 h6 h7 h8 h9 _ => rw [h7]; exact hl
                  | _ => exact hl
                | cons y l =>
                  have : y = .dataIn j n d := by
                    rw [List.cons_append] at e
                    exact (List.cons.inj e).1
                  cases m <;> try cases this
                  rename_i s he hs
                  rw [hk _ ho hl] at hs; cases hs
            exact this p rfl z ho hk
        · exact z
      obtain ⟨s, hs, hd⟩ := hfr
      rw [eb, h.body hc s hs hd]
      rcases hl with e | e | e | ⟨es, rs, sl, k', e⟩
      · subst e; cases hr
      · subst e; simp at hr
      · subst e; simp at hr
      · rcases dataLabs_of (Or.inr (Or.inr (Or.inr ⟨es, rs, sl, k', e⟩))) sid with z | ⟨_, z, _⟩
        · have hb : b = [] := by
            rw [e] at z
            simp only [dataOf, if_true] at z
            exact (List.append_eq_nil_iff.mp z).1
          rw [z, hb]
        · rw [z]
  · have hd' : ∀ d pad fin s, i ≠ .data sid d pad fin s := fun b pad fin s e => hd ⟨b, pad, fin, s, e⟩
    have eb : bodyIn sid [i] = [] := by
      cases i with
      | data k b pad fin s =>
        have : k ≠ sid := fun e => hd' b pad fin s (by rw [e])
        simp [bodyIn, this]
      | _ => rfl
    obtain ⟨ls, hl, p⟩ := path_step c i hi
    have ed := step_dataOf hl sid hd'
    have as := asm hl p
    rw [ed, List.append_nil] at as
    rw [eb, List.append_nil]
    refine ⟨B, ⟨as, fun ha s hs hd => ?_, fun ha hlt => ?_⟩, fun hq => ?_⟩
    · rw [bodyIn_append, eb, List.append_nil]
      have hc := alive_path p ha
      by_cases hop : Lab.opened sid ∈ ls
      · have hlt := path_opened p hop
        rw [h.fresh hc hlt, (h.asm.fresh hlt).1]
      · obtain ⟨s0, hs0, k⟩ := path_later p ho hop hs
        refine h.body hc s0 hs0 ?_
        cases z : s0.dispatched with
        | false => rfl
        | true => rw [k.dispatched z] at hd; cases hd
    · rw [bodyIn_append, eb, List.append_nil]
      exact h.fresh (alive_path p ha) (Nat.lt_of_le_of_lt (path_lastClient p) hlt)
    · obtain ⟨hc, _, _, hfr⟩ := path_request p hi hq
      rcases hfr with z | ⟨s, hs, hd⟩
      · rw [h.fresh hc z, (h.asm.fresh z).1]
      · exact h.body hc s hs hd

theorem asm_run (hx : ∀ l, (x.order l).Perm l) (d : x.D) (e : x.E) (is : List Input) {sid : Nat} (ho : sid % 2 = 1) :
    ∃ B, Asm2 (run (Conn.init (x := x) d e) is) sid is B := by
  induction is using snocInd with
  | h0 => exact ⟨[], (Asm.init d e sid).congr rfl (fun h => h.elim), fun _ s hs => by simp [run, Conn.init, Conn.find] at hs, fun _ _ => rfl⟩
  | hs is i ih =>
    obtain ⟨B, h⟩ := ih
    obtain ⟨B', h', _⟩ := asm_step hx d e is i ho h
    exact ⟨B', h'⟩

/-- The request `r` is what the client sent in the fields `fs` of its head and the fields `ts` of its trailers. -/
structure ReqOf (known : Bytes → Bool) (fs ts : List Field) (r : Request) : Prop where
  head : ∃ r0 cl, ValidHead known fs r0 cl ∧ r.method = r0.method ∧ r.scheme = r0.scheme ∧ r.authority = r0.authority ∧ r.path = r0.path ∧
    r.headers = ts.foldl (fun hs f => Parse.push hs f.1 f.2) r0.headers ∧
    ∀ n, cl = some n → r.body.length = n
  trailers : ∀ f ∈ ts, f.1 ≠ [] ∧ f.1.head? ≠ some c!":" ∧ isValidHeaderField f.1 f.2 = true ∧ isForbiddenTrailerHeader f.1 = false

theorem trailerLoop_some {ts : List Field} {hs hs' : Headers} (h : trailerLoop ts hs = some hs') :
    hs' = ts.foldl (fun hs f => Parse.push hs f.1 f.2) hs ∧
    ∀ f ∈ ts, f.1 ≠ [] ∧ f.1.head? ≠ some c!":" ∧ isValidHeaderField f.1 f.2 = true ∧ isForbiddenTrailerHeader f.1 = false := by
  induction ts generalizing hs with
  | nil => cases h; exact ⟨rfl, by simp⟩
  | cons f ts ih =>
    obtain ⟨n, v⟩ := f
    rw [trailerLoop] at h
    split at h
    · cases h
    rename_i h1
    split at h
    · cases h
    rename_i h2
    split at h
    · cases h
    rename_i h3
    obtain ⟨k1, k2⟩ := ih h
    refine ⟨k1, fun f hf => ?_⟩
    rcases List.mem_cons.mp hf with z | z
    · subst z
      simp only [Bool.or_eq_true, not_or] at h1
      refine ⟨fun z => h1.1 ?_, fun z => h1.2 ?_, by simpa using h2, by simpa using h3⟩
      · have z : n = [] := z
        rw [z]; rfl
      · have z : n.head? = some c!":" := z
        rw [z]; rfl
    · exact k2 f z

/-- **C94 (requests).** Every request handed to the application was handed over by one input `i`: it is on a client stream;
at that point the client had ended the stream; the body is the payload of all the DATA frames the client had sent on
it; and the rest of it is the content of a valid head, with valid trailers, whose content-length, if there is one, is the
length of the body. -/
theorem C94_request (hx : ∀ l, (x.order l).Perm l) (d : x.D) (e : x.E) (is : List Input) {sid : Nat} {r : Request}
    (h : Out.request sid r ∈ (run (Conn.init (x := x) d e) is).out) :
    sid % 2 = 1 ∧ ∃ pre i post, is = pre ++ i :: post ∧
      Out.request sid r ∉ (run (Conn.init (x := x) d e) pre).out ∧ Out.request sid r ∈ (run (Conn.init (x := x) d e) (pre ++ [i])).out ∧
      endedIn sid (pre ++ [i]) = true ∧ r.body = bodyIn sid (pre ++ [i]) ∧ ∃ fs ts, ReqOf x.methodKnown fs ts r := by
  have mem : ∀ {os : List Out}, Out.request sid r ∈ os ↔ r ∈ requestsOn sid os := by
    intro os
    induction os with
    | nil => simp [requestsOn]
    | cons o os ih =>
      cases o <;> simp only [requestsOn, List.mem_cons, ← ih, reduceCtorEq, false_or]
      rename_i j r'
      split
      · rename_i e
        subst e
        rw [List.mem_cons, ← ih]
        simp
      · rename_i hne
        rw [← ih]
        constructor
        · rintro (z | z)
          · injection z with z1 z2; exact absurd z1.symm hne
          · exact z
        · exact Or.inr
  have first : ∃ pre i post, is = pre ++ i :: post ∧ Out.request sid r ∉ (run (Conn.init (x := x) d e) pre).out ∧
      Out.request sid r ∈ (run (Conn.init (x := x) d e) (pre ++ [i])).out := by
    induction is using snocInd with
    | h0 => cases h
    | hs is i ih =>
      by_cases z : Out.request sid r ∈ (run (Conn.init (x := x) d e) is).out
      · obtain ⟨pre, j, post, e, k⟩ := ih z
        exact ⟨pre, j, post ++ [i], by rw [e]; simp, k⟩
      · exact ⟨is, i, [], rfl, z, h⟩
  obtain ⟨pre, i, post, e1, hn, hy⟩ := first
  have hne : requestsOn sid (run (Conn.init (x := x) d e) (pre ++ [i])).out ≠ requestsOn sid (run (Conn.init (x := x) d e) pre).out := by
    intro z
    rw [mem, z] at hy
    exact hn (mem.mpr hy)
  have ho : sid % 2 = 1 := by
    obtain ⟨ls, _, p⟩ := path_step (run (Conn.init (x := x) d e) pre) i ((Inv0.init d e).run pre)
    rw [run_snoc] at hne
    exact (path_request p ((Inv0.init d e).run pre) hne).2.1
  obtain ⟨B, hB⟩ := asm_run hx d e pre ho
  obtain ⟨B', hB', hb⟩ := asm_step hx d e pre i ho hB
  obtain ⟨k1, k2, cl, ⟨fs, ts, r0, q1, q2, q3, q4, q5, q6⟩, k4⟩ := hB'.asm.reqs r (mem.mp hy)
  refine ⟨ho, pre, i, post, e1, hn, hy, k2, k1.trans (hb hne), fs, ts, ?_⟩
  obtain ⟨t1, t2⟩ := trailerLoop_some q2
  refine ⟨⟨r0, cl, (requestHead_iff _ _ _ _).mp q1, q3, q4, q5, q6, t1, fun n z => ?_⟩, t2⟩
  subst z
  simpa [mismatch] using k4

/-- **C94 (once).** At most one request per stream is handed to the application. -/
theorem C94_once (hx : ∀ l, (x.order l).Perm l) (d : x.D) (e : x.E) (is : List Input) (sid : Nat) :
    (requestsOn sid (run (Conn.init (x := x) d e) is).out).length ≤ 1 := by
  by_cases ho : sid % 2 = 1
  · obtain ⟨B, h⟩ := asm_run hx d e is ho
    exact h.asm.one
  · have : requestsOn sid (run (Conn.init (x := x) d e) is).out = [] := by
      induction is using snocInd with
      | h0 => rfl
      | hs is i ih =>
        rw [← ih]
        by_cases z : requestsOn sid (run (Conn.init (x := x) d e) (is ++ [i])).out = requestsOn sid (run (Conn.init (x := x) d e) is).out
        · exact z
        · exfalso
          obtain ⟨ls, _, p⟩ := path_step (run (Conn.init (x := x) d e) is) i ((Inv0.init d e).run is)
          rw [run_snoc] at z
          exact ho (path_request p ((Inv0.init d e).run is) z).2.1
    rw [this]; exact Nat.zero_le _

/-- **C94 (heads).** The heads that are accepted are the valid ones: method, scheme, path and authority exactly once each
and before everything else, no other pseudo-header, non-empty path and authority, a known method, no empty name, no
connection-specific field, `te` only with `trailers`, and one consistent content-length of at most 100 MiB. -/
theorem C94_head (known : Bytes → Bool) (fs : List Field) (r : Request) (cl : Option Nat) :
    requestHead known fs = .ok (r, cl) ↔ ValidHead known fs r cl := requestHead_iff known fs r cl

/-- A request with a body in two DATA frames and trailers. -/
example : (run toy [.headers 1 [] false true {}, .data 1 b!"ab" 0 false {}, .headers 3 [] true true {}, .data 1 b!"c" 5 false {}, .headers 1 [1] true true {}]).out =
    [.request 3 ⟨b!"GET", b!"https", b!"a", b!"/", [], []⟩, .request 1 ⟨b!"GET", b!"https", b!"a", b!"/", [(b!"x-sum", [b!"1"])], b!"abc"⟩] := by decide

end Verif.Srv
