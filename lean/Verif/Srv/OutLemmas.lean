import Verif.Srv.SendLemmas

/-! # What a small step writes -/

namespace Verif.Srv
open Verif.Stream

variable {x : Ext}

/-- What a small step from `a` to `b` appends to the output. -/
inductive Wrote (a b : Conn x) : List Out → Prop
  | nothing : Wrote a b []
  | plain (o : Out) (h : Plain o = true) : Wrote a b [o]
  | goaway (code : Nat) (ha : a.active = true) (hb : b.active = false) : Wrote a b [.goaway a.lastClient code]
  | data (sid : Nat) (d : Bytes) (fin : Bool) (s : SStream) (hs : a.find sid = some s) : Wrote a b [.data sid d fin]
  | headers (sid : Nat) (d : Bytes) (fin : Bool) (s : SStream) (hs : a.find sid = some s) : Wrote a b [.headers sid d fin]
  | window (sid inc : Nat) (hi : 0 < inc) (ha : a.ok = true) : Wrote a b [.windowUpdate sid inc]
  | request (sid : Nat) (s : SStream) (hs : a.find sid = some s) (hd : s.dispatched = false)
      (h1 : s.endRecv = true) (h2 : s.headersMain = true) (h3 : mismatch s.cl s.req.body = false)
      (h4 : a.ok = true) (h5 : a.active = true) (hb : b.find sid = some { s with dispatched := true }) :
      Wrote a b [.request sid s.req]

theorem micro_out {a b : Conn x} {l : List Lab} (m : Micro a l b) : ∃ os, b.out = a.out ++ os ∧ Wrote a b os := by
  cases m with
  | aux _ h1 h2 h3 h4 h5 h6 h7 h8 h9 _ => exact ⟨[], by rw [h6]; simp, .nothing⟩
  | plain o ho => exact ⟨[o], rfl, .plain o ho⟩
  | die code ha => exact ⟨_, rfl, .goaway code ha rfl⟩
  | data s k fin p hs hk hm hp hw ho he hf hf' hh hp' => exact ⟨_, rfl, .data _ _ _ s hs⟩
  | start sid r b s block hb hs he => exact ⟨_, rfl, .headers _ _ _ s hs⟩
  | trail sid s hs he ho ht => exact ⟨_, rfl, .headers _ _ _ s hs⟩
  | credConn inc h hi =>
    refine ⟨_, rfl, ?_⟩
    split
    · rename_i ho; exact .window _ _ (by omega) ho
    · exact .nothing
  | credSend sid n p h0 s hs hp hpos =>
    refine ⟨if a.ok then [Out.windowUpdate sid p] else [], rfl, ?_⟩
    split
    · rename_i ho; exact .window _ _ hpos ho
    · exact .nothing
  | request sid s hs hd h1 h2 h3 h4 h5 =>
    refine ⟨_, rfl, .request sid s hs hd h1 h2 h3 h4 h5 ?_⟩
    show (a.upd sid (fun s => { s with dispatched := true })).find sid = _
    exact find_upd_same (f := fun s => { s with dispatched := true }) (keeps_with (fun _ => rfl)) hs
  | _ => exact ⟨[], by exact (List.append_nil _).symm, .nothing⟩

theorem goaways_plain {o : Out} (h : Plain o = true) : goaways [o] = 0 := by cases o <;> simp [Plain, goaways] at h ⊢
theorem requests_plain {o : Out} (h : Plain o = true) : requests [o] = [] := by cases o <;> simp [Plain, requests] at h ⊢

theorem mem_requests {os : List Out} {sid : Nat} {r : Request} : (sid, r) ∈ requests os ↔ Out.request sid r ∈ os := by
  induction os with
  | nil => simp [requests]
  | cons o os ih => cases o <;> simp [requests, ih]

/-- Client streams in the table have been counted. -/
def Known (c : Conn x) : Prop := ∀ sid, sid % 2 = 1 → c.lastClient < sid → c.find sid = none

theorem Known.micro {a b : Conn x} {l : List Lab} (m : Micro a l b) (h : Known a) : Known b := by
  intro sid ho hl
  cases hb : b.find sid with
  | none => rfl
  | some t =>
    have hla := Nat.lt_of_le_of_lt (micro_last m) hl
    rcases micro_find m hb with ⟨_, _, e, _⟩ | ⟨_, _, e, _⟩ | ⟨t', ht, _⟩
    · have := micro_opened m e; omega
    · omega
    · rw [h sid ho hla] at ht; cases ht

theorem micro_lastClient {a b : Conn x} {l : List Lab} (m : Micro a l b) (h : a.active = false) : b.lastClient = a.lastClient := by
  cases m with
  | aux _ h1 h2 h3 h4 h5 h6 h7 h8 h9 _ => exact h7
  | opened j h1 h2 h3 h4 h5 => rw [h] at h5; cases h5
  | _ => rfl

/-- The invariant about GOAWAY. -/
structure Bye (c : Conn x) : Prop where
  inv : Inv0 c
  known : Known c
  none : c.active = true → goaways c.out = 0
  one : goaways c.out ≤ 1
  last : ∀ n code, Out.goaway n code ∈ c.out → n = c.lastClient ∧ c.active = false
  req : ∀ sid r, Out.request sid r ∈ c.out → sid ≤ c.lastClient ∧ sid % 2 = 1

theorem micro_active {a b : Conn x} {l : List Lab} (m : Micro a l b) : b.active = true → a.active = true := (path_alive (.one m)).2

theorem Bye.micro {a b : Conn x} {l : List Lab} (m : Micro a l b) (h : Bye a) : Bye b := by
  obtain ⟨os, eo, w⟩ := micro_out m
  have hl := micro_last m
  have hdead : a.active = false → b.active = false := fun e => by
    cases hb : b.active with
    | false => rfl
    | true => rw [micro_active m hb] at e; cases e
  have L : ∀ n code, Out.goaway n code ∈ a.out → n = b.lastClient ∧ b.active = false := fun n code hm => by
    obtain ⟨h1, h2⟩ := h.last n code hm
    exact ⟨h1.trans (micro_lastClient m h2).symm, hdead h2⟩
  have R : ∀ sid r, Out.request sid r ∈ a.out → sid ≤ b.lastClient ∧ sid % 2 = 1 := fun sid r hm =>
    ⟨Nat.le_trans (h.req sid r hm).1 hl, (h.req sid r hm).2⟩
  have easy : goaways os = 0 → (∀ n code, Out.goaway n code ∉ os) →
      (∀ sid r, Out.request sid r ∈ os → sid ≤ b.lastClient ∧ sid % 2 = 1) → Bye b := by
    intro g hg hr
    refine ⟨h.inv.micro m, h.known.micro m, fun ha => ?_, ?_, fun n code hm => ?_, fun sid r hm => ?_⟩
    · rw [eo, goaways_append, g, h.none (micro_active m ha)]
    · rw [eo, goaways_append, g]; exact h.one
    · rw [eo, List.mem_append] at hm
      rcases hm with hm | hm
      · exact L n code hm
      · exact absurd hm (hg n code)
    · rw [eo, List.mem_append] at hm
      rcases hm with hm | hm
      · exact R sid r hm
      · exact hr sid r hm
  cases w with
  | nothing => exact easy rfl (by simp) (by simp)
  | plain o ho =>
    refine easy (goaways_plain ho) (fun n code hm => ?_) (fun sid r hm => ?_)
    · rw [List.mem_singleton] at hm; subst hm; cases ho
    · rw [List.mem_singleton] at hm; subst hm; cases ho
  | data => exact easy rfl (by simp) (by simp)
  | headers => exact easy rfl (by simp) (by simp)
  | window => exact easy rfl (by simp) (by simp)
  | request sid s hs hd h1 h2 h3 h4 h5 hb =>
    refine easy rfl (by simp) (fun sid' r hm => ?_)
    rw [List.mem_singleton] at hm
    cases hm
    have ho := h.inv.odd _ _ hs h2
    refine ⟨?_, ho⟩
    by_cases hk : sid ≤ a.lastClient
    · omega
    · rw [h.known sid ho (by omega)] at hs; cases hs
  | goaway code ha hb =>
    refine ⟨h.inv.micro m, h.known.micro m, fun ha' => ?_, ?_, fun n c hm => ?_, fun sid r hm => ?_⟩
    · rw [hb] at ha'; cases ha'
    · rw [eo, goaways_append, h.none ha]; simp [goaways]
    · rw [eo, List.mem_append] at hm
      rcases hm with hm | hm
      · exact L n c hm
      · rw [List.mem_singleton] at hm
        cases hm
        refine ⟨?_, hb⟩
        cases m with
        | aux _ h1 h2 h3 h4 h5 h6 h7 h8 h9 _ => exact h7.symm
        | opened j h1 h2 h3 h4 h5 => rw [show ({ a with streams := _, lastClient := j } : Conn x).active = a.active from rfl, ha] at hb; cases hb
        | _ => rfl
    · rw [eo, List.mem_append] at hm
      rcases hm with hm | hm
      · exact R sid r hm
      · rw [List.mem_singleton] at hm; cases hm

theorem Bye.path {a b : Conn x} {l : List Lab} (p : Path a l b) (h : Bye a) : Bye b :=
  Path.induct (P := Bye) (fun _ _ _ m h => Bye.micro m h) p h

theorem Bye.init (d : x.D) (e : x.E) : Bye (Conn.init (x := x) d e) :=
  ⟨.init d e, fun _ _ _ => rfl, fun _ => rfl, by simp [Conn.init, goaways], by simp [Conn.init], by simp [Conn.init]⟩

theorem Bye.run {c : Conn x} (h : Bye c) (is : List Input) : Bye (run c is) := by
  unfold Verif.Srv.run
  induction is generalizing c with
  | nil => exact h
  | cons i is ih =>
    obtain ⟨ls, _, p⟩ := path_step c i h.inv
    exact ih (h.path p)

/-- A dead connection hands over no requests and opens no streams. -/
theorem micro_dead {a b : Conn x} {l : List Lab} (m : Micro a l b) (h : a.alive = false) : b.alive = false ∧ requests b.out = requests a.out := by
  obtain ⟨os, eo, w⟩ := micro_out m
  refine ⟨?_, ?_⟩
  · cases hb : b.alive with
    | false => rfl
    | true => rw [alive_path (.one m) hb] at h; cases h
  · rw [eo, requests_append]
    cases w with
    | nothing => simp [requests]
    | plain o ho => rw [requests_plain ho, List.append_nil]
    | request sid s hs hd h1 h2 h3 h4 h5 hb =>
      have : a.alive = true := by rw [alive_iff]; exact ⟨h4, h5⟩
      rw [h] at this; cases this
    | _ => simp [requests]

theorem path_dead {a b : Conn x} {l : List Lab} (p : Path a l b) (h : a.alive = false) : b.alive = false ∧ requests b.out = requests a.out := by
  induction p with
  | refl _ => exact ⟨h, rfl⟩
  | step m _ ih =>
    obtain ⟨h1, h2⟩ := micro_dead m h
    obtain ⟨h3, h4⟩ := ih h1
    exact ⟨h3, h4.trans h2⟩

theorem run_dead {c : Conn x} (hi : Inv0 c) (h : c.alive = false) (is : List Input) :
    (run c is).alive = false ∧ requests (run c is).out = requests c.out := by
  induction is using snocInd with
  | h0 => exact ⟨h, rfl⟩
  | hs is i ih =>
    rw [run_snoc]
    obtain ⟨ls, _, p⟩ := path_step (run c is) i (hi.run is)
    obtain ⟨h1, h2⟩ := path_dead p ih.1
    exact ⟨h1, h2.trans ih.2⟩

end Verif.Srv
