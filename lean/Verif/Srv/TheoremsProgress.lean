import Verif.Srv.Ledger
import Verif.Srv.Real

/-! # C91: an unfinished response waits for the client and for nothing else -/

namespace Verif.Srv
open Verif.Stream

variable {x : Ext}

theorem leaves_step {i : Input} {ls : List Lab} (sid : Nat) (h : StepLabs i ls) (hm : Lab.rstIn sid ∈ ls ∨ Lab.lost ∈ ls) : i.leaves sid = true := by
  have app : ∀ rs : List Lab, (∀ y ∈ rs, Lab.isApp y = true) → ¬ (Lab.rstIn sid ∈ rs ∨ Lab.lost ∈ rs) := fun rs k hm => by
    rcases hm with hm | hm <;> (have := k _ hm; cases this)
  cases i with
  | settings j ack es => rcases hm with hm | hm <;> (have := (h _ hm).1; cases this)
  | data j d pad fin sc =>
    rcases h with e | e | e | ⟨es, rs, sl, k, e⟩ <;> subst e <;> simp at hm
    rcases hm with (hm | hm) | (hm | hm)
    · exact absurd (Or.inl hm) (app _ (isApp_ended k))
    · exact absurd (Or.inl hm) (app _ (isApp_script sl))
    · exact absurd (Or.inr hm) (app _ (isApp_ended k))
    · exact absurd (Or.inr hm) (app _ (isApp_script sl))
  | headers j frag fin eh sc =>
    obtain ⟨rs, sl, e⟩ := h
    have hm : Lab.rstIn sid ∈ rs ∨ Lab.lost ∈ rs := by
      rcases e with e | e <;> subst e
      · exact hm
      · simpa using hm
    exact absurd hm (app _ (isApp_script sl))
  | continuation j frag eh sc => exact absurd hm (app _ (isApp_script h))
  | app a =>
    have h : ls.Sublist a.labs := h
    have : ls.Sublist ([a].flatMap Act.labs) := by simpa using h
    exact absurd hm (app _ (isApp_acts this))
  | windowUpdate j inc =>
    rcases h with e | ⟨_, e⟩ | ⟨_, e⟩ <;> subst e <;> simp at hm
  | rst j code =>
    rcases h with e | e <;> subst e <;> simp at hm
    simp [Input.leaves, hm]
  | goaway last code => rfl
  | _ => have h : ls = [] := h; subst h; simp at hm

theorem ex_run (d : x.D) (e : x.E) (is : List Input) (sid : Nat) :
    Ex (run (Conn.init (x := x) d e) is) sid (is.any (Input.leaves sid) = true) := by
  induction is using snocInd with
  | h0 =>
    have hf : ∀ s, (Conn.init (x := x) d e).find sid = some s → False := fun s h => by simp [Conn.init, Conn.find] at h
    exact ⟨fun s h => (hf s h).elim, fun s h => (hf s h).elim, fun s h => (hf s h).elim, fun h => by simp [run, Conn.init, framesOn, requestsOn] at h⟩
  | hs is i ih =>
    rw [run_snoc]
    obtain ⟨ls, hl, p⟩ := path_step (run (Conn.init (x := x) d e) is) i ((Inv0.init d e).run is)
    refine (ih.mono (Y := (is ++ [i]).any (Input.leaves sid) = true) (fun h => ?_)).path p ((Inv0.init d e).run is) (fun hm => ?_)
    · rw [List.any_append, h]; rfl
    · rw [List.any_append, List.any_cons, leaves_step sid hl hm]; simp

/-- **C91 (blocked only by the client).** On a live connection, let the application have answered a client stream once, and let
the response have started (its HEADERS are out) without END_STREAM so far, with no RST_STREAM in either direction and no GOAWAY from
the client. Then, whenever no input is being processed, the connection window is exhausted (the DATA written on all streams
is all that 65535 and the WINDOW_UPDATE frames for stream 0 allow), or the window of the stream is (for one of the
announced initial window sizes, or the default, the DATA written on this stream is all that this size and the
WINDOW_UPDATE frames for the stream allow). `hx`: the hash map iterates over each of its keys once. -/
theorem C91_blocked (hx : ∀ l, (x.order l).Perm l) (d : x.D) (e : x.E) (is : List Input) {sid : Nat} (ho : sid % 2 = 1)
    (ha : (run (Conn.init (x := x) d e) is).alive = true)
    (hstart : framesOn sid (run (Conn.init (x := x) d e) is).out ≠ [])
    (hopen : ∀ o ∈ framesOn sid (run (Conn.init (x := x) d e) is).out, isFin o = false)
    (hrst : ∀ code, Out.rst sid code ∉ (run (Conn.init (x := x) d e) is).out)
    (hcl : is.any (Input.leaves sid) = false) :
    octets (run (Conn.init (x := x) d e) is).out = 65535 + granted 0 is ∨
    ∃ w ∈ 65535 :: windows is, w + granted sid is ≤ octetsOn sid (run (Conn.init (x := x) d e) is).out := by
  have ex := ex_run d e is sid
  have nE : ¬ Ended (run (Conn.init (x := x) d e) is) sid := fun ⟨o, h1, h2⟩ => by rw [hopen o h1] at h2; cases h2
  cases hf : (run (Conn.init (x := x) d e) is).find sid with
  | none =>
    rcases ex.gone (Or.inl hstart) hf with k | ⟨code, k⟩ | k
    · exact absurd k nE
    · exact absurd k (hrst code)
    · rw [hcl] at k; cases k
  | some s =>
    have he : s.endSent = false := by
      cases h : s.endSent with
      | false => rfl
      | true => exact absurd (ex.sent s hf h) nE
    obtain ⟨hc, _⟩ := rest_run hx d e is ha sid ho s hf
    obtain ⟨_, _, hb⟩ := hc.blk hstart he
    rcases hb with hb | hb
    · obtain ⟨_, w, hw, k⟩ := (paid_run hx d e is ho ha).led s hf he
      exact Or.inr ⟨w, hw, by omega⟩
    · have := sendW_run d e is ha
      exact Or.inl (by omega)

/-- **C91 (completion).** A response that started is complete, with END_STREAM, as soon as the client has granted enough: if
every announced initial window (and the default) plus the WINDOW_UPDATE frames for the stream cover the body, and the connection has
room left, then the whole body is out and END_STREAM is written, unless the stream was reset, the client sent GOAWAY or the
connection is closed. -/
theorem C91_completes (hx : ∀ l, (x.order l).Perm l) (d : x.D) (e : x.E) (is : List Input) {sid : Nat} (ho : sid % 2 = 1)
    {r : Response} (hr : responsesOn sid is = [r])
    (ha : (run (Conn.init (x := x) d e) is).alive = true)
    (hstart : framesOn sid (run (Conn.init (x := x) d e) is).out ≠ [])
    (hrst : ∀ code, Out.rst sid code ∉ (run (Conn.init (x := x) d e) is).out)
    (hcl : is.any (Input.leaves sid) = false)
    (hw : ∀ w ∈ 65535 :: windows is, r.body.length ≤ w + granted sid is)
    (hconn : octets (run (Conn.init (x := x) d e) is).out < 65535 + granted 0 is) :
    (∃ o ∈ framesOn sid (run (Conn.init (x := x) d e) is).out, isFin o = true) ∧
    payload (framesOn sid (run (Conn.init (x := x) d e) is).out) = r.body := by
  have ex := ex_run d e is sid
  obtain ⟨rs, sl, ri⟩ := ri_run d e is ho
  rw [hr] at sl
  have one : Answer sid r (framesOn sid (run (Conn.init (x := x) d e) is).out) ∧
      ∀ s, (run (Conn.init (x := x) d e) is).find sid = some s → Live r (framesOn sid (run (Conn.init (x := x) d e) is).out) s := by
    cases rs with
    | nil => exact absurd (ri.none rfl) hstart
    | cons q qs =>
      have e1 : q :: qs = [r] := sl.eq_of_length_le (by simp)
      rcases ri.one r e1 with k | k
      · exact absurd k hstart
      · exact k
  have key : Ended (run (Conn.init (x := x) d e) is) sid := by
    apply Classical.byContradiction
    intro nE
    cases hf : (run (Conn.init (x := x) d e) is).find sid with
    | none =>
      rcases ex.gone (Or.inl hstart) hf with k | ⟨code, k⟩ | k
      · exact nE k
      · exact hrst code k
      · rw [hcl] at k; cases k
    | some s =>
      have he : s.endSent = false := by
        cases h : s.endSent with
        | false => rfl
        | true => exact absurd (ex.sent s hf h) nE
      obtain ⟨hc, _⟩ := rest_run hx d e is ha sid ho s hf
      obtain ⟨_, hlt, hb⟩ := hc.blk hstart he
      have := sendW_run d e is ha
      have hb : s.peerW ≤ 0 := by omega
      obtain ⟨_, w, hw', k⟩ := (paid_run hx d e is ho ha).led s hf he
      have lv := one.2 s hf
      have := hw w hw'
      have hp := congrArg List.length lv.sofar
      rw [List.length_take] at hp
      have ob := lv.body
      have e2 : s.body.length = r.body.length := by rw [ob]
      have e3 : octetsOn sid (run (Conn.init (x := x) d e) is).out = (payload (framesOn sid (run (Conn.init (x := x) d e) is).out)).length := by
        generalize (run (Conn.init (x := x) d e) is).out = os
        clear * -
        induction os with
        | nil => rfl
        | cons o os ih => cases o <;> simp only [octetsOn, framesOn, ih] <;> split <;> simp [payload]
      omega
  refine ⟨key, ?_⟩
  obtain ⟨o, hm, hfin⟩ := key
  obtain ⟨pre, post, e1⟩ := List.append_of_mem hm
  exact (one.1.fin pre o post e1 hfin).2

theorem path_out {a b : Conn x} {l : List Lab} (p : Path a l b) : ∃ os, b.out = a.out ++ os := by
  induction p with
  | refl _ => exact ⟨[], by simp⟩
  | step m _ ih =>
    obtain ⟨o1, e1, _⟩ := micro_out m
    obtain ⟨o2, e2⟩ := ih
    exact ⟨o1 ++ o2, by rw [e2, e1, List.append_assoc]⟩

theorem run_out (c : Conn x) (hi : Inv0 c) (is : List Input) : ∃ os, (run c is).out = c.out ++ os := by
  induction is using snocInd with
  | h0 => exact ⟨[], by simp [run]⟩
  | hs is i ih =>
    obtain ⟨o1, e1⟩ := ih
    obtain ⟨_, _, p⟩ := path_step (run c is) i (hi.run is)
    obtain ⟨o2, e2⟩ := path_out p
    exact ⟨o1 ++ o2, by rw [run_snoc, e2, e1, List.append_assoc]⟩

theorem run_alive (c : Conn x) (hi : Inv0 c) (is : List Input) (ha : (run c is).alive = true) : c.alive = true := by
  induction is using snocInd with
  | h0 => exact ha
  | hs is i ih =>
    obtain ⟨_, _, p⟩ := path_step (run c is) i (hi.run is)
    rw [run_snoc] at ha
    exact ih (alive_path p ha)

/-- RST_STREAM is written. -/
theorem sendRst_wrote {c : Conn x} {sid code : Nat} {b : Bool} (ha : c.active = true) : WasReset (sendRst c sid code b) sid := by
  have key : ∃ os, (sendRst c sid code b).out = (c.out ++ [.rst sid code]) ++ os := by
    unfold sendRst
    rw [if_neg (by simp [ha])]
    simp only []
    split
    · exact ⟨[], by simp [Conn.emit]⟩
    · rename_i s hs
      split
      · split
        · obtain ⟨os, e⟩ := path_out (path_tryClose (Conn.emit ((c.emit (.rst sid code)).upd sid (fun s => { s with state := .closed, rstSent := true, err := code })) (.streamError sid code)) sid)
          exact ⟨[.streamError sid code] ++ os, by rw [e]; simp [Conn.emit, Conn.upd]⟩
        · obtain ⟨os, e⟩ := path_out (path_tryClose ((c.emit (.rst sid code)).upd sid (fun s => { s with state := .closed, rstSent := true, err := code })) sid)
          exact ⟨os, by rw [e]; simp [Conn.emit, Conn.upd]⟩
      · split
        · exact ⟨[.streamError sid code], by simp [Conn.emit, Conn.upd]⟩
        · exact ⟨[], by simp [Conn.emit, Conn.upd]⟩
  obtain ⟨os, e⟩ := key
  exact ⟨code, by rw [e]; simp⟩

/-- What a response leads to, on a stream that is in the table. -/
theorem sendResponse_outcome {c : Conn x} {sid : Nat} {r : Response} {s : SStream} {X : Prop} (hi : Inv0 c) (ex : Ex c sid X)
    (hs : c.find sid = some s) (ha : (sendResponse c sid r).alive = true) :
    framesOn sid (sendResponse c sid r).out ≠ [] ∨ WasReset (sendResponse c sid r) sid ∨ X := by
  have act : c.active = true := by
    obtain ⟨ls, _, p⟩ := path_sendResponse c sid r
    exact (alive_iff.mp (alive_path p ha)).2
  unfold sendResponse at ha ⊢
  rw [hs] at ha ⊢
  simp only [] at ha ⊢
  have act' : (c.upd sid (fun s => { s with body := r.body, offset := 0, hasTrailer := (Verif.Wire.find r.headers b!"Trailer").isSome })).active = true := act
  have hout : (c.upd sid (fun s => { s with body := r.body, offset := 0, hasTrailer := (Verif.Wire.find r.headers b!"Trailer").isSome })).out = c.out := rfl
  have hfind : ∀ t, (c.upd sid (fun s => { s with body := r.body, offset := 0, hasTrailer := (Verif.Wire.find r.headers b!"Trailer").isSome })).find sid = some t →
      t.endSent = s.endSent := by
    intro t ht
    rcases find_upd_some ht (fun _ => rfl) with ⟨_, u, hu, e⟩ | ⟨e, _⟩
    · have : u = s := Option.some.inj (hu.symm.trans hs)
      subst this; subst e; rfl
    · exact absurd rfl e
  generalize c.upd sid (fun s => { s with body := r.body, offset := 0, hasTrailer := (Verif.Wire.find r.headers b!"Trailer").isSome }) = c1 at *
  split
  · exact Or.inr (Or.inl (sendRst_wrote act'))
  rename_i h1
  rw [if_neg h1] at ha
  split
  · rename_i h2
    have ok := hi.state _ _ hs
    have ended : Ended c sid → framesOn sid c1.out ≠ [] := fun ⟨o, ho, _⟩ e => by
      rw [hout] at e; rw [e] at ho; cases ho
    simp only [Bool.or_eq_true, beq_iff_eq] at h2
    rcases h2 with h2 | h2
    · rcases ok.closed h2 with k | k | k
      · obtain ⟨code, k⟩ := ex.rst s hs k
        exact Or.inr (Or.inl ⟨code, by rw [hout]; exact k⟩)
      · exact Or.inr (Or.inr (ex.recv s hs k))
      · exact Or.inl (ended (ex.sent s hs k.1))
    · exact Or.inl (ended (ex.sent s hs (ok.hcl h2)))
  rename_i h2
  rw [if_neg h2] at ha
  split
  · exact Or.inr (Or.inl (sendRst_wrote act'))
  rename_i fs dl hr
  rw [hr] at ha
  simp only [] at ha
  split
  · exact Or.inr (Or.inl (sendRst_wrote act'))
  rename_i hb
  rw [hb] at ha
  simp only [] at ha
  split
  · rename_i he; rw [he] at ha; simp only [] at ha; rw [goaway_dead] at ha; cases ha
  rename_i block he
  unfold sendHead
  split
  · exact Or.inr (Or.inl (sendRst_wrote act'))
  refine Or.inl ?_
  have E : ∀ {c2 : Conn x} {l : List Lab}, Path (Conn.emit { c1 with enc := (x.encode c1.enc fs).2 } (.headers sid block r.body.isEmpty)) l c2 → framesOn sid c2.out ≠ [] := by
    intro c2 l p
    obtain ⟨os, e⟩ := path_out p
    rw [e, framesOn_append]
    show framesOn sid (c1.out ++ [.headers sid block r.body.isEmpty]) ++ _ ≠ []
    rw [framesOn_append]
    simp [framesOn]
  have O : ∀ {c2 : Conn x}, (∃ os, c2.out = c1.out ++ [.headers sid block r.body.isEmpty] ++ os) → framesOn sid c2.out ≠ [] := by
    intro c2 ⟨os, e⟩
    rw [e, framesOn_append, framesOn_append]
    simp [framesOn]
  simp only []
  split
  · apply O
    have base : ∃ os, (((Conn.emit { c1 with enc := (x.encode c1.enc fs).2 } (.headers sid block r.body.isEmpty)).upd sid
      (fun s => { s with endSent := true, state := sendEnd s.state })).out) = c1.out ++ [.headers sid block r.body.isEmpty] ++ os := ⟨[], by simp [Conn.emit, Conn.upd]⟩
    split
    · exact base
    · split
      · obtain ⟨os, e⟩ := path_out (path_tryClose ((Conn.emit { c1 with enc := (x.encode c1.enc fs).2 } (.headers sid block r.body.isEmpty)).upd sid
          (fun s => { s with endSent := true, state := sendEnd s.state })) sid)
        obtain ⟨os', e'⟩ := base
        exact ⟨os' ++ os, by rw [e, e']; simp⟩
      · exact base
  · have hfr : framesOn sid (Conn.emit { c1 with enc := (x.encode c1.enc fs).2 } (.headers sid block r.body.isEmpty)).out ≠ [] := O ⟨[], by simp [Conn.emit]⟩
    have hes : ∀ t, (Conn.emit { c1 with enc := (x.encode c1.enc fs).2 } (.headers sid block r.body.isEmpty)).find sid = some t → StateOk t → t.endSent = false := by
      intro t ht _
      rw [hfind t ht]
      cases hE : s.endSent with
      | false => rfl
      | true => rcases (hi.state _ _ hs).sent hE with z | z <;> rw [z] at h2 <;> simp at h2
    have p := path_sendBody (Conn.emit { c1 with enc := (x.encode c1.enc fs).2 } (.headers sid block r.body.isEmpty)) sid hes
    split
    · exact E (p hfr)
    · split
      · exact E ((p hfr).tr (path_tryClose _ _))
      · exact E (p hfr)

/-- **C91 (a response is not swallowed).** The application answers a request it was handed. At any later moment of a
live connection the stream carries HEADERS or was reset by RST_STREAM, unless the client sent RST_STREAM for it or GOAWAY. -/
theorem C91_answered (d : x.D) (e : x.E) (pre post : List Input) {sid : Nat} {r : Response}
    (hreq : requestsOn sid (run (Conn.init (x := x) d e) pre).out ≠ [])
    (ha : (run (Conn.init (x := x) d e) (pre ++ .app (.respond sid r) :: post)).alive = true)
    (hcl : pre.any (Input.leaves sid) = false) :
    framesOn sid (run (Conn.init (x := x) d e) (pre ++ .app (.respond sid r) :: post)).out ≠ [] ∨
    ∃ code, Out.rst sid code ∈ (run (Conn.init (x := x) d e) (pre ++ .app (.respond sid r) :: post)).out := by
  have hi := (Inv0.init (x := x) d e).run pre
  have ex := ex_run d e pre sid
  rw [run_append] at ha ⊢
  generalize run (Conn.init (x := x) d e) pre = c at *
  have e1 : run c (.app (.respond sid r) :: post) = run (sendResponse c sid r) post := rfl
  rw [e1] at ha ⊢
  obtain ⟨ls, _, p⟩ := path_sendResponse c sid r
  have hi1 := hi.path p
  have ha1 := run_alive _ hi1 post ha
  obtain ⟨o1, e2⟩ := path_out p
  obtain ⟨o2, e3⟩ := run_out _ hi1 post
  have F : framesOn sid (sendResponse c sid r).out ≠ [] → framesOn sid (run (sendResponse c sid r) post).out ≠ [] := fun k => by
    rw [e3, framesOn_append]; simp [k]
  have key : framesOn sid (sendResponse c sid r).out ≠ [] ∨ WasReset (sendResponse c sid r) sid := by
    cases hs : c.find sid with
    | none =>
      rcases ex.gone (Or.inr hreq) hs with ⟨o, ho, _⟩ | k | k
      · left; rw [e2, framesOn_append]; intro z
        rw [(List.append_eq_nil_iff.mp z).1] at ho; cases ho
      · exact Or.inr (k.mono e2)
      · rw [hcl] at k; cases k
    | some s =>
      rcases sendResponse_outcome hi ex hs ha1 with k | k | k
      · exact Or.inl k
      · exact Or.inr k
      · rw [hcl] at k; cases k
  rcases key with k | k
  · exact Or.inl (F k)
  · exact Or.inr (k.mono e3)

/-- A response of six octets in a window of three: it waits, with the window used up; after WINDOW_UPDATE it is complete. -/
example : (run toy [.settings 0 false [(4, 3)], .headers 1 [] true true {}, .app (.respond 1 ⟨200, [], b!"abcdef"⟩)]).alive = true ∧
    framesOn 1 (run toy [.settings 0 false [(4, 3)], .headers 1 [] true true {}, .app (.respond 1 ⟨200, [], b!"abcdef"⟩)]).out =
      [.headers 1 [] false, .data 1 b!"abc" false] ∧
    framesOn 1 (run toy [.settings 0 false [(4, 3)], .headers 1 [] true true {}, .app (.respond 1 ⟨200, [], b!"abcdef"⟩), .windowUpdate 1 3]).out =
      [.headers 1 [] false, .data 1 b!"abc" false, .data 1 b!"def" true] ∧
    [Input.settings 0 false [(4, 3)], .headers 1 [] true true {}, .app (.respond 1 ⟨200, [], b!"abcdef"⟩), .windowUpdate 1 3].any (Input.leaves 1) = false ∧
    65535 :: windows [Input.settings 0 false [(4, 3)], .headers 1 [] true true {}, .app (.respond 1 ⟨200, [], b!"abcdef"⟩), .windowUpdate 1 3] = [65535, 3] ∧
    requestsOn 1 (run toy [.settings 0 false [(4, 3)], .headers 1 [] true true {}]).out ≠ [] := by decide

end Verif.Srv
