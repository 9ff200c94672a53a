import Verif.Srv.TheoremsProgress

/-! # C93: the number of requests in progress -/

namespace Verif.Srv
open Verif.Stream

variable {x : Ext}

/-- The client streams in the table. -/
def oddIds (c : Conn x) : List Nat := (c.streams.map (·.id)).filter (fun n => n % 2 == 1)

/-- The number of streams opened. -/
def opens : List Lab → Nat
  | [] => 0
  | .opened _ :: ls => 1 + opens ls
  | _ :: ls => opens ls

theorem opens_append (a b : List Lab) : opens (a ++ b) = opens a + opens b := by
  induction a with
  | nil => simp [opens]
  | cons y a ih => cases y <;> simp [opens, ih]; omega

theorem oddIds_upd {c : Conn x} {sid : Nat} {f : SStream → SStream} (k : Keeps sid f) : oddIds (c.upd sid f) = oddIds c := by
  unfold oddIds; rw [upd_ids c sid f k]

theorem micro_count {a b : Conn x} {l : List Lab} (m : Micro a l b) : (oddIds b).length ≤ (oddIds a).length + opens l := by
  have U : ∀ {c : Conn x} {sid : Nat} {f : SStream → SStream}, c.streams = a.streams → b = c.upd sid f → (∀ s, s.id = sid → (f s).id = s.id) → (oddIds b).length ≤ (oddIds a).length + opens l := by
    intro c sid f e eb k
    rw [eb, oddIds_upd (fun s hs => (k s hs).trans hs)]
    have : oddIds c = oddIds a := by unfold oddIds; rw [e]
    rw [this]; omega
  have keep : b.streams = a.streams → (oddIds b).length ≤ (oddIds a).length + opens l := by
    intro e
    have : oddIds b = oddIds a := by unfold oddIds; rw [e]
    rw [this]; omega
  have sub : (b.streams.map (·.id)).Sublist (a.streams.map (·.id)) → (oddIds b).length ≤ (oddIds a).length + opens l := by
    intro e
    have := (e.filter (fun n => n % 2 == 1)).length_le
    unfold oddIds
    omega
  cases m with
  | aux _ h1 h2 h3 h4 h5 h6 h7 h8 h9 _ => exact keep h1
  | erase sid hc => exact sub (List.filter_sublist.map _)
  | prune p hn => exact sub (List.filter_sublist.map _)
  | soft sid f k hs hpo => exact U (c := a) rfl rfl (fun s e => (k s e).trans e.symm)
  | opened sid h1 h2 h3 h4 h5 =>
    simp [oddIds, opens, h1]
  | pushed sid parent h1 h2 h3 =>
    simp [oddIds, opens, h1]
  | data s k fin p hs hk hm hp hw ho he hf hf' hh hp' =>
    have : oddIds (a.upd s.id (fun _ => { s with
          offset := s.offset + k
          peerW := s.peerW - (k : Int)
          endSent := s.endSent || fin
          state := if fin then .halfClosedLocal else s.state
          pending := p })) = oddIds a := oddIds_upd (fun _ _ => rfl)
    exact Nat.le_trans (Nat.le_of_eq (congrArg List.length this)) (Nat.le_add_right _ _)
  | setMax n _ => exact keep rfl
  | plain o _ => exact keep rfl
  | die code _ => exact keep rfl
  | rstIn sid code => exact U (c := a) rfl rfl (fun _ _ => rfl)
  | ended sid => exact U (c := a) rfl rfl (fun _ _ => rfl)
  | rebody sid r b hb => exact U (c := a) rfl rfl (fun _ _ => rfl)
  | start sid r b s block hb hs he => exact U (c := a.emit (.headers sid block r.body.isEmpty)) rfl rfl (fun _ _ => rfl)
  | trail sid s hs he ho ht => exact U (c := a.emit (.headers sid [] true)) rfl rfl (fun _ _ => rfl)
  | recv n => exact keep rfl
  | dataIn sid n d s hs he => exact U (c := { a with recvW := a.recvW - (n : Int) }) rfl rfl (fun _ _ => rfl)
  | credConn inc _ _ => exact keep rfl
  | credKeep sid n p s hs hp _ => exact U (c := a) rfl rfl (fun _ _ => rfl)
  | credSend sid n p h0 s hs hp _ => exact U (c := { a with out := a.out ++ (if a.ok then [Out.windowUpdate sid p] else []) }) rfl rfl (fun _ _ => rfl)
  | grantConn inc _ => exact keep rfl
  | grant sid inc s hs hp => exact U (c := a) rfl rfl (fun _ _ => rfl)
  | setInit new => exact keep rfl
  | shift sid delta => exact U (c := a) rfl rfl (fun _ _ => rfl)
  | head sid hodd fs r cl hr => exact U (c := a) rfl rfl (fun _ _ => rfl)
  | trailers sid fs s hs hm hdrs ht => exact U (c := a) rfl rfl (fun _ _ => rfl)
  | request sid s hs hd h1 h2 h3 h4 h5 =>
    exact U (c := { a with out := a.out ++ [.request sid s.req] }) (sid := sid) (f := fun s => { s with dispatched := true }) rfl rfl (fun _ _ => rfl)

theorem path_count {a b : Conn x} {l : List Lab} (p : Path a l b) : (oddIds b).length ≤ (oddIds a).length + opens l := by
  induction p with
  | refl _ => simp
  | step m _ ih =>
    have := micro_count m
    rw [opens_append]; omega

theorem opens_app {ls : List Lab} (h : ∀ y ∈ ls, Lab.isApp y = true) : opens ls = 0 := by
  induction ls with
  | nil => rfl
  | cons y l ih =>
    have h1 := h y (List.mem_cons_self ..)
    have := ih (fun z hz => h z (List.mem_cons_of_mem _ hz))
    cases y <;> simp [Lab.isApp] at h1 <;> simpa [opens] using this

theorem opens_set {ls : List Lab} (h : ∀ y ∈ ls, Lab.isSet y = true) : opens ls = 0 := by
  induction ls with
  | nil => rfl
  | cons y l ih =>
    have h1 := h y (List.mem_cons_self ..)
    have := ih (fun z hz => h z (List.mem_cons_of_mem _ hz))
    cases y <;> simp [Lab.isSet] at h1 <;> simpa [opens] using this

/-- A HEADERS frame opens a stream only below the limit. -/
theorem onHeaders_opens (c : Conn x) (sid : Nat) (frag : Bytes) (fin eh : Bool) (h : Script) (hi : Inv0 c) :
    ∃ ls, Path c ls (onHeaders c sid frag fin eh h) ∧ (opens ls = 0 ∨ (opens ls = 1 ∧ activeCount c < OUR_MAX_CONCURRENT)) := by
  by_cases hc : activeCount c < OUR_MAX_CONCURRENT
  · obtain ⟨ls, ⟨rs, sl, e⟩, p⟩ := path_onHeaders c sid frag fin eh h
    refine ⟨ls, p, ?_⟩
    have := opens_app (isApp_script sl)
    rcases e with e | e
    · subst e; exact Or.inl this
    · subst e; exact Or.inr ⟨by simp [opens, this], hc⟩
  · cases hf : c.find sid with
    | some s =>
      obtain ⟨ls, sl, p⟩ := path_onHeaders_old c sid frag fin eh h ⟨s, hf⟩
      exact ⟨ls, p, Or.inl (opens_app (isApp_script sl))⟩
    | none =>
      have : ∃ c', onHeaders c sid frag fin eh h = c' ∧ Path c [] c' := by
        refine ⟨_, rfl, ?_⟩
        unfold onHeaders
        split
        · exact .refl _
        split
        · exact path_goaway _ _
        split
        · exact path_goaway _ _
        rw [hf]
        simp only []
        split
        · exact path_sendRst _ _ _ _
        split
        · exact path_sendRst _ _ _ _
        rw [if_pos (by omega)]
        exact path_sendRst _ _ _ _
      obtain ⟨c', e, p⟩ := this
      exact ⟨[], by rw [e]; exact p, Or.inl rfl⟩

theorem opens_step {c : Conn x} (i : Input) (hi : Inv0 c) :
    ∃ ls, Path c ls (step c i) ∧ (opens ls = 0 ∨ (opens ls = 1 ∧ activeCount c < OUR_MAX_CONCURRENT)) := by
  obtain ⟨ls, hl, p⟩ := path_step c i hi
  cases i with
  | headers sid frag fin eh sc => exact onHeaders_opens c sid frag fin eh sc hi
  | data sid d pad fin sc =>
    refine ⟨ls, p, Or.inl ?_⟩
    rcases hl with e | e | e | ⟨es, rs, sl, k, e⟩ <;> subst e <;> simp [opens]
    rw [opens_append, opens_app (isApp_ended k)]
    simp only [opens]
    rw [opens_app (isApp_script sl)]
  | continuation sid frag eh sc => exact ⟨ls, p, Or.inl (opens_app (isApp_script hl))⟩
  | settings sid ack es => exact ⟨ls, p, Or.inl (opens_set (fun y hy => (hl y hy).1))⟩
  | windowUpdate sid inc => rcases hl with e | ⟨h0, e⟩ | ⟨_, e⟩ <;> subst e <;> exact ⟨_, p, Or.inl rfl⟩
  | app a =>
    have hl : ls.Sublist a.labs := hl
    have : ls.Sublist ([a].flatMap Act.labs) := by simpa using hl
    exact ⟨ls, p, Or.inl (opens_app (isApp_acts this))⟩
  | rst j code => rcases hl with e | e <;> subst e <;> exact ⟨_, p, Or.inl rfl⟩
  | goaway last code => rcases hl with e | e <;> subst e <;> exact ⟨_, p, Or.inl rfl⟩
  | _ => have hl : ls = [] := hl; subst hl; exact ⟨_, p, Or.inl rfl⟩

/-- With every client stream of the table active, the limit counts them all. -/
theorem activeCount_eq {c : Conn x} (hi : Inv0 c) (hok : AllOk c) : activeCount c = (oddIds c).length := by
  unfold activeCount oddIds
  rw [List.filter_map, List.length_map]
  congr 1
  apply List.filter_congr
  intro s hs
  have hf : c.find s.id = some s := mem_find hi.nodup hs
  by_cases ho : s.id % 2 = 1
  · have := (hok s.id ho s hf).2
    have this : isActive s = true := this
    simp [ho, this]
  · have : s.id % 2 = 0 := by omega
    simp [this]

theorem limit_run (hx : ∀ l, (x.order l).Perm l) (d : x.D) (e : x.E) (is : List Input) :
    (run (Conn.init (x := x) d e) is).alive = true → (oddIds (run (Conn.init (x := x) d e) is)).length ≤ OUR_MAX_CONCURRENT := by
  induction is using snocInd with
  | h0 => intro _; exact Nat.zero_le _
  | hs is i ih =>
    rw [run_snoc]
    intro ha
    have hi := (Inv0.init (x := x) d e).run is
    obtain ⟨ls, p, k⟩ := opens_step (c := run (Conn.init (x := x) d e) is) i hi
    have hal := alive_path p ha
    have h1 := ih hal
    have h2 := path_count p
    rcases k with k | ⟨k, hc⟩
    · omega
    · rw [activeCount_eq hi (rest_run hx d e is hal)] at hc
      omega

/-- The stream is being processed: its request was handed to the application, and so far no END_STREAM was written, there
was no RST_STREAM in either direction, and no GOAWAY from the client. -/
structure InProgress (is : List Input) (os : List Out) (sid : Nat) : Prop where
  odd : sid % 2 = 1
  request : requestsOn sid os ≠ []
  unfinished : ∀ o ∈ framesOn sid os, isFin o = false
  kept : ∀ code, Out.rst sid code ∉ os
  wanted : is.any (Input.leaves sid) = false

theorem inProgress_le (d : x.D) (e : x.E) (is : List Input) (l : List Nat) (hn : l.Nodup)
    (hl : ∀ sid ∈ l, InProgress is (run (Conn.init (x := x) d e) is).out sid) : l.length ≤ (oddIds (run (Conn.init (x := x) d e) is)).length := by
  have hsub : ∀ sid ∈ l, sid ∈ oddIds (run (Conn.init (x := x) d e) is) := by
    intro sid hm
    have k := hl sid hm
    have ex := ex_run d e is sid
    cases hf : (run (Conn.init (x := x) d e) is).find sid with
    | none =>
      rcases ex.gone (Or.inr k.request) hf with ⟨o, h1, h2⟩ | ⟨code, z⟩ | z
      · rw [k.unfinished o h1] at h2; cases h2
      · exact absurd z (k.kept code)
      · rw [k.wanted] at z; cases z
    | some s =>
      unfold oddIds
      rw [List.mem_filter]
      exact ⟨List.mem_map.mpr ⟨s, find_mem hf, find_id hf⟩, by simp [k.odd]⟩
  generalize oddIds (run (Conn.init (x := x) d e) is) = t at *
  clear * - hn hsub
  induction l generalizing t with
  | nil => exact Nat.zero_le _
  | cons a l ih =>
    rw [List.nodup_cons] at hn
    have ha : a ∈ t := hsub a (List.mem_cons_self ..)
    have := ih hn.2 (t := t.erase a) (fun s hs => by
      have hne : s ≠ a := fun e => hn.1 (by rw [← e]; exact hs)
      rw [List.mem_erase_of_ne hne]
      exact hsub s (List.mem_cons_of_mem _ hs))
    rw [List.length_erase_of_mem ha] at this
    have : 0 < t.length := List.length_pos_of_mem ha
    rw [List.length_cons]; omega

/-- **C93 (limit).** On a live connection at most 50 requests are in progress at a time (the SETTINGS_MAX_CONCURRENT_STREAMS
the server announces), whatever the client does. -/
theorem C93_limit (hx : ∀ l, (x.order l).Perm l) (d : x.D) (e : x.E) (is : List Input)
    (ha : (run (Conn.init (x := x) d e) is).alive = true) (l : List Nat) (hn : l.Nodup)
    (hl : ∀ sid ∈ l, InProgress is (run (Conn.init (x := x) d e) is).out sid) : l.length ≤ 50 :=
  Nat.le_trans (inProgress_le d e is l hn hl) (limit_run hx d e is ha)

/-- The numbers of the HEADERS frames of the client. -/
def headersIn : List Input → List Nat
  | [] => []
  | .headers j _ _ _ _ :: is => j :: headersIn is
  | _ :: is => headersIn is

theorem headersIn_append (a b : List Input) : headersIn (a ++ b) = headersIn a ++ headersIn b := by
  induction a with
  | nil => rfl
  | cons i a ih => cases i <;> simp [headersIn, ih]

theorem opened_step {i : Input} {ls : List Lab} (h : StepLabs i ls) {j : Nat} (hm : Lab.opened j ∈ ls) : j ∈ headersIn [i] := by
  cases i with
  | settings k ack es => exact absurd hm (set_not_opened (fun y hy => (h y hy).1) j)
  | data k d pad fin sc =>
    rcases h with e | e | e | ⟨es, rs, sl, k', e⟩ <;> subst e <;> simp at hm
    rcases hm with hm | hm
    · exact absurd hm (opened_resp _ (isApp_ended k'))
    · exact absurd hm (opened_resp _ (isApp_script sl))
  | headers k frag fin eh sc =>
    obtain ⟨rs, sl, e⟩ := h
    rcases e with e | e <;> subst e
    · exact absurd hm (opened_resp _ (isApp_script sl))
    · rcases List.mem_cons.mp hm with e | e
      · cases e; simp [headersIn]
      · exact absurd e (opened_resp _ (isApp_script sl))
  | continuation k frag eh sc => exact absurd hm (opened_resp _ (isApp_script h))
  | app a =>
    have h : ls.Sublist a.labs := h
    have : ls.Sublist ([a].flatMap Act.labs) := by simpa using h
    exact absurd hm (opened_resp _ (isApp_acts this))
  | windowUpdate k inc => rcases h with e | ⟨_, e⟩ | ⟨_, e⟩ <;> subst e <;> simp at hm
  | rst k code => rcases h with e | e <;> subst e <;> simp at hm
  | goaway last code => rcases h with e | e <;> subst e <;> simp at hm
  | _ => have h : ls = [] := h; subst h; simp at hm

/-- The largest client stream is the number of some HEADERS frame. -/
theorem last_run (d : x.D) (e : x.E) (is : List Input) {sid : Nat} (h0 : 0 < sid) (h : ∀ j ∈ headersIn is, j < sid) :
    (run (Conn.init (x := x) d e) is).lastClient < sid := by
  induction is using snocInd with
  | h0 => exact h0
  | hs is i ih =>
    rw [headersIn_append] at h
    rw [run_snoc]
    obtain ⟨ls, hl, p⟩ := path_step (run (Conn.init (x := x) d e) is) i ((Inv0.init d e).run is)
    refine p.inductL (P := fun c => c.lastClient < sid) (Q := fun y => ∀ j, y = .opened j → j < sid) (fun a l b m hq ha => ?_) (fun y hy j e => ?_)
      (ih (fun j hj => h j (List.mem_append_left _ hj)))
    · cases m with
      | aux _ h1 h2 h3 h4 h5 h6 h7 h8 h9 _ => show _ < sid; rw [h7]; exact ha
      | opened j h1 h2 h3 h4 h5 => exact hq _ (List.mem_singleton.mpr rfl) j rfl
      | _ => exact ha
    · subst e
      exact h j (List.mem_append_right _ (opened_step hl hy))

/-- **C93 (refusal).** While 50 requests are in progress, a HEADERS frame that would open another stream is answered with
RST_STREAM (REFUSED_STREAM, code 7) and has no other effect that can be seen: no request reaches the application. -/
theorem C93_refused (hx : ∀ l, (x.order l).Perm l) (d : x.D) (e : x.E) (is : List Input)
    (ha : (run (Conn.init (x := x) d e) is).alive = true) (l : List Nat) (hn : l.Nodup) (h50 : 50 ≤ l.length)
    (hl : ∀ sid ∈ l, InProgress is (run (Conn.init (x := x) d e) is).out sid) {sid : Nat} {frag : Bytes} {fin eh : Bool} {h : Script}
    (hs : sid % 2 = 1) (hnew : ∀ j ∈ headersIn is, j < sid) :
    (run (Conn.init (x := x) d e) (is ++ [.headers sid frag fin eh h])).out =
      (run (Conn.init (x := x) d e) is).out ++ [.rst sid 7] ∧
    (run (Conn.init (x := x) d e) (is ++ [.headers sid frag fin eh h])).alive = true := by
  have h1 := inProgress_le d e is l hn hl
  have hlast := last_run (x := x) d e is (sid := sid) (by omega) hnew
  have hok := rest_run hx d e is ha
  have hi := (Inv0.init (x := x) d e).run is
  have hk : Known (run (Conn.init (x := x) d e) is) := by
    clear * -
    induction is using snocInd with
    | h0 => intro _ _ _; rfl
    | hs is i ih =>
      rw [run_snoc]
      obtain ⟨ls, hl, p⟩ := path_step (run (Conn.init (x := x) d e) is) i ((Inv0.init d e).run is)
      exact p.induct (fun _ _ _ m h => h.micro m) ih
  rw [run_snoc]
  generalize run (Conn.init (x := x) d e) is = c at *
  have hf := hk sid hs hlast
  have hc := activeCount_eq hi hok
  obtain ⟨a1, a2⟩ := alive_iff.mp ha
  have er : step c (.headers sid frag fin eh h) = sendRst c sid REFUSED_STREAM := by
    show onHeaders c sid frag fin eh h = _
    unfold onHeaders
    rw [if_neg (by simp [a1, a2]), if_neg (by simp; omega), if_neg (by simp; omega), hf]
    simp only []
    rw [if_neg (by omega)]
    split
    · rfl
    · rw [if_pos (by show _ ≥ 50; omega)]
  rw [er]
  unfold sendRst
  rw [if_neg (by simp [a2])]
  have hf' : (c.emit (.rst sid REFUSED_STREAM)).find sid = none := hf
  simp only [hf']
  exact ⟨rfl, ha⟩

/-- Two requests in progress on a live connection, and one that is finished. -/
example : (run toy [.headers 1 [] true true {}, .headers 3 [] true true {}, .headers 5 [] true true { acts := [.respond 5 ⟨200, [], b!"x"⟩] }]).alive = true ∧
    requestsOn 1 (run toy [.headers 1 [] true true {}, .headers 3 [] true true {}, .headers 5 [] true true { acts := [.respond 5 ⟨200, [], b!"x"⟩] }]).out ≠ [] ∧
    requestsOn 3 (run toy [.headers 1 [] true true {}, .headers 3 [] true true {}, .headers 5 [] true true { acts := [.respond 5 ⟨200, [], b!"x"⟩] }]).out ≠ [] ∧
    framesOn 5 (run toy [.headers 1 [] true true {}, .headers 3 [] true true {}, .headers 5 [] true true { acts := [.respond 5 ⟨200, [], b!"x"⟩] }]).out =
      [.headers 5 [] false, .data 5 b!"x" true] ∧
    oddIds (run toy [.headers 1 [] true true {}, .headers 3 [] true true {}, .headers 5 [] true true { acts := [.respond 5 ⟨200, [], b!"x"⟩] }]) = [1, 3] := by decide

end Verif.Srv
