import Verif.Srv.TheoremsLimit

/-! # How requests are assembled -/

namespace Verif.Srv
open Verif.Stream
open Verif.Wire (Headers)

variable {x : Ext}

/-- The DATA accepted on a stream. -/
def dataOf (sid : Nat) : List Lab → Bytes
  | [] => []
  | .dataIn j _ d :: ls => (if j = sid then d else []) ++ dataOf sid ls
  | _ :: ls => dataOf sid ls

theorem dataOf_append (sid : Nat) (a b : List Lab) : dataOf sid (a ++ b) = dataOf sid a ++ dataOf sid b := by
  induction a with
  | nil => simp [dataOf]
  | cons o a ih => cases o <;> simp [dataOf, ih]

/-- The request `r` has a head that was accepted, with declared length `cl`, followed by accepted trailers. -/
def HeadOk (known : Bytes → Bool) (r : Request) (cl : Option Nat) : Prop :=
  ∃ fs ts r0, requestHead known fs = .ok (r0, cl) ∧ trailerLoop ts r0.headers = some r.headers ∧
    r.method = r0.method ∧ r.scheme = r0.scheme ∧ r.authority = r0.authority ∧ r.path = r0.path

theorem trailerLoop_append (a b : List Field) (hs : Headers) :
    trailerLoop (a ++ b) hs = (trailerLoop a hs).bind (trailerLoop b) := by
  induction a generalizing hs with
  | nil => rfl
  | cons f a ih =>
    obtain ⟨n, v⟩ := f
    rw [List.cons_append, trailerLoop, trailerLoop]
    split
    · rfl
    split
    · rfl
    split
    · rfl
    · exact ih _

def HeadAt (known : Bytes → Bool) (s : SStream) : Prop := s.headersMain = true → HeadOk known s.req s.cl

/-- How the request of a stream changes in a small step. -/
structure ReqStep (known : Bytes → Bool) (l : List Lab) (j : Nat) (t t' : SStream) : Prop where
  body : t'.req.body = t.req.body ++ dataOf j l
  endRecv : t'.endRecv = true → t.endRecv = true ∨ Lab.ended j ∈ l
  disp : t'.dispatched = true → t.dispatched = true ∨ t.endRecv = true
  data : t.endRecv = true → dataOf j l = []
  head : HeadAt known t → HeadAt known t'

theorem micro_req {a b : Conn x} {l : List Lab} (m : Micro a l b) {j : Nat} {t' : SStream} (h : b.find j = some t') :
    (a.find j = none ∧ t'.req.body = [] ∧ t'.endRecv = false ∧ t'.dispatched = false ∧ t'.headersMain = false ∧ dataOf j l = [] ∧
      (Lab.opened j ∈ l ∨ j % 2 = 0)) ∨
    ∃ t, a.find j = some t ∧ ReqStep x.methodKnown l j t t' := by
  have same : ∀ {t t' : SStream}, dataOf j l = [] → t'.req = t.req → t'.endRecv = t.endRecv → t'.dispatched = t.dispatched →
      t'.headersMain = t.headersMain → t'.cl = t.cl → ReqStep x.methodKnown l j t t' := by
    intro t t' h0 h1 h2 h3 h4 h5
    exact ⟨by rw [h0, h1, List.append_nil], by rw [h2]; exact Or.inl, by rw [h3]; exact Or.inl, fun _ => h0,
      by unfold HeadAt; rw [h1, h4, h5]; exact id⟩
  have keep : dataOf j l = [] → a.find j = some t' → (a.find j = none ∧ t'.req.body = [] ∧ t'.endRecv = false ∧ t'.dispatched = false ∧ t'.headersMain = false ∧ dataOf j l = [] ∧
      (Lab.opened j ∈ l ∨ j % 2 = 0)) ∨
    ∃ t, a.find j = some t ∧ ReqStep x.methodKnown l j t t' :=
    fun h0 h => Or.inr ⟨t', h, same h0 rfl rfl rfl rfl rfl⟩
  have U : ∀ {c : Conn x} {sid : Nat} {f : SStream → SStream}, c.streams = a.streams → (c.upd sid f).find j = some t' → (∀ s, (f s).id = s.id) →
      (∀ t, a.find j = some t → sid = j → ReqStep x.methodKnown l j t (f t)) → (sid ≠ j → dataOf j l = []) →
      (a.find j = none ∧ t'.req.body = [] ∧ t'.endRecv = false ∧ t'.dispatched = false ∧ t'.headersMain = false ∧ dataOf j l = [] ∧
      (Lab.opened j ∈ l ∨ j % 2 = 0)) ∨
    ∃ t, a.find j = some t ∧ ReqStep x.methodKnown l j t t' := by
    intro c sid f e h k q q'
    have hc' : ∀ i, c.find i = a.find i := fun i => by unfold Conn.find; rw [e]
    rcases find_upd_some h k with ⟨e, t, ht, et⟩ | ⟨e, ht⟩
    · rw [hc', ← e] at ht; rw [et]; exact Or.inr ⟨t, ht, q t ht e.symm⟩
    · rw [hc'] at ht; exact keep (q' (fun z => e z.symm)) ht
  cases m with
  | aux _ h1 h2 h3 h4 h5 h6 h7 h8 h9 _ => apply keep rfl; unfold Conn.find at h ⊢; rwa [h1] at h
  | erase sid hc => exact keep rfl (find_erase_some h).2
  | prune p hn => exact keep rfl (find_filter_some hn h).1
  | soft sid f k hs hpo =>
    rw [find_upd j k] at h
    split at h
    · rename_i e
      subst e
      cases hf : a.find j with
      | none => rw [hf] at h; cases h
      | some t =>
        rw [hf] at h
        have e := (Option.some.inj h).symm
        have q := hs t hf
        rw [e]
        exact Or.inr ⟨t, rfl, same rfl q.req q.endRecv q.dispatched q.headersMain q.cl⟩
    · exact keep rfl h
  | opened sid h1 h2 h3 h4 h5 =>
    rcases find_app (c := a) (s := { id := sid, peerW := a.initPeer }) h3 h with ⟨e, et⟩ | ⟨e, ht⟩
    · have e : j = sid := e
      subst e; subst et; exact Or.inl ⟨h3, rfl, rfl, rfl, rfl, rfl, Or.inl (List.mem_singleton.mpr rfl)⟩
    · exact keep rfl ht
  | pushed sid parent h1 h2 h3 =>
    rcases find_app (c := a) (s := { id := sid, state := .reservedLocal, peerW := a.initPeer, parent := parent }) h3 h with ⟨e, et⟩ | ⟨e, ht⟩
    · have e : j = sid := e
      subst e; subst et; exact Or.inl ⟨h3, rfl, rfl, rfl, rfl, rfl, Or.inr h1⟩
    · exact keep rfl ht
  | data s k fin p hs hk hm hp hw ho he hf hf' hh hp' =>
    have h' : (a.upd s.id (fun _ => { s with
          offset := s.offset + k
          peerW := s.peerW - (k : Int)
          endSent := s.endSent || fin
          state := if fin then .halfClosedLocal else s.state
          pending := p })).find j = some t' := h
    rcases find_updc_some hs (by rfl) h' with ⟨e, e'⟩ | ⟨e, h'⟩
    · subst e; subst e'
      exact Or.inr ⟨s, hs, same rfl rfl rfl rfl rfl rfl⟩
    · exact keep rfl h'
  | setMax n _ => exact keep rfl h
  | plain o _ => exact keep rfl h
  | die code _ => exact keep rfl h
  | rstIn sid code => exact U (c := a) rfl h (fun _ => rfl) (fun t _ e => same rfl rfl rfl rfl rfl rfl) (fun _ => rfl)
  | ended sid =>
    exact U (c := a) rfl h (fun _ => rfl) (fun t _ e => ⟨(List.append_nil _).symm, fun _ => Or.inr (by rw [e]; exact List.mem_singleton.mpr rfl), Or.inl, fun _ => rfl, id⟩) (fun _ => rfl)
  | rebody sid r b hb => exact U (c := a) rfl h (fun _ => rfl) (fun t _ e => same rfl rfl rfl rfl rfl rfl) (fun _ => rfl)
  | start sid r b s block hb hs he => exact U (c := a.emit (.headers sid block r.body.isEmpty)) rfl h (fun _ => rfl) (fun t _ e => same rfl rfl rfl rfl rfl rfl) (fun _ => rfl)
  | trail sid s hs he ho ht => exact U (c := a.emit (.headers sid [] true)) rfl h (fun _ => rfl) (fun t _ e => same rfl rfl rfl rfl rfl rfl) (fun _ => rfl)
  | recv n => exact keep rfl h
  | dataIn sid n d s hs he =>
    refine U (c := { a with recvW := a.recvW - (n : Int) }) rfl h (fun _ => rfl) (fun t ht e => ?_) (fun e => by simp [dataOf, e])
    subst e
    have : s = t := Option.some.inj (hs.symm.trans ht)
    subst this
    exact ⟨by simp [dataOf], Or.inl, Or.inl, fun z => (by rw [he] at z; cases z), id⟩
  | credConn inc _ _ => exact keep rfl h
  | credKeep sid n p s hs hp _ => exact U (c := a) rfl h (fun _ => rfl) (fun t _ e => same rfl rfl rfl rfl rfl rfl) (fun _ => rfl)
  | credSend sid n p h0 s hs hp _ => exact U (c := { a with out := a.out ++ (if a.ok then [Out.windowUpdate sid p] else []) }) rfl h (fun _ => rfl) (fun t _ e => same rfl rfl rfl rfl rfl rfl) (fun _ => rfl)
  | grantConn inc _ => exact keep rfl h
  | grant sid inc s hs hp => exact U (c := a) rfl h (fun _ => rfl) (fun t _ e => same rfl rfl rfl rfl rfl rfl) (fun _ => rfl)
  | setInit new => exact keep rfl h
  | shift sid delta => exact U (c := a) rfl h (fun _ => rfl) (fun t _ e => same rfl rfl rfl rfl rfl rfl) (fun _ => rfl)
  | head sid hodd fs r cl hr =>
    refine U (c := a) rfl h (fun _ => rfl) (fun t _ e => ⟨(List.append_nil _).symm, Or.inl, Or.inl, fun _ => rfl, fun _ _ => ?_⟩) (fun _ => rfl)
    exact ⟨fs, [], r, hr, rfl, rfl, rfl, rfl, rfl⟩
  | trailers sid fs s hs hm hdrs ht =>
    refine U (c := a) rfl h (fun _ => rfl) (fun t ht' e => ⟨(List.append_nil _).symm, Or.inl, Or.inl, fun _ => rfl, fun hh hm' => ?_⟩) (fun _ => rfl)
    subst e
    have : s = t := Option.some.inj (hs.symm.trans ht')
    subst this
    obtain ⟨f0, ts, r0, q1, q2, q3, q4, q5, q6⟩ := hh hm
    exact ⟨f0, ts ++ fs, r0, q1, by rw [trailerLoop_append, q2]; exact ht, q3, q4, q5, q6⟩
  | request sid s hs hd h1 h2 h3 h4 h5 =>
    refine U (c := a) (sid := sid) (f := fun s => { s with dispatched := true }) rfl h (fun _ => rfl) (fun t ht' e => ⟨(List.append_nil _).symm, Or.inl, fun _ => Or.inr ?_, fun _ => rfl, id⟩) (fun _ => rfl)
    subst e
    rw [← Option.some.inj (hs.symm.trans ht')]; exact h1

/-- Where the request of a client stream stands: `B` is the DATA accepted for it, `E` says whether it ended. -/
structure Asm (c : Conn x) (sid : Nat) (B : Bytes) (E : Prop) : Prop where
  body : ∀ s, c.find sid = some s → s.req.body = B
  ended : ∀ s, c.find sid = some s → s.endRecv = true → E
  disp : ∀ s, c.find sid = some s → s.dispatched = true → s.endRecv = true
  head : ∀ s, c.find sid = some s → HeadAt x.methodKnown s
  fresh : c.lastClient < sid → B = [] ∧ c.find sid = none ∧ requestsOn sid c.out = []
  reqs : ∀ r ∈ requestsOn sid c.out, r.body = B ∧ E ∧ ∃ cl, HeadOk x.methodKnown r cl ∧ mismatch cl r.body = false
  done : requestsOn sid c.out ≠ [] → ∀ s, c.find sid = some s → s.dispatched = true
  one : (requestsOn sid c.out).length ≤ 1

theorem micro_dataOf {a b : Conn x} {l : List Lab} (m : Micro a l b) {j : Nat} (h : dataOf j l ≠ []) :
    ∃ s, a.find j = some s ∧ s.endRecv = false := by
  cases m with
  | dataIn sid n d s hs he =>
    by_cases e : sid = j
    · subst e; exact ⟨s, hs, he⟩
    · simp [dataOf, e] at h
  | _ => simp [dataOf] at h

theorem Asm.micro {a b : Conn x} {l : List Lab} {sid : Nat} {B : Bytes} {E : Prop} (m : Micro a l b) (hodd : sid % 2 = 1) (h : Asm a sid B E) :
    Asm b sid (B ++ dataOf sid l) (E ∨ Lab.ended sid ∈ l) := by
  obtain ⟨os, eo, w⟩ := micro_out m
  have hl := micro_last m
  -- a new stream was not known before
  have new : a.find sid = none → ∀ t, b.find sid = some t → a.lastClient < sid := by
    intro hn t ht
    rcases micro_find m ht with ⟨_, _, e, _⟩ | ⟨_, _, e, _⟩ | ⟨t', ht', _⟩
    · subst e
      cases m with
      | opened _ _ h2 => exact h2
    · omega
    · rw [hn] at ht'; cases ht'
  have hreq : requestsOn sid b.out ≠ requestsOn sid a.out → requestsOn sid a.out = [] ∧ dataOf sid l = [] ∧ ∃ s, a.find sid = some s ∧
      s.endRecv = true ∧ s.headersMain = true ∧ mismatch s.cl s.req.body = false ∧ requestsOn sid b.out = [s.req] ∧
      ∀ t, b.find sid = some t → t.dispatched = true := by
    intro hne
    rw [eo, requestsOn_append] at hne
    cases w with
    | nothing => simp [requestsOn] at hne
    | plain o ho => rw [requestsOn_plain sid ho] at hne; simp at hne
    | goaway code ha hb => simp [requestsOn] at hne
    | data j d fin s hs => simp [requestsOn] at hne
    | headers j d fin s hs => simp [requestsOn] at hne
    | window j inc hi ha => simp [requestsOn] at hne
    | request j s hs hd h1 h2 h3 h4 h5 hb =>
      by_cases e : j = sid
      · subst e
        have e0 : requestsOn j a.out = [] := by
          cases hr : requestsOn j a.out with
          | nil => rfl
          | cons r rs =>
            have := h.done (by rw [hr]; simp) s hs
            rw [hd] at this; cases this
        refine ⟨e0, ?_, s, hs, h1, h2, h3, by rw [eo, requestsOn_append, e0]; simp [requestsOn], ?_⟩
        · cases hz : dataOf j l with
          | nil => rfl
          | cons y ys =>
            obtain ⟨s', hs', he⟩ := micro_dataOf m (j := j) (by rw [hz]; simp)
            rw [Option.some.inj (hs'.symm.trans hs), h1] at he; cases he
        · intro t ht
          rw [hb] at ht
          exact (congrArg SStream.dispatched (Option.some.inj ht)).symm
      · simp [requestsOn, e] at hne
  refine ⟨?_, ?_, ?_, ?_, ?_, ?_, ?_, ?_⟩
  · intro s hs
    rcases micro_req m hs with ⟨hn, e, _, _, _, hd, _⟩ | ⟨t, ht, k⟩
    · rw [e, hd, (h.fresh (new hn s hs)).1]; rfl
    · rw [k.body, h.body t ht]
  · intro s hs he
    rcases micro_req m hs with ⟨hn, e, e', _⟩ | ⟨t, ht, k⟩
    · rw [e'] at he; cases he
    · exact (k.endRecv he).imp (h.ended t ht) id
  · intro s hs he
    rcases micro_req m hs with ⟨hn, e, e', e'', _⟩ | ⟨t, ht, k⟩
    · rw [e''] at he; cases he
    · have : t.endRecv = true := (k.disp he).elim (h.disp t ht) id
      rcases micro_find m hs with ⟨hn, _⟩ | ⟨hn, _⟩ | ⟨t', ht', q⟩
      · rw [hn] at ht; cases ht
      · rw [hn] at ht; cases ht
      · rw [ht] at ht'
        exact q.endRecv (Option.some.inj ht' ▸ this)
  · intro s hs
    rcases micro_req m hs with ⟨hn, e, e', e'', e3, _⟩ | ⟨t, ht, k⟩
    · intro hm; rw [e3] at hm; cases hm
    · exact k.head (h.head t ht)
  · intro hlt
    obtain ⟨e1, e2, e3⟩ := h.fresh (Nat.lt_of_le_of_lt hl hlt)
    have hb : b.find sid = none := by
      cases hb : b.find sid with
      | none => rfl
      | some t =>
        rcases micro_find m hb with ⟨_, _, e, _⟩ | ⟨_, _, e, _⟩ | ⟨t', ht, _⟩
        · subst e
          cases m with
          | opened => exact absurd hlt (Nat.lt_irrefl _)
        · omega
        · rw [e2] at ht; cases ht
    have hd : dataOf sid l = [] := by
      cases hz : dataOf sid l with
      | nil => rfl
      | cons y ys =>
        obtain ⟨s', hs', he⟩ := micro_dataOf m (j := sid) (by rw [hz]; simp)
        rw [e2] at hs'; cases hs'
    refine ⟨by rw [e1, hd]; rfl, hb, ?_⟩
    by_cases hq : requestsOn sid b.out = requestsOn sid a.out
    · rw [hq]; exact e3
    · obtain ⟨_, _, s, hs, _⟩ := hreq hq
      rw [e2] at hs; cases hs
  · intro r hr
    by_cases hq : requestsOn sid b.out = requestsOn sid a.out
    · rw [hq] at hr
      obtain ⟨k1, k2, k3⟩ := h.reqs r hr
      have hd : dataOf sid l = [] := by
        cases hz : dataOf sid l with
        | nil => rfl
        | cons y ys =>
          obtain ⟨s', hs', he⟩ := micro_dataOf m (j := sid) (by rw [hz]; simp)
          have := h.disp s' hs' (h.done (fun z => by rw [z] at hr; cases hr) s' hs')
          rw [this] at he; cases he
      exact ⟨by rw [hd, List.append_nil]; exact k1, Or.inl k2, k3⟩
    · obtain ⟨_, hd, s, hs, h1, h2, h3, h4, _⟩ := hreq hq
      rw [h4] at hr
      have : r = s.req := by simpa using hr
      subst this
      exact ⟨by rw [hd, List.append_nil]; exact h.body s hs, Or.inl (h.ended s hs h1), s.cl, h.head s hs h2, h3⟩
  · intro hne s hs
    by_cases hq : requestsOn sid b.out = requestsOn sid a.out
    · rw [hq] at hne
      rcases micro_req m hs with ⟨hn, _⟩ | ⟨t, ht, k⟩
      · exact absurd (h.fresh (new hn s hs)).2.2 hne
      · rcases micro_find m hs with ⟨hn, _⟩ | ⟨hn, _⟩ | ⟨t', ht', q⟩
        · rw [hn] at ht; cases ht
        · rw [hn] at ht; cases ht
        · exact q.dispatched (h.done hne t' ht')
    · obtain ⟨_, _, _, _, _, _, _, _, k⟩ := hreq hq
      exact k s hs
  · by_cases hq : requestsOn sid b.out = requestsOn sid a.out
    · rw [hq]; exact h.one
    · obtain ⟨_, _, _, _, _, _, _, h4, _⟩ := hreq hq
      rw [h4]; exact Nat.le_refl _

theorem Asm.congr {c : Conn x} {sid : Nat} {B B' : Bytes} {E E' : Prop} (h : Asm c sid B E) (hb : B = B') (he : E → E') : Asm c sid B' E' := by
  subst hb
  exact ⟨h.body, fun s hs k => he (h.ended s hs k), h.disp, h.head, h.fresh,
    fun r hr => ⟨(h.reqs r hr).1, he (h.reqs r hr).2.1, (h.reqs r hr).2.2⟩, h.done, h.one⟩

theorem Asm.path {a b : Conn x} {l : List Lab} {sid : Nat} {B : Bytes} {E : Prop} (p : Path a l b) (hodd : sid % 2 = 1) (h : Asm a sid B E) :
    Asm b sid (B ++ dataOf sid l) (E ∨ Lab.ended sid ∈ l) := by
  induction p generalizing B E with
  | refl c => exact h.congr (by simp [dataOf]) Or.inl
  | step m _ ih =>
    refine (ih (h.micro m hodd)).congr (by rw [dataOf_append, List.append_assoc]) ?_
    rintro ((z | z) | z)
    · exact Or.inl z
    · exact Or.inr (List.mem_append_left _ z)
    · exact Or.inr (List.mem_append_right _ z)

theorem Asm.init (d : x.D) (e : x.E) (sid : Nat) : Asm (Conn.init (x := x) d e) sid [] False := by
  refine ⟨?_, ?_, ?_, ?_, ?_, ?_, ?_, ?_⟩ <;> simp [Conn.init, Conn.find, requestsOn]

end Verif.Srv
