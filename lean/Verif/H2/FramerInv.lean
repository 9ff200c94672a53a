import Verif.H2.FramerLemmas2

namespace Verif.H2
open Verif

/-- Continuation state after a frame with header `h` was delivered and the connection stayed up. -/
def nextCont (f : Framer) (h : FrameHeader) : Bool × UInt32 :=
  if h.payloadLength.toNat = 0 then (f.contReq, f.contSid)
  else if h.type = 1 ∨ h.type = 5 then
    (if hasFlag h.flags FLAG_END_HEADERS then (false, 0) else (true, h.streamId))
  else if h.type = 9 ∧ hasFlag h.flags FLAG_END_HEADERS = true then (false, 0)
  else (f.contReq, f.contSid)

/-- Payload size condition of a delivered frame. -/
def Received (h : FrameHeader) (pl : Payload) : Prop :=
  (∃ p : Bytes, p ≠ [] ∧ p.length = h.payloadLength.toNat ∧ Layout h p pl) ∨
  (h.payloadLength.toNat = 0 ∧ parseZero h = .ok (some pl))

/-- What one call of `onMessage` can do. -/
inductive StepSummary (f f' : Framer) : Prop
  | quiet (hd : delivered f'.log = delivered f.log) (hc : f'.contReq = f.contReq ∧ f'.contSid = f.contSid)
      (hm : f'.ourMax = f.ourMax) (hok : f'.ok = true → f.ok = true)
      (hst : f'.state = .payload →
        (f.state = .payload ∧ f'.hdr = f.hdr ∧ f'.expected = f.expected) ∨
        (Accepts f f'.hdr ∧ f'.expected = f'.hdr.payloadLength.toNat ∧ f'.expected ≠ 0))
  | deliver (x : Frame) (hd : delivered f'.log = delivered f.log ++ [x]) (hok : f.ok = true)
      (hst : f'.state = .header) (hm : f'.ourMax = f.ourMax) (hacc : Accepts f x.header)
      (hrec : Received x.header x.payload)
      (hc : f'.ok = true → (f'.contReq, f'.contSid) = nextCont f x.header)

/-- Header in progress was accepted. -/
def PayInv (f : Framer) : Prop :=
  f.state = .payload → Accepts f f.hdr ∧ f.expected = f.hdr.payloadLength.toNat ∧ f.expected ≠ 0

theorem delivered_append (a b : List Event) : delivered (a ++ b) = delivered a ++ delivered b := by
  simp [delivered, List.filterMap_append]

theorem on_summary (h : Handler) (f : Framer) (x : Frame) :
    delivered (f.on h (.frame x)).log = delivered f.log ++ [x] := by
  rw [on_log, delivered_append]; rfl

theorem afterDelivery_cont {f : Framer} (hok : f.afterDelivery.ok = true) (hl : f.hdr.payloadLength.toNat ≠ 0) :
    (f.afterDelivery.contReq, f.afterDelivery.contSid) = nextCont f f.hdr := by
  rw [afterDelivery_ok] at hok
  unfold Framer.afterDelivery nextCont
  rw [if_neg hl]
  simp only [hok, if_true]
  by_cases c1 : f.hdr.type = 1 ∨ f.hdr.type = 5
  · have : (decide (f.hdr.type = T_HEADERS) || decide (f.hdr.type = T_PUSH_PROMISE)) = true := by
      rw [Bool.or_eq_true, decide_eq_true_eq, decide_eq_true_eq]; exact c1
    rw [if_pos this, if_pos c1]
    cases hasFlag f.hdr.flags FLAG_END_HEADERS <;> simp
  · have : ¬ (decide (f.hdr.type = T_HEADERS) || decide (f.hdr.type = T_PUSH_PROMISE)) = true := by
      rw [Bool.or_eq_true, decide_eq_true_eq, decide_eq_true_eq]; exact c1
    rw [if_neg this, if_neg c1]
    by_cases c2 : f.hdr.type = 9 ∧ hasFlag f.hdr.flags FLAG_END_HEADERS = true
    · have : (decide (f.hdr.type = T_CONTINUATION) && hasFlag f.hdr.flags FLAG_END_HEADERS) = true := by
        rw [Bool.and_eq_true, decide_eq_true_eq]; exact c2
      rw [if_pos this, if_pos c2]
    · have : ¬ (decide (f.hdr.type = T_CONTINUATION) && hasFlag f.hdr.flags FLAG_END_HEADERS) = true := by
        rw [Bool.and_eq_true, decide_eq_true_eq]; exact c2
      rw [if_neg this, if_neg c2]

theorem nextCont_congr {f g : Framer} (h : FrameHeader) (h1 : f.contReq = g.contReq) (h2 : f.contSid = g.contSid) :
    nextCont f h = nextCont g h := by
  unfold nextCont; rw [h1, h2]

theorem onHeader_notok {h : Handler} {f : Framer} {hdr : FrameHeader} (ha : Accepts f hdr) (hok : f.ok = false) :
    f.onHeader h hdr.bytes = f.withHeader hdr := by
  obtain ⟨h1, h2, h3⟩ := ha
  unfold Framer.onHeader
  rw [if_neg (by rw [bytes_length]; decide), ofBytes_bytes]
  simp only []
  have c1 : ¬ ((f.contReq && (hdr.type != T_CONTINUATION || hdr.streamId != f.contSid)) = true) := by
    intro c
    rw [Bool.and_eq_true] at c
    obtain ⟨e1, e2⟩ := h1 c.1
    rw [e1, e2] at c
    simp [T_CONTINUATION] at c
  have c2 : ¬ ((decide (hdr.type = T_SETTINGS) && hdr.streamId != 0) = true) := by
    intro c
    rw [Bool.and_eq_true, decide_eq_true_eq] at c
    have := h2 (Or.inl c.1)
    rw [this] at c; simp at c
  have c3 : ¬ (((decide (hdr.type = T_PING) || decide (hdr.type = T_GOAWAY)) && hdr.streamId != 0) = true) := by
    intro c
    rw [Bool.and_eq_true, Bool.or_eq_true, decide_eq_true_eq, decide_eq_true_eq] at c
    have := h2 (Or.inr c.1)
    rw [this] at c; simp at c
  rw [if_neg c1, if_neg c2, if_neg c3, if_neg (by omega), if_pos (by simp [hok])]
  rfl

/-- State, limit and continuation fields are kept when a header is rejected. -/
theorem onHeader_reject' {h : Handler} {f : Framer} {hdr : FrameHeader} (ha : ¬ Accepts f hdr) :
    (f.onHeader h hdr.bytes).state = f.state ∧ (f.onHeader h hdr.bytes).contReq = f.contReq ∧
    (f.onHeader h hdr.bytes).contSid = f.contSid ∧ (f.onHeader h hdr.bytes).ourMax = f.ourMax := by
  unfold Framer.onHeader
  rw [if_neg (by rw [bytes_length]; decide), ofBytes_bytes]
  simp only []
  split
  · exact ⟨rfl, rfl, rfl, rfl⟩
  rename_i c1
  split
  · exact ⟨rfl, rfl, rfl, rfl⟩
  rename_i c2
  split
  · exact ⟨rfl, rfl, rfl, rfl⟩
  rename_i c3
  split
  · exact ⟨rfl, rfl, rfl, rfl⟩
  rename_i c4
  exfalso
  apply ha
  refine ⟨?_, ?_, by omega⟩
  · intro hc
    simp only [hc, Bool.true_and, Bool.or_eq_true, bne_iff_ne, ne_eq, not_or, Decidable.not_not] at c1
    exact c1
  · intro ht
    rcases ht with ht | ht | ht <;>
    simp [ht, T_SETTINGS, T_PING, T_GOAWAY] at c2 c3 <;> assumption

theorem dispatchZero_err {h : Handler} {g : Framer} {c : Nat} (hok : g.ok = true)
    (hp : parseZero g.hdr = .error c) : g.dispatchZero h = g.report c g.hdr.streamId := by
  unfold Framer.dispatchZero; simp [hok, hp]
theorem dispatchZero_none {h : Handler} {g : Framer} (hok : g.ok = true)
    (hp : parseZero g.hdr = .ok none) : g.dispatchZero h = g := by
  unfold Framer.dispatchZero; simp [hok, hp]
theorem dispatchZero_some {h : Handler} {g : Framer} {pl : Payload} (hok : g.ok = true)
    (hp : parseZero g.hdr = .ok (some pl)) : g.dispatchZero h = g.on h (.frame ⟨g.hdr, pl⟩) := by
  unfold Framer.dispatchZero; simp [hok, hp]

theorem onMessage_summary (h : Handler) {f : Framer} {msg : Bytes} (hpay : PayInv f)
    (hm : f.messageSize msg = msg.length) (hne : msg ≠ []) : StepSummary f (f.onMessage h msg) := by
  have hlen0 : msg.length ≠ 0 := by intro e; exact hne (List.length_eq_zero_iff.1 e)
  unfold Framer.onMessage
  cases hs : f.state with
  | preface =>
    unfold Framer.onPreface
    simp only []
    split
    · split
      · refine .quiet ?_ ?_ ?_ ?_ ?_
        · rw [on_log, delivered_append]; simp [delivered]
        · exact on_cont h _ _
        · rw [on_ourMax]
        · unfold Framer.on; simp only []; split <;> simp
        · rw [on_state]; simp
      · exact .quiet rfl ⟨rfl, rfl⟩ rfl (by simp [Framer.notOk]) (by simp [Framer.notOk, hs])
    · split
      · exact .quiet rfl ⟨rfl, rfl⟩ rfl (by simp [Framer.notOk]) (by simp [Framer.notOk, hs])
      · exact .quiet rfl ⟨rfl, rfl⟩ rfl (fun e => e) (by simp [hs])
  | header =>
    simp only []
    have h9 : msg.length = 9 := by
      unfold Framer.messageSize at hm
      rw [hs] at hm
      simp only at hm
      have e9 : FRAME_HEADER_SIZE = 9 := rfl
      rcases Nat.lt_or_ge msg.length FRAME_HEADER_SIZE with g | g
      · rw [if_pos g] at hm; omega
      · rw [if_neg (by omega)] at hm; omega
    have eb := bytes_ofBytes msg h9
    rw [← eb]
    generalize FrameHeader.ofBytes msg = hdr
    by_cases ha : Accepts f hdr
    · cases hok : f.ok
      · rw [onHeader_notok ha hok]
        exact .quiet rfl ⟨rfl, rfl⟩ rfl (fun e => e) (by simp [Framer.withHeader, hs])
      · rw [onHeader_accept hok ha]
        by_cases hz : hdr.payloadLength.toNat = 0
        · rw [if_pos hz]
          have hok' : (f.withHeader hdr).ok = true := hok
          rcases hp : parseZero hdr with c | _ | pl
          · rw [dispatchZero_err hok' (show parseZero (f.withHeader hdr).hdr = _ from hp)]
            rw [if_neg (by simp [Framer.report, Framer.notOk])]
            refine .quiet ?_ ⟨rfl, rfl⟩ rfl ?_ ?_
            · simp [Framer.report, Framer.notOk, Framer.withHeader, delivered]
            · simp [Framer.report, Framer.notOk]
            · simp [Framer.report, Framer.notOk, Framer.withHeader, hs]
          · rw [dispatchZero_none hok' (show parseZero (f.withHeader hdr).hdr = _ from hp)]
            rw [if_pos hok']
            exact .quiet rfl ⟨rfl, rfl⟩ rfl (fun e => hok) (by simp)
          · rw [dispatchZero_some hok' (show parseZero (f.withHeader hdr).hdr = _ from hp)]
            have key : ∀ g : Framer, g = (f.withHeader hdr).on h (.frame ⟨hdr, pl⟩) →
                StepSummary f (if g.ok = true then { g with state := .header } else g) := by
              intro g hg
              have l : delivered g.log = delivered f.log ++ [⟨hdr, pl⟩] := by
                rw [hg]; exact on_summary h (f.withHeader hdr) ⟨hdr, pl⟩
              have c := on_cont h (f.withHeader hdr) (.frame ⟨hdr, pl⟩)
              rw [← hg] at c
              have m : g.ourMax = f.ourMax := by rw [hg, on_ourMax]; rfl
              have s : g.state = .header := by rw [hg, on_state]; exact hs
              refine .deliver ⟨hdr, pl⟩ ?_ hok ?_ ?_ ha (.inr ⟨hz, hp⟩) ?_
              · split <;> exact l
              · split
                · rfl
                · exact s
              · split <;> exact m
              · intro _
                have e : nextCont f hdr = (f.contReq, f.contSid) := by unfold nextCont; rw [if_pos hz]
                show _ = nextCont f hdr
                rw [e]
                split <;> exact Prod.ext_iff.2 c
            exact key _ rfl
        · rw [if_neg hz]
          refine .quiet rfl ⟨rfl, rfl⟩ rfl (fun e => hok) ?_
          intro _; right; exact ⟨ha, rfl, hz⟩
    · obtain ⟨r1, r2⟩ := onHeader_reject (h := h) ha
      obtain ⟨r3, r4, r5, r6⟩ := onHeader_reject' (h := h) ha
      exact .quiet r2 ⟨r4, r5⟩ r6 (by rw [r1]; simp) (by rw [r3, hs]; simp)
  | payload =>
    simp only []
    obtain ⟨ha, he, hz⟩ := hpay hs
    have hl : msg.length = f.expected := by
      unfold Framer.messageSize at hm
      rw [hs] at hm
      simp only at hm
      repeat' split at hm
      all_goals omega
    cases hok : f.ok
    · rw [onPayload_eq hne hl]
      have ed : f.dispatchPayload h msg = (f, false) := by
        unfold Framer.dispatchPayload; simp [hok]
      rw [ed]
      simp only [Bool.false_eq_true, if_false]
      exact .quiet rfl ⟨rfl, rfl⟩ rfl (fun e => e) (fun _ => .inl ⟨hs, rfl, rfl⟩)
    · rcases hp : parsePayload f.hdr msg with c | _ | pl
      · rw [onPayload_error hok hl hne hp]
        refine .quiet ?_ ⟨rfl, rfl⟩ rfl ?_ (fun _ => .inl ⟨hs, rfl, rfl⟩)
        · simp [Framer.report, Framer.notOk, delivered]
        · simp [Framer.report, Framer.notOk]
      · rw [onPayload_none hok hl hne hp]
        exact .quiet rfl ⟨rfl, rfl⟩ rfl (fun e => hok) (by simp)
      · rw [onPayload_some hok hl hne hp]
        refine .deliver ⟨f.hdr, pl⟩ ?_ hok rfl ?_ ha (.inl ⟨msg, hne, by rw [hl, he], parse_sound hp⟩) ?_
        · simp only []; rw [afterDelivery_log]; exact on_summary h f ⟨f.hdr, pl⟩
        · simp only []; rw [afterDelivery_ourMax, on_ourMax]
        · simp only []
          intro hk
          have e := afterDelivery_cont hk (by rw [on_hdr, ← he]; exact hz)
          rw [e, on_hdr]
          exact nextCont_congr _ (on_cont h f _).1 (on_cont h f _).2

theorem Accepts_congr {f g : Framer} {hdr : FrameHeader} (h1 : f.contReq = g.contReq) (h2 : f.contSid = g.contSid)
    (h3 : f.ourMax = g.ourMax) : Accepts f hdr → Accepts g hdr := by
  unfold Accepts; rw [h1, h2, h3]; exact id

theorem PayInv_step {f f' : Framer} (hpay : PayInv f) (hs : StepSummary f f') : PayInv f' := by
  intro hst
  cases hs with
  | quiet _ hc hm _ hq =>
    rcases hq hst with ⟨a, b, c⟩ | ⟨a, b, c⟩
    · obtain ⟨p1, p2, p3⟩ := hpay a
      rw [b, c]
      exact ⟨Accepts_congr hc.1.symm hc.2.symm hm.symm p1, p2, p3⟩
    · exact ⟨Accepts_congr hc.1.symm hc.2.symm hm.symm a, b, c⟩
  | deliver x _ _ hst' => rw [hst] at hst'; cases hst'

/-- Invariants through the read loop, from step summaries. -/
theorem reads_summary_inv {P : Framer → Prop} (h : Handler)
    (hstep : ∀ f f', PayInv f → P f → StepSummary f f' → P f') (chunks : List Bytes) (s : Framer × Bytes)
    (h0 : PayInv s.1) (h1 : P s.1) :
    PayInv (Framer.reads h s chunks).1 ∧ P (Framer.reads h s chunks).1 := by
  refine reads_inv (P := fun f => PayInv f ∧ P f) h ?_ chunks s ⟨h0, h1⟩
  intro f msg hf hm hne
  have := onMessage_summary h hf.1 hm hne
  exact ⟨PayInv_step hf.1 this, hstep _ _ hf.1 hf.2 this⟩

theorem openBlock_snoc (d : List Frame) (x : Frame) : openBlock (d ++ [x]) = openFrom (openBlock d) [x] :=
  openBlock_append d [x]

theorem NI_snoc {d : List Frame} {x : Frame} (h : NotInterleaved d)
    (hx : ∀ sid, openBlock d = some sid → x.header.type = 9 ∧ x.header.streamId = sid) :
    NotInterleaved (d ++ [x]) := by
  intro pre f post e sid ho
  rcases List.eq_nil_or_concat post with rfl | ⟨post', y, rfl⟩
  · rw [← List.concat_eq_append, ← List.concat_eq_append] at e
    obtain ⟨rfl, rfl⟩ := List.concat_inj.1 e
    exact hx sid ho
  · have e' : d ++ [x] = (pre ++ f :: post') ++ [y] := by simpa [List.concat_eq_append] using e
    rw [← List.concat_eq_append, ← List.concat_eq_append] at e'
    obtain ⟨rfl, rfl⟩ := List.concat_inj.1 e'
    exact h pre f post' rfl sid ho

theorem openFrom_one (o : Option UInt32) (x : Frame) : openFrom o [x] =
    if x.header.type = 1 ∨ x.header.type = 5 then
      if hasFlag x.header.flags FLAG_END_HEADERS then none else some x.header.streamId
    else if x.header.type = 9 then
      if hasFlag x.header.flags FLAG_END_HEADERS then none else o
    else o := rfl

theorem parseZero_push {hdr : FrameHeader} {pl : Payload} (h : parseZero hdr = .ok (some pl)) : hdr.type ≠ 5 := by
  intro e
  simp [parseZero, e, T_SETTINGS, T_PING, T_HEADERS, T_DATA, T_PRIORITY, T_RST_STREAM,
      T_GOAWAY, T_WINDOW_UPDATE, T_PUSH_PROMISE] at h

/-- No interleaving, as long as no empty HEADERS frame without END_HEADERS was delivered. -/
def NIInv (f : Framer) : Prop :=
  (∀ x ∈ delivered f.log, x.header.type = 1 → hasFlag x.header.flags FLAG_END_HEADERS = false →
    x.header.payloadLength.toNat ≠ 0) →
  NotInterleaved (delivered f.log) ∧
    (f.ok = true → ∀ sid, openBlock (delivered f.log) = some sid → f.contReq = true ∧ f.contSid = sid)

theorem NIInv_step {f f' : Framer} (_hp : PayInv f) (hI : NIInv f) (hs : StepSummary f f') : NIInv f' := by
  intro hyp
  cases hs with
  | quiet hd hc hm hok hq =>
    rw [hd] at hyp ⊢
    obtain ⟨a, b⟩ := hI hyp
    refine ⟨a, fun hk sid ho => ?_⟩
    rw [hc.1, hc.2]
    exact b (hok hk) sid ho
  | deliver x hd hok hst hm hacc hrec hc =>
    rw [hd] at hyp ⊢
    obtain ⟨a, b⟩ := hI (fun y hy => hyp y (by simp [hy]))
    have hx : ∀ sid, openBlock (delivered f.log) = some sid → x.header.type = 9 ∧ x.header.streamId = sid := by
      intro sid ho
      obtain ⟨b1, b2⟩ := b hok sid ho
      have := hacc.1 b1
      rw [b2] at this; exact this
    refine ⟨NI_snoc a hx, fun hk sid ho => ?_⟩
    rw [openBlock_snoc, openFrom_one] at ho
    have hn := hc hk
    unfold nextCont at hn
    by_cases hz : x.header.payloadLength.toNat = 0
    · rw [if_pos hz] at hn
      obtain ⟨n1, n2⟩ := Prod.ext_iff.1 hn
      simp only at n1 n2
      rw [n1, n2]
      have h5 : x.header.type ≠ 5 := by
        rcases hrec with ⟨p, hne, hl, _⟩ | ⟨_, hpz⟩
        · exact absurd (List.length_eq_zero_iff.1 (by omega)) hne
        · exact parseZero_push hpz
      by_cases h1 : x.header.type = 1
      · cases hf : hasFlag x.header.flags FLAG_END_HEADERS
        · exact absurd hz (hyp x (by simp) h1 hf)
        · simp [h1, hf] at ho
      · rw [if_neg (by simp [h1, h5])] at ho
        split at ho
        · split at ho
          · cases ho
          · exact b hok sid ho
        · exact b hok sid ho
    · rw [if_neg hz] at hn
      by_cases c1 : x.header.type = 1 ∨ x.header.type = 5
      · rw [if_pos c1] at hn ho
        cases hf : hasFlag x.header.flags FLAG_END_HEADERS
        · simp [hf] at hn ho
          rw [hn.1, hn.2]; exact ⟨rfl, ho⟩
        · simp [hf] at ho
      · rw [if_neg c1] at hn ho
        by_cases c2 : x.header.type = 9 ∧ hasFlag x.header.flags FLAG_END_HEADERS = true
        · rw [if_pos c2.1] at ho; simp [c2.2] at ho
        · rw [if_neg c2] at hn
          obtain ⟨n1, n2⟩ := Prod.ext_iff.1 hn
          simp only at n1 n2
          rw [n1, n2]
          split at ho
          · split at ho
            · cases ho
            · exact b hok sid ho
          · exact b hok sid ho

/-- The framer asks for a CONTINUATION only while a block is open, as long as no empty final
CONTINUATION was delivered. -/
def ConvInv (f : Framer) : Prop :=
  (∀ x ∈ delivered f.log, x.header.type = 9 → hasFlag x.header.flags FLAG_END_HEADERS = true →
    x.header.payloadLength.toNat ≠ 0) →
  f.ok = true → f.contReq = true → openBlock (delivered f.log) = some f.contSid

theorem ConvInv_step {f f' : Framer} (_hp : PayInv f) (hI : ConvInv f) (hs : StepSummary f f') : ConvInv f' := by
  intro hyp hk hreq
  cases hs with
  | quiet hd hc hm hok hq =>
    rw [hd] at hyp ⊢
    rw [hc.2]; exact hI hyp (hok hk) (by rw [← hc.1]; exact hreq)
  | deliver x hd hok hst hm hacc hrec hc =>
    rw [hd] at hyp ⊢
    have b := hI (fun y hy => hyp y (by simp [hy])) hok
    rw [openBlock_snoc, openFrom_one]
    have hn := hc hk
    unfold nextCont at hn
    by_cases hz : x.header.payloadLength.toNat = 0
    · rw [if_pos hz] at hn
      obtain ⟨n1, n2⟩ := Prod.ext_iff.1 hn
      simp only at n1 n2
      rw [n2]
      rw [n1] at hreq
      obtain ⟨h9, _⟩ := hacc.1 hreq
      have : hasFlag x.header.flags FLAG_END_HEADERS = false := by
        cases hf : hasFlag x.header.flags FLAG_END_HEADERS
        · rfl
        · exact absurd hz (hyp x (by simp) h9 hf)
      simp [h9, this]; exact b hreq
    · rw [if_neg hz] at hn
      by_cases c1 : x.header.type = 1 ∨ x.header.type = 5
      · rw [if_pos c1] at hn ⊢
        cases hf : hasFlag x.header.flags FLAG_END_HEADERS
        · simp [hf] at hn ⊢; exact hn.2.symm
        · simp [hf] at hn; rw [hn.1] at hreq; cases hreq
      · rw [if_neg c1] at hn ⊢
        by_cases c2 : x.header.type = 9 ∧ hasFlag x.header.flags FLAG_END_HEADERS = true
        · rw [if_pos c2] at hn
          obtain ⟨n1, n2⟩ := Prod.ext_iff.1 hn
          simp only at n1; rw [n1] at hreq; cases hreq
        · rw [if_neg c2] at hn
          obtain ⟨n1, n2⟩ := Prod.ext_iff.1 hn
          simp only at n1 n2
          rw [n2]; rw [n1] at hreq
          obtain ⟨h9, _⟩ := hacc.1 hreq
          have : hasFlag x.header.flags FLAG_END_HEADERS = false := by
            cases hf : hasFlag x.header.flags FLAG_END_HEADERS
            · rfl
            · exact absurd ⟨h9, hf⟩ c2
          simp [h9, this]; exact b hreq

/-- Every delivered frame passed the size check and has a legal layout. -/
def SizeInv (m : UInt32) (f : Framer) : Prop :=
  f.ourMax = m ∧ ∀ x ∈ delivered f.log, x.header.payloadLength.toNat ≤ m.toNat ∧ Received x.header x.payload

theorem SizeInv_step {m : UInt32} {f f' : Framer} (_hp : PayInv f) (hI : SizeInv m f) (hs : StepSummary f f') :
    SizeInv m f' := by
  obtain ⟨h1, h2⟩ := hI
  cases hs with
  | quiet hd hc hm hok hq => exact ⟨by rw [hm, h1], by rw [hd]; exact h2⟩
  | deliver x hd hok hst hm hacc hrec hc =>
    refine ⟨by rw [hm, h1], ?_⟩
    rw [hd]
    intro y hy
    rcases List.mem_append.1 hy with hy | hy
    · exact h2 y hy
    · simp at hy; subst hy; exact ⟨by have := hacc.2.2; rw [h1] at this; exact this, hrec⟩

/-- Once the connection has failed nothing more is delivered. -/
theorem dead_step {d : List Frame} {f f' : Framer} (_hp : PayInv f)
    (hI : f.ok = false ∧ delivered f.log = d) (hs : StepSummary f f') : f'.ok = false ∧ delivered f'.log = d := by
  obtain ⟨h1, h2⟩ := hI
  cases hs with
  | quiet hd hc hm hok hq =>
    refine ⟨?_, by rw [hd, h2]⟩
    cases h : f'.ok
    · rfl
    · rw [hok h] at h1; cases h1
  | deliver x hd hok => rw [hok] at h1; cases h1

end Verif.H2
