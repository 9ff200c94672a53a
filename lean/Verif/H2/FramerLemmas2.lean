import Verif.H2.FramerLemmas

namespace Verif.H2
open Verif

theorem messageSize_nil (f : Framer) : f.messageSize [] = 0 := by
  have := f.messageSize_le []; simpa using this

theorem pump_nil (h : Handler) (f : Framer) : Framer.pump h f [] = (f, []) := pump_stop (messageSize_nil f)

theorem pump_frame {h : Handler} {f : Framer} {hdr : FrameHeader} {p : Bytes} (hs : f.state = .header)
    (hok : f.ok = true) (ha : Accepts f hdr) (hl : p.length = hdr.payloadLength.toNat) (hp : p ≠ [])
    (r : Bytes) :
    Framer.pump h f (hdr.bytes ++ (p ++ r)) =
      Framer.pump h (Framer.onPayload h { f.withHeader hdr with state := .payload } p) r := by
  have hn : p.length ≠ 0 := by intro e; exact hp (List.length_eq_zero_iff.1 e)
  rw [pump_header hs, onHeader_accept hok ha, if_neg (by omega)]
  exact pump_payload rfl p r hl.symm hp

theorem pump_frame_zero {h : Handler} {f : Framer} {hdr : FrameHeader} (hs : f.state = .header)
    (hok : f.ok = true) (ha : Accepts f hdr) (hl : hdr.payloadLength.toNat = 0)
    (r : Bytes) :
    Framer.pump h f (hdr.bytes ++ r) =
      Framer.pump h ((f.withHeader hdr).dispatchZero h) r := by
  rw [pump_header hs, onHeader_accept hok ha, if_pos hl]
  have : ((f.withHeader hdr).dispatchZero h).state = .header := by
    unfold Framer.dispatchZero
    have e : (f.withHeader hdr).state = .header := hs
    split
    · exact e
    · split
      · exact e
      · exact e
      · unfold Framer.on
        simp only []
        split <;> exact e
  congr 1
  split
  · generalize (f.withHeader hdr).dispatchZero h = g at this
    cases g; simp at this; subst this; rfl
  · rfl

/-- Result of the payload of an accepted frame. -/
theorem onPayload_error {h : Handler} {g : Framer} {p : Bytes} {c : Nat} (hok : g.ok = true)
    (hl : p.length = g.expected) (hp : p ≠ []) (he : parsePayload g.hdr p = .error c) :
    g.onPayload h p = g.report c g.hdr.streamId := by
  rw [onPayload_eq hp hl]
  unfold Framer.dispatchPayload
  simp [hok, he]

theorem onPayload_none {h : Handler} {g : Framer} {p : Bytes} (hok : g.ok = true)
    (hl : p.length = g.expected) (hp : p ≠ []) (he : parsePayload g.hdr p = .ok none) :
    g.onPayload h p = { g with state := .header, expected := 0 } := by
  rw [onPayload_eq hp hl]
  unfold Framer.dispatchPayload
  simp [hok, he]

theorem onPayload_some {h : Handler} {g : Framer} {p : Bytes} {pl : Payload} (hok : g.ok = true)
    (hl : p.length = g.expected) (hp : p ≠ []) (he : parsePayload g.hdr p = .ok (some pl)) :
    g.onPayload h p = { (g.on h (.frame ⟨g.hdr, pl⟩)).afterDelivery with state := .header, expected := 0 } := by
  rw [onPayload_eq hp hl]
  unfold Framer.dispatchPayload
  simp [hok, he]

theorem afterDelivery_log (f : Framer) : f.afterDelivery.log = f.log := by
  unfold Framer.afterDelivery
  simp only []
  repeat' split
  all_goals rfl

theorem afterDelivery_ok (f : Framer) : f.afterDelivery.ok = f.ok := by
  unfold Framer.afterDelivery
  simp only []
  repeat' split
  all_goals rfl

theorem afterDelivery_ourMax (f : Framer) : f.afterDelivery.ourMax = f.ourMax := by
  unfold Framer.afterDelivery
  simp only []
  repeat' split
  all_goals rfl

theorem on_log (h : Handler) (f : Framer) (e : Event) : (f.on h e).log = f.log ++ [e] := by
  unfold Framer.on; simp only []; split <;> rfl

theorem on_ourMax (h : Handler) (f : Framer) (e : Event) : (f.on h e).ourMax = f.ourMax := by
  unfold Framer.on; simp only []; split <;> rfl
theorem on_hdr (h : Handler) (f : Framer) (e : Event) : (f.on h e).hdr = f.hdr := by
  unfold Framer.on; simp only []; split <;> rfl
theorem on_state (h : Handler) (f : Framer) (e : Event) : (f.on h e).state = f.state := by
  unfold Framer.on; simp only []; split <;> rfl
theorem on_cont (h : Handler) (f : Framer) (e : Event) :
    (f.on h e).contReq = f.contReq ∧ (f.on h e).contSid = f.contSid := by
  unfold Framer.on; simp only []; split <;> exact ⟨rfl, rfl⟩

/-! ## Serialized payloads have a legal layout -/

theorem payloadBytes_length {flags : Byte} {pl : Payload} (hr : pl.InRange flags) :
    (payloadBytes flags pl).length = pl.wireSize := by
  cases pl with
  | data d pad => rfl
  | headers f p => rfl
  | priority p => rfl
  | rst c => rfl
  | settings es =>
    simp only [Payload.InRange] at hr
    unfold payloadBytes
    cases hf : hasFlag flags FLAG_ACK
    · simp only [Bool.not_false, if_true, settings_length, Payload.wireSize]
    · rw [hr hf]; rfl
  | pushPromise id frag => simp [payloadBytes, Payload.wireSize, encode32_length]
  | ping o => exact hr
  | goaway l c d => simp [payloadBytes, Payload.wireSize, encode32_length]; omega
  | windowUpdate i => rfl
  | continuation f => rfl

theorem u32_and_or (a b c : UInt32) : a &&& (b ||| c) = a &&& b ||| a &&& c := by
  apply u32_ext
  intro i hi
  simp [Bool.and_or_distrib_left]

theorem depWord_dep (p : PriorityData) (hp : p.dep.toNat < 2 ^ 31) :
    depWord p &&& 0x7FFFFFFF = p.dep ∧ (decide ((depWord p).toNat ≥ 2 ^ 31)) = p.exclusive := by
  have e := and31 p.dep hp
  unfold depWord
  simp only [e]
  cases p.exclusive
  · simp [e]; exact hp
  · simp only [if_true]
    constructor
    · rw [UInt32.and_comm, u32_and_or, UInt32.and_comm _ p.dep, e]
      have : (0x7FFFFFFF &&& 0x80000000 : UInt32) = 0 := by decide
      rw [this, UInt32.or_zero]
    · have : 2 ^ 31 ≤ (p.dep ||| 0x80000000).toNat := by
        rw [UInt32.toNat_or]
        have : (0x80000000 : UInt32).toNat = 2 ^ 31 := rfl
        rw [this]
        exact Nat.right_le_or
      simpa using this

theorem payloadBytes_layout {hdr : FrameHeader} {pl : Payload} (ht : hdr.type = pl.typeOf)
    (hr : pl.InRange hdr.flags) (hne : payloadBytes hdr.flags pl ≠ []) :
    Layout hdr (payloadBytes hdr.flags pl) pl := by
  cases pl with
  | data d pad => obtain ⟨h1, rfl⟩ := hr; exact .data d ht h1
  | headers f p => obtain ⟨h1, h2, rfl⟩ := hr; exact .headers f ht h1 h2
  | priority p =>
    obtain ⟨e1, e2⟩ := depWord_dep p hr
    have := Layout.priority (hdr := hdr) (depWord p) p.weight ht
    rw [e1, e2, be32_eq] at this
    exact this
  | rst c =>
    have := Layout.rst (hdr := hdr) c ht
    rw [be32_eq] at this; exact this
  | settings es =>
    simp only [payloadBytes] at hne ⊢
    cases hf : hasFlag hdr.flags FLAG_ACK
    · have := Layout.settings (hdr := hdr) es ht hf
      simp only [be16_eq, be32_eq] at this
      simpa using this
    · simp [hf] at hne
  | pushPromise id frag =>
    obtain ⟨h1, h2⟩ := hr
    have := Layout.push (hdr := hdr) id frag ht h1
    rw [be32_eq, and31 id h2] at this
    simp only [payloadBytes, and31 id h2]; exact this
  | ping o => exact .ping o ht hr
  | goaway l c d =>
    have := Layout.goaway (hdr := hdr) l c d ht
    rw [be32_eq, be32_eq, and31 l hr] at this
    simp only [payloadBytes, and31 l hr]; exact this
  | windowUpdate i =>
    obtain ⟨h1, h2⟩ := hr
    have := Layout.windowUpdate (hdr := hdr) i ht (by
      rw [and31 i h2]; rintro rfl; simp at h1)
    rw [be32_eq, and31 i h2] at this
    simp only [payloadBytes, and31 i h2]; exact this
  | continuation f => exact .continuation f ht

theorem zero_layout {hdr : FrameHeader} {pl : Payload} (ht : hdr.type = pl.typeOf)
    (hr : pl.InRange hdr.flags) (hne : pl.wireSize = 0) : parseZero hdr = .ok (some pl) := by
  cases pl <;> simp [Payload.wireSize] at hne
  · obtain ⟨h1, rfl⟩ := hr; subst hne
    simp [parseZero, ht, Payload.typeOf, T_SETTINGS, T_PING, T_HEADERS, T_DATA]
  · obtain ⟨h1, h2, rfl⟩ := hr; subst hne
    simp [parseZero, ht, Payload.typeOf, T_SETTINGS, T_PING, T_HEADERS, T_DATA]
  · subst hne
    simp [parseZero, ht, Payload.typeOf, T_SETTINGS, T_PING, T_HEADERS, T_DATA]
  · subst hne
    simp [parseZero, ht, Payload.typeOf, T_SETTINGS, T_PING, T_HEADERS, T_DATA, T_PRIORITY, T_RST_STREAM,
      T_GOAWAY, T_WINDOW_UPDATE, T_PUSH_PROMISE, T_CONTINUATION]

/-! ## Sequences of frames -/

/-- `openBlock` continued from a given state. -/
def openFrom (o : Option UInt32) (fs : List Frame) : Option UInt32 :=
  fs.foldl (fun o f =>
    if f.header.type = 1 ∨ f.header.type = 5 then
      if hasFlag f.header.flags FLAG_END_HEADERS then none else some f.header.streamId
    else if f.header.type = 9 then
      if hasFlag f.header.flags FLAG_END_HEADERS then none else o
    else o) o

theorem openFrom_none (fs) : openFrom none fs = openBlock fs := rfl
theorem openFrom_append (o a b) : openFrom o (a ++ b) = openFrom (openFrom o a) b := List.foldl_append
theorem openBlock_append (a b) : openBlock (a ++ b) = openFrom (openBlock a) b := List.foldl_append

def NIFrom (o : Option UInt32) (fs : List Frame) : Prop :=
  ∀ pre f post, fs = pre ++ f :: post → ∀ sid, openFrom o pre = some sid →
    f.header.type = 9 ∧ f.header.streamId = sid

theorem NIFrom_cons {o : Option UInt32} {x : Frame} {fs : List Frame} (h : NIFrom o (x :: fs)) :
    (∀ sid, o = some sid → x.header.type = 9 ∧ x.header.streamId = sid) ∧
    NIFrom (openFrom o [x]) fs := by
  constructor
  · intro sid e; exact h [] x fs rfl sid e
  · intro pre f post e sid he
    exact h (x :: pre) f post (by rw [e]; rfl) sid he

/-- A sendable frame that fits the continuation state goes through. -/
theorem pump_sendable {h : Handler} (hh : ∀ l, h l = none) {f : Framer} {x : Frame} (hs : f.state = .header)
    (hok : f.ok = true) (hx : Sendable f.ourMax.toNat x) (hlim : f.ourMax.toNat < 2 ^ 24)
    {o : Option UInt32} (hI : f.contReq = true → o = some f.contSid)
    (hNI : ∀ sid, o = some sid → x.header.type = 9 ∧ x.header.streamId = sid)
    (hE : ¬ EmptyFinalContinuation x) :
    ∃ f', (∀ r, Framer.pump h f (serialize x ++ r) = Framer.pump h f' r) ∧ f'.state = .header ∧
      f'.ok = true ∧ f'.ourMax = f.ourMax ∧ f'.log = f.log ++ [.frame x.onWire] ∧
      (f'.contReq = true → openFrom o [x] = some f'.contSid) := by
  obtain ⟨ht, hsz, h0, hr⟩ := hx
  have hlen := payloadBytes_length hr
  have hwl : (x.header.setPayloadLength (UInt32.ofNat x.payload.wireSize)).payloadLength.toNat = x.payload.wireSize :=
    payloadLength_set _ _ (by omega)
  have hacc : Accepts f (x.header.setPayloadLength (UInt32.ofNat x.payload.wireSize)) := by
    refine ⟨?_, h0, by rw [hwl]; exact hsz⟩
    intro hc; exact hNI _ (hI hc)
  have hser : serialize x = (x.header.setPayloadLength (UInt32.ofNat x.payload.wireSize)).bytes ++
      payloadBytes x.header.flags x.payload := by
    unfold serialize; simp only [hlen]
  by_cases hz : x.payload.wireSize = 0
  · have hnil : payloadBytes x.header.flags x.payload = [] := List.length_eq_zero_iff.1 (by omega)
    refine ⟨(f.withHeader (x.header.setPayloadLength (UInt32.ofNat x.payload.wireSize))).dispatchZero h, ?_, ?_⟩
    · intro r
      rw [hser, hnil, List.append_nil]
      exact pump_frame_zero hs hok hacc (by rw [hwl, hz]) r
    · have hp := zero_layout (hdr := x.header.setPayloadLength (UInt32.ofNat x.payload.wireSize)) ht hr hz
      have e : (f.withHeader (x.header.setPayloadLength (UInt32.ofNat x.payload.wireSize))).dispatchZero h =
          { f.withHeader (x.header.setPayloadLength (UInt32.ofNat x.payload.wireSize)) with
              log := f.log ++ [.frame x.onWire] } := by
        unfold Framer.dispatchZero
        rw [if_neg (by simp [Framer.withHeader, hok])]
        have e2 : parseZero (f.withHeader (x.header.setPayloadLength (UInt32.ofNat x.payload.wireSize))).hdr
            = .ok (some x.payload) := hp
        rw [e2]
        simp only []
        rw [on_none (hh _)]
        rfl
      rw [e]
      refine ⟨hs, hok, rfl, rfl, ?_⟩
      intro hc
      have ho := hI hc
      obtain ⟨h9, _⟩ := hNI _ ho
      have hend : hasFlag x.header.flags FLAG_END_HEADERS = false := by
        cases hf : hasFlag x.header.flags FLAG_END_HEADERS
        · rfl
        · exact absurd ⟨h9, hf, hz⟩ hE
      simp [openFrom, h9, hend]
      exact ho
  · have hne : payloadBytes x.header.flags x.payload ≠ [] := by
      intro e; rw [e] at hlen; simp at hlen; omega
    have hlay := payloadBytes_layout (hdr := x.header.setPayloadLength (UInt32.ofNat x.payload.wireSize)) ht hr hne
    have hpar := parse_complete hlay
    refine ⟨Framer.onPayload h { f.withHeader (x.header.setPayloadLength (UInt32.ofNat x.payload.wireSize)) with
      state := .payload } (payloadBytes x.header.flags x.payload), ?_, ?_⟩
    · intro r
      rw [hser, List.append_assoc]
      exact pump_frame hs hok hacc (by rw [hwl, hlen]) hne r
    · rw [onPayload_some (g := { f.withHeader (x.header.setPayloadLength (UInt32.ofNat x.payload.wireSize)) with
        state := .payload }) (pl := x.payload) hok (by rw [hlen]; exact hwl.symm) hne hpar]
      rw [on_none (hh _)]
      refine ⟨rfl, ?_, ?_, ?_, ?_⟩
      · simp only []; rw [afterDelivery_ok]; exact hok
      · simp only []; rw [afterDelivery_ourMax]; rfl
      · simp only []; rw [afterDelivery_log]; rfl
      · simp only []
        unfold Framer.afterDelivery
        have e1 : f.ok = true := hok
        simp only [Framer.withHeader, e1, if_true, setPayloadLength_type, setPayloadLength_flags,
          setPayloadLength_sid]
        by_cases c1 : x.header.type = 1 ∨ x.header.type = 5
        · have : (decide (x.header.type = T_HEADERS) || decide (x.header.type = T_PUSH_PROMISE)) = true := by
            rw [Bool.or_eq_true, decide_eq_true_eq, decide_eq_true_eq]; exact c1
          rw [if_pos this]
          cases hf : hasFlag x.header.flags FLAG_END_HEADERS
          · simp [openFrom, c1, hf]
          · simp
        · have : ¬ (decide (x.header.type = T_HEADERS) || decide (x.header.type = T_PUSH_PROMISE)) = true := by
            rw [Bool.or_eq_true, decide_eq_true_eq, decide_eq_true_eq]; exact c1
          rw [if_neg this]
          split
          · simp
          · rename_i c2
            rw [Bool.and_eq_true, decide_eq_true_eq] at c2
            intro hc
            have ho := hI hc
            obtain ⟨h9, _⟩ := hNI _ ho
            have c3 : hasFlag x.header.flags FLAG_END_HEADERS = false := by
              cases hf : hasFlag x.header.flags FLAG_END_HEADERS
              · rfl
              · exact absurd ⟨h9, hf⟩ c2
            simp [openFrom, h9, c3]
            exact ho

theorem pump_sendables {h : Handler} (hh : ∀ l, h l = none) (fs : List Frame) : ∀ {f : Framer} (_ : f.state = .header)
    (_ : f.ok = true) (_ : ∀ x ∈ fs, Sendable f.ourMax.toNat x) (_ : f.ourMax.toNat < 2 ^ 24)
    {o : Option UInt32} (_ : f.contReq = true → o = some f.contSid)
    (_ : NIFrom o fs) (_ : ∀ x ∈ fs, ¬ EmptyFinalContinuation x),
    ∃ f', (∀ r, Framer.pump h f ((fs.map serialize).flatten ++ r) = Framer.pump h f' r) ∧ f'.state = .header ∧
      f'.ok = true ∧ f'.ourMax = f.ourMax ∧ f'.log = f.log ++ fs.map (fun x => .frame x.onWire) ∧
      (f'.contReq = true → openFrom o fs = some f'.contSid) := by
  induction fs with
  | nil =>
    intro f hs hok _ _ o hI _ _
    exact ⟨f, fun r => rfl, hs, hok, rfl, by simp, hI⟩
  | cons x fs ih =>
    intro f hs hok hx hlim o hI hN hE
    obtain ⟨hN1, hN2⟩ := NIFrom_cons hN
    obtain ⟨g, g1, g2, g3, g4, g5, g6⟩ := pump_sendable hh hs hok (hx x (by simp)) hlim hI hN1 (hE x (by simp))
    obtain ⟨k, k1, k2, k3, k4, k5, k6⟩ := ih g2 g3 (by rw [g4]; exact fun y hy => hx y (by simp [hy]))
      (by rw [g4]; exact hlim) g6 hN2 (fun y hy => hE y (by simp [hy]))
    refine ⟨k, ?_, k2, k3, by rw [k4, g4], by rw [k5, g5]; simp, ?_⟩
    · intro r
      rw [List.map_cons, List.flatten_cons, List.append_assoc, g1, k1]
    · intro hc
      have := k6 hc
      rw [← openFrom_append] at this
      exact this

end Verif.H2
