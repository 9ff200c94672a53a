import Verif.Ws.RecvLemmas

/-! The read loop: from single frames to arbitrary byte streams arriving in arbitrary chunks. -/

namespace Verif.Ws
open Spec

attribute [-simp] UInt8.toNat_and List.headD_eq_head?_getD

theorem Abs.ok {p : P} {s : RState} (h : Abs p s) (hs : s ≠ .closed) : p.ok = true ∧ p.Clean := by
  cases s with
  | closed => exact absurd rfl hs
  | idle => exact ⟨h.1, h.2.1⟩
  | inMsg => exact ⟨h.1, h.2.1⟩

theorem wire_ne_nil (key : Option (Fin 4 → UInt8)) (f : Frame) (r : Bytes) : wire key f ++ r ≠ [] := by
  rw [wire_eq]; simp

theorem drive_notok {cfg : Cfg} {p : P} (h : p.ok = false) (buf : Bytes) : drive cfg buf p = (p, buf) := by
  have hg : getSize cfg buf p = (0, p) := by unfold getSize; rw [if_pos (by simp [h])]
  rw [drive.eq_def, dif_pos (Or.inl (by rw [hg])), hg]

theorem drive_of_getSize {cfg : Cfg} {p q : P} {buf : Bytes} (h : getSize cfg buf p = getSize cfg buf q) :
    drive cfg buf p = drive cfg buf q := by
  rw [drive.eq_def cfg buf p, drive.eq_def cfg buf q, h]

theorem drive_wire {cfg : Cfg} {p : P} (hok : p.ok = true) (hcl : p.Clean) {i : Item} (hg : Good cfg i)
    (rest : Bytes) : drive cfg (wire i.1 i.2 ++ rest) p =
      drive cfg rest (onMessage cfg (wire i.1 i.2 ++ rest) (hdrState cfg i.1 i.2 p)) := by
  have e := getSize_wire hok hcl hg.1 hg.2.1 hg.2.2 rest
  have hn : ¬ ((getSize cfg (wire i.1 i.2 ++ rest) p).1 = 0 ∨ wire i.1 i.2 ++ rest = []) := by
    rw [e]
    rintro (h | h)
    · rw [wire_length] at h; simp at h
    · exact wire_ne_nil _ _ _ h
  rw [drive.eq_def, dif_neg hn, e]
  simp

/-- The payload of the frame read does not depend on what follows in the buffer. -/
theorem onMessage_wire_rest {cfg : Cfg} {p : P} {i : Item} (hg : Good cfg i) (r r' : Bytes) :
    onMessage cfg (wire i.1 i.2 ++ r) (hdrState cfg i.1 i.2 p) =
      onMessage cfg (wire i.1 i.2 ++ r') (hdrState cfg i.1 i.2 p) := by
  unfold onMessage
  rw [framePayload_wire hg.2.1, framePayload_wire hg.2.1]

theorem drive_fail {cfg : Cfg} {p p' : P} {st : UInt16} {r : Bytes} {buf : Bytes} (hne : buf ≠ [])
    (hf : (fail cfg st r p').ok = false) (e : getSize cfg buf p = (buf.length, fail cfg st r p')) :
    drive cfg buf p = (fail cfg st r p', []) := by
  have hn : ¬ ((getSize cfg buf p).1 = 0 ∨ buf = []) := by
    rw [e]; rintro (h | h)
    · exact hne (by simpa using h)
    · exact hne h
  rw [drive.eq_def, dif_neg hn, e]
  simp only [List.drop_length]
  have : onMessage cfg buf (fail cfg st r p') = fail cfg st r p' := by
    unfold onMessage; rw [if_pos (by simp [hf])]
  rw [this, drive_notok hf]

theorem sendable_hdr {st : UInt16} (h : st = 1002 ∨ st = 1009) : SendableCode st.toNat := by
  rcases h with rfl | rfl
  · exact code1002
  · exact code1009

/-- A legal data frame above the limit is refused with 1009 as soon as its header is complete. -/
theorem getSize_big {cfg : Cfg} {p : P} (hok : p.ok = true) (hcl : p.Clean) {f : Frame} (hf : f.Legal)
    {key : Option (Fin 4 → UInt8)} (hk : key.isSome = cfg.server) (hfit : ¬ HdrFits cfg f) (rest : Bytes) :
    ∃ r p', p'.ok = true ∧ p'.out = p.out ∧ r.length ≤ 123 ∧ (∀ c ∈ r, c.toNat ≤ 127) ∧
      getSize cfg (wire key f ++ rest) p = ((wire key f ++ rest).length, fail cfg 1009 r p') := by
  obtain ⟨b1, ext, e, hm, hext, h1, h2, h3⟩ := lengthOctets_cons key.isSome f.payload.length
  have hop : (firstByte f &&& 0x0F).toNat = f.op := by
    rw [(firstByte_facts hf.1).2.2.1]; apply ofNat_toNat_lt
    have := hf.1; simp at this; omega
  have hw := wire_eq key f
  rw [e] at hw
  obtain ⟨t, ht⟩ : ∃ t, wire key f ++ rest = firstByte f :: b1 :: (ext ++ t) := by
    rw [hw]; exact ⟨_, by simp only [List.cons_append, List.append_assoc]; rfl⟩
  rw [ht, getSize_clean hok hcl, checkFirst_legal hf (server := cfg.server) (by rw [← hk]; exact hm)]
  simp only []
  rw [lengthStage_complete hf.2.1 (by rw [hop]; exact fun h => (hf.2.2 h).2) hext h1 h2 h3]
  rw [if_neg (by rw [hop]; exact hfit)]
  exact ⟨b!"Payload size exceeds configured limit", { p with frop := firstByte f, msgMasked := cfg.server, parsed := 2 },
    hok, rfl, by decide, by decide, rfl⟩

theorem fail_code_inj {cfg : Cfg} {st st' : UInt16} {r r' : Bytes} {p p' : P} (h : fail cfg st r p = fail cfg st' r' p')
    (hok : p.ok = true) (hok' : p'.ok = true) (ho : p.out = p'.out)
    (hs : st = 1002 ∨ st = 1009) (hs' : st' = 1002 ∨ st' = 1009) (hl : r.length ≤ 123) (hl' : r'.length ≤ 123)
    (ha : ∀ c ∈ r, c.toNat ≤ 127) (ha' : ∀ c ∈ r', c.toNat ≤ 127) : st = st' := by
  obtain ⟨evs, ⟨r1, e1, _⟩, _, o1⟩ := fail_out (cfg := cfg) hok (sendable_hdr hs) hl ha
  obtain ⟨evs', ⟨r2, e2, _⟩, _, o2⟩ := fail_out (cfg := cfg) hok' (sendable_hdr hs') hl' ha'
  rw [h, o2, ho] at o1
  have := List.append_cancel_left o1
  rw [e1, e2] at this
  simp only [List.cons.injEq, Ev.send.injEq, Msg.mk.injEq, true_and, and_true] at this
  rcases hs with rfl | rfl <;> rcases hs' with rfl | rfl <;> first | rfl | exact absurd this.2.1 (by decide)

/-- The state left behind by the read loop: dead, or equivalent to a state between frames. -/
def Parked (cfg : Cfg) (q : P) (b : Bytes) : Prop :=
  q.ok = false ∨ ∃ q0 s, Abs q0 s ∧ s ≠ .closed ∧ ∀ x, getSize cfg (b ++ x) q = getSize cfg (b ++ x) q0

theorem drive_main (cfg : Cfg) (buf : Bytes) (p : P) (s : RState) (ha : Abs p s) (hs : s ≠ .closed) :
    (∃ (items : List Item) (rest : Bytes) (evs tail : List Ev) (s' : RState), buf = wires items ++ rest ∧
      (∀ i ∈ items, Good cfg i) ∧ RunsTo cfg s (items.map (·.2)) evs s' ∧
      (drive cfg buf p).1.out = p.out ++ evs ++ tail ∧ End cfg s' rest (drive cfg buf p).1.ok tail) ∧
    Parked cfg (drive cfg buf p).1 (drive cfg buf p).2 ∧
    ∀ x, (drive cfg ((drive cfg buf p).2 ++ x) (drive cfg buf p).1).1 = (drive cfg (buf ++ x) p).1 := by
  induction hl : buf.length using Nat.strongRecOn generalizing buf p s with
  | _ n ih =>
  obtain ⟨hok, hcl⟩ := ha.ok hs
  rcases getSize_cases (cfg := cfg) hok hcl buf with ⟨p', e, hok', hout, hdo, hmd, hinc, hx⟩ |
      ⟨st, r, p', hne, e, hok', hout, ⟨hst, hrl, hra⟩, hx⟩ | ⟨key, f, rest, e, hf, hk, hfit⟩
  · have hd : drive cfg buf p = (p', buf) := by
      rw [drive.eq_def, dif_pos (Or.inl (by rw [e])), e]
    rw [hd]
    have hno : ∀ (y : Bytes) (i : Item), Good cfg i → buf ≠ wire i.1 i.2 ++ y := by
      intro y i hg he
      have e1 := getSize_wire hok hcl hg.1 hg.2.1 hg.2.2 y
      rw [← he, e] at e1
      have := (Prod.mk.inj e1).1
      rw [wire_length] at this; omega
    refine ⟨⟨[], buf, [], [], s, by simp [wires], by simp, .nil, by simp [hout], .wait hok' rfl hs hinc hno⟩,
      Or.inr ⟨p, s, ha, hs, hx⟩, fun x => ?_⟩
    show (drive cfg (buf ++ x) p').1 = _
    rw [drive_of_getSize (hx x)]
  · obtain ⟨evs, hF, h2, h3⟩ := fail_out (cfg := cfg) hok' (sendable_hdr hst) hrl hra
    rw [drive_fail hne h2 e]
    refine ⟨⟨[], buf, [], evs, s, by simp [wires], by simp, .nil, by simp [h3, hout], ?_⟩, Or.inl h2, fun x => ?_⟩
    · refine .illegal st.toNat h2 hF hs (by rcases hst with rfl | rfl <;> simp) ?_
      intro x y i hw hleg hrole
      by_cases hfit : HdrFits cfg i.2
      · exfalso
        have e1 := getSize_wire hok hcl hleg hrole hfit y
        rw [← hw, hx x] at e1
        have e2 : fail cfg st r p' = hdrState cfg i.1 i.2 p := (Prod.mk.inj e1).2
        have : (hdrState cfg i.1 i.2 p).ok = true := hok
        rw [← e2, h2] at this
        exact absurd this (by simp)
      · refine ⟨hfit, ?_⟩
        obtain ⟨r', p'', o1, o2, o3, o4, o5⟩ := getSize_big hok hcl hleg hrole hfit y
        rw [← hw, hx x] at o5
        have e2 := (Prod.mk.inj o5).2
        have := fail_code_inj e2 hok' o1 (by rw [hout, o2]) hst (Or.inr rfl) hrl o3 hra o4
        rw [this]; rfl
    · show (drive cfg ([] ++ x) (fail cfg st r p')).1 = _
      rw [drive_notok h2, drive_fail (by simp [hne]) h2 (hx x)]
  · subst e
    have hg : Good cfg (key, f) := ⟨hf, hk, hfit⟩
    have hst := drive_wire hok hcl hg rest
    simp only [] at hst
    have hrec := onMessage_recv ha hs hf hk rest
    have hstx : ∀ x, drive cfg (wire key f ++ rest ++ x) p =
        drive cfg (rest ++ x) (onMessage cfg (wire key f ++ rest) (hdrState cfg key f p)) := by
      intro x
      have := drive_wire hok hcl hg (rest ++ x)
      simp only [] at this
      rw [List.append_assoc, this, onMessage_wire_rest hg (rest ++ x) rest]
    rw [hst]
    simp only [hstx]
    generalize hp1 : onMessage cfg (wire key f ++ rest) (hdrState cfg key f p) = p1 at hrec ⊢
    cases hr : recv cfg s f with
    | inl code =>
      rw [hr] at hrec
      obtain ⟨o1, evs, o2, o3⟩ := hrec
      rw [drive_notok o1]
      refine ⟨⟨[], wire key f ++ rest, [], evs, s, by simp [wires], by simp, .nil, by simp [o3], ?_⟩, Or.inl o1,
        fun x => ?_⟩
      · exact .violation code (key, f) rest o1 o2 hs rfl hg hr
      · simp [drive_notok o1]
    | inr es =>
      obtain ⟨evs, s1⟩ := es
      rw [hr] at hrec
      obtain ⟨o1, o2⟩ := hrec
      by_cases hs1 : s1 = .closed
      · subst hs1
        have o1' : p1.ok = false := o1
        rw [drive_notok o1']
        refine ⟨⟨[(key, f)], rest, evs, [], .closed, by simp [wires], by simpa using hg, ?_, by simp [o2],
          .closed o1' rfl rfl⟩, Or.inl o1', fun x => ?_⟩
        · have := RunsTo.cons hs hr (.nil (cfg := cfg))
          simpa using this
        · simp [drive_notok o1']
      · have hlen : rest.length < n := by
          rw [← hl, List.length_append, wire_length]; omega
        obtain ⟨⟨items, rest', evs', tail, s', e1, e2, e3, e4, e5⟩, hpk, hdx⟩ := ih rest.length hlen rest p1 s1 o1 hs1 rfl
        refine ⟨⟨(key, f) :: items, rest', evs ++ evs', tail, s', ?_, ?_, RunsTo.cons hs hr e3, ?_, e5⟩, hpk, hdx⟩
        · rw [e1]; simp [wires]
        · intro i hi
          rcases List.mem_cons.1 hi with rfl | hi
          · exact hg
          · exact e2 i hi
        · rw [e4, o2]; simp

/-- The read loop does not care how the input was cut. -/
theorem drive_append {cfg : Cfg} {q : P} {b : Bytes} (hp : Parked cfg q b) (c : Bytes) :
    Parked cfg (drive cfg (b ++ c) q).1 (drive cfg (b ++ c) q).2 ∧
    ∀ x, (drive cfg ((drive cfg (b ++ c) q).2 ++ x) (drive cfg (b ++ c) q).1).1 = (drive cfg (b ++ c ++ x) q).1 := by
  rcases hp with h | ⟨q0, s, ha, hs, hx⟩
  · rw [drive_notok h]
    exact ⟨Or.inl h, fun x => by simp [drive_notok h]⟩
  · rw [drive_of_getSize (hx c)]
    obtain ⟨_, h1, h2⟩ := drive_main cfg (b ++ c) q0 s ha hs
    refine ⟨h1, fun x => ?_⟩
    rw [h2, List.append_assoc, drive_of_getSize (hx (c ++ x))]

theorem feed_flatten {cfg : Cfg} (chunks : List Bytes) (q : P) (b : Bytes) (hp : Parked cfg q b) (hne : chunks ≠ []) :
    (feed cfg chunks (q, b)).1 = (drive cfg (b ++ chunks.flatten) q).1 := by
  induction chunks generalizing q b with
  | nil => exact absurd rfl hne
  | cons c cs ih =>
    obtain ⟨h1, h2⟩ := drive_append hp c
    rw [feed]
    by_cases hcs : cs = []
    · subst hcs; simp [feed]
    · show (feed cfg cs ((drive cfg (b ++ c) q).1, (drive cfg (b ++ c) q).2)).1 = _
      rw [ih _ _ h1 hcs, h2, List.flatten_cons, List.append_assoc]

theorem feed_init (cfg : Cfg) (chunks : List Bytes) :
    (feed cfg chunks ({}, [])).1 = (drive cfg chunks.flatten {}).1 := by
  by_cases h : chunks = []
  · subst h
    have : getSize cfg [] {} = (0, {}) := by unfold getSize; rfl
    rw [List.flatten_nil, drive.eq_def, dif_pos (Or.inr rfl)]
    simp only [this, feed]
  · have := feed_flatten (cfg := cfg) chunks {} [] (Or.inr ⟨{}, .idle, ⟨rfl, ⟨rfl, rfl⟩, rfl⟩, by simp, fun _ => rfl⟩) h
    simpa using this

theorem feed_append (cfg : Cfg) (a b : List Bytes) (s : P × Bytes) : feed cfg (a ++ b) s = feed cfg b (feed cfg a s) := by
  induction a generalizing s with
  | nil => rfl
  | cons c cs ih => simp [feed, ih]

theorem feed_notok {cfg : Cfg} (chunks : List Bytes) {s : P × Bytes} (h : s.1.ok = false) :
    (feed cfg chunks s).1 = s.1 := by
  induction chunks generalizing s with
  | nil => rfl
  | cons c cs ih =>
    rw [feed, ih] <;> rw [drive_notok h]
    exact h

/-- Complete frames that the receiver accepts are all processed. -/
theorem drive_complete {cfg : Cfg} {items : List Item} {p : P} {s s' : RState} {evs : List Ev} (ha : Abs p s)
    (hg : ∀ i ∈ items, Good cfg i) (hr : RunsTo cfg s (items.map (·.2)) evs s') (rest : Bytes) :
    ∃ p', drive cfg (wires items ++ rest) p = drive cfg rest p' ∧ Abs p' s' ∧ p'.out = p.out ++ evs := by
  induction items generalizing p s evs with
  | nil => cases hr; exact ⟨p, rfl, ha, by simp⟩
  | cons i t ih =>
    cases hr with
    | @cons _ _ _ e1 s1 e2 _ hs hrec hrest =>
    have hgi := hg i (by simp)
    obtain ⟨hok, hcl⟩ := ha.ok hs
    have ho := onMessage_recv ha hs hgi.1 hgi.2.1 (wires t ++ rest)
    rw [hrec] at ho
    obtain ⟨o1, o2⟩ := ho
    obtain ⟨p', q1, q2, q3⟩ := ih o1 (fun j hj => hg j (by simp [hj])) hrest
    refine ⟨p', ?_, q2, by rw [q3, o2]; simp⟩
    have : wires (i :: t) ++ rest = wire i.1 i.2 ++ (wires t ++ rest) := by simp [wires]
    rw [this, drive_wire hok hcl hgi, q1]

end Verif.Ws
