import Verif.Srv.RespLemmas
import Verif.Srv.Real
import Verif.H2.TheoremsMore

/-! # C90: the frames of a response -/

namespace Verif.Srv
open Verif.Stream

variable {x : Ext}

/-- **C90 (silence).** No HEADERS and no DATA are written on a client stream the application did not answer. -/
theorem C90_unanswered (d : x.D) (e : x.E) (is : List Input) {sid : Nat} (ho : sid % 2 = 1) (h : responsesOn sid is = []) :
    framesOn sid (run (Conn.init (x := x) d e) is).out = [] := by
  obtain ⟨rs, sl, k⟩ := ri_run d e is ho
  rw [h, List.sublist_nil] at sl
  exact k.none sl

/-- **C90 (one response).** On a client stream the application answered once, what is written is nothing (the response
was refused) or, at every moment, a beginning of exactly that response (`Answer`). Whatever the client does, in
particular however its windows and settings change and however the frames of other streams interleave. -/
theorem C90_one_response (d : x.D) (e : x.E) (is : List Input) {sid : Nat} (ho : sid % 2 = 1) {r : Response} (h : responsesOn sid is = [r]) :
    framesOn sid (run (Conn.init (x := x) d e) is).out = [] ∨ Answer sid r (framesOn sid (run (Conn.init (x := x) d e) is).out) := by
  obtain ⟨rs, sl, k⟩ := ri_run d e is ho
  rw [h] at sl
  cases rs with
  | nil => exact Or.inl (k.none rfl)
  | cons q qs =>
    have e1 : q :: qs = [r] := sl.eq_of_length_le (by simp)
    rcases k.one r e1 with k | ⟨k, _⟩
    · exact Or.inl k
    · exact Or.inr k

/-- Consequence of C90: after END_STREAM nothing more is written on the stream, and everything was written before. -/
theorem C90_end_stream (d : x.D) (e : x.E) (is : List Input) {sid : Nat} (ho : sid % 2 = 1) {r : Response} (h : responsesOn sid is = [r])
    {pre post : List Out} {o : Out} (hf : framesOn sid (run (Conn.init (x := x) d e) is).out = pre ++ o :: post) (hfin : isFin o = true) :
    post = [] ∧ payload (pre ++ [o]) = r.body := by
  rcases C90_one_response d e is ho h with k | k
  · rw [k] at hf; cases pre <;> cases hf
  · obtain ⟨h1, h2⟩ := k.fin pre o post hf hfin
    subst h1
    exact ⟨rfl, by rw [← h2, hf]⟩

/-- The values of SETTINGS_MAX_FRAME_SIZE the client announced. -/
def maxFrames : List Input → List Nat
  | [] => []
  | .settings _ _ es :: is => (es.filter (fun p => p.1 = 5)).map (fun p => p.2.toNat) ++ maxFrames is
  | _ :: is => maxFrames is

theorem maxFrames_append (a b : List Input) : maxFrames (a ++ b) = maxFrames a ++ maxFrames b := by
  induction a with
  | nil => rfl
  | cons i a ih => cases i <;> simp [maxFrames, ih]

/-- Every DATA frame within `M`, and the limit in use too. -/
structure Fits (M : Nat) (c : Conn x) : Prop where
  limit : c.peerMaxFrame ≤ M
  data : ∀ sid d f, Out.data sid d f ∈ c.out → d.length ≤ M

theorem Fits.micro {M : Nat} {a b : Conn x} {l : List Lab} (m : Micro a l b) (hl : ∀ n, Lab.setMax n ∈ l → n ≤ M) (h : Fits M a) : Fits M b := by
  have app : ∀ os, (∀ sid d f, Out.data sid d f ∉ os) → ∀ sid d f, Out.data sid d f ∈ a.out ++ os → d.length ≤ M := by
    intro os hos sid d f hm
    rcases List.mem_append.mp hm with k | k
    · exact h.data sid d f k
    · exact absurd k (hos sid d f)
  cases m with
  | aux _ h1 h2 h3 h4 h5 h6 h7 h8 h9 _ => exact ⟨by rw [h5]; exact h.limit, by rw [h6]; exact h.data⟩
  | setMax n hn => exact ⟨hl n (List.mem_cons_self ..), h.data⟩
  | plain o ho => exact ⟨h.limit, app [o] (fun sid d f k => by rw [List.mem_singleton] at k; subst k; cases ho)⟩
  | die => exact ⟨h.limit, app _ (by simp)⟩
  | start => exact ⟨h.limit, app _ (by simp)⟩
  | trail => exact ⟨h.limit, app _ (by simp)⟩
  | credConn => exact ⟨h.limit, app _ (by split <;> simp)⟩
  | credSend => exact ⟨h.limit, app _ (by split <;> simp)⟩
  | request => exact ⟨h.limit, app _ (by simp)⟩
  | data s k fin p hs hk hm hp hw ho he hf hf' hh hp' =>
    refine ⟨h.limit, fun sid d f hd => ?_⟩
    rcases List.mem_append.mp hd with z | z
    · exact h.data sid d f z
    · rw [List.mem_singleton] at z
      cases z
      have := h.limit
      rw [List.length_take]; omega
  | _ => exact ⟨h.limit, h.data⟩

theorem setMax_step {i : Input} {ls : List Lab} (h : StepLabs i ls) {n : Nat} (hn : Lab.setMax n ∈ ls) :
    ∃ v ∈ maxFrames [i], n ≤ max 16384 v := by
  have app : ∀ rs : List Lab, (∀ y ∈ rs, Lab.isApp y = true) → Lab.setMax n ∉ rs := fun rs k hm => by
    have := k _ hm; cases this
  cases i with
  | settings j ack es =>
    obtain ⟨v, hv, e⟩ := (h _ hn).2 n rfl
    refine ⟨v.toNat, ?_, ?_⟩
    · rw [maxFrames]
      refine List.mem_append_left _ (List.mem_map.mpr ⟨(5, v), List.mem_filter.mpr ⟨hv, by simp⟩, rfl⟩)
    · have := H2.C24_peer_limit v
      omega
  | data sid d pad fin sc =>
    rcases h with e | e | e | ⟨es, rs, sl, k, e⟩ <;> subst e <;> simp at hn
    rcases hn with hn | hn
    · exact absurd hn (app _ (isApp_ended k))
    · exact absurd hn (app _ (isApp_script sl))
  | headers j frag fin eh sc =>
    obtain ⟨rs, sl, e⟩ := h
    have hm : Lab.setMax n ∈ rs := by
      rcases e with e | e <;> subst e
      · exact hn
      · simpa using hn
    exact absurd hm (app _ (isApp_script sl))
  | continuation j frag eh sc => exact absurd hn (app _ (isApp_script h))
  | app a =>
    have h : ls.Sublist a.labs := h
    have : ls.Sublist ([a].flatMap Act.labs) := by simpa using h
    exact absurd hn (app _ (isApp_acts this))
  | windowUpdate j inc =>
    rcases h with e | ⟨_, e⟩ | ⟨_, e⟩ <;> subst e <;> simp at hn
  | rst j code => rcases h with e | e <;> subst e <;> simp at hn
  | goaway last code => rcases h with e | e <;> subst e <;> simp at hn
  | _ => have h : ls = [] := h; subst h; cases hn

/-- **C90 (frame size).** Every DATA frame is within 16384 octets, or within the largest SETTINGS_MAX_FRAME_SIZE the
client announced. -/
theorem C90_frame_size (d : x.D) (e : x.E) (is : List Input) {M : Nat} (h0 : 16384 ≤ M) (hM : ∀ v ∈ maxFrames is, v ≤ M)
    {sid : Nat} {p : Bytes} {f : Bool} (hd : Out.data sid p f ∈ (run (Conn.init (x := x) d e) is).out) : p.length ≤ M := by
  have key : Fits M (run (Conn.init (x := x) d e) is) := by
    clear hd
    induction is using snocInd with
    | h0 => exact ⟨h0, fun _ _ _ h => by cases h⟩
    | hs is i ih =>
      rw [maxFrames_append] at hM
      have ih := ih (fun v hv => hM v (List.mem_append_left _ hv))
      rw [run_snoc]
      obtain ⟨ls, hl, q⟩ := path_step (run (Conn.init (x := x) d e) is) i ((Inv0.init d e).run is)
      refine q.inductL (P := Fits M) (Q := fun y => ∀ n, y = .setMax n → n ≤ M) (fun a l b m hq => ?_) (fun y hy n hn => ?_) ih
      · exact Fits.micro m (fun n hn => hq _ hn n rfl)
      · subst hn
        obtain ⟨v, hv, hle⟩ := setMax_step hl hy
        have := hM v (List.mem_append_right _ hv)
        omega
  exact key.data sid p f hd

/-- With two responses to one stream the promise is void: the second one, given while the first is waiting for a window,
starts with a second HEADERS frame without END_STREAM (server.h 1085-1093 refuse a second response only after the first
is complete). -/
theorem C90_two_responses_refuted :
    ∃ is : List Input, responsesOn 1 is = [⟨200, [], b!"ab"⟩, ⟨200, [], b!"cd"⟩] ∧ (run toy is).alive = true ∧
      framesOn 1 (run toy is).out = [.headers 1 [] false, .data 1 b!"a" false, .headers 1 [] false] := by
  refine ⟨[.settings 0 false [(4, 1)], .headers 1 [] false true {}, .app (.respond 1 ⟨200, [], b!"ab"⟩),
    .app (.respond 1 ⟨200, [], b!"cd"⟩)], by decide, by decide, by decide⟩

/-- A response cut by the window, continued, interleaved with another one. -/
example : responsesOn 1 [.settings 0 false [(4, 3)], .headers 1 [] false true {}, .headers 3 [] false true {},
      .app (.respond 1 ⟨200, [], b!"abcdef"⟩), .app (.respond 3 ⟨200, [], b!"x"⟩), .windowUpdate 1 9] = [⟨200, [], b!"abcdef"⟩] ∧
    framesOn 1 (run toy [.settings 0 false [(4, 3)], .headers 1 [] false true {}, .headers 3 [] false true {},
      .app (.respond 1 ⟨200, [], b!"abcdef"⟩), .app (.respond 3 ⟨200, [], b!"x"⟩), .windowUpdate 1 9]).out =
      [.headers 1 [] false, .data 1 b!"abc" false, .data 1 b!"def" true] := by decide

end Verif.Srv
