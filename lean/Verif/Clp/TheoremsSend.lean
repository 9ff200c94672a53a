import Verif.Clp.LemmasSend

/-! C165: the send windows; C171: replies; C172: after GOAWAY. -/

namespace Verif.Clp
open Verif.Stream
variable {x : Ext}

/-! ### C165 -/

/-- DATA within the windows of the server. -/
def Within (e : Ev) (pre : List Ev) : Prop := match e with
  | .data sid d _ => d ≠ [] ∧ sent pre + d.length ≤ 65535 + granted 0 pre ∧ (∃ w ∈ inForce 4 pre, (bodyOn sid pre).length + d.length ≤ w + granted sid pre) ∧ ∃ m ∈ inForce 5 pre, d.length ≤ m
  | _ => True

structure SendAll (c : Conn x) (p : Option In) : Prop where
  inv : SendInv c p
  s4 : c.ok = true → SetInv 4 c p
  s5 : c.ok = true → SetInv 5 c p
  ok : Always Within c.log

theorem sendAll_micro {c c' : Conn x} {p p' : Option In} (w : Wf c) (m : Micro c p c' p') (i : SendAll c p) : SendAll c' p' := by
  refine ⟨send_micro w m i.inv, set_micro (.inr (.inl rfl)) m i.s4, set_micro (.inr (.inr rfl)) m i.s5, ?_⟩
  have h := i.ok
  cases m
  case chunk sid s k fin hs hk h1 h2 h3 h4 hf ho ha =>
    have hlen : ((s.req.body.drop s.offset).take k).length = k := by simp; omega
    refine ⟨⟨?_, ?_, ?_, ?_⟩, h⟩
    · intro e; rw [e] at hlen; simp at hlen; omega
    · have := i.inv.conn; rw [hlen]; omega
    · refine ⟨c.initPeer, (i.s4 ho).via _ (through_mem _ _ _), ?_⟩
      have := i.inv.streams sid s hs
      rw [hlen]; omega
    · refine ⟨c.peerMaxFrame, (i.s5 ho).via _ (through_mem _ _ _), ?_⟩
      rw [hlen]; exact h2
  case note e hn hw hr => cases e <;> first | exact ⟨trivial, h⟩ | (simp [Ev.neutral] at hn)
  case reply e hn hc => rcases hn with hn | ⟨⟨d, hn⟩, _⟩ <;> subst hn <;> exact ⟨trivial, h⟩
  all_goals first | exact h | exact ⟨trivial, h⟩ | exact ⟨trivial, trivial, h⟩

/-- C165. In every history: every DATA frame the client writes has an octet, and with it the connection has not sent more than 65535 octets and what WINDOW_UPDATE granted the connection, the stream not more than
the initial window in force and what was granted to it, and the frame is not larger than the maximum in force. -/
theorem C165_send_windows (d : x.D) (e : x.E) (is : List Input) (later earlier : List Ev) (sid : Nat) (body : Bytes) (fin : Bool) (h : (run (Conn.init d e) is).log = later ++ .data sid body fin :: earlier) :
    body ≠ [] ∧ sent earlier + body.length ≤ 65535 + granted 0 earlier ∧ (∃ w ∈ inForce 4 earlier, (bodyOn sid earlier).length + body.length ≤ w + granted sid earlier) ∧
      ∃ m ∈ inForce 5 earlier, body.length ≤ m := by
  have := run_ind (I := SendAll) (fun _ _ _ _ w m i => sendAll_micro w m i) d e
    ⟨⟨by simp [Conn.init, sent, granted, pend, INITIAL_WINDOW], by simp [Conn.init, INITIAL_WINDOW], fun j s h => by simp [Conn.init] at h, fun j _ => rfl, fun j => Nat.le_refl _⟩,
      fun _ => set_init 4 (.inr (.inl rfl)) d e, fun _ => set_init 5 (.inr (.inr rfl)) d e, trivial⟩ is
  exact always_split this.ok h

/-! ### C171 -/

def isData : Option In → Bool
  | some (.data _ _ _ _) => true
  | _ => false

structure ReplyInv (c : Conn x) (p : Option In) : Prop where
  ctl : repliesSince c.log ≤ c.ctl
  data : isData p = true → repliesSince c.log = 0
  ok : Always (fun e pre => repliesSince (e :: pre) ≤ 1000) c.log

theorem always_last {l : List Ev} (h : Always (fun e pre => repliesSince (e :: pre) ≤ 1000) l) : repliesSince l ≤ 1000 := by
  cases l with
  | nil => exact Nat.zero_le _
  | cons e l => exact h.1

theorem reply_micro {c c' : Conn x} {p p' : Option In} (m : Micro c p c' p') (i : ReplyInv c p) : ReplyInv c' p' := by
  have hl := always_last i.ok
  have keep : ∀ (c' : Conn x) (p' : Option In) (e : Ev), c'.log = e :: c.log → repliesSince (e :: c.log) = repliesSince c.log → c'.ctl = c.ctl → (isData p' = true → isData p = true) → ReplyInv c' p' := by
    intro c' p' e h1 h2 h3 h4
    exact ⟨by rw [h1, h2, h3]; exact i.ctl, fun h => by rw [h1, h2]; exact i.data (h4 h), by rw [h1]; exact ⟨by show repliesSince (e :: c.log) ≤ 1000; rw [h2]; exact hl, i.ok⟩⟩
  cases m
  case take j hj hi =>
    cases j
    case data sid d pad fin => exact ⟨Nat.zero_le _, fun _ => rfl, Nat.zero_le _, i.ok⟩
    all_goals exact keep _ _ _ rfl rfl rfl (fun h => by cases h)
  case refuse j hj =>
    cases j
    case data sid d pad fin => exact ⟨Nat.zero_le _, fun _ => rfl, Nat.zero_le _, i.ok⟩
    all_goals exact keep _ _ _ rfl rfl rfl (fun h => by cases h)
  case takeGoaway last code _ => exact keep _ _ _ rfl rfl rfl (fun h => by cases h)
  case drop j hd => exact ⟨i.ctl, fun h => (by cases h), i.ok⟩
  case close last code ho => exact ⟨i.ctl, i.data, hl, hl, i.ok⟩
  case note e h hw hr => cases e <;> first | exact keep _ _ _ rfl rfl rfl id | (simp [Ev.neutral] at h)
  case reply e h hc =>
    have h1 := i.ctl
    rcases h with h | ⟨⟨d, h⟩, _⟩ <;> subst h <;> exact ⟨by show repliesSince c.log + 1 ≤ c.ctl + 1; omega, fun h => (by cases h), by show repliesSince c.log + 1 ≤ 1000; omega, i.ok⟩
  case over hc => exact ⟨by have := i.ctl; show repliesSince c.log ≤ c.ctl + 1; omega, i.data, i.ok⟩
  case opens => exact keep _ _ _ rfl rfl rfl id
  case chunk => exact keep _ _ _ rfl rfl rfl id
  case ownTrailers => exact keep _ _ _ rfl rfl rfl id
  case apiTrailers => exact keep _ _ _ rfl rfl rfl id
  case wu0 => exact keep _ _ _ rfl rfl rfl id
  case wuS => exact keep _ _ _ rfl rfl rfl id
  case told => exact keep _ _ _ rfl rfl rfl id
  case cutDone => exact keep _ _ _ rfl rfl rfl id
  case cut => exact ⟨i.ctl, i.data, hl, hl, i.ok⟩
  case accept sid s d pad fin hs _ _ _ => exact ⟨Nat.le_of_eq (i.data rfl), fun h => (by cases h), i.ok⟩
  case dispatch => exact ⟨Nat.zero_le _, fun _ => rfl, Nat.zero_le _, i.ok⟩
  case credit0 => exact ⟨i.ctl, fun h => (by cases h), i.ok⟩
  case creditS => exact ⟨i.ctl, fun h => (by cases h), i.ok⟩
  case setting => exact ⟨i.ctl, fun h => (by cases h), i.ok⟩
  case shift => exact ⟨i.ctl, fun h => (by cases h), i.ok⟩
  case debit => exact ⟨i.ctl, fun h => (by cases h), i.ok⟩
  all_goals exact ⟨i.ctl, i.data, i.ok⟩

/-- C171. At no time of any history has the client written more than 1000 replies to PING and SETTINGS since the last DATA frame or response: a server that sends nothing else cannot make it write more. -/
theorem C171_replies_bounded (d : x.D) (e : x.E) (is : List Input) (later now : List Ev) (h : (run (Conn.init d e) is).log = later ++ now) : repliesSince now ≤ 1000 := by
  have := run_ind (I := ReplyInv) (fun _ _ _ _ _ m i => reply_micro m i) d e ⟨Nat.le_refl _, fun _ => rfl, trivial⟩ is
  cases now with
  | nil => exact Nat.zero_le _
  | cons a b => exact always_split this.ok h

/-! ### C172 -/

/-- The events that may follow a GOAWAY the client wrote. -/
def Quiet (e : Ev) (pre : List Ev) : Prop := (∃ last code, Ev.goaway last code ∈ pre) → match e with
  | .goawayEvent _ _ | .refused _ | .settingsAck | .trailers _ _ => True
  | _ => False

structure QuietInv (c : Conn x) : Prop where
  down : (∃ last code, Ev.goaway last code ∈ c.log) → c.ok = false
  ok : Always Quiet c.log

theorem quiet_micro {c c' : Conn x} {p p' : Option In} (m : Micro c p c' p') (i : QuietInv c) : QuietInv c' := by
  have none : c.ok = true → ¬ ∃ last code, Ev.goaway last code ∈ c.log := fun h e => by rw [i.down e] at h; cases h
  have keep : ∀ (c' : Conn x) (e : Ev), c'.log = e :: c.log → (c.ok = false → c'.ok = false) → (∀ l k, e ≠ .goaway l k) → Quiet e c.log → QuietInv c' := by
    intro c' e h1 h2 h3 h4
    refine ⟨fun ⟨l, k, h⟩ => ?_, by rw [h1]; exact ⟨h4, i.ok⟩⟩
    rw [h1] at h
    rcases List.mem_cons.1 h with h | h
    · exact absurd h.symm (h3 l k)
    · exact h2 (i.down ⟨l, k, h⟩)
  cases m
  case take j hj hi => exact keep _ _ rfl id (fun _ _ h => by cases h) (fun h => absurd h (none hj))
  case takeGoaway last code hj => exact keep _ _ rfl id (fun _ _ h => by cases h) (fun h => absurd h (none hj))
  case refuse j hj => exact keep _ _ rfl (fun _ => rfl) (fun _ _ h => by cases h) (fun h => absurd h (none hj))
  case down a => exact ⟨fun _ => rfl, i.ok⟩
  case close last code ho => exact ⟨fun _ => rfl, fun _ => trivial, fun h => absurd h (none ho), i.ok⟩
  case note e h hw hr =>
    cases e <;> first
      | (simp [Ev.neutral] at h; done)
      | exact keep _ _ rfl id (fun _ _ h => by cases h) (fun _ => trivial)
      | exact keep _ _ rfl id (fun _ _ h => by cases h) (fun h => absurd h (none (hw rfl)))
  case reply e h hc =>
    rcases h with h | ⟨⟨d, h⟩, ho⟩ <;> subst h
    · exact keep _ _ rfl id (fun _ _ h => by cases h) (fun _ => trivial)
    · exact keep _ _ rfl id (fun _ _ h => by cases h) (fun h => absurd h (none ho))
  case opens q block e ho _ _ _ => exact keep _ _ rfl id (fun _ _ h => by cases h) (fun h => absurd h (none ho))
  case chunk sid s k fin hs hk h1 h2 h3 h4 hf ho ha => exact keep _ _ rfl id (fun _ _ h => by cases h) (fun h => absurd h (none ho))
  case ownTrailers sid s block hs _ _ _ ho _ => exact keep _ _ rfl id (fun _ _ h => by cases h) (fun h => absurd h (none ho))
  case apiTrailers => exact keep _ _ rfl id (fun _ _ h => by cases h) (fun _ => trivial)
  case wu0 ho _ => exact keep _ _ rfl id (fun _ _ h => by cases h) (fun h => absurd h (none ho))
  case wuS ho _ => exact keep _ _ rfl id (fun _ _ h => by cases h) (fun h => absurd h (none ho))
  case cutDone ho => exact keep _ _ rfl id (fun _ _ h => by cases h) (fun h => absurd h (none ho))
  case cut ho =>
    refine ⟨fun ⟨l, k, h⟩ => ?_, fun ⟨l, k, h⟩ => ?_, fun h => absurd h (none ho), i.ok⟩
    · rcases List.mem_cons.1 h with h | h
      · cases h
      · rcases List.mem_cons.1 h with h | h
        · cases h
        · exact i.down ⟨l, k, h⟩
    · rcases List.mem_cons.1 h with h | h
      · cases h
      · exact absurd ⟨l, k, h⟩ (none ho)
  case told ho => exact keep _ _ rfl id (fun _ _ h => by cases h) (fun h => absurd h (none ho))
  case dispatch ho _ _ => exact keep _ _ rfl id (fun _ _ h => by cases h) (fun h => absurd h (none ho))
  all_goals exact ⟨i.down, i.ok⟩

/-- C172 (partial). Once the client has written GOAWAY, nothing more happens on the connection: no frame is read, no request, DATA, RST_STREAM, WINDOW_UPDATE, PING reply or second GOAWAY is written, no response or stream
error is reported. Only the GOAWAY itself is reported, requests are refused, and two frames may follow that should not: the acknowledgement of the SETTINGS frame that was the reason, and trailers the application sends. -/
theorem C172_quiet_after_goaway_partial (d : x.D) (e : x.E) (is : List Input) (later earlier : List Ev) (last code : Nat) (h : (run (Conn.init d e) is).log = later ++ .goaway last code :: earlier) :
    ∀ ev ∈ later, (∃ k n, ev = .goawayEvent k n) ∨ (∃ a, ev = .refused a) ∨ ev = .settingsAck ∨ ∃ s b, ev = .trailers s b := by
  have q := (run_ind (I := fun c _ => QuietInv c) (fun _ _ _ _ _ m i => quiet_micro m i) d e ⟨fun ⟨_, _, h⟩ => (by cases h), trivial⟩ is).ok
  intro ev hev
  obtain ⟨l1, l2, hl⟩ := List.append_of_mem hev
  have := always_split (post := l1) (e := ev) (pre := l2 ++ .goaway last code :: earlier) q (by rw [h, hl]; simp)
  have := this ⟨last, code, by simp⟩
  cases ev <;> first | exact absurd this id | simp

end Verif.Clp
