import Verif.Clp.TheoremsProgress
import Verif.Clp.TheoremsRecv
import Verif.Clp.TheoremsFields

/-! Concrete histories of the HTTP/2 client connection: the theorems C165-C172 speak of them, and what the partial ones exclude does happen. -/

namespace Verif.Clp

/-- A toy HPACK: the first octet says which fields there are. No request is sent in a callback. -/
def toy : Ext where
  D := Unit
  E := Unit
  decode := fun _ b => (match b with
    | [0x88] => some [(b!":status", b!"200")]
    | [0x89] => some [(b!":status", b!"200"), (b!"content-length", b!"3")]
    | [0x8a] => some [(b!":status", b!"200"), (b!"trailer", b!"x")]
    | [0x8b] => some [(b!"x", b!"1")]
    | _ => none, ())
  encode := fun _ _ => (some [1], ())
  encPeerMax := fun _ _ => ()
  order := id
  react := fun _ => []

def go (is : List Input) : Conn toy := run (Conn.init () ()) is

def get1 : Req := { app := 7, method := b!"GET", host := b!"h" }
def post (n : Nat) : Req := { app := 8, method := b!"POST", host := b!"h", body := List.replicate n 65 }
def postT (n : Nat) : Req := { post n with headers := [(b!"trailer", [b!"x"]), (b!"x", [b!"1"])] }

/-- C165: the window of a stream is set to 4 octets, so a body of 6 goes out in two frames, the second after WINDOW_UPDATE. -/
example : (go [.frame (.settings false [(4, 4)]), .send (post 6), .frame (.windowUpdate 1 9)]).log =
    [.data 1 b!"AA" true, .rx (.windowUpdate 1 9), .data 1 b!"AAAA" false, .request 1 (post 6) [1] false, .settingsAck, .rx (.settings false [(4, 4)])] := by decide +kernel

example : (bodyOn 1 [.rx (.windowUpdate 1 9), .data 1 b!"AAAA" false, .request 1 (post 6) [1] false, .settingsAck, .rx (.settings false [(4, 4)])]).length + 2 ≤ 4 + 9 := by decide

/-- C166: the limit of one stream; the second request is refused, and sent when the first is done. -/
example : (go [.frame (.settings false [(3, 1)]), .send get1, .send get1, .frame (.headers 1 [0x88] true true), .send get1]).log =
    [.request 3 get1 [1] true, .response 1 7 { status := 200 } 0, .rx (.headers 1 [0x88] true true), .refused 7, .request 1 get1 [1] true, .settingsAck, .rx (.settings false [(3, 1)])] := by decide +kernel

/-- C167, C168: a response with a body, and one that is shorter than it says. -/
example : (go [.send get1, .frame (.headers 1 [0x89] false true), .frame (.data 1 b!"ab" 0 false), .frame (.data 1 b!"c" 0 true)]).log.head? =
    some (.response 1 7 { status := 200, headers := [(b!"content-length", [b!"3"])], body := b!"abc" } 0) := by decide +kernel
example : (go [.send get1, .frame (.headers 1 [0x89] false true), .frame (.data 1 b!"ab" 0 true)]).log.take 2 = [.streamError 1 1, .rst 1 1] := by decide +kernel
example : (go [.send get1, .frame (.rst 1 8)]).log = [.streamError 1 8, .rx (.rst 1 8), .request 1 get1 [1] true] := by decide +kernel

/-- The hypotheses of C167_head_ends. -/
example : let c := go [.send get1]; Ev.request 1 get1 [1] true ∈ c.log ∧ (∀ a ∈ c.log, a.outcome 1 = false ∧ a.endedBy 1 = false ∧ a.disowns 1 = false) ∧ c.ok = true := by decide +kernel
example : (receive (go [.send get1]) (.headers 1 [0x88] true true)).log.head? = some (.response 1 7 { status := 200 } 0) := by decide +kernel
/-- The hypotheses of C167_data_ends. -/
example : let c := go [.send get1, .frame (.headers 1 [0x88] false true)]; (∃ s ∈ (c.get 1), s.main = true ∧ s.trailersExp = false) ∧ ∀ a ∈ c.log, a.outcome 1 = false := by decide +kernel

/-! ### C174 -/

/-- C174. While the connection is up, a request that was sent is not lost without a reason the server gave: it has an outcome, or its stream was not reset by either side, or the server ended the stream, or disowned it by GOAWAY. -/
theorem C174_reason_partial {x : Ext} (d : x.D) (e : x.E) (is : List Input) (sid : Nat) (q : Req) (b : Bytes) (f : Bool) (later earlier : List Ev) (h : (run (Conn.init d e) is).log = later ++ .request sid q b f :: earlier)
    (hok : (run (Conn.init d e) is).ok = true) :
    Told sid (run (Conn.init d e) is).log ∨ (∀ a ∈ later, a.resets sid = false) ∨ Ended sid (run (Conn.init d e) is).log ∨ Swept sid (run (Conn.init d e) is).log := by
  by_cases hr : ∀ a ∈ later, a.resets sid = false
  · exact .inr (.inl hr)
  · simp only [Classical.not_forall] at hr
    obtain ⟨a, ha, hn⟩ := hr
    have hq : Ev.request sid q b f ∈ (run (Conn.init d e) is).log := by rw [h]; simp
    have out : (∃ a ∈ (run (Conn.init d e) is).log, a.outcome sid = true) ∨ Ended sid (run (Conn.init d e) is).log ∨ Swept sid (run (Conn.init d e) is).log := by
      obtain ⟨l1, l2, hl⟩ := List.append_of_mem ha
      cases a <;> simp only [Ev.resets, Bool.not_eq_false, not_true_eq_false, beq_iff_eq] at hn
      case rx i =>
        cases i <;> simp only [Bool.not_eq_false, not_true_eq_false, beq_iff_eq, Bool.false_eq_true] at hn
        subst hn
        exact C167_reset_reported d e is _ _ q b f (by rw [h]; exact List.mem_append_left _ ha) hq hok
      case rst j code =>
        subst hn
        exact C167_cut_reported d e is l1 (l2 ++ .request j q b f :: earlier) j code q b f (by rw [h, hl]; simp) (by simp)
    rcases out with o | o | o
    · exact .inl o
    · exact .inr (.inr (.inl o))
    · exact .inr (.inr (.inr o))

/-- C174 fails: a response that is ended by DATA before its HEADERS is never reported, though the connection stays up. -/
theorem C174_end_before_head_partial : let c := go [.send get1, .frame (.data 1 b!"ab" 0 true), .frame (.headers 1 [0x88] false true)]; Ev.request 1 get1 [1] true ∈ c.log ∧ (∀ a ∈ c.log, a.outcome 1 = false) ∧ c.ok = true ∧ c.get 1 = none := by decide +kernel
/-- C174 fails: so is one that is ended by DATA without the trailers it announced. -/
theorem C174_no_trailers_partial : let c := go [.send get1, .frame (.headers 1 [0x8a] false true), .frame (.data 1 b!"ab" 0 true)]; Ev.request 1 get1 [1] true ∈ c.log ∧ (∀ a ∈ c.log, a.outcome 1 = false) ∧ c.ok = true ∧ c.get 1 = none := by decide +kernel
/-- C174 fails: so is a request that a GOAWAY of the server disowns, if it had no HEADERS: only the GOAWAY itself is reported. -/
theorem C174_disowned_partial : let c := go [.send get1, .send get1, .frame (.goaway 1 0)]; Ev.request 3 get1 [1] true ∈ c.log ∧ (∀ a ∈ c.log, a.outcome 3 = false) ∧ c.ok = true ∧ c.get 3 = none := by decide +kernel

/-- C169: trailers the request announced, sent by the application before its body is complete: DATA follows END_STREAM. -/
example : (go [.frame (.settings false [(4, 1)]), .send (postT 2), .trailers 1 [(b!"x", [b!"1"])], .frame (.windowUpdate 1 1)]).log.take 3 =
    [.data 1 b!"A" false, .rx (.windowUpdate 1 1), .trailers 1 [1]] := by decide +kernel
/-- Trailers the request announced are not sent on their own when the body goes out at once: the request is never ended. -/
example : (go [.send (postT 2)]).log = [.data 1 b!"AA" false, .request 1 (postT 2) [1] false] := by decide +kernel
/-- They are when the body had to wait. -/
example : (go [.frame (.settings false [(4, 1)]), .send (postT 2), .frame (.windowUpdate 1 1)]).log.take 2 = [.trailers 1 [1], .data 1 b!"A" false] := by decide +kernel

/-- C170: half of the window came, so as much is given back, on the stream and on the connection; and the hypotheses of C170_honoured. -/
example : (go [.send get1, .frame (.headers 1 [0x88] false true), .frame (.data 1 (List.replicate 3 65) 32764 false)]).log.take 2 = [.windowUpdate 0 32767, .windowUpdate 1 32767] := by decide +kernel
example : let c := go [.send get1, .frame (.headers 1 [0x89] false true), .frame (.data 1 b!"a" 9 false)]; c.ok = true ∧ c.need = 0 ∧ ∃ s ∈ (c.get 1), s.state = .halfClosedLocal ∧ s.rstRecv = false ∧ s.resp.body = b!"a" ∧ s.cl = some 3 := by decide +kernel
example : (receive (go [.send get1, .frame (.headers 1 [0x89] false true), .frame (.data 1 b!"a" 9 false)]) (.data 1 b!"bc" 0 false)).log.length = 4 := by decide +kernel

/-- C171: two replies; and with the counter at its limit the next PING closes the connection. -/
example : repliesSince (go [.frame (.settings false []), .frame (.ping false [1])]).log = 2 := by decide +kernel
example : (reply ({ go [] with ctl := 1000 } : Conn toy) (.pong [])).log = [.goawayEvent 11 0, .goaway 0 11] := by decide +kernel

/-- C172: a SETTINGS frame makes a window too large: GOAWAY, and after it the acknowledgement. -/
example : (go [.send get1, .frame (.windowUpdate 1 2147418112), .frame (.settings false [(4, 65536)])]).log.take 3 = [.settingsAck, .goawayEvent 3 1, .goaway 1 3] := by decide +kernel
/-- And trailers. -/
example : (go [.frame (.settings false [(4, 1)]), .send (postT 2), .frame .pushPromise, .trailers 1 [(b!"x", [b!"1"])]]).log.take 3 = [.trailers 1 [1], .goawayEvent 1 1, .goaway 1 1] := by decide +kernel

/-- A zero increment on a stream that was never opened makes the client write RST_STREAM on it. -/
example : (go [.frame (.windowUpdate 5 0)]).log = [.rst 5 1, .rx (.windowUpdate 5 0)] := by decide +kernel
/-- DATA on the way when the client reset the stream closes the connection. -/
example : (go [.send get1, .frame (.headers 1 [0x89] false true), .frame (.data 1 b!"abcd" 0 false), .frame (.data 1 b!"e" 0 false)]).log.take 5 =
    [.goawayEvent 1 0, .goaway 0 1, .rx (.data 1 b!"e" 0 false), .streamError 1 1, .rst 1 1] := by decide +kernel

end Verif.Clp
