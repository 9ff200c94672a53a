import Verif.Srv.SendLemmas
import Verif.Srv.Real

/-! # C88: the server never sends more DATA than the client allowed -/

namespace Verif.Srv
open Verif.Stream

variable {x : Ext}

theorem send_run (d : x.D) (e : x.E) (is : List Input) :
    0 ≤ (run (Conn.init (x := x) d e) is).sendW ∧
    (run (Conn.init (x := x) d e) is).sendW + octets (run (Conn.init (x := x) d e) is).out ≤ 65535 + granted 0 is := by
  induction is using snocInd with
  | h0 => exact ⟨by show (0 : Int) ≤ 65535; omega, by simp [run, Conn.init, octets, granted, INITIAL_WINDOW]⟩
  | hs is i ih =>
    rw [run_snoc]
    obtain ⟨ls, hl, p⟩ := path_step (run (Conn.init (x := x) d e) is) i ((Inv0.init d e).run is)
    have h1 := path_send p ih.1
    have h2 := labConn_step hl
    have h3 := granted_append 0 is [i]
    refine ⟨h1.1, ?_⟩
    rw [h1.2, h3]; omega

/-- **C88 (connection).** Whatever the client and the application do, the octets of DATA the server has written never
exceed the initial 65535 plus everything the client granted by WINDOW_UPDATE on stream 0. -/
theorem C88_connection_window (d : x.D) (e : x.E) (is : List Input) :
    octets (run (Conn.init (x := x) d e) is).out ≤ 65535 + granted 0 is := by
  have := send_run d e is
  omega

/-- **C88 (stream).** On a client stream, the octets of DATA never exceed `W` plus what the client granted by
WINDOW_UPDATE on that stream, where `W` is at least 65535 and every SETTINGS_INITIAL_WINDOW_SIZE the client announced.
Holds while the connection lives, and also after its death if no SETTINGS frame repeats that setting. -/
theorem C88_stream_window_partial (hx : ∀ l, (x.order l).Perm l) (d : x.D) (e : x.E) (is : List Input) {sid W : Nat}
    (ho : sid % 2 = 1) (h0 : 65535 ≤ W) (hw : ∀ w ∈ windows is, w ≤ W)
    (ha : (run (Conn.init (x := x) d e) is).alive = true ∨ ∀ i ∈ is, (windows [i]).length ≤ 1) :
    octetsOn sid (run (Conn.init (x := x) d e) is).out ≤ W + granted sid is := by
  have := (sent_run hx d e is ho h0 hw ha).1.budget.sent
  omega

/-- The stream bound is not the *current* window: a SETTINGS frame that lowers SETTINGS_INITIAL_WINDOW_SIZE skips
streams whose request is complete (server.h 2112), so one octet goes out although the window is 0. -/
theorem C88_lowered_window_refuted :
    ∃ is : List Input, windows is = [0] ∧ granted 1 is = 0 ∧ (∃ pre r, is = pre ++ [.app (.respond 1 r)] ∧
      framesOn 1 (run toy pre).out = [] ∧ windows pre = [0]) ∧ (run toy is).alive = true ∧
      octetsOn 1 (run toy is).out = 1 := by
  refine ⟨[.headers 1 [] true true {}, .settings 0 false [(4, 0)], .app (.respond 1 ⟨200, [], b!"a"⟩)], by decide, by decide,
    ⟨[.headers 1 [] true true {}, .settings 0 false [(4, 0)]], _, rfl, by decide, by decide⟩, by decide, by decide⟩

/-- A non-trivial run: a body of six octets stops at the announced window of three and goes on after WINDOW_UPDATE. -/
example : octets (run toy [.headers 1 [] true true {}, .settings 0 false [(4, 3)], .headers 3 [] false true {},
    .app (.respond 3 ⟨200, [], b!"abcdef"⟩), .windowUpdate 3 2]).out = 5 := by decide

end Verif.Srv
