import Verif.Srv.OutLemmas
import Verif.Srv.Real

/-! # C89: GOAWAY -/

namespace Verif.Srv
open Verif.Stream

variable {x : Ext}

/-- **C89 (once).** At most one GOAWAY is ever sent. -/
theorem C89_one_goaway (d : x.D) (e : x.E) (is : List Input) : goaways (run (Conn.init (x := x) d e) is).out ≤ 1 :=
  ((Bye.init d e).run is).one

/-- **C89 (last stream).** A request handed to the application at any time, before or after the GOAWAY, is on a client
stream whose number is at most the last stream number the GOAWAY names: a client may retry every higher stream. -/
theorem C89_last_stream (d : x.D) (e : x.E) (is : List Input) {last code sid : Nat} {r : Request}
    (hg : Out.goaway last code ∈ (run (Conn.init (x := x) d e) is).out)
    (hr : Out.request sid r ∈ (run (Conn.init (x := x) d e) is).out) : sid ≤ last ∧ sid % 2 = 1 := by
  have h := (Bye.init d e).run is
  rw [(h.last _ _ hg).1]
  exact h.req _ _ hr

/-- **C89 (silence).** Once a GOAWAY has been sent no further request is handed to the application. -/
theorem C89_no_request_after (d : x.D) (e : x.E) (pre post : List Input) {last code : Nat}
    (hg : Out.goaway last code ∈ (run (Conn.init (x := x) d e) pre).out) :
    requests (run (Conn.init (x := x) d e) (pre ++ post)).out = requests (run (Conn.init (x := x) d e) pre).out := by
  have h := (Bye.init d e).run pre
  have ha : (run (Conn.init (x := x) d e) pre).alive = false := by
    unfold Conn.alive; rw [(h.last _ _ hg).2, Bool.and_false]
  rw [run_append]
  exact (run_dead h.inv ha post).2

/-- A request, then a protocol violation, then another request: one GOAWAY naming stream 1, one request. -/
example : (run toy [.headers 1 [] true true {}, .data 0 [] 0 false {}, .headers 3 [] true true {}, .data 0 [] 0 false {}]).out =
    [.request 1 { method := b!"GET", scheme := b!"https", authority := b!"a", path := b!"/" },
     .goaway 1 PROTOCOL_ERROR, .goawayEvent PROTOCOL_ERROR 1] := by decide

end Verif.Srv
