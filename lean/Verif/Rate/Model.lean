import Verif.Base

/-! # The rate limiter

`RateLimitMiddleware` and `RateLimitOptions`, `src/qbm/http/middleware/rate_limit.h`.

Time is `std::chrono::steady_clock` in nanoseconds, as an integer; `qb::duration` (declared outside the
repository) is taken to count nanoseconds.  `process` reads the clock up to three times (line 396 `now`, the
default member initialiser of line 547 when a record is created, line 597 for the headers), so a request
carries three readings.  Arithmetic on time points is exact (no 2^63 wrap).  The counters are `size_t`;
`request_count` never exceeds `max_requests`, so it does not wrap.  `qb::unordered_map` is an association list
with distinct keys (`clients_nodup` in Lemmas). -/

namespace Verif.Rate

/-- `rate_limit_security`, rate_limit.h 45-56. -/
def MAX_TRACKED_CLIENTS : Nat := 100000
def MAX_CLIENT_ID_LENGTH : Nat := 256
def STALE_ENTRY_CLEANUP_INTERVAL : Int := 60000000000
def MEMORY_PRESSURE_NUMERATOR : Nat := 9
def MEMORY_PRESSURE_DENOMINATOR : Nat := 10

/-- `RateLimitOptions`, rate_limit.h 322-328 (the status and the message are constants of the response). -/
structure Options where
  maxRequests : Nat := 100
  window : Int := 60000000000
  trustForwarded : Bool := false

/-- `ClientData`, rate_limit.h 545-549. -/
structure Rec where
  count : Nat
  reset : Int
deriving DecidableEq, Repr

/-- The middleware: `_client_data` and `_next_cleanup_time`, rate_limit.h 576-582. -/
structure St where
  clients : List (Bytes × Rec)
  nextCleanup : Int

/-- Construction at time `t`, rate_limit.h 356-370, 580-582. -/
def St.init (t : Int) : St := ⟨[], t + STALE_ENTRY_CLEANUP_INTERVAL⟩

/-- The clock readings of one call of `process`: rate_limit.h 396, 547 and 597. -/
structure Clock where
  now : Int
  created : Int
  shown : Int

/-- `unordered_map::find`. -/
def find : List (Bytes × Rec) → Bytes → Option Rec
  | [], _ => none
  | (k, r) :: m, c => if k = c then some r else find m c

/-- `unordered_map::operator[]` followed by an assignment to the reference. -/
def put : List (Bytes × Rec) → Bytes → Rec → List (Bytes × Rec)
  | [], c, r => [(c, r)]
  | (k, q) :: m, c, r => if k = c then (k, r) :: m else (k, q) :: put m c r

/-- `unordered_map::erase(key)`. -/
def erase (m : List (Bytes × Rec)) (c : Bytes) : List (Bytes × Rec) := m.filter (fun e => e.1 ≠ c)

/-- `duration_cast<milliseconds>(now - last_reset_time) >= window`, rate_limit.h 436 and 566. -/
def expired (o : Options) (now : Int) (r : Rec) : Bool :=
  decide (o.window ≤ (now - r.reset).tdiv 1000000 * 1000000)

/-- `evict_stale_entries_internal`, rate_limit.h 562-572. -/
def evictStale (o : Options) (now : Int) (m : List (Bytes × Rec)) : List (Bytes × Rec) :=
  m.filter (fun e => !expired o now e.2)

/-- The three headers, rate_limit.h 589-604. -/
structure Headers where
  limit : Nat
  remaining : Nat
  reset : Int
deriving DecidableEq, Repr

/-- `add_rate_limit_headers`, rate_limit.h 589-604. -/
def headers (o : Options) (shown : Int) (r : Rec) : Headers :=
  let left := o.window - (shown - r.reset).tdiv 1000000 * 1000000
  let left := if left < 0 then 0 else left
  { limit := o.maxRequests
    remaining := if o.maxRequests > r.count then o.maxRequests - r.count else 0
    reset := left.tdiv 1000000000 }

/-- What happens to a request: 400 (identifier too long), 503 (too many clients), rejected with the configured
status, or passed on. -/
inductive Verdict
  | badId
  | full
  | limited (h : Headers)
  | allowed (h : Headers)
deriving DecidableEq, Repr

/-- Housekeeping at the start of `process`, rate_limit.h 415-421. -/
def housekeeping (o : Options) (s : St) (now : Int) : St :=
  if now ≥ s.nextCleanup ∨
      s.clients.length * MEMORY_PRESSURE_DENOMINATOR ≥ MAX_TRACKED_CLIENTS * MEMORY_PRESSURE_NUMERATOR then
    { clients := evictStale o now s.clients, nextCleanup := now + STALE_ENTRY_CLEANUP_INTERVAL }
  else s

/-- The record after the window check, rate_limit.h 433-439. -/
def current (o : Options) (t : Clock) (m : List (Bytes × Rec)) (c : Bytes) : Rec :=
  let r := (find m c).getD ⟨0, t.created⟩
  if expired o t.now r then ⟨0, t.now⟩ else r

/-- Counting, rate_limit.h 430-468. -/
def count (o : Options) (s : St) (c : Bytes) (t : Clock) : St × Verdict :=
  if s.clients.length ≥ MAX_TRACKED_CLIENTS ∧ find s.clients c = none then (s, .full)
  else
    let r := current o t s.clients c
    if r.count ≥ o.maxRequests then
      ({ s with clients := put s.clients c r }, .limited (headers o t.shown r))
    else
      let r' := { r with count := r.count + 1 }
      ({ s with clients := put s.clients c r' }, .allowed (headers o t.shown r'))

/-- `process` for a request whose extracted identifier is `c`, rate_limit.h 380-469. -/
def process (o : Options) (s : St) (c : Bytes) (t : Clock) : St × Verdict :=
  if c.length > MAX_CLIENT_ID_LENGTH then (s, .badId)
  else count o (housekeeping o s t.now) (c.take MAX_CLIENT_ID_LENGTH) t

/-- The operations on a middleware: `process`, `reset_all_clients` (488-492), `reset_client` (499-503),
`evict_stale_entries_now` (536-541). -/
inductive Event
  | request (c : Bytes) (t : Clock)
  | resetAll
  | resetClient (c : Bytes)
  | evictNow (t : Int)

/-- One line of the history: who asked, when, and what happened. -/
structure Entry where
  client : Bytes
  time : Clock
  verdict : Verdict

/-- One operation. -/
def step (o : Options) (s : St) : Event → St × List Entry
  | .request c t => ((process o s c t).1, [⟨c, t, (process o s c t).2⟩])
  | .resetAll => ({ s with clients := [] }, [])
  | .resetClient c => ({ s with clients := erase s.clients c }, [])
  | .evictNow t => ({ s with clients := evictStale o t s.clients }, [])

/-- A history: the final state and what happened, in order. -/
def run (o : Options) (s : St) : List Event → St × List Entry
  | [] => (s, [])
  | e :: es =>
    let p := step o s e
    let q := run o p.1 es
    (q.1, p.2 ++ q.2)

/-! ## the client identifier -/

/-- What `extract_client_id` looks at, rate_limit.h 225-319: the custom extractor's answer (`none`: not set,
set for another session type, or it threw), the session (address of the object, and its `ip()` if the session
type has one), and the three forwarding headers (`header()`: the first value, empty if absent). -/
structure Origin where
  custom : Option Bytes := none
  session : Option (Nat × Option Bytes) := none
  cf : Bytes := []
  trueClient : Bytes := []
  xff : Bytes := []

/-- `std::to_string` of the address, rate_limit.h 316. -/
def decimal (n : Nat) : Bytes := (Nat.toDigits 10 n).map (fun ch => UInt8.ofNat ch.toNat)

/-- `s.find_first_not_of(" \t")` then `substr`, rate_limit.h 302-305: left as it is when there is none. -/
def dropBlank (s : Bytes) : Bytes :=
  if s.all (fun b => b == c!" " || b == 9) then s else s.dropWhile (fun b => b == c!" " || b == 9)

/-- The part after the last comma, rate_limit.h 297-300 (`rfind(',')`); everything if there is none. -/
def afterLastComma (s : Bytes) : Bytes := (s.reverse.takeWhile (fun b => b != c!",")).reverse

/-- The forwarding headers, rate_limit.h 261-307. -/
def forwarded (q : Origin) : Bytes :=
  if !q.cf.isEmpty then q.cf
  else if !q.trueClient.isEmpty then q.trueClient
  else if q.xff.contains c!"," then dropBlank (afterLastComma q.xff)
  else q.xff

/-- Lines 313-318. -/
def placeholder (q : Origin) : Bytes :=
  match q.session with
  | some (a, _) => b!"session_placeholder_id:" ++ decimal a
  | none => b!"unknown_client"

/-- Lines 261-318. -/
def fromHeaders (q : Origin) : Bytes :=
  if !(forwarded q).isEmpty then forwarded q else placeholder q

/-- The peer's address, rate_limit.h 250-257: of the session, if its type has `ip()` and it is not empty. -/
def peerIp (q : Origin) : Option Bytes :=
  match q.session with
  | some (_, some ip) => if ip.isEmpty then none else some ip
  | _ => none

/-- `extract_client_id`, rate_limit.h 225-319. -/
def extractClientId (o : Options) (q : Origin) : Bytes :=
  match q.custom with
  | some c => c
  | none =>
    if o.trustForwarded then fromHeaders q
    else match peerIp q with
      | some ip => ip
      | none => fromHeaders q

end Verif.Rate
