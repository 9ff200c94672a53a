import Verif.Mid.Http

/-! # Cross-origin requests

`CorsOptions` and `CorsMiddleware`, `src/qbm/http/middleware/cors.h` and `cors.cpp`.

`std::regex` is external: `Regex` gives, for a pattern, whether it compiles and, for an origin, whether it
matches (`none`: the match throws).  A custom matcher is any function that may throw (`none`). -/

namespace Verif.Cors
open Verif.Utility Verif.Wire Verif.Parse Verif.Mid

/-- `cors_security_limits`, cors.h 48-60. -/
def MAX_ORIGIN_LENGTH : Nat := 2048
def MAX_REGEX_PATTERNS : Nat := 100
def MAX_REGEX_PATTERN_LENGTH : Nat := 1024

/-- `std::regex`, external. -/
structure Regex where
  compiles : Bytes → Bool
  isMatch : Bytes → Bytes → Option Bool

/-- `OriginMatchStrategy`, cors.h 103-107. -/
inductive Strategy
  | exact
  | regex
  | function
deriving DecidableEq

/-- `CorsOptions`, cors.h 294-303; compiled patterns are represented by their text. -/
structure Options where
  origins : List Bytes := []
  methods : List Bytes := [b!"GET", b!"HEAD", b!"POST"]
  headers : List Bytes := []
  expose : List Bytes := []
  credentials : Bool := false
  maxAge : Int := 86400
  strategy : Strategy := .exact
  matcher : Option (Bytes → Option Bool) := none
  patterns : List Bytes := []
  compiled : Bool := false

/-- `origins`, cors.h 126-133. -/
def Options.setOrigins (o : Options) (l : List Bytes) : Options :=
  { o with origins := l, strategy := .exact, compiled := false, matcher := none }

/-- `origin_patterns`, cors.h 140-147. -/
def Options.setPatterns (o : Options) (l : List Bytes) : Options :=
  { o with origins := l, strategy := .regex, compiled := false, matcher := none }

/-- `origin_matcher`, cors.h 155-162 (a null `std::function` is `none`). -/
def Options.setMatcher (o : Options) (f : Option (Bytes → Option Bool)) : Options :=
  { o with matcher := f, strategy := .function, origins := [], compiled := false }

/-- `regex_match_with_timeout`, cors.cpp 18-28. -/
def regexMatch (x : Regex) (origin pattern : Bytes) : Bool :=
  if origin.length > MAX_ORIGIN_LENGTH then false else (x.isMatch pattern origin).getD false

/-- The loop of `ensure_patterns_compiled`, cors.cpp 104-118. -/
def compile (x : Regex) : List Bytes → List Bytes
  | [] => []
  | p :: ps =>
    if p.length > MAX_REGEX_PATTERN_LENGTH then compile x ps
    else if x.compiles p then p :: compile x ps
    else compile x ps

/-- `ensure_patterns_compiled`, cors.cpp 96-121. -/
def ensureCompiled (x : Regex) (o : Options) : Options :=
  if !o.compiled && o.strategy == .regex then
    { o with patterns := compile x (o.origins.take MAX_REGEX_PATTERNS), compiled := true }
  else o

/-- `is_origin_allowed`, cors.cpp 59-94: the answer, and the options with their (mutable) cache. -/
def isOriginAllowed (x : Regex) (o : Options) (origin : Bytes) : Bool × Options :=
  if origin.isEmpty then (false, o)
  else if origin.length > MAX_ORIGIN_LENGTH then (false, o)
  else match o.strategy with
    | .exact => (if o.origins.contains b!"*" then true else o.origins.contains origin, o)
    | .regex =>
      let o' := ensureCompiled x o
      (o'.patterns.any (regexMatch x origin), o')
    | .function =>
      match o.matcher with
      | none => (false, o)
      | some f => ((f origin).getD false, o)

/-- `should_allow_all_origins_via_wildcard`, cors.h 257-261. -/
def wildcard (o : Options) : Bool := o.strategy == .exact && o.origins.contains b!"*"

/-- The request, as far as the middleware looks at it (cors.h 359, 413-414, 433: `header` is the first value,
empty if absent). -/
structure Request where
  isOptions : Bool
  headers : Headers

/-- The response. -/
structure Response where
  status : Nat
  body : Bytes
  headers : Headers

/-- How the middleware completes, cors.h: CONTINUE (the request goes on) or COMPLETE (it is answered). -/
inductive Outcome
  | goOn
  | answered
deriving DecidableEq

/-- `std::to_string(int)`. -/
def decimal (n : Int) : Bytes :=
  let digits (k : Nat) : Bytes := (Nat.toDigits 10 k).map (fun ch => UInt8.ofNat ch.toNat)
  if n < 0 then c!"-" :: digits n.natAbs else digits n.natAbs

/-- The header fields granted, cors.h 369-405. -/
def grant (o : Options) (origin : Bytes) (allowed : Bool) (r : Response) : Response :=
  let h := r.headers
  let h := if allowed then
      let v := if wildcard o && !o.credentials then b!"*" else origin
      let h := setHeader h b!"Access-Control-Allow-Origin" v
      if o.credentials then setHeader h b!"Access-Control-Allow-Credentials" b!"true" else h
    else h
  { r with headers := push h b!"Vary" b!"Origin" }

/-- The requested header names that are configured, cors.h 437-448. -/
def approved (o : Options) (requested : Bytes) : List Bytes :=
  if o.headers.isEmpty then []
  else (splitAndTrim requested c!",").filter (fun q => o.headers.any (fun c => iequals q c))

/-- `Access-Control-Allow-Headers`, cors.h 433-459. -/
def allowHeaders (o : Options) (requested : Bytes) (h : Headers) : Headers :=
  if !requested.isEmpty then
    if !(approved o requested).isEmpty then
      push (setHeader h b!"Access-Control-Allow-Headers" (join (approved o requested) b!", ")) b!"Vary" b!"Access-Control-Request-Headers"
    else setHeader h b!"Access-Control-Allow-Headers" []
  else if !o.headers.isEmpty then setHeader h b!"Access-Control-Allow-Headers" (join o.headers b!", ")
  else h

/-- The answer to a preflight, cors.h 415-466. -/
def preflight (o : Options) (q : Request) (r : Response) : Response :=
  let h := push r.headers b!"Vary" b!"Access-Control-Request-Method"
  if !o.methods.any (fun c => iequals c (header q.headers b!"Access-Control-Request-Method")) then
    { status := 403, body := [], headers := h }
  else
    let h := setHeader h b!"Access-Control-Allow-Methods" (join o.methods b!", ")
    let h := allowHeaders o (header q.headers b!"Access-Control-Request-Headers") h
    let h := setHeader h b!"Access-Control-Max-Age" (decimal o.maxAge)
    { status := 204, body := [], headers := h }

/-- `process`, cors.h 357-477. -/
def process (x : Regex) (o : Options) (q : Request) (r : Response) : Options × Response × Outcome :=
  let origin := header q.headers b!"Origin"
  if origin.isEmpty then (o, r, .goOn)
  else
    let (allowed, o) := isOriginAllowed x o origin
    let r := grant o origin allowed r
    if !allowed then (o, r, .goOn)
    else if q.isOptions && !(header q.headers b!"Access-Control-Request-Method").isEmpty then (o, preflight o q r, .answered)
    else if !o.expose.isEmpty then
      (o, { r with headers := setHeader r.headers b!"Access-Control-Expose-Headers" (join o.expose b!", ") }, .goOn)
    else (o, r, .goOn)

/-- `permissive`, cors.cpp 30-47. -/
def permissive : Options :=
  { ({} : Options).setOrigins [b!"*"] with
    methods := [b!"GET", b!"POST", b!"PUT", b!"DELETE", b!"PATCH", b!"HEAD", b!"OPTIONS"]
    headers := [b!"Accept", b!"Accept-Language", b!"Content-Language", b!"Content-Type", b!"Authorization", b!"X-Requested-With", b!"Origin",
      b!"DNT", b!"User-Agent", b!"X-Forwarded-For", b!"If-Modified-Since", b!"Cache-Control", b!"Range"]
    credentials := false
    expose := [b!"Content-Length", b!"X-Request-Id", b!"X-Response-Time"] }

/-- `secure`, cors.cpp 49-57. -/
def secure (l : List Bytes) : Options :=
  { ({} : Options).setOrigins l with
    methods := [b!"GET", b!"POST", b!"OPTIONS"]
    headers := [b!"Content-Type", b!"Authorization"]
    credentials := false
    maxAge := 3600 }

end Verif.Cors
