import Verif.Mid.Http

/-! The security headers middleware: `src/qbm/http/middleware/security_headers.h` 53-215 (options), 296-372 (`process` and its hook), `security_headers.cpp` 36-48; how hooks are kept and run: `routing/context.h` 195-207, 625-630, 640-642; when: `routing/router.h` 347-353.

Handlers and other hooks are user code: arbitrary functions on what the middleware looks at. A hook that throws is stopped there (context.h 199-204): what it did until then is the function. Not modelled: hooks that add hooks while hooks run. -/

namespace Verif.Sec

open Verif.Wire (Headers)
open Verif.Parse (setHeader)

/-- `SecurityHeadersOptions`, security_headers.h 53-65. -/
structure Opts where
  hsts : Option Bytes := none
  nosniff : Bool := false
  frame : Option Bytes := none
  csp : Option Bytes := none
  cspReport : Option Bytes := none
  referrer : Option Bytes := none
  permissions : Option Bytes := none
  coop : Option Bytes := none
  coep : Option Bytes := none
  corp : Option Bytes := none
  crossDomain : Option Bytes := none
  nonceOn : Bool := false

/-- `secure_defaults`, security_headers.cpp 36-48. -/
def secureDefaults : Opts where
  hsts := some b!"max-age=31536000; includeSubDomains"
  nosniff := true
  frame := some b!"SAMEORIGIN"
  csp := some b!"default-src 'self';object-src 'none';frame-ancestors 'self';base-uri 'self';form-action 'self';"
  referrer := some b!"strict-origin-when-cross-origin"
  coop := some b!"same-origin"
  crossDomain := some b!"none"

/-- A value of the data of a context, a `std::any`: a `std::string` or something else. -/
inductive Val
  | text (s : Bytes)
  | other (tag : Nat)
deriving DecidableEq

/-- What the hook looks at and changes: the scheme of the URI of the request, the headers of the response, the data of the context. -/
structure S where
  scheme : Bytes := []
  headers : Headers := []
  data : Bytes → Option Val := fun _ => none

/-- `ctx.get<std::string>("csp_nonce")`, security_headers.h 322. -/
def nonceOf (s : S) : Option Bytes :=
  match s.data b!"csp_nonce" with
  | some (.text n) => some n
  | _ => none

/-- The policy for a nonce, security_headers.h 327-333. -/
def defaultCsp (nonce : Bytes) : Bytes :=
  b!"default-src 'self'; script-src 'self' 'nonce-" ++ nonce ++ b!"' 'strict-dynamic'; style-src 'self' 'nonce-" ++ nonce ++
    b!"'; object-src 'none'; base-uri 'self'; form-action 'self';"

/-- `if (value) set_header(name, *value)`. -/
def setOpt (name : Bytes) (v : Option Bytes) (h : Headers) : Headers :=
  match v with
  | some x => setHeader h name x
  | none => h

/-- What happens to the policy, security_headers.h 320-341. -/
def cspStep (o : Opts) (s : S) (h : Headers) : Headers :=
  if o.nonceOn then
    match nonceOf s with
    | some n => match o.csp with
      | none => setHeader h b!"Content-Security-Policy" (defaultCsp n)
      | some v => setHeader h b!"Content-Security-Policy" v
    | none => h
  else setOpt b!"Content-Security-Policy" o.csp h

/-- The hook at `PRE_RESPONSE_SEND`, security_headers.h 308-367. -/
def secHook (o : Opts) (s : S) : S :=
  let h := s.headers
  let h := if s.scheme = b!"https" then setOpt b!"Strict-Transport-Security" o.hsts h else h
  let h := if o.nosniff then setHeader h b!"X-Content-Type-Options" b!"nosniff" else h
  let h := setOpt b!"X-Frame-Options" o.frame h
  let h := cspStep o s h
  let h := setOpt b!"Content-Security-Policy-Report-Only" o.cspReport h
  let h := setOpt b!"Referrer-Policy" o.referrer h
  let h := setOpt b!"Permissions-Policy" o.permissions h
  let h := setOpt b!"Cross-Origin-Opener-Policy" o.coop h
  let h := setOpt b!"Cross-Origin-Embedder-Policy" o.coep h
  let h := setOpt b!"Cross-Origin-Resource-Policy" o.corp h
  let h := setOpt b!"X-Permitted-Cross-Domain-Policies" o.crossDomain h
  { s with headers := h }

/-- A request being handled: what it holds, and `_lifecycle_hooks`. -/
structure T where
  s : S := {}
  hooks : List (S → S) := []

inductive Op
  /-- a handler does something to the request, the response or the data -/
  | act (f : S → S)
  /-- `add_lifecycle_hook`, as it acts at `PRE_RESPONSE_SEND` -/
  | hook (f : S → S)
  /-- `process` of a security headers middleware; `nonce`: what `generate_random_nonce` returned -/
  | sec (o : Opts) (nonce : Bytes)

/-- `process`, security_headers.h 296-371, and the others. -/
def op (t : T) : Op → T
  | .act f => { t with s := f t.s }
  | .hook f => { t with hooks := t.hooks ++ [f] }
  | .sec o nonce =>
    let s := if o.nonceOn then { t.s with data := fun k => if k = b!"csp_nonce" then some (.text nonce) else t.s.data k } else t.s
    { s := s, hooks := t.hooks ++ [secHook o] }

def run (t : T) (ops : List Op) : T := ops.foldl op t

/-- `execute_hook_internal`, context.h 195-207. -/
def runHooks (hs : List (S → S)) (s : S) : S := hs.foldl (fun s f => f s) s

/-- The response as it is sent: all hooks, in the order of registration, router.h 352. -/
def send (t : T) : S := runHooks t.hooks t.s

end Verif.Sec
