import Verif.Mid.Http
import Verif.Auth.Model
import Verif.Cli.Batch

/-! Model of the origin comparison (`origin.cpp`), of the `Host` header of a URI (`1.1/http.cpp`) and
of the preparation of a request by the persistent clients (`1.1/client.cpp` 328-364,
`2/client.cpp` 136-169, `3/client.cpp` 87-118).

A URI is the record of the parts the code reads. The parser of URIs (`qb::io::uri`) is not part of the
repository: it is an argument of the model, any function. -/

namespace Verif.Cli

open Verif Verif.Utility Verif.Wire Verif.Parse

/-- The parts of a `qb::io::uri` that are read. -/
structure Uri where
  scheme : Bytes
  host : Bytes
  port : Bytes
  path : Bytes
  query : Bytes
  deriving DecidableEq, Repr

/-- The loop of `scheme_eq` and `host_eq`. -/
def eqLoop : Bytes → Bytes → Bool
  | a :: l, b :: r => if asciiToLower a != asciiToLower b then false else eqLoop l r
  | _, _ => true

/-- `scheme_eq`, origin.cpp 18-28. -/
def schemeEq (l r : Bytes) : Bool := if l.length != r.length then false else eqLoop l r

/-- `host_eq`, origin.cpp 31-41. -/
def hostEq (l r : Bytes) : Bool := if l.length != r.length then false else eqLoop l r

/-- `effective_port`, origin.cpp 44-58. -/
def effectivePort (u : Uri) : Bytes :=
  if !u.port.isEmpty then u.port
  else if schemeEq u.scheme b!"http" || schemeEq u.scheme b!"ws" then b!"80"
  else if schemeEq u.scheme b!"https" || schemeEq u.scheme b!"wss" then b!"443"
  else []

/-- `effective_port_number`, origin.cpp 61-75: `std::from_chars` of a `uint32_t` reads decimal digits and
reports numbers that do not fit; the rest of the text is refused. -/
def effectivePortNumber (u : Uri) : Option Nat :=
  let port := effectivePort u
  if port.isEmpty then none
  else match Auth.digits port 0 with
    | none => none
    | some v => if v ≥ 4294967296 || v > 65535 then none else some v

/-- `same`, origin.cpp 78-85. -/
def same (l r : Uri) : Bool :=
  let lp := effectivePortNumber l
  let rp := effectivePortNumber r
  schemeEq l.scheme r.scheme && hostEq l.host r.host && lp.isSome && rp.isSome && lp == rp

/-- `host_header_value`, 1.1/http.cpp 39-60 (`scheme_eq_ignore_case` is `scheme_eq`: 27-37, in the C
locale). -/
def hostHeaderValue (u : Uri) : Bytes :=
  let h := u.host
  let bracketed := decide (2 ≤ h.length) && h.head? == some 91 && h.getLast? == some 93
  let h := if !bracketed && h.contains 58 then [91] ++ h ++ [93] else h
  if u.port.isEmpty then h
  else
    let is80 := schemeEq u.scheme b!"http" && u.port == b!"80"
    let is443 := schemeEq u.scheme b!"https" && u.port == b!"443"
    if !is80 && !is443 then h ++ [58] ++ u.port else h

/-- A request, as far as preparation is concerned. -/
structure Rq where
  uri : Uri
  headers : Headers
  deriving DecidableEq, Repr

/-- `ensure_absolute_uri`: 1.1/client.cpp 328-343, 2/client.cpp 137-154, 3/client.cpp 87-102. -/
def ensureAbsolute (k : Kind) (parse : Bytes → Uri) (base : Uri) (r : Rq) : Rq :=
  if !r.uri.host.isEmpty then r
  else
    let scheme := match k with | .h1 => base.scheme | .h2 => base.scheme | .h3 => b!"https"
    let a := scheme ++ b!"://" ++ base.host
    let a := if !base.port.isEmpty then a ++ [58] ++ base.port else a
    let a := a ++ (if r.uri.path.isEmpty then b!"/" else r.uri.path)
    let a := if !r.uri.query.isEmpty then a ++ [63] ++ r.uri.query else a
    { r with uri := parse a }

/-- `if (!request.has_header(name)) request.set_header(name, value)`. -/
def addIfAbsent (h : Headers) (name value : Bytes) : Headers :=
  if (find h name).isSome then h else setHeader h name value

/-- Why a request is refused (all with 400 BAD_REQUEST). -/
inductive Refusal where
  | noHost | notHttps | otherOrigin
  deriving DecidableEq, Repr

/-- `prepare_request`: 1.1/client.cpp 346-364, 2/client.cpp 157-170, 3/client.cpp 105-118. `ua` and `ae` are
`default_user_agent` and `accept_encoding()`; `_host` of the HTTP/1.1 client is the `Host` value of the
base URI (1.1/client.cpp 237-238). -/
def prepareRequest (k : Kind) (parse : Bytes → Uri) (ua ae : Bytes) (base : Uri) (r : Rq) : Except Refusal Rq :=
  let r := ensureAbsolute k parse base r
  if r.uri.host.isEmpty then .error .noHost
  else match k with
    | .h1 =>
      if !same r.uri base then .error .otherOrigin
      else
        let h := addIfAbsent r.headers b!"Host" (hostHeaderValue base)
        let h := addIfAbsent h b!"User-Agent" ua
        let h := addIfAbsent h b!"Accept-Encoding" ae
        .ok { r with headers := h }
    | _ =>
      if !schemeEq r.uri.scheme b!"https" then .error .notHttps
      else if !same r.uri base then .error .otherOrigin
      else .ok r

end Verif.Cli
