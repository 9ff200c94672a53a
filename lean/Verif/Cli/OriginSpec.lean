import Verif.Cli.Origin
import Verif.Utility.Spec
import Verif.Auth.Spec

/-! Specification of origins, and of what a persistent client may send: independent of the functions of
the model. -/

namespace Verif.Cli

open Verif Verif.Utility Verif.Utility.Spec Verif.Wire

/-- Equal up to the case of ASCII letters. -/
def SameText (a b : Bytes) : Prop := a.map lower = b.map lower

/-- The port a scheme stands for. -/
def DefaultPort (scheme : Bytes) (n : Nat) : Prop :=
  ((SameText scheme b!"http" ∨ SameText scheme b!"ws") ∧ n = 80) ∨
  ((SameText scheme b!"https" ∨ SameText scheme b!"wss") ∧ n = 443)

/-- The port of a URI: the one written (a decimal number up to 65535), or that of the scheme. -/
def PortOf (u : Uri) (n : Nat) : Prop :=
  (u.port = [] ∧ DefaultPort u.scheme n) ∨
  (u.port ≠ [] ∧ Auth.All Auth.isDigit u.port ∧ Auth.decVal u.port = n ∧ n ≤ 65535)

/-- Two URIs have the same origin: scheme, host and port. -/
def SameOrigin (a b : Uri) : Prop :=
  SameText a.scheme b.scheme ∧ SameText a.host b.host ∧ ∃ n, PortOf a n ∧ PortOf b n

/-- The absolute form of the URI of a request without a host. -/
def AbsoluteText (scheme : Bytes) (base u : Uri) : Bytes :=
  scheme ++ b!"://" ++ base.host ++ (if base.port = [] then [] else b!":" ++ base.port) ++
    (if u.path = [] then b!"/" else u.path) ++ (if u.query = [] then [] else b!"?" ++ u.query)

/-- An IPv6 literal between brackets. -/
def Bracketed (h : Bytes) : Prop := ∃ m, h = b!"[" ++ m ++ b!"]"

end Verif.Cli
