import Verif.Hdr.Comp
import Verif.Hdr.SpecNeg
import Verif.Wire.Spec

/-! # Specification of the compression properties -/

namespace Verif.Hdr
open Verif.Utility Verif.Utility.Spec Verif.Wire

/-- A name without the separators of a list. -/
def Token (e : Bytes) : Prop := e ≠ [] ∧ ∀ c ∈ e, c ∉ b!",; \t"

/-- The client decodes what a compressor of the library produces; compressing never yields nothing. -/
def Decodable (make : Bytes → Option (Bytes → Prov)) (dec : Bytes → Bytes → Option Bytes) : Prop :=
  ∀ e f b, make e = some f → dec e (f b).out = some b ∧ (f b).out ≠ []

/-- The values of a header, compared without case. -/
def valuesOf (h : Headers) (n : Bytes) : Option (List Bytes) := find h n

/-- The three headers compression may touch. -/
def Touched (n : Bytes) : Prop := SameName n b!"Content-Encoding" ∨ SameName n b!"Vary" ∨ SameName n b!"Content-Length"

/-- The response is left as it was, except that `Content-Length` may be dropped (it is written anew when the response is sent). -/
def Kept (r r' : CResp) : Prop :=
  r'.status = r.status ∧ r'.body = r.body ∧ (∀ n, ¬ SameName n b!"Content-Length" → valuesOf r'.headers n = valuesOf r.headers n) ∧
  (valuesOf r'.headers b!"Content-Length" = valuesOf r.headers b!"Content-Length" ∨ valuesOf r'.headers b!"Content-Length" = none)

/-- The response is sent in the coding `e`. -/
def Coded (dec : Bytes → Bytes → Option Bytes) (e : Bytes) (r r' : CResp) : Prop :=
  r'.status = r.status ∧ dec e r'.body = some r.body ∧ r'.body.length < r.body.length ∧
  valuesOf r'.headers b!"Content-Encoding" = some [e] ∧
  (∃ vs, valuesOf r'.headers b!"Vary" = some (vs ++ [b!"Accept-Encoding"]) ∧ (valuesOf r.headers b!"Vary").getD [] = vs) ∧
  (∃ t, valuesOf r'.headers b!"Content-Length" = some [t] ∧ Spec.Decimal t r'.body.length) ∧
  (∀ n, ¬ Touched n → valuesOf r'.headers n = valuesOf r.headers n)

end Verif.Hdr
