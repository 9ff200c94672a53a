import Verif.Sec.Model

/-! What a configuration of the security headers promises. -/

namespace Verif.Sec.Spec

/-- Configuration `o` promises the header `name: v`, for a request with this scheme while the context holds this nonce. -/
inductive Promises (o : Opts) (scheme : Bytes) (nonce : Option Bytes) : Bytes → Bytes → Prop
  | hsts {v} : o.hsts = some v → scheme = b!"https" → Promises o scheme nonce b!"Strict-Transport-Security" v
  | nosniff : o.nosniff = true → Promises o scheme nonce b!"X-Content-Type-Options" b!"nosniff"
  | frame {v} : o.frame = some v → Promises o scheme nonce b!"X-Frame-Options" v
  | csp {v} : o.csp = some v → (o.nonceOn = true → nonce.isSome) → Promises o scheme nonce b!"Content-Security-Policy" v
  | cspNonce {n} : o.csp = none → o.nonceOn = true → nonce = some n → Promises o scheme nonce b!"Content-Security-Policy" (defaultCsp n)
  | cspReport {v} : o.cspReport = some v → Promises o scheme nonce b!"Content-Security-Policy-Report-Only" v
  | referrer {v} : o.referrer = some v → Promises o scheme nonce b!"Referrer-Policy" v
  | permissions {v} : o.permissions = some v → Promises o scheme nonce b!"Permissions-Policy" v
  | coop {v} : o.coop = some v → Promises o scheme nonce b!"Cross-Origin-Opener-Policy" v
  | coep {v} : o.coep = some v → Promises o scheme nonce b!"Cross-Origin-Embedder-Policy" v
  | corp {v} : o.corp = some v → Promises o scheme nonce b!"Cross-Origin-Resource-Policy" v
  | crossDomain {v} : o.crossDomain = some v → Promises o scheme nonce b!"X-Permitted-Cross-Domain-Policies" v

/-- A hook leaves the header `n` alone. -/
def Leaves (n : Bytes) (f : S → S) : Prop := ∀ s, Wire.find (f s).headers n = Wire.find s.headers n

/-- User code does not touch the scheme of the request nor the nonce. -/
def Keeps (f : S → S) : Prop := ∀ s, (f s).scheme = s.scheme ∧ nonceOf (f s) = nonceOf s

/-- The hooks that some operations register. -/
def hooksOf : List Op → List (S → S)
  | [] => []
  | .act _ :: ops => hooksOf ops
  | .hook f :: ops => f :: hooksOf ops
  | .sec o _ :: ops => secHook o :: hooksOf ops

end Verif.Sec.Spec
