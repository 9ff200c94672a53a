import Verif.Cap.Model

/-! What the reCAPTCHA middleware promises. -/

namespace Verif.Cap.Spec

open Verif.Valid (Json)

/-- The member `k` of an object. -/
def Has (m : List (Bytes × Json)) (k : Bytes) (v : Json) : Prop := Valid.get m k = some v

def IsNum (v : Json) : Prop := (∃ z, v = .int z) ∨ (∃ n, v = .uint n) ∨ (∃ q, v = .flt q)

/-- The service vouches for the token: it answers 200 with a JSON object whose `success` is the boolean true; a score is there if the challenge is a v3 one; a score that is there is good enough, unless the challenge is a v2 one. -/
def Vouches (x : Ext) (o : Opts) (p : Reply) : Prop :=
  p.status = 200 ∧ ∃ m, x.parse p.body = some (.obj m) ∧ Has m b!"success" (.bool true) ∧
    (o.kind = .v3 → ∃ n, Has m b!"score" n ∧ IsNum n) ∧
    (o.kind ≠ .v2 → ∀ n, Has m b!"score" n → IsNum n → o.minScore ≤ x.toFloat n)

/-- The token of a request is `t`: for a body, the string member of a JSON object, or else the first value of the form field. -/
def Token (x : Ext) (o : Opts) (r : Rq) (t : Bytes) : Prop :=
  match o.loc with
  | .header => t = r.header o.field
  | .query => t = r.query o.field
  | .body => r.body ≠ [] ∧
      ((∃ m, x.parse r.body = some (.obj m) ∧ Has m o.field (.str t)) ∨
       ((∀ m s, x.parse r.body = some (.obj m) → ¬ Has m o.field (.str s)) ∧ ∃ ts, Frm.get (Frm.read x.codec r.body) o.field = t :: ts))

/-- The tasks that were started. -/
def started (c : Context.Ctx) : List (Bool × Nat) := Context.starts c.trace

end Verif.Cap.Spec
