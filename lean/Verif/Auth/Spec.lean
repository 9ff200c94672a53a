import Verif.Auth.Model

/-! # Specification of the authentication properties -/

namespace Verif.Auth
open Verif.Utility

/-- ASCII lower case. -/
def low (c : UInt8) : UInt8 := if 65 ≤ c.toNat ∧ c.toNat ≤ 90 then UInt8.ofNat (c.toNat + 32) else c

/-- All octets are of a class. -/
def All (p : UInt8 → Bool) (s : Bytes) : Prop := ∀ c ∈ s, p c = true

/-- The string is not empty and neither its first nor its last octet is of the class. -/
def Trimmed (p : UInt8 → Bool) (s : Bytes) : Prop := ∃ c, s.head? = some c ∧ p c = false ∧ ∃ d, s.getLast? = some d ∧ p d = false

/-- A header value of the form `ws* scheme sep token ws*`: the scheme in any case, a separator of blanks of which the first is in
`sep`, and a token that neither starts nor ends with a blank. -/
def Credentials (ws sep : UInt8 → Bool) (scheme header token : Bytes) : Prop :=
  ∃ (a s : Bytes) (b : UInt8) (bs z : Bytes), header = a ++ s ++ (b :: bs) ++ token ++ z ∧
    All ws a ∧ s.map low = scheme.map low ∧ sep b = true ∧ All ws bs ∧ Trimmed ws token ∧ All ws z

/-- A usable scheme: not empty, not starting with a blank. -/
def SchemeOk (ws : UInt8 → Bool) (scheme : Bytes) : Prop := ∃ c, scheme.head? = some c ∧ ws c = false ∧ ws (low c) = false

/-- The user has the roles the middleware asks for. -/
def Authorised (m : Mw) (u : User) : Prop :=
  m.roles = [] ∨ (m.allRoles = true ∧ ∀ r ∈ m.roles, r ∈ u.roles) ∨ (m.allRoles = false ∧ ∃ r ∈ m.roles, r ∈ u.roles)

/-- The string under a key of an object; empty if there is none. -/
def TextAt (p : List (Bytes × J)) (k v : Bytes) : Prop := member k p = some (.str v) ∨ (v = [] ∧ ∀ t, member k p ≠ some (.str t))

/-- The strings among the values of an array. -/
inductive Names : List J → List Bytes → Prop
  | nil : Names [] []
  | str {s l r} : Names l r → Names (.str s :: l) (s :: r)
  | other {j l r} : (∀ s, j ≠ .str s) → Names l r → Names (j :: l) r

/-- The claims name the user: `sub` is the identifier, `username` the name, one of them not empty; `roles` is an array of roles or a
text of one. -/
def NamedBy (x : Ext) (j : J) (u : User) : Prop :=
  ∃ p, j = .obj p ∧ TextAt p b!"sub" u.id ∧ TextAt p b!"username" u.username ∧ (u.id ≠ [] ∨ u.username ≠ []) ∧ u.metadata = [] ∧
    ((∃ l, (member b!"roles" p = some (.arr l) ∨ ∃ t, member b!"roles" p = some (.str t) ∧ x.parse t = some (.arr l)) ∧ Names l u.roles) ∨
     (u.roles = [] ∧ ∀ l, member b!"roles" p ≠ some (.arr l) ∧ ∀ t, member b!"roles" p = some (.str t) → x.parse t ≠ some (.arr l)))

/-- An earlier middleware established the user: as a user with an identity, or as claims that name one. -/
def Upstream (x : Ext) (c : Ctx) (u : User) : Prop :=
  (c.user = some u ∧ (u.id ≠ [] ∨ u.username ≠ [])) ∨
  ((∀ v, c.user = some v → v.id = [] ∧ v.username = []) ∧ ∃ j, c.jwtPayload = some j ∧ NamedBy x j u)

/-- The request carries a token for the user that the library accepts under the configured algorithm and key (or, with signatures
switched off, any well-formed token). -/
def Presented (x : Ext) (o : Options) (now : Int) (c : Ctx) (u : User) : Prop :=
  ∃ t, Credentials ws6 ws6 o.scheme (c.header o.headerName) t ∧ verifyToken x o now t = some u

/-- The value of a string of decimal digits. -/
def decVal (s : Bytes) : Nat := s.foldl (fun n c => n * 10 + (c.toNat - 48)) 0

/-- A decimal digit. -/
def isDigit (c : UInt8) : Bool := 48 ≤ c && c ≤ 57

/-- A decimal numeral for a 64-bit signed integer, without a plus sign or blanks. -/
def Numeral (s : Bytes) (i : Int) : Prop :=
  -9223372036854775808 ≤ i ∧ i < 9223372036854775808 ∧
  ((s ≠ [] ∧ All isDigit s ∧ i = decVal s) ∨ (∃ d, s = 45 :: d ∧ d ≠ [] ∧ All isDigit d ∧ i = -(decVal d : Int)))

/-- The point in time a claim stands for: a JSON integer or a numeral in a string. -/
def Denotes (c : J) (i : Int) : Prop := c = .num i ∨ ∃ s, c = .str s ∧ Numeral s i

/-- The claims of a token whose signature is not checked satisfy the options: not expired, active, right issuer and audience. -/
def ClaimsOk (o : Options) (now : Int) (p : List (Bytes × J)) : Prop :=
  (o.verifyExp = true → ∀ c, member b!"exp" p = some c → ∃ e, Denotes c e ∧ now ≤ e + o.skew) ∧
  (o.verifyNbf = true → ∀ c, member b!"nbf" p = some c → ∃ n, Denotes c n ∧ n ≤ now + o.skew) ∧
  (o.verifyIss = true → member b!"iss" p = some (.str o.issuer)) ∧
  (o.verifyAud = true → member b!"aud" p = some (.str o.audience) ∨ ∃ l, member b!"aud" p = some (.arr l) ∧ J.str o.audience ∈ l)

/-- JSON integers of a list of claims that an unsigned 64-bit number may hold but a signed one cannot. -/
def TimesSigned (p : List (Bytes × J)) : Prop :=
  ∀ k i, (k = b!"exp" ∨ k = b!"nbf") → member k p = some (.num i) → i < 9223372036854775808

/-- What the library owes a token it made: it verifies, with the claims that were put in; and the JSON texts of the roles and the
metadata parse back. -/
def Faithful (x : Ext) (o : Options) (now later : Int) (u : User) : Prop :=
  x.verify later (generate x o now u) (verifyOptions o) = .ok ((payloadOf o now u).map (fun p => (p.1, flat x p.2))) ∧
  x.parse (x.dump (.arr (u.roles.map J.str))) = some (.arr (u.roles.map J.str)) ∧
  x.parse (x.dump (.obj (u.metadata.map (fun p => (p.1, J.str p.2))))) = some (.obj (u.metadata.map (fun p => (p.1, J.str p.2))))

/-- The registered name of an algorithm. -/
def Alg.name : Alg → Bytes
  | .hs256 => b!"HS256" | .hs384 => b!"HS384" | .hs512 => b!"HS512"
  | .rs256 => b!"RS256" | .rs384 => b!"RS384" | .rs512 => b!"RS512"
  | .es256 => b!"ES256" | .es384 => b!"ES384" | .es512 => b!"ES512" | .eddsa => b!"EdDSA"

/-- The token of a request at the configured place. -/
def TokenAt (o : JwtOptions) (r : Req) (t : Bytes) : Prop :=
  match o.location with
  | .cookie => r.cookie o.tokenName = t ∧ t ≠ []
  | .query => r.query o.tokenName = t ∧ t ≠ []
  | .header => Credentials ws5 (fun c => c == 32) o.scheme (r.header o.tokenName) t

/-- The library accepted the token, with these claims, under the configured algorithm and key and with the configured checks. -/
def Accepted (x : Ext) (o : JwtOptions) (now : Int) (t : Bytes) (m : List (Bytes × Bytes)) : Prop :=
  ∃ v : VerifyOptions, x.verify now t v = .ok m ∧ x.jwtAlg o.algorithm = some v.alg ∧ v.key = o.secret ∧
    v.verifyExp = o.verifyExp ∧ v.verifyNbf = o.verifyNbf ∧ v.skew = o.leeway ∧
    (o.verifyIss = true → v.issuer = some o.issuer) ∧ (o.verifyAud = true → v.audience = some o.audience) ∧ (o.verifySub = true → v.subject = some o.subject) ∧
    (o.verifyIss = false → v.issuer = none) ∧ (o.verifyAud = false → v.audience = none) ∧ (o.verifySub = false → v.subject = none)

/-- Not issued in the future, if that is checked: an `iat` claim is a time at most `leeway` ahead of the clock. -/
def IssuedOk (x : Ext) (o : JwtOptions) (now : Int) (m : List (Bytes × Bytes)) : Prop :=
  o.verifyIat = true → ∀ s, m.lookup b!"iat" = some s → ∃ i, intClaim x (jwtClaim x s) = some i ∧ i ≤ now + o.leeway

/-- A string the JWT middleware does not take for a number or a truth value. -/
def NotScalar (x : Ext) (s : Bytes) : Prop :=
  s ≠ b!"true" ∧ s ≠ b!"false" ∧ x.toInt s = none ∧ ∀ c, s.head? = some c → c ≠ 45 ∧ isDigit c = false

end Verif.Auth
