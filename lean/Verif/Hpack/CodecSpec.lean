import Verif.Hpack.CodecModel
import Verif.Hpack.TableSpec

/-! # Specification vocabulary for the HPACK codec theorems -/

namespace Verif.Hpack.Spec

/-- A header list as the application sees it. -/
def plain (hs : List HField) : List Field := hs.map fun f => (f.name, f.value)

/-- SETTINGS_MAX_HEADER_LIST_SIZE accounting (RFC 9113 section 6.5.2): sum of name + value + 32. -/
def listSize (hs : List HField) : Nat := (hs.map fun f => f.name.length + f.value.length + 32).sum

/-- A connection direction: one encoder and the decoder it talks to. -/
inductive Event
  /-- the encoder encodes a header list and the decoder decodes the bytes -/
  | block (hs : List HField)
  /-- both ends agree on a new table size (the same 32-bit value) -/
  | resize (m : Nat)

/-- The run of a connection direction: what the decoder delivered for each block (`none` when either end
reported failure), and the two final states. -/
def session (enc : Ring) (dec : Dec) : List Event → List (Option (List Field)) × Ring × Dec
  | [] => ([], enc, dec)
  | .block hs :: es =>
    let e := encodeBlock enc hs
    let d := decodeBlock dec e.2.1
    let r := session e.2.2 d.2.2.2 es
    ((if e.1 && d.1 then some (plain d.2.2.1) else none) :: r.1, r.2)
  | .resize m :: es => session (encSetCapacity enc m) (dec.setTableSize m) es

/-- What the application expects to be delivered. -/
def expected : List Event → List (Option (List Field))
  | [] => []
  | .block hs :: es => some (plain hs) :: expected es
  | .resize _ :: es => expected es

/-- A legal event: valid fields, header list within the decoder's limit, 32-bit sizes. -/
def Event.legal (limit : Nat) : Event → Prop
  | .block hs => (∀ f ∈ hs, f.valid = true) ∧ listSize hs ≤ limit
  | .resize m => m < 2 ^ 32

/-- A field that must not enter a compression table: flagged by the application, sensitive by its name, or
a pseudo header. -/
def Secret (f : HField) : Prop :=
  f.sensitive = true ∨ f.name = b!"authorization" ∨ f.name = b!"cookie" ∨ f.name = b!"proxy-authorization" ∨
  (∃ t, f.name = b!"set-cookie" ++ t) ∨ (∃ t, f.name = b!":" ++ t)

/-- Everything that can happen to an encoder. -/
inductive EncOp
  | encode (hs : List HField)
  | setPeerMax (m : Nat)
  | setCapacity (m : Nat)
  | reset

/-- One operation on an encoder's table. -/
def encStep (r : Ring) : EncOp → Ring
  | .encode hs => (encodeBlock r hs).2.2
  | .setPeerMax m => encSetPeerMax r m
  | .setCapacity m => encSetCapacity r m
  | .reset => r.clear

/-- The fields handed to an encoder during a history. -/
def handed : List EncOp → List HField
  | [] => []
  | .encode hs :: ops => hs ++ handed ops
  | _ :: ops => handed ops

/-- 32-bit parameters. -/
def EncOp.ok : EncOp → Prop
  | .setPeerMax m => m < 2 ^ 32
  | .setCapacity m => m < 2 ^ 32
  | _ => True

end Verif.Hpack.Spec
