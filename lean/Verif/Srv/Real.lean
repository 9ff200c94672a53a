import Verif.Srv.Model
import Verif.Hpack.CodecModel

/-! # The server connection with the HPACK codec of area Hpack

`realExt` instantiates the parameters of the server model with the modelled decoder and encoder, so every theorem about
all `Ext` is in particular about this one. -/

namespace Verif.Srv

/-- `_hpack_decoder`, `_hpack_encoder` of server.h 95-96 and their use in 1547-1557, 1148, 674. An incomplete block is a
failure (1552-1557). -/
def realExt (methodKnown : Bytes → Bool) (pathEmpty : Request → Bool) (order : List Nat → List Nat) : Ext where
  D := Hpack.Dec
  E := Hpack.Ring
  decode d b :=
    let r := Hpack.decodeBlock d b
    (if r.1 && !r.2.1 then some (r.2.2.1.map (fun f => (f.name, f.value))) else none, r.2.2.2)
  encode e fs :=
    let r := Hpack.encodeBlock e (fs.map (fun f => { name := f.1, value := f.2 }))
    (if r.1 then some r.2.1 else none, r.2.2)
  encPeerMax := Hpack.encSetPeerMax
  methodKnown := methodKnown
  pathEmpty := pathEmpty
  order := order

/-- A codec for examples: every block is the same head (the block `[0]` has a content-length of zero, the block `[1]` is
a trailer, the block `[2]` is undecodable), and nothing is encoded. -/
def toyExt : Ext where
  D := Unit
  E := Unit
  decode _ b :=
    (if b = [2] then none else if b = [1] then some [(b!"x-sum", b!"1")]
      else some ([(b!":method", b!"GET"), (b!":scheme", b!"https"), (b!":path", b!"/"), (b!":authority", b!"a")] ++
        (if b = [0] then [(b!"content-length", b!"0")] else [])), ())
  encode _ _ := (some [], ())
  encPeerMax e _ := e
  methodKnown _ := true
  pathEmpty _ := false
  order l := l

/-- A fresh connection with the toy codec. -/
def toy : Conn toyExt := Conn.init (x := toyExt) () ()

end Verif.Srv
