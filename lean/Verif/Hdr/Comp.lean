import Verif.Hdr.Model
import Verif.Date.Model

/-! # Compressed bodies: `Body::compress`, `Body::uncompress` in `body.cpp`, `middleware/compression.h`

The compression library (`qb::compression`) is not part of the repository. What a provider does on one input is described by its whole output
and by what each call reports; the comments state the contract. -/

namespace Verif.Hdr
open Verif.Utility Verif.Wire Verif.Parse Verif.Mid

/-! ## Compressing -/

/-- A compressor working on one input with `is_last`. `out`: the octets it produces in all. Call `k` fills the room it is given as far as there
is output left, consumes `take k` octets of the input (at most what is left; which ones is up to the library) and reports `done` if all
output is written and there was room to spare; if the room was filled exactly it reports `done` if `eager k`. -/
structure Prov where
  out : Bytes
  take : Nat → Nat := fun _ => 0
  eager : Nat → Bool := fun _ => true

/-- The loop of `Body::compress`, body.cpp 471-479, on a body of `n` octets: `k` the number of the call, `i` = `i_processed`, `o` = `o_processed`,
`size` = `out.size()`. `none` if the calls allowed do not suffice. -/
def compressLoop (n : Nat) (p : Prov) : Nat → Nat → Nat → Nat → Nat → Option Nat
  | fuel, k, i, o, size =>
    if i == n then some o
    else match fuel with
      | 0 => none
      | fuel + 1 =>
        let size := size + (n + 32)
        let w := min (size - o) (p.out.length - o)
        if o + w == p.out.length && (decide (w < size - o) || p.eager k) then some (o + w)
        else compressLoop n p fuel (k + 1) (i + min (p.take k) (n - i)) (o + w) size

/-- What `get_compressor_from_header` returns: a provider, a null pointer, or it throws. -/
inductive Got (α : Type)
  | provider (a : α)
  | null
  | throws

/-- `get_compressor_from_header`, body.cpp 409-445. `make` is `builtin::make_compressor`. -/
def getCompressor (make : Bytes → Option (Bytes → Prov)) (encoding : Bytes) : Got (Bytes → Prov) :=
  let tokens := splitString encoding b!",; \t"
  match tokens.findSome? (fun t => if iequals t b!"chunked" || iequals t b!"identity" then none else make t) with
  | some f => .provider f
  | none =>
    if tokens.any (fun t => iequals t b!"identity") then .null
    else if tokens.all (fun t => t.isEmpty || iequals t b!"chunked" || iequals t b!"identity") then .null
    else .throws

/-- The calls that always suffice. -/
def calls (p : Prov) : Nat := p.out.length + 2

/-- `Body::compress`, body.cpp 459-483: the new body and the size returned; `none` = throws. -/
def compress (make : Bytes → Option (Bytes → Prov)) (body encoding : Bytes) : Option (Bytes × Nat) :=
  if body.isEmpty || encoding.isEmpty then some (body, body.length)
  else match getCompressor make encoding with
    | .throws => none
    | .null => some (body, body.length)
    | .provider f => match compressLoop body.length (f body) (calls (f body)) 0 0 0 0 with
      | some o => some ((f body).out.take o, o)
      | none => none

/-- The response as the middleware sees it. -/
structure CResp where
  status : Nat := 200
  headers : Headers := []
  body : Bytes := []

/-- `content_type().type()`, headers.cpp 457-464 and headers.h 376-411: the first value of the header (the object caches it). -/
def mediaType (h : Headers) : Bytes := match find h b!"Content-Type" with
  | some (v :: _) => (contentType v).1
  | _ => b!"application/octet-stream"

/-- compression.h 478-504. -/
def compressedTypes : List Bytes :=
  [b!"image/jpeg", b!"image/png", b!"image/gif", b!"image/webp", b!"image/jp2", b!"image/jxr", b!"audio/mpeg", b!"audio/ogg", b!"audio/aac",
   b!"audio/opus", b!"audio/flac", b!"video/mp4", b!"video/webm", b!"video/ogg", b!"video/quicktime", b!"application/zip", b!"application/gzip",
   b!"application/x-rar-compressed", b!"application/x-7z-compressed", b!"application/x-bzip2", b!"application/pdf",
   b!"application/vnd.oasis.opendocument.text", b!"application/vnd.openxmlformats-officedocument.wordprocessingml.document"]

/-- `is_precompressed_content_type`, compression.h 476-522. -/
def precompressed (ct : Bytes) : Bool :=
  let m := trimWs (match findChar c!";" ct with | none => ct | some (m, _) => m)
  if m.isEmpty then false else compressedTypes.any (fun t => iequals m t)

/-- `CompressionOptions`, compression.h 50-61. -/
structure COptions where
  minSize : Nat := 1024
  prefs : List Bytes := [b!"gzip", b!"deflate"]

/-- `compress_response_body`, compression.h 318-359, called for a non-empty body (219), with the exceptions of `compress` swallowed (222-229).
`accept` is the `Accept-Encoding` header of the request (368). -/
def compressResponse (make : Bytes → Option (Bytes → Prov)) (o : COptions) (accept : Bytes) (r : CResp) : CResp :=
  if r.body.isEmpty then r
  else if decide (r.body.length < o.minSize) || (find r.headers b!"Content-Encoding").isSome || precompressed (mediaType r.headers) then r
  else
    let e := selectEncoding accept o.prefs
    if e.isEmpty then r
    else match compress make r.body e with
      | none => r
      | some (b, n) =>
        if n > 0 && decide (n < r.body.length) then
          { r with body := b
                   headers := setHeader (push (setHeader r.headers b!"Content-Encoding" e) b!"Vary" b!"Accept-Encoding") b!"Content-Length" (Date.decNat n) }
        else if n > 0 then
          { r with headers := removeHeader (removeHeader r.headers b!"Content-Encoding") b!"Content-Length" }
        else { r with body := b }

/-! ## Decompressing -/

/-- 1.1/protocol/base.h 60. -/
def MAX_BODY_SIZE : Nat := 100 * 1024 * 1024

/-- A decompressor working on one input. `out`: the octets it can produce from it; `complete`: the compressed stream ends within the input.
Call `k` throws if `bad k`, else it fills the room as far as there is output left. With room to spare it reports `done` if the stream is
complete; if the stream is not complete it has then consumed all input. A complete stream that is not `done` has input left (the formats
end with a checksum). -/
structure DProv where
  out : Bytes
  complete : Bool := true
  take : Nat → Nat := fun _ => 0
  eager : Nat → Bool := fun _ => true
  bad : Nat → Bool := fun _ => false

/-- How `Body::uncompress` ends, with the octets allocated. -/
inductive DRes
  | ok (o size : Nat)
  | limit (size : Nat)
  | bad (size : Nat)
  | more
deriving DecidableEq

/-- The loop of `Body::uncompress`, body.cpp 549-562; `more` if the calls allowed do not suffice. -/
def uncompressLoop (n : Nat) (p : DProv) : Nat → Nat → Nat → Nat → Nat → DRes
  | fuel, k, i, o, size =>
    if i == n then .ok o size
    else match fuel with
      | 0 => .more
      | fuel + 1 =>
        let size := size + n * 2
        if p.bad k then .bad size
        else
          let w := min (size - o) (p.out.length - o)
          let spare := decide (w < size - o)
          let done := p.complete && o + w == p.out.length && (spare || p.eager k)
          let i' := if p.complete then i + min (p.take k) (n - i - 1) else if spare then n else i + min (p.take k) (n - i)
          if o + w > MAX_BODY_SIZE then .limit size
          else if done then .ok (o + w) size
          else uncompressLoop n p fuel (k + 1) i' (o + w) size

/-- The loop of `get_decompressor_from_header`, body.cpp 503-519; `left` counts the tokens behind. -/
def decompressorLoop (make : Bytes → Option (Bytes → DProv)) : List Bytes → Option (Bytes → DProv) → Option (Option (Bytes → DProv))
  | [], d => some d
  | t :: ts, d => match make t with
    | some f => if d.isSome then none else decompressorLoop make ts (some f)
    | none => if iequals b!"chunked" t && !ts.isEmpty then none else decompressorLoop make ts d

/-- `get_decompressor_from_header`, body.cpp 498-525; `none` = throws. -/
def getDecompressor (make : Bytes → Option (Bytes → DProv)) (encoding : Bytes) : Option (Bytes → DProv) :=
  (decompressorLoop make (splitString encoding b!", \t") none).join

/-- The kinds of exceptions. -/
inductive Exc
  | runtime | logic
deriving DecidableEq

/-- The calls that always suffice. -/
def dcalls (p : DProv) : Nat := p.out.length + 2

/-- `Body::uncompress`, body.cpp 540-566: the new body. `std::length_error` is a `std::logic_error`; what the library throws is taken as
a `std::runtime_error`. -/
def uncompress (make : Bytes → Option (Bytes → DProv)) (body encoding : Bytes) : Except Exc Bytes :=
  if body.isEmpty || encoding.isEmpty then .ok body
  else match getDecompressor make encoding with
    | none => .error .runtime
    | some f => match uncompressLoop body.length (f body) (dcalls (f body)) 0 0 0 0 with
      | .ok o _ => .ok ((f body).out.take o)
      | .limit _ => .error .logic
      | .bad _ => .error .runtime
      | .more => .error .runtime

/-- The request as the middleware sees it. -/
structure CReq where
  headers : Headers := []
  body : Bytes := []

/-- What the middleware does with the request: passes it on, or answers with a status. -/
inductive DOut
  | pass (r : CReq)
  | answer (status : Nat)

/-- The request side of `process`, compression.h 194-211, with `can_decompress_request` 275-279 and `decompress_request_body` 288-309. -/
def decompressRequest (make : Bytes → Option (Bytes → DProv)) (r : CReq) : DOut :=
  if (find r.headers b!"Content-Encoding").isSome && !(header r.headers b!"Content-Encoding").isEmpty then
    let e := header r.headers b!"Content-Encoding"
    if r.body.isEmpty || e.isEmpty then .pass r
    else match uncompress make r.body e with
      | .error .runtime => .answer 400
      | .error .logic => .answer 500
      | .ok b =>
        let h := removeHeader r.headers b!"Content-Encoding"
        .pass { body := b
                headers := if (find h b!"Content-Length").isSome then setHeader h b!"Content-Length" (Date.decNat b.length) else h }
  else .pass r

end Verif.Hdr
