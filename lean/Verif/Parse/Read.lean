import Verif.Base

/-! Model of the HTTP/1.1 connection reader: `getMessageSize` and `reset` of `1.1/protocol/base.h` 679-846
and the read loop that calls it. llhttp with the callbacks is an abstract streaming engine. The read loop
of qb-io (external) is: append what was read, then while `getMessageSize` finds a message, deliver it and
drop that many octets. Closing the connection is represented by the outcome `dead`. -/

namespace Verif.Parse

/-- Why the engine stopped. -/
inductive Stop | paused | complete | error
deriving DecidableEq

/-- The result of `http_execute`: everything consumed (`HPE_OK`), or stopped at a position. -/
inductive Outcome (σ : Type)
  | ok (s : σ)
  | stop (why : Stop) (pos : Nat) (s : σ)
deriving DecidableEq

/-- llhttp and the callbacks. `exec` is `Parser::parse` (base.h 505-508), `resume` 562-565, `headersDone`
598-601, `hasTE` is `msg.has_header("Transfer-Encoding")`, `needsEof` is `http_message_needs_eof`, `body`
the body assembled by the callbacks. -/
structure Engine (σ : Type) where
  start : σ
  exec : σ → Bytes → Outcome σ
  resume : σ → σ
  headersDone : σ → Bool
  hasTE : σ → Bool
  needsEof : σ → Bool
  contentLength : σ → Nat
  body : σ → Bytes

/-- What the reader is attached to: a server (requests) or a client (responses); `forbidden` is
`http1_response_body_forbidden()`, constant while a message is read. -/
structure Role where
  response : Bool
  forbidden : Bool
deriving DecidableEq

/-- `base`'s members, base.h 627-642. -/
structure R (σ : Type) where
  eng : σ
  bodyOffset : Nat
  headerParsed : Nat
  closeDelimited : Bool

/-- A fresh reader, base.h 841-846 (after a delivered message `body_offset` and `header_parsed` are 0
already and the parser is reset, server.h 92). -/
def R.fresh {σ} (e : Engine σ) : R σ := ⟨e.start, 0, 0, false⟩

/-- The outcome of `getMessageSize`: nothing yet, a message of `size` octets (with the engine that has
parsed it and its body), or a dead connection. -/
inductive Got (σ : Type)
  | wait (r : R σ)
  | message (size : Nat) (s : σ) (body : Bytes)
  | dead

/-- `MAX_BODY_SIZE`. -/
def MAX_BODY : Nat := 100 * 1024 * 1024

/-- The result of parsing a coded body, base.h 758-767. -/
def afterCoded {σ} (e : Engine σ) (r : R σ) (total : Nat) : Outcome σ → Got σ
  | .stop .complete pos s => .message (r.bodyOffset + pos) s (e.body s)
  | .stop _ _ _ => .dead
  | .ok s => .wait { r with eng := s, bodyOffset := total }

/-- `getMessageSize` once the head is complete, base.h 742-802. -/
def afterHead {σ} (e : Engine σ) (role : Role) (r : R σ) (buf : Bytes) : Got σ :=
  if role.response && role.forbidden then .message r.bodyOffset r.eng []
  else if e.hasTE r.eng then
    afterCoded e r buf.length (e.exec (e.resume r.eng) (buf.drop r.bodyOffset))
  else if role.response && e.needsEof r.eng then
    if buf.length - r.bodyOffset > MAX_BODY then .dead
    else .wait { r with closeDelimited := true }
  else if buf.length < r.bodyOffset + e.contentLength r.eng then .wait r
  else .message (r.bodyOffset + e.contentLength r.eng) r.eng ((buf.drop r.bodyOffset).take (e.contentLength r.eng))

/-- The result of parsing the head, base.h 726-739. -/
def afterExec {σ} (e : Engine σ) (role : Role) (r : R σ) (buf : Bytes) : Outcome σ → Got σ
  | .ok s => .wait { r with eng := s, headerParsed := buf.length }
  | .stop _ pos s =>
    if !e.headersDone s then .dead
    else afterHead e role { r with eng := s, bodyOffset := r.headerParsed + pos, headerParsed := 0 } buf

/-- `getMessageSize`, base.h 680-803. -/
def getMessageSize {σ} (e : Engine σ) (role : Role) (r : R σ) (buf : Bytes) : Got σ :=
  if !e.headersDone r.eng then
    if buf.length ≤ r.headerParsed then .wait r
    else afterExec e role r buf (e.exec r.eng (buf.drop r.headerParsed))
  else afterHead e role r buf

/-- `flush_eof`, base.h 814-831, when the peer closes: the message delivered, if any (`ok()` is the absence
of the outcome `dead`). -/
def flushEof {σ} (e : Engine σ) (r : R σ) (buf : Bytes) : Option (σ × Bytes) :=
  if !r.closeDelimited || !e.headersDone r.eng then none
  else some (r.eng, if buf.length > r.bodyOffset then buf.drop r.bodyOffset else [])

/-- The read loop after a read: the messages found, then the reader and what is left in the buffer, or a
dead connection (`none`). -/
inductive Pump {σ} (e : Engine σ) (role : Role) : R σ → Bytes → List (σ × Bytes) → Option (R σ × Bytes) → Prop
  | wait {r r' buf} : getMessageSize e role r buf = .wait r' → Pump e role r buf [] (some (r', buf))
  | dead {r buf} : getMessageSize e role r buf = .dead → Pump e role r buf [] none
  | message {r buf n s b ms fin} : getMessageSize e role r buf = .message n s b →
      Pump e role (R.fresh e) (buf.drop n) ms fin → Pump e role r buf ((s, b) :: ms) fin

/-- A connection: the reads, one after the other, until it dies. -/
inductive Conn {σ} (e : Engine σ) (role : Role) : R σ → Bytes → List Bytes → List (σ × Bytes) → Option (R σ × Bytes) → Prop
  | done {r buf} : Conn e role r buf [] [] (some (r, buf))
  | died {r buf read reads ms} : Pump e role r (buf ++ read) ms none → Conn e role r buf (read :: reads) ms none
  | read {r buf read reads ms r' buf' ms' fin} : Pump e role r (buf ++ read) ms (some (r', buf')) →
      Conn e role r' buf' reads ms' fin → Conn e role r buf (read :: reads) (ms ++ ms') fin

end Verif.Parse
