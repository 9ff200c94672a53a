import Verif.Ws.Model
import Verif.Ws.Spec

/-! Specification of a WebSocket receiver at the level of frames (RFC 6455 §5.4, §5.5, §7): which
effects a sequence of legal frames must have. The only things shared with the model are the type `Ev`
of observable effects, `Msg` and the configuration record. -/

namespace Verif.Ws.Spec

/-- Receiver state: between messages, inside a fragmented message, or closed. -/
inductive RState
  | idle
  | inMsg (op : Nat) (acc : Bytes)
  | closed
deriving DecidableEq, Repr

/-- A Close payload: empty, or a sendable status code followed by a UTF-8 reason. -/
def ClosePayload (d : Bytes) : Prop :=
  d = [] ∨ ∃ a b reason, d = a :: b :: reason ∧ SendableCode (a.toNat * 256 + b.toNat) ∧ Utf8 reason

/-- The configured limit (0 = none) allows a message of `n` octets. -/
def WithinLimit (cfg : Cfg) (n : Nat) : Prop := cfg.maxPayload = 0 ∨ n ≤ cfg.maxPayload

open Classical in
/-- A data fragment added to the message `op`/`acc`. -/
noncomputable def addFragment (cfg : Cfg) (op : Nat) (acc : Bytes) (f : Frame) : Sum Nat (List Ev × RState) :=
  if ¬ WithinLimit cfg (acc.length + f.payload.length) then .inl 1009
  else if f.fin = false then .inr ([], .inMsg op (acc ++ f.payload))
  else if op = 1 ∧ ¬ Utf8 (acc ++ f.payload) then .inl 1007
  else .inr ([Ev.message (UInt8.ofNat (128 + op)) (acc ++ f.payload)], .idle)

open Classical in
/-- What a receiver must do with a legal frame: `inl code` = fail the connection with that status. -/
noncomputable def recv (cfg : Cfg) (s : RState) (f : Frame) : Sum Nat (List Ev × RState) :=
  match s with
  | .closed => .inr ([], .closed)
  | .idle =>
    if f.op = 8 then
      if f.payload.length = 1 then .inl 1002
      else if ClosePayload f.payload then .inr ([closeEv cfg f.payload], .closed)
      else .inl (closeErr f.payload)
    else if f.op = 9 then .inr ([Ev.ping f.payload, Ev.send ⟨138, !cfg.server, f.payload⟩], .idle)
    else if f.op = 10 then .inr ([Ev.pong f.payload], .idle)
    else if f.op = 0 then .inl 1002
    else addFragment cfg f.op [] f
  | .inMsg op acc =>
    if f.op = 8 then
      if f.payload.length = 1 then .inl 1002
      else if ClosePayload f.payload then .inr ([closeEv cfg f.payload], .closed)
      else .inl (closeErr f.payload)
    else if f.op = 9 then .inr ([Ev.ping f.payload, Ev.send ⟨138, !cfg.server, f.payload⟩], .inMsg op acc)
    else if f.op = 10 then .inr ([Ev.pong f.payload], .inMsg op acc)
    else if f.op = 0 then addFragment cfg op acc f
    else .inl 1002
where
  /-- the application is told, or the Close is echoed -/
  closeEv (cfg : Cfg) (d : Bytes) : Ev := if cfg.hasClose then .close d else .send ⟨136, !cfg.server, d⟩
  /-- 1007 for a bad reason, 1002 for a bad code -/
  closeErr (d : Bytes) : Nat :=
    match d with
    | a :: b :: _ => if SendableCode (a.toNat * 256 + b.toNat) then 1007 else 1002
    | _ => 1002

/-- Running a sequence of frames without a violation. -/
inductive RunsTo (cfg : Cfg) : RState → List Frame → List Ev → RState → Prop
  | nil {s} : RunsTo cfg s [] [] s
  | cons {s f fs evs s' evs' s''} : s ≠ .closed → recv cfg s f = .inr (evs, s') →
      RunsTo cfg s' fs evs' s'' → RunsTo cfg s (f :: fs) (evs ++ evs') s''

/-- The effects of failing the connection: one well-formed Close frame with that status code and a
UTF-8 reason, masked iff we are the client, and the error notification. -/
def Failure (cfg : Cfg) (code : Nat) (evs : List Ev) : Prop :=
  ∃ reason : Bytes, evs = [Ev.send ⟨136, !cfg.server, UInt8.ofNat (code / 256) :: UInt8.ofNat (code % 256) :: reason⟩,
    Ev.error] ∧ Utf8 reason ∧ reason.length ≤ 123 ∧ SendableCode code

/-! ### Byte streams -/

/-- A frame with the masking key it was sent with. -/
abbrev Item := Option (Fin 4 → UInt8) × Frame

/-- The octets of a sequence of frames. -/
def wires (items : List Item) : Bytes := items.flatMap fun i => wire i.1 i.2

/-- The payload of a single frame is within the limit (control frames are exempt). -/
def HdrFits (cfg : Cfg) (f : Frame) : Prop :=
  8 ≤ f.op ∨ cfg.maxPayload = 0 ∨ f.payload.length ≤ cfg.maxPayload

/-- The frame is legal, masked as the receiver's role demands, and of acceptable size. -/
def Good (cfg : Cfg) (i : Item) : Prop := i.2.Legal ∧ i.1.isSome = cfg.server ∧ HdrFits cfg i.2

/-- Not a whole frame yet: a proper prefix of an acceptable frame, or too short to hold the longest
header (without mask). -/
def Incomplete (cfg : Cfg) (buf : Bytes) : Prop :=
  buf.length < 10 ∨ ∃ key f, f.Legal ∧ key.isSome = cfg.server ∧ HdrFits cfg f ∧
    buf <+: wire key f ∧ buf.length < (wire key f).length

/-- How reading a byte string ends: `s` is the receiver state after the accepted frames, `rest` the
octets behind them, `ok` whether the connection still lives, `tail` the last effects. -/
inductive End (cfg : Cfg) (s : RState) (rest : Bytes) (ok : Bool) (tail : List Ev) : Prop
  /-- waiting for the rest of a frame: no acceptable frame is complete -/
  | wait : ok = true → tail = [] → s ≠ .closed → Incomplete cfg rest →
      (∀ (y : Bytes) (i : Item), Good cfg i → rest ≠ wire i.1 i.2 ++ y) → End cfg s rest ok tail
  /-- a Close frame was received -/
  | closed : ok = false → tail = [] → s = .closed → End cfg s rest ok tail
  /-- the next frame is legal, but not acceptable now -/
  | violation (code : Nat) (i : Item) (rest' : Bytes) : ok = false → Failure cfg code tail → s ≠ .closed →
      rest = wire i.1 i.2 ++ rest' → Good cfg i → recv cfg s i.2 = .inl code → End cfg s rest ok tail
  /-- no legal frame can begin like this (1002), or only one above the size limit (1009) -/
  | illegal (code : Nat) : ok = false → Failure cfg code tail → s ≠ .closed → (code = 1002 ∨ code = 1009) →
      (∀ (x y : Bytes) (i : Item), rest ++ x = wire i.1 i.2 ++ y → i.2.Legal → i.1.isSome = cfg.server →
        ¬ HdrFits cfg i.2 ∧ code = 1009) → End cfg s rest ok tail

/-- The effects of a ping or pong. -/
def controlEffects (cfg : Cfg) (f : Frame) : List Ev :=
  if f.op = 9 then [Ev.ping f.payload, Ev.send ⟨138, !cfg.server, f.payload⟩] else [Ev.pong f.payload]

end Verif.Ws.Spec
