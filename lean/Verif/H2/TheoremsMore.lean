import Verif.H2.Theorems

/-! Further framing theorems (C23, C24, C26, C43, C44), added after seeding wrong programs. -/

namespace Verif.H2
open Verif

/-! ## C44: the header fields -/

theorem or_add (a b k : Nat) (hb : b < 2 ^ k) : (a * 2 ^ k) ||| b = a * 2 ^ k + b := by
  rw [Nat.mul_comm, Nat.two_pow_add_eq_or_of_lt hb]

theorem or3 (b c d : Nat) (hc : c < 2 ^ 8) (hd : d < 2 ^ 8) :
    b * 2 ^ 16 ||| c * 2 ^ 8 ||| d = b * 2 ^ 16 + c * 2 ^ 8 + d := by
  rw [or_add b (c * 2 ^ 8) 16 (by omega),
    show b * 2 ^ 16 + c * 2 ^ 8 = (b * 2 ^ 8 + c) * 2 ^ 8 by omega, or_add _ d 8 hd]

theorem or4 (a b c d : Nat) (hb : b < 2 ^ 8) (hc : c < 2 ^ 8) (hd : d < 2 ^ 8) :
    a * 2 ^ 24 ||| b * 2 ^ 16 ||| c * 2 ^ 8 ||| d = a * 2 ^ 24 + b * 2 ^ 16 + c * 2 ^ 8 + d := by
  rw [or_add a (b * 2 ^ 16) 24 (by omega),
    show a * 2 ^ 24 + b * 2 ^ 16 = (a * 2 ^ 8 + b) * 2 ^ 16 by omega, or3 _ c d hc hd]

/-- C44. The stream of a received frame is the 31-bit big-endian number in octets 5..8 of its
header: the reserved top bit is ignored. Its length is the 24-bit big-endian number in octets
0..2. -/
theorem C44_header_fields (hdr : FrameHeader) :
    hdr.streamId.toNat = hdr.s0.toNat % 128 * 2 ^ 24 + hdr.s1.toNat * 2 ^ 16 + hdr.s2.toNat * 2 ^ 8 + hdr.s3.toNat ∧
    hdr.payloadLength.toNat = hdr.l0.toNat * 2 ^ 16 + hdr.l1.toNat * 2 ^ 8 + hdr.l2.toNat := by
  have b0 := hdr.s0.toNat_lt
  have b1 := hdr.s1.toNat_lt
  have b2 := hdr.s2.toNat_lt
  have b3 := hdr.s3.toNat_lt
  have c0 := hdr.l0.toNat_lt
  have c1 := hdr.l1.toNat_lt
  have c2 := hdr.l2.toNat_lt
  have m : hdr.s0.toNat &&& 127 = hdr.s0.toNat % 128 := Nat.and_two_pow_sub_one_eq_mod _ 7
  constructor
  · unfold FrameHeader.streamId
    simp only [UInt32.toNat_or, UInt32.toNat_shiftLeft, UInt8.toNat_toUInt32, UInt8.toNat_and,
      UInt8.reduceToNat, UInt32.reduceToNat, Nat.shiftLeft_eq, Nat.reduceMod]
    rw [m]
    have hx : hdr.s0.toNat % 128 < 128 := Nat.mod_lt _ (by omega)
    generalize hdr.s0.toNat % 128 = x at hx
    rw [Nat.mod_eq_of_lt (a := x * 2 ^ 24) (by omega), Nat.mod_eq_of_lt (a := hdr.s1.toNat * 2 ^ 16) (by omega),
      Nat.mod_eq_of_lt (a := hdr.s2.toNat * 2 ^ 8) (by omega), or4 _ _ _ _ b1 b2 b3]
  · unfold FrameHeader.payloadLength
    simp only [UInt32.toNat_or, UInt32.toNat_shiftLeft, UInt8.toNat_toUInt32,
      UInt32.reduceToNat, Nat.shiftLeft_eq, Nat.reduceMod]
    rw [Nat.mod_eq_of_lt (a := hdr.l0.toNat * 2 ^ 16) (by omega),
      Nat.mod_eq_of_lt (a := hdr.l1.toNat * 2 ^ 8) (by omega), or3 _ _ _ c1 c2]

example : (FrameHeader.ofBytes [0, 1, 2, 0, 0, 0x80, 0, 1, 3]).streamId = 259 ∧
    (FrameHeader.ofBytes [0, 1, 2, 0, 0, 0x80, 0, 1, 3]).payloadLength = 258 := by decide

/-! ## C43: the preface is the one of RFC 9113 -/

/-- C43. The exact octets of the RFC 9113 connection preface are accepted: the side protocol is
told, the connection stays alive, and the octets behind the preface are read as frames. -/
theorem C43_preface_accepted (h : Handler) (setting : UInt32) (rest : Bytes)
    (hh : h [.prefaceComplete] = none) :
    ∃ g : Framer, AtBoundary g ∧ g.log = [.prefaceComplete] ∧ g.ourMax = (Framer.init setting).ourMax ∧
      Framer.read h (Framer.init setting, []) (b!"PRI * HTTP/2.0\r\n\r\nSM\r\n\r\n" ++ rest) =
        Framer.pump h g rest := by
  refine ⟨{ Framer.init setting with state := .header, prefaceBuf := PREFACE, log := [.prefaceComplete] },
    ⟨rfl, rfl, rfl⟩, rfl, rfl, ?_⟩
  unfold Framer.read
  simp only [List.nil_append]
  generalize hp : b!"PRI * HTTP/2.0\r\n\r\nSM\r\n\r\n" = p
  have hpp : p = PREFACE := by rw [← hp]; decide +kernel
  have hl : p.length = 24 := by rw [← hp]; decide +kernel
  have e : (Framer.init setting).messageSize (p ++ rest) = 24 := by
    unfold Framer.messageSize Framer.init
    have : PREFACE.length = 24 := by rw [← hpp]; exact hl
    simp [this, hl]
  rw [pump_go (by rw [e]; decide), e, List.take_append_of_le_length (by omega),
    List.drop_append_of_le_length (by omega), List.take_of_length_le (by omega),
    List.drop_eq_nil_of_le (by omega), List.nil_append]
  congr 1
  unfold Framer.onMessage Framer.onPreface Framer.init
  simp only [List.nil_append]
  rw [if_pos (by rw [hpp]), if_pos hpp]
  unfold Framer.on
  simp only [List.nil_append, hh]
  rw [hpp]

example : keepAlive [.prefaceComplete] = none := rfl

/-! ## C26, C44: frames without payload -/

theorem layout_nil (hdr : FrameHeader) (pl : Payload) : Layout hdr [] pl ↔
    (hdr.type = 0 ∧ hasFlag hdr.flags FLAG_PADDED = false ∧ pl = .data [] 0) ∨
    (hdr.type = 1 ∧ hasFlag hdr.flags FLAG_PADDED = false ∧ hasFlag hdr.flags FLAG_PRIORITY = false
      ∧ pl = .headers [] none) ∨
    (hdr.type = 4 ∧ hasFlag hdr.flags FLAG_ACK = false ∧ pl = .settings []) ∨
    (hdr.type = 9 ∧ pl = .continuation []) := by
  constructor
  · intro hL
    generalize hp : ([] : Bytes) = p at hL
    cases hL with
    | data d h1 h2 => subst hp; exact .inl ⟨h1, h2, rfl⟩
    | headers d h1 h2 h3 => subst hp; exact .inr (.inl ⟨h1, h2, h3, rfl⟩)
    | settings es h1 h2 =>
      refine .inr (.inr (.inl ⟨h1, h2, ?_⟩))
      cases es with
      | nil => rfl
      | cons a b => simp [be16] at hp
    | continuation d h1 => subst hp; exact .inr (.inr (.inr ⟨h1, rfl⟩))
    | ping o h1 h2 => subst hp; simp at h2
    | _ => simp_all [be32]
  · rintro (⟨h1, h2, rfl⟩ | ⟨h1, h2, h3, rfl⟩ | ⟨h1, h2, rfl⟩ | ⟨h1, rfl⟩)
    · exact .data [] h1 h2
    · exact .headers [] h1 h2 h3
    · exact .settings [] h1 h2
    · exact .continuation [] h1

/-- What RFC 9113 makes of a frame whose length field is 0: the layout of an empty payload, or an
acknowledgement of settings. -/
def EmptyMeans (hdr : FrameHeader) (pl : Payload) : Prop :=
  Layout hdr [] pl ∨ (hdr.type = 4 ∧ hasFlag hdr.flags FLAG_ACK = true ∧ pl = .settings [])

/-- C44/C26, frames without payload. With the exception of PADDED (or PRIORITY) DATA/HEADERS
(`C26_empty_padded_accepted`), a known frame of length 0 is delivered as what it means, and it is
delivered only then. -/
theorem C44_empty_received_exactly (h : Handler) (f : Framer) (hb : AtBoundary f) (hdr : FrameHeader)
    (hl : hdr.payloadLength.toNat = 0)
    (h0 : hdr.type = 4 ∨ hdr.type = 6 ∨ hdr.type = 7 → hdr.streamId = 0)
    (hpad : hdr.type = 0 ∨ hdr.type = 1 → hasFlag hdr.flags FLAG_PADDED = false)
    (hpri : hdr.type = 1 → hasFlag hdr.flags FLAG_PRIORITY = false) (pl : Payload) :
    (Framer.read h (f, []) hdr.bytes).1.log = f.log ++ [.frame ⟨hdr, pl⟩] ↔ EmptyMeans hdr pl := by
  have hacc : Accepts f hdr := ⟨by rw [hb.closed]; simp, h0, by omega⟩
  have e := pump_frame_zero (h := h) hb.state hb.ok hacc hl []
  rw [List.append_nil, pump_nil] at e
  unfold Framer.read
  simp only [List.nil_append, e]
  have hok : (f.withHeader hdr).ok = true := hb.ok
  have key : parseZero hdr = .ok (some pl) ↔ EmptyMeans hdr pl := by
    unfold EmptyMeans
    rw [layout_nil]
    unfold parseZero T_SETTINGS T_PING T_HEADERS T_DATA T_PRIORITY T_RST_STREAM T_GOAWAY T_WINDOW_UPDATE
      T_PUSH_PROMISE T_CONTINUATION
    repeat' split
    all_goals simp_all
    all_goals first
      | (constructor
         · intro hh
           subst hh
           cases hasFlag hdr.flags FLAG_ACK <;> simp
         · rintro (⟨_, rfl⟩ | ⟨_, rfl⟩) <;> rfl)
      | (constructor <;> intro hh <;> exact hh.symm)
      | skip
    all_goals (try (rename_i g; rcases g with ((g | g) | g) | g <;> rw [g] <;> simp))
  rcases hpar : parseZero hdr with c | _ | pl'
  · rw [dispatchZero_err hok hpar, ← key, hpar]
    simp [Framer.report, Framer.notOk, Framer.withHeader]
  · rw [dispatchZero_none hok hpar, ← key, hpar]
    simp [Framer.withHeader]
  · rw [dispatchZero_some hok hpar, ← key, hpar, on_log]
    simp [Framer.withHeader]

/-- C26, frames without payload: a known frame of length 0 that means nothing (an empty PRIORITY,
RST_STREAM, PUSH_PROMISE, PING, GOAWAY or WINDOW_UPDATE) is not delivered and closes the
connection. -/
theorem C26_empty_malformed_rejected (h : Handler) (f : Framer) (hb : AtBoundary f) (hdr : FrameHeader)
    (hl : hdr.payloadLength.toNat = 0)
    (ht : hdr.type = 2 ∨ hdr.type = 3 ∨ hdr.type = 5 ∨ hdr.type = 6 ∨ hdr.type = 7 ∨ hdr.type = 8) :
    (Framer.read h (f, []) hdr.bytes).1.ok = false ∧
    delivered (Framer.read h (f, []) hdr.bytes).1.log = delivered f.log ∧
    ∀ pl, ¬ EmptyMeans hdr pl := by
  refine ⟨?_, ?_, ?_⟩
  rotate_right
  · intro pl hm
    unfold EmptyMeans at hm
    rw [layout_nil] at hm
    rcases ht with ht | ht | ht | ht | ht | ht <;> simp [ht] at hm
  all_goals
    have e := pump_header (h := h) hb.state hdr []
    rw [List.append_nil, pump_nil] at e
    unfold Framer.read
    simp only [List.nil_append, e]
    by_cases hacc : Accepts f hdr
    · rw [onHeader_accept hb.ok hacc, if_pos hl]
      have hok : (f.withHeader hdr).ok = true := hb.ok
      have hpar : parseZero hdr = .error E_FRAME_SIZE_ERROR := by
        rcases ht with ht | ht | ht | ht | ht | ht <;>
          simp [parseZero, ht, T_SETTINGS, T_PING, T_HEADERS, T_DATA, T_PRIORITY, T_RST_STREAM,
            T_GOAWAY, T_WINDOW_UPDATE, T_PUSH_PROMISE]
      rw [dispatchZero_err hok hpar]
      simp [Framer.report, Framer.notOk, Framer.withHeader, delivered]
    · first
        | exact (onHeader_reject hacc).1
        | exact (onHeader_reject hacc).2

/-- C26. SETTINGS, PING and GOAWAY on a stream other than 0 close the connection, whatever their
payload, and nothing is delivered. -/
theorem C26_connection_frames_on_stream_zero (h : Handler) (f : Framer) (hb : AtBoundary f)
    (hdr : FrameHeader) (ht : hdr.type = 4 ∨ hdr.type = 6 ∨ hdr.type = 7) (hs : hdr.streamId ≠ 0) :
    (Framer.read h (f, []) hdr.bytes).1.ok = false ∧
    delivered (Framer.read h (f, []) hdr.bytes).1.log = delivered f.log := by
  have hna : ¬ Accepts f hdr := fun ha => hs (ha.2.1 ht)
  have e := pump_header (h := h) hb.state hdr []
  rw [List.append_nil, pump_nil] at e
  unfold Framer.read
  simp only [List.nil_append, e]
  exact onHeader_reject hna

example : (FrameHeader.ofBytes [0, 0, 8, 6, 0, 0, 0, 0, 1]).streamId ≠ 0 := by decide

/-! ## C24: the limit the peer advertised -/

/-- C24. The limit remembered for the peer is a legal one, and it is the advertised one when that
is legal. -/
theorem C24_peer_limit (advertised : UInt32) :
    (clampPeerMax advertised).toNat = max 16384 (min advertised.toNat 16777215) := by
  unfold clampPeerMax
  have e1 : DEFAULT_MAX_FRAME_SIZE.toNat = 16384 := rfl
  have e2 : MAX_FRAME_SIZE_LIMIT.toNat = 16777215 := rfl
  have mn : ∀ a b : UInt32, (min a b).toNat = min a.toNat b.toNat := by
    intro a b
    have : min a b = if a ≤ b then a else b := rfl
    rw [this]
    split
    · rename_i g; rw [UInt32.le_iff_toNat_le] at g; omega
    · rename_i g; rw [UInt32.le_iff_toNat_le] at g; omega
  have mx : ∀ a b : UInt32, (max a b).toNat = max a.toNat b.toNat := by
    intro a b
    have : max a b = if a ≤ b then b else a := rfl
    rw [this]
    split
    · rename_i g; rw [UInt32.le_iff_toNat_le] at g; omega
    · rename_i g; rw [UInt32.le_iff_toNat_le] at g; omega
  rw [mx, mn, e1, e2]

/-- C24. After the peer advertised a legal SETTINGS_MAX_FRAME_SIZE, no fragment written exceeds
it. -/
theorem C24_within_advertised (sid : UInt32) (flags : Byte) (advertised : UInt32) (blk : Bytes)
    (h1 : 16384 ≤ advertised.toNat) (h2 : advertised.toNat ≤ 16777215) :
    ∀ x ∈ sendHeaders sid flags (clampPeerMax advertised) blk, x.fragment.length ≤ advertised.toNat := by
  have := C24_peer_limit advertised
  intro x hx
  have g := C24_fragment_size sid flags (clampPeerMax advertised) (by omega) blk x hx
  omega

end Verif.H2
