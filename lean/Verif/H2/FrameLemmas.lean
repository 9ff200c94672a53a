import Verif.H2.FrameSpec
import Mathlib.Tactic.IntervalCases

namespace Verif.H2
open Verif

/-! ## Bit-level facts -/

theorem u32_ext {a b : UInt32} (h : ∀ i, i < 32 → a.toBitVec.getLsbD i = b.toBitVec.getLsbD i) :
    a = b := UInt32.eq_of_toBitVec_eq (BitVec.eq_of_getLsbD_eq h)

theorem u8_ext {a b : UInt8} (h : ∀ i, i < 8 → a.toBitVec.getLsbD i = b.toBitVec.getLsbD i) :
    a = b := UInt8.eq_of_toBitVec_eq (BitVec.eq_of_getLsbD_eq h)

theorem u16_ext {a b : UInt16} (h : ∀ i, i < 16 → a.toBitVec.getLsbD i = b.toBitVec.getLsbD i) :
    a = b := UInt16.eq_of_toBitVec_eq (BitVec.eq_of_getLsbD_eq h)

theorem extract32_encode32 (v : UInt32) (r : Bytes) : extract32 (encode32 v ++ r) = v := by
  apply u32_ext
  intro i hi
  simp [extract32, encode32, -UInt32.toUInt32_toUInt8]
  interval_cases i <;> simp

theorem extract32_encode32' (v : UInt32) : extract32 (encode32 v) = v := by
  simpa using extract32_encode32 v []

theorem extract31_encode32 (v : UInt32) (r : Bytes) :
    extract31 (encode32 v ++ r) = v &&& 0x7fffffff := by
  apply u32_ext
  intro i hi
  simp [extract31, encode32, -UInt32.toUInt32_toUInt8]
  interval_cases i <;> simp

theorem extract31_encode32' (v : UInt32) : extract31 (encode32 v) = v &&& 0x7fffffff := by
  simpa using extract31_encode32 v []

theorem extract16_encode16 (v : UInt16) : extract16 (encode16 v) = v := by
  apply u16_ext
  intro i hi
  simp [extract16, encode16, -UInt16.toUInt16_toUInt8]
  interval_cases i <;> simp

theorem encode32_extract32 (a b c d : UInt8) : encode32 (extract32 [a, b, c, d]) = [a, b, c, d] := by
  simp only [encode32, extract32, List.cons.injEq, and_true]
  refine ⟨?_, ?_, ?_, ?_⟩ <;>
  · apply u8_ext
    intro i hi
    interval_cases i <;> simp

theorem encode16_extract16 (a b : UInt8) : encode16 (extract16 [a, b]) = [a, b] := by
  simp only [encode16, extract16, List.cons.injEq, and_true]
  refine ⟨?_, ?_⟩ <;>
  · apply u8_ext
    intro i hi
    interval_cases i <;> simp

theorem and31 (v : UInt32) (h : v.toNat < 2 ^ 31) : v &&& 0x7fffffff = v := by
  apply UInt32.toNat_inj.1
  have : (0x7fffffff : UInt32).toNat = 2^31 - 1 := rfl
  rw [UInt32.toNat_and, this, Nat.and_two_pow_sub_one_eq_mod]
  exact Nat.mod_eq_of_lt h

theorem and31_idem (v : UInt32) : (v &&& 0x7fffffff) &&& 0x7fffffff = v &&& 0x7fffffff := by
  rw [UInt32.and_assoc]; rfl

theorem and31_lt (v : UInt32) : (v &&& 0x7fffffff).toNat < 2 ^ 31 := by
  have : (0x7fffffff : UInt32).toNat = 2^31 - 1 := rfl
  rw [UInt32.toNat_and, this, Nat.and_two_pow_sub_one_eq_mod]
  exact Nat.mod_lt _ (by decide)

theorem topbit (w : UInt32) : (((w >>> 31) &&& 1) != 0) = decide (w.toNat ≥ 2 ^ 31) := by
  have h1 : ((w >>> 31) &&& 1).toNat = w.toNat / 2 ^ 31 := by
    have : w.toNat < 2 ^ 32 := w.toNat_lt
    have h3 : (1 : UInt32).toNat = 2 ^ 1 - 1 := rfl
    rw [UInt32.toNat_and, h3, Nat.and_two_pow_sub_one_eq_mod, UInt32.toNat_shiftRight]
    have h4 : (31 : UInt32).toNat % 32 = 31 := rfl
    rw [h4, Nat.shiftRight_eq_div_pow]; omega
  by_cases h : w.toNat ≥ 2 ^ 31
  · have : ((w >>> 31) &&& 1) ≠ 0 := by
      intro e; rw [e] at h1
      have : w.toNat / 2 ^ 31 ≥ 1 := by omega
      simp at h1; omega
    simp only [h, decide_true]; simpa using this
  · have : ((w >>> 31) &&& 1) = 0 := by
      apply UInt32.toNat_inj.1
      rw [h1]; simp; omega
    rw [this]; simp only [h, decide_false]; rfl

theorem be32_eq (v : UInt32) : be32 v = encode32 v := by
  have e8 : ∀ x : UInt32, (x &&& 0xFF).toUInt8 = UInt8.ofNat x.toNat := by
    intro x
    apply UInt8.toNat_inj.1
    have : (0xff : UInt32).toNat = 2^8 - 1 := rfl
    rw [UInt32.toNat_toUInt8, UInt32.toNat_and, this, Nat.and_two_pow_sub_one_eq_mod]
    simp
  simp only [be32, encode32, e8, UInt32.toNat_shiftRight, Nat.shiftRight_eq_div_pow]
  rfl

theorem be16_eq (v : UInt16) : be16 v = encode16 v := by
  have e8 : ∀ x : UInt16, (x &&& 0xFF).toUInt8 = UInt8.ofNat x.toNat := by
    intro x
    apply UInt8.toNat_inj.1
    have : (0xff : UInt16).toNat = 2^8 - 1 := rfl
    rw [UInt16.toNat_toUInt8, UInt16.toNat_and, this, Nat.and_two_pow_sub_one_eq_mod]
    simp
  simp only [be16, encode16, e8, UInt16.toNat_shiftRight, Nat.shiftRight_eq_div_pow]
  rfl

theorem streamId_set (h : FrameHeader) (v : UInt32) :
    (h.setStreamId v).streamId = v &&& 0x7fffffff := by
  apply u32_ext
  intro i hi
  simp [FrameHeader.streamId, FrameHeader.setStreamId, -UInt32.toUInt32_toUInt8]
  interval_cases i <;> simp

theorem payloadLength_set_and (h : FrameHeader) (v : UInt32) :
    (h.setPayloadLength v).payloadLength = v &&& 0xffffff := by
  apply u32_ext
  intro i hi
  simp [FrameHeader.payloadLength, FrameHeader.setPayloadLength, -UInt32.toUInt32_toUInt8]
  interval_cases i <;> simp

theorem payloadLength_set (h : FrameHeader) (n : Nat) (hn : n < 2 ^ 24) :
    (h.setPayloadLength (UInt32.ofNat n)).payloadLength.toNat = n := by
  have : (0xffffff : UInt32).toNat = 2^24 - 1 := rfl
  rw [payloadLength_set_and, UInt32.toNat_and, this, Nat.and_two_pow_sub_one_eq_mod]
  rw [UInt32.toNat_ofNat_of_lt' (by simp [UInt32.size]; omega)]
  exact Nat.mod_eq_of_lt hn

theorem payloadLength_lt (h : FrameHeader) : h.payloadLength.toNat < 2 ^ 24 := by
  have : h.payloadLength = h.payloadLength &&& 0xffffff := by
    apply u32_ext
    intro i hi
    simp only [FrameHeader.payloadLength]
    interval_cases i <;> simp
  rw [this]
  have : (0xffffff : UInt32).toNat = 2^24 - 1 := rfl
  rw [UInt32.toNat_and, this, Nat.and_two_pow_sub_one_eq_mod]
  exact Nat.mod_lt _ (by decide)

theorem setPayloadLength_type (h : FrameHeader) (n) : (h.setPayloadLength n).type = h.type := rfl
theorem setPayloadLength_flags (h : FrameHeader) (n) : (h.setPayloadLength n).flags = h.flags := rfl
theorem setPayloadLength_sid (h : FrameHeader) (n) : (h.setPayloadLength n).streamId = h.streamId := rfl

theorem ofBytes_bytes (h : FrameHeader) : FrameHeader.ofBytes h.bytes = h := rfl
theorem bytes_length (h : FrameHeader) : h.bytes.length = 9 := rfl

theorem bytes_ofBytes (b : Bytes) (hb : b.length = 9) : (FrameHeader.ofBytes b).bytes = b := by
  match b, hb with
  | [_, _, _, _, _, _, _, _, _], _ => rfl

/-! ## Payload parsing -/

theorem validatePadded_ok {p : Bytes} {pad : Nat} {q : Bytes} :
    validatePadded p = .ok (pad, q) ↔ ∃ n : Byte, p = n :: q ∧ pad = n.toNat ∧ n.toNat ≤ q.length := by
  unfold validatePadded
  match p with
  | [] => simp
  | n :: rest =>
    by_cases h : n.toNat > rest.length
    · simp [h]; rintro rfl - ; omega
    · simp only [h, if_false, Except.ok.injEq, Prod.mk.injEq, List.cons.injEq]
      constructor
      · rintro ⟨rfl, rfl⟩; exact ⟨n, ⟨rfl, rfl⟩, rfl, by omega⟩
      · rintro ⟨m, ⟨rfl, rfl⟩, rfl, _⟩; exact ⟨rfl, rfl⟩

theorem take_split (q : Bytes) (n : Nat) (h : n ≤ q.length) :
    ∃ padding, q = q.take (q.length - n) ++ padding ∧ padding.length = n :=
  ⟨q.drop (q.length - n), (List.take_append_drop _ _).symm, by simp; omega⟩

theorem take_app (d padding : Bytes) : (d ++ padding).take ((d ++ padding).length - padding.length) = d := by
  simp

theorem split4 (q : Bytes) (h : 4 ≤ q.length) : ∃ a b c d, q = [a, b, c, d] ++ q.drop 4 := by
  match q, h with
  | a :: b :: c :: d :: r, _ => exact ⟨a, b, c, d, rfl⟩

theorem extract32_4 (a b c d : UInt8) (r : Bytes) : extract32 ([a,b,c,d] ++ r) = extract32 [a,b,c,d] := rfl
theorem extract31_4 (a b c d : UInt8) (r : Bytes) :
    extract31 ([a,b,c,d] ++ r) = extract32 [a,b,c,d] &&& 0x7fffffff := by
  rw [← extract31_encode32 _ r, encode32_extract32]

theorem encode32_length (v) : (encode32 v).length = 4 := rfl
theorem encode16_length (v) : (encode16 v).length = 2 := rfl

theorem settingsEntries_encode (es : List (UInt16 × UInt32)) :
    settingsEntries (es.flatMap fun e => encode16 e.1 ++ encode32 e.2) = es := by
  induction es with
  | nil => rfl
  | cons e es ih =>
    have : settingsEntries ((encode16 e.1 ++ encode32 e.2) ++ (es.flatMap fun e => encode16 e.1 ++ encode32 e.2))
      = (extract16 (encode16 e.1), extract32 (encode32 e.2)) ::
        settingsEntries (es.flatMap fun e => encode16 e.1 ++ encode32 e.2) := rfl
    rw [List.flatMap_cons, this, extract16_encode16, extract32_encode32', ih]

theorem encode_settingsEntries : ∀ (p : Bytes), p.length % 6 = 0 →
    ((settingsEntries p).flatMap fun e => encode16 e.1 ++ encode32 e.2) = p
  | a :: b :: c :: d :: e :: g :: rest, h => by
    rw [settingsEntries, List.flatMap_cons, encode_settingsEntries rest (by simp at h; omega)]
    simp only [encode16_extract16, encode32_extract32]
    rfl
  | [], _ => rfl
  | [_], h => by simp at h
  | [_, _], h => by simp at h
  | [_, _, _], h => by simp at h
  | [_, _, _, _], h => by simp at h
  | [_, _, _, _, _], h => by simp at h

theorem settings_length (es : List (UInt16 × UInt32)) :
    (es.flatMap fun e => encode16 e.1 ++ encode32 e.2).length = 6 * es.length := by
  induction es with
  | nil => rfl
  | cons e es ih =>
    rw [List.flatMap_cons, List.length_append, ih]
    simp [encode16_length, encode32_length]; omega

theorem priorityOf_encode (w : UInt32) (wt : Byte) (r : Bytes) :
    priorityOf (encode32 w ++ wt :: r) = ⟨w &&& 0x7FFFFFFF, wt, decide (w.toNat ≥ 2 ^ 31)⟩ := by
  unfold priorityOf
  rw [extract32_encode32, topbit]
  rfl

theorem split5 (q : Bytes) (h : 5 ≤ q.length) : ∃ w wt, q = encode32 w ++ wt :: q.drop 5 := by
  match q, h with
  | a :: b :: c :: d :: e :: r, _ => exact ⟨extract32 [a, b, c, d], e, by rw [encode32_extract32]; rfl⟩

theorem split4' (q : Bytes) (h : 4 ≤ q.length) : ∃ w, q = encode32 w ++ q.drop 4 := by
  match q, h with
  | a :: b :: c :: d :: r, _ => exact ⟨extract32 [a, b, c, d], by rw [encode32_extract32]; rfl⟩

theorem stripPad_ok {flags : Byte} {p : Bytes} {pad : Nat} {q : Bytes} :
    stripPad flags p = .ok (pad, q) ↔
      (hasFlag flags FLAG_PADDED = false ∧ pad = 0 ∧ q = p) ∨
      (hasFlag flags FLAG_PADDED = true ∧ ∃ n : Byte, p = n :: q ∧ pad = n.toNat ∧ n.toNat ≤ q.length) := by
  unfold stripPad
  cases hasFlag flags FLAG_PADDED
  · simp [eq_comm]
  · simp [validatePadded_ok]

theorem parse_headers_pri {hdr : FrameHeader} {p q : Bytes} {pad : Nat} (ht : hdr.type = T_HEADERS)
    (hs : stripPad hdr.flags p = .ok (pad, q)) (hp : hasFlag hdr.flags FLAG_PRIORITY = true)
    (hl : 5 + pad ≤ q.length) :
    parsePayload hdr p =
      .ok (some (.headers ((q.drop 5).take ((q.drop 5).length - pad)) (some (priorityOf q)))) := by
  unfold parsePayload
  have h0 : ¬ hdr.type = T_DATA := by rw [ht]; decide
  rw [if_neg h0, if_pos ht, hs]
  simp only [hp, if_true]
  rw [if_neg (by omega)]

theorem parse_push {hdr : FrameHeader} {p q : Bytes} {pad : Nat} (ht : hdr.type = T_PUSH_PROMISE)
    (hs : stripPad hdr.flags p = .ok (pad, q)) (hl : 4 + pad ≤ q.length) :
    parsePayload hdr p =
      .ok (some (.pushPromise (extract31 q) ((q.drop 4).take ((q.drop 4).length - pad)))) := by
  unfold parsePayload
  rw [if_neg (by rw [ht]; decide), if_neg (by rw [ht]; decide), if_neg (by rw [ht]; decide),
    if_neg (by rw [ht]; decide), if_neg (by rw [ht]; decide), if_pos ht, hs]
  simp only []
  rw [if_neg (by omega)]

/-- Every accepted payload has one of the legal layouts, with exactly the delivered content. -/
theorem parse_sound {hdr : FrameHeader} {p : Bytes} {pl : Payload}
    (h : parsePayload hdr p = .ok (some pl)) : Layout hdr p pl := by
  unfold parsePayload at h
  by_cases ht : hdr.type = T_DATA
  · rw [if_pos ht] at h
    split at h
    · cases h
    rename_i pad q hs
    rcases stripPad_ok.1 hs with ⟨hf, rfl, rfl⟩ | ⟨hf, n, rfl, rfl, hn⟩
    · simp [hf] at h; subst h; exact .data _ ht hf
    · simp only [hf, if_true, Except.ok.injEq, Option.some.injEq] at h
      obtain ⟨padding, e, el⟩ := take_split q n.toNat hn
      subst h
      conv => arg 2; rw [e]
      exact .dataPadded n _ padding ht hf el
  rw [if_neg ht] at h; clear ht
  by_cases ht : hdr.type = T_HEADERS
  · rw [if_pos ht] at h
    split at h
    · cases h
    rename_i pad q hs
    rcases stripPad_ok.1 hs with ⟨hf, rfl, rfl⟩ | ⟨hf, n, rfl, rfl, hn⟩
    · cases hp : hasFlag hdr.flags FLAG_PRIORITY
      · simp [hp] at h; subst h; exact .headers _ ht hf hp
      · simp only [hp, if_true] at h
        split at h
        · cases h
        rename_i hl
        obtain ⟨w, wt, e⟩ := split5 q (by omega)
        simp only [Except.ok.injEq, Option.some.injEq, Nat.sub_zero, List.take_length] at h
        subst h
        have := Layout.headersPri (hdr := hdr) w wt (q.drop 5) ht hf hp
        rw [be32_eq] at this
        rw [← priorityOf_encode w wt (q.drop 5)] at this
        rw [← e] at this
        exact this
    · cases hp : hasFlag hdr.flags FLAG_PRIORITY
      · simp only [hp, Bool.false_eq_true, if_false, Except.ok.injEq, Option.some.injEq] at h
        obtain ⟨padding, e, el⟩ := take_split q n.toNat hn
        subst h
        conv => arg 2; rw [e]
        exact .headersPadded n _ padding ht hf hp el
      · simp only [hp, if_true] at h
        split at h
        · cases h
        rename_i hl
        obtain ⟨w, wt, e⟩ := split5 q (by omega)
        simp only [Except.ok.injEq, Option.some.injEq] at h
        subst h
        obtain ⟨padding, e2, el⟩ := take_split (q.drop 5) n.toNat (by simp; omega)
        have := Layout.headersPaddedPri (hdr := hdr) n w wt
          ((q.drop 5).take ((q.drop 5).length - n.toNat)) padding ht hf hp el
        rw [← e2, be32_eq, ← priorityOf_encode w wt (q.drop 5), ← e] at this
        exact this
  rw [if_neg ht] at h; clear ht
  by_cases ht : hdr.type = T_PRIORITY
  · rw [if_pos ht] at h
    split at h
    · cases h
    rename_i hl
    simp only [Except.ok.injEq, Option.some.injEq] at h
    subst h
    obtain ⟨w, wt, e⟩ := split5 p (by omega)
    have e5 : p.drop 5 = [] := List.drop_eq_nil_of_le (by omega)
    have := Layout.priority (hdr := hdr) w wt ht
    rw [be32_eq, ← priorityOf_encode w wt (p.drop 5), ← e5, ← e] at this
    exact this
  rw [if_neg ht] at h; clear ht
  by_cases ht : hdr.type = T_RST_STREAM
  · rw [if_pos ht] at h
    split at h
    · cases h
    rename_i hl
    simp only [Except.ok.injEq, Option.some.injEq] at h
    subst h
    obtain ⟨w, e⟩ := split4' p (by omega)
    have e5 : p.drop 4 = [] := List.drop_eq_nil_of_le (by omega)
    rw [e5, List.append_nil] at e
    rw [e, extract32_encode32', ← be32_eq]
    exact .rst w ht
  rw [if_neg ht] at h; clear ht
  by_cases ht : hdr.type = T_SETTINGS
  · rw [if_pos ht] at h
    split at h
    · cases h
    rename_i hf
    split at h
    · cases h
    rename_i hl
    simp only [Except.ok.injEq, Option.some.injEq] at h
    subst h
    have := Layout.settings (hdr := hdr) (settingsEntries p) ht (by simpa using hf)
    simp only [be16_eq, be32_eq] at this
    rw [encode_settingsEntries p (by omega)] at this
    exact this
  rw [if_neg ht] at h; clear ht
  by_cases ht : hdr.type = T_PUSH_PROMISE
  · rw [if_pos ht] at h
    split at h
    · cases h
    rename_i pad q hs
    split at h
    · cases h
    rename_i hl
    simp only [Except.ok.injEq, Option.some.injEq] at h
    subst h
    obtain ⟨w, e⟩ := split4' q (by omega)
    rcases stripPad_ok.1 hs with ⟨hf, rfl, rfl⟩ | ⟨hf, n, rfl, rfl, hn⟩
    · have := Layout.push (hdr := hdr) w (q.drop 4) ht hf
      rw [be32_eq, ← extract31_encode32 w (q.drop 4), ← e] at this
      rw [Nat.sub_zero, List.take_length]; exact this
    · obtain ⟨padding, e2, el⟩ := take_split (q.drop 4) n.toNat (by simp; omega)
      have := Layout.pushPadded (hdr := hdr) n w
        ((q.drop 4).take ((q.drop 4).length - n.toNat)) padding ht hf el
      rw [← e2, be32_eq, ← extract31_encode32 w (q.drop 4), ← e] at this
      exact this
  rw [if_neg ht] at h; clear ht
  by_cases ht : hdr.type = T_PING
  · rw [if_pos ht] at h
    split at h
    · cases h
    rename_i hl
    simp only [Except.ok.injEq, Option.some.injEq] at h
    subst h
    exact .ping p ht (by omega)
  rw [if_neg ht] at h; clear ht
  by_cases ht : hdr.type = T_GOAWAY
  · rw [if_pos ht] at h
    split at h
    · cases h
    rename_i hl
    simp only [Except.ok.injEq, Option.some.injEq] at h
    subst h
    obtain ⟨w, e⟩ := split4' p (by omega)
    obtain ⟨c, e2⟩ := split4' (p.drop 4) (by simp; omega)
    have e3 : (if p.length > 8 then p.drop 8 else []) = (p.drop 4).drop 4 := by
      split
      · simp
      · simp; omega
    rw [e3]
    have := Layout.goaway (hdr := hdr) w c ((p.drop 4).drop 4) ht
    have e4 : extract32 (p.drop 4) = c := by rw [e2, extract32_encode32]
    have e5 : extract31 p = w &&& 0x7FFFFFFF := by rw [e, extract31_encode32]
    rw [← e4, ← e5, be32_eq, be32_eq, List.append_assoc, e4, ← e2, ← e, ← e4] at this
    exact this
  rw [if_neg ht] at h; clear ht
  by_cases ht : hdr.type = T_WINDOW_UPDATE
  · rw [if_pos ht] at h
    split at h
    · cases h
    rename_i hl
    split at h
    · cases h
    rename_i hz
    split at h
    · cases h
    simp only [Except.ok.injEq, Option.some.injEq] at h
    subst h
    obtain ⟨w, e⟩ := split4' p (by omega)
    have e5 : p.drop 4 = [] := List.drop_eq_nil_of_le (by omega)
    rw [e5, List.append_nil] at e
    rw [e, extract31_encode32'] at hz
    rw [e, extract31_encode32', ← be32_eq]
    exact .windowUpdate w ht hz
  rw [if_neg ht] at h; clear ht
  by_cases ht : hdr.type = T_CONTINUATION
  · rw [if_pos ht] at h
    simp only [Except.ok.injEq, Option.some.injEq] at h
    subst h
    exact .continuation p ht
  rw [if_neg ht] at h; clear ht
  cases h

/-- Every payload with a legal layout is accepted, with exactly that content. -/
theorem parse_complete {hdr : FrameHeader} {p : Bytes} {pl : Payload}
    (h : Layout hdr p pl) : parsePayload hdr p = .ok (some pl) := by
  have key : ∀ (n : Byte) (d padding : Bytes), padding.length = n.toNat →
      validatePadded (n :: (d ++ padding)) = .ok (n.toNat, d ++ padding) := by
    intro n d padding e
    exact validatePadded_ok.2 ⟨n, rfl, rfl, by simp; omega⟩
  have w31 : ∀ w : UInt32, ¬ (w &&& 0x7FFFFFFF > 0x7FFFFFFF) := by
    intro w hw
    have h1 := and31_lt w
    have h2 := UInt32.lt_iff_toNat_lt.1 hw
    have : (0x7fffffff : UInt32).toNat = 2^31 - 1 := rfl
    omega
  cases h with
  | data d ht hf => simp [parsePayload, ht, T_DATA, stripPad, hf]
  | dataPadded n d padding ht hf hl =>
    simp [parsePayload, ht, T_DATA, stripPad, hf, key n d padding hl, ← hl]
  | headers frag ht hf hp => simp [parsePayload, ht, T_DATA, T_HEADERS, stripPad, hf, hp]
  | headersPadded n frag padding ht hf hp hl =>
    simp [parsePayload, ht, T_DATA, T_HEADERS, stripPad, hf, hp, key n frag padding hl, ← hl]
  | headersPri w wt frag ht hf hp =>
    have : ¬ ((encode32 w ++ wt :: frag).length < 5 + 0) := by
      simp [encode32_length]; omega
    rw [be32_eq, parse_headers_pri ht (stripPad_ok.2 (.inl ⟨hf, rfl, rfl⟩)) hp (by omega), priorityOf_encode]
    simp [encode32]
  | headersPaddedPri n w wt frag padding ht hf hp hl =>
    have h1 := key n (encode32 w ++ wt :: frag) padding hl
    have e : (encode32 w ++ wt :: frag) ++ padding = encode32 w ++ wt :: (frag ++ padding) := by simp
    rw [e] at h1
    have : ¬ ((encode32 w ++ wt :: (frag ++ padding)).length < 5 + n.toNat) := by
      simp [encode32_length]; omega
    rw [be32_eq, parse_headers_pri ht (by simpa [stripPad, hf] using h1) hp (by omega), priorityOf_encode]
    simp [encode32, ← hl]
  | priority w wt ht =>
    simp only [parsePayload, ht, be32_eq, priorityOf_encode]
    simp [T_DATA, T_HEADERS, T_PRIORITY, encode32_length]
  | rst c ht =>
    simp only [parsePayload, ht, be32_eq, extract32_encode32']
    simp [T_DATA, T_HEADERS, T_PRIORITY, T_RST_STREAM, encode32_length]
  | settings es ht hf =>
    have e : (es.flatMap fun e => be16 e.1 ++ be32 e.2) = es.flatMap fun e => encode16 e.1 ++ encode32 e.2 := by
      simp only [be16_eq, be32_eq]
    rw [e]
    simp only [parsePayload, ht, settingsEntries_encode, settings_length, hf]
    simp [T_DATA, T_HEADERS, T_PRIORITY, T_RST_STREAM, T_SETTINGS]
  | push w frag ht hf =>
    have : ¬ ((encode32 w ++ frag).length < 4 + 0) := by simp [encode32_length]
    rw [be32_eq, parse_push ht (stripPad_ok.2 (.inl ⟨hf, rfl, rfl⟩)) (by omega), extract31_encode32]
    simp [encode32]
  | pushPadded n w frag padding ht hf hl =>
    have h1 := key n (encode32 w ++ frag) padding hl
    rw [List.append_assoc] at h1
    have : ¬ ((encode32 w ++ (frag ++ padding)).length < 4 + n.toNat) := by
      simp [encode32_length]; omega
    rw [be32_eq, parse_push ht (by simpa [stripPad, hf] using h1) (by omega), extract31_encode32]
    simp [encode32, ← hl]
  | ping o ht hl =>
    simp [parsePayload, ht, hl, T_DATA, T_HEADERS, T_PRIORITY, T_RST_STREAM, T_SETTINGS, T_PUSH_PROMISE, T_PING]
  | goaway w c dbg ht =>
    simp only [parsePayload, ht, be32_eq, List.append_assoc, extract31_encode32]
    have e : (encode32 w ++ (encode32 c ++ dbg)).drop 4 = encode32 c ++ dbg := rfl
    have e2 : (encode32 w ++ (encode32 c ++ dbg)).drop 8 = dbg := rfl
    have el : (encode32 w ++ (encode32 c ++ dbg)).length = 8 + dbg.length := by
      simp [encode32_length]; omega
    rw [e, e2, el, extract32_encode32]
    simp [T_DATA, T_HEADERS, T_PRIORITY, T_RST_STREAM, T_SETTINGS, T_PUSH_PROMISE, T_PING, T_GOAWAY]
    exact extract32_encode32 c dbg
  | windowUpdate w ht hz =>
    simp only [parsePayload, ht, be32_eq, extract31_encode32', hz, w31]
    simp [T_DATA, T_HEADERS, T_PRIORITY, T_RST_STREAM, T_SETTINGS, T_PUSH_PROMISE, T_PING, T_GOAWAY,
      T_WINDOW_UPDATE, encode32_length]
  | continuation frag ht =>
    simp [parsePayload, ht, T_DATA, T_HEADERS, T_PRIORITY, T_RST_STREAM, T_SETTINGS, T_PUSH_PROMISE, T_PING,
      T_GOAWAY, T_WINDOW_UPDATE, T_CONTINUATION]

end Verif.H2
