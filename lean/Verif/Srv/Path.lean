import Verif.Srv.Spec

/-! # The server connection as a transition system of small steps

Every function of the model is a sequence of the steps of `Micro`. Invariants are checked once per step. -/

namespace Verif.Srv
open Verif.Stream
open Verif.Wire (Headers)

variable {x : Ext}

/-- The state of a stream agrees with its flags. -/
structure StateOk (s : SStream) : Prop where
  sent : s.endSent = true → s.state = .halfClosedLocal ∨ s.state = .closed
  hcl : s.state = .halfClosedLocal → s.endSent = true
  hcr : s.state = .halfClosedRemote → s.endRecv = true
  local_ : s.state ≠ .reservedRemote
  closed : s.state = .closed → s.rstSent = true ∨ s.rstRecv = true ∨ (s.endSent = true ∧ s.endRecv = true)

/-- A stream whose window follows SETTINGS_INITIAL_WINDOW_SIZE. -/
def Early (t : State) : Prop := t = .idle ∨ t = .open_ ∨ t = .reservedLocal

/-- An update that touches neither windows, nor the response body, nor the request body, nor what was sent. -/
structure Soft (s s' : SStream) : Prop where
  id : s'.id = s.id
  localW : s'.localW = s.localW
  peerW : s'.peerW = s.peerW
  threshold : s'.threshold = s.threshold
  processed : s'.processed = s.processed
  endSent : s'.endSent = s.endSent
  headersMain : s'.headersMain = s.headersMain
  cl : s'.cl = s.cl
  req : s'.req = s.req
  dispatched : s'.dispatched = s.dispatched
  body : s'.body = s.body
  offset : s'.offset = s.offset
  endRecv : s'.endRecv = s.endRecv
  stateOk : StateOk s → StateOk s'
  early : Early s'.state → Early s.state
  idle : s'.state = .idle → s.state = .idle
  has : s'.hasTrailer = s.hasTrailer

/-- RST_STREAM was written for the stream. -/
def WasReset (c : Conn x) (sid : Nat) : Prop := ∃ code, Out.rst sid code ∈ c.out

/-- Only a stream that has sent something (`F`) has something left to send; only a stream whose RST_STREAM was written
(`R`) counts as reset. -/
structure PendOk (F R : Prop) (s s' : SStream) : Prop where
  pending : s'.pending = true → s.pending = true ∨ F
  isT : s'.isTrailers = true → s.isTrailers = true ∨ (s.hasTrailer = true ∧ F)
  rstS : s'.rstSent = true → s.rstSent = true ∨ R
  rstR : s'.rstRecv = true → s.rstRecv = true

/-- What may be written without changing anything else. -/
def Plain : Out → Bool
  | .settings | .settingsAck | .pong _ | .rst _ _ | .pushPromise _ _ _ | .streamError _ _ | .goawayEvent _ _ => true
  | _ => false

/-- The steps that come from the peer or the application. -/
inductive Lab
  | grantConn (inc : Nat)
  | grant (sid inc : Nat)
  | setInit (new : Nat)
  | shift (sid : Nat) (delta : Int)
  | dataIn (sid n : Nat) (d : Bytes)
  | dataRej (n : Nat)
  | cred (sid n : Nat)
  | resp (sid : Nat) (r : Response)
  | setMax (n : Nat)
  | opened (sid : Nat)
  | ended (sid : Nat)
  | req (sid : Nat)
  | rstIn (sid : Nat)
  | lost
deriving DecidableEq

/-- Header blocks are assembled on client streams only. -/
def CurOk (c : Conn x) : Prop := c.curSid = 0 ∨ c.curSid % 2 = 1

/-- `f` keeps the number of the stream. -/
def Keeps (sid : Nat) (f : SStream → SStream) : Prop := ∀ s, s.id = sid → (f s).id = sid

inductive Micro : Conn x → List Lab → Conn x → Prop
  | aux (c c' : Conn x) (h1 : c'.streams = c.streams) (h2 : c'.sendW = c.sendW) (h3 : c'.recvW = c.recvW)
      (h4 : c'.initPeer = c.initPeer) (h5 : c'.peerMaxFrame = c.peerMaxFrame) (h6 : c'.out = c.out)
      (h7 : c'.lastClient = c.lastClient) (h8 : c'.ok = true → c.ok = true) (h9 : c'.active = true → c.active = true)
      (h10 : CurOk c → CurOk c' := by exact fun h => h) :
      Micro c [] c'
  | setMax (c : Conn x) (n : Nat) (h : 16384 ≤ n) : Micro c [.setMax n] { c with peerMaxFrame := n }
  | plain (c : Conn x) (o : Out) (h : Plain o = true) : Micro c [] (c.emit o)
  | die (c : Conn x) (code : Nat) (h : c.active = true) :
      Micro c [] { c.emit (.goaway c.lastClient code) with active := false }
  | erase (c : Conn x) (sid : Nat) (h : ∀ s, c.find sid = some s → (s.state == .closed || s.rstSent || s.rstRecv) = true) : Micro c [] (c.erase sid)
  | prune (c : Conn x) (p : SStream → Bool) (h : (c.streams.map (·.id)).Nodup) : Micro c [.lost] { c with streams := c.streams.filter p }
  | soft (c : Conn x) (sid : Nat) (f : SStream → SStream) (k : Keeps sid f)
      (h : ∀ s, c.find sid = some s → Soft s (f s))
      (hp : ∀ s, c.find sid = some s → PendOk (framesOn sid c.out ≠ []) (WasReset c sid) s (f s)) : Micro c [] (c.upd sid f)
  | rstIn (c : Conn x) (sid code : Nat) :
      Micro c [.rstIn sid] (c.upd sid (fun s => { s with rstRecv := true, err := code, state := .closed }))
  | ended (c : Conn x) (sid : Nat) : Micro c [.ended sid] (c.upd sid (fun s => { s with endRecv := true }))
  | opened (c : Conn x) (sid : Nat) (h1 : sid % 2 = 1) (h2 : c.lastClient < sid) (h3 : c.find sid = none)
      (h4 : c.ok = true) (h5 : c.active = true) :
      Micro c [.opened sid] { c with streams := c.streams ++ [{ id := sid, peerW := c.initPeer }], lastClient := sid }
  | pushed (c : Conn x) (sid parent : Nat) (h1 : sid % 2 = 0) (h2 : sid ≠ 0) (h3 : c.find sid = none) :
      Micro c [] { c with streams := c.streams ++ [{ id := sid, state := .reservedLocal, peerW := c.initPeer, parent := parent }] }
  | data (c : Conn x) (s : SStream) (k : Nat) (fin p : Bool) (hs : c.find s.id = some s)
      (hk : 0 < k) (hm : k ≤ c.peerMaxFrame) (hp : (k : Int) ≤ s.peerW) (hw : (k : Int) ≤ c.sendW)
      (ho : s.offset + k ≤ s.body.length) (he : StateOk s → s.endSent = false)
      (hf : fin = true → s.offset + k = s.body.length)
      (hf' : StateOk s → s.offset + k = s.body.length → s.isTrailers = false → fin = true)
      (hh : s.pending = true ∨ framesOn s.id c.out ≠ []) (hp' : p = true → s.pending = true) :
      Micro c [] { c.upd s.id (fun _ => { s with
          offset := s.offset + k
          peerW := s.peerW - (k : Int)
          endSent := s.endSent || fin
          state := if fin then .halfClosedLocal else s.state
          pending := p }) with
        sendW := c.sendW - (k : Int)
        out := c.out ++ [.data s.id ((s.body.drop s.offset).take k) fin] }
  | rebody (c : Conn x) (sid : Nat) (r : Response) (b : Bool) (hb : b = (Verif.Wire.find r.headers b!"Trailer").isSome) :
      Micro c [.resp sid r] (c.upd sid (fun s => { s with body := r.body, offset := 0, hasTrailer := b }))
  | start (c : Conn x) (sid : Nat) (r : Response) (b : Bool) (s : SStream) (block : Bytes) (hb : b = (Verif.Wire.find r.headers b!"Trailer").isSome) (hs : c.find sid = some s)
      (he : StateOk s → s.state = .open_ ∨ s.state = .halfClosedRemote) :
      Micro c [.resp sid r] ((c.emit (.headers sid block r.body.isEmpty)).upd sid (fun s => { s with
        body := r.body, offset := 0, hasTrailer := b
        endSent := s.endSent || r.body.isEmpty
        state := if r.body.isEmpty then sendEnd s.state else s.state }))
  | trail (c : Conn x) (sid : Nat) (s : SStream) (hs : c.find sid = some s) (he : s.endSent = false)
      (ho : s.offset = s.body.length) (ht : s.isTrailers = true) :
      Micro c [] ((c.emit (.headers sid [] true)).upd sid (fun s =>
        { s with state := .halfClosedLocal, endSent := true, isTrailers := false }))
  | recv (c : Conn x) (n : Nat) : Micro c [.dataRej n] { c with recvW := c.recvW - (n : Int) }
  | dataIn (c : Conn x) (sid n : Nat) (d : Bytes) (s : SStream) (hs : c.find sid = some s) (h : s.endRecv = false) :
      Micro c [.dataIn sid n d] ({ c with recvW := c.recvW - (n : Int) }.upd sid (fun s =>
        { s with localW := s.localW - (n : Int), req := { s.req with body := s.req.body ++ d } }))
  | credConn (c : Conn x) (inc : Nat) (h : c.recvW < 32767) (hi : (inc : Int) = 65535 - c.recvW) :
      Micro c [] { c with
        recvW := c.recvW + (inc : Int)
        out := c.out ++ (if c.ok then [Out.windowUpdate 0 inc] else []) }
  | credKeep (c : Conn x) (sid n p : Nat) (s : SStream) (hs : c.find sid = some s) (hp : p = s.processed + n) (h : p < s.threshold ∨ s.threshold = 0) :
      Micro c [.cred sid n] (c.upd sid (fun s => { s with processed := p }))
  | credSend (c : Conn x) (sid n p : Nat) (h0 : sid ≠ 0) (s : SStream) (hs : c.find sid = some s) (hp : p = s.processed + n) (hpos : 0 < p) :
      Micro c [.cred sid n] ({ c with out := c.out ++ (if c.ok then [Out.windowUpdate sid p] else []) }.upd sid (fun s =>
        { s with localW := s.localW + (p : Int), processed := 0 }))
  | grantConn (c : Conn x) (inc : Nat) (h : c.sendW + (inc : Int) ≤ 2147483647) :
      Micro c [.grantConn inc] { c with sendW := c.sendW + (inc : Int) }
  | grant (c : Conn x) (sid inc : Nat) (s : SStream) (hs : c.find sid = some s) (h : s.peerW + (inc : Int) ≤ 2147483647) :
      Micro c [.grant sid inc] (c.upd sid (fun s => { s with peerW := s.peerW + (inc : Int) }))
  | setInit (c : Conn x) (new : Nat) : Micro c [.setInit new] { c with initPeer := new }
  | shift (c : Conn x) (sid : Nat) (delta : Int) :
      Micro c [.shift sid delta] (c.upd sid (fun s => { s with peerW := s.peerW + delta }))
  | head (c : Conn x) (sid : Nat) (hodd : sid % 2 = 1) (fs : List Field) (r : Request) (cl : Option Nat)
      (h : requestHead x.methodKnown fs = .ok (r, cl)) :
      Micro c [] (c.upd sid (fun s => { s with headersMain := true, cl := cl, req := { r with body := s.req.body } }))
  | trailers (c : Conn x) (sid : Nat) (fs : List Field) (s : SStream) (hs : c.find sid = some s) (hm : s.headersMain = true)
      (hdrs : Headers) (h : trailerLoop fs s.req.headers = some hdrs) :
      Micro c [] (c.upd sid (fun s => { s with trailersRecv := true, req := { s.req with headers := hdrs } }))
  | request (c : Conn x) (sid : Nat) (s : SStream) (hs : c.find sid = some s) (hd : s.dispatched = false)
      (h1 : s.endRecv = true) (h2 : s.headersMain = true) (h3 : mismatch s.cl s.req.body = false)
      (h4 : c.ok = true) (h5 : c.active = true) :
      Micro c [.req sid] ((c.upd sid (fun s => { s with dispatched := true })).emit (.request sid s.req))

inductive Path : Conn x → List Lab → Conn x → Prop
  | refl (c : Conn x) : Path c [] c
  | step {a b c : Conn x} {l ls : List Lab} : Micro a l b → Path b ls c → Path a (l ++ ls) c

theorem Path.trans {a b c : Conn x} {l m : List Lab} (h : Path a l b) (k : Path b m c) : Path a (l ++ m) c := by
  induction h with
  | refl _ => exact k
  | step m' _ ih => rw [List.append_assoc]; exact .step m' (ih k)

theorem Path.one {a b : Conn x} {l : List Lab} (h : Micro a l b) : Path a l b := by
  have := Path.step h (.refl b); rwa [List.append_nil] at this

theorem Path.tr {a b c : Conn x} {m : List Lab} (h : Path a [] b) (k : Path b m c) : Path a m c := h.trans k

theorem Path.tr' {a b c : Conn x} {m : List Lab} (h : Path a m b) (k : Path b [] c) : Path a m c := by
  have := h.trans k; rwa [List.append_nil] at this

/-- An invariant holds along a path. -/
theorem Path.induct {P : Conn x → Prop} (hm : ∀ a l b, Micro a l b → P a → P b) {a b : Conn x} {l : List Lab}
    (h : Path a l b) (p : P a) : P b := by
  induction h with
  | refl _ => exact p
  | step m _ ih => exact ih (hm _ _ _ m p)

/-- An invariant that depends on the labels holds along a path. -/
theorem Path.inductL {P : Conn x → Prop} {Q : Lab → Prop}
    (hm : ∀ a l b, Micro a l b → (∀ y ∈ l, Q y) → P a → P b) {a b : Conn x} {l : List Lab}
    (h : Path a l b) (q : ∀ y ∈ l, Q y) (p : P a) : P b := by
  induction h with
  | refl _ => exact p
  | step m _ ih =>
    exact ih (fun y hy => q y (List.mem_append_right _ hy)) (hm _ _ _ m (fun y hy => q y (List.mem_append_left _ hy)) p)

/-! ## Finding streams -/

theorem find_eq (c : Conn x) (sid : Nat) : c.find sid = c.streams.find? (fun s => s.id == sid) := rfl

theorem find_id {c : Conn x} {sid : Nat} {s : SStream} (h : c.find sid = some s) : s.id = sid := by
  have := List.find?_some h; simpa using this

theorem find_mem {c : Conn x} {sid : Nat} {s : SStream} (h : c.find sid = some s) : s ∈ c.streams :=
  List.mem_of_find?_eq_some h

theorem find_isSome_of_mem {c : Conn x} {s : SStream} (h : s ∈ c.streams) : ∃ t, c.find s.id = some t := by
  have : (c.find s.id).isSome := by
    rw [find_eq, List.find?_isSome]; exact ⟨s, h, by simp⟩
  exact Option.isSome_iff_exists.mp this

theorem find_upd_list (l : List SStream) (sid j : Nat) (f : SStream → SStream) (k : Keeps sid f) :
    (l.map (fun s => if s.id == sid then f s else s)).find? (fun s => s.id == j) =
      if j = sid then (l.find? (fun s => s.id == sid)).map f else l.find? (fun s => s.id == j) := by
  induction l with
  | nil => simp
  | cons a l ih =>
    rw [List.map_cons, List.find?_cons, ih]
    by_cases ha : a.id = sid
    · have hf := k a ha
      have e1 : (if (a.id == sid) = true then f a else a) = f a := if_pos (by simpa using ha)
      rw [e1]
      by_cases hj : j = sid
      · subst hj
        rw [List.find?_cons]
        simp [hf, ha]
      · rw [if_neg hj, if_neg hj, List.find?_cons]
        have h1 : (a.id == j) = false := by rw [ha]; simpa using fun e => hj e.symm
        have h2 : ((f a).id == j) = false := by rw [hf]; simpa using fun e => hj e.symm
        rw [h1, h2]
    · have e1 : (if (a.id == sid) = true then f a else a) = a := if_neg (by simpa using ha)
      rw [e1]
      by_cases hj : j = sid
      · subst hj
        rw [if_pos rfl, if_pos rfl, List.find?_cons]
        have h1 : (a.id == j) = false := by simpa using ha
        rw [h1]
      · rw [if_neg hj, if_neg hj, List.find?_cons]

theorem find_upd {c : Conn x} {sid : Nat} (j : Nat) {f : SStream → SStream} (k : Keeps sid f) :
    (c.upd sid f).find j = if j = sid then (c.find sid).map f else c.find j := find_upd_list _ _ _ _ k

theorem find_upd_same {c : Conn x} {sid : Nat} {f : SStream → SStream} (k : Keeps sid f) {s : SStream}
    (h : c.find sid = some s) : (c.upd sid f).find sid = some (f s) := by
  rw [find_upd _ k, if_pos rfl, h]; rfl

theorem find_upd_none {c : Conn x} {sid : Nat} {f : SStream → SStream} (k : Keeps sid f)
    (h : c.find sid = none) : (c.upd sid f).find sid = none := by
  rw [find_upd _ k, if_pos rfl, h]; rfl

theorem find_upd_other {c : Conn x} {sid j : Nat} {f : SStream → SStream} (k : Keeps sid f) (h : j ≠ sid) :
    (c.upd sid f).find j = c.find j := by
  rw [find_upd _ k, if_neg h]

theorem find_erase (c : Conn x) (sid j : Nat) : (c.erase sid).find j = if j = sid then none else c.find j := by
  unfold Conn.find Conn.erase
  rw [List.find?_filter]
  by_cases h : j = sid
  · subst h
    rw [if_pos rfl, List.find?_eq_none]
    intro s _
    simp
  · rw [if_neg h]
    congr 1
    funext s
    by_cases hs : s.id = j
    · simp [hs, h]
    · simp [hs]

theorem find_emit (c : Conn x) (o : Out) (j : Nat) : (c.emit o).find j = c.find j := rfl

theorem find_append_list (l : List SStream) (s : SStream) (j : Nat) (h : l.find? (fun t => t.id == s.id) = none) :
    (l ++ [s]).find? (fun t => t.id == j) = if j = s.id then some s else l.find? (fun t => t.id == j) := by
  rw [List.find?_append]
  by_cases hj : j = s.id
  · subst hj; rw [h]; simp
  · rw [if_neg hj]
    have : [s].find? (fun t => t.id == j) = none := by
      simp [List.find?_eq_none]; intro e; exact hj e.symm
    rw [this]; simp

theorem upd_upd {c : Conn x} {sid : Nat} {f g : SStream → SStream} (k : Keeps sid f) :
    (c.upd sid f).upd sid g = c.upd sid (fun s => g (f s)) := by
  unfold Conn.upd
  simp only [List.map_map]
  congr 1
  apply List.map_congr_left
  intro s _
  show (if (if s.id == sid then f s else s).id == sid then g (if s.id == sid then f s else s) else (if s.id == sid then f s else s)) = _
  by_cases h : s.id = sid
  · have h' : (s.id == sid) = true := by simpa using h
    rw [if_pos h', if_pos (by simpa using k s h), if_pos h']
  · have h' : ¬ (s.id == sid) = true := by simpa using h
    rw [if_neg h', if_neg h', if_neg h']

theorem upd_none {c : Conn x} {sid : Nat} (f : SStream → SStream) (h : c.find sid = none) : c.upd sid f = c := by
  unfold Conn.upd
  have : c.streams.map (fun s => if s.id == sid then f s else s) = c.streams := by
    rw [find_eq, List.find?_eq_none] at h
    conv => rhs; rw [← List.map_id c.streams]
    apply List.map_congr_left
    intro s hs
    have := h s hs
    rw [if_neg this]; rfl
  rw [this]

theorem upd_id {c : Conn x} (sid : Nat) : c.upd sid (fun s => s) = c := by
  unfold Conn.upd
  have : c.streams.map (fun s => if s.id == sid then s else s) = c.streams := by
    conv => rhs; rw [← List.map_id c.streams]
    apply List.map_congr_left
    intro s _; split <;> rfl
  rw [this]

theorem find_upd_some {c : Conn x} {sid j : Nat} {f : SStream → SStream} {t' : SStream} (h : (c.upd sid f).find j = some t') (k : ∀ s, (f s).id = s.id) :
    (j = sid ∧ ∃ t, c.find sid = some t ∧ t' = f t) ∨ (j ≠ sid ∧ c.find j = some t') := by
  rw [find_upd j (fun s hs => (k s).trans hs)] at h
  split at h
  · rename_i e
    cases hf : c.find sid with
    | none => rw [hf] at h; cases h
    | some t => rw [hf] at h; exact Or.inl ⟨e, t, rfl, (Option.some.inj h).symm⟩
  · rename_i e; exact Or.inr ⟨e, h⟩

theorem find_upd_isSome {c : Conn x} {sid : Nat} {f : SStream → SStream} (h : c.find sid ≠ none) (k : ∀ s, (f s).id = s.id) :
    (c.upd sid f).find sid ≠ none := by
  rw [find_upd sid (fun s hs => (k s).trans hs), if_pos rfl]
  cases hc : c.find sid with
  | none => exact absurd hc h
  | some t => simp

theorem find_erase_some {c : Conn x} {sid j : Nat} {t : SStream} (h : (c.erase sid).find j = some t) : j ≠ sid ∧ c.find j = some t := by
  rw [find_erase] at h
  split at h
  · cases h
  · rename_i e; exact ⟨e, h⟩

theorem find_app {c : Conn x} {s : SStream} {j : Nat} {t : SStream} (hn : c.find s.id = none)
    (h : (c.streams ++ [s]).find? (fun t => t.id == j) = some t) : (j = s.id ∧ t = s) ∨ (j ≠ s.id ∧ c.find j = some t) := by
  rw [find_append_list _ _ _ hn] at h
  split at h
  · rename_i e; exact Or.inl ⟨e, (Option.some.inj h).symm⟩
  · rename_i e; exact Or.inr ⟨e, h⟩

theorem find_updc_some {c : Conn x} {s s' t' : SStream} {j : Nat} (hs : c.find s.id = some s) (k : s'.id = s.id)
    (h : (c.upd s.id (fun _ => s')).find j = some t') : (j = s.id ∧ t' = s') ∨ (j ≠ s.id ∧ c.find j = some t') := by
  rw [find_upd j (fun _ _ => k)] at h
  split at h
  · rename_i e
    rw [hs] at h
    exact Or.inl ⟨e, (Option.some.inj h).symm⟩
  · rename_i e; exact Or.inr ⟨e, h⟩

theorem mem_find {l : List SStream} (hn : (l.map (·.id)).Nodup) {s : SStream} (h : s ∈ l) : l.find? (fun t => t.id == s.id) = some s := by
  induction l with
  | nil => cases h
  | cons a l ih =>
    rw [List.map_cons, List.nodup_cons] at hn
    rw [List.find?_cons]
    rcases List.mem_cons.mp h with h | h
    · subst h; simp
    · have : (a.id == s.id) = false := by
        simp only [beq_eq_false_iff_ne]
        intro e; exact hn.1 (List.mem_map.mpr ⟨s, h, e.symm⟩)
      rw [this]; exact ih hn.2 h

theorem find_filter_some {l : List SStream} {p : SStream → Bool} (hn : (l.map (·.id)).Nodup) {j : Nat} {t : SStream}
    (h : (l.filter p).find? (fun t => t.id == j) = some t) : l.find? (fun t => t.id == j) = some t ∧ p t = true := by
  have hm := List.mem_filter.mp (List.mem_of_find?_eq_some h)
  have hj : t.id = j := by have := List.find?_some h; simpa using this
  subst hj
  exact ⟨mem_find hn hm.1, hm.2⟩

theorem stateOk_ended {s : SStream} (k : StateOk s) : StateOk { s with endRecv := true } :=
  ⟨k.sent, k.hcl, fun _ => rfl, k.local_, fun h => by
    rcases k.closed h with h | h | h
    · exact Or.inl h
    · exact Or.inr (Or.inl h)
    · exact Or.inr (Or.inr ⟨h.1, rfl⟩)⟩

/-- What never changes back in a stream. -/
structure Later (j : Nat) (t t' : SStream) : Prop where
  id : t'.id = t.id
  endRecv : t.endRecv = true → t'.endRecv = true
  dispatched : t.dispatched = true → t'.dispatched = true
  headersMain : t.headersMain = true → t'.headersMain = true
  endSent : t.endSent = true → t'.endSent = true
  odd : t'.headersMain = true → t.headersMain = true ∨ j % 2 = 1
  threshold : t'.threshold = t.threshold
  stateOk : StateOk t → StateOk t'
  early : t'.endSent = false → Early t'.state → Early t.state
  idle : t'.state = .idle → t.state = .idle

theorem Later.refl (j : Nat) (t : SStream) : Later j t t :=
  ⟨rfl, fun h => h, fun h => h, fun h => h, fun h => h, Or.inl, rfl, fun h => h, fun _ h => h, fun h => h⟩

/-- How the stream `j` changes in a small step: it is new, or its record `t` becomes `t'`. -/
theorem micro_find {a b : Conn x} {l : List Lab} (m : Micro a l b) {j : Nat} {t' : SStream} (h : b.find j = some t') :
    (a.find j = none ∧ t' = { id := j, peerW := a.initPeer } ∧ l = [.opened j] ∧ j % 2 = 1) ∨
    (a.find j = none ∧ (∃ p, t' = { id := j, state := .reservedLocal, peerW := a.initPeer, parent := p }) ∧ j % 2 = 0 ∧ j ≠ 0) ∨
    (∃ t, a.find j = some t ∧ Later j t t') := by
  have keep : a.find j = some t' → (a.find j = none ∧ t' = { id := j, peerW := a.initPeer } ∧ l = [.opened j] ∧ j % 2 = 1) ∨
    (a.find j = none ∧ (∃ p, t' = { id := j, state := .reservedLocal, peerW := a.initPeer, parent := p }) ∧ j % 2 = 0 ∧ j ≠ 0) ∨
    (∃ t, a.find j = some t ∧ Later j t t') := fun h => Or.inr (Or.inr ⟨t', h, .refl _ _⟩)
  have U : ∀ (c : Conn x) (sid : Nat) (f : SStream → SStream), c.streams = a.streams → (c.upd sid f).find j = some t' →
      (∀ s, (f s).id = s.id) → (∀ t, a.find sid = some t → Later sid t (f t)) →
      (a.find j = none ∧ t' = { id := j, peerW := a.initPeer } ∧ l = [.opened j] ∧ j % 2 = 1) ∨
      (a.find j = none ∧ (∃ p, t' = { id := j, state := .reservedLocal, peerW := a.initPeer, parent := p }) ∧ j % 2 = 0 ∧ j ≠ 0) ∨
      (∃ t, a.find j = some t ∧ Later j t t') := by
    intro c sid f hc h k q
    have hc' : ∀ i, c.find i = a.find i := fun i => by unfold Conn.find; rw [hc]
    rcases find_upd_some h k with ⟨e, t, ht, et⟩ | ⟨e, ht⟩
    · rw [hc'] at ht
      subst e; subst et
      exact Or.inr (Or.inr ⟨t, ht, q t ht⟩)
    · rw [hc'] at ht
      exact keep ht
  cases m with
  | aux _ h1 h2 h3 h4 h5 h6 h7 h8 h9 =>
    apply keep
    unfold Conn.find at h ⊢
    rwa [h1] at h
  | setMax n _ => exact keep h
  | plain o _ => exact keep h
  | die code _ => exact keep h
  | erase sid => exact keep (find_erase_some h).2
  | prune p hn => exact keep (find_filter_some hn h).1
  | soft sid f k hs hpo =>
    rw [find_upd j k] at h
    split at h
    · rename_i e
      cases hf : a.find sid with
      | none => rw [hf] at h; cases h
      | some t =>
        rw [hf] at h
        have e' := (Option.some.inj h).symm
        have hq := hs t hf
        clear hs
        subst e; subst e'
        exact Or.inr (Or.inr ⟨t, hf, ⟨hq.id, by rw [hq.endRecv]; exact id, by rw [hq.dispatched]; exact id, by rw [hq.headersMain]; exact id,
          by rw [hq.endSent]; exact id, by rw [hq.headersMain]; exact Or.inl, hq.threshold, hq.stateOk, fun _ => hq.early, hq.idle⟩⟩)
    · exact keep h
  | rstIn sid code =>
    exact U a _ _ rfl h (fun _ => rfl) (fun t _ => ⟨rfl, id, id, id, id, Or.inl, rfl, fun _ => ⟨fun _ => Or.inr rfl, by simp, by simp, by simp, fun _ => Or.inr (Or.inl rfl)⟩, by simp [Early], by simp⟩)
  | ended sid =>
    exact U a _ _ rfl h (fun _ => rfl) (fun t _ => ⟨rfl, fun _ => rfl, id, id, id, Or.inl, rfl, stateOk_ended, fun _ h => h, fun h => h⟩)
  | opened sid h1 h2 h3 h4 h5 =>
    rcases find_app (c := a) (s := { id := sid, peerW := a.initPeer }) h3 h with ⟨e, et⟩ | ⟨e, ht⟩
    · have e : j = sid := e
      subst e; exact Or.inl ⟨h3, et, rfl, h1⟩
    · exact keep ht
  | pushed sid parent h1 h2 h3 =>
    rcases find_app (c := a) (s := { id := sid, state := .reservedLocal, peerW := a.initPeer, parent := parent }) h3 h with ⟨e, et⟩ | ⟨e, ht⟩
    · have e : j = sid := e
      subst e; exact Or.inr (Or.inl ⟨h3, ⟨parent, et⟩, h1, h2⟩)
    · exact keep ht
  | data s k fin p hs hk hm hp hw ho he hf hf' hh hp' =>
    have h' : (a.upd s.id (fun _ => { s with
          offset := s.offset + k
          peerW := s.peerW - (k : Int)
          endSent := s.endSent || fin
          state := if fin then .halfClosedLocal else s.state
          pending := p })).find j = some t' := h
    rcases find_updc_some hs (by rfl) h' with ⟨e, e'⟩ | ⟨e, h'⟩
    · subst e; subst e'
      refine Or.inr (Or.inr ⟨s, hs, ⟨rfl, id, id, id, ?_, Or.inl, rfl, ?_, by cases fin <;> simp, by cases fin <;> simp⟩⟩)
      · intro h; show (s.endSent || fin) = true; rw [h]; rfl
      · intro hok
        have he := he hok
        cases fin with
        | true => exact ⟨fun _ => Or.inl rfl, fun _ => by simp, by simp, by simp, by simp⟩
        | false =>
          refine ⟨?_, ?_, hok.hcr, hok.local_, ?_⟩
          · intro h; rw [he] at h; simp at h
          · intro h; have := hok.hcl h; rw [he] at this; simp at this
          · intro h
            have := hok.closed h
            show _ ∨ _ ∨ ((s.endSent || false) = true ∧ _)
            rw [Bool.or_false]; exact this
    · exact keep h'
  | rebody sid r b hb =>
    exact U a _ _ rfl h (fun _ => rfl) (fun t _ => ⟨rfl, id, id, id, id, Or.inl, rfl, fun k => ⟨k.sent, k.hcl, k.hcr, k.local_, k.closed⟩, fun _ h => h, fun h => h⟩)
  | start sid r b s block hb' hs he =>
    refine U (a.emit (.headers sid block r.body.isEmpty)) _ _ rfl h (fun _ => rfl) (fun t ht => ?_)
    have : t = s := Option.some.inj (ht.symm.trans hs)
    subst this
    refine ⟨rfl, id, id, id, ?_, Or.inl, rfl, ?_, by cases r.body.isEmpty <;> simp, ?_⟩
    rotate_right
    · cases r.body.isEmpty
      · exact fun h => h
      · show sendEnd t.state = .idle → _
        cases t.state <;> simp [sendEnd]
    · intro h; show (t.endSent || _) = true; rw [h]; rfl
    · intro hok
      have he' := he hok
      have he : t.endSent = false := by
        cases h : t.endSent with
        | false => rfl
        | true => rcases hok.sent h with h1 | h1 <;> rw [h1] at he' <;> simp at he'
      cases hb : r.body.isEmpty with
      | false =>
        refine ⟨?_, ?_, hok.hcr, hok.local_, ?_⟩
        · intro h; rw [he] at h; simp at h
        · intro h; have := hok.hcl h; rw [he] at this; simp at this
        · intro h
          have := hok.closed h
          show _ ∨ _ ∨ ((t.endSent || false) = true ∧ _)
          rw [Bool.or_false]; exact this
      | true =>
        have e1 : ∀ z : Bool, (z || true) = true := by simp
        rcases he' with h' | h'
        · have e2 : sendEnd t.state = .halfClosedLocal := by rw [h']; rfl
          refine ⟨fun _ => Or.inl e2, fun _ => e1 _, fun h => ?_, fun h => ?_, fun h => ?_⟩ <;>
            (have h : sendEnd t.state = _ := h; rw [e2] at h; cases h)
        · have e2 : sendEnd t.state = .closed := by rw [h']; rfl
          refine ⟨fun _ => Or.inr e2, fun h => ?_, fun h => ?_, fun h => ?_, fun _ => Or.inr (Or.inr ⟨e1 _, hok.hcr h'⟩)⟩ <;>
            (have h : sendEnd t.state = _ := h; rw [e2] at h; cases h)
  | trail sid s hs he ho ht =>
    exact U (a.emit (.headers sid [] true)) _ _ rfl h (fun _ => rfl) (fun t _ => ⟨rfl, id, id, id, fun _ => rfl, Or.inl, rfl,
      fun _ => ⟨fun _ => Or.inl rfl, fun _ => rfl, by simp, by simp, by simp⟩, by simp, by simp⟩)
  | recv n => exact keep h
  | dataIn sid n d s hs he =>
    exact U { a with recvW := a.recvW - (n : Int) } _ _ rfl h (fun _ => rfl) (fun t _ => ⟨rfl, id, id, id, id, Or.inl, rfl, fun k => ⟨k.sent, k.hcl, k.hcr, k.local_, k.closed⟩, fun _ h => h, fun h => h⟩)
  | credConn inc _ _ => exact keep h
  | credKeep sid n p s hs hp _ =>
    exact U a _ _ rfl h (fun _ => rfl) (fun t _ => ⟨rfl, id, id, id, id, Or.inl, rfl, fun k => ⟨k.sent, k.hcl, k.hcr, k.local_, k.closed⟩, fun _ h => h, fun h => h⟩)
  | credSend sid n p h0 s hs hp _ =>
    exact U { a with out := _ } _ _ rfl h (fun _ => rfl) (fun t _ => ⟨rfl, id, id, id, id, Or.inl, rfl, fun k => ⟨k.sent, k.hcl, k.hcr, k.local_, k.closed⟩, fun _ h => h, fun h => h⟩)
  | grantConn inc _ => exact keep h
  | grant sid inc s hs hp =>
    exact U a _ _ rfl h (fun _ => rfl) (fun t _ => ⟨rfl, id, id, id, id, Or.inl, rfl, fun k => ⟨k.sent, k.hcl, k.hcr, k.local_, k.closed⟩, fun _ h => h, fun h => h⟩)
  | setInit new => exact keep h
  | shift sid delta =>
    exact U a _ _ rfl h (fun _ => rfl) (fun t _ => ⟨rfl, id, id, id, id, Or.inl, rfl, fun k => ⟨k.sent, k.hcl, k.hcr, k.local_, k.closed⟩, fun _ h => h, fun h => h⟩)
  | head sid hodd fs r cl hr =>
    exact U a _ _ rfl h (fun _ => rfl) (fun t _ => ⟨rfl, id, id, fun _ => rfl, id, fun _ => Or.inr hodd, rfl, fun k => ⟨k.sent, k.hcl, k.hcr, k.local_, k.closed⟩, fun _ h => h, fun h => h⟩)
  | trailers sid fs s hs hm hdrs ht =>
    exact U a _ _ rfl h (fun _ => rfl) (fun t _ => ⟨rfl, id, id, id, id, Or.inl, rfl, fun k => ⟨k.sent, k.hcl, k.hcr, k.local_, k.closed⟩, fun _ h => h, fun h => h⟩)
  | request sid s hs hd h1 h2 h3 h4 h5 =>
    exact U a sid (fun s => { s with dispatched := true }) rfl h (fun _ => rfl) (fun t _ => ⟨rfl, id, fun _ => rfl, id, id, Or.inl, rfl, fun k => ⟨k.sent, k.hcl, k.hcr, k.local_, k.closed⟩, fun _ h => h, fun h => h⟩)

end Verif.Srv
