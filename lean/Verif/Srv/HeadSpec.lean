import Verif.Srv.Model

/-! # What a valid request head is, and that exactly those are accepted -/

namespace Verif.Srv
open Verif.Stream
open Verif.Wire (Headers)

/-- A regular field of a request that is allowed. -/
structure Regular (f : Field) : Prop where
  nonempty : f.1 ≠ []
  plain : f.1.head? ≠ some c!":"
  valid : isValidHeaderField f.1 f.2 = true
  allowed : isForbiddenHeader f.1 = false
  te : f.1 = b!"te" → isValidTe f.2 = true

/-- The declared length of a request with the regular fields `rs`. -/
structure Declares (rs : List Field) (cl : Option Nat) : Prop where
  all : ∀ f ∈ rs, f.1 = b!"content-length" → ∃ n, parseContentLength f.2 = some n ∧ cl = some n.toNat ∧ n.toNat ≤ MAX_BODY_SIZE
  none : (∀ f ∈ rs, f.1 ≠ b!"content-length") → cl = none

/-- The fields `fs` are the head of the request `r` with declared length `cl`: the four pseudo-headers, each once and
before all others, then regular fields. -/
structure ValidHead (known : Bytes → Bool) (fs : List Field) (r : Request) (cl : Option Nat) : Prop where
  split : ∃ ps rs, fs = ps ++ rs ∧
    ps.Perm [(b!":method", r.method), (b!":scheme", r.scheme), (b!":path", r.path), (b!":authority", r.authority)] ∧
    (∀ f ∈ rs, Regular f) ∧ r.headers = rs.foldl (fun hs f => Parse.push hs f.1 f.2) [] ∧ Declares rs cl
  values : isValidHeaderValue r.method = true ∧ isValidHeaderValue r.scheme = true ∧ isValidHeaderValue r.path = true ∧
    isValidHeaderValue r.authority = true
  path : r.path ≠ []
  authority : r.authority ≠ []
  method : known r.method = true
  body : r.body = []

/-! ## The loop -/

/-- The pseudo-headers read so far. -/
def Head.slots (h : Head) : List Field :=
  h.method.toList.map (fun v => (b!":method", v)) ++ h.scheme.toList.map (fun v => (b!":scheme", v)) ++
    h.path.toList.map (fun v => (b!":path", v)) ++ h.authority.toList.map (fun v => (b!":authority", v))

/-- All values read so far are valid. -/
def Head.vals (h : Head) : Prop := ∀ f ∈ h.slots, isValidHeaderValue f.2 = true

theorem headField_pseudo {h h' : Head} {n v : Bytes} (hp : n.head? = some c!":") (e : headField h n v = .ok h') :
    h.regular = false ∧ h'.regular = false ∧ h'.cl = h.cl ∧ h'.headers = h.headers ∧ isValidHeaderValue v = true ∧ h'.slots.Perm ((n, v) :: h.slots) := by
  unfold headField at e
  have h1 : n.isEmpty = false := by cases n <;> simp at hp ⊢
  rw [h1, hp] at e
  simp only [Bool.false_eq_true, if_false, beq_self_eq_true, if_true] at e
  split at e
  · cases e
  rename_i hr
  split at e
  · cases e
  rename_i hv
  have hr : h.regular = false := by simpa using hr
  have hv : isValidHeaderValue v = true := by simpa using hv
  split at e
  · rename_i k
    split at e
    · cases e
    rename_i z
    have z : h.method = none := by simpa using z
    cases e
    have k : n = b!":method" := by simpa using k
    exact ⟨hr, hr, rfl, rfl, hv, by subst k; simp [Head.slots, z]⟩
  split at e
  · rename_i k
    split at e
    · cases e
    rename_i z
    have z : h.scheme = none := by simpa using z
    cases e
    have k : n = b!":scheme" := by simpa using k
    refine ⟨hr, hr, rfl, rfl, hv, ?_⟩
    subst k
    simp only [Head.slots, z, Option.toList, List.map_nil, List.map_cons, List.append_nil, List.append_assoc]
    exact List.perm_middle
  split at e
  · rename_i k
    split at e
    · cases e
    rename_i z
    have z : h.path = none := by simpa using z
    cases e
    have k : n = b!":path" := by simpa using k
    refine ⟨hr, hr, rfl, rfl, hv, ?_⟩
    subst k
    unfold Head.slots
    rw [z]
    show (_ ++ [_] ++ _ : List Field).Perm (_ :: (_ ++ [] ++ _))
    rw [List.append_nil, List.append_assoc]
    exact List.perm_middle
  split at e
  · rename_i k
    split at e
    · cases e
    rename_i z
    have z : h.authority = none := by simpa using z
    cases e
    have k : n = b!":authority" := by simpa using k
    refine ⟨hr, hr, rfl, rfl, hv, ?_⟩
    subst k
    unfold Head.slots
    rw [z]
    show (_ ++ [_] : List Field).Perm (_ :: (_ ++ []))
    exact List.perm_middle
  · cases e

/-- How the declared length changes with one field. -/
def ClStep (c0 c1 : Option Nat) (f : Field) : Prop :=
  if f.1 = b!"content-length" then
    ∃ n, parseContentLength f.2 = some n ∧ c1 = some n.toNat ∧ n.toNat ≤ MAX_BODY_SIZE ∧ (∀ m, c0 = some m → m = n.toNat)
  else c1 = c0

theorem headField_regular {h : Head} {n v : Bytes} (hp : n.head? ≠ some c!":") (h' : Head) :
    headField h n v = .ok h' ↔ Regular (n, v) ∧ ClStep h.cl h'.cl (n, v) ∧
      h' = { h with regular := true, cl := h'.cl, headers := Parse.push h.headers n v } := by
  unfold headField
  have hpb : (n.head? == some c!":") = false := by simpa using hp
  rw [hpb]
  constructor
  · intro e
    split at e
    · cases e
    rename_i hne
    simp only [Bool.false_eq_true, if_false] at e
    split at e
    · cases e
    rename_i hv
    split at e
    · cases e
    rename_i hf
    simp only [Bool.or_eq_true, Bool.and_eq_true, not_or, Bool.not_eq_true] at hf
    have hreg : Regular (n, v) := by
      refine ⟨?_, hp, by simpa using hv, hf.1, ?_⟩
      · intro z; apply hne; show n.isEmpty = true; have z : n = [] := z; rw [z]; rfl
      · intro z
        have z : n = b!"te" := z
        have := hf.2
        rw [z] at this
        simpa using this
    split at e
    · rename_i hc
      have hc : n = b!"content-length" := by simpa using hc
      split at e
      · cases e
      · rename_i k hk
        by_cases hle : k.toNat > MAX_BODY_SIZE
        · rw [if_pos hle] at e
          cases hcl : h.cl with
          | none => rw [hcl] at e; simp at e
          | some m0 =>
            rw [hcl] at e
            simp only [] at e
            split at e <;> cases e
        rw [if_neg hle] at e
        cases hcl : h.cl with
        | none =>
          rw [hcl] at e
          simp only [Bool.false_eq_true, if_false] at e
          cases e
          refine ⟨hreg, ?_, rfl⟩
          unfold ClStep
          rw [if_pos hc]
          exact ⟨k, hk, rfl, by omega, fun m z => by cases z⟩
        | some m0 =>
          rw [hcl] at e
          simp only [] at e
          split at e
          · cases e
          rename_i hm
          cases e
          refine ⟨hreg, ?_, rfl⟩
          unfold ClStep
          rw [if_pos hc]
          refine ⟨k, hk, rfl, by omega, fun m z => ?_⟩
          rw [← Option.some.inj z]
          simpa using hm
    · rename_i hc
      cases e
      refine ⟨hreg, ?_, rfl⟩
      unfold ClStep
      rw [if_neg (by simpa using hc)]
  · rintro ⟨hreg, hcl, e⟩
    have h1 : n.isEmpty = false := by
      have := hreg.nonempty
      cases n with
      | nil => exact absurd rfl this
      | cons => rfl
    have h2 : isValidHeaderField n v = true := hreg.valid
    have h3 : isForbiddenHeader n = false := hreg.allowed
    rw [h1, h2, h3]
    have h4 : (n == b!"te" && !isValidTe v) = false := by
      by_cases z : n = b!"te"
      · have := hreg.te z
        have this : isValidTe v = true := this
        rw [this]; simp
      · simp [z]
    rw [h4]
    simp only [Bool.false_eq_true, if_false, Bool.not_true, Bool.or_self]
    unfold ClStep at hcl
    split at hcl
    · rename_i hc
      have hc : n = b!"content-length" := hc
      obtain ⟨k, hk, hc1, hle, hm⟩ := hcl
      have hk : parseContentLength v = some k := hk
      rw [if_pos (by simp [hc]), hk]
      simp only []
      have hle' : ¬ k.toNat > MAX_BODY_SIZE := Nat.not_lt.mpr hle
      rw [if_neg hle']
      cases hz : h.cl with
      | none =>
        simp only [Bool.false_eq_true, if_false]
        rw [e, hc1]
      | some m =>
        have : (m != k.toNat) = false := by simp [hm m hz]
        simp only [this, Bool.false_eq_true, if_false]
        rw [e, hc1]
    · rename_i hc
      have hc : ¬ n = b!"content-length" := hc
      rw [if_neg (by simp [hc]), e, hcl]

theorem headLoop_append (a b : List Field) (h : Head) :
    headLoop (a ++ b) h = match headLoop a h with | .error e => .error e | .ok h' => headLoop b h' := by
  induction a generalizing h with
  | nil => rfl
  | cons f a ih =>
    obtain ⟨n, v⟩ := f
    rw [List.cons_append, headLoop, headLoop]
    split
    · rfl
    · exact ih _

/-- The regular fields. -/
theorem headLoop_regular (rs : List Field) (h h' : Head) (hr : h.regular = true ∨ ∃ f fs, rs = f :: fs ∧ f.1.head? ≠ some c!":") :
    headLoop rs h = .ok h' ↔ (∀ f ∈ rs, Regular f) ∧
      (∀ f ∈ rs, f.1 = b!"content-length" → ∃ n, parseContentLength f.2 = some n ∧ h'.cl = some n.toNat ∧ n.toNat ≤ MAX_BODY_SIZE) ∧
      (∀ m, h.cl = some m → h'.cl = some m) ∧ ((∀ f ∈ rs, f.1 ≠ b!"content-length") → h'.cl = h.cl) ∧
      h' = { h with regular := (h.regular || !rs.isEmpty), cl := h'.cl, headers := rs.foldl (fun hs f => Parse.push hs f.1 f.2) h.headers } := by
  induction rs generalizing h with
  | nil =>
    have hr : h.regular = true := by
      rcases hr with hr | ⟨f, fs, e, _⟩
      · exact hr
      · cases e
    constructor
    · intro e
      cases e
      simp
    · rintro ⟨_, _, _, h4, e⟩
      rw [headLoop, e, h4 (by simp)]
      simp
  | cons f rs ih =>
    obtain ⟨n, v⟩ := f
    rw [headLoop]
    by_cases hp : n.head? = some c!":"
    · have hr : h.regular = true := by
        rcases hr with hr | ⟨f, fs, e, k⟩
        · exact hr
        · cases e; exact absurd hp k
      constructor
      · intro e
        split at e
        · cases e
        · rename_i h1 e1
          have := (headField_pseudo hp e1).1
          rw [hr] at this; cases this
      · rintro ⟨k, _⟩
        exact absurd hp (k (n, v) (List.mem_cons_self ..)).plain
    · constructor
      · intro e
        split at e
        · cases e
        · rename_i h1 e1
          obtain ⟨r1, c1, q1⟩ := (headField_regular hp h1).mp e1
          have hr1 : h1.regular = true := by rw [q1]
          obtain ⟨k1, k2, k3, k4, k5⟩ := (ih h1 (Or.inl hr1)).mp e
          have hstep : ∀ m, h.cl = some m → h1.cl = some m := by
            intro m z
            unfold ClStep at c1
            split at c1
            · obtain ⟨w, _, w1, _, w2⟩ := c1
              rw [w1, w2 m z]
            · rw [c1]; exact z
          refine ⟨?_, ?_, fun m z => k3 m (hstep m z), ?_, ?_⟩
          · intro f hf
            rcases List.mem_cons.mp hf with z | z
            · rw [z]; exact r1
            · exact k1 f z
          · intro f hf hc
            rcases List.mem_cons.mp hf with z | z
            · subst z
              unfold ClStep at c1
              rw [if_pos hc] at c1
              obtain ⟨w, w0, w1, w2, _⟩ := c1
              exact ⟨w, w0, k3 _ w1, w2⟩
            · exact k2 f z hc
          · intro hn
            have hc1 : h1.cl = h.cl := by
              unfold ClStep at c1
              rw [if_neg (hn (n, v) (List.mem_cons_self ..))] at c1
              exact c1
            rw [← hc1]
            exact k4 (fun f hf => hn f (List.mem_cons_of_mem _ hf))
          · rw [k5, q1]
            simp
      · rintro ⟨k1, k2, k3, k4, k5⟩
        have r1 := k1 (n, v) (List.mem_cons_self ..)
        have key : ∃ c1, ClStep h.cl c1 (n, v) ∧ (∀ m, c1 = some m → h'.cl = some m) ∧ ((∀ f ∈ rs, f.1 ≠ b!"content-length") → h'.cl = c1) := by
          unfold ClStep
          by_cases hc : n = b!"content-length"
          · obtain ⟨w, w0, w1, w2⟩ := k2 (n, v) (List.mem_cons_self ..) hc
            refine ⟨some w.toNat, ?_, fun m z => by rw [w1, z], fun _ => w1⟩
            rw [if_pos hc]
            refine ⟨w, w0, rfl, w2, fun m z => ?_⟩
            have := k3 m z
            rw [w1] at this
            exact (Option.some.inj this).symm
          · refine ⟨h.cl, ?_, k3, fun hn => k4 (fun f hf => ?_)⟩
            · rw [if_neg hc]
            · rcases List.mem_cons.mp hf with z | z
              · rw [z]; exact hc
              · exact hn f z
        obtain ⟨c1, hc1, hc2, hc3⟩ := key
        have e1 : headField h n v = .ok { h with regular := true, cl := c1, headers := Parse.push h.headers n v } :=
          (headField_regular hp _).mpr ⟨r1, hc1, rfl⟩
        rw [e1]
        simp only []
        refine (ih _ (Or.inl rfl)).mpr ⟨fun f hf => k1 f (List.mem_cons_of_mem _ hf), fun f hf => k2 f (List.mem_cons_of_mem _ hf), hc2, hc3, ?_⟩
        rw [k5]
        simp

/-- Reading pseudo-headers only. -/
theorem headLoop_pseudo {ps : List Field} (hps : ∀ f ∈ ps, f.1.head? = some c!":") {h h' : Head} (e : headLoop ps h = .ok h') :
    h'.regular = h.regular ∧ h'.cl = h.cl ∧ h'.headers = h.headers ∧ (∀ f ∈ ps, isValidHeaderValue f.2 = true) ∧ h'.slots.Perm (ps ++ h.slots) := by
  induction ps generalizing h with
  | nil => cases e; simp
  | cons f ps ih =>
    obtain ⟨n, v⟩ := f
    rw [headLoop] at e
    split at e
    · cases e
    · rename_i h1 e1
      obtain ⟨q1, q2, q3, q4, q5, q6⟩ := headField_pseudo (hps (n, v) (List.mem_cons_self ..)) e1
      obtain ⟨k1, k2, k3, k4, k5⟩ := ih (fun f hf => hps f (List.mem_cons_of_mem _ hf)) e
      refine ⟨k1.trans (q2.trans q1.symm), k2.trans q3, k3.trans q4, ?_, ?_⟩
      · intro f hf
        rcases List.mem_cons.mp hf with z | z
        · rw [z]; exact q5
        · exact k4 f z
      · refine k5.trans ((List.Perm.append_left ps q6).trans ?_)
        exact List.perm_middle

/-- Splitting a head that was accepted. -/
theorem headLoop_split (fs : List Field) (h h' : Head) (e : headLoop fs h = .ok h') :
    ∃ ps rs, fs = ps ++ rs ∧ (∀ f ∈ ps, f.1.head? = some c!":") ∧ (rs = [] ∨ ∃ f t, rs = f :: t ∧ f.1.head? ≠ some c!":") ∧
      ∃ h1, headLoop ps h = .ok h1 ∧ headLoop rs h1 = .ok h' := by
  induction fs generalizing h with
  | nil => exact ⟨[], [], rfl, by simp, Or.inl rfl, h, rfl, e⟩
  | cons f fs ih =>
    obtain ⟨n, v⟩ := f
    by_cases hp : n.head? = some c!":"
    · rw [headLoop] at e
      split at e
      · cases e
      · rename_i h1 e1
        obtain ⟨ps, rs, q1, q2, q3, h2, q4, q5⟩ := ih h1 e
        refine ⟨(n, v) :: ps, rs, by rw [q1]; rfl, ?_, q3, h2, ?_, q5⟩
        · intro f hf
          rcases List.mem_cons.mp hf with z | z
          · rw [z]; exact hp
          · exact q2 f z
        · rw [headLoop, e1]; exact q4
    · exact ⟨[], (n, v) :: fs, rfl, by simp, Or.inr ⟨_, _, rfl, hp⟩, h, rfl, e⟩

/-- One of the four slots. -/
inductive Slot (h : Head) (n v : Bytes) (h1 : Head) : Prop
  | method (e : n = b!":method") (z : h.method = none) (e1 : h1 = { h with method := some v })
  | scheme (e : n = b!":scheme") (z : h.scheme = none) (e1 : h1 = { h with scheme := some v })
  | path (e : n = b!":path") (z : h.path = none) (e1 : h1 = { h with path := some v })
  | authority (e : n = b!":authority") (z : h.authority = none) (e1 : h1 = { h with authority := some v })

theorem headField_slot {h h1 : Head} {n v : Bytes} (hn : n.head? = some c!":") :
    headField h n v = .ok h1 ↔ h.regular = false ∧ isValidHeaderValue v = true ∧ Slot h n v h1 := by
  have n0 : n.isEmpty = false := by cases n <;> simp at hn ⊢
  have en : (n.head? == some c!":") = true := by rw [hn]; rfl
  unfold headField
  rw [n0, en]
  simp only [Bool.false_eq_true, if_false, if_true]
  constructor
  · intro e
    split at e
    · cases e
    rename_i hr
    split at e
    · cases e
    rename_i hv
    refine ⟨by simpa using hr, by simpa using hv, ?_⟩
    split at e
    · rename_i k
      split at e
      · cases e
      rename_i z
      cases e
      exact .method (by simpa using k) (by simpa using z) rfl
    split at e
    · rename_i k
      split at e
      · cases e
      rename_i z
      cases e
      exact .scheme (by simpa using k) (by simpa using z) rfl
    split at e
    · rename_i k
      split at e
      · cases e
      rename_i z
      cases e
      exact .path (by simpa using k) (by simpa using z) rfl
    split at e
    · rename_i k
      split at e
      · cases e
      rename_i z
      cases e
      exact .authority (by simpa using k) (by simpa using z) rfl
    · cases e
  · rintro ⟨hr, hv, k⟩
    obtain ⟨hm, hs, hp, ha, hreg, hcl, hh⟩ := h
    have hr : hreg = false := hr
    subst hr
    rw [hv]
    cases k with
    | method e z e1 => have z : hm = none := z; subst e; subst z; rw [e1]; rfl
    | scheme e z e1 => have z : hs = none := z; subst e; subst z; rw [e1]; rfl
    | path e z e1 => have z : hp = none := z; subst e; subst z; rw [e1]; rfl
    | authority e z e1 => have z : ha = none := z; subst e; subst z; rw [e1]; rfl

/-- Two pseudo-headers may be read in either order. -/
theorem headField_swap {h h1 h2 : Head} {n v m w : Bytes} (hn : n.head? = some c!":") (hm : m.head? = some c!":")
    (e1 : headField h n v = .ok h1) (e2 : headField h1 m w = .ok h2) :
    ∃ h3, headField h m w = .ok h3 ∧ headField h3 n v = .ok h2 := by
  obtain ⟨r1, v1, k1⟩ := (headField_slot hn).mp e1
  obtain ⟨r2, v2, k2⟩ := (headField_slot hm).mp e2
  cases k1 with
  | method a b c =>
    subst c
    cases k2 with
    | method a' b' c' => cases b'
    | scheme a' b' c' => subst c'; exact ⟨_, (headField_slot hm).mpr ⟨r1, v2, .scheme a' b' rfl⟩, (headField_slot hn).mpr ⟨r1, v1, .method a b rfl⟩⟩
    | path a' b' c' => subst c'; exact ⟨_, (headField_slot hm).mpr ⟨r1, v2, .path a' b' rfl⟩, (headField_slot hn).mpr ⟨r1, v1, .method a b rfl⟩⟩
    | authority a' b' c' => subst c'; exact ⟨_, (headField_slot hm).mpr ⟨r1, v2, .authority a' b' rfl⟩, (headField_slot hn).mpr ⟨r1, v1, .method a b rfl⟩⟩
  | scheme a b c =>
    subst c
    cases k2 with
    | method a' b' c' => subst c'; exact ⟨_, (headField_slot hm).mpr ⟨r1, v2, .method a' b' rfl⟩, (headField_slot hn).mpr ⟨r1, v1, .scheme a b rfl⟩⟩
    | scheme a' b' c' => cases b'
    | path a' b' c' => subst c'; exact ⟨_, (headField_slot hm).mpr ⟨r1, v2, .path a' b' rfl⟩, (headField_slot hn).mpr ⟨r1, v1, .scheme a b rfl⟩⟩
    | authority a' b' c' => subst c'; exact ⟨_, (headField_slot hm).mpr ⟨r1, v2, .authority a' b' rfl⟩, (headField_slot hn).mpr ⟨r1, v1, .scheme a b rfl⟩⟩
  | path a b c =>
    subst c
    cases k2 with
    | method a' b' c' => subst c'; exact ⟨_, (headField_slot hm).mpr ⟨r1, v2, .method a' b' rfl⟩, (headField_slot hn).mpr ⟨r1, v1, .path a b rfl⟩⟩
    | scheme a' b' c' => subst c'; exact ⟨_, (headField_slot hm).mpr ⟨r1, v2, .scheme a' b' rfl⟩, (headField_slot hn).mpr ⟨r1, v1, .path a b rfl⟩⟩
    | path a' b' c' => cases b'
    | authority a' b' c' => subst c'; exact ⟨_, (headField_slot hm).mpr ⟨r1, v2, .authority a' b' rfl⟩, (headField_slot hn).mpr ⟨r1, v1, .path a b rfl⟩⟩
  | authority a b c =>
    subst c
    cases k2 with
    | method a' b' c' => subst c'; exact ⟨_, (headField_slot hm).mpr ⟨r1, v2, .method a' b' rfl⟩, (headField_slot hn).mpr ⟨r1, v1, .authority a b rfl⟩⟩
    | scheme a' b' c' => subst c'; exact ⟨_, (headField_slot hm).mpr ⟨r1, v2, .scheme a' b' rfl⟩, (headField_slot hn).mpr ⟨r1, v1, .authority a b rfl⟩⟩
    | path a' b' c' => subst c'; exact ⟨_, (headField_slot hm).mpr ⟨r1, v2, .path a' b' rfl⟩, (headField_slot hn).mpr ⟨r1, v1, .authority a b rfl⟩⟩
    | authority a' b' c' => cases b'

theorem headLoop_perm {ps qs : List Field} (p : ps.Perm qs) (hps : ∀ f ∈ ps, f.1.head? = some c!":") {h h' : Head} (e : headLoop ps h = .ok h') :
    headLoop qs h = .ok h' := by
  induction p generalizing h with
  | nil => exact e
  | cons f p ih =>
    obtain ⟨n, v⟩ := f
    rw [headLoop] at e ⊢
    split at e
    · cases e
    · exact ih (fun f hf => hps f (List.mem_cons_of_mem _ hf)) e
  | swap f g l =>
    obtain ⟨n, v⟩ := f
    obtain ⟨m, w⟩ := g
    rw [headLoop] at e
    split at e
    · cases e
    rename_i h1 e1
    rw [headLoop] at e
    split at e
    · cases e
    rename_i h2 e2
    obtain ⟨h3, q1, q2⟩ := headField_swap (hps (m, w) (by simp)) (hps (n, v) (by simp)) e1 e2
    rw [headLoop, q1]
    simp only []
    rw [headLoop, q2]
    exact e
  | trans p1 p2 ih1 ih2 => exact ih2 (fun f hf => hps f (p1.mem_iff.mpr hf)) (ih1 hps e)

/-- The head of a request is accepted, with this request and declared length, exactly if it is valid. -/
theorem requestHead_iff (known : Bytes → Bool) (fs : List Field) (r : Request) (cl : Option Nat) :
    requestHead known fs = .ok (r, cl) ↔ ValidHead known fs r cl := by
  constructor
  · intro e
    unfold requestHead at e
    split at e
    · cases e
    rename_i h e1
    split at e
    · cases e
    rename_i r' e2
    have er : r' = r := congrArg Prod.fst (Except.ok.inj e)
    have ec : h.cl = cl := congrArg Prod.snd (Except.ok.inj e)
    subst er; subst ec
    obtain ⟨ps, rs, q1, q2, q3, h1, q4, q5⟩ := headLoop_split fs {} h e1
    obtain ⟨k1, k2, k3, k4, k5⟩ := headLoop_pseudo q2 q4
    have hrs : (∀ f ∈ rs, Regular f) ∧ h.headers = rs.foldl (fun hs f => Parse.push hs f.1 f.2) [] ∧ Declares rs h.cl ∧ h.slots = h1.slots := by
      rcases q3 with q3 | q3
      · subst q3
        cases q5
        exact ⟨by simp, k3, ⟨by simp, fun _ => k2⟩, rfl⟩
      · obtain ⟨z1, z2, z3, z4, z5⟩ := (headLoop_regular rs h1 h (Or.inr q3)).mp q5
        refine ⟨z1, ?_, ⟨z2, fun hn => (z4 hn).trans k2⟩, ?_⟩
        · rw [z5, k3]
        · rw [z5]; rfl
    obtain ⟨w1, w2, w3, w4⟩ := hrs
    unfold headCheck at e2
    split at e2
    rotate_left
    · cases e2
    rename_i m s p em es ep
    split at e2
    · cases e2
    rename_i hp
    split at e2
    · cases e2
    rename_i a ea
    split at e2
    · cases e2
    rename_i ha
    split at e2
    · cases e2
    rename_i hk
    cases e2
    have e0 : ({} : Head).slots = [] := rfl
    rw [e0, List.append_nil, ← w4] at k5
    have es' : h.slots = [(b!":method", m), (b!":scheme", s), (b!":path", p), (b!":authority", a)] := by
      unfold Head.slots; rw [em, es, ep, ea]; rfl
    rw [es'] at k5
    have val : ∀ f ∈ [(b!":method", m), (b!":scheme", s), (b!":path", p), (b!":authority", a)], isValidHeaderValue f.2 = true :=
      fun f hf => k4 f (k5.mem_iff.mp hf)
    refine ⟨⟨ps, rs, q1, k5.symm, w1, w2, w3⟩, ⟨val _ (List.mem_cons_self ..), val _ (List.mem_cons_of_mem _ (List.mem_cons_self ..)), val _ (List.mem_cons_of_mem _ (List.mem_cons_of_mem _ (List.mem_cons_self ..))),
      val _ (List.mem_cons_of_mem _ (List.mem_cons_of_mem _ (List.mem_cons_of_mem _ (List.mem_cons_self ..))))⟩, ?_, ?_, by simpa using hk, rfl⟩
    · intro z
      have z : p = [] := z
      rw [z] at hp; exact hp rfl
    · intro z
      have z : a = [] := z
      rw [z] at ha; exact ha rfl
  · rintro ⟨⟨ps, rs, q1, q2, q3, q4, q5⟩, ⟨v1, v2, v3, v4⟩, hp, ha, hk, hb⟩
    have base : headLoop [(b!":method", r.method), (b!":scheme", r.scheme), (b!":path", r.path), (b!":authority", r.authority)] {} =
        .ok { method := some r.method, scheme := some r.scheme, path := some r.path, authority := some r.authority } := by
      have f1 : ∀ h : Head, h.regular = false → h.method = none → headField h b!":method" r.method = .ok { h with method := some r.method } :=
        fun h a b => (headField_slot rfl).mpr ⟨a, v1, .method rfl b rfl⟩
      have f2 : ∀ h : Head, h.regular = false → h.scheme = none → headField h b!":scheme" r.scheme = .ok { h with scheme := some r.scheme } :=
        fun h a b => (headField_slot rfl).mpr ⟨a, v2, .scheme rfl b rfl⟩
      have f3 : ∀ h : Head, h.regular = false → h.path = none → headField h b!":path" r.path = .ok { h with path := some r.path } :=
        fun h a b => (headField_slot rfl).mpr ⟨a, v3, .path rfl b rfl⟩
      have f4 : ∀ h : Head, h.regular = false → h.authority = none → headField h b!":authority" r.authority = .ok { h with authority := some r.authority } :=
        fun h a b => (headField_slot rfl).mpr ⟨a, v4, .authority rfl b rfl⟩
      rw [headLoop, f1 _ rfl rfl]
      simp only []
      rw [headLoop, f2 _ rfl rfl]
      simp only []
      rw [headLoop, f3 _ rfl rfl]
      simp only []
      rw [headLoop, f4 _ rfl rfl]
      simp only []
      rw [headLoop]
    have b1 := headLoop_perm q2.symm (by intro f hf; simp only [List.mem_cons, List.not_mem_nil, or_false] at hf; rcases hf with z | z | z | z <;> subst z <;> rfl) base
    have b2 : headLoop fs {} = .ok {
        method := some r.method, scheme := some r.scheme, path := some r.path, authority := some r.authority
        regular := !rs.isEmpty, cl := cl, headers := r.headers } := by
      rw [q1, headLoop_append, b1]
      simp only []
      cases rs with
      | nil =>
        rw [headLoop, q5.none (by simp), q4]
        rfl
      | cons f t =>
        refine (headLoop_regular (f :: t) _ _ (Or.inr ⟨f, t, rfl, (q3 f (List.mem_cons_self ..)).plain⟩)).mpr
          ⟨q3, q5.all, fun m z => (by cases z), fun hn => q5.none hn, ?_⟩
        rw [q4]; rfl
    unfold requestHead
    rw [b2]
    have p0 : r.path.isEmpty = false := by cases h : r.path <;> simp_all
    have a0 : r.authority.isEmpty = false := by cases h : r.authority <;> simp_all
    simp only [headCheck]
    rw [p0, a0, hk]
    simp only [Bool.false_eq_true, if_false, Bool.not_true]
    cases r
    simp_all

end Verif.Srv
