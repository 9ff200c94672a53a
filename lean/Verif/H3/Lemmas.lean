import Verif.H3.Model
import Verif.H3.Spec
import Verif.Wire.Lemmas

namespace Verif.H3
open Verif.Utility Verif.Wire Verif.Parse Verif.Mid
open Verif.Utility.Spec Verif.Wire.Spec Verif.H3.Spec

theorem lowerName_eq (s : Bytes) : lowerName s = s.map lower := by
  unfold lowerName; rw [show asciiToLower = lower from funext lower_eq]

theorem isNameChar_iff (c : Byte) : isNameChar c = true ↔ c ∈ b!"!#$%&'*+-.^_`|~0123456789abcdefghijklmnopqrstuvwxyz" := by
  revert c; exact forall_byte (by decide +kernel)

theorem all_name_iff (n : Bytes) : n.all isNameChar = true ↔ ∀ c ∈ n, c ∈ b!"!#$%&'*+-.^_`|~0123456789abcdefghijklmnopqrstuvwxyz" := by
  rw [List.all_eq_true]
  exact ⟨fun h c hc => (isNameChar_iff c).1 (h c hc), fun h c hc => (isNameChar_iff c).2 (h c hc)⟩

theorem validValue_iff (v : Bytes) : validValue v = true ↔ FieldValue v := by
  unfold validValue FieldValue
  rw [List.all_eq_true]
  have hb : ∀ c : Byte, (!(c == 0 || c == 13 || c == 10) && !((c < 32 && c != 9) || c == 127)) = true ↔ (c = 9 ∨ (32 ≤ c.toNat ∧ c.toNat ≠ 127)) :=
    forall_byte (by decide +kernel)
  exact ⟨fun h c hc => (hb c).1 (h c hc), fun h c hc => (hb c).2 (h c hc)⟩

theorem validField_iff (f : Field) : validField f = true ↔ Regular f := by
  unfold validField Regular LowerToken Value maxName maxValue
  rw [← all_name_iff, ← validValue_iff]
  by_cases h0 : f.1 = []
  · simp [h0]
  by_cases h1 : f.1.length > 1024
  · simp [h1] <;> omega
  by_cases h2 : f.2.length > 8192
  · simp [h2]
  rw [if_neg (by simp [h0]; omega)]
  rw [Bool.and_eq_true]
  constructor
  · rintro ⟨a, b⟩; exact ⟨⟨h0, a⟩, by omega, b, by omega⟩
  · rintro ⟨⟨-, a⟩, -, b, -⟩; exact ⟨a, b⟩

theorem colon_not_token (t : Bytes) : ¬ LowerToken (c!":" :: t) := by
  intro h
  have := h.2 c!":" List.mem_cons_self
  revert this; decide

theorem validIncoming_iff (f : Field) : validIncoming f = true ↔ Incoming f := by
  obtain ⟨n, v⟩ := f
  unfold validIncoming Incoming Value maxName maxValue
  rw [← validValue_iff]
  simp only
  cases n with
  | nil => simp [LowerToken]
  | cons c t =>
    by_cases h1 : (c :: t).length > 1024
    · rw [if_pos (by simp only [h1]; simp)]
      simp only [Bool.false_eq_true, false_iff]
      rintro ⟨-, h, -⟩; omega
    by_cases h2 : v.length > 8192
    · rw [if_pos (by simp only [h2]; simp)]
      simp only [Bool.false_eq_true, false_iff]
      rintro ⟨-, -, -, h⟩; omega
    rw [if_neg (by simp only [List.isEmpty_cons, Bool.false_or, Bool.or_eq_true, decide_eq_true_eq]; omega)]
    by_cases hc : c = c!":"
    · subst hc
      simp only [List.head?_cons, beq_self_eq_true, if_true, List.drop_succ_cons, List.drop_zero, Bool.true_and, Bool.and_eq_true]
      constructor
      · rintro ⟨⟨a, b⟩, hv⟩
        refine ⟨.inr ⟨t, ⟨?_, (all_name_iff t).1 a⟩, rfl⟩, by omega, hv, by omega⟩
        intro e; subst e; simp at b
      · rintro ⟨h | ⟨u, h, e⟩, -, hv, -⟩
        · exact absurd h (colon_not_token t)
        · cases e
          refine ⟨⟨(all_name_iff t).2 h.2, ?_⟩, hv⟩
          cases t with
          | nil => exact absurd rfl h.1
          | cons => simp
    · have : ((c :: t).head? == some c!":") = false := by simp [hc]
      rw [this]
      simp only [Bool.false_eq_true, if_false, Bool.false_and, Bool.not_false, Bool.and_true, Bool.and_eq_true]
      constructor
      · rintro ⟨a, hv⟩
        exact ⟨.inl ⟨by simp, (all_name_iff _).1 a⟩, by omega, hv, by omega⟩
      · rintro ⟨h | ⟨u, h, e⟩, -, hv, -⟩
        · exact ⟨(all_name_iff _).2 h.2, hv⟩
        · cases e; exact absurd rfl hc

theorem lower_token {n : Bytes} (h : LowerToken n) : n.map lower = n := by
  have hb : ∀ c : Byte, c ∈ b!"!#$%&'*+-.^_`|~0123456789abcdefghijklmnopqrstuvwxyz" → lower c = c := forall_byte (by decide +kernel)
  conv => rhs; rw [← List.map_id n]
  exact List.map_congr_left fun c hc => hb c (h.2 c hc)

theorem isForbidden_iff (n : Bytes) : isForbidden n = true ↔ ConnectionField n := by
  unfold isForbidden ConnectionField connectionFields SameName
  simp only [lowerName_eq, Bool.or_eq_true, beq_iff_eq, List.mem_cons, List.not_mem_nil, or_false]
  have e : ∀ m : Bytes, m ∈ connectionFields → m.map lower = m := by decide +kernel
  constructor
  · rintro ((((((h | h) | h) | h) | h) | h) | h)
    · exact ⟨b!"connection", by simp, h.trans (by decide +kernel)⟩
    · exact ⟨b!"keep-alive", by simp, h.trans (by decide +kernel)⟩
    · exact ⟨b!"proxy-connection", by simp, h.trans (by decide +kernel)⟩
    · exact ⟨b!"proxy-authenticate", by simp, h.trans (by decide +kernel)⟩
    · exact ⟨b!"proxy-authorization", by simp, h.trans (by decide +kernel)⟩
    · exact ⟨b!"transfer-encoding", by simp, h.trans (by decide +kernel)⟩
    · exact ⟨b!"upgrade", by simp, h.trans (by decide +kernel)⟩
  · rintro ⟨m, (rfl | rfl | rfl | rfl | rfl | rfl | rfl), h⟩ <;> rw [h] <;> decide +kernel

theorem lower_head (n : Bytes) : (n.map lower).head? = some c!":" ↔ Pseudo n := by
  have hb : ∀ c : Byte, lower c = c!":" ↔ c = c!":" := forall_byte (by decide +kernel)
  cases n with
  | nil => simp [Pseudo]
  | cons c t =>
    rw [List.map_cons, List.head?_cons, Option.some.injEq, hb]
    exact ⟨fun h => ⟨t, by rw [h]⟩, fun ⟨u, h⟩ => by cases h; rfl⟩

theorem lower_idem (n : Bytes) : (n.map lower).map lower = n.map lower := by
  have hb : ∀ c : Byte, lower (lower c) = lower c := forall_byte (by decide +kernel)
  rw [List.map_map]
  exact List.map_congr_left fun c _ => hb c

theorem isForbiddenTrailer_iff (n : Bytes) : isForbiddenTrailer n = true ↔
    n = [] ∨ Pseudo n ∨ SameName n b!"content-length" ∨ SameName n b!"trailer" ∨ ConnectionField n := by
  unfold isForbiddenTrailer SameName
  have e1 : (b!"content-length").map lower = b!"content-length" := by decide
  have e2 : (b!"trailer").map lower = b!"trailer" := by decide
  have e3 : ConnectionField (n.map lower) ↔ ConnectionField n := by
    unfold ConnectionField SameName; rw [lower_idem]
  simp only [lowerName_eq, Bool.or_eq_true, isForbidden_iff, e1, e2, e3, beq_iff_eq, lower_head, List.isEmpty_iff, List.map_eq_nil_iff, or_assoc]

/-! ### Numbers -/

theorem takeWhile_all {p : α → Bool} : ∀ {s : List α}, s.dropWhile p = [] → s.takeWhile p = s := by
  intro s h
  have := List.takeWhile_append_dropWhile (p := p) (l := s)
  rw [h, List.append_nil] at this
  exact this

theorem dropWhile_all {p : α → Bool} : ∀ {s : List α}, (∀ c ∈ s, p c = true) → s.dropWhile p = []
  | [], _ => rfl
  | c :: s, h => by
    rw [List.dropWhile_cons, if_pos (h c List.mem_cons_self)]
    exact dropWhile_all fun d hd => h d (List.mem_cons_of_mem _ hd)

theorem fromDigits_iff (b : Nat) (s : Bytes) (n : Nat) : fromDigits b s = some (n, []) ↔ Decimal s n ∧ n < b := by
  unfold fromDigits
  simp only
  constructor
  · intro h
    split at h
    · cases h
    next h0 =>
    split at h
    · cases h
    next h1 =>
    have h := Option.some.inj h
    have hd : s.dropWhile isDigit = [] := congrArg Prod.snd h
    have hn := congrArg Prod.fst h
    simp only at hn
    have hs := takeWhile_all hd
    rw [hs] at h0 hn h1
    have hall : s.all isDigit = true := by
      rw [← hs, List.all_takeWhile]
    refine ⟨?_, by omega⟩
    rw [← hn]
    exact digits_decimal h0 hall
  · rintro ⟨h, hb⟩
    have hall : ∀ c ∈ s, isDigit c = true := fun c hc => (isDigit_iff c).2 (h.digits c hc)
    have h2 : s.dropWhile isDigit = [] := dropWhile_all hall
    have h1 : s.takeWhile isDigit = s := takeWhile_all h2
    have hv : digitsValue s = n := (digits_decimal h.ne (List.all_eq_true.2 hall)).unique h
    rw [h1, h2, if_neg h.ne, hv, if_neg (by omega)]

theorem parseLength_iff (v : Bytes) (n : Nat) : parseLength v = some n ↔ Decimal v n ∧ n < 2 ^ 64 := by
  rw [← fromDigits_iff]
  unfold parseLength
  split
  · next m h => rw [h]; simp
  · next h => 
    constructor
    · intro h'; cases h'
    · intro h'; exact absurd h' (h n)

theorem parseStatus_iff (v : Bytes) (n : Nat) : parseStatus v = some n ↔ Decimal v n ∧ 100 ≤ n ∧ n ≤ 999 := by
  have := fromDigits_iff (2 ^ 31) v
  unfold parseStatus
  split
  · next m h =>
    have hm := (this m).1 h
    split
    · next hc =>
      simp only [Bool.or_eq_true, decide_eq_true_eq] at hc
      constructor
      · intro h'; cases h'
      · rintro ⟨a, b, c⟩
        have := a.unique hm.1
        omega
    · next hc =>
      simp only [Bool.or_eq_true, decide_eq_true_eq] at hc
      constructor
      · intro h'; cases h'; exact ⟨hm.1, by omega, by omega⟩
      · rintro ⟨a, b, c⟩; rw [a.unique hm.1]
  · next h =>
    constructor
    · intro h'; cases h'
    · rintro ⟨a, b, c⟩
      exact absurd ((this n).2 ⟨a, by omega⟩) (h n)

theorem lengthLoop_iff (vs : List Bytes) (acc r : Option Nat) : lengthLoop acc vs = some r ↔
    (vs = [] ∧ r = acc) ∨ (vs ≠ [] ∧ ∃ n, r = some n ∧ (acc = none ∨ acc = some n) ∧ ∀ v ∈ vs, parseLength v = some n) := by
  induction vs generalizing acc with
  | nil => simp [lengthLoop, eq_comm]
  | cons v vs ih =>
    rw [lengthLoop]
    cases hp : parseLength v with
    | none => simp [hp]
    | some n =>
      simp only
      by_cases ha : acc = none ∨ acc = some n
      · rw [if_neg (by rcases ha with rfl | rfl <;> simp), ih]
        constructor
        · rintro (⟨rfl, rfl⟩ | ⟨h1, m, rfl, h2, h3⟩)
          · exact .inr ⟨by simp, n, rfl, ha, by simp [hp]⟩
          · have : n = m := by simpa using h2
            subst this
            refine .inr ⟨by simp, n, rfl, ha, ?_⟩
            intro w hw
            rcases List.mem_cons.1 hw with rfl | hw
            · exact hp
            · exact h3 w hw
        · rintro (⟨h, -⟩ | ⟨-, m, rfl, h2, h3⟩)
          · cases h
          · have := h3 v List.mem_cons_self
            rw [hp] at this; cases this
            by_cases hv : vs = []
            · exact .inl ⟨hv, rfl⟩
            · exact .inr ⟨hv, n, rfl, .inr rfl, fun w hw => h3 w (List.mem_cons_of_mem _ hw)⟩
      · rw [if_pos]
        · simp only [reduceCtorEq, false_iff]
          rintro (⟨h, -⟩ | ⟨-, m, rfl, h2, h3⟩)
          · cases h
          · have := h3 v List.mem_cons_self
            rw [hp] at this; cases this
            exact ha h2
        · cases acc with
          | none => exact absurd (.inl rfl) ha
          | some k => simp at ha ⊢; exact ha

/-! ### Sections -/

theorem pseudoFirst_iff (fs : List Field) : (pseudoFirst true fs = true ↔ ∀ f ∈ fs, ¬ Pseudo f.1) ∧
    (pseudoFirst false fs = true ↔ ∃ ps rs, fs = ps ++ rs ∧ (∀ f ∈ ps, Pseudo f.1) ∧ ∀ f ∈ rs, ¬ Pseudo f.1) := by
  induction fs with
  | nil => exact ⟨by simp [pseudoFirst], by rw [pseudoFirst]; exact ⟨fun _ => ⟨[], [], rfl, (fun f hf => by cases hf), fun f hf => by cases hf⟩, fun _ => rfl⟩⟩
  | cons f fs ih =>
    obtain ⟨n, v⟩ := f
    have hc : (!n.isEmpty && n.head? == some c!":") = true ↔ Pseudo n := by
      cases n with
      | nil => simp [Pseudo]
      | cons c t => simp [Pseudo]
    by_cases hp : Pseudo n
    · constructor
      · rw [pseudoFirst, if_pos (hc.2 hp)]
        simp [hp]
      · rw [pseudoFirst, if_pos (hc.2 hp), if_neg (by simp), ih.2]
        constructor
        · rintro ⟨ps, rs, rfl, h1, h2⟩
          refine ⟨(n, v) :: ps, rs, rfl, ?_, h2⟩
          intro f hf
          rcases List.mem_cons.1 hf with rfl | hf
          · exact hp
          · exact h1 f hf
        · rintro ⟨ps, rs, e, h1, h2⟩
          cases ps with
          | nil => subst e; exact absurd hp (h2 _ List.mem_cons_self)
          | cons p ps =>
            cases e
            exact ⟨ps, rs, rfl, fun f hf => h1 f (List.mem_cons_of_mem _ hf), h2⟩
    · have hf : ¬ (!n.isEmpty && n.head? == some c!":") = true := fun h => hp (hc.1 h)
      constructor
      · rw [pseudoFirst, if_neg hf, ih.1]; simp [hp]
      · rw [pseudoFirst, if_neg hf, ih.1]
        constructor
        · intro h
          refine ⟨[], (n, v) :: fs, rfl, by simp, ?_⟩
          intro f hf
          rcases List.mem_cons.1 hf with rfl | hf
          · exact hp
          · exact h f hf
        · rintro ⟨ps, rs, e, h1, h2⟩
          cases ps with
          | nil => subst e; exact fun f hf => h2 f (List.mem_cons_of_mem _ hf)
          | cons p ps => cases e; exact absurd (h1 _ List.mem_cons_self) hp

theorem varsLoop_append (role : Role) (x : Vars) (fs gs : List Field) :
    varsLoop role x (fs ++ gs) = (varsLoop role x fs).bind fun x => varsLoop role x gs := by
  induction fs generalizing x with
  | nil => rfl
  | cons f fs ih =>
    rw [List.cons_append, varsLoop, varsLoop]
    cases varsStep role x f with
    | none => rfl
    | some x => exact ih x

/-- The values of `content-length` as the code finds them. -/
def lengthsOf (fs : List Field) : List Bytes := (fs.filter (·.1 == b!"content-length")).map (·.2)

theorem varsLoop_regular (role : Role) (rs : List Field) (x x' : Vars) (h : ∀ f ∈ rs, ¬ Pseudo f.1) :
    varsLoop role x rs = some x' ↔ (∀ f ∈ rs, ¬ ConnectionField f.1) ∧
      ∃ l, lengthLoop x.length (lengthsOf rs) = some l ∧ x' = { x with length := l, headers := rs.foldl (fun h f => push h f.1 f.2) x.headers } := by
  induction rs generalizing x with
  | nil => simp [varsLoop, lengthsOf, lengthLoop, eq_comm]
  | cons f rs ih =>
    have ih := fun x => ih x fun g hg => h g (List.mem_cons_of_mem _ hg)
    have hf := h f List.mem_cons_self
    have n1 : ∀ t, f.1 ≠ c!":" :: t := fun t e => hf ⟨t, e⟩
    have k : ¬ ((!f.1.isEmpty && f.1.head? == some c!":") = true) := by
      cases hn : f.1 with
      | nil => simp
      | cons c t => simp; intro e; subst e; exact n1 t hn
    have hstep : varsStep role x f = if f.1 == b!"content-length" then
          match parseLength f.2 with
          | none => none
          | some n =>
            if x.length.isSome && x.length != some n then none
            else some { x with length := some n, headers := push x.headers f.1 f.2 }
        else if isForbidden f.1 then none
        else some { x with headers := push x.headers f.1 f.2 } := by
      unfold varsStep
      rw [if_neg (by simp; exact n1 _), if_neg (by simp; exact n1 _), if_neg (by simp; exact n1 _), if_neg (by simp; exact n1 _),
        if_neg (by simp; exact n1 _), if_neg k]
      try rfl
    rw [varsLoop, hstep]
    by_cases hl : f.1 = b!"content-length"
    · have hnf : ¬ ConnectionField f.1 := by rw [hl, ← isForbidden_iff]; decide +kernel
      have e : lengthsOf (f :: rs) = f.2 :: lengthsOf rs := by simp [lengthsOf, hl]
      rw [if_pos (by simp [hl]), e, lengthLoop]
      cases hp : parseLength f.2 with
      | none => simp
      | some n =>
        simp only
        by_cases hc : (x.length.isSome && x.length != some n) = true
        · rw [if_pos hc, if_pos hc]; simp
        · rw [if_neg hc, if_neg hc]
          simp only [ih, List.mem_cons, forall_eq_or_imp, hnf, not_false_eq_true, true_and, List.foldl_cons]
    · have e : lengthsOf (f :: rs) = lengthsOf rs := by simp [lengthsOf, hl]
      rw [if_neg (by simp [hl]), e]
      by_cases hc : isForbidden f.1 = true
      · rw [if_pos hc]
        have := (isForbidden_iff _).1 hc
        simp [this]
      · rw [if_neg hc]
        have : ¬ ConnectionField f.1 := fun h => hc ((isForbidden_iff _).2 h)
        simp only [ih, List.mem_cons, forall_eq_or_imp, this, not_false_eq_true, true_and, List.foldl_cons]

theorem find_fold (fs : List Field) (h : Headers) (n : Bytes) :
    (find (fs.foldl (fun h f => push h f.1 f.2) h) n).getD [] = (find h n).getD [] ++ values fs n := by
  induction fs generalizing h with
  | nil => simp [values]
  | cons f fs ih =>
    rw [List.foldl_cons, ih, find_push]
    have hq : iequals f.1 n = true ↔ f.1.map lower = n.map lower := C04_iequals_exact f.1 n
    unfold values
    by_cases he : f.1.map lower = n.map lower
    · rw [if_pos (hq.2 he), List.filter_cons_of_pos (by simp [he])]
      simp
    · rw [if_neg (fun h => he (hq.1 h)), List.filter_cons_of_neg (by simp [he])]

theorem lengthsOf_eq (fs : List Field) (h : ∀ f ∈ fs, LowerToken f.1) : lengthsOf fs = values fs b!"content-length" := by
  unfold lengthsOf values
  congr 1
  apply List.filter_congr
  intro f hf
  rw [lower_token (h f hf), show (b!"content-length").map lower = b!"content-length" by decide]
  by_cases e : f.1 = b!"content-length" <;> simp [e]

end Verif.H3
