import Verif.Cookie.TheoremsParse

/-! C69: `parse_cookies`. -/

namespace Verif.Cookie
open Utility Utility.Spec Spec

theorem ieq {a b : Bytes} : iequals a b = true ↔ SameName a b := C04_iequals_exact a b

theorem SameName.symm {a b : Bytes} (h : SameName a b) : SameName b a := Eq.symm h
theorem SameName.trans {a b c : Bytes} (h : SameName a b) (g : SameName b c) : SameName a c := Eq.trans h g
theorem SameName.refl (a : Bytes) : SameName a a := rfl

/-! ### dictionaries -/

theorem lookup_some {α} {d : List (Bytes × α)} {k : Bytes} {v : α} (h : lookup d k = some v) :
    ∃ n, (n, v) ∈ d ∧ SameName n k := by
  unfold lookup at h
  cases hf : d.find? (fun e => iequals e.1 k) with
  | none => simp [hf] at h
  | some e =>
    simp [hf] at h; subst h
    exact ⟨e.1, List.mem_of_find?_eq_some hf, ieq.1 (by simpa using List.find?_some hf)⟩

theorem lookup_none {α} {d : List (Bytes × α)} {k : Bytes} : lookup d k = none ↔ ∀ e ∈ d, ¬ SameName e.1 k := by
  unfold lookup
  simp only [Option.map_eq_none_iff, List.find?_eq_none, ← ieq]

theorem lookup_append {α} (d : List (Bytes × α)) (n k : Bytes) (v : α) :
    lookup (d ++ [(n, v)]) k = (lookup d k).or (if iequals n k then some v else none) := by
  unfold lookup
  rw [List.find?_append]
  cases d.find? (fun e => iequals e.1 k) with
  | some e => simp
  | none => cases h : iequals n k <;> simp [h]

theorem lookup_emplace {α} (d : List (Bytes × α)) (n k : Bytes) (v : α) :
    lookup (emplace d n v) k = (lookup d k).or (if iequals n k then some v else none) := by
  unfold emplace
  by_cases h : (lookup d n).isSome = true
  · rw [if_pos h]
    cases hn : iequals n k with
    | false => simp
    | true =>
      obtain ⟨w, hw⟩ := Option.isSome_iff_exists.1 h
      obtain ⟨m, hm, hs⟩ := lookup_some hw
      have : lookup d k ≠ none := fun hc => lookup_none.1 hc _ hm (SameName.trans hs (ieq.1 hn))
      cases hl : lookup d k with
      | none => exact absurd hl this
      | some x => simp
  · rw [if_neg h, lookup_append]

/-! ### well-formed headers -/

theorem loop_append (sc : Bool) (p : Ps) (a b : Bytes) : loop sc p (a ++ b) = (loop sc p a).bind (loop sc · b) := by
  induction a generalizing p with
  | nil => rfl
  | cons c a ih =>
    rw [List.cons_append, loop, loop]
    cases step sc p c with
    | none => rfl
    | some p' => exact ih p'

theorem not_control {c : UInt8} (h : ¬ Ctl c) : isControl c = false := by
  rw [Bool.eq_false_iff]; exact fun h' => h ((isControl_iff c).1 h')
theorem not_ws {c : UInt8} (h : ¬ Ows c) : isWs c = false := by
  rw [Bool.eq_false_iff]; exact fun h' => h ((isWs_iff_ows c).1 h')

theorem step_name (sc : Bool) (p : Ps) (hp : p.st = .name) (c : UInt8) : step sc p c = stepName sc p c := by
  unfold step; rw [hp]
theorem step_value (sc : Bool) (p : Ps) (hp : p.st = .value) (hq : p.quote = none) (c : UInt8) :
    step sc p c = stepValue sc p c := by
  unfold step; rw [hp, hq]
theorem step_quoted (sc : Bool) (p : Ps) (q : UInt8) (hp : p.st = .value) (hq : p.quote = some q) (c : UInt8) :
    step sc p c = stepQuoted sc q p c := by
  unfold step; rw [hp, hq]

theorem loop_name (p : Ps) (hp : p.st = .name) (cs : Bytes) (hl : p.name.length + cs.length ≤ 1024)
    (h : ∀ c ∈ cs, c ≠ c!"=" ∧ c ≠ c!";" ∧ ¬ Ows c ∧ ¬ Ctl c) :
    loop false p cs = some { p with name := p.name ++ cs } := by
  induction cs generalizing p with
  | nil => simp [loop]
  | cons c cs ih =>
    obtain ⟨h1, h2, h3, h4⟩ := h c (by simp)
    have hs : step false p c = some { p with name := p.name ++ [c] } := by
      rw [step_name _ _ hp]
      unfold stepName
      simp only [List.length_cons] at hl
      simp [h1, h2, not_ws h3, not_control h4]
      omega
    rw [loop, hs]
    simp only []
    rw [ih { p with name := p.name ++ [c] } hp (by simp at hl ⊢; omega) (fun x hx => h x (by simp [hx]))]
    simp

theorem loop_value_run (p : Ps) (hp : p.st = .value) (hq : p.quote = none) (hv : p.value ≠ []) (cs : Bytes)
    (hl : p.value.length + cs.length ≤ 4096) (h : ∀ c ∈ cs, c ≠ c!";" ∧ ¬ Ctl c) :
    loop false p cs = some { p with value := p.value ++ cs } := by
  induction cs generalizing p with
  | nil => simp [loop]
  | cons c cs ih =>
    obtain ⟨h1, h2⟩ := h c (by simp)
    have hs : step false p c = some { p with value := p.value ++ [c] } := by
      rw [step_value _ _ hp hq]
      unfold stepValue
      simp only [List.length_cons] at hl
      simp [h1, hv, not_control h2]
      omega
    rw [loop, hs]
    simp only []
    rw [ih { p with value := p.value ++ [c] } hp hq (by simp) (by simp at hl ⊢; omega) (fun x hx => h x (by simp [hx]))]
    simp

theorem loop_value (p : Ps) (hp : p.st = .value) (hq : p.quote = none) (hv : p.value = []) (cs : Bytes)
    (h : CookieValue cs) : loop false p cs = some { p with value := cs } := by
  obtain ⟨hl, hc, hh⟩ := h
  cases cs with
  | nil => rw [loop]; cases p; simp_all
  | cons c cs =>
    obtain ⟨h1, h2⟩ := hc c (by simp)
    obtain ⟨h3, h4, h5⟩ := hh c rfl
    have hs : step false p c = some { p with value := [c] } := by
      rw [step_value _ _ hp hq]
      unfold stepValue
      simp [h1, hv, not_ws h3, not_control h2, h4, h5]
    rw [loop, hs]
    simp only []
    rw [loop_value_run { p with value := [c] } hp hq (by simp) cs (by simp at hl ⊢; omega) (fun x hx => hc x (by simp [hx]))]
    simp

theorem loop_pair (p : Ps) (hp : p.st = .name) (hn : p.name = []) (n v : Bytes) (h1 : CookieName n) (h2 : CookieValue v) :
    loop false p (n ++ c!"=" :: v) = some { p with st := .value, name := n, value := v, quote := none } := by
  rw [loop_append, loop_name p hp n (by simp [hn]; exact h1.2.1) h1.2.2.2]
  simp only [Option.bind_some]
  rw [loop]
  have : step false { p with name := p.name ++ n } c!"=" =
      some { p with name := p.name ++ n, quote := none, value := [], st := .value } := by
    rw [step_name _ _ (by exact hp)]
    rfl
  rw [this]
  simp only []
  rw [loop_value _ rfl rfl rfl v h2]
  simp [hn]

theorem store_eq (p : Ps) (v : Bytes) (h : CookieName p.name) : store false p v = { p with dict := emplace p.dict p.name v } := by
  unfold store isCookieAttribute
  rw [if_neg]
  rw [if_neg]
  · simp
  · simp; exact ⟨h.1, h.2.2.1⟩

theorem loop_quoted (sc : Bool) (q : UInt8) (p : Ps) (hp : p.st = .value) (hq : p.quote = some q)
    (he : p.escape = false) (v : Bytes) (hv : p.value.length + v.length ≤ 4096)
    (hc : ∀ c ∈ v, ¬ Ctl c) :
    loop sc p (escape q v) = some { p with value := p.value ++ v } := by
  induction v generalizing p with
  | nil => simp [escape, loop]
  | cons c v ih =>
    simp only [List.length_cons] at hv
    have h2 := hc c (by simp)
    have ih' := ih { p with value := p.value ++ [c] } hp hq he (by simp; omega) (fun x hx => hc x (by simp [hx]))
    by_cases hcq : c = q ∨ c = c!"\\"
    · rw [escape, if_pos hcq, loop]
      have h1 : step sc p c!"\\" = some { p with escape := true } := by
        rw [step_quoted _ _ q hp hq]; unfold stepQuoted; simp [he]
      have h3 : step sc { p with escape := true } c = some { p with value := p.value ++ [c] } := by
        rw [step_quoted _ { p with escape := true } q hp hq]; unfold stepQuoted
        simp [he]; omega
      rw [h1]; simp only []
      rw [loop, h3]; simp only []
      rw [ih']; simp
    · rw [escape, if_neg hcq, loop]
      simp only [not_or] at hcq
      have h1 : step sc p c = some { p with value := p.value ++ [c] } := by
        rw [step_quoted _ _ q hp hq]; unfold stepQuoted
        simp [he, hcq.1, hcq.2, not_control h2]; omega
      rw [h1]; simp only []
      rw [ih']; simp

/-- One cookie and the separator after it. -/
theorem loop_cookie (p : Ps) (hp : p.st = .name) (hn : p.name = []) (he : p.escape = false) (n v t : Bytes)
    (h1 : CookieName n) (h2 : CookieText v t) :
    ∃ q, loop false p (n ++ c!"=" :: t) = some q ∧ finish false q = some (emplace p.dict n v) ∧
      ∃ q', loop false q b!"; " = some q' ∧ q'.st = .name ∧ q'.name = [] ∧ q'.escape = false ∧ q'.dict = emplace p.dict n v := by
  cases h2 with
  | plain h2 =>
    refine ⟨_, loop_pair p hp hn n v h1 h2, ?_, ?_⟩
    · unfold finish
      rw [if_neg (by simp [he]), if_neg (by simpa using h1.1), store_eq _ _ h1]
    · refine ⟨{ p with st := .name, name := [], value := [], quote := none, dict := emplace p.dict n v }, ?_, rfl, rfl, he, rfl⟩
      have hs : step false { p with st := .value, name := n, value := v, quote := none } c!";" =
          some { p with st := .name, name := [], value := [], quote := none, dict := emplace p.dict n v } := by
        rw [step_value _ _ rfl rfl]
        unfold stepValue
        rw [if_pos (by rfl), store_eq _ _ h1]
      rw [loop, hs]
      rfl
  | @quoted q v hq hv hc =>
    refine ⟨{ p with st := .afterQuoted, name := [], value := [], quote := none, dict := emplace p.dict n v }, ?_, ?_, ?_⟩
    · rw [loop_append, loop_name p hp n (by simp [hn]; exact h1.2.1) h1.2.2.2]
      simp only [Option.bind_some, List.append_assoc, List.cons_append, List.nil_append]
      have s1 : step false { p with name := p.name ++ n } c!"=" =
          some { p with name := n, quote := none, value := [], st := .value } := by
        rw [step_name _ _ (by exact hp)]
        unfold stepName
        rw [if_pos (by rfl)]
        simp [hn]
      rw [loop, s1]; simp only []
      have s2 : step false { p with name := n, quote := none, value := [], st := .value } q =
          some { p with name := n, quote := some q, value := [], st := .value } := by
        rw [step_value _ _ rfl rfl]
        unfold stepValue
        rcases hq with rfl | rfl <;> rfl
      rw [loop, s2]; simp only []
      rw [loop_append, loop_quoted false q { p with name := n, quote := some q, value := [], st := .value } rfl rfl he v (by simpa using hv) hc]
      simp only [Option.bind_some]
      have hqb : q ≠ c!"\\" := by rcases hq with rfl | rfl <;> decide
      have s3 : step false { p with name := n, st := .value, quote := some q, value := [] ++ v } q =
          some { p with st := .afterQuoted, name := [], value := [], quote := none, dict := emplace p.dict n v } := by
        rw [step_quoted _ _ q rfl rfl]
        unfold stepQuoted
        rw [if_neg (by simp [he]), if_neg (by simpa using hqb), if_pos (by simp), store_eq _ _ h1]
        simp
      rw [loop, s3]
      rfl
    · rfl
    · exact ⟨{ p with st := .name, name := [], value := [], quote := none, dict := emplace p.dict n v }, rfl, rfl, rfl, he, rfl⟩

theorem render_parse (ps : List (Bytes × Bytes × Bytes)) (hps : ps ≠ [])
    (h : ∀ p ∈ ps, CookieName p.1 ∧ CookieText p.2.1 p.2.2)
    (p : Ps) (hp : p.st = .name) (hn : p.name = []) (he : p.escape = false) :
    ∃ q, loop false p (render ps) = some q ∧
      finish false q = some ((namesValues ps).foldl (fun d e => emplace d e.1 e.2) p.dict) := by
  induction ps generalizing p with
  | nil => exact absurd rfl hps
  | cons a ps ih =>
    obtain ⟨ha1, ha2⟩ := h a (by simp)
    obtain ⟨q, hq1, hq2, q', hq3, hq4, hq5, hq6, hq7⟩ := loop_cookie p hp hn he _ _ _ ha1 ha2
    cases ps with
    | nil =>
      refine ⟨q, ?_, ?_⟩
      · unfold render
        rw [List.map_cons, List.map_nil, List.intercalate_singleton,
          show a.1 ++ [c!"="] ++ a.2.2 = a.1 ++ c!"=" :: a.2.2 by simp, hq1]
      · rw [hq2]; simp [namesValues]
    | cons b ps =>
      have e : render (a :: b :: ps) = (a.1 ++ c!"=" :: a.2.2) ++ (b!"; " ++ render (b :: ps)) := by
        unfold render
        rw [List.map_cons, List.map_cons, List.intercalate_cons_cons]
        simp
      rw [e, loop_append, hq1]
      simp only [Option.bind_some]
      rw [loop_append, hq3]
      simp only [Option.bind_some]
      have := ih (by simp) (fun x hx => h x (by simp [hx])) q' hq4 hq5 hq6
      rw [hq7] at this
      simpa [namesValues] using this

theorem lookup_foldl (ps : List (Bytes × Bytes)) (d : List (Bytes × Bytes)) (k : Bytes) :
    lookup (ps.foldl (fun d e => emplace d e.1 e.2) d) k =
      (lookup d k).or ((ps.find? fun e => iequals e.1 k).map (·.2)) := by
  induction ps generalizing d with
  | nil => simp
  | cons a ps ih =>
    rw [List.foldl_cons, ih, lookup_emplace]
    cases lookup d k with
    | some x => simp
    | none => cases ha : iequals a.1 k <;> simp [ha]

theorem find_firstOf (ps : List (Bytes × Bytes)) (k : Bytes) :
    FirstOf ps k ((ps.find? fun e => iequals e.1 k).map (·.2)) := by
  cases hf : ps.find? (fun e => iequals e.1 k) with
  | none =>
    refine Or.inl ⟨rfl, fun p hp h => ?_⟩
    exact (List.find?_eq_none.1 hf p hp) (ieq.2 h)
  | some e =>
    obtain ⟨h1, l, t, rfl, h2⟩ := List.find?_eq_some_iff_append.1 hf
    refine Or.inr ⟨l, e, t, rfl, ieq.1 h1, rfl, fun q hq h => ?_⟩
    have := h2 q hq
    rw [ieq.2 h] at this
    simp at this

/-- C69: a well-formed `Cookie` header (values plain or quoted) of at most 16 KiB is accepted, every name in it is found, and
reading it (without regard to case) gives the value of its first occurrence. -/
theorem C69_wellformed (ps : List (Bytes × Bytes × Bytes)) (h : ∀ p ∈ ps, CookieName p.1 ∧ CookieText p.2.1 p.2.2)
    (hl : (render ps).length ≤ 16 * 1024) :
    ∃ d, parseCookies false (render ps) = some d ∧ ∀ k, FirstOf (namesValues ps) k (lookup d k) := by
  unfold parseCookies
  cases ps with
  | nil => exact ⟨[], rfl, fun k => Or.inl ⟨rfl, by simp [namesValues]⟩⟩
  | cons a ps =>
    have hne : render (a :: ps) ≠ [] := by
      intro e
      have hx : c!"=" ∈ render (a :: ps) := by
        unfold render
        cases ps <;> simp [List.intercalate_cons_cons]
      rw [e] at hx; simp at hx
    rw [if_neg (by simpa using hne), if_neg (by omega)]
    obtain ⟨q, h1, h2⟩ := render_parse (a :: ps) (by simp) h {} rfl rfl rfl
    rw [h1]
    refine ⟨_, h2, fun k => ?_⟩
    rw [lookup_foldl]
    exact find_firstOf _ k

/-! ### quoted values -/

/-- C69: a quoted value (in double or single quotes) is read back exactly, whatever semicolons, spaces or
quotes it contains. -/
theorem C69_quoted (n v : Bytes) (q : UInt8) (hq : q = c!"\"" ∨ q = 39) (hn : CookieName n)
    (hv : v.length ≤ 4096) (hc : ∀ c ∈ v, ¬ Ctl c) (hl : (n ++ [c!"="] ++ [q] ++ escape q v ++ [q]).length ≤ 16 * 1024) :
    parseCookies false (n ++ [c!"="] ++ [q] ++ escape q v ++ [q]) = some [(n, v)] := by
  unfold parseCookies
  rw [if_neg (by simp), if_neg (by omega)]
  rw [List.append_assoc, List.append_assoc, List.append_assoc, loop_append,
    loop_name {} rfl n (by simpa using hn.2.1) hn.2.2.2]
  simp only [Option.bind_some, List.nil_append, List.cons_append]
  rw [loop]
  have h1 : step false { ({} : Ps) with name := n } c!"=" = some { ({} : Ps) with name := n, st := .value } := rfl
  rw [h1]; simp only []
  rw [loop]
  have h2 : step false { ({} : Ps) with name := n, st := .value } q =
      some { ({} : Ps) with name := n, st := .value, quote := some q } := by
    unfold step; simp only []; unfold stepValue
    rcases hq with rfl | rfl <;> rfl
  rw [h2]; simp only []
  rw [loop_append, loop_quoted false q _ rfl rfl rfl v (by simpa using hv) hc]
  simp only [Option.bind_some]
  rw [loop]
  have hqb : q ≠ c!"\\" := by rcases hq with rfl | rfl <;> decide
  have h3 : step false { ({} : Ps) with name := n, st := .value, quote := some q, value := [] ++ v } q =
      some { ({} : Ps) with st := .afterQuoted, dict := [(n, v)] } := by
    unfold step; simp only []; unfold stepQuoted
    rw [if_neg (by simp), if_neg (by simpa using hqb), if_pos (by simp), store_eq _ _ hn]
    simp [emplace, lookup]
  rw [h3]
  rfl

/-! ### all headers -/

/-- What holds of every state the parser reaches. -/
structure Inv (sc : Bool) (p : Ps) : Prop where
  len : p.name.length ≤ 1024
  chars : ∀ c ∈ p.name, c ≠ c!"=" ∧ c ≠ c!";" ∧ ¬ Ows c ∧ ¬ Ctl c
  vlen : p.value.length ≤ 4096
  entries : ∀ e ∈ p.dict, CookieName e.1 ∧ e.2.length ≤ 4096 ∧ isCookieAttribute e.1 sc = false
  distinct : p.dict.Pairwise fun a b => ¬ SameName a.1 b.1

theorem emplace_cases {α} (d : List (Bytes × α)) (k : Bytes) (v : α) :
    emplace d k v = d ∨ (emplace d k v = d ++ [(k, v)] ∧ ∀ e ∈ d, ¬ SameName e.1 k) := by
  unfold emplace
  cases h : lookup d k with
  | some x => exact Or.inl rfl
  | none => exact Or.inr ⟨rfl, lookup_none.1 h⟩

theorem Inv.store {sc : Bool} {p : Ps} (h : Inv sc p) {v : Bytes} (hv : v.length ≤ 4096) : Inv sc (store sc p v) := by
  unfold Cookie.store
  cases ha : isCookieAttribute p.name sc with
  | true => exact h
  | false =>
    rw [if_neg (by simp)]
    have hn : CookieName p.name := by
      unfold isCookieAttribute at ha
      by_cases h0 : (p.name.isEmpty || p.name.head? == some c!"$") = true
      · simp only [if_pos h0] at ha; simp at ha
      · simp only [Bool.or_eq_true, not_or, beq_iff_eq, List.isEmpty_iff] at h0
        exact ⟨h0.1, h.len, h0.2, h.chars⟩
    refine { len := h.len, chars := h.chars, vlen := h.vlen, entries := ?_, distinct := ?_ }
    · intro e he
      simp only at he
      rcases emplace_cases p.dict p.name v with h' | ⟨h', _⟩
      · rw [h'] at he; exact h.entries e he
      · rw [h', List.mem_append] at he
        rcases he with he | he
        · exact h.entries e he
        · simp only [List.mem_singleton] at he; subst he; exact ⟨hn, hv, ha⟩
    · simp only
      rcases emplace_cases p.dict p.name v with h' | ⟨h', hd⟩
      · rw [h']; exact h.distinct
      · rw [h', List.pairwise_append]
        refine ⟨h.distinct, by simp, ?_⟩
        intro a ha b hb
        simp only [List.mem_singleton] at hb; subst hb
        exact hd a ha

theorem not_of_control_false {c : UInt8} (h : isControl c = false) : ¬ Ctl c := by
  rw [← isControl_iff, h]; simp

theorem Inv.step {sc : Bool} {p p' : Ps} (h : Inv sc p) {c : UInt8} (hs : step sc p c = some p') : Inv sc p' := by
  unfold Cookie.step at hs
  split at hs
  · unfold stepName at hs
    split at hs
    · simp only [Option.some.injEq] at hs; subst hs
      exact { h with vlen := by simp }
    · rename_i hne
      split at hs
      · split at hs
        · simp only [Option.some.injEq] at hs; subst hs; exact h
        · simp only [Option.some.injEq] at hs; subst hs
          have := h.store (v := []) (by simp)
          exact { len := by simp, chars := by simp, vlen := this.vlen, entries := this.entries, distinct := this.distinct }
      · rename_i hsemi
        split at hs
        · rename_i hws
          split at hs
          · simp at hs
          · rename_i hb
            simp only [Option.some.injEq] at hs; subst hs
            simp only [Bool.or_eq_true, decide_eq_true_eq, not_or, ge_iff_le, Bool.not_eq_true] at hb
            refine { h with len := by simp; omega, chars := ?_ }
            intro x hx
            simp only [List.mem_append, List.mem_singleton] at hx
            rcases hx with hx | rfl
            · exact h.chars x hx
            · refine ⟨by simpa using hne, ?_, ?_, not_of_control_false hb.1⟩
              · simp only [Bool.or_eq_true, not_or] at hsemi
                simpa using hsemi.1
              · rw [← isWs_iff_ows]; simpa using hws
        · simp only [Option.some.injEq] at hs; subst hs; exact h
  · split at hs
    · unfold stepValue at hs
      split at hs
      · simp only [Option.some.injEq] at hs; subst hs
        have := h.store (v := p.value) h.vlen
        exact { len := by simp, chars := by simp, vlen := by simp, entries := this.entries, distinct := this.distinct }
      · split at hs
        · simp only [Option.some.injEq] at hs; subst hs; exact { h with }
        · split at hs
          · split at hs
            · simp at hs
            · rename_i hb
              simp only [Option.some.injEq] at hs; subst hs
              simp only [Bool.or_eq_true, decide_eq_true_eq, not_or, ge_iff_le] at hb
              exact { h with vlen := by simp; omega }
          · simp only [Option.some.injEq] at hs; subst hs; exact h
    · unfold stepQuoted at hs
      split at hs
      · split at hs
        · simp at hs
        · simp only [Option.some.injEq] at hs; subst hs
          exact { h with vlen := by simp; omega }
      · split at hs
        · simp only [Option.some.injEq] at hs; subst hs; exact { h with }
        · split at hs
          · simp only [Option.some.injEq] at hs; subst hs
            have := h.store (v := p.value) h.vlen
            exact { len := by simp, chars := by simp, vlen := by simp, entries := this.entries, distinct := this.distinct }
          · split at hs
            · simp at hs
            · split at hs
              · simp at hs
              · simp only [Option.some.injEq] at hs; subst hs
                exact { h with vlen := by simp; omega }
  · split at hs
    · simp only [Option.some.injEq] at hs; subst hs; exact { h with }
    · split at hs
      · simp at hs
      · simp only [Option.some.injEq] at hs; subst hs; exact h

theorem Inv.loop {sc : Bool} {p p' : Ps} (h : Inv sc p) {s : Bytes} (hs : loop sc p s = some p') : Inv sc p' := by
  induction s generalizing p with
  | nil => simp only [Cookie.loop, Option.some.injEq] at hs; exact hs ▸ h
  | cons c s ih =>
    rw [Cookie.loop] at hs
    cases hc : Cookie.step sc p c with
    | none => rw [hc] at hs; simp at hs
    | some q => rw [hc] at hs; exact ih (h.step hc) hs

theorem Inv.init (sc : Bool) : Inv sc {} :=
  { len := by simp, chars := by simp, vlen := by simp, entries := by simp, distinct := by simp }

/-- C69: whatever the header, every cookie taken from it has a proper name (not empty, at most 1024 bytes,
free of spaces, control characters, `=` and `;`, not starting with `$`) and a value of at most 4096 bytes,
and no two have the same name up to case; a header of more than 16 KiB is refused. -/
theorem C69_entries (sc : Bool) (s : Bytes) (d : List (Bytes × Bytes)) (h : parseCookies sc s = some d) :
    s.length ≤ 16 * 1024 ∧ (∀ e ∈ d, CookieName e.1 ∧ e.2.length ≤ 4096) ∧
    d.Pairwise (fun a b => ¬ SameName a.1 b.1) ∧
    (sc = true → ∀ e ∈ d, ∀ a ∈ [b!"Comment", b!"Domain", b!"Max-Age", b!"Path", b!"Secure", b!"Version",
      b!"Expires", b!"HttpOnly", b!"SameSite"], ¬ SameName e.1 a) := by
  unfold parseCookies at h
  by_cases h0 : s = []
  · subst h0
    simp at h; subst h; simp
  · rw [if_neg (by simpa using h0)] at h
    by_cases h1 : s.length > 16 * 1024
    · rw [if_pos h1] at h; simp at h
    · rw [if_neg h1] at h
      cases hl : loop sc {} s with
      | none => rw [hl] at h; simp at h
      | some p =>
        rw [hl] at h
        simp only at h
        have hi := (Inv.init sc).loop hl
        have fin : ∀ q : Ps, Inv sc q → (∀ e ∈ q.dict, CookieName e.1 ∧ e.2.length ≤ 4096) ∧
            q.dict.Pairwise (fun a b => ¬ SameName a.1 b.1) ∧
            (sc = true → ∀ e ∈ q.dict, ∀ a ∈ [b!"Comment", b!"Domain", b!"Max-Age", b!"Path", b!"Secure", b!"Version",
              b!"Expires", b!"HttpOnly", b!"SameSite"], ¬ SameName e.1 a) := by
          intro q hq
          refine ⟨fun e he => ⟨(hq.entries e he).1, (hq.entries e he).2.1⟩, hq.distinct, ?_⟩
          intro hsc e he a ha hs
          have := (hq.entries e he).2.2
          unfold isCookieAttribute at this
          rw [hsc] at this
          split at this
          · simp at this
          · simp only [if_true] at this
            rw [List.any_eq_false] at this
            exact this a ha (ieq.2 hs)
        refine ⟨by omega, ?_⟩
        unfold finish at h
        split at h
        · simp at h
        · split at h
          · simp only [Option.some.injEq] at h; subst h; exact fin p hi
          · simp only [Option.some.injEq] at h; subst h; exact fin _ (hi.store hi.vlen)

/-! ### control characters -/

/-- The state between two characters of a header without backslashes. -/
structure Inv2 (p : Ps) : Prop where
  esc : p.escape = false
  quote : ∀ q, p.quote = some q → ¬ Ctl q
  value : ∀ c ∈ p.value, ¬ Ctl c
  dict : ∀ e ∈ p.dict, ∀ c ∈ e.2, ¬ Ctl c

theorem Inv2.store {sc : Bool} {p : Ps} (h : Inv2 p) {v : Bytes} (hv : ∀ c ∈ v, ¬ Ctl c) : Inv2 (store sc p v) := by
  unfold Cookie.store
  split
  · exact h
  · refine { h with dict := ?_ }
    intro e he
    simp only at he
    rcases emplace_cases p.dict p.name v with h' | ⟨h', _⟩
    · rw [h'] at he; exact h.dict e he
    · rw [h', List.mem_append] at he
      rcases he with he | he
      · exact h.dict e he
      · simp only [List.mem_singleton] at he; subst he; exact hv

theorem Inv2.step {sc : Bool} {p p' : Ps} (h : Inv2 p) {c : UInt8} (hb : c ≠ c!"\\") (hs : step sc p c = some p') :
    Inv2 p' ∧ (Ctl c → c = 9) := by
  have ows : isWs c = true → Ctl c → c = 9 := by
    intro h1 h2
    rcases (isWs_iff_ows c).1 h1 with rfl | rfl
    · simp [Ctl] at h2
    · rfl
  have lit : ∀ d : UInt8, (c == d) = true → ¬ Ctl d → Ctl c → c = 9 := by
    intro d h1 h2 h3
    simp only [beq_iff_eq] at h1; subst h1; exact absurd h3 h2
  have sep : ∀ b : Bool, (c == c!";" || (b && c == c!",")) = true → Ctl c → c = 9 := by
    intro b hx
    simp only [Bool.or_eq_true, Bool.and_eq_true] at hx
    rcases hx with hx | hx
    · exact lit _ hx (by simp [Ctl])
    · exact lit _ hx.2 (by simp [Ctl])
  unfold Cookie.step at hs
  split at hs
  · unfold stepName at hs
    split at hs
    · rename_i he
      simp only [Option.some.injEq] at hs; subst hs
      exact ⟨{ h with quote := by simp, value := by simp }, lit _ he (by simp [Ctl])⟩
    · split at hs
      · rename_i hsep
        split at hs
        · simp only [Option.some.injEq] at hs; subst hs; exact ⟨h, sep _ hsep⟩
        · simp only [Option.some.injEq] at hs; subst hs
          have := h.store (sc := sc) (v := []) (by simp)
          exact ⟨{ this with }, sep _ hsep⟩
      · split at hs
        · split at hs
          · simp at hs
          · rename_i hx
            simp only [Option.some.injEq] at hs; subst hs
            simp only [Bool.or_eq_true, not_or, Bool.not_eq_true] at hx
            exact ⟨{ h with }, fun hc => absurd hc (not_of_control_false hx.1)⟩
        · rename_i hws
          simp only [Option.some.injEq] at hs; subst hs
          exact ⟨h, ows (by simpa using hws)⟩
  · split at hs
    · unfold stepValue at hs
      split at hs
      · rename_i hsep
        simp only [Option.some.injEq] at hs; subst hs
        have := h.store (sc := sc) (v := p.value) h.value
        exact ⟨{ this with value := by simp }, sep _ hsep⟩
      · split at hs
        · rename_i hq
          simp only [Option.some.injEq] at hs; subst hs
          simp only [Bool.and_eq_true, Bool.or_eq_true, beq_iff_eq] at hq
          have hcc : ¬ Ctl c := by rcases hq.1 with rfl | rfl <;> simp [Ctl]
          exact ⟨{ h with quote := by simp; exact hcc }, fun hc => absurd hc hcc⟩
        · split at hs
          · split at hs
            · simp at hs
            · rename_i hx
              simp only [Option.some.injEq] at hs; subst hs
              simp only [Bool.or_eq_true, not_or, Bool.not_eq_true] at hx
              have hcc := not_of_control_false hx.1
              refine ⟨{ h with value := ?_ }, fun hc => absurd hc hcc⟩
              intro x hxm
              simp only [List.mem_append, List.mem_singleton] at hxm
              rcases hxm with hxm | rfl
              · exact h.value x hxm
              · exact hcc
          · rename_i hws
            simp only [Option.some.injEq] at hs; subst hs
            simp only [Bool.or_eq_true, not_or, Bool.not_eq_true, Bool.not_eq_false] at hws
            exact ⟨h, ows (by simpa using hws.1)⟩
    · rename_i q hq
      unfold stepQuoted at hs
      rw [if_neg (by simp [h.esc]), if_neg (by simpa using hb)] at hs
      split at hs
      · rename_i he
        simp only [Option.some.injEq] at hs; subst hs
        have := h.store (sc := sc) (v := p.value) h.value
        exact ⟨{ this with value := by simp, quote := by simp }, lit _ he (h.quote q hq)⟩
      · split at hs
        · simp at hs
        · rename_i hcc
          split at hs
          · simp at hs
          · simp only [Option.some.injEq] at hs; subst hs
            have hcc := not_of_control_false (by simpa using hcc)
            refine ⟨{ h with value := ?_ }, fun hc => absurd hc hcc⟩
            intro x hxm
            simp only [List.mem_append, List.mem_singleton] at hxm
            rcases hxm with hxm | rfl
            · exact h.value x hxm
            · exact hcc
  · split at hs
    · rename_i hsep
      simp only [Option.some.injEq] at hs; subst hs; exact ⟨{ h with }, sep true (by simpa using hsep)⟩
    · split at hs
      · simp at hs
      · rename_i hws
        simp only [Option.some.injEq] at hs; subst hs; exact ⟨h, ows (by simpa using hws)⟩

theorem Inv2.loop {sc : Bool} {p p' : Ps} (h : Inv2 p) {s : Bytes} (hb : c!"\\" ∉ s) (hs : loop sc p s = some p') :
    Inv2 p' ∧ ∀ c ∈ s, Ctl c → c = 9 := by
  induction s generalizing p with
  | nil => simp only [Cookie.loop, Option.some.injEq] at hs; exact ⟨hs ▸ h, by simp⟩
  | cons c s ih =>
    simp only [List.mem_cons, not_or] at hb
    rw [Cookie.loop] at hs
    cases hc : Cookie.step sc p c with
    | none => rw [hc] at hs; simp at hs
    | some q =>
      rw [hc] at hs
      obtain ⟨h1, h2⟩ := h.step (fun e => hb.1 e.symm) hc
      obtain ⟨h3, h4⟩ := ih h1 hb.2 hs
      refine ⟨h3, ?_⟩
      intro x hx
      rcases List.mem_cons.1 hx with rfl | hx
      · exact h2
      · exact h4 x hx

/-- C69: a header without backslashes that contains a control character other than a tab is refused, and
no control character ever reaches a value. -/
theorem C69_no_control (sc : Bool) (s : Bytes) (hb : c!"\\" ∉ s) (d : List (Bytes × Bytes))
    (h : parseCookies sc s = some d) : (∀ c ∈ s, Ctl c → c = 9) ∧ ∀ e ∈ d, ∀ c ∈ e.2, ¬ Ctl c := by
  unfold parseCookies at h
  by_cases h0 : s = []
  · subst h0
    simp at h; subst h; simp
  · rw [if_neg (by simpa using h0)] at h
    by_cases h1 : s.length > 16 * 1024
    · rw [if_pos h1] at h; simp at h
    · rw [if_neg h1] at h
      cases hl : loop sc {} s with
      | none => rw [hl] at h; simp at h
      | some p =>
        rw [hl] at h
        simp only at h
        have hi : Inv2 {} := { esc := rfl, quote := by simp, value := by simp, dict := by simp }
        obtain ⟨h3, h4⟩ := hi.loop hb hl
        refine ⟨h4, ?_⟩
        unfold finish at h
        split at h
        · simp at h
        · split at h
          · simp only [Option.some.injEq] at h; subst h; exact h3.dict
          · simp only [Option.some.injEq] at h; subst h; exact (h3.store h3.value).dict

/-- C69: the guarantee does not extend to backslash escapes: a CR LF passes into the value. -/
theorem C69_false_escape :
    parseCookies false (b!"a=\"x\\" ++ [13, 92, 10] ++ b!"\"") = some [(b!"a", [120, 13, 10])] := by
  decide +kernel

theorem loop_open (sc : Bool) (q : UInt8) (p : Ps) (hp : p.st = .value) (hq : p.quote = some q) (v : Bytes) (hv : q ∉ v) :
    loop sc p v = none ∨ ∃ p', loop sc p v = some p' ∧ p'.st = .value ∧ p'.quote = some q := by
  induction v generalizing p with
  | nil => exact Or.inr ⟨p, rfl, hp, hq⟩
  | cons c v ih =>
    simp only [List.mem_cons, not_or] at hv
    rw [loop]
    cases hs : step sc p c with
    | none => exact Or.inl rfl
    | some p' =>
      simp only []
      rw [step_quoted _ _ q hp hq] at hs
      have hcq : ¬ (c == q) = true := by simpa using fun e => hv.1 e.symm
      have : p'.st = .value ∧ p'.quote = some q := by
        unfold stepQuoted at hs
        rw [if_neg hcq] at hs
        repeat' split at hs
        all_goals first
          | (simp at hs; done)
          | (simp only [Option.some.injEq] at hs; subst hs; exact ⟨hp, hq⟩)
      exact ih p' this.1 this.2 hv.2

/-- C69: a header whose last value opens a quote and never closes it is refused. -/
theorem C69_unterminated (n v : Bytes) (q : UInt8) (hq : q = c!"\"" ∨ q = 39) (hn : CookieName n) (hv : q ∉ v) :
    parseCookies false (n ++ [c!"="] ++ [q] ++ v) = none := by
  unfold parseCookies
  rw [if_neg (by simp)]
  split
  · rfl
  · rw [List.append_assoc, List.append_assoc, loop_append, loop_name {} rfl n (by simpa using hn.2.1) hn.2.2.2]
    simp only [Option.bind_some, List.nil_append, List.cons_append]
    rw [loop]
    have h1 : step false { ({} : Ps) with name := n } c!"=" = some { ({} : Ps) with name := n, st := .value } := rfl
    rw [h1]; simp only []
    rw [loop]
    have h2 : step false { ({} : Ps) with name := n, st := .value } q =
        some { ({} : Ps) with name := n, st := .value, quote := some q } := by
      unfold step; simp only []; unfold stepValue
      rcases hq with rfl | rfl <;> rfl
    rw [h2]; simp only []
    rcases loop_open false q { ({} : Ps) with name := n, st := .value, quote := some q } rfl rfl v hv with h | ⟨p', h, h3, h4⟩
    · rw [h]
    · rw [h]
      simp only []
      unfold finish
      rw [if_pos (by simp [h3, h4])]

instance (n : Bytes) : Decidable (CookieName n) := by unfold CookieName Ows Ctl; infer_instance

example : CookieName b!"sid" ∧ CookieText b!"a b=c" b!"a b=c" ∧ CookieText b!"x;" b!"\"x;\"" := by
  refine ⟨by decide, .plain ⟨by decide, ?_, ?_⟩, .quoted (q := c!"\"") (v := b!"x;") (Or.inl rfl) (by decide) (by simp [Ctl])⟩
  · have : Clean b!"a b=c" := by decide
    exact this
  · simp [Ows]
example : parseCookies false b!"sid=1; SID=2; $Version=1; b=\"x;\\\"y\"" = some [(b!"sid", b!"1"), (b!"b", b!"x;\"y")] := by
  decide +kernel
example : parseCookies false [97, 61, 98, 10] = none := by decide +kernel

end Verif.Cookie
