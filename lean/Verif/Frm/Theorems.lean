import Verif.Frm.Spec

/-! C190: forms survive being written to a body and read back. C191: what a body says is read exactly. -/

namespace Verif.Frm

open Verif.Utility (findChar findChar_some findChar_none findChar_length)
open Verif.Utility.Spec (IsFields Unreserved)
open Spec

theorem get_add (f : Form) (k v k' : Bytes) : get (add f k v) k' = if k = k' then get f k' ++ [v] else get f k' := by
  induction f with
  | nil => unfold add get; split <;> simp [get]
  | cons e f ih =>
    obtain ⟨k0, vs⟩ := e
    unfold add
    split
    · rename_i h; subst h
      unfold get
      split <;> simp_all
    · rename_i h
      unfold get
      split
      · rename_i h'; subst h'
        rw [if_neg (fun e => h e.symm)]
      · exact ih

/-- Adding a list of pairs; those with an empty name are left out. -/
def addAll (f : Form) (kvs : List (Bytes × Bytes)) : Form := kvs.foldl (fun f e => if e.1 = [] then f else add f e.1 e.2) f

theorem get_addAll (kvs : List (Bytes × Bytes)) (f : Form) (k : Bytes) : get (addAll f kvs) k = get f k ++ (if k = [] then [] else values kvs k) := by
  induction kvs generalizing f with
  | nil => unfold addAll values; simp
  | cons e kvs ih =>
    show get (addAll (if e.1 = [] then f else add f e.1 e.2) kvs) k = _
    rw [ih]
    unfold values
    rw [List.filter_cons]
    by_cases h : e.1 = []
    · rw [if_pos h]
      by_cases hk : k = []
      · simp [hk]
      · rw [if_neg hk, if_neg hk, if_neg (by simp [h]; exact fun e => hk (by first | exact e | exact e.symm))]
    · rw [if_neg h, get_add]
      by_cases he : e.1 = k
      · have hk : k ≠ [] := fun e' => h (he.trans e')
        rw [if_pos he, if_neg hk, if_neg hk, if_pos (by simp [he])]
        simp
      · rw [if_neg he, if_neg (c := decide (e.1 = k) = true) (by simpa using he)]

/-- What one segment says. -/
def says (c : Codec) (s : Bytes) : Bytes × Bytes :=
  match findChar c!"=" s with
  | some (a, b) => (c.dec a, c.dec b)
  | none => (c.dec s, [])

theorem says_spec (c : Codec) (s : Bytes) : Says c.dec s (says c s).1 (says c s).2 := by
  unfold says
  split
  · rename_i a b h
    obtain ⟨h1, h2⟩ := findChar_some h
    exact .inl ⟨a, b, h1, h2, rfl, rfl⟩
  · rename_i h
    exact .inr ⟨findChar_none h, rfl, rfl⟩

theorem readPair_eq (c : Codec) (f : Form) (s : Bytes) : readPair c f s = addAll f [says c s] := by
  unfold readPair addAll says
  cases h : findChar c!"=" s with
  | none => rfl
  | some ab => obtain ⟨a, b⟩ := ab; rfl

theorem addAll_append (f : Form) (a b : List (Bytes × Bytes)) : addAll f (a ++ b) = addAll (addAll f a) b := by unfold addAll; rw [List.foldl_append]

theorem sayAll_map (c : Codec) (ss : List Bytes) : SayAll c.dec ss (ss.map (says c)) := by
  induction ss with
  | nil => exact .nil
  | cons s ss ih => exact .cons (says_spec c s) ih

theorem readLoop_eq (c : Codec) (h0 : c.dec [] = []) (s : Bytes) (f : Form) : readLoop c f s = addAll f ((Utility.splitView s c!"&").map (says c)) := by
  generalize hn : s.length = n
  induction n using Nat.strongRecOn generalizing s f with
  | _ n ih =>
    rw [readLoop, Utility.splitView]
    split
    · rename_i h; subst h
      simp [findChar, says, addAll, h0]
    · split
      · rename_i h; rw [h]; simp only [List.map_cons, List.map_nil]; exact readPair_eq c f s
      · rename_i p q h
        rw [h]
        simp only [List.map_cons]
        rw [ih q.length (by rw [← hn]; exact findChar_length h) q _ rfl, readPair_eq]
        exact (addAll_append f [says c p] _).symm

/-- C191: the fields of a form read from a body are exactly what the segments between the `&` say, in order; pairs without a name are dropped, and nothing else is. -/
theorem C191_read {c : Codec} (hc : CodecOk c) (s : Bytes) : ∃ ss kvs, IsFields c!"&" s ss ∧ SayAll c.dec ss kvs ∧ ∀ k, get (read c s) k = if k = [] then [] else values kvs k := by
  refine ⟨Utility.splitView s c!"&", (Utility.splitView s c!"&").map (says c), Utility.C05_split_view_exact s c!"&", sayAll_map c _, fun k => ?_⟩
  unfold read
  rw [readLoop_eq c (hc.plain [] (by simp)), get_addAll]
  simp [get]

/-- C191: and the meaning is unique: a segment says one thing. -/
theorem C191_meaning {dec : Bytes → Bytes} {s k v k' v' : Bytes} (h : Says dec s k v) (h' : Says dec s k' v') : k = k' ∧ v = v' := by
  have cut : ∀ {a b a' b' : Bytes}, a ++ c!"=" :: b = a' ++ c!"=" :: b' → c!"=" ∉ a → c!"=" ∉ a' → a = a' ∧ b = b' := by
    intro a
    induction a with
    | nil =>
      intro b a' b' h _ h2
      cases a' with
      | nil => simp at h; exact ⟨rfl, h⟩
      | cons x a' => simp at h; exact absurd (by rw [← h.1]; simp) h2
    | cons y a ih =>
      intro b a' b' h h1 h2
      cases a' with
      | nil => simp at h; exact absurd (by rw [h.1]; simp) h1
      | cons x a' =>
        simp at h
        obtain ⟨e1, e2⟩ := ih h.2 (fun m => h1 (List.mem_cons_of_mem _ m)) (fun m => h2 (List.mem_cons_of_mem _ m))
        exact ⟨by rw [h.1, e1], e2⟩
  rcases h with ⟨a, b, h1, h2, h3, h4⟩ | ⟨h1, h2, h3⟩ <;> rcases h' with ⟨a', b', h1', h2', h3', h4'⟩ | ⟨h1', h2', h3'⟩
  · obtain ⟨e1, e2⟩ := cut (h1.symm.trans h1') h2 h2'
    exact ⟨by rw [h3, h3', e1], by rw [h4, h4', e2]⟩
  · exact absurd (by rw [h1]; simp) h1'
  · exact absurd (by rw [h1']; simp) h1
  · exact ⟨by rw [h2, h2'], by rw [h3, h3']⟩

/-! Writing. -/

/-- All pairs, in the order in which they are written. -/
def pairs (f : Form) : List (Bytes × Bytes) := f.flatMap fun e => e.2.map fun v => (e.1, v)

theorem writeOne_foldl (c : Codec) (kvs : List (Bytes × Bytes)) (acc : Bytes × Bool) :
    (kvs.foldl (fun acc e => writeOne c e.1 acc e.2) acc).1 = acc.1 ++ (match kvs with
      | [] => []
      | _ => (if acc.2 then [] else [c!"&"]) ++ ([c!"&"].intercalate (kvs.map fun e => c.enc e.1 ++ [c!"="] ++ c.enc e.2))) := by
  induction kvs generalizing acc with
  | nil => simp
  | cons e kvs ih =>
    rw [List.foldl_cons, ih]
    cases kvs with
    | nil => simp [writeOne, List.intercalate]
    | cons e' kvs => simp [writeOne, List.intercalate, List.intersperse]

theorem foldl_pairs (c : Codec) (f : Form) (acc : Bytes × Bool) : f.foldl (fun acc e => e.2.foldl (writeOne c e.1) acc) acc = (pairs f).foldl (fun acc e => writeOne c e.1 acc e.2) acc := by
  induction f generalizing acc with
  | nil => rfl
  | cons e f ih =>
    rw [List.foldl_cons, ih]
    unfold pairs
    rw [List.flatMap_cons, List.foldl_append]
    congr 1
    generalize e.2 = vs
    induction vs generalizing acc with
    | nil => rfl
    | cons v vs ih => simp only [List.foldl_cons, List.map_cons]; exact ih _

theorem write_eq (c : Codec) (f : Form) : write c f = [c!"&"].intercalate ((pairs f).map fun e => c.enc e.1 ++ [c!"="] ++ c.enc e.2) := by
  unfold write
  rw [foldl_pairs, writeOne_foldl]
  cases pairs f <;> simp [List.intercalate]

theorem findChar_not_mem {d : UInt8} {s : Bytes} (h : d ∉ s) : findChar d s = none := by
  cases hf : findChar d s with
  | none => rfl
  | some pq =>
    obtain ⟨h1, -⟩ := findChar_some (p := pq.1) (q := pq.2) hf
    exact absurd (by rw [h1]; simp) h

theorem findChar_app {d : UInt8} {p q : Bytes} (h : d ∉ p) : findChar d (p ++ d :: q) = some (p, q) := by
  induction p with
  | nil => simp [findChar]
  | cons x p ih =>
    simp only [List.mem_cons, not_or] at h
    rw [List.cons_append, findChar, if_neg (by simpa using fun e => h.1 e.symm), ih h.2]

theorem split_join {d : UInt8} : ∀ {ss : List Bytes}, ss ≠ [] → (∀ s ∈ ss, d ∉ s) → Utility.splitView ([d].intercalate ss) d = ss
  | [], h, _ => absurd rfl h
  | [s], _, h => by
    have e : [d].intercalate [s] = s := by simp [List.intercalate]
    rw [e, Utility.splitView]
    have := findChar_not_mem (h s (by simp))
    split
    · rfl
    · rename_i h'; rw [this] at h'; cases h'
  | s :: s' :: ss, _, h => by
    have e : [d].intercalate (s :: s' :: ss) = s ++ d :: [d].intercalate (s' :: ss) := by simp [List.intercalate, List.intersperse]
    rw [e, Utility.splitView]
    have := findChar_app (q := [d].intercalate (s' :: ss)) (h s (by simp))
    split
    · rename_i h'; rw [this] at h'; cases h'
    · rename_i p q h'
      rw [this] at h'; cases h'
      rw [split_join (by simp) (fun x hx => h x (List.mem_cons_of_mem _ hx))]

theorem says_written {c : Codec} (hc : CodecOk c) (k v : Bytes) : says c (c.enc k ++ [c!"="] ++ c.enc v) = (k, v) := by
  unfold says
  have : c.enc k ++ [c!"="] ++ c.enc v = c.enc k ++ c!"=" :: c.enc v := by simp
  rw [this, findChar_app (hc.eq k)]
  simp [hc.inv]

/-- A map: every name once. -/
def IsMap (f : Form) : Prop := (f.map (·.1)).Nodup

theorem values_pairs {f : Form} (h : IsMap f) (k : Bytes) : values (pairs f) k = get f k := by
  induction f with
  | nil => rfl
  | cons e f ih =>
    obtain ⟨k0, vs⟩ := e
    have h1 := (List.nodup_cons.1 h).1
    have h2 : IsMap f := (List.nodup_cons.1 h).2
    have hv : values (pairs ((k0, vs) :: f)) k = (if k0 = k then vs else []) ++ values (pairs f) k := by
      unfold values pairs
      rw [List.flatMap_cons, List.filter_append, List.map_append]
      congr 1
      split
      · rename_i hk
        rw [List.filter_eq_self.2 (by intro a ha; obtain ⟨v, -, rfl⟩ := List.mem_map.1 ha; simpa using hk)]
        rw [List.map_map]
        exact List.map_id vs
      · rename_i hk
        rw [List.filter_eq_nil_iff.2 (by intro a ha; obtain ⟨v, -, rfl⟩ := List.mem_map.1 ha; simpa using hk)]
        rfl
    rw [hv, ih h2, show get ((k0, vs) :: f) k = if k0 = k then vs else get f k from rfl]
    split
    · rename_i hk
      subst hk
      have : get f k0 = [] := by
        clear ih h h2 hv
        induction f with
        | nil => rfl
        | cons e f ih =>
          obtain ⟨k1, ws⟩ := e
          simp only [List.map_cons, List.mem_cons, not_or] at h1
          unfold get
          rw [if_neg (fun e => h1.1 e.symm)]
          exact ih h1.2
      rw [this]; simp
    · simp

theorem read_write {c : Codec} (hc : CodecOk c) (f : Form) (k : Bytes) : get (read c (write c f)) k = if k = [] then [] else values (pairs f) k := by
  have h0 : c.dec [] = [] := hc.plain [] (by simp)
  unfold read
  rw [readLoop_eq c h0, get_addAll, write_eq]
  cases hp : pairs f with
  | nil =>
    have e : Utility.splitView ([c!"&"].intercalate (([] : List (Bytes × Bytes)).map fun e => c.enc e.1 ++ [c!"="] ++ c.enc e.2)) c!"&" = [[]] := by
      simp only [List.map_nil, List.intercalate]
      rw [show (List.intersperse [c!"&"] ([] : List Bytes)).flatten = [] from rfl, Utility.splitView]
      simp [findChar]
    rw [e]
    have : says c [] = ([], []) := by unfold says; simp [findChar, h0]
    simp only [List.map_cons, List.map_nil, this]
    unfold values
    by_cases hk : k = []
    · simp [hk, get]
    · rw [if_neg hk, if_neg hk, List.filter_cons, if_neg (by simp; exact fun e => hk (by first | exact e | exact e.symm))]
      simp [get]
  | cons e es =>
    rw [split_join (by simp) ?_]
    · rw [List.map_map]
      have : (says c ∘ fun e : Bytes × Bytes => c.enc e.1 ++ [c!"="] ++ c.enc e.2) = id := by
        funext e; exact says_written hc e.1 e.2
      rw [this, List.map_id]
      simp [get]
    · intro s hs
      obtain ⟨e', -, rfl⟩ := List.mem_map.1 hs
      intro hm
      rcases List.mem_append.1 hm with hm | hm
      · rcases List.mem_append.1 hm with hm | hm
        · exact hc.amp _ hm
        · simp at hm
      · exact hc.amp _ hm

/-- C190: a form written to a body and read back has, under every name that is not empty, the same values in the same order, whatever bytes names and values contain and in whatever order the table is walked. -/
theorem C190_round_trip {c : Codec} (hc : CodecOk c) {f : Form} (hf : IsMap f) (k : Bytes) (hk : k ≠ []) : get (read c (write c f)) k = get f k := by
  rw [read_write hc f k, if_neg hk, values_pairs hf]

/-- C190: what is stored under the empty name is lost. -/
theorem C190_empty_name_lost {c : Codec} (hc : CodecOk c) (f : Form) : get (read c (write c f)) [] = [] := by
  rw [read_write hc f []]; simp

theorem add_keys (f : Form) (k v : Bytes) : ∀ x ∈ (add f k v).map (·.1), x = k ∨ x ∈ f.map (·.1) := by
  induction f with
  | nil => intro x hx; simpa [add] using hx
  | cons e f ih =>
    obtain ⟨k0, vs⟩ := e
    intro x hx
    unfold add at hx
    split at hx
    · exact .inr (by simpa using hx)
    · rcases List.mem_cons.1 hx with h | h
      · exact .inr (by rw [h]; simp)
      · exact (ih x h).imp id (fun h => List.mem_cons_of_mem _ h)

/-- C190: every form that is built by `add` is a map, so the round trip is about all of them. -/
theorem C190_built (kvs : List (Bytes × Bytes)) : IsMap (kvs.foldl (fun f e => add f e.1 e.2) []) := by
  have key : ∀ (f : Form) (k v : Bytes), IsMap f → IsMap (add f k v) := by
    intro f k v
    induction f with
    | nil => intro _; simp [add, IsMap]
    | cons e f ih =>
      obtain ⟨k0, vs⟩ := e
      intro h
      have h1 := (List.nodup_cons.1 h).1
      have h2 : IsMap f := (List.nodup_cons.1 h).2
      unfold add
      split
      · exact h
      · rename_i hne
        refine List.nodup_cons.2 ⟨?_, ih h2⟩
        intro hm
        rcases add_keys f k v _ hm with e | e
        · exact hne e
        · exact h1 e
  have : ∀ (kvs : List (Bytes × Bytes)) (f : Form), IsMap f → IsMap (kvs.foldl (fun f e => add f e.1 e.2) f) := by
    intro kvs
    induction kvs with
    | nil => exact fun _ h => h
    | cons e kvs ih => exact fun f h => ih _ (key f e.1 e.2 h)
  exact this kvs [] (by simp [IsMap])

/-- C190: and it holds under a name what was added under that name, in that order. -/
theorem C190_added (kvs : List (Bytes × Bytes)) (k : Bytes) : get (kvs.foldl (fun f e => add f e.1 e.2) []) k = values kvs k := by
  have : ∀ (kvs : List (Bytes × Bytes)) (f : Form), get (kvs.foldl (fun f e => add f e.1 e.2) f) k = get f k ++ values kvs k := by
    intro kvs
    induction kvs with
    | nil => intro f; simp [values]
    | cons e kvs ih =>
      intro f
      rw [List.foldl_cons, ih, get_add]
      unfold values
      rw [List.filter_cons]
      by_cases h : e.1 = k
      · rw [if_pos h, if_pos (by simpa using h)]; simp
      · rw [if_neg h, if_neg (by simpa using h)]
  simpa [get] using this kvs []

/-- C190: an encoded pair is nobody else's: what is written can be told apart from every other form that differs under a name. -/
theorem C190_injective {c : Codec} (hc : CodecOk c) {f g : Form} (hf : IsMap f) (hg : IsMap g) (h : write c f = write c g) (k : Bytes) (hk : k ≠ []) : get f k = get g k := by
  rw [← C190_round_trip hc hf k hk, ← C190_round_trip hc hg k hk, h]

/-- The codec of `utility.cpp` (C01, C02) meets the contract. -/
def utilityCodec : Codec := ⟨Utility.uriEncode, Utility.decodePath⟩

theorem utilityCodec_ok : CodecOk utilityCodec := by
  have safe : ∀ {s : Bytes}, Utility.Spec.UriSafe s → (c!"&" : UInt8) ∉ s ∧ (c!"=" : UInt8) ∉ s := by
    intro s h
    induction h with
    | nil => simp
    | plain hu _ ih =>
      rename_i x s _
      have : x ≠ c!"&" ∧ x ≠ c!"=" := by
        constructor <;> intro e <;> rw [e] at hu <;> revert hu <;> unfold Unreserved <;> decide
      simp only [List.mem_cons, not_or]
      exact ⟨⟨fun e => this.1 e.symm, ih.1⟩, ⟨fun e => this.2 e.symm, ih.2⟩⟩
    | escape h1 h2 _ ih =>
      rename_i a b s _
      have : ∀ x ∈ b!"0123456789ABCDEF", x ≠ c!"&" ∧ x ≠ c!"=" := by decide
      have ha := this a h1
      have hb := this b h2
      simp only [List.mem_cons, not_or]
      exact ⟨⟨by decide, fun e => ha.1 e.symm, fun e => hb.1 e.symm, ih.1⟩, ⟨by decide, fun e => ha.2 e.symm, fun e => hb.2 e.symm, ih.2⟩⟩
  refine ⟨Utility.C01_decode_encode, fun s => (safe (Utility.C01_encode_safe s)).1, fun s => (safe (Utility.C01_encode_safe s)).2, fun s h => ?_⟩
  refine Utility.C02_decode_no_percent s ?_
  intro hm
  have := h _ hm
  revert this; unfold Unreserved; decide

example : CodecOk utilityCodec ∧ IsMap [(b!"a b", [b!"1&2", b!"", b!"x=y"]), (b!"c", [b!"%41"])] := ⟨utilityCodec_ok, by unfold IsMap; decide⟩

example : write utilityCodec [(b!"a b", [b!"1&2", b!""]), (b!"c", [b!"%"])] = b!"a%20b=1%262&a%20b=&c=%25" := by decide

example : Says Utility.decodePath b!"a%3Db=c=d" b!"a=b" b!"c=d" := .inl ⟨b!"a%3Db", b!"c=d", rfl, by decide, by decide, by decide⟩

end Verif.Frm
