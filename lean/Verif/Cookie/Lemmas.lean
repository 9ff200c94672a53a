import Verif.Cookie.Model
import Verif.Cookie.Spec
import Verif.Utility.Extra
import Verif.Date.Theorems

/-! Lemmas on `Set-Cookie` serialization and parsing. -/

namespace Verif.Cookie
open Utility Utility.Spec Spec

theorem isNameChar_iff : ∀ c, isNameChar c = true ↔ TChar c := by
  have : ∀ c : UInt8, isNameChar c = decide (c ∈ b!"!#$%&'*+-.^_`|~0123456789ABCDEFGHIJKLMNOPQRSTUVWXYZabcdefghijklmnopqrstuvwxyz") :=
    forall_byte (by decide +kernel)
  intro c
  rw [this, decide_eq_true_eq]; rfl

theorem isControl_iff : ∀ c, isControl c = true ↔ Ctl c := by
  intro c
  simp only [isControl, Ctl, Bool.or_eq_true, decide_eq_true_eq, beq_iff_eq, UInt8.le_iff_toNat_le, ← UInt8.toNat_inj]
  simp only [show (31 : UInt8).toNat = 31 from rfl, show (127 : UInt8).toNat = 127 from rfl]
  omega

theorem isValueChar_iff (c : UInt8) : isValueChar c = true ↔ c ≠ c!";" ∧ ¬ Ctl c := by
  rw [← isControl_iff]
  simp [isValueChar]

theorem all_value (s : Bytes) : s.all isValueChar = true ↔ Clean s := by
  rw [List.all_eq_true]
  exact ⟨fun h c hc => (isValueChar_iff c).1 (h c hc), fun h c hc => (isValueChar_iff c).2 (h c hc)⟩

theorem valid_iff (c : Cookie) : validForSerialization c = true ↔
    (c.name ≠ [] ∧ ∀ x ∈ c.name, TChar x) ∧ Clean c.value ∧ Clean c.domain ∧ Clean c.path := by
  unfold validForSerialization
  rw [← all_value, ← all_value, ← all_value]
  have hn : c.name.all isNameChar = true ↔ ∀ x ∈ c.name, TChar x := by
    rw [List.all_eq_true]
    exact ⟨fun h x hx => (isNameChar_iff x).1 (h x hx), fun h x hx => (isNameChar_iff x).2 (h x hx)⟩
  rw [← hn]
  cases h1 : c.name.isEmpty <;> cases h2 : c.name.all isNameChar <;> cases h3 : c.value.all isValueChar <;>
    cases h4 : c.domain.all isValueChar <;> cases h5 : c.path.all isValueChar <;> simp_all

/-! ### clean texts -/

theorem Clean.append {a b : Bytes} (ha : Clean a) (hb : Clean b) : Clean (a ++ b) := by
  intro c hc
  rcases List.mem_append.1 hc with h | h
  · exact ha c h
  · exact hb c h

theorem Clean.nil : Clean [] := by intro c hc; simp at hc

instance (s : Bytes) : Decidable (Clean s) := by unfold Clean Ctl; infer_instance

theorem decNat_chars (n : Nat) : ∀ c ∈ Date.decNat n, 48 ≤ c.toNat ∧ c.toNat ≤ 57 := by
  induction n using Nat.strongRecOn with
  | _ n ih =>
    rw [Date.decNat]
    split
    · intro c hc
      simp only [List.mem_singleton] at hc
      subst hc
      have : (UInt8.ofNat (48 + n)).toNat = 48 + n := by
        rw [UInt8.toNat_ofNat_of_lt']; show 48 + n < 256; omega
      omega
    · intro c hc
      rcases List.mem_append.1 hc with h | h
      · exact ih (n / 10) (by omega) c h
      · simp only [List.mem_singleton] at h
        subst h
        have : (UInt8.ofNat (48 + n % 10)).toNat = 48 + n % 10 := by
          rw [UInt8.toNat_ofNat_of_lt']; show 48 + n % 10 < 256; omega
        omega

theorem decNat_ne (n : Nat) : Date.decNat n ≠ [] := by
  rw [Date.decNat]; split <;> simp

/-- A digit or a minus sign. -/
def DecChar (c : UInt8) : Prop := (48 ≤ c.toNat ∧ c.toNat ≤ 57) ∨ c = c!"-"

theorem dec_chars (i : Int) : ∀ c ∈ Date.dec i, DecChar c := by
  unfold Date.dec
  intro c hc
  split at hc
  · rcases List.mem_cons.1 hc with h | h
    · exact Or.inr h
    · exact Or.inl (decNat_chars _ c h)
  · exact Or.inl (decNat_chars _ c hc)

theorem dec_ne (i : Int) : Date.dec i ≠ [] := by
  unfold Date.dec
  split
  · simp
  · exact decNat_ne _

theorem DecChar.clean {c : UInt8} (h : DecChar c) : c ≠ c!";" ∧ ¬ Ctl c ∧ ¬ Ows c ∧ c ≠ c!"\"" ∧ c ≠ c!"=" := by
  rcases h with ⟨h1, h2⟩ | rfl
  · refine ⟨?_, ?_, ?_, ?_, ?_⟩
    · rintro rfl; simp at h2
    · unfold Ctl; omega
    · rintro (rfl | rfl) <;> simp at h1
    · rintro rfl; simp at h1
    · rintro rfl; simp at h2
  · simp [Ctl, Ows]

theorem dec_clean (i : Int) : Clean (Date.dec i) := fun c hc => ⟨(dec_chars i c hc).clean.1, (dec_chars i c hc).clean.2.1⟩

theorem dec2_clean (i : Int) : Clean (Date.dec2 i) := by
  unfold Date.dec2
  apply Clean.append _ (dec_clean i)
  split <;> decide

theorem getD_clean {l : List Bytes} (h : ∀ x ∈ l, Clean x) (n : Nat) : Clean (l.getD n []) := by
  rw [List.getD_eq_getElem?_getD]
  cases hn : l[n]? with
  | none => exact Clean.nil
  | some x => exact h x (List.mem_of_getElem? hn)

theorem date_clean (ns : Int) : Clean (Date.formatHttpDate ns) := by
  unfold Date.formatHttpDate
  simp only []
  have h1 := getD_clean (l := Date.DAYS) (by decide +kernel) (Date.gmtime (Date.toTimeT ns)).wday.toNat
  have h2 := getD_clean (l := Date.MONTHS) (by decide +kernel) (Date.gmtime (Date.toTimeT ns)).mon.toNat
  have l : ∀ {x : Bytes}, Clean x → ∀ (y : Bytes), Clean y → Clean (x ++ y) := fun hx _ hy => Clean.append hx hy
  refine l (l (l (l (l (l (l (l (l (l (l (l (l (l h1 _ ?_) _ (dec2_clean _)) _ ?_) _ h2) _ ?_) _ (dec_clean _)) _ ?_) _
    (dec2_clean _)) _ ?_) _ (dec2_clean _)) _ ?_) _ (dec2_clean _)) _ ?_) _ ?_ <;> decide

theorem tchar_clean {s : Bytes} (h : ∀ x ∈ s, TChar x) : Clean s := by
  have : ∀ c : UInt8, isNameChar c = true → isValueChar c = true := forall_byte (by decide +kernel)
  intro c hc
  exact (isValueChar_iff c).1 (this c ((isNameChar_iff c).2 (h c hc)))

/-! ### the header as a list of fields -/

/-- The attribute list of the model's cookie. -/
def attrsOf (c : Cookie) : List Bytes :=
  attributes (c.expires.map Date.formatHttpDate) (c.maxAge.map Date.dec) c.domain c.path c.secure c.httpOnly
    (c.sameSite.map sameSiteName)

theorem intercalate_cons_flat (d : UInt8) (x : Bytes) (l : List Bytes) :
    [d].intercalate (x :: l) = x ++ l.flatMap (fun y => d :: y) := by
  induction l generalizing x with
  | nil => simp
  | cons y l ih => rw [List.intercalate_cons_cons, ih]; simp

theorem toHeader_eq (c : Cookie) (h : validForSerialization c = true) :
    toHeader c = some ([c!";"].intercalate ((c.name ++ b!"=" ++ c.value) :: (attrsOf c).map (32 :: ·))) := by
  unfold toHeader
  rw [if_neg (by simp [h]), intercalate_cons_flat]
  congr 1
  unfold attrsOf attributes
  simp only [List.map_append, List.flatMap_append, List.append_assoc]
  cases c.expires <;> cases c.maxAge <;> cases c.sameSite <;> cases hs : c.secure <;> cases hh : c.httpOnly <;>
    cases hd : c.domain <;> cases hp : c.path <;> simp [optAttr]

theorem attrs_clean (c : Cookie) (h : validForSerialization c = true) : ∀ a ∈ attrsOf c, Clean a := by
  obtain ⟨_, _, hd, hp⟩ := (valid_iff c).1 h
  have hss : ∀ s, Clean (sameSiteName s) := by intro s; cases s <;> decide
  unfold attrsOf attributes
  intro a ha
  simp only [List.mem_append] at ha
  rcases ha with (((((ha | ha) | ha) | ha) | ha) | ha) | ha
  · cases he : c.expires with
    | none => simp [he, optAttr] at ha
    | some t => simp only [he, optAttr, Option.map_some, List.mem_singleton] at ha; subst ha; exact Clean.append (by decide) (date_clean t)
  · cases he : c.maxAge with
    | none => simp [he, optAttr] at ha
    | some t => simp only [he, optAttr, Option.map_some, List.mem_singleton] at ha; subst ha; exact Clean.append (by decide) (dec_clean t)
  · split at ha
    · simp at ha
    · simp only [List.mem_singleton] at ha; subst ha; exact Clean.append (by decide) hd
  · split at ha
    · simp at ha
    · simp only [List.mem_singleton] at ha; subst ha; exact Clean.append (by decide) hp
  · split at ha
    · simp only [List.mem_singleton] at ha; subst ha; decide
    · simp at ha
  · split at ha
    · simp only [List.mem_singleton] at ha; subst ha; decide
    · simp at ha
  · cases he : c.sameSite with
    | none => simp [he, optAttr] at ha
    | some t => simp only [he, optAttr, Option.map_some, List.mem_singleton] at ha; subst ha; exact Clean.append (by decide) (hss t)

theorem fields_clean (c : Cookie) (h : validForSerialization c = true) :
    ∀ f ∈ (c.name ++ b!"=" ++ c.value) :: (attrsOf c).map (32 :: ·), Clean f := by
  obtain ⟨⟨_, hn⟩, hv, _, _⟩ := (valid_iff c).1 h
  intro f hf
  rcases List.mem_cons.1 hf with rfl | hf
  · exact Clean.append (Clean.append (tchar_clean hn) (by decide)) hv
  · obtain ⟨a, ha, rfl⟩ := List.mem_map.1 hf
    exact Clean.append (a := [32]) (by decide) (attrs_clean c h a ha)

theorem mem_intercalate {d x : UInt8} {l : List Bytes} (h : x ∈ [d].intercalate l) : x = d ∨ ∃ f ∈ l, x ∈ f := by
  cases l with
  | nil => simp [List.intercalate] at h
  | cons a l =>
    rw [intercalate_cons_flat, List.mem_append, List.mem_flatMap] at h
    rcases h with h | ⟨f, hf, h⟩
    · exact Or.inr ⟨a, by simp, h⟩
    · rcases List.mem_cons.1 h with h | h
      · exact Or.inl h
      · exact Or.inr ⟨f, by simp [hf], h⟩

/-! ### segments -/

theorem segments_ne (s : Bytes) : segments s ≠ [] := by
  cases s with
  | nil => simp [segments]
  | cons c t => rw [segments]; split <;> (try split) <;> simp

theorem segments_app {f : Bytes} (h : c!";" ∉ f) (t : Bytes) : segments (f ++ c!";" :: t) = f :: segments t := by
  induction f with
  | nil => simp [segments]
  | cons c f ih =>
    simp only [List.mem_cons, not_or] at h
    have : (c == c!";") = false := by simpa using fun e => h.1 e.symm
    rw [List.cons_append, segments, this, ih h.2]; simp

theorem segments_last {f : Bytes} (h : c!";" ∉ f) : segments f = [f] := by
  induction f with
  | nil => rfl
  | cons c f ih =>
    simp only [List.mem_cons, not_or] at h
    have : (c == c!";") = false := by simpa using fun e => h.1 e.symm
    rw [segments, this, ih h.2]; simp

theorem segments_fields {s : Bytes} {fs : List Bytes} (h : IsFields c!";" s fs) : segments s = fs := by
  obtain ⟨hne, hf, rfl⟩ := h
  induction fs with
  | nil => exact absurd rfl hne
  | cons f fs ih =>
    cases fs with
    | nil => simpa using segments_last (hf f (by simp))
    | cons g gs =>
      have e : [c!";"].intercalate (f :: g :: gs) = f ++ c!";" :: [c!";"].intercalate (g :: gs) := by
        rw [List.intercalate_cons_cons]; simp
      rw [e, segments_app (hf f (by simp)), ih (by simp) (fun x hx => hf x (by simp [hx]))]

theorem segments_isFields (s : Bytes) : IsFields c!";" s (segments s) := by
  have h := C05_split_view_exact s c!";"
  rw [segments_fields h]; exact h

end Verif.Cookie
