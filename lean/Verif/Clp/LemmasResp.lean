import Verif.Clp.Micro3
import Verif.Clp.Spec
import Verif.Utility.Theorems

/-! Response heads. -/

namespace Verif.Clp
open Verif.Stream
open Verif.Utility (asciiToLower)
open Verif.Utility.Spec (lower)
open Verif.Wire (Headers)

/-- Every content-length value is the declared length. -/
def ClOk (hs : Headers) (cl : Option Nat) : Prop := ∀ e ∈ hs, e.1.map lower = b!"content-length" → ∀ v ∈ e.2, ∃ n, parseContentLength v = some n ∧ cl = some n.toNat

theorem lowerName_eq (n : Bytes) : lowerName n = n.map lower := by
  unfold lowerName
  rw [show asciiToLower = lower from funext Verif.Utility.lower_eq]

/-- Where the values of a header map come from after a push. -/
theorem push_from (k v : Bytes) : ∀ (h : Headers), ∀ e ∈ Parse.push h k v, ∀ u ∈ e.2, (∃ e' ∈ h, e'.1.map lower = e.1.map lower ∧ u ∈ e'.2) ∨ (e.1.map lower = k.map lower ∧ u = v)
  | [], e, he, u, hu => by
    simp only [Parse.push, List.mem_singleton] at he
    subst he
    simp only [List.mem_singleton] at hu
    exact .inr ⟨rfl, hu⟩
  | a :: h, e, he, u, hu => by
    unfold Parse.push at he
    split at he
    · rename_i hi
      have hi := (Verif.Utility.C04_iequals_exact _ _).1 hi
      rcases List.mem_cons.1 he with he | he
      · subst he
        rcases List.mem_append.1 hu with hu | hu
        · exact .inl ⟨a, by simp, rfl, hu⟩
        · exact .inr ⟨hi, by simpa using hu⟩
      · exact .inl ⟨e, by simp [he], rfl, hu⟩
    · rcases List.mem_cons.1 he with he | he
      · subst he; exact .inl ⟨e, by simp, rfl, hu⟩
      · rcases push_from k v h e he u hu with ⟨e', h1, h2⟩ | h1
        · exact .inl ⟨e', by simp [h1], h2⟩
        · exact .inr h1

theorem headField_cl (t : Bool) (m : Bytes) (h h' : Head) (n v : Bytes) (e : headField t m h n v = .ok h') (i : ClOk h.headers h.cl) : ClOk h'.headers h'.cl := by
  unfold headField at e
  split at e
  · cases e
  · split at e
    · split at e
      · cases e
      · split at e
        · split at e
          · cases e
          · split at e
            · cases e
            · cases e; exact i
        · cases e
    · split at e
      · cases e
      · split at e
        · cases e
        · split at e
          · rename_i hc
            split at e
            · cases e
            · rename_i k hk
              split at e
              · cases e
              · rename_i hm
                split at e
                · cases e
                · cases e
                  intro a ha hn u hu
                  rcases push_from n v h.headers a ha u hu with ⟨a', h1, h2, h3⟩ | ⟨h1, h2⟩
                  · obtain ⟨j, h4, h5⟩ := i a' h1 (h2.trans hn) u h3
                    rw [h5] at hm
                    simp only [conflicts, bne_iff_ne, ne_eq, Decidable.not_not] at hm
                    exact ⟨j, h4, by rw [hm]⟩
                  · exact ⟨k, by rw [h2]; exact hk, rfl⟩
          · rename_i hc
            cases e
            intro a ha hn u hu
            rcases push_from n v h.headers a ha u hu with ⟨a', h1, h2, h3⟩ | ⟨h1, h2⟩
            · exact i a' h1 (h2.trans hn) u h3
            · exfalso
              apply hc
              rw [lowerName_eq, ← h1, hn]
              rfl

theorem headLoop_cl (t : Bool) (m : Bytes) : ∀ (fs : List Field) (h h' : Head), headLoop t m fs h = .ok h' → ClOk h.headers h.cl → ClOk h'.headers h'.cl
  | [], h, h', e, i => by cases e; exact i
  | (n, v) :: fs, h, h', e, i => by
    unfold headLoop at e
    split at e
    · cases e
    · rename_i h1 he
      exact headLoop_cl t m fs h1 h' e (headField_cl t m h h1 n v he i)

/-- A status that was taken has three digits. -/
def StatusOk (o : Option Bytes) : Prop := ∀ v, o = some v → v.length = 3 ∧ ∀ b ∈ v, 48 ≤ b.toNat ∧ b.toNat ≤ 57

theorem headField_status (t : Bool) (m : Bytes) (h h' : Head) (n v : Bytes) (e : headField t m h n v = .ok h') (i : StatusOk h.status) : StatusOk h'.status := by
  unfold headField at e
  split at e
  · cases e
  · split at e
    · split at e
      · cases e
      · split at e
        · split at e
          · cases e
          · split at e
            · cases e
            · rename_i hv
              cases e
              intro w hw
              cases hw
              simp only [Bool.or_eq_true, bne_iff_ne, ne_eq, List.any_eq_true, decide_eq_true_eq, not_or, Decidable.not_not, not_exists, not_and] at hv
              refine ⟨hv.1, fun b hb => ?_⟩
              have := hv.2 b hb
              simp only [UInt8.lt_iff_toNat_lt, gt_iff_lt, Nat.not_lt] at this
              exact this
        · cases e
    · split at e
      · cases e
      · split at e
        · cases e
        · split at e
          · split at e
            · cases e
            · rename_i k hk
              split at e
              · cases e
              · split at e
                · cases e
                · cases e; exact i
          · cases e; exact i

theorem headLoop_status (t : Bool) (m : Bytes) : ∀ (fs : List Field) (h h' : Head), headLoop t m fs h = .ok h' → StatusOk h.status → StatusOk h'.status
  | [], h, h', e, i => by cases e; exact i
  | (n, v) :: fs, h, h', e, i => by
    unfold headLoop at e
    split at e
    · cases e
    · rename_i h1 he
      exact headLoop_status t m fs h1 h' e (headField_status t m h h1 n v he i)

theorem statusValue_le (v : Bytes) (h : v.length = 3 ∧ ∀ b ∈ v, 48 ≤ b.toNat ∧ b.toNat ≤ 57) : statusValue v ≤ 999 := by
  obtain ⟨h1, h2⟩ := h
  match v, h1 with
  | [a, b, c], _ =>
    have ha := h2 a (by simp)
    have hb := h2 b (by simp)
    have hc := h2 c (by simp)
    simp only [statusValue, List.foldl]
    omega

theorem respBlock_cl (s : CStream) (t : Bool) (fs : List Field) (r : Resp) (cl : Option Nat) (e : respBlock s t fs = .ok (r, cl)) (i : ClOk s.resp.headers s.cl) : ClOk r.headers cl := by
  unfold respBlock at e
  split at e
  · cases e
  · split at e
    · cases e
    · split at e
      · cases e
      · rename_i h hl
        have := headLoop_cl t s.req.method fs _ h hl i
        split at e
        · cases e; exact this
        · split at e
          · cases e
          · split at e
            · cases e
            · cases e; exact this

/-- The status after a block. -/
theorem respBlock_status (s : CStream) (t : Bool) (fs : List Field) (r : Resp) (cl : Option Nat) (e : respBlock s t fs = .ok (r, cl)) :
    (t = true → r.status = s.resp.status) ∧ (t = false → 100 ≤ r.status ∧ r.status ≤ 999) := by
  unfold respBlock at e
  split at e
  · cases e
  · split at e
    · cases e
    · split at e
      · cases e
      · rename_i h hl
        have hs := headLoop_status t s.req.method fs _ h hl (fun v hv => by cases hv)
        split at e
        · rename_i ht
          cases e
          exact ⟨fun _ => rfl, fun hf => by rw [ht] at hf; cases hf⟩
        · rename_i ht
          split at e
          · cases e
          · rename_i v hv
            split at e
            · cases e
            · rename_i hge
              cases e
              exact ⟨fun hf => absurd hf ht, fun _ => ⟨by simpa using hge, statusValue_le v (hs v hv)⟩⟩

end Verif.Clp
