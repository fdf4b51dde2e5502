import Verif.Proofs.Base32
import Verif.Model.RecoveryCodes
import Verif.Spec.Recovery

/-!
# `format_code` computes the specified layout
-/

namespace Pfp.RecoveryCodes
open Spec Crypto

theorem toAsciiUppercase_eq (b : UInt8) : toAsciiUppercase b = upper b := by
  revert b
  apply forall_u8
  decide +kernel

theorem alphabet_eq : BASE32_ALPHABET = codeAlphabet := rfl

theorem upper_alphabet {c : UInt8} (h : c ∈ codeAlphabet) : upper c = c := by
  revert c; decide

theorem punctuation_notin : ∀ c ∈ codeAlphabet, ¬ (c = 10 ∨ c = 58 ∨ c = 45) := by decide

theorem significant_nil : significant [] = [] := rfl

theorem significant_cons (c : UInt8) (t : Bytes) :
    significant (c :: t) = if upper c ∈ codeAlphabet then upper c :: significant t else significant t := by
  simp only [significant, List.map_cons, List.filter_cons, decide_eq_true_eq]

theorem significant_append (a b : Bytes) : significant (a ++ b) = significant a ++ significant b := by
  simp [significant]

theorem significant_mem {t : Bytes} {c : UInt8} (h : c ∈ significant t) : c ∈ codeAlphabet := by
  have := (List.mem_filter.mp h).2
  simpa using this

theorem significant_of_alphabet {t : Bytes} (h : ∀ c ∈ t, c ∈ codeAlphabet) : significant t = t := by
  induction t with
  | nil => rfl
  | cons c t ih =>
    have hc := h c (by simp)
    rw [significant_cons, upper_alphabet hc, if_pos hc, ih fun d hd => h d (by simp [hd])]

theorem significant_significant (t : Bytes) : significant (significant t) = significant t :=
  significant_of_alphabet fun _ => significant_mem

theorem significant_separator (n : Nat) : significant (separatorAfter n) = [] := by
  unfold separatorAfter
  split
  · decide
  · split
    · decide
    · split <;> decide

theorem formatLoop_false (code : Bytes) : ∀ pos, formatLoop false pos code = significant code := by
  induction code with
  | nil => intro _; rfl
  | cons b code ih =>
    intro pos
    rw [significant_cons, formatLoop]
    simp only [toAsciiUppercase_eq, alphabet_eq, ih]
    by_cases h : upper b ∈ codeAlphabet
    · simp [h]
    · simp [h]

theorem popPunctuation_alphabet {l : Bytes} (h : ∀ c ∈ l, c ∈ codeAlphabet) : popPunctuation l = l := by
  unfold popPunctuation
  split
  · rename_i b hb
    rw [if_neg (punctuation_notin b (h b (List.mem_of_getLast? hb)))]
  · rfl

theorem formatCode_false (code : Bytes) : formatCode code false = significant code := by
  unfold formatCode
  rw [formatLoop_false, popPunctuation_alphabet fun _ => significant_mem]

/-- The characters with a separator after each of them. -/
def spread : Nat → Bytes → Bytes
  | _, [] => []
  | n, c :: rest => c :: (separatorAfter n ++ spread (n + 1) rest)

theorem formatLoop_true (code : Bytes) : ∀ pos, formatLoop true pos code = spread (pos + 1) (significant code) := by
  induction code with
  | nil => intro _; rfl
  | cons b code ih =>
    intro pos
    rw [significant_cons, formatLoop]
    simp only [toAsciiUppercase_eq, alphabet_eq, ih]
    by_cases h : upper b ∈ codeAlphabet
    · rw [if_neg (by simpa using h), if_pos h]
      simp only [spread, if_true]
      rfl
    · rw [if_pos h, if_neg h]

theorem popPunctuation_append {a b : Bytes} (h : b ≠ []) : popPunctuation (a ++ b) = a ++ popPunctuation b := by
  unfold popPunctuation
  rw [List.getLast?_append_of_ne_nil _ h]
  split
  · split
    · rw [List.dropLast_append_of_ne_nil h]
    · rfl
  · rfl

theorem spread_ne_nil {n : Nat} {c : UInt8} {l : Bytes} : spread n (c :: l) ≠ [] := by simp [spread]

theorem popPunctuation_spread (l : Bytes) (h : ∀ c ∈ l, c ∈ codeAlphabet) :
    ∀ n, popPunctuation (spread n l) = layoutFrom n l := by
  induction l with
  | nil => intro _; rfl
  | cons c l ih =>
    intro n
    have hc := punctuation_notin c (h c (by simp))
    match l, ih with
    | [], _ =>
      simp only [spread, layoutFrom, List.append_nil]
      by_cases he : separatorAfter n = []
      · rw [he]
        simp [popPunctuation, hc]
      · have : ∃ p, separatorAfter n = [p] ∧ (p = 10 ∨ p = 58 ∨ p = 45) := by
          unfold separatorAfter at he ⊢
          split at he
          · rename_i h; rw [if_pos h]; exact ⟨10, rfl, by simp⟩
          · rename_i h; rw [if_neg h]
            split at he
            · rename_i h; rw [if_pos h]; exact ⟨58, rfl, by simp⟩
            · rename_i h; rw [if_neg h]
              split at he
              · rename_i h; rw [if_pos h]; exact ⟨45, rfl, by simp⟩
              · exact absurd rfl he
        obtain ⟨p, hp, hp'⟩ := this
        rw [hp]
        simp [popPunctuation, hp']
    | c' :: rest, ih =>
      rw [spread, layoutFrom]
      have : c :: (separatorAfter n ++ spread (n + 1) (c' :: rest)) =
          (c :: separatorAfter n) ++ spread (n + 1) (c' :: rest) := rfl
      rw [this, popPunctuation_append spread_ne_nil, ih (fun d hd => h d (by simp [hd]))]
      rfl

theorem formatCode_true (code : Bytes) : formatCode code true = layout (significant code) := by
  unfold formatCode
  rw [formatLoop_true, popPunctuation_spread _ (fun _ => significant_mem)]
  rfl

theorem significant_layoutFrom (l : Bytes) (h : ∀ c ∈ l, c ∈ codeAlphabet) :
    ∀ n, significant (layoutFrom n l) = l := by
  induction l with
  | nil => intro _; rfl
  | cons c l ih =>
    intro n
    have hc := h c (by simp)
    match l, ih with
    | [], _ => exact significant_of_alphabet h
    | c' :: rest, ih =>
      rw [layoutFrom, significant_cons, upper_alphabet hc, if_pos hc, significant_append, significant_separator,
        ih (fun d hd => h d (by simp [hd]))]
      rfl

theorem significant_layout (l : Bytes) (h : ∀ c ∈ l, c ∈ codeAlphabet) : significant (layout l) = l :=
  significant_layoutFrom l h 1

end Pfp.RecoveryCodes
