import Verif.Proofs.ToPassword
import Verif.Proofs.Lists
import Verif.Model.Types
import Mathlib.Data.List.Nodup

/-!
# Properties of generated passwords (C01–C05, C07, C58)
-/

namespace Pfp.Props
open Spec Crypto

/-! ## C01 -/

/-- **C01.** Deriving a generated password of any length the key derivation supports, with a non-empty character
set, does not panic and gives exactly that many characters. -/
theorem C01_generated_length (P : Prims) (hP : P.Lawful) (primary salt : Str) (length : Nat)
    (charset : CharacterSet) (hmin : 1 ≤ length) (hmax : length ≤ 32 * 0xffffffff)
    (hcharset : ∃ t, charset.contains t = true) :
    ∃ p, derivePassword P primary salt length charset = .ok p ∧ p.length = length := by
  obtain ⟨t, ht⟩ := hcharset
  obtain ⟨ts, s, h1, h2, h3, _⟩ := toPassword_spec (P.scrypt (utf8 primary) (utf8 salt) length) charset
    (CharacterSet.len_pos_of_contains ht)
  refine ⟨s, ?_, ?_⟩
  · unfold derivePassword deriveBits
    rw [if_neg (by omega)]
    exact h1
  · rw [← h2.length, h3, hP.scrypt_length]

/-- The hypotheses are met by the command line's default: length 16, all classes. -/
example : (1 ≤ 16 ∧ 16 ≤ 32 * 0xffffffff) ∧ ∃ t, CharacterSet.all.contains t = true := ⟨by decide, .lower, rfl⟩

/-- A password that was derived comes from `to_password` on as many bytes. -/
private theorem of_derive {P : Prims} (hP : P.Lawful) {primary salt : Str} {length : Nat} {charset : CharacterSet}
    {p : Str} (h : derivePassword P primary salt length charset = .ok p) :
    ∃ bytes : Bytes, bytes.length = length ∧ 0 < length ∧ toPassword bytes charset = .ok p := by
  unfold derivePassword deriveBits at h
  split at h
  · cases h
  · rename_i hc
    exact ⟨_, hP.scrypt_length _ _ _, by omega, h⟩

private theorem charset_pos {bytes : Bytes} {charset : CharacterSet} {p : Str} (hb : bytes ≠ [])
    (h : toPassword bytes charset = .ok p) : 0 < charset.len := by
  apply Nat.pos_of_ne_zero
  intro h0
  rw [eq_empty_of_len h0, toPassword_empty bytes hb] at h
  cases h

/-! ## C02 -/

/-- **C02.** Every character of a derived password belongs to a selected class, and none is one of the easily
confused or unsafe characters. -/
theorem C02_generated_characters (P : Prims) (hP : P.Lawful) (primary salt : Str) (length : Nat)
    (charset : CharacterSet) (p : Str) (h : derivePassword P primary salt length charset = .ok p) :
    ∀ c ∈ p, (∃ t, charset.contains t = true ∧ InClass t c) ∧ c ∉ forbidden := by
  obtain ⟨bytes, hb, hpos, hp⟩ := of_derive hP h
  have hne : bytes ≠ [] := by intro h0; rw [h0] at hb; simp at hb; omega
  obtain ⟨ts, s, h1, h2, _, h4, _⟩ := toPassword_spec bytes charset (charset_pos hne hp)
  rw [hp] at h1
  cases h1
  intro c hc
  obtain ⟨i, hi, rfl⟩ := List.mem_iff_getElem.mp hc
  have hcl := h2.get i hi
  refine ⟨⟨_, h4 _ (List.getElem_mem _), hcl⟩, ?_⟩
  have hno : ∀ t : CharacterType, ∀ c ∈ forbidden, ¬ c ∈ (classText t).toList := by
    intro t; cases t <;> decide
  exact fun hf => hno _ _ hf hcl

/-! ## C03 -/

/-- **C03.** If the length is at least the number of selected classes, every selected class occurs. -/
theorem C03_every_class_occurs (P : Prims) (hP : P.Lawful) (primary salt : Str) (length : Nat)
    (charset : CharacterSet) (p : Str) (hlen : charset.len ≤ length)
    (h : derivePassword P primary salt length charset = .ok p) :
    ∀ t, charset.contains t = true → ∃ c ∈ p, InClass t c := by
  obtain ⟨bytes, hb, hpos, hp⟩ := of_derive hP h
  have hne : bytes ≠ [] := by intro h0; rw [h0] at hb; simp at hb; omega
  obtain ⟨ts, s, h1, h2, _, _, h5, _⟩ := toPassword_spec bytes charset (charset_pos hne hp)
  rw [hp] at h1
  cases h1
  intro t ht
  obtain ⟨i, hi, he⟩ := List.mem_iff_getElem.mp (h5 (by omega) t ht)
  have hi' : i < p.length := by rw [← h2.length]; exact hi
  refine ⟨p[i], List.getElem_mem _, ?_⟩
  have := h2.get i hi'
  rw [he] at this
  exact this

example : CharacterSet.all.len ≤ 4 := by decide

/-! ## C04 -/

/-- **C04.** If the length does not exceed the number of selected classes, no class contributes two characters. -/
theorem C04_short_no_repeat (P : Prims) (hP : P.Lawful) (primary salt : Str) (length : Nat)
    (charset : CharacterSet) (p : Str) (hlen : length ≤ charset.len)
    (h : derivePassword P primary salt length charset = .ok p) :
    ∀ (i j : Nat) (hi : i < p.length) (hj : j < p.length) (t : CharacterType),
      InClass t p[i] → InClass t p[j] → i = j := by
  obtain ⟨bytes, hb, hpos, hp⟩ := of_derive hP h
  have hne : bytes ≠ [] := by intro h0; rw [h0] at hb; simp at hb; omega
  obtain ⟨ts, s, h1, h2, _, _, _, h6⟩ := toPassword_spec bytes charset (charset_pos hne hp)
  rw [hp] at h1
  cases h1
  intro i j hi hj t hti htj
  have e1 := classes_disjoint (h2.get i hi) hti
  have e2 := classes_disjoint (h2.get j hj) htj
  have hl := h2.length
  exact (List.Nodup.getElem_inj_iff (h6 (by omega))).mp (e1.trans e2.symm)

example : 3 ≤ CharacterSet.all.len := by decide

/-! ## C05, first part -/

/-- **C05 (library).** Retrieving a password with an empty character set panics, whatever the other parameters. -/
theorem C05_empty_charset_panics (P : Prims) (hP : P.Lawful) (primary salt : Str) (length : Nat) :
    derivePassword P primary salt length .empty = .panic := by
  unfold derivePassword deriveBits
  split
  · rfl
  · rename_i hc
    exact toPassword_empty _ (by
      intro h0
      have := hP.scrypt_length (utf8 primary) (utf8 salt) length
      rw [h0] at this
      simp at this
      omega)

/-! ## C07 -/

/-- Two revisions that mean the same: equal, or both among the empty one and "1". -/
def SameRevision (r r' : Str) : Prop := r = r' ∨ ((r = [] ∨ r = c!"1") ∧ (r' = [] ∨ r' = c!"1"))

/-- No NUL character in the text. -/
def NulFree (s : Str) : Prop := Char.ofNat 0 ∉ s

private theorem salt_inj (p q : GeneratedPassword) (h1 : NulFree p.id.site) (h2 : NulFree p.id.name)
    (_h3 : NulFree p.id.revision) (h4 : NulFree q.id.site) (h5 : NulFree q.id.name) (_h6 : NulFree q.id.revision) :
    p.salt = q.salt ↔ p.id = q.id := by
  constructor
  · intro h
    simp only [GeneratedPassword.salt, List.append_assoc, List.cons_append] at h
    obtain ⟨hs, h⟩ := append_sep_inj h1 h4 h
    rcases p with ⟨⟨s, n, r⟩, _, _, _⟩
    rcases q with ⟨⟨s', n', r'⟩, _, _, _⟩
    simp only at *
    subst hs
    by_cases e : r = [] <;> by_cases e' : r' = [] <;> simp [e, e'] at h
    · rw [h, e, e']
    · exact absurd h (ne_append_sep h2)
    · exact absurd h.symm (ne_append_sep h5)
    · obtain ⟨rfl, rfl⟩ := append_sep_inj h2 h5 h
      rfl
  · intro h
    simp only [GeneratedPassword.salt, h]

/-- **C07.** For texts without NUL characters, the input of the key derivation differs for different password
identities (revision "1" being no revision), whatever the other parameters. -/
theorem C07_salts_distinct (site name rev site' name' rev' : Str) (l l' : UInt64) (cs cs' : CharacterSet)
    (hs : NulFree site) (hn : NulFree name) (hr : NulFree rev)
    (hs' : NulFree site') (hn' : NulFree name') (hr' : NulFree rev') :
    utf8 (GeneratedPassword.new site name rev l cs).salt = utf8 (GeneratedPassword.new site' name' rev' l' cs').salt
      ↔ site = site' ∧ name = name' ∧ SameRevision rev rev' := by
  have norm : ∀ r : Str, NulFree r → NulFree (if r ≠ c!"1" then r else []) := by
    intro r h; split
    · exact h
    · simp [NulFree]
  have same : ∀ r r' : Str, SameRevision r r' ↔ (if r ≠ c!"1" then r else []) = (if r' ≠ c!"1" then r' else []) := by
    intro r r'
    unfold SameRevision
    by_cases h1 : r = c!"1" <;> by_cases h2 : r' = c!"1"
    · simp [h1, h2]
    · simp only [h1, ne_eq, not_true_eq_false, if_false, h2, not_false_eq_true, if_true, or_false, or_true, true_and]
      constructor
      · rintro (h | h)
        · exact absurd h.symm h2
        · exact h.symm
      · exact fun h => Or.inr h.symm
    · simp only [h1, ne_eq, not_true_eq_false, if_false, h2, not_false_eq_true, if_true, or_false, or_true, and_true,
        false_or]
    · simp only [h1, ne_eq, h2, not_false_eq_true, if_true, or_false]
      constructor
      · rintro (h | ⟨rfl, rfl⟩)
        · exact h
        · rfl
      · exact Or.inl
  rw [utf8_inj, same, salt_inj _ _ hs hn (norm rev hr) hs' hn' (norm rev' hr')]
  simp only [GeneratedPassword.new, PasswordId.new, PasswordId.mk.injEq]

example : NulFree (c!"example.com") ∧ NulFree (c!"me") ∧ NulFree (c!"2") := by
  simp only [NulFree]; decide

/-- **C07 (limits).** With NUL characters in the name, different identities share one derivation salt. -/
theorem C07_nul_collision : ∃ (name rev name' rev' : Str), name ≠ name' ∧ ∀ (site : Str) (l : UInt64)
    (cs : CharacterSet), (GeneratedPassword.new site name rev l cs).salt = (GeneratedPassword.new site name' rev' l cs).salt := by
  refine ⟨'a' :: Char.ofNat 0 :: c!"2", [], c!"a", c!"2", by decide, ?_⟩
  intro site l cs
  simp [GeneratedPassword.salt, GeneratedPassword.new, PasswordId.new]

/-! ## C58 -/

/-- **C58.** Every text of selected characters in which all selected classes occur is the result for some derived
byte string: no conforming password is excluded. -/
theorem C58_every_conforming_password_possible (charset : CharacterSet) (p : Str)
    (hclass : ∀ c ∈ p, ∃ t, charset.contains t = true ∧ InClass t c)
    (hall : ∀ t, charset.contains t = true → ∃ c ∈ p, InClass t c) :
    ∃ bytes : Bytes, bytes.length = p.length ∧ toPassword bytes charset = .ok p := by
  obtain ⟨ts, hL, hts⟩ : ∃ ts, Labelled ts p ∧ ∀ t ∈ ts, charset.contains t = true := by
    clear hall
    induction p with
    | nil => exact ⟨[], .nil, by simp⟩
    | cons c p ih =>
      obtain ⟨t, h1, h2⟩ := hclass c (by simp)
      obtain ⟨ts, h3, h4⟩ := ih fun c hc => hclass c (by simp [hc])
      refine ⟨t :: ts, .cons h2 h3, ?_⟩
      intro u hu
      rcases List.mem_cons.mp hu with rfl | hu
      · exact h1
      · exact h4 u hu
  obtain ⟨bytes, h1, h2⟩ := loop_surj charset p.length hL 0 .empty
    (by intro x hx; rw [CharacterSet.contains_empty] at hx; cases hx) (by omega) hts (by
      intro t ht
      right
      obtain ⟨c, hc, hcl⟩ := hall t ht
      obtain ⟨i, hi, rfl⟩ := List.mem_iff_getElem.mp hc
      have := classes_disjoint (hL.get i hi) hcl
      rw [← this]
      exact List.getElem_mem _)
  refine ⟨bytes, h1, ?_⟩
  unfold toPassword
  rw [h1]
  exact h2

/-- A password meeting the hypotheses with all four classes. -/
example : (∀ c ∈ (c!"aB3!x"), ∃ t, CharacterSet.all.contains t = true ∧ InClass t c) ∧
    (∀ t, CharacterSet.all.contains t = true → ∃ c ∈ (c!"aB3!x"), InClass t c) := by
  constructor
  · intro c hc
    simp only [List.mem_cons, List.not_mem_nil, or_false] at hc
    rcases hc with rfl | rfl | rfl | rfl | rfl
    · exact ⟨.lower, rfl, by decide⟩
    · exact ⟨.upper, rfl, by decide⟩
    · exact ⟨.digit, rfl, by decide⟩
    · exact ⟨.symbol, rfl, by decide⟩
    · exact ⟨.lower, rfl, by decide⟩
  · intro t _
    cases t
    · exact ⟨'a', by decide, by decide⟩
    · exact ⟨'B', by decide, by decide⟩
    · exact ⟨'3', by decide, by decide⟩
    · exact ⟨'!', by decide, by decide⟩

end Pfp.Props
