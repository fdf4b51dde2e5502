import Verif.Model.Prelude

/-! # UTF-8: round trip, injectivity, prefixes -/

namespace Pfp

theorem u8 {n : Nat} (h : n < 256) : (UInt8.ofNat n).toNat = n := by
  simp [UInt8.toNat_ofNat']; omega

theorem u8_eq {b : UInt8} {n : Nat} (h : b.toNat = n) : b = UInt8.ofNat n := by
  rw [← h]; simp

theorem char_valid (c : Char) : Nat.isValidChar c.toNat := c.valid

theorem char_lt (c : Char) : c.toNat < 0x110000 := by
  have h := char_valid c
  rcases h with h | h
  · omega
  · exact h.2

theorem char_not_surrogate (c : Char) : c.toNat < 0xD800 ∨ 0xDFFF < c.toNat := by
  rcases char_valid c with h | h
  · left; exact h
  · right; exact h.1

theorem ofNat_toNat (c : Char) : Char.ofNat c.toNat = c := Char.ofNat_toNat c

theorem toNat_ofNat_valid {n : Nat} (h : Nat.isValidChar n) : (Char.ofNat n).toNat = n := by
  unfold Char.ofNat; rw [dif_pos h]; rfl

theorem char_eq_of_toNat {a b : Char} (h : a.toNat = b.toNat) : a = b := by
  rw [← ofNat_toNat a, ← ofNat_toNat b, h]

theorem scalar?_toNat {lo : Nat} (c : Char) (h : lo ≤ c.toNat) : scalar? lo c.toNat = some c := by
  unfold scalar?
  rw [if_pos ⟨h, char_valid c⟩, ofNat_toNat]

theorem utf8Cont_ofNat {n : Nat} (h : n < 64) : utf8Cont (UInt8.ofNat (0x80 + n)) = some n := by
  unfold utf8Cont
  rw [u8 (by omega)]
  rw [if_pos (by omega), Nat.add_sub_cancel_left]

/-- Decoding one encoded character. -/
theorem fromUtf8_utf8Char (c : Char) (t : Bytes) : fromUtf8 (utf8Char c ++ t) = (fromUtf8 t).map (c :: ·) := by
  have hlt := char_lt c
  unfold utf8Char
  simp only
  split
  · rename_i h
    simp only [List.cons_append, List.nil_append]
    rw [fromUtf8.eq_def]; simp only; rw [u8 (by omega), if_pos h, ofNat_toNat]
  · split
    · rename_i h1 h2
      simp only [List.cons_append, List.nil_append]
      rw [fromUtf8.eq_def]; simp only; rw [u8 (by omega), if_neg (by omega), if_neg (by omega), if_pos (by omega)]
      simp only [utf8Cont_ofNat (show c.toNat % 64 < 64 by omega)]
      have : (0xC0 + c.toNat / 64 - 0xC0) * 64 + c.toNat % 64 = c.toNat := by omega
      simp only [Option.bind_eq_bind, Option.bind_some, this]
      rw [scalar?_toNat c (by omega)]; rfl
    · split
      · rename_i h1 h2 h3
        simp only [List.cons_append, List.nil_append]
        rw [fromUtf8.eq_def]; simp only; rw [u8 (by omega), if_neg (by omega), if_neg (by omega), if_neg (by omega), if_pos (by omega)]
        simp only [utf8Cont_ofNat (show c.toNat % 64 < 64 by omega),
          utf8Cont_ofNat (show c.toNat / 64 % 64 < 64 by omega)]
        have : (0xE0 + c.toNat / 4096 - 0xE0) * 4096 + c.toNat / 64 % 64 * 64 + c.toNat % 64 = c.toNat := by omega
        simp only [Option.bind_eq_bind, Option.bind_some, this]
        rw [scalar?_toNat c (by omega)]; rfl
      · rename_i h1 h2 h3
        simp only [List.cons_append, List.nil_append]
        rw [fromUtf8.eq_def]; simp only; rw [u8 (by omega), if_neg (by omega), if_neg (by omega), if_neg (by omega), if_neg (by omega),
          if_pos (by omega)]
        simp only [utf8Cont_ofNat (show c.toNat % 64 < 64 by omega),
          utf8Cont_ofNat (show c.toNat / 64 % 64 < 64 by omega),
          utf8Cont_ofNat (show c.toNat / 4096 % 64 < 64 by omega)]
        have : (0xF0 + c.toNat / 262144 - 0xF0) * 262144 + c.toNat / 4096 % 64 * 4096 + c.toNat / 64 % 64 * 64
          + c.toNat % 64 = c.toNat := by omega
        simp only [Option.bind_eq_bind, Option.bind_some, this]
        rw [scalar?_toNat c (by omega)]; rfl

theorem utf8_nil : utf8 [] = [] := rfl
theorem utf8_cons (c : Char) (s : Str) : utf8 (c :: s) = utf8Char c ++ utf8 s := by simp [utf8]
theorem utf8_append (s t : Str) : utf8 (s ++ t) = utf8 s ++ utf8 t := by simp [utf8]

/-- Decoding what was encoded, with more behind it. -/
theorem fromUtf8_utf8_append (s : Str) (t : Bytes) : fromUtf8 (utf8 s ++ t) = (fromUtf8 t).map (s ++ ·) := by
  induction s with
  | nil => simp [utf8_nil]
  | cons c s ih =>
    rw [utf8_cons, List.append_assoc, fromUtf8_utf8Char, ih]
    cases fromUtf8 t <;> simp

/-- The round trip. -/
theorem fromUtf8_utf8 (s : Str) : fromUtf8 (utf8 s) = some s := by
  have := fromUtf8_utf8_append s []
  simpa [fromUtf8] using this

/-- Encoding is injective. -/
theorem utf8_injective {s t : Str} (h : utf8 s = utf8 t) : s = t := by
  have := fromUtf8_utf8 s
  rw [h, fromUtf8_utf8] at this
  exact (Option.some.inj this).symm

theorem utf8_inj {s t : Str} : utf8 s = utf8 t ↔ s = t := ⟨utf8_injective, fun h => h ▸ rfl⟩

theorem utf8Char_ne_nil (c : Char) : utf8Char c ≠ [] := by
  unfold utf8Char; simp only; split <;> (try split) <;> (try split) <;> simp

theorem scalar?_eq {lo n : Nat} {c : Char} (h : scalar? lo n = some c) : c.toNat = n ∧ lo ≤ n := by
  unfold scalar? at h
  split at h
  · rename_i hh
    cases h
    exact ⟨toNat_ofNat_valid hh.2, hh.1⟩
  · cases h

theorem utf8Cont_eq {b : UInt8} {n : Nat} (h : utf8Cont b = some n) : b = UInt8.ofNat (0x80 + n) ∧ n < 64 := by
  unfold utf8Cont at h
  split at h
  · rename_i hh
    simp only [Option.some.injEq] at h
    subst h
    refine ⟨?_, by omega⟩
    rw [Nat.add_sub_cancel' hh.1]; simp
  · cases h

/-- Decoding accepts nothing but encodings. -/
theorem utf8_of_fromUtf8 : ∀ (b : Bytes) (s : Str), fromUtf8 b = some s → utf8 s = b
  | [], s, h => by simp [fromUtf8] at h; subst h; rfl
  | a :: t, s, h => by
    rw [fromUtf8.eq_def] at h
    simp only at h
    have ha : a.toNat < 256 := a.toNat_lt
    split at h
    · rename_i h1
      rw [Option.map_eq_some_iff] at h
      obtain ⟨s', hs', rfl⟩ := h
      rw [utf8_cons, utf8_of_fromUtf8 t s' hs']
      have hv : Nat.isValidChar a.toNat := Or.inl (by omega)
      unfold utf8Char
      simp only [toNat_ofNat_valid hv]
      rw [if_pos h1]; simp
    · split at h
      · cases h
      · split at h
        · rename_i h1 h2 h3
          split at h
          · rename_i b t'
            simp only [Option.bind_eq_bind, Option.bind_eq_some_iff, Option.map_eq_some_iff] at h
            obtain ⟨x, hx, c, hc, s', hs', rfl⟩ := h
            obtain ⟨rfl, hx'⟩ := utf8Cont_eq hx
            obtain ⟨hn, hlo⟩ := scalar?_eq hc
            rw [utf8_cons, utf8_of_fromUtf8 t' s' hs']
            unfold utf8Char
            simp only
            rw [if_neg (by omega), if_pos (by omega)]
            simp only [List.cons_append, List.nil_append, List.cons.injEq, and_true]
            refine ⟨(u8_eq (by omega)).symm, by congr 1; omega⟩
          · cases h
        · split at h
          · rename_i h1 h2 h3 h4
            split at h
            · rename_i b c t'
              simp only [Option.bind_eq_bind, Option.bind_eq_some_iff, Option.map_eq_some_iff] at h
              obtain ⟨x, hx, y, hy, ch, hc, s', hs', rfl⟩ := h
              obtain ⟨rfl, hx'⟩ := utf8Cont_eq hx
              obtain ⟨rfl, hy'⟩ := utf8Cont_eq hy
              obtain ⟨hn, hlo⟩ := scalar?_eq hc
              rw [utf8_cons, utf8_of_fromUtf8 t' s' hs']
              unfold utf8Char
              simp only
              rw [if_neg (by omega), if_neg (by omega), if_pos (by omega)]
              simp only [List.cons_append, List.nil_append, List.cons.injEq, and_true]
              refine ⟨(u8_eq (by omega)).symm, by congr 1; omega, by congr 1; omega⟩
            · cases h
          · split at h
            · rename_i h1 h2 h3 h4 h5
              split at h
              · rename_i b c d t'
                simp only [Option.bind_eq_bind, Option.bind_eq_some_iff, Option.map_eq_some_iff] at h
                obtain ⟨x, hx, y, hy, z, hz, ch, hc, s', hs', rfl⟩ := h
                obtain ⟨rfl, hx'⟩ := utf8Cont_eq hx
                obtain ⟨rfl, hy'⟩ := utf8Cont_eq hy
                obtain ⟨rfl, hz'⟩ := utf8Cont_eq hz
                obtain ⟨hn, hlo⟩ := scalar?_eq hc
                rw [utf8_cons, utf8_of_fromUtf8 t' s' hs']
                unfold utf8Char
                simp only
                rw [if_neg (by omega), if_neg (by omega), if_neg (by omega)]
                simp only [List.cons_append, List.nil_append, List.cons.injEq, and_true]
                refine ⟨(u8_eq (by omega)).symm, by congr 1; omega, by congr 1; omega, by congr 1; omega⟩
              · cases h
            · cases h

/-- A prefix of the encoding that is itself valid encodes a prefix. -/
theorem prefix_of_utf8_prefix {s t : Str} (h : utf8 t <+: utf8 s) : t <+: s := by
  obtain ⟨r, hr⟩ := h
  have h1 := fromUtf8_utf8 s
  rw [← hr, fromUtf8_utf8_append, Option.map_eq_some_iff] at h1
  obtain ⟨u, _, hu⟩ := h1
  exact ⟨u, hu⟩

/-- ASCII characters are encoded as themselves. -/
theorem utf8Char_ascii {c : Char} (h : c.toNat < 128) : utf8Char c = [UInt8.ofNat c.toNat] := by
  unfold utf8Char; simp only; rw [if_pos h]

theorem byteChar_toNat (b : UInt8) : (byteChar b).toNat = b.toNat :=
  toNat_ofNat_valid (Or.inl (by have := b.toNat_lt; omega))

theorem byteChar_injective {a b : UInt8} (h : byteChar a = byteChar b) : a = b := by
  have := congrArg Char.toNat h
  rw [byteChar_toNat, byteChar_toNat] at this
  exact UInt8.toNat_inj.mp this

theorem utf8_length_pos {s : Str} (h : s ≠ []) : 0 < (utf8 s).length := by
  cases s with
  | nil => exact absurd rfl h
  | cons c s =>
    rw [utf8_cons, List.length_append]
    have := List.length_pos_iff.mpr (utf8Char_ne_nil c)
    omega

end Pfp
