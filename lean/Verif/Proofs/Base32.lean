import Mathlib.Data.Fintype.EquivFin
import Verif.Model.Crypto
import Verif.Proofs.Utf8

/-! # Base32 and the Pearson hash -/

namespace Pfp.Crypto

/-! ## Byte arithmetic -/

theorem forall_u8 {p : UInt8 → Prop} (h : ∀ n, n < 256 → p (UInt8.ofNat n)) (x : UInt8) : p x := by
  have := h x.toNat x.toNat_lt
  simpa using this

theorem or_disjoint (k : Nat) (a b : UInt8) (ha : a.toNat % 2 ^ k = 0) (hb : b.toNat < 2 ^ k) :
    (a ||| b).toNat = a.toNat + b.toNat := by
  rw [UInt8.toNat_or]
  have := Nat.two_pow_add_eq_or_of_lt hb (a.toNat / 2 ^ k)
  have h2 : 2 ^ k * (a.toNat / 2 ^ k) = a.toNat := by
    have := Nat.div_add_mod a.toNat (2 ^ k)
    omega
  rw [h2] at this
  exact this.symm

theorem enc0 (x : UInt8) : (x >>> 3).toNat = x.toNat / 8 := by
  revert x; apply forall_u8; decide +kernel
theorem enc1a (x : UInt8) : ((x &&& 0x07) <<< 2).toNat = x.toNat % 8 * 4 := by
  revert x; apply forall_u8; decide +kernel
theorem enc1b (x : UInt8) : (x >>> 6).toNat = x.toNat / 64 := by
  revert x; apply forall_u8; decide +kernel
theorem enc2 (x : UInt8) : (x >>> 1 &&& 0x1F).toNat = x.toNat / 2 % 32 := by
  revert x; apply forall_u8; decide +kernel
theorem enc3a (x : UInt8) : ((x &&& 0x01) <<< 4).toNat = x.toNat % 2 * 16 := by
  revert x; apply forall_u8; decide +kernel
theorem enc3b (x : UInt8) : (x >>> 4).toNat = x.toNat / 16 := by
  revert x; apply forall_u8; decide +kernel
theorem enc4a (x : UInt8) : ((x &&& 0x0F) <<< 1).toNat = x.toNat % 16 * 2 := by
  revert x; apply forall_u8; decide +kernel
theorem enc4b (x : UInt8) : (x >>> 7).toNat = x.toNat / 128 := by
  revert x; apply forall_u8; decide +kernel
theorem enc5 (x : UInt8) : (x >>> 2 &&& 0x1F).toNat = x.toNat / 4 % 32 := by
  revert x; apply forall_u8; decide +kernel
theorem enc6a (x : UInt8) : ((x &&& 0x03) <<< 3).toNat = x.toNat % 4 * 8 := by
  revert x; apply forall_u8; decide +kernel
theorem enc6b (x : UInt8) : (x >>> 5).toNat = x.toNat / 32 := by
  revert x; apply forall_u8; decide +kernel
theorem enc7 (x : UInt8) : (x &&& 0x1F).toNat = x.toNat % 32 := by
  revert x; apply forall_u8; decide +kernel

theorem enc1 (x y : UInt8) : ((x &&& 0x07) <<< 2 ||| y >>> 6).toNat = x.toNat % 8 * 4 + y.toNat / 64 := by
  have := y.toNat_lt
  rw [or_disjoint 2 _ _ (by rw [enc1a]; omega) (by rw [enc1b]; omega), enc1a, enc1b]
theorem enc3 (x y : UInt8) : ((x &&& 0x01) <<< 4 ||| y >>> 4).toNat = x.toNat % 2 * 16 + y.toNat / 16 := by
  have := y.toNat_lt
  rw [or_disjoint 4 _ _ (by rw [enc3a]; omega) (by rw [enc3b]; omega), enc3a, enc3b]
theorem enc4 (x y : UInt8) : ((x &&& 0x0F) <<< 1 ||| y >>> 7).toNat = x.toNat % 16 * 2 + y.toNat / 128 := by
  have := y.toNat_lt
  rw [or_disjoint 1 _ _ (by rw [enc4a]; omega) (by rw [enc4b]; omega), enc4a, enc4b]
theorem enc6 (x y : UInt8) : ((x &&& 0x03) <<< 3 ||| y >>> 5).toNat = x.toNat % 4 * 8 + y.toNat / 32 := by
  have := y.toNat_lt
  rw [or_disjoint 3 _ _ (by rw [enc6a]; omega) (by rw [enc6b]; omega), enc6a, enc6b]

theorem dec0a (x : UInt8) : (x <<< 3).toNat = x.toNat % 32 * 8 := by revert x; apply forall_u8; decide +kernel
theorem dec0b (x : UInt8) : (x >>> 2).toNat = x.toNat / 4 := by revert x; apply forall_u8; decide +kernel
theorem dec1a (x : UInt8) : ((x &&& 0x03) <<< 6).toNat = x.toNat % 4 * 64 := by revert x; apply forall_u8; decide +kernel
theorem dec1b (x : UInt8) : (x <<< 1).toNat = x.toNat % 128 * 2 := by revert x; apply forall_u8; decide +kernel
theorem dec2a (x : UInt8) : ((x &&& 0x0F) <<< 4).toNat = x.toNat % 16 * 16 := by revert x; apply forall_u8; decide +kernel
theorem dec2b (x : UInt8) : (x >>> 1).toNat = x.toNat / 2 := by revert x; apply forall_u8; decide +kernel
theorem dec3a (x : UInt8) : ((x &&& 0x01) <<< 7).toNat = x.toNat % 2 * 128 := by revert x; apply forall_u8; decide +kernel
theorem dec3b (x : UInt8) : (x <<< 2).toNat = x.toNat % 64 * 4 := by revert x; apply forall_u8; decide +kernel
theorem dec4a (x : UInt8) : ((x &&& 0x07) <<< 5).toNat = x.toNat % 8 * 32 := by revert x; apply forall_u8; decide +kernel

theorem dec0 (a b : UInt8) (hb : b.toNat < 32) : (a <<< 3 ||| b >>> 2).toNat = a.toNat % 32 * 8 + b.toNat / 4 := by
  rw [or_disjoint 3 _ _ (by rw [dec0a]; omega) (by rw [dec0b]; omega), dec0a, dec0b]
theorem dec1 (a b c : UInt8) (hb : b.toNat < 32) (hc : c.toNat < 32) :
    ((a &&& 0x03) <<< 6 ||| b <<< 1 ||| c >>> 4).toNat = a.toNat % 4 * 64 + b.toNat * 2 + c.toNat / 16 := by
  have h1 : ((a &&& 0x03) <<< 6 ||| b <<< 1).toNat = a.toNat % 4 * 64 + b.toNat * 2 := by
    rw [or_disjoint 6 _ _ (by rw [dec1a]; omega) (by rw [dec1b]; omega), dec1a, dec1b]; omega
  rw [or_disjoint 1 _ _ (by rw [h1]; omega) (by rw [enc3b]; omega), h1, enc3b]
theorem dec2 (a b : UInt8) (hb : b.toNat < 32) :
    ((a &&& 0x0F) <<< 4 ||| b >>> 1).toNat = a.toNat % 16 * 16 + b.toNat / 2 := by
  rw [or_disjoint 4 _ _ (by rw [dec2a]; omega) (by rw [dec2b]; omega), dec2a, dec2b]
theorem dec3 (a b c : UInt8) (hb : b.toNat < 32) (hc : c.toNat < 32) :
    ((a &&& 0x01) <<< 7 ||| b <<< 2 ||| c >>> 3).toNat = a.toNat % 2 * 128 + b.toNat * 4 + c.toNat / 8 := by
  have h1 : ((a &&& 0x01) <<< 7 ||| b <<< 2).toNat = a.toNat % 2 * 128 + b.toNat * 4 := by
    rw [or_disjoint 7 _ _ (by rw [dec3a]; omega) (by rw [dec3b]; omega), dec3a, dec3b]; omega
  rw [or_disjoint 2 _ _ (by rw [h1]; omega) (by rw [enc0]; omega), h1, enc0]
theorem dec4 (a b : UInt8) (hb : b.toNat < 32) : ((a &&& 0x07) <<< 5 ||| b).toNat = a.toNat % 8 * 32 + b.toNat := by
  rw [or_disjoint 5 _ _ (by rw [dec4a]; omega) (by omega), dec4a]

/-! ## Alphabet and lookup table -/

/-- The alphabet character with number `n`. -/
def alpha (n : Nat) : UInt8 := BASE32_ALPHABET.getD n 0

theorem alphabetAt_eq {x : UInt8} {n : Nat} (hx : x.toNat = n) (h : n < 32) : alphabetAt x = .ok (alpha n) := by
  subst hx
  unfold alphabetAt alpha
  have hl : x.toNat < BASE32_ALPHABET.length := by exact h
  rw [List.getD_eq_getElem?_getD, List.getElem?_eq_getElem hl]; rfl

theorem lookup_alpha : ∀ n, n < 32 → (lookup (alpha n)).toNat = n := by decide

theorem alpha_lookup (b : UInt8) : lookup b < 32 → alpha (lookup b).toNat = b := by
  revert b; apply forall_u8; decide +kernel

theorem mem_alphabet_iff (b : UInt8) : b ∈ BASE32_ALPHABET ↔ lookup b < 32 := by
  revert b; apply forall_u8; decide +kernel

theorem alpha_mem (n : Nat) (h : n < 32) : alpha n ∈ BASE32_ALPHABET := by
  revert n; decide

/-! ## The loops -/

/-- Encoding one chunk, in arithmetic terms. -/
def encChunk (b0 b1 b2 b3 b4 : Nat) : List Nat :=
  [b0 / 8, b0 % 8 * 4 + b1 / 64, b1 / 2 % 32, b1 % 2 * 16 + b2 / 16, b2 % 16 * 2 + b3 / 128, b3 / 4 % 32,
    b3 % 4 * 8 + b4 / 32, b4 % 32]

theorem encodeLoop_cons (b0 b1 b2 b3 b4 : UInt8) (rest : Bytes) :
    base32EncodeLoop (b0 :: b1 :: b2 :: b3 :: b4 :: rest) =
      (base32EncodeLoop rest).map
        ((encChunk b0.toNat b1.toNat b2.toNat b3.toNat b4.toNat).map alpha ++ ·) := by
  have h0 := b0.toNat_lt; have h1 := b1.toNat_lt; have h2 := b2.toNat_lt
  have h3 := b3.toNat_lt; have h4 := b4.toNat_lt
  rw [base32EncodeLoop, alphabetAt_eq (enc0 b0) (by omega), alphabetAt_eq (enc1 b0 b1) (by omega),
    alphabetAt_eq (enc2 b1) (by omega), alphabetAt_eq (enc3 b1 b2) (by omega), alphabetAt_eq (enc4 b2 b3) (by omega),
    alphabetAt_eq (enc5 b3) (by omega), alphabetAt_eq (enc6 b3 b4) (by omega), alphabetAt_eq (enc7 b4) (by omega)]
  simp only [Res.bind_ok]
  cases base32EncodeLoop rest <;> simp [encChunk]

/-- Decoding one chunk, in arithmetic terms. -/
def decChunk (c0 c1 c2 c3 c4 c5 c6 c7 : Nat) : Bytes :=
  [UInt8.ofNat (c0 * 8 + c1 / 4), UInt8.ofNat (c1 % 4 * 64 + c2 * 2 + c3 / 16), UInt8.ofNat (c3 % 16 * 16 + c4 / 2),
    UInt8.ofNat (c4 % 2 * 128 + c5 * 4 + c6 / 8), UInt8.ofNat (c6 % 8 * 32 + c7)]

theorem decodeLoop_cons (c0 c1 c2 c3 c4 c5 c6 c7 : UInt8) (rest : Bytes)
    (h0 : c0.toNat < 32) (h1 : c1.toNat < 32) (h2 : c2.toNat < 32) (h3 : c3.toNat < 32) (h4 : c4.toNat < 32)
    (h5 : c5.toNat < 32) (h6 : c6.toNat < 32) (h7 : c7.toNat < 32) :
    base32DecodeLoop (c0 :: c1 :: c2 :: c3 :: c4 :: c5 :: c6 :: c7 :: rest) =
      (base32DecodeLoop rest).map
        (decChunk c0.toNat c1.toNat c2.toNat c3.toNat c4.toNat c5.toNat c6.toNat c7.toNat ++ ·) := by
  have e0 := u8_eq (dec0 c0 c1 h1)
  have e1 := u8_eq (dec1 c1 c2 c3 h2 h3)
  have e2 := u8_eq (dec2 c3 c4 h4)
  have e3 := u8_eq (dec3 c4 c5 c6 h5 h6)
  have e4 := u8_eq (dec4 c6 c7 h7)
  rw [base32DecodeLoop, e0, e1, e2, e3, e4, Nat.mod_eq_of_lt h0]
  cases base32DecodeLoop rest <;> simp [decChunk]

theorem decChunk_encChunk (b0 b1 b2 b3 b4 : UInt8) :
    decChunk (b0.toNat / 8) (b0.toNat % 8 * 4 + b1.toNat / 64) (b1.toNat / 2 % 32) (b1.toNat % 2 * 16 + b2.toNat / 16)
      (b2.toNat % 16 * 2 + b3.toNat / 128) (b3.toNat / 4 % 32) (b3.toNat % 4 * 8 + b4.toNat / 32) (b4.toNat % 32)
      = [b0, b1, b2, b3, b4] := by
  have h0 := b0.toNat_lt; have h1 := b1.toNat_lt; have h2 := b2.toNat_lt
  have h3 := b3.toNat_lt; have h4 := b4.toNat_lt
  simp only [decChunk, List.cons.injEq, and_true]
  refine ⟨(u8_eq ?_).symm, (u8_eq ?_).symm, (u8_eq ?_).symm, (u8_eq ?_).symm, (u8_eq ?_).symm⟩ <;> omega

/-- Encoding a multiple of five bytes succeeds, gives alphabet characters, and decoding inverts it. -/
theorem encodeLoop_spec : ∀ (l : Bytes), l.length % 5 = 0 → ∃ e, base32EncodeLoop l = .ok e ∧
    e.length = l.length / 5 * 8 ∧ (∀ c ∈ e, c ∈ BASE32_ALPHABET) ∧ base32DecodeLoop (e.map lookup) = .ok l
  | [], _ => ⟨[], rfl, rfl, by simp, rfl⟩
  | [_], h => by simp at h
  | [_, _], h => by simp at h
  | [_, _, _], h => by simp at h
  | [_, _, _, _], h => by simp at h
  | b0 :: b1 :: b2 :: b3 :: b4 :: rest, h => by
    obtain ⟨e, h1, h2, h3, h4⟩ := encodeLoop_spec rest (by simp only [List.length_cons] at h; omega)
    have g0 := b0.toNat_lt; have g1 := b1.toNat_lt; have g2 := b2.toNat_lt
    have g3 := b3.toNat_lt; have g4 := b4.toNat_lt
    refine ⟨(encChunk b0.toNat b1.toNat b2.toNat b3.toNat b4.toNat).map alpha ++ e, ?_, ?_, ?_, ?_⟩
    · rw [encodeLoop_cons, h1]; rfl
    · simp only [encChunk, List.map_cons, List.map_nil, List.length_append, List.length_cons, List.length_nil, h2]
      omega
    · intro c hc
      rcases List.mem_append.mp hc with hc | hc
      · obtain ⟨n, hn, rfl⟩ := List.mem_map.mp hc
        apply alpha_mem
        simp only [encChunk, List.mem_cons, List.not_mem_nil, or_false] at hn
        rcases hn with rfl | rfl | rfl | rfl | rfl | rfl | rfl | rfl <;> omega
      · exact h3 c hc
    · simp only [encChunk, List.map_cons, List.map_nil, List.cons_append, List.nil_append]
      have k0 := lookup_alpha (b0.toNat / 8) (by omega)
      have k1 := lookup_alpha (b0.toNat % 8 * 4 + b1.toNat / 64) (by omega)
      have k2 := lookup_alpha (b1.toNat / 2 % 32) (by omega)
      have k3 := lookup_alpha (b1.toNat % 2 * 16 + b2.toNat / 16) (by omega)
      have k4 := lookup_alpha (b2.toNat % 16 * 2 + b3.toNat / 128) (by omega)
      have k5 := lookup_alpha (b3.toNat / 4 % 32) (by omega)
      have k6 := lookup_alpha (b3.toNat % 4 * 8 + b4.toNat / 32) (by omega)
      have k7 := lookup_alpha (b4.toNat % 32) (by omega)
      rw [decodeLoop_cons _ _ _ _ _ _ _ _ _ (by omega) (by omega) (by omega) (by omega) (by omega) (by omega)
        (by omega) (by omega), h4, k0, k1, k2, k3, k4, k5, k6, k7, decChunk_encChunk]
      rfl

theorem lookup_lt {c : UInt8} (h : c ∈ BASE32_ALPHABET) : (lookup c).toNat < 32 := by
  have := (mem_alphabet_iff c).mp h
  simpa using UInt8.lt_iff_toNat_lt.mp this

theorem alpha_of_lookup {c : UInt8} (h : c ∈ BASE32_ALPHABET) : alpha (lookup c).toNat = c :=
  alpha_lookup c ((mem_alphabet_iff c).mp h)

/-- Decoding a multiple of eight alphabet characters succeeds, and encoding inverts it. -/
theorem decodeLoop_spec : ∀ (l : Bytes), l.length % 8 = 0 → (∀ c ∈ l, c ∈ BASE32_ALPHABET) →
    ∃ d, base32DecodeLoop (l.map lookup) = .ok d ∧ d.length = l.length / 8 * 5 ∧ base32EncodeLoop d = .ok l
  | [], _, _ => ⟨[], rfl, rfl, rfl⟩
  | [_], h, _ => by simp at h
  | [_, _], h, _ => by simp at h
  | [_, _, _], h, _ => by simp at h
  | [_, _, _, _], h, _ => by simp at h
  | [_, _, _, _, _], h, _ => by simp at h
  | [_, _, _, _, _, _], h, _ => by simp at h
  | [_, _, _, _, _, _, _], h, _ => by simp at h
  | c0 :: c1 :: c2 :: c3 :: c4 :: c5 :: c6 :: c7 :: rest, h, hm => by
    obtain ⟨d, h1, h2, h3⟩ := decodeLoop_spec rest (by simp only [List.length_cons] at h; omega)
      (fun c hc => hm c (by simp [hc]))
    have m0 := hm c0 (by simp); have m1 := hm c1 (by simp); have m2 := hm c2 (by simp); have m3 := hm c3 (by simp)
    have m4 := hm c4 (by simp); have m5 := hm c5 (by simp); have m6 := hm c6 (by simp); have m7 := hm c7 (by simp)
    have g0 := lookup_lt m0; have g1 := lookup_lt m1; have g2 := lookup_lt m2; have g3 := lookup_lt m3
    have g4 := lookup_lt m4; have g5 := lookup_lt m5; have g6 := lookup_lt m6; have g7 := lookup_lt m7
    refine ⟨decChunk (lookup c0).toNat (lookup c1).toNat (lookup c2).toNat (lookup c3).toNat (lookup c4).toNat
      (lookup c5).toNat (lookup c6).toNat (lookup c7).toNat ++ d, ?_, ?_, ?_⟩
    · simp only [List.map_cons]
      rw [decodeLoop_cons _ _ _ _ _ _ _ _ _ g0 g1 g2 g3 g4 g5 g6 g7, h1]
      rfl
    · simp only [decChunk, List.length_append, List.length_cons, List.length_nil, h2]
      omega
    · simp only [decChunk, List.cons_append, List.nil_append]
      rw [encodeLoop_cons, h3]
      rw [u8 (by omega), u8 (by omega), u8 (by omega), u8 (by omega), u8 (by omega)]
      simp only [encChunk, List.map_cons, List.map_nil, List.cons_append, List.nil_append, Res.map_ok, Res.ok.injEq]
      generalize hn0 : (lookup c0).toNat = n0 at *
      generalize hn1 : (lookup c1).toNat = n1 at *
      generalize hn2 : (lookup c2).toNat = n2 at *
      generalize hn3 : (lookup c3).toNat = n3 at *
      generalize hn4 : (lookup c4).toNat = n4 at *
      generalize hn5 : (lookup c5).toNat = n5 at *
      generalize hn6 : (lookup c6).toNat = n6 at *
      generalize hn7 : (lookup c7).toNat = n7 at *
      have a0 := alpha_of_lookup m0; have a1 := alpha_of_lookup m1; have a2 := alpha_of_lookup m2
      have a3 := alpha_of_lookup m3; have a4 := alpha_of_lookup m4; have a5 := alpha_of_lookup m5
      have a6 := alpha_of_lookup m6; have a7 := alpha_of_lookup m7
      rw [hn0] at a0; rw [hn1] at a1; rw [hn2] at a2; rw [hn3] at a3
      rw [hn4] at a4; rw [hn5] at a5; rw [hn6] at a6; rw [hn7] at a7
      rw [show (n0 * 8 + n1 / 4) / 8 = n0 by omega,
        show (n0 * 8 + n1 / 4) % 8 * 4 + (n1 % 4 * 64 + n2 * 2 + n3 / 16) / 64 = n1 by omega,
        show (n1 % 4 * 64 + n2 * 2 + n3 / 16) / 2 % 32 = n2 by omega,
        show (n1 % 4 * 64 + n2 * 2 + n3 / 16) % 2 * 16 + (n3 % 16 * 16 + n4 / 2) / 16 = n3 by omega,
        show (n3 % 16 * 16 + n4 / 2) % 16 * 2 + (n4 % 2 * 128 + n5 * 4 + n6 / 8) / 128 = n4 by omega,
        show (n4 % 2 * 128 + n5 * 4 + n6 / 8) / 4 % 32 = n5 by omega,
        show (n4 % 2 * 128 + n5 * 4 + n6 / 8) % 4 * 8 + (n6 % 8 * 32 + n7) / 32 = n6 by omega,
        show (n6 % 8 * 32 + n7) % 32 = n7 by omega, a0, a1, a2, a3, a4, a5, a6, a7]

theorem any_lookup_iff (l : Bytes) :
    (l.any fun byte => decide (32 ≤ lookup byte)) = true ↔ ¬ ∀ c ∈ l, c ∈ BASE32_ALPHABET := by
  simp only [List.any_eq_true, decide_eq_true_eq, mem_alphabet_iff, Classical.not_forall, UInt8.not_lt]
  constructor
  · rintro ⟨c, h1, h2⟩; exact ⟨c, h1, h2⟩
  · rintro ⟨c, h1, h2⟩; exact ⟨c, h1, h2⟩

/-- `base32_decode` on alphabet characters. -/
theorem base32Decode_eq {l : Bytes} (h : l.length % 8 = 0) (hm : ∀ c ∈ l, c ∈ BASE32_ALPHABET) :
    base32Decode l = base32DecodeLoop (l.map lookup) := by
  unfold base32Decode
  rw [if_neg (by omega), if_neg]
  rw [any_lookup_iff]; simpa using hm

theorem base32Encode_eq {l : Bytes} (h : l.length % 5 = 0) : base32Encode l = base32EncodeLoop l := by
  unfold base32Encode
  rw [if_neg (by omega)]

theorem base32_decode_encode {b e : Bytes} (h : base32Encode b = .ok e) : base32Decode e = .ok b := by
  by_cases hl : b.length % 5 = 0
  · rw [base32Encode_eq hl] at h
    obtain ⟨e', h1, h2, h3, h4⟩ := encodeLoop_spec b hl
    rw [h1] at h; cases h
    rw [base32Decode_eq (by omega) h3, h4]
  · unfold base32Encode at h
    rw [if_pos hl] at h; cases h

/-! ## Pearson hash -/

/-- The table is injective: multiplication by the odd number 467 modulo 256 is. -/
theorem permutation_injective {a b : UInt8} (h : permutation a = permutation b) : a = b := by
  have := congrArg UInt8.toNat h
  simp only [permutation, UInt8.toNat_ofNat'] at this
  apply UInt8.toNat_inj.mp
  have ha := a.toNat_lt; have hb := b.toNat_lt
  omega

theorem xor_left_cancel {a b c : UInt8} (h : a ^^^ b = a ^^^ c) : b = c := by
  have := congrArg (a ^^^ ·) h
  simpa [← UInt8.xor_assoc] using this

theorem xor_right_cancel {a b c : UInt8} (h : a ^^^ c = b ^^^ c) : a = b := by
  rw [UInt8.xor_comm a c, UInt8.xor_comm b c] at h
  exact xor_left_cancel h

/-- The loop of the hash, from an arbitrary intermediate value. -/
def pearsonFrom (hash : UInt8) (input : Bytes) : UInt8 := input.foldl (fun hash byte => permutation (hash ^^^ byte)) hash

theorem pearsonHash_eq (input : Bytes) (v : UInt8) : pearsonHash input v = pearsonFrom (permutation v) input := rfl

theorem pearsonFrom_injective (input : Bytes) : ∀ {a b : UInt8}, pearsonFrom a input = pearsonFrom b input → a = b := by
  induction input with
  | nil => intro a b h; exact h
  | cons c input ih =>
    intro a b h
    simp only [pearsonFrom, List.foldl_cons] at h
    exact xor_right_cancel (permutation_injective (ih h))

theorem pearsonFrom_append (h : UInt8) (a b : Bytes) : pearsonFrom h (a ++ b) = pearsonFrom (pearsonFrom h a) b := by
  simp [pearsonFrom]

theorem pearsonFrom_set (pre post : Bytes) (x y h : UInt8)
    (he : pearsonFrom h (pre ++ x :: post) = pearsonFrom h (pre ++ y :: post)) : x = y := by
  rw [pearsonFrom_append, pearsonFrom_append] at he
  have he' : pearsonFrom (permutation (pearsonFrom h pre ^^^ x)) post =
      pearsonFrom (permutation (pearsonFrom h pre ^^^ y)) post := he
  exact xor_left_cancel (permutation_injective (pearsonFrom_injective post he'))

/-- An injective map on the 256 byte values is surjective. -/
theorem u8_surjective_of_injective {f : UInt8 → UInt8} (h : Function.Injective f) : Function.Surjective f := by
  let g : Fin 256 → Fin 256 := fun i => (f ⟨⟨i⟩⟩).toBitVec.toFin
  have hg : Function.Injective g := by
    intro a b hab
    have : f ⟨⟨a⟩⟩ = f ⟨⟨b⟩⟩ := by
      apply UInt8.toBitVec_inj.mp
      exact BitVec.toFin_inj.mp hab
    exact congrArg (fun u : UInt8 => u.toBitVec.toFin) (h this)
  have hs := Finite.injective_iff_surjective.mp hg
  intro c
  obtain ⟨i, hi⟩ := hs c.toBitVec.toFin
  refine ⟨⟨⟨i⟩⟩, ?_⟩
  apply UInt8.toBitVec_inj.mp
  exact BitVec.toFin_inj.mp hi

end Pfp.Crypto
