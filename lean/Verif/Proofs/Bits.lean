import Verif.Spec.Published
import Verif.Proofs.Base64
import Verif.Proofs.Base32
import Verif.Proofs.Recovery
import Verif.Proofs.Serde

/-!
# The encoders in terms of bits
-/

namespace Pfp

open Spec

theorem bitsOf_length (n v : Nat) : (bitsOf n v).length = n := by simp [bitsOf]

theorem bitsOf_getElem {n v i : Nat} (h : i < n) : (bitsOf n v)[i]? = some (v.testBit (n - 1 - i)) := by
  simp [bitsOf, h]

theorem bitsOf_inj {n a b : Nat} (ha : a < 2 ^ n) (hb : b < 2 ^ n) (h : bitsOf n a = bitsOf n b) : a = b := by
  apply Nat.eq_of_testBit_eq
  intro i
  by_cases hi : i < n
  · have := congrArg (·[n - 1 - i]?) h
    simp only [bitsOf_getElem (show n - 1 - i < n by omega), Option.some.injEq] at this
    rwa [show n - 1 - (n - 1 - i) = i by omega] at this
  · rw [Nat.testBit_lt_two_pow (Nat.lt_of_lt_of_le ha (Nat.pow_le_pow_right (by omega) (by omega))),
      Nat.testBit_lt_two_pow (Nat.lt_of_lt_of_le hb (Nat.pow_le_pow_right (by omega) (by omega)))]

theorem bitsOf_congr {m n a b : Nat} (h : m = n) (h' : a = b) : bitsOf m a = bitsOf n b := by rw [h, h']

/-- The bits of two numbers side by side. -/
theorem bitsOf_append {m n a b : Nat} (hb : b < 2 ^ n) : bitsOf m a ++ bitsOf n b = bitsOf (m + n) (a * 2 ^ n + b) := by
  apply List.ext_getElem?
  intro i
  by_cases h1 : i < m
  · rw [List.getElem?_append_left (by rw [bitsOf_length]; exact h1), bitsOf_getElem h1, bitsOf_getElem (by omega),
      Nat.mul_comm, Nat.testBit_two_pow_mul_add _ hb, if_neg (by omega)]
    congr 2
    omega
  · rw [List.getElem?_append_right (by rw [bitsOf_length]; omega), bitsOf_length]
    by_cases h2 : i < m + n
    · rw [bitsOf_getElem (by omega), bitsOf_getElem h2, Nat.mul_comm, Nat.testBit_two_pow_mul_add _ hb,
        if_pos (by omega)]
      congr 2
      omega
    · rw [List.getElem?_eq_none (by rw [bitsOf_length]; omega), List.getElem?_eq_none (by rw [bitsOf_length]; omega)]

theorem bitsOf_zero (n : Nat) : bitsOf n 0 = List.replicate n false := by
  apply List.ext_getElem
  · simp [bitsOf_length]
  · intro i h1 h2
    simp [bitsOf]

/-- Numbers of a fixed width are determined by their bits. -/
theorem flatMap_bitsOf_inj {n : Nat} (hn : 0 < n) : ∀ {a b : List Nat}, (∀ v ∈ a, v < 2 ^ n) → (∀ v ∈ b, v < 2 ^ n) →
    a.flatMap (bitsOf n) = b.flatMap (bitsOf n) → a = b
  | [], [], _, _, _ => rfl
  | [], y :: b, _, _, h => by
    have := congrArg List.length h
    simp [bitsOf_length] at this
    omega
  | x :: a, [], _, _, h => by
    have := congrArg List.length h
    simp [bitsOf_length] at this
    omega
  | x :: a, y :: b, ha, hb, h => by
    rw [List.flatMap_cons, List.flatMap_cons] at h
    obtain ⟨h1, h2⟩ := List.append_inj h (by rw [bitsOf_length, bitsOf_length])
    rw [bitsOf_inj (ha x (by simp)) (hb y (by simp)) h1,
      flatMap_bitsOf_inj hn (fun v hv => ha v (by simp [hv])) (fun v hv => hb v (by simp [hv])) h2]

theorem flatMap_bitsOf_length (n : Nat) (l : List Nat) : (l.flatMap (bitsOf n)).length = l.length * n := by
  induction l with
  | nil => simp
  | cons x l ih => rw [List.flatMap_cons, List.length_append, ih, bitsOf_length, List.length_cons, Nat.succ_mul]; omega

theorem bits_length (b : Bytes) : (bits b).length = 8 * b.length := by
  induction b with
  | nil => rfl
  | cons x b ih =>
    rw [show bits (x :: b) = bitsOf 8 x.toNat ++ bits b from rfl, List.length_append, ih, bitsOf_length,
      List.length_cons]
    omega

/-! ## Base64 -/

theorem base64Char_eq : ∀ n, n < 64 → base64Char n = Base64.sym n := by decide

/-- The six-bit numbers of a byte string. -/
def sextets : Bytes → List Nat
  | [] => []
  | [x] => [x.toNat / 4, x.toNat % 4 * 16]
  | [x, y] => [x.toNat / 4, x.toNat % 4 * 16 + y.toNat / 16, y.toNat % 16 * 4]
  | x :: y :: z :: t =>
    x.toNat / 4 :: (x.toNat % 4 * 16 + y.toNat / 16) :: (y.toNat % 16 * 4 + z.toNat / 64) :: z.toNat % 64 :: sextets t

/-- The number of equals signs. -/
def padding : Bytes → Nat
  | [] => 0
  | [_] => 2
  | [_, _] => 1
  | _ :: _ :: _ :: t => padding t

/-- The number of zero bits added. -/
def filling : Bytes → Nat
  | [] => 0
  | [_] => 4
  | [_, _] => 2
  | _ :: _ :: _ :: t => filling t

theorem u8_lt (x : UInt8) : x.toNat < 256 := x.toNat_lt

theorem sextets_lt : ∀ b : Bytes, ∀ v ∈ sextets b, v < 64
  | [], v, h => by simp [sextets] at h
  | [x], v, h => by
    have := u8_lt x
    simp only [sextets, List.mem_cons, List.not_mem_nil, or_false] at h
    omega
  | [x, y], v, h => by
    have := u8_lt x; have := u8_lt y
    simp only [sextets, List.mem_cons, List.not_mem_nil, or_false] at h
    omega
  | x :: y :: z :: t, v, h => by
    have := u8_lt x; have := u8_lt y; have := u8_lt z
    simp only [sextets, List.mem_cons] at h
    rcases h with h | h | h | h | h
    · omega
    · omega
    · omega
    · omega
    · exact sextets_lt t v h

theorem encode_sextets : ∀ b : Bytes, Base64.encode b = (sextets b).map Base64.sym ++ List.replicate (padding b) '='
  | [] => rfl
  | [x] => rfl
  | [x, y] => rfl
  | x :: y :: z :: t => by
    rw [Base64.encode, encode_sextets t]
    rfl

theorem sextets_bits : ∀ b : Bytes, (sextets b).flatMap (bitsOf 6) = bits b ++ List.replicate (filling b) false
  | [] => rfl
  | [x] => by
    have hx := u8_lt x
    have h1 : bitsOf 6 (x.toNat / 4) ++ bitsOf 6 (x.toNat % 4 * 16) = bitsOf 8 x.toNat ++ bitsOf 4 0 := by
      rw [bitsOf_append (by omega), bitsOf_append (by omega)]
      exact bitsOf_congr (by omega) (by omega)
    simpa [sextets, bits, filling, bitsOf_zero] using h1
  | [x, y] => by
    have hx := u8_lt x
    have hy := u8_lt y
    have h1 : bitsOf 6 (x.toNat / 4) ++ (bitsOf 6 (x.toNat % 4 * 16 + y.toNat / 16) ++ bitsOf 6 (y.toNat % 16 * 4)) =
        bitsOf 8 x.toNat ++ (bitsOf 8 y.toNat ++ bitsOf 2 0) := by
      rw [bitsOf_append (by omega), bitsOf_append (by omega), bitsOf_append (by omega), bitsOf_append (by omega)]
      exact bitsOf_congr (by omega) (by omega)
    simpa [sextets, bits, filling, bitsOf_zero] using h1
  | x :: y :: z :: t => by
    have hx := u8_lt x
    have hy := u8_lt y
    have hz := u8_lt z
    have h1 : bitsOf 6 (x.toNat / 4) ++ (bitsOf 6 (x.toNat % 4 * 16 + y.toNat / 16) ++
        (bitsOf 6 (y.toNat % 16 * 4 + z.toNat / 64) ++ bitsOf 6 (z.toNat % 64))) =
        bitsOf 8 x.toNat ++ (bitsOf 8 y.toNat ++ bitsOf 8 z.toNat) := by
      rw [bitsOf_append (by omega), bitsOf_append (by omega), bitsOf_append (by omega), bitsOf_append (by omega),
        bitsOf_append (by omega)]
      exact bitsOf_congr (by omega) (by omega)
    have ih := sextets_bits t
    simp only [sextets, List.flatMap_cons, filling, ih]
    rw [show bits (x :: y :: z :: t) = bitsOf 8 x.toNat ++ (bitsOf 8 y.toNat ++ (bitsOf 8 z.toNat ++ bits t)) from rfl]
    simp only [← List.append_assoc] at h1 ⊢
    rw [h1]

theorem padding_lt : ∀ b : Bytes, padding b < 4
  | [] => by decide
  | [_] => by simp [padding]
  | [_, _] => by simp [padding]
  | _ :: _ :: _ :: t => padding_lt t

theorem filling_lt : ∀ b : Bytes, filling b < 6
  | [] => by decide
  | [_] => by simp [filling]
  | [_, _] => by simp [filling]
  | _ :: _ :: _ :: t => filling_lt t

/-- The model's encoder computes the Base64 form. -/
theorem isBase64_encode (b : Bytes) : IsBase64 b (Base64.encode b) := by
  refine ⟨sextets b, filling b, padding b, sextets_lt b, filling_lt b, padding_lt b, sextets_bits b, ?_, ?_⟩
  · rw [encode_sextets]
    congr 1
    exact List.map_congr_left fun v hv => (base64Char_eq v (sextets_lt b v hv)).symm
  · rw [Base64.encode_length]
    omega

theorem isBase64_unique {b : Bytes} {t t' : Str} (h : IsBase64 b t) (h' : IsBase64 b t') : t = t' := by
  obtain ⟨vs, z, q, hv, hz, hq, hb, rfl, hl⟩ := h
  obtain ⟨vs', z', q', hv', hz', hq', hb', rfl, hl'⟩ := h'
  have l := congrArg List.length hb
  have l' := congrArg List.length hb'
  rw [flatMap_bitsOf_length, List.length_append, List.length_replicate] at l l'
  have hzz : z = z' := by omega
  subst hzz
  have hvs := flatMap_bitsOf_inj (n := 6) (by omega) hv hv' (hb.trans hb'.symm)
  subst hvs
  simp only [List.length_append, List.length_map, List.length_replicate] at hl hl'
  rw [show q = q' by omega]

theorem isBase64_iff (b : Bytes) (t : Str) : IsBase64 b t ↔ t = Base64.encode b :=
  ⟨fun h => isBase64_unique h (isBase64_encode b), fun h => h ▸ isBase64_encode b⟩

/-! ## Base32 -/

namespace Crypto

theorem encChunk_lt (b0 b1 b2 b3 b4 : UInt8) : ∀ v ∈ encChunk b0.toNat b1.toNat b2.toNat b3.toNat b4.toNat, v < 32 := by
  have h0 := b0.toNat_lt; have h1 := b1.toNat_lt; have h2 := b2.toNat_lt
  have h3 := b3.toNat_lt; have h4 := b4.toNat_lt
  intro v hv
  simp only [encChunk, List.mem_cons, List.not_mem_nil, or_false] at hv
  rcases hv with rfl | rfl | rfl | rfl | rfl | rfl | rfl | rfl <;> omega

theorem encChunk_bits (b0 b1 b2 b3 b4 : UInt8) :
    (encChunk b0.toNat b1.toNat b2.toNat b3.toNat b4.toNat).flatMap (bitsOf 5) = bits [b0, b1, b2, b3, b4] := by
  have h0 := b0.toNat_lt; have h1 := b1.toNat_lt; have h2 := b2.toNat_lt
  have h3 := b3.toNat_lt; have h4 := b4.toNat_lt
  simp only [encChunk, bits, List.flatMap_cons, List.flatMap_nil, List.append_nil]
  generalize b0.toNat = x0 at *
  generalize b1.toNat = x1 at *
  generalize b2.toNat = x2 at *
  generalize b3.toNat = x3 at *
  generalize b4.toNat = x4 at *
  iterate 11 rw [bitsOf_append (by omega)]
  exact bitsOf_congr (by omega) (by omega)

theorem encodeLoop_base32 : ∀ (l : Bytes), l.length % 5 = 0 → ∃ e, base32EncodeLoop l = .ok e ∧ IsBase32 l e
  | [], _ => ⟨[], rfl, [], by simp, rfl, rfl⟩
  | [_], h => by simp at h
  | [_, _], h => by simp at h
  | [_, _, _], h => by simp at h
  | [_, _, _, _], h => by simp at h
  | b0 :: b1 :: b2 :: b3 :: b4 :: rest, h => by
    obtain ⟨e, h1, vs, h2, h3, h4⟩ := encodeLoop_base32 rest (by simp only [List.length_cons] at h; omega)
    refine ⟨(encChunk b0.toNat b1.toNat b2.toNat b3.toNat b4.toNat).map alpha ++ e, ?_,
      encChunk b0.toNat b1.toNat b2.toNat b3.toNat b4.toNat ++ vs, ?_, ?_, ?_⟩
    · rw [encodeLoop_cons, h1]; rfl
    · intro v hv
      rcases List.mem_append.mp hv with hv | hv
      · exact encChunk_lt b0 b1 b2 b3 b4 v hv
      · exact h2 v hv
    · rw [List.flatMap_append, encChunk_bits, h3]
      simp [bits]
    · rw [List.map_append, h4]
      rfl

theorem isBase32_unique {b e e' : Bytes} (h : IsBase32 b e) (h' : IsBase32 b e') : e = e' := by
  obtain ⟨vs, hv, hb, rfl⟩ := h
  obtain ⟨vs', hv', hb', rfl⟩ := h'
  rw [flatMap_bitsOf_inj (n := 5) (by omega) hv hv' (hb.trans hb'.symm)]

theorem isBase32_iff (b e : Bytes) : base32Encode b = .ok e ↔ b.length % 5 = 0 ∧ IsBase32 b e := by
  constructor
  · intro h
    by_cases hb : b.length % 5 = 0
    · obtain ⟨e', h1, h2⟩ := encodeLoop_base32 b hb
      rw [base32Encode_eq hb, h1] at h
      cases h
      exact ⟨hb, h2⟩
    · unfold base32Encode at h
      rw [if_pos hb] at h
      cases h
  · rintro ⟨hb, h⟩
    obtain ⟨e', h1, h2⟩ := encodeLoop_base32 b hb
    rw [base32Encode_eq hb, h1, isBase32_unique h h2]

/-! ## Checksums -/

theorem permutation_toNat (i : UInt8) : (permutation i).toNat = (i.toNat + 379) * 467 % 256 := by
  unfold permutation
  rw [UInt8.toNat_ofNat']

theorem pearson_fold (block : Bytes) : ∀ h : UInt8, (block.foldl (fun hash byte => permutation (hash ^^^ byte)) h).toNat =
    block.foldl (fun h b => ((h ^^^ b.toNat) + 379) * 467 % 256) h.toNat := by
  induction block with
  | nil => intro h; rfl
  | cons b block ih =>
    intro h
    rw [List.foldl_cons, List.foldl_cons, ih, permutation_toNat, UInt8.toNat_xor]

theorem pearsonHash_checksum (line : Nat) (block : Bytes) :
    pearsonHash block (UInt8.ofNat line) = UInt8.ofNat (lineChecksum line block) := by
  apply UInt8.toNat_inj.mp
  unfold pearsonHash lineChecksum
  rw [pearson_fold, permutation_toNat, UInt8.toNat_ofNat', UInt8.toNat_ofNat']
  have : ∀ (l : Bytes) (h : Nat), h < 256 → l.foldl (fun h b => ((h ^^^ b.toNat) + 379) * 467 % 256) h < 256 := by
    intro l
    induction l with
    | nil => intro h hh; exact hh
    | cons b l ih => intro h _; rw [List.foldl_cons]; exact ih _ (by omega)
  rw [Nat.mod_eq_of_lt (this _ _ (by omega))]

end Crypto

namespace RecoveryCodes

theorem lineNumber_index (n i : Nat) : lineNumber n i = UInt8.ofNat (lineIndex n i) := by
  unfold lineNumber lineIndex
  split
  · apply UInt8.toNat_inj.mp
    rw [toNat_255_sub, UInt8.toNat_ofNat']
    omega
  · rfl

theorem rowsFrom_getElem (n : Nat) : ∀ (bs : List Bytes) (k i : Nat) (block : Bytes), bs[i]? = some block →
    (rowsFrom n k bs)[i]? = some (row (lineNumber n (k + i)) block)
  | [], k, i, block, h => by simp at h
  | b :: bs, k, 0, block, h => by
    simp only [List.getElem?_cons_zero, Option.some.injEq] at h
    subst h
    rfl
  | b :: bs, k, i + 1, block, h => by
    rw [List.getElem?_cons_succ] at h
    rw [rowsFrom, List.getElem?_cons_succ, rowsFrom_getElem n bs (k + 1) i block h]
    congr 3
    omega

theorem rows_lines (bs : List Bytes) : IsLines bs (rowsFrom bs.length 0 bs) := by
  refine ⟨rowsFrom_length _ _ _, fun i block h => ?_⟩
  rw [rowsFrom_getElem _ _ _ _ _ h, Nat.zero_add, row, lineNumber_index, Crypto.pearsonHash_checksum]

theorem isLines_unique {bs ls ls' : List Bytes} (h : IsLines bs ls) (h' : IsLines bs ls') : ls = ls' := by
  apply List.ext_getElem?
  intro i
  by_cases hi : i < bs.length
  · rw [h.2 i bs[i] (List.getElem?_eq_getElem hi), h'.2 i bs[i] (List.getElem?_eq_getElem hi)]
  · rw [List.getElem?_eq_none (by rw [h.1]; omega), List.getElem?_eq_none (by rw [h'.1]; omega)]

end RecoveryCodes

/-! ## JSON texts -/

namespace Json

theorem hexDigit_eq : ∀ n, n < 16 → hexDigit n = Nat.digitChar n := by decide

theorem escapeChar_eq (c : Char) : escapeChar c = jsonChar c := by
  have hc : ∀ n : Nat, c.toNat = n → n < 32 → c = Char.ofNat n := fun n h _ => (char_ofNat_toNat c n h).symm
  unfold escapeChar
  split <;> rename_i h1
  · subst h1; rfl
  split <;> rename_i h2
  · subst h2; rfl
  split <;> rename_i h3
  · rw [hc 8 h3 (by omega)]; rfl
  split <;> rename_i h4
  · rw [hc 9 h4 (by omega)]; rfl
  split <;> rename_i h5
  · rw [hc 10 h5 (by omega)]; rfl
  split <;> rename_i h6
  · rw [hc 12 h6 (by omega)]; rfl
  split <;> rename_i h7
  · rw [hc 13 h7 (by omega)]; rfl
  have he : jsonChar c = if c.toNat < 32 then
      ['\\', 'u', '0', '0', Nat.digitChar (c.toNat / 16), Nat.digitChar (c.toNat % 16)] else [c] := by
    unfold jsonChar
    split
    · exact absurd rfl h1
    · exact absurd rfl h2
    · exact absurd (by decide) h3
    · exact absurd (by decide) h6
    · exact absurd (by decide) h5
    · exact absurd (by decide) h7
    · exact absurd (by decide) h4
    · rfl
  rw [he]
  split
  · rw [hexDigit_eq _ (by omega), hexDigit_eq _ (by omega)]
  · rfl

theorem printStr_eq (s : Str) : printStr s = quoted s := by
  have : escapeChar = jsonChar := funext escapeChar_eq
  simp [printStr, quoted, this]

theorem digitChar_eq : ∀ n, n < 10 → digitChar n = Nat.digitChar n := by decide

theorem natDigitsAux_eq : ∀ fuel n, n < fuel → natDigitsAux fuel n = Nat.toDigits 10 n
  | 0, n, h => by omega
  | fuel + 1, n, h => by
    rw [natDigitsAux]
    split
    · rename_i hn
      rw [Nat.toDigits_of_lt_base hn, digitChar_eq n hn]
    · rename_i hn
      rw [natDigitsAux_eq fuel (n / 10) (by omega), Nat.toDigits_of_base_le (b := 10) (n := n) (by omega) (by omega),
        digitChar_eq _ (Nat.mod_lt _ (by omega))]

theorem natDigits_eq (n : Nat) : natDigits n = (toString n).toList := by
  rw [natDigits, natDigitsAux_eq _ _ (by omega)]
  exact Nat.toList_repr.symm

theorem printMembers_data : ∀ entries : Data, printMembers (entries.map fun e => Serde.member e.1 (.str e.2)) =
    commaSeparated (entries.map fun e => quoted e.1 ++ [':'] ++ quoted e.2)
  | [] => rfl
  | [e] => by simp [printMembers, commaSeparated, Serde.member, print, printStr_eq]
  | e :: f :: rest => by
    have ih := printMembers_data (f :: rest)
    simp only [List.map_cons] at ih ⊢
    rw [show ∀ m m' t, printMembers (m :: m' :: t) = printStr m.1.str ++ ':' :: (print m.2 ++ ',' :: printMembers (m' :: t))
      from fun _ _ _ => rfl, ih]
    simp [commaSeparated, Serde.member, print, printStr_eq]

end Json

theorem contents_eq (entries : Data) : FileIO.contents entries = utf8 (fileText entries) := by
  unfold FileIO.contents FileIO.toJson fileText
  congr 1
  have h1 : quoted (c!"application") = c!"\"application\"" := by decide
  have h2 : quoted (c!"format") = c!"\"format\"" := by decide
  have h3 : quoted (c!"data") = c!"\"data\"" := by decide
  have h4 : quoted (c!"pfp") = c!"\"pfp\"" := by decide
  have h5 : Json.natDigits 3 = c!"3" := by decide
  simp only [Serde.member, Json.print, Json.printMembers, Json.printStr_eq, h1, h2, h3, h4, h5]
  rw [← Json.printMembers_data]
  simp [Serde.member]

theorem siteText_eq (x : Site) : Serde.toVec (Serde.siteToJson x) = utf8 (siteText x.name x.alias) := by
  have h1 : quoted (c!"site") = c!"\"site\"" := by decide
  have h2 : quoted (c!"alias") = c!"\"alias\"" := by decide
  unfold Serde.toVec Serde.siteToJson siteText
  congr 1
  cases x.alias <;>
    simp [Serde.member, Json.print, Json.printMembers, Json.printStr_eq, h1, h2]

theorem printBool (b : Bool) : Json.print (.bool b) = boolText b := by cases b <;> rfl

theorem passwordText_eq (x : Password) : Serde.toVec (Serde.passwordToJson x) = utf8 (passwordText x) := by
  have h1 : quoted (c!"site") = c!"\"site\"" := by decide
  have h2 : quoted (c!"name") = c!"\"name\"" := by decide
  have h3 : quoted (c!"revision") = c!"\"revision\"" := by decide
  have h4 : quoted (c!"type") = c!"\"type\"" := by decide
  have h5 : quoted (c!"length") = c!"\"length\"" := by decide
  have h6 : quoted (c!"lower") = c!"\"lower\"" := by decide
  have h7 : quoted (c!"upper") = c!"\"upper\"" := by decide
  have h8 : quoted (c!"number") = c!"\"number\"" := by decide
  have h9 : quoted (c!"symbol") = c!"\"symbol\"" := by decide
  have h10 : quoted (c!"password") = c!"\"password\"" := by decide
  have h11 : quoted (c!"notes") = c!"\"notes\"" := by decide
  have h12 : quoted (c!"generated2") = c!"\"generated2\"" := by decide
  have h13 : quoted (c!"stored") = c!"\"stored\"" := by decide
  unfold Serde.toVec Serde.passwordToJson passwordText
  congr 1
  have hn : ∀ n : Nat, Json.print (.num (.uint n)) = (toString n).toList := fun n => by
    rw [← Json.natDigits_eq]; rfl
  have hs : ∀ s : Str, Json.print (.str s) = quoted s := fun s => by rw [← Json.printStr_eq]; rfl
  have hm : ∀ l, Json.print (.obj l) = '{' :: (Json.printMembers l ++ ['}']) := fun _ => rfl
  cases x with
  | generated p =>
    obtain ⟨⟨site, name, rev⟩, len, cs, notes⟩ := p
    by_cases hnotes : notes = [] <;>
      simp [Serde.idMembers, Serde.charsetMembers, Serde.notesMembers, idFields, notesField, hnotes, Serde.member, hm,
        Json.printMembers, Json.printStr_eq, hn, hs, printBool, CharacterSet.contains, h1, h2, h3, h4, h5, h6, h7, h8, h9,
        h11, h12]
  | stored p =>
    obtain ⟨⟨site, name, rev⟩, password, notes⟩ := p
    by_cases hnotes : notes = [] <;>
      simp [Serde.idMembers, Serde.notesMembers, idFields, notesField, hnotes, Serde.member, hm, Json.printMembers,
        Json.printStr_eq, hs, h1, h2, h3, h4, h10, h11, h13]

end Pfp
