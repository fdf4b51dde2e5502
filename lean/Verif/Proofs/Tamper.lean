import Verif.Proofs.Ghash

/-!
# Altered ciphertexts
-/

namespace Pfp.Standard.Gcm

theorem fold_lt (l : Bytes) (n : Nat) :
    l.foldl (fun n x => n * 256 + x.toNat) n < (n + 1) * 256 ^ l.length := by
  induction l generalizing n with
  | nil => simp
  | cons x l ih =>
    refine Nat.lt_of_lt_of_le (ih _) ?_
    rw [List.length_cons, Nat.pow_succ, Nat.mul_comm (256 ^ l.length), ← Nat.mul_assoc]
    refine Nat.mul_le_mul_right _ ?_
    have := x.toNat_lt
    show n * 256 + x.toNat + 1 ≤ _
    omega

theorem number_lt {b : Bytes} (h : b.length = 16) : number b < 2 ^ 128 := by
  have := fold_lt b 0
  rw [h] at this
  simpa [number] using this

theorem fold_inj {l l' : Bytes} {n n' : Nat} (hl : l.length = l'.length)
    (h : l.foldl (fun n x => n * 256 + x.toNat) n = l'.foldl (fun n x => n * 256 + x.toNat) n') : n = n' ∧ l = l' := by
  induction l generalizing l' n n' with
  | nil =>
    cases l' with
    | nil => exact ⟨h, rfl⟩
    | cons _ _ => simp at hl
  | cons x l ih =>
    cases l' with
    | nil => simp at hl
    | cons x' l' =>
      simp only [List.length_cons, Nat.add_right_cancel_iff] at hl
      obtain ⟨h1, h2⟩ := ih hl h
      replace h1 : n * 256 + x.toNat = n' * 256 + x'.toNat := h1
      have hx := x.toNat_lt
      have hx' := x'.toNat_lt
      have h3 : x.toNat = x'.toNat := by omega
      exact ⟨by omega, by rw [UInt8.toNat_inj.mp h3, h2]⟩

theorem number_inj {a b : Bytes} (hl : a.length = b.length) (h : number a = number b) : a = b := (fold_inj hl h).2

theorem block_inj {m n : Nat} (hm : m < 2 ^ 128) (hn : n < 2 ^ 128) (h : block m = block n) : m = n := by
  apply Nat.eq_of_testBit_eq
  intro j
  by_cases hj : j < 128
  · unfold block at h
    rw [List.map_inj_left] at h
    have h1 := congrArg UInt8.toNat (h (15 - j / 8) (List.mem_range.mpr (by omega)))
    rw [UInt8.toNat_ofNat', UInt8.toNat_ofNat'] at h1
    have h2 := congrArg (fun x => x.testBit (j % 8)) h1
    simp only [Nat.testBit_mod_two_pow, Nat.testBit_shiftRight] at h2
    have h3 : 120 - 8 * (15 - j / 8) + j % 8 = j := by omega
    rw [h3] at h2
    have h4 : j % 8 < 8 := Nat.mod_lt _ (by decide)
    simpa [h4] using h2
  · have : 2 ^ 128 ≤ 2 ^ j := Nat.pow_le_pow_right (by decide) (by omega)
    rw [Nat.testBit_lt_two_pow (Nat.lt_of_lt_of_le hm this), Nat.testBit_lt_two_pow (Nat.lt_of_lt_of_le hn this)]

theorem xor_cancel_right {a b c : Nat} (h : a ^^^ c = b ^^^ c) : a = b := by
  have := congrArg (· ^^^ c) h
  simpa only [Nat.xor_assoc, Nat.xor_self, Nat.xor_zero] using this

theorem xor_cancel_left {a b c : Nat} (h : c ^^^ a = c ^^^ b) : a = b := by
  rw [Nat.xor_comm c, Nat.xor_comm c] at h
  exact xor_cancel_right h

/-- The pieces of a text. -/
def piece (l : Bytes) (i : Nat) : Bytes := (l.drop (16 * i)).take 16

theorem ghash_eq (h : Nat) (l : Bytes) :
    ghash h l = (List.range (l.length / 16)).foldl (fun y i => mul (y ^^^ number (piece l i)) h) 0 := by
  unfold ghash pieces
  rw [List.foldl_map]
  rfl

theorem piece_get (l : Bytes) (i k : Nat) : (piece l i)[k]? = if k < 16 then l[16 * i + k]? else none := by
  unfold piece
  rw [List.getElem?_take, List.getElem?_drop]

theorem piece_length {l : Bytes} {i : Nat} (h : i < l.length / 16) : (piece l i).length = 16 := by
  unfold piece
  rw [List.length_take, List.length_drop]
  omega

/-- Texts that differ in one block have different hashes. -/
theorem ghash_ne {h : Nat} (h0 : h ≠ 0) (hlt : h < 2 ^ 128) {a b : Bytes} {j : Nat} (hl : a.length = b.length)
    (hm : a.length % 16 = 0) (hne : a ≠ b) (hj : ∀ i, i / 16 ≠ j → a[i]? = b[i]?) :
    ghash h a ≠ ghash h b ∧ ghash h a < 2 ^ 128 ∧ ghash h b < 2 ^ 128 := by
  have hother : ∀ i, i ≠ j → piece a i = piece b i := by
    intro i hi
    apply List.ext_getElem?
    intro k
    rw [piece_get, piece_get]
    split
    · exact hj _ (by omega)
    · rfl
  have hdiff : piece a j ≠ piece b j := by
    intro he
    apply hne
    apply List.ext_getElem?
    intro i
    by_cases hi : i / 16 = j
    · have h1 := congrArg (fun l => l[i % 16]?) he
      simp only [piece_get, if_pos (Nat.mod_lt i (by decide : 0 < 16))] at h1
      have h2 : 16 * j + i % 16 = i := by omega
      rwa [h2] at h1
    · exact hj i hi
  have hjlt : j < a.length / 16 := by
    apply Decidable.byContradiction
    intro hc
    apply hdiff
    unfold piece
    rw [List.drop_eq_nil_of_le (by omega), List.drop_eq_nil_of_le (by omega)]
  obtain ⟨f, hf⟩ : ∃ f : Nat → Bytes → Nat, ∀ m l, f m l =
      (List.range m).foldl (fun y i => mul (y ^^^ number (piece l i)) h) 0 := ⟨_, fun _ _ => rfl⟩
  have hf0 : ∀ l, f 0 l = 0 := fun l => hf 0 l
  have hfs : ∀ m l, f (m + 1) l = mul (f m l ^^^ number (piece l m)) h := by
    intro m l
    rw [hf, hf, List.range_succ, List.foldl_append]
    rfl
  have hkey : ∀ m, m ≤ a.length / 16 →
      f m a < 2 ^ 128 ∧ f m b < 2 ^ 128 ∧ (m ≤ j → f m a = f m b) ∧ (j < m → f m a ≠ f m b) := by
    intro m
    induction m with
    | zero =>
      rw [hf0, hf0]
      exact fun _ => ⟨Nat.two_pow_pos _, Nat.two_pow_pos _, fun _ => rfl, fun hc => absurd hc (Nat.not_lt_zero _)⟩
    | succ m ih =>
      intro hmle
      obtain ⟨i1, i2, i3, i4⟩ := ih (by omega)
      have ha : (piece a m).length = 16 := piece_length (by omega)
      have hb : (piece b m).length = 16 := piece_length (by omega)
      have hxa := Nat.xor_lt_two_pow i1 (number_lt ha)
      have hxb := Nat.xor_lt_two_pow i2 (number_lt hb)
      rw [hfs, hfs]
      refine ⟨mul_lt _ hlt, mul_lt _ hlt, fun hmj => ?_, fun hjm he => ?_⟩
      · rw [hother m (by omega)]
        rw [i3 (by omega)]
      · have hx := mul_inj h0 hlt hxa hxb he
        by_cases hmj : m = j
        · subst hmj
          rw [i3 (Nat.le_refl _)] at hx
          exact hdiff (number_inj (by rw [ha, hb]) (xor_cancel_left hx))
        · rw [hother m hmj] at hx
          exact i4 (by omega) (xor_cancel_right hx)
  obtain ⟨k1, k2, _, k4⟩ := hkey _ (Nat.le_refl _)
  rw [ghash_eq, ghash_eq, ← hl, ← hf, ← hf]
  exact ⟨k4 hjlt, k1, k2⟩

theorem padded_length (b : Bytes) : (padded b).length % 16 = 0 := by
  unfold padded
  rw [List.length_append, List.length_replicate]
  omega

theorem nat64be_length (n : Nat) : (nat64be n).length = 8 := by simp [nat64be]

/-- The hash subkey is not zero: encrypting the block of zeros does not yield zeros. -/
def Sound (keys : List Bytes) : Prop := Aes.cipher keys (List.replicate 16 0) ≠ List.replicate 16 0

/-- Ciphertexts that differ in one block have different tags. -/
theorem tag_ne {keys : List Bytes} (hs : Sound keys) (nonce : Bytes) {a b : Bytes} {j : Nat} (hl : a.length = b.length)
    (hne : a ≠ b) (hj : ∀ i, i / 16 ≠ j → a[i]? = b[i]?) : tag keys nonce a ≠ tag keys nonce b := by
  have hclen := cipher_length keys (List.replicate 16 0)
  have h0 : number (Aes.cipher keys (List.replicate 16 0)) ≠ 0 := fun hz =>
    hs (number_inj (by rw [hclen, List.length_replicate]) (hz.trans (by decide)))
  have hlt := number_lt hclen
  have hsuf : ∀ c : Bytes, (padded c ++ nat64be 0 ++ nat64be (8 * c.length)) =
      c ++ (List.replicate ((16 - c.length % 16) % 16) 0 ++ nat64be 0 ++ nat64be (8 * c.length)) := by
    intro c
    simp [padded]
  obtain ⟨g1, g2, g3⟩ := ghash_ne h0 hlt (a := padded a ++ nat64be 0 ++ nat64be (8 * a.length))
    (b := padded b ++ nat64be 0 ++ nat64be (8 * b.length)) (j := j)
    (by simp [padded, nat64be_length, hl])
    (by
      have := padded_length a
      rw [List.length_append, List.length_append, nat64be_length, nat64be_length]
      omega)
    (by
      rw [hsuf, hsuf, hl]
      intro he
      exact hne (List.append_inj he hl).1)
    (by
      intro i hi
      rw [hsuf, hsuf, hl]
      generalize List.replicate ((16 - b.length % 16) % 16) 0 ++ nat64be 0 ++ nat64be (8 * b.length) = suffix
      rw [List.getElem?_append, List.getElem?_append, hl]
      split
      · exact hj i hi
      · rfl)
  intro he
  unfold tag at he
  have hx : ∀ s t : Nat, ∀ e : Bytes, e.length = 16 →
      (block s).zipWith (· ^^^ ·) e = (block t).zipWith (· ^^^ ·) e → block s = block t := by
    intro s t e hl h
    have := congrArg (fun l => List.zipWith (· ^^^ ·) l e) h
    simp only at this
    rwa [xor_xor _ _ (by simp [block, hl]), xor_xor _ _ (by simp [block, hl])] at this
  exact g1 (block_inj g2 g3 (hx _ _ _ (cipher_length _ _) he))

theorem decrypt_append {key nonce c t : Bytes} (ht : t.length = 16) :
    decrypt key nonce (c ++ t) =
      if tag (Aes.roundKeys key) nonce c = t then some (gctr (Aes.roundKeys key) nonce c) else none := by
  unfold decrypt
  rw [if_neg (by rw [List.length_append]; omega)]
  have h1 : (c ++ t).length - 16 = c.length := by rw [List.length_append]; omega
  rw [h1, List.take_left, List.drop_left]

theorem split_tag {key nonce d p : Bytes} (h : decrypt key nonce d = some p) :
    ∃ c t, d = c ++ t ∧ t.length = 16 ∧ t = tag (Aes.roundKeys key) nonce c := by
  rw [decrypt_iff] at h
  exact ⟨_, _, h, tag_length _ _ _, rfl⟩

/-- A change within one block of the ciphertext proper is noticed. -/
theorem altered_block {key nonce c c' t p : Bytes} {j : Nat} (hs : Sound (Aes.roundKeys key)) (ht : t.length = 16)
    (h : decrypt key nonce (c ++ t) = some p) (hl : c'.length = c.length) (hne : c' ≠ c)
    (hj : ∀ i, i / 16 ≠ j → c'[i]? = c[i]?) : decrypt key nonce (c' ++ t) = none := by
  rw [decrypt_append ht] at h ⊢
  split at h
  · next htag => rw [if_neg (fun he => tag_ne hs nonce hl hne hj (he.trans htag.symm))]
  · cases h

/-- A change of the tag is noticed. -/
theorem altered_tag {key nonce c t t' p : Bytes} (ht : t.length = 16) (h : decrypt key nonce (c ++ t) = some p)
    (hl : t'.length = 16) (hne : t' ≠ t) : decrypt key nonce (c ++ t') = none := by
  rw [decrypt_append ht] at h
  rw [decrypt_append hl]
  split at h
  · next htag => rw [if_neg (fun he => hne (he.symm.trans htag))]
  · cases h

/-- A change of one byte is noticed. -/
theorem altered_byte {key nonce d p : Bytes} (hs : Sound (Aes.roundKeys key)) (h : decrypt key nonce d = some p)
    (i : Nat) (b : UInt8) (hne : d.set i b ≠ d) : decrypt key nonce (d.set i b) = none := by
  obtain ⟨c, t, rfl, ht, _⟩ := split_tag h
  rw [List.set_append] at hne ⊢
  split
  · next hi =>
    rw [if_pos hi] at hne
    refine altered_block (j := i / 16) hs ht h (by simp) (fun he => hne (by rw [he])) fun k hk => ?_
    rw [List.getElem?_set_ne (by rintro rfl; exact hk rfl)]
  · next hi =>
    rw [if_neg hi] at hne
    exact altered_tag ht h (by simp [ht]) fun he => hne (by rw [he])

end Pfp.Standard.Gcm
