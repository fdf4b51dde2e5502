import Verif.Proofs.GhashField

/-!
# How many hash keys let a change pass
-/

namespace Pfp.Standard.Gcm

theorem number_snoc (b : Bytes) (x : UInt8) : number (b ++ [x]) = number b * 256 + x.toNat := by
  unfold number
  rw [List.foldl_append]
  rfl

theorem number_shift (b : Bytes) (i : Nat) (hi : i < b.length) :
    UInt8.ofNat (number b >>> (8 * (b.length - 1 - i))) = b[i] := by
  induction b using List.reverseRecOn with
  | nil => simp at hi
  | append_singleton b x ih =>
    rw [number_snoc, List.length_append, List.length_singleton]
    have hx := x.toNat_lt
    by_cases h : i < b.length
    · rw [List.getElem_append_left h, ← ih h]
      congr 1
      rw [show 8 * (b.length + 1 - 1 - i) = 8 + 8 * (b.length - 1 - i) by omega, Nat.shiftRight_add]
      congr 1
      rw [Nat.shiftRight_eq_div_pow]
      omega
    · rw [List.length_append, List.length_singleton] at hi
      have : i = b.length := by omega
      subst this
      rw [List.getElem_append_right (by omega)]
      apply UInt8.toNat_inj.mp
      simp

theorem block_number (b : Bytes) (h : b.length = 16) : block (number b) = b := by
  unfold block
  apply List.ext_getElem
  · simp [h]
  · intro i h1 h2
    have := number_shift b i h2
    rw [h] at this
    rw [List.getElem_map, List.getElem_range, ← this]
    congr 2
    omega

theorem block_length (n : Nat) : (block n).length = 16 := by simp [block]

theorem number_block {n : Nat} (h : n < 2 ^ 128) : number (block n) = n :=
  block_inj (number_lt (block_length n)) h (block_number _ (block_length n))

theorem nat64be_inj {m n : Nat} (hm : m < 2 ^ 64) (hn : n < 2 ^ 64) (h : nat64be m = nat64be n) : m = n := by
  apply Nat.eq_of_testBit_eq
  intro j
  by_cases hj : j < 64
  · unfold nat64be at h
    rw [List.map_inj_left] at h
    have h1 := congrArg UInt8.toNat (h (7 - j / 8) (List.mem_range.mpr (by omega)))
    rw [UInt8.toNat_ofNat', UInt8.toNat_ofNat'] at h1
    have h2 := congrArg (fun x => x.testBit (j % 8)) h1
    simp only [Nat.testBit_mod_two_pow, Nat.testBit_shiftRight] at h2
    have h3 : 56 - 8 * (7 - j / 8) + j % 8 = j := by omega
    rw [h3] at h2
    have h4 : j % 8 < 8 := Nat.mod_lt _ (by decide)
    simpa [h4] using h2
  · have : 2 ^ 64 ≤ 2 ^ j := Nat.pow_le_pow_right (by decide) (by omega)
    rw [Nat.testBit_lt_two_pow (Nat.lt_of_lt_of_le hm this), Nat.testBit_lt_two_pow (Nat.lt_of_lt_of_le hn this)]

theorem block_xor (m n : Nat) : (block m).zipWith (· ^^^ ·) (block n) = block (m ^^^ n) := by
  unfold block
  rw [List.zipWith_map, List.zipWith_self]
  apply List.map_congr_left
  intro i _
  rw [Nat.shiftRight_xor_distrib]
  apply UInt8.toNat_inj.mp
  rw [UInt8.toNat_xor, UInt8.toNat_ofNat', UInt8.toNat_ofNat', UInt8.toNat_ofNat', Nat.xor_mod_two_pow]

/-! ## Texts as coefficients -/

/-- A number as a block. -/
def toElem (n : Nat) : Elem := ⟨n % 2 ^ 128, Nat.mod_lt _ (Nat.two_pow_pos _)⟩

theorem toElem_val {n : Nat} (h : n < 2 ^ 128) : (toElem n).val = n := Nat.mod_eq_of_lt h

/-- The blocks of a text. -/
def elems (b : Bytes) : List Elem := (pieces 16 b).map fun p => toElem (number p)

theorem pieces_append (a l : Bytes) (ha : a.length % 16 = 0) (hl : l.length = 16) : pieces 16 (a ++ l) = pieces 16 a ++ [l] := by
  unfold pieces
  rw [List.length_append, hl, show (a.length + 16) / 16 = a.length / 16 + 1 by omega, List.range_succ, List.map_append]
  congr 1
  · apply List.map_congr_left
    intro i hi
    have := List.mem_range.mp hi
    rw [List.drop_append_of_le_length (by omega), List.take_append_of_le_length (by rw [List.length_drop]; omega)]
  · rw [List.map_singleton]
    congr 1
    rw [List.drop_left' (by omega), List.take_of_length_le (by omega)]

theorem elems_append (a l : Bytes) (ha : a.length % 16 = 0) (hl : l.length = 16) :
    elems (a ++ l) = elems a ++ [toElem (number l)] := by
  unfold elems
  rw [pieces_append a l ha hl, List.map_append]
  rfl

theorem elems_length (a : Bytes) : (elems a).length = a.length / 16 := by simp [elems, pieces]

theorem ghash_elems (h : Elem) (a : Bytes) : ghash h.val a = ((elems a).foldl (fun y a => (y + a) * h) 0).val := by
  have key : ∀ (l : List Bytes) (y : Elem), (∀ p ∈ l, p.length = 16) →
      l.foldl (fun y x => mul (y ^^^ number x) h.val) y.val =
        ((l.map fun p => toElem (number p)).foldl (fun y a => (y + a) * h) y).val := by
    intro l
    induction l with
    | nil => intro y _; rfl
    | cons p l ih =>
      intro y hp
      rw [List.map_cons, List.foldl_cons, List.foldl_cons, ← ih _ fun q hq => hp q (List.mem_cons_of_mem _ hq)]
      rw [Elem.mul_val, Elem.add_val, toElem_val (number_lt (hp p List.mem_cons_self))]
  unfold ghash elems
  refine key _ 0 ?_
  intro p hp
  unfold pieces at hp
  obtain ⟨i, hi, rfl⟩ := List.mem_map.mp hp
  exact piece_length (List.mem_range.mp hi)

theorem elems_inj {a b : Bytes} (ha : a.length % 16 = 0) (hl : a.length = b.length) (h : elems a = elems b) : a = b := by
  apply List.ext_getElem?
  intro i
  by_cases hi : i < a.length
  · have h1 := congrArg (fun l => l[i / 16]?) h
    simp only [elems, pieces, List.map_map] at h1
    rw [List.getElem?_map, List.getElem?_map, List.getElem?_range (by omega), List.getElem?_range (by omega)] at h1
    have h2 : toElem (number (piece a (i / 16))) = toElem (number (piece b (i / 16))) := Option.some.inj h1
    have la : (piece a (i / 16)).length = 16 := piece_length (by omega)
    have lb : (piece b (i / 16)).length = 16 := piece_length (by omega)
    have h3 := congrArg Elem.val h2
    rw [toElem_val (number_lt la), toElem_val (number_lt lb)] at h3
    have h4 := congrArg (fun l => l[i % 16]?) (number_inj (la.trans lb.symm) h3)
    simp only [piece_get, if_pos (Nat.mod_lt i (by decide : 0 < 16))] at h4
    rwa [show 16 * (i / 16) + i % 16 = i by omega] at h4
  · rw [List.getElem?_eq_none (by omega), List.getElem?_eq_none (by omega)]

/-- What is hashed. -/
def hashed (c : Bytes) : Bytes := padded c ++ (nat64be 0 ++ nat64be (8 * c.length))

theorem lengths_length (n : Nat) : (nat64be 0 ++ nat64be n).length = 16 := by
  rw [List.length_append, nat64be_length, nat64be_length]

theorem hashed_elems (c : Bytes) : elems (hashed c) = elems (padded c) ++ [toElem (number (nat64be 0 ++ nat64be (8 * c.length)))] :=
  elems_append _ _ (padded_length c) (lengths_length _)

theorem padded_blocks (c : Bytes) : (padded c).length / 16 = (c.length + 15) / 16 := by
  unfold padded
  rw [List.length_append, List.length_replicate]
  omega

theorem hashed_count (c : Bytes) : (elems (hashed c)).length = (c.length + 15) / 16 + 1 := by
  rw [hashed_elems, List.length_append, elems_length, padded_blocks]
  rfl

theorem hashed_ne {c c' : Bytes} (hc : c.length < 2 ^ 61) (hc' : c'.length < 2 ^ 61) (hne : c ≠ c') :
    ∃ k, (elems (hashed c)).reverse.getD k 0 ≠ (elems (hashed c')).reverse.getD k 0 := by
  by_contra hcon
  have hall : ∀ k, (elems (hashed c)).reverse.getD k 0 = (elems (hashed c')).reverse.getD k 0 := by
    intro k
    by_contra h
    exact hcon ⟨k, h⟩
  have hlen : c.length = c'.length := by
    have h0 := hall 0
    rw [hashed_elems, hashed_elems, List.reverse_append, List.reverse_append] at h0
    have h1 : toElem (number (nat64be 0 ++ nat64be (8 * c.length))) = toElem (number (nat64be 0 ++ nat64be (8 * c'.length))) := h0
    have h2 := congrArg Elem.val h1
    rw [toElem_val (number_lt (lengths_length _)), toElem_val (number_lt (lengths_length _))] at h2
    have h3 := List.append_cancel_left (number_inj ((lengths_length _).trans (lengths_length _).symm) h2)
    have := nat64be_inj (by omega) (by omega) h3
    omega
  have hl : (elems (hashed c)).length = (elems (hashed c')).length := by
    rw [hashed_count, hashed_count, hlen]
  have he : elems (hashed c) = elems (hashed c') := by
    rw [← List.reverse_inj]
    apply List.ext_getElem
    · rw [List.length_reverse, List.length_reverse, hl]
    · intro k h1 h2
      have := hall k
      rw [List.getD_eq_getElem?_getD, List.getD_eq_getElem?_getD, List.getElem?_eq_getElem h1, List.getElem?_eq_getElem h2] at this
      exact this
  have hp : hashed c = hashed c' := by
    refine elems_inj ?_ ?_ he
    · unfold hashed
      have := padded_length c
      rw [List.length_append, lengths_length]
      omega
    · unfold hashed padded
      simp only [List.length_append, List.length_replicate, hlen]
  unfold hashed padded at hp
  rw [List.append_assoc, List.append_assoc] at hp
  exact hne (List.append_inj hp hlen).1

theorem tag_eq (keys : List Bytes) (nonce c : Bytes) :
    tag keys nonce c = (block (ghash (number (Aes.cipher keys (List.replicate 16 0))) (hashed c))).zipWith (· ^^^ ·)
      (Aes.cipher keys (counter nonce 1)) := by
  unfold tag hashed
  rw [List.append_assoc]

/-- The hash subkeys for which two texts have these tags. -/
theorem tag_few {c c' t t' : Bytes} (hc : c.length < 2 ^ 61) (hc' : c'.length < 2 ^ 61) (ht : t.length = 16) (ht' : t'.length = 16)
    (hne : ¬(c = c' ∧ t = t')) :
    ∃ subkeys : List Bytes, subkeys.length ≤ max ((c.length + 15) / 16) ((c'.length + 15) / 16) + 1 ∧
      ∀ keys nonce, tag keys nonce c = t → tag keys nonce c' = t' → Aes.cipher keys (List.replicate 16 0) ∈ subkeys := by
  by_cases he : c = c'
  · refine ⟨[], by simp, fun keys nonce h h' => ?_⟩
    exact absurd ⟨he, by rw [← h, ← h', he]⟩ hne
  · obtain ⟨roots, hr, hroots⟩ := few_roots (elems (hashed c)) (elems (hashed c')) (toElem (number t ^^^ number t'))
      (hashed_ne hc hc' he)
    refine ⟨roots.map fun r => block r.val, ?_, ?_⟩
    · rw [List.length_map]
      refine hr.trans ?_
      rw [hashed_count, hashed_count]
      omega
    · intro keys nonce h h'
      have hlen := cipher_length keys (List.replicate 16 0)
      generalize hb : Aes.cipher keys (List.replicate 16 0) = sub at hlen
      refine List.mem_map.mpr ⟨⟨number sub, number_lt hlen⟩, hroots _ ?_, block_number sub hlen⟩
      rw [tag_eq, hb, show number sub = (⟨number sub, number_lt hlen⟩ : Elem).val from rfl, ghash_elems] at h h'
      apply Elem.ext
      rw [Elem.add_val, toElem_val (Nat.xor_lt_two_pow (number_lt ht) (number_lt ht'))]
      generalize List.foldl _ _ _ = x at h ⊢
      generalize List.foldl _ _ _ = y at h' ⊢
      have he := cipher_length keys (counter nonce 1)
      have hnum : ∀ (z : Elem) (u : Bytes), (block z.val).zipWith (· ^^^ ·) (Aes.cipher keys (counter nonce 1)) = u →
          number u = z.val ^^^ number (Aes.cipher keys (counter nonce 1)) := by
        intro z u hu
        rw [← hu]
        conv => lhs; rw [← block_number _ he, block_xor, number_block (Nat.xor_lt_two_pow z.lt (number_lt he))]
      rw [hnum x t h, hnum y t' h', xor_swap, Nat.xor_self, Nat.xor_zero]

/-! ## Data for two keys -/

theorem padded_whole {c : Bytes} (h : c.length % 16 = 0) : padded c = c := by
  unfold padded
  rw [h]
  simp

theorem toElem_number (x : Elem) : toElem (number (block x.val)) = x := by
  apply Elem.ext
  rw [number_block x.lt, toElem_val x.lt]

/-- There is a block after which the tags of two keys are equal. -/
theorem tag_both {keys keys' : List Bytes} (nonce : Bytes) {c : Bytes} (hc : c.length % 16 = 0)
    (hne : Aes.cipher keys (List.replicate 16 0) ≠ Aes.cipher keys' (List.replicate 16 0)) :
    ∃ x : Bytes, x.length = 16 ∧ tag keys nonce (c ++ x) = tag keys' nonce (c ++ x) := by
  have hl := cipher_length keys (List.replicate 16 0)
  have hl' := cipher_length keys' (List.replicate 16 0)
  obtain ⟨h, hh⟩ : ∃ h : Elem, h.val = number (Aes.cipher keys (List.replicate 16 0)) := ⟨⟨_, number_lt hl⟩, rfl⟩
  obtain ⟨h', hh'⟩ : ∃ h : Elem, h.val = number (Aes.cipher keys' (List.replicate 16 0)) := ⟨⟨_, number_lt hl'⟩, rfl⟩
  obtain ⟨e, he⟩ : ∃ e : Elem, e.val = number (Aes.cipher keys (counter nonce 1)) := ⟨⟨_, number_lt (cipher_length _ _)⟩, rfl⟩
  obtain ⟨e', he'⟩ : ∃ e : Elem, e.val = number (Aes.cipher keys' (counter nonce 1)) := ⟨⟨_, number_lt (cipher_length _ _)⟩, rfl⟩
  have hd : h + h' ≠ 0 := by
    intro h0
    apply hne
    apply number_inj (hl.trans hl'.symm)
    rw [← hh, ← hh']
    have := congrArg Elem.val h0
    rw [Elem.add_val, Elem.zero_val] at this
    exact xor_eq_zero this
  have htag : ∀ (keys : List Bytes) (h e x : Elem), h.val = number (Aes.cipher keys (List.replicate 16 0)) →
      e.val = number (Aes.cipher keys (counter nonce 1)) → tag keys nonce (c ++ block x.val) =
        block ((((elems c).foldl (fun y a => (y + a) * h) 0 + x) * h +
          toElem (number (nat64be 0 ++ nat64be (8 * (c.length + 16))))) * h + e).val := by
    intro keys h e x hh he
    rw [tag_eq, ← hh, ghash_elems, hashed_elems, List.length_append, block_length, padded_whole (by
      rw [List.length_append, block_length]; omega), elems_append _ _ hc (block_length _), List.foldl_append, List.foldl_append,
      toElem_number]
    conv => lhs; rw [← block_number _ (cipher_length keys (counter nonce 1)), block_xor, ← he]
    rfl
  generalize hL : toElem (number (nat64be 0 ++ nat64be (8 * (c.length + 16)))) = L at htag
  generalize hg : (elems c).foldl (fun y a => (y + a) * h) 0 = g
  generalize hg' : (elems c).foldl (fun y a => (y + a) * h') 0 = g'
  obtain ⟨x, hx⟩ := Elem.divide ((h + h') * (h + h')) (g * h * h + L * h + e + (g' * h' * h' + L * h' + e'))
    (mul_ne_zero hd hd)
  refine ⟨block x.val, block_length _, ?_⟩
  rw [htag keys h e x hh he, htag keys' h' e' x hh' he', hg, hg']
  congr 2
  have h2 : (2 : Elem) = 0 := (one_add_one_eq_two (R := Elem)).symm.trans (Elem.add_self 1)
  linear_combination hx + (g * h * h + L * h + e - x * h * h' - x * h' * h') * h2

end Pfp.Standard.Gcm
