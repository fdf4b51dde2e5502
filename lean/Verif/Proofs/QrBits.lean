import Verif.Proofs.QrCount
import Verif.Proofs.Rows
import Mathlib.Data.List.Induction

/-!
# Bits: segments, padding and bytes
-/

namespace Pfp.Proofs.Qr

open Pfp.Qr

/-! ## Numbers -/

theorem bitsOf_length (value len : Nat) : (bitsOf value len).length = len := by
  simp [bitsOf]

theorem bitsOf_succ (value len : Nat) : bitsOf value (len + 1) = bitsOf (value / 2) len ++ [decide (value % 2 = 1)] := by
  unfold bitsOf
  rw [List.range_succ_eq_map, List.reverse_cons, List.map_append, ← List.map_reverse, List.map_map]
  congr 1
  · apply List.map_congr_left
    intro i _
    simp [Nat.testBit_succ]
  · simp [Nat.testBit_zero]

theorem number_append (bits : List Bool) (b : Bool) : Spec.Qr.number (bits ++ [b]) = 2 * Spec.Qr.number bits + b.toNat := by
  unfold Spec.Qr.number
  rw [List.foldl_append]
  rfl

theorem number_bitsOf (value len : Nat) (h : value < 2 ^ len) : Spec.Qr.number (bitsOf value len) = value := by
  induction len generalizing value with
  | zero =>
    have : value = 0 := by simpa using h
    rw [this]
    rfl
  | succ len ih =>
    rw [bitsOf_succ, number_append, ih (value / 2) (by rw [Nat.pow_succ] at h; omega)]
    rcases Nat.mod_two_eq_zero_or_one value with h2 | h2 <;> simp [h2] <;> omega

theorem bitsOf_number (bits : List Bool) : bitsOf (Spec.Qr.number bits) bits.length = bits := by
  induction bits using List.reverseRecOn with
  | nil => rfl
  | append_singleton l b ih =>
    rw [List.length_append, List.length_singleton, bitsOf_succ, number_append]
    have h1 : (2 * Spec.Qr.number l + b.toNat) / 2 = Spec.Qr.number l := by have := b.toNat_lt; omega
    have h2 : (2 * Spec.Qr.number l + b.toNat) % 2 = b.toNat := by have := b.toNat_lt; omega
    rw [h1, h2, ih]
    cases b <;> simp

theorem number_lt (bits : List Bool) : Spec.Qr.number bits < 2 ^ bits.length := by
  induction bits using List.reverseRecOn with
  | nil => simp [Spec.Qr.number]
  | append_singleton l b ih =>
    rw [List.length_append, List.length_singleton, number_append, Nat.pow_succ]
    have := b.toNat_lt
    omega

theorem take_bitsOf (value len : Nat) (rest : List Bool) (h : value < 2 ^ len) :
    Spec.Qr.take len (bitsOf value len ++ rest) = some (value, rest) := by
  unfold Spec.Qr.take
  rw [if_neg (by rw [List.length_append, bitsOf_length]; omega)]
  have hl := bitsOf_length value len
  rw [List.take_left' hl, List.drop_left' hl, number_bitsOf _ _ h]

/-! ## Bytes -/

theorem fromBits_eq (bits : List Bool) : fromBits bits = Spec.Qr.number bits := rfl

theorem octets_append (l : List (List Bool)) (rest : List Bool) (h : ∀ o ∈ l, o.length = 8) (hr : rest.length < 8) :
    Spec.Qr.octets (l.flatten ++ rest) = l := by
  induction l with
  | nil =>
    rw [List.flatten_nil, List.nil_append]
    match rest, hr with
    | [], _ => rfl
    | [_], _ => rfl
    | [_, _], _ => rfl
    | [_, _, _], _ => rfl
    | [_, _, _, _], _ => rfl
    | [_, _, _, _, _], _ => rfl
    | [_, _, _, _, _, _], _ => rfl
    | [_, _, _, _, _, _, _], _ => rfl
  | cons o l ih =>
    have ho := h o List.mem_cons_self
    match o, ho with
    | [a, b, c, d, e, f, g, k], _ =>
      rw [List.flatten_cons]
      simp only [List.cons_append, List.nil_append, Spec.Qr.octets]
      rw [ih fun o ho => h o (List.mem_cons_of_mem _ ho)]

/-- Packing bits into bytes loses nothing. -/
theorem packBytes_bits (bits : List Bool) (n : Nat) (h : bits.length = 8 * n) :
    (packBytes bits).length = n ∧ (packBytes bits).flatMap (fun b => bitsOf b.toNat 8) = bits := by
  obtain ⟨ls, rfl, hl, h8⟩ := exists_pieces 8 n bits h
  unfold packBytes
  rw [chunks_flatten 8 (by omega) ls h8]
  refine ⟨by rw [List.length_map, hl], ?_⟩
  rw [List.flatMap_map, List.flatMap]
  congr 1
  conv => rhs; rw [← List.map_id ls]
  apply List.map_congr_left
  intro c hc
  have hc8 := h8 c hc
  have hlt := number_lt c
  rw [hc8] at hlt
  rw [fromBits_eq, UInt8.toNat_ofNat', Nat.mod_eq_of_lt (by simpa using hlt)]
  have := bitsOf_number c
  rwa [hc8] at this

/-! ## Padding -/

theorem padBytes_length (n a b : Nat) : (padBytes n a b).length = 8 * n := by
  induction n generalizing a b with
  | zero => rfl
  | succ n ih => rw [padBytes, List.length_append, bitsOf_length, ih]; omega

theorem padded_eq (capacity : Nat) (bits : List Bool) (h : bits.length ≤ capacity) (h8 : capacity % 8 = 0) :
    ∃ rest, padded capacity bits = bits ++ (List.replicate (min 4 (capacity - bits.length)) false ++ rest) ∧
      (padded capacity bits).length = capacity := by
  unfold padded
  refine ⟨?_, ?_, ?_⟩
  rotate_left
  · simp only [List.append_assoc]
    rfl
  · simp only [List.length_append, List.length_replicate, padBytes_length]
    omega

theorem take_terminator (version fuel : Nat) (capacity : Nat) (bits rest : List Bool)
    (hl : (bits ++ (List.replicate (min 4 (capacity - bits.length)) false ++ rest)).length = capacity) :
    Spec.Qr.readSegments version (fuel + 1) (List.replicate (min 4 (capacity - bits.length)) false ++ rest) = some [] := by
  rw [Spec.Qr.readSegments]
  have h : Spec.Qr.take 4 (List.replicate (min 4 (capacity - bits.length)) false ++ rest) = none ∨
      ∃ r, Spec.Qr.take 4 (List.replicate (min 4 (capacity - bits.length)) false ++ rest) = some (0, r) := by
    unfold Spec.Qr.take
    split
    · exact .inl rfl
    · rename_i hlen
      rw [List.length_append] at hl
      rw [show min 4 (capacity - bits.length) = 4 by omega]
      exact .inr ⟨_, rfl⟩
  rcases h with h | ⟨r, h⟩ <;> rw [h]
  rfl

/-! ## Contents of segments -/

theorem readBytes_bits (data : Bytes) (rest : List Bool) :
    Spec.Qr.readBytes data.length (data.flatMap (fun b => bitsOf b.toNat 8) ++ rest) = some (data, rest) := by
  induction data with
  | nil => rfl
  | cons b data ih =>
    rw [List.length_cons, Spec.Qr.readBytes, List.flatMap_cons, List.append_assoc,
      take_bitsOf _ _ _ (by have := b.toNat_lt; simpa using this)]
    simp only [Option.bind_eq_bind, Option.bind_some]
    rw [ih]
    simp

theorem readNumeric_bits (digits : List Nat) (rest : List Bool) (h : ∀ d ∈ digits, d < 10) :
    Spec.Qr.readNumeric digits.length (numericBits digits ++ rest) =
      some (Spec.Qr.ascii (digits.map Spec.Qr.digit), rest) := by
  match digits with
  | [] => rfl
  | [a] =>
    have ha := h a (by simp)
    rw [show [a].length = 1 from rfl, Spec.Qr.readNumeric, numericBits, take_bitsOf _ _ _ (by omega)]
    simp [ha]
  | [a, b] =>
    have ha := h a (by simp)
    have hb := h b (by simp)
    rw [show [a, b].length = 2 from rfl, Spec.Qr.readNumeric, numericBits, take_bitsOf _ _ _ (by omega)]
    have h1 : a * 10 + b < 100 := by omega
    have h2 : (a * 10 + b) / 10 = a := by omega
    have h3 : (a * 10 + b) % 10 = b := by omega
    simp [h1, h2, h3]
  | a :: b :: c :: digits =>
    have ha := h a (by simp)
    have hb := h b (by simp)
    have hc := h c (by simp)
    rw [show (a :: b :: c :: digits).length = digits.length + 3 from rfl, Spec.Qr.readNumeric, numericBits, List.append_assoc,
      take_bitsOf _ _ _ (by omega)]
    have h1 : (a * 10 + b) * 10 + c < 1000 := by omega
    have h2 : ((a * 10 + b) * 10 + c) / 100 = a := by omega
    have h3 : ((a * 10 + b) * 10 + c) / 10 % 10 = b := by omega
    have h4 : ((a * 10 + b) * 10 + c) % 10 = c := by omega
    simp only [Option.bind_eq_bind, Option.bind_some, h1, if_true]
    rw [readNumeric_bits digits rest fun d hd => h d (by simp [hd])]
    simp [h2, h3, h4, Spec.Qr.ascii]

theorem readAlphanumeric_bits (codes : List Nat) (text : Str) (rest : List Bool)
    (h : codes.map (Spec.Qr.alphanumeric[·]?) = text.map some) :
    Spec.Qr.readAlphanumeric codes.length (alphanumericBits codes ++ rest) = some (Spec.Qr.ascii text, rest) := by
  have hlt : ∀ (n : Nat) (c : Char), Spec.Qr.alphanumeric[n]? = some c → n < 45 := by
    intro n c hc
    have := (List.getElem?_eq_some_iff.mp hc).1
    exact this
  match codes, text, h with
  | [], [], _ => rfl
  | [_], _ :: _ :: _, h => simp at h
  | _ :: _ :: _, [_], h => simp at h
  | [a], [c], h =>
    have ha : Spec.Qr.alphanumeric[a]? = some c := by simpa using h
    have := hlt _ _ ha
    rw [show [a].length = 1 from rfl, Spec.Qr.readAlphanumeric, alphanumericBits, take_bitsOf _ _ _ (by omega)]
    simp [ha]
  | a :: b :: codes, c :: d :: text, h =>
    rw [List.map_cons, List.map_cons, List.map_cons, List.map_cons, List.cons.injEq, List.cons.injEq] at h
    obtain ⟨ha, hb, h⟩ := h
    have := hlt _ _ ha
    have := hlt _ _ hb
    rw [show (a :: b :: codes).length = codes.length + 2 from rfl, Spec.Qr.readAlphanumeric, alphanumericBits, List.append_assoc,
      take_bitsOf _ _ _ (by omega)]
    have h1 : (a * 45 + b) / 45 = a := by omega
    have h2 : (a * 45 + b) % 45 = b := by omega
    simp only [Option.bind_eq_bind, Option.bind_some, h1, h2, ha, hb]
    rw [readAlphanumeric_bits codes text rest h]
    simp [Spec.Qr.ascii]

end Pfp.Proofs.Qr
