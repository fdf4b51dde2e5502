import Verif.Proofs.Format

/-!
# Rows of a recovery code: chunks, checksums and validation
-/

namespace Pfp

/-! ## `chunks` -/

theorem chunksAux_nil {α : Type} (n fuel : Nat) : chunksAux n fuel ([] : List α) = [] := by
  cases fuel <;> rfl

/-- Chunks of a concatenation of pieces of the right size. -/
theorem chunksAux_flatten {α : Type} (n : Nat) (hn : 0 < n) (ls : List (List α)) (h : ∀ l ∈ ls, l.length = n) :
    ∀ fuel, ls.flatten.length ≤ fuel → chunksAux n fuel ls.flatten = ls := by
  induction ls with
  | nil => intro fuel _; exact chunksAux_nil n fuel
  | cons l ls ih =>
    intro fuel hf
    have hl := h l (by simp)
    obtain ⟨a, l', rfl⟩ : ∃ a l', l = a :: l' := by
      cases l with
      | nil => simp at hl; omega
      | cons a l' => exact ⟨a, l', rfl⟩
    cases fuel with
    | zero => simp at hf
    | succ fuel =>
      simp only [List.flatten_cons, List.length_append, List.length_cons] at hf
      rw [List.flatten_cons, List.cons_append, chunksAux]
      have e1 : (a :: (l' ++ ls.flatten)).take n = a :: l' := by
        rw [← hl, ← List.cons_append, List.take_left]
      have e2 : (a :: (l' ++ ls.flatten)).drop n = ls.flatten := by
        rw [← hl, ← List.cons_append, List.drop_left]
      rw [e1, e2, ih (fun l hl => h l (by simp [hl])) fuel (by omega)]

theorem chunks_flatten {α : Type} (n : Nat) (hn : 0 < n) (ls : List (List α)) (h : ∀ l ∈ ls, l.length = n) :
    chunks n ls.flatten = ls := chunksAux_flatten n hn ls h _ (Nat.le_refl _)

/-- A list whose length is a multiple of `n` is a concatenation of pieces of length `n`. -/
theorem exists_pieces {α : Type} (n : Nat) : ∀ (k : Nat) (l : List α), l.length = n * k →
    ∃ ls : List (List α), ls.flatten = l ∧ ls.length = k ∧ ∀ p ∈ ls, p.length = n
  | 0, l, h => ⟨[], by simp at h; simp [h], rfl, by simp⟩
  | k + 1, l, h => by
    have h' : l.length = n * k + n := by rw [h, Nat.mul_succ]
    obtain ⟨ls, h1, h2, h3⟩ := exists_pieces n k (l.drop n) (by simp; omega)
    refine ⟨l.take n :: ls, ?_, by simp [h2], ?_⟩
    · simp [h1]
    · intro p hp
      rcases List.mem_cons.mp hp with rfl | hp
      · simp; omega
      · exact h3 p hp

theorem flatten_length {α : Type} {n : Nat} {ls : List (List α)} (h : ∀ l ∈ ls, l.length = n) :
    ls.flatten.length = n * ls.length := by
  induction ls with
  | nil => simp
  | cons l ls ih =>
    simp only [List.flatten_cons, List.length_append, List.length_cons, Nat.mul_succ]
    rw [ih fun l hl => h l (by simp [hl]), h l (by simp)]
    omega

namespace RecoveryCodes
open Spec Crypto

/-! ## Line numbers -/

/-- The number mixed into the checksum of line `i` out of `n`. -/
def lineNumber (n i : Nat) : UInt8 := if i + 1 = n then 255 - UInt8.ofNat i else UInt8.ofNat i

theorem toNat_255_sub (i : Nat) : (255 - UInt8.ofNat i).toNat = 255 - i % 256 := by
  rw [UInt8.toNat_sub]
  simp only [UInt8.toNat_ofNat']
  have : (255 : UInt8).toNat = 255 := rfl
  rw [this]
  omega

/-- The last line's number is never the one of an ordinary line at the same position. -/
theorem last_ne (i : Nat) : (255 - UInt8.ofNat i : UInt8) ≠ UInt8.ofNat i := by
  intro h
  have := congrArg UInt8.toNat h
  rw [toNat_255_sub, UInt8.toNat_ofNat'] at this
  omega

theorem usizeSub_255 {oc : Bool} {i : Nat} (h : oc = false ∨ i ≤ 255) :
    ∃ v, usizeSub oc 255 i = .ok v ∧ UInt8.ofNat v = 255 - UInt8.ofNat i := by
  unfold usizeSub
  by_cases hi : i ≤ 255
  · rw [if_pos hi]
    refine ⟨_, rfl, ?_⟩
    apply UInt8.toNat_inj.mp
    rw [toNat_255_sub, UInt8.toNat_ofNat']
    omega
  · have ho : oc = false := h.resolve_right hi
    rw [if_neg hi, ho]
    refine ⟨_, rfl, ?_⟩
    apply UInt8.toNat_inj.mp
    rw [toNat_255_sub, UInt8.toNat_ofNat']
    omega

theorem usizeSub_255_panic {i : Nat} (h : 255 < i) : usizeSub true 255 i = .panic := by
  unfold usizeSub
  rw [if_neg (by omega)]
  rfl

theorem virtualByte_eq {oc : Bool} {n i : Nat} (hi : i < n) (h : oc = false ∨ n ≤ 256) :
    virtualByte oc n i = .ok (lineNumber n i) := by
  unfold virtualByte
  have : usizeSub oc n 1 = .ok (n - 1) := by unfold usizeSub; rw [if_pos (by omega)]
  rw [this]
  simp only [Res.bind_ok]
  unfold lineNumber
  by_cases hl : i = n - 1
  · rw [if_pos hl, if_pos (by omega)]
    obtain ⟨v, hv, hv'⟩ := usizeSub_255 (i := i) (h.imp_right (by omega))
    rw [hv]
    simp [hv']
  · rw [if_neg hl, if_neg (by omega)]

/-! ## Rows -/

/-- A line of 15 bytes: 14 bytes of data and their checksum. -/
def row (v : UInt8) (block : Bytes) : Bytes := block ++ [pearsonHash block v]

theorem row_length {v : UInt8} {block : Bytes} (h : block.length = 14) : (row v block).length = 15 := by
  simp [row, h]

/-- The lines `i`, `i+1`, … out of `n`. -/
def rowsFrom (n : Nat) : Nat → List Bytes → List Bytes
  | _, [] => []
  | i, block :: rest => row (lineNumber n i) block :: rowsFrom n (i + 1) rest

theorem rowsFrom_length (n : Nat) (bs : List Bytes) : ∀ i, (rowsFrom n i bs).length = bs.length := by
  induction bs with
  | nil => intro _; rfl
  | cons b bs ih => intro i; simp [rowsFrom, ih]

theorem mem_rowsFrom {n : Nat} {bs : List Bytes} (h : ∀ b ∈ bs, b.length = 14) :
    ∀ {i r}, r ∈ rowsFrom n i bs → r.length = 15 := by
  induction bs with
  | nil => intro i r hr; simp [rowsFrom] at hr
  | cons b bs ih =>
    intro i r hr
    rcases List.mem_cons.mp hr with rfl | hr
    · exact row_length (h b (by simp))
    · exact ih (fun b hb => h b (by simp [hb])) hr

/-! ## Adding checksums -/

theorem blockSize : BLOCK_SIZE = 14 := rfl

theorem addChecksums_within {oc : Bool} {n : Nat} (a : Bytes) : ∀ (pos : Nat) (out rest : Bytes),
    pos % 14 + a.length < 14 → addChecksums oc n pos out (a ++ rest) =
      addChecksums oc n (pos + a.length) (out ++ a) rest := by
  induction a with
  | nil => intro pos out rest _; simp
  | cons b a ih =>
    intro pos out rest h
    simp only [List.length_cons] at h
    rw [List.cons_append, addChecksums]
    rw [if_neg (by rw [blockSize]; omega), ih _ _ _ (by omega)]
    simp only [List.append_assoc, List.length_cons, List.cons_append, List.nil_append]
    congr 1
    omega

theorem addChecksums_block {oc : Bool} {n i : Nat} (block out rest : Bytes) (hb : block.length = 14)
    (v : UInt8) (hv : virtualByte oc n i = .ok v) :
    addChecksums oc n (14 * i) out (block ++ rest) = addChecksums oc n (14 * (i + 1)) (out ++ row v block) rest := by
  obtain ⟨a, l, rfl⟩ : ∃ a l, block = a ++ [l] := by
    refine ⟨block.dropLast, block.getLast (by intro h; simp [h] at hb), ?_⟩
    exact (List.dropLast_append_getLast _).symm
  simp only [List.length_append, List.length_cons, List.length_nil] at hb
  rw [List.append_assoc, addChecksums_within _ _ _ _ (by omega)]
  simp only [List.cons_append, List.nil_append]
  rw [addChecksums]
  rw [if_pos (by rw [blockSize]; omega), show (14 * i + a.length) / BLOCK_SIZE = i by rw [blockSize]; omega, hv]
  simp only [Res.bind_ok]
  rw [show 14 * i + a.length + 1 = 14 * (i + 1) by omega]
  congr 1
  simp only [row, List.append_assoc]
  have : (out ++ (a ++ [l])).length - BLOCK_SIZE = out.length := by
    rw [blockSize]
    simp only [List.length_append, List.length_cons, List.length_nil]; omega
  rw [this, List.drop_left]

theorem addChecksums_block_panic {oc : Bool} {n i : Nat} (block out rest : Bytes) (hb : block.length = 14)
    (hv : virtualByte oc n i = .panic) :
    addChecksums oc n (14 * i) out (block ++ rest) = .panic := by
  obtain ⟨a, l, rfl⟩ : ∃ a l, block = a ++ [l] := by
    refine ⟨block.dropLast, block.getLast (by intro h; simp [h] at hb), ?_⟩
    exact (List.dropLast_append_getLast _).symm
  simp only [List.length_append, List.length_cons, List.length_nil] at hb
  rw [List.append_assoc, addChecksums_within _ _ _ _ (by omega)]
  simp only [List.cons_append, List.nil_append]
  rw [addChecksums]
  rw [if_pos (by rw [blockSize]; omega), show (14 * i + a.length) / BLOCK_SIZE = i by rw [blockSize]; omega, hv]
  rfl

theorem addChecksums_rows {oc : Bool} {n : Nat} (h : oc = false ∨ n ≤ 256) (bs : List Bytes) :
    ∀ (i : Nat) (out : Bytes), (∀ b ∈ bs, b.length = 14) → i + bs.length = n →
      addChecksums oc n (14 * i) out bs.flatten = .ok (out ++ (rowsFrom n i bs).flatten) := by
  induction bs with
  | nil => intro i out _ _; simp [addChecksums, rowsFrom]
  | cons b bs ih =>
    intro i out hb hn
    simp only [List.length_cons] at hn
    rw [List.flatten_cons, addChecksums_block b out _ (hb b (by simp)) _ (virtualByte_eq (by omega) h),
      ih _ _ (fun b hb' => hb b (by simp [hb'])) (by omega)]
    simp [rowsFrom]

/-- Above 256 lines, the checked subtraction in the last line underflows. -/
theorem addChecksums_panic {n : Nat} (h : 256 < n) (bs : List Bytes) :
    ∀ (i : Nat) (out : Bytes), (∀ b ∈ bs, b.length = 14) → i + bs.length = n → bs ≠ [] →
      addChecksums true n (14 * i) out bs.flatten = .panic := by
  have hn1 : usizeSub true n 1 = .ok (n - 1) := by unfold usizeSub; rw [if_pos (by omega)]
  induction bs with
  | nil => intro i out _ _ h; exact absurd rfl h
  | cons b bs ih =>
    intro i out hb hn _
    simp only [List.length_cons] at hn
    rw [List.flatten_cons]
    by_cases hl : i = n - 1
    · refine addChecksums_block_panic b out _ (hb b (by simp)) ?_
      unfold virtualByte
      rw [hn1]
      simp only [Res.bind_ok]
      rw [if_pos hl, usizeSub_255_panic (by omega)]
      rfl
    · rw [addChecksums_block b out _ (hb b (by simp)) (UInt8.ofNat i)]
      · refine ih _ _ (fun b hb' => hb b (by simp [hb'])) (by omega) ?_
        intro h0; simp [h0] at hn; omega
      · unfold virtualByte
        rw [hn1]
        simp only [Res.bind_ok]
        rw [if_neg hl]

/-! ## Validation -/

theorem row_eq_iff {block : Bytes} {v w : UInt8} : pearsonHash block v = pearsonHash block w ↔ v = w := by
  constructor
  · intro h
    rw [pearsonHash_eq, pearsonHash_eq] at h
    exact permutation_injective (pearsonFrom_injective _ h)
  · rintro rfl; rfl

/-- Every line of 15 bytes carries a line number. -/
theorem exists_lineNumber (r : Bytes) (h : r.length = 15) : ∃ v block, r = row v block ∧ block.length = 14 := by
  obtain ⟨a, l, rfl⟩ : ∃ a l, r = a ++ [l] := by
    refine ⟨r.dropLast, r.getLast (by intro h0; simp [h0] at h), ?_⟩
    exact (List.dropLast_append_getLast _).symm
  simp only [List.length_append, List.length_cons, List.length_nil] at h
  have hinj : Function.Injective fun v => pearsonHash a v := fun v w h => row_eq_iff.mp h
  obtain ⟨v, hv⟩ := u8_surjective_of_injective hinj l
  exact ⟨v, a, by simp only at hv; rw [row, hv], by omega⟩

theorem row_inj {v w : UInt8} {b c : Bytes} (h : row v b = row w c) : v = w ∧ b = c := by
  have := List.append_inj' h (by simp)
  obtain ⟨rfl, h2⟩ := this
  exact ⟨row_eq_iff.mp (by simpa using h2), rfl⟩

/-- One row of the validation loop, in terms of the row's line number. -/
theorem validateRows_cons {oc : Bool} {i : Nat} (hi : oc = false ∨ i ≤ 255) (v : UInt8) (block : Bytes)
    (hb : block.length = 14) (rest : List Bytes) :
    validateRows oc i false (row v block :: rest) =
      if v = 255 - UInt8.ofNat i then validateRows oc (i + 1) true rest
      else if v = UInt8.ofNat i then validateRows oc (i + 1) false rest
      else .err (.recoveryCodeChecksumMismatch i) := by
  rw [validateRows]
  have h1 : (row v block)[BLOCK_SIZE]? = some (pearsonHash block v) := by
    simp [row, BLOCK_SIZE, ← hb]
  have h2 : (row v block).take BLOCK_SIZE = block := by
    simp [row, BLOCK_SIZE, ← hb]
  obtain ⟨u, hu, hu'⟩ := usizeSub_255 hi
  rw [h1, h2]
  simp only [hu, Res.bind_ok, hu', row_eq_iff]
  by_cases e1 : v = 255 - UInt8.ofNat i
  · simp only [if_pos e1]
  · simp only [if_neg e1]
    by_cases e2 : v = UInt8.ofNat i
    · simp [e2]
    · simp [e2, row_eq_iff]

theorem validateRows_panic {i : Nat} (hi : 255 < i) (r : Bytes) (rest : List Bytes) :
    validateRows true i false (r :: rest) = .panic := by
  rw [validateRows]
  split
  · rfl
  · rw [usizeSub_255_panic hi]; rfl

theorem validateRows_true (oc : Bool) (i : Nat) (rest : List Bytes) :
    validateRows oc i true rest = .ok (true, if rest = [] then none else some i) := by
  cases rest with
  | nil => rfl
  | cons r rest => simp [validateRows]

/-- The ordinary lines of a code, followed by anything. -/
theorem validateRows_rows {oc : Bool} {n : Nat} (h : oc = false ∨ n ≤ 256) (rest : List Bytes) (bs : List Bytes) :
    ∀ i, (∀ b ∈ bs, b.length = 14) → i + bs.length < n →
      validateRows oc i false (rowsFrom n i bs ++ rest) = validateRows oc (i + bs.length) false rest := by
  induction bs with
  | nil => intro i _ _; rfl
  | cons b bs ih =>
    intro i hb hn
    simp only [List.length_cons] at hn
    rw [rowsFrom, List.cons_append, validateRows_cons (h.imp_right (by omega)) _ _ (hb b (by simp))]
    have : lineNumber n i = UInt8.ofNat i := by unfold lineNumber; rw [if_neg (by omega)]
    rw [this, if_neg (last_ne i).symm, if_pos rfl, ih _ (fun b hb' => hb b (by simp [hb'])) (by omega),
      List.length_cons]
    congr 1
    omega

theorem rowsFrom_append (n : Nat) (a b : List Bytes) :
    ∀ i, rowsFrom n i (a ++ b) = rowsFrom n i a ++ rowsFrom n (i + a.length) b := by
  induction a with
  | nil => intro i; rfl
  | cons x a ih =>
    intro i
    simp only [List.cons_append, rowsFrom, ih, List.length_cons]
    rw [show i + 1 + a.length = i + (a.length + 1) by omega]

/-- A complete code followed by anything. -/
theorem validateRows_complete {oc : Bool} {n : Nat} (h : oc = false ∨ n ≤ 256) (rest : List Bytes) (bs : List Bytes)
    (hb : ∀ b ∈ bs, b.length = 14) (hn : bs.length = n) (hne : bs ≠ []) :
    validateRows oc 0 false (rowsFrom n 0 bs ++ rest) = .ok (true, if rest = [] then none else some n) := by
  obtain ⟨a, l, rfl⟩ : ∃ a l, bs = a ++ [l] := ⟨_, _, (List.dropLast_append_getLast hne).symm⟩
  simp only [List.length_append, List.length_cons, List.length_nil] at hn
  rw [rowsFrom_append, List.append_assoc,
    validateRows_rows h _ _ _ (fun b hb' => hb b (by simp [hb'])) (by omega)]
  simp only [rowsFrom, List.cons_append, List.nil_append]
  rw [validateRows_cons (h.imp_right (by omega)) _ _ (hb l (by simp)), if_pos, validateRows_true]
  · rw [show 0 + a.length + 1 = n by omega]
  · unfold lineNumber; rw [if_pos (by omega)]

/-- What the loop accepts: exactly the lines numbered in order. -/
theorem validateRows_accept {oc : Bool} (rs : List Bytes) :
    ∀ i, (∀ r ∈ rs, r.length = 15) → validateRows oc i false rs = .ok (true, none) →
      ∃ bs, rs = rowsFrom (i + rs.length) i bs ∧ (∀ b ∈ bs, b.length = 14) ∧ rs ≠ [] ∧
        (oc = false ∨ i + rs.length ≤ 256) := by
  induction rs with
  | nil => intro i _ h; simp [validateRows] at h
  | cons r rs ih =>
    intro i hr h
    have hi : oc = false ∨ i ≤ 255 := by
      by_cases ho : oc = false
      · exact .inl ho
      · right
        have ho : oc = true := by simpa using ho
        subst ho
        by_cases hi : i ≤ 255
        · exact hi
        · rw [validateRows_panic (by omega) r] at h; cases h
    obtain ⟨v, b, rfl, hb⟩ := exists_lineNumber r (hr r (by simp))
    rw [validateRows_cons hi v b hb] at h
    by_cases e1 : v = 255 - UInt8.ofNat i
    · rw [if_pos e1, validateRows_true] at h
      have hrs : rs = [] := by
        by_cases e : rs = []
        · exact e
        · simp [e] at h
      subst hrs
      refine ⟨[b], ?_, by simpa using hb, by simp, ?_⟩
      · simp [rowsFrom, lineNumber, e1]
      · simp only [List.length_cons, List.length_nil]
        exact hi.imp_right (by omega)
    · rw [if_neg e1] at h
      by_cases e2 : v = UInt8.ofNat i
      · rw [if_pos e2] at h
        obtain ⟨bs, h1, h2, h3, h4⟩ := ih (i + 1) (fun r hr' => hr r (by simp [hr'])) h
        have hl : 0 < rs.length := List.length_pos_iff.mpr h3
        refine ⟨b :: bs, ?_, ?_, by simp, ?_⟩
        · rw [rowsFrom]
          simp only [List.length_cons]
          rw [show i + (rs.length + 1) = i + 1 + rs.length by omega, ← h1]
          unfold lineNumber
          rw [if_neg (by omega), e2]
        · intro x hx
          rcases List.mem_cons.mp hx with rfl | hx
          · exact hb
          · exact h2 x hx
        · simp only [List.length_cons]
          exact h4.imp_right (by omega)
      · rw [if_neg e2] at h; cases h

/-- The loop panics only in a build with overflow checks on more than 256 lines. -/
theorem validateRows_no_panic {oc : Bool} (rs : List Bytes) :
    ∀ i s, (∀ r ∈ rs, r.length = 15) → (oc = false ∨ i + rs.length ≤ 256) → validateRows oc i s rs ≠ .panic := by
  induction rs with
  | nil => intro i s _ _; cases s <;> simp [validateRows]
  | cons r rs ih =>
    intro i s hr hn
    cases s with
    | true => simp [validateRows]
    | false =>
      obtain ⟨v, b, rfl, hb⟩ := exists_lineNumber r (hr r (by simp))
      simp only [List.length_cons] at hn
      rw [validateRows_cons (hn.imp_right (by omega)) v b hb]
      have ih' := fun s => ih (i + 1) s (fun r hr' => hr r (by simp [hr'])) (hn.imp_right (by omega))
      split
      · exact ih' _
      · split
        · exact ih' _
        · simp

end RecoveryCodes
end Pfp
