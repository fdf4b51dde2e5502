import Verif.Proofs.Rows
import Verif.Proofs.Base64

/-!
# Generating, validating and decoding recovery codes
-/

namespace Pfp

theorem Crypto.splitOnce_append {sep : Char} {a b : Str} (h : sep ∉ a) :
    Crypto.splitOnce sep (a ++ sep :: b) = some (a, b) := by
  induction a with
  | nil => simp [Crypto.splitOnce]
  | cons c a ih =>
    simp only [List.mem_cons, not_or] at h
    rw [List.cons_append, Crypto.splitOnce, if_neg (Ne.symm h.1), ih h.2]
    rfl

namespace RecoveryCodes
open Spec Crypto

theorem lineSize : LINE_SIZE = 24 := rfl

/-! ## Base32 over lines -/

theorem base32Encode_length {b e : Bytes} (h : base32Encode b = .ok e) : e.length * 5 = b.length * 8 ∧
    b.length % 5 = 0 ∧ ∀ c ∈ e, c ∈ codeAlphabet := by
  by_cases hl : b.length % 5 = 0
  · obtain ⟨e', h1, h2, h3, _⟩ := encodeLoop_spec b hl
    rw [base32Encode_eq hl, h1] at h
    cases h
    exact ⟨by omega, hl, h3⟩
  · unfold base32Encode at h
    rw [if_pos hl] at h; cases h

theorem base32Encode_injective {a b e : Bytes} (ha : base32Encode a = .ok e) (hb : base32Encode b = .ok e) : a = b := by
  have h1 := base32_decode_encode ha
  have h2 := base32_decode_encode hb
  rw [h1] at h2
  cases h2; rfl

theorem encodeLoop_append : ∀ (a b : Bytes), a.length % 5 = 0 →
    base32EncodeLoop (a ++ b) = (base32EncodeLoop a).bind fun x => (base32EncodeLoop b).map (x ++ ·)
  | [], b, _ => by
    simp only [List.nil_append, base32EncodeLoop, Res.bind]
    cases base32EncodeLoop b <;> rfl
  | [_], _, h => by simp at h
  | [_, _], _, h => by simp at h
  | [_, _, _], _, h => by simp at h
  | [_, _, _, _], _, h => by simp at h
  | b0 :: b1 :: b2 :: b3 :: b4 :: rest, b, h => by
    simp only [List.cons_append]
    rw [encodeLoop_cons, encodeLoop_cons, encodeLoop_append rest b (by simp only [List.length_cons] at h; omega)]
    cases base32EncodeLoop rest with
    | ok x => cases base32EncodeLoop b <;> simp [Res.bind]
    | err e => rfl
    | panic => rfl

theorem base32Encode_append {a b x y : Bytes} (ha : base32Encode a = .ok x) (hb : base32Encode b = .ok y) :
    base32Encode (a ++ b) = .ok (x ++ y) := by
  obtain ⟨_, h1, _⟩ := base32Encode_length ha
  obtain ⟨_, h2, _⟩ := base32Encode_length hb
  rw [base32Encode_eq (by simp; omega), encodeLoop_append a b h1, ← base32Encode_eq h1, ← base32Encode_eq h2, ha, hb]
  rfl

/-- Lines of 24 alphabet characters are the encodings of rows of 15 bytes. -/
theorem rows_of_lines (ls : List Bytes) (h : ∀ l ∈ ls, l.length = 24 ∧ ∀ c ∈ l, c ∈ codeAlphabet) :
    ∃ rs : List Bytes, rs.length = ls.length ∧ (∀ r ∈ rs, r.length = 15) ∧ base32Encode rs.flatten = .ok ls.flatten ∧
      ∀ i (h1 : i < rs.length) (h2 : i < ls.length), base32Encode rs[i] = .ok ls[i] := by
  induction ls with
  | nil => exact ⟨[], rfl, by simp, rfl, by intro i h1; simp at h1⟩
  | cons l ls ih =>
    obtain ⟨rs, h1, h2, h3, h4⟩ := ih fun l hl => h l (by simp [hl])
    obtain ⟨hl, hc⟩ := h l (by simp)
    obtain ⟨d, g1, g2, g3⟩ := decodeLoop_spec l (by omega) hc
    have hd : d.length = 15 := by omega
    have ge : base32Encode d = .ok l := by rw [base32Encode_eq (by omega), g3]
    refine ⟨d :: rs, by simp [h1], ?_, ?_, ?_⟩
    · intro r hr
      rcases List.mem_cons.mp hr with rfl | hr
      · exact hd
      · exact h2 r hr
    · rw [List.flatten_cons, List.flatten_cons]
      exact base32Encode_append ge h3
    · intro i i1 i2
      cases i with
      | zero => exact ge
      | succ i => exact h4 i (by simpa using i1) (by simpa using i2)

/-! ## Validation in terms of rows -/

/-- The result of `validate` from the result of the loop over the rows. -/
def conclude (s decoded : Bytes) (r : Res (Bool × Option Nat)) : Res Bytes := do
  let (seenLast, extraRow) ← r
  if seenLast = false then .err .recoveryCodeIncomplete
  else if extraRow.isSome || decide (s.length % 24 ≠ 0) then
    .err (.recoveryCodeExtraData (match extraRow with
      | some row => row
      | none => s.length / 24))
  else .ok decoded

/-- The text's complete lines are rows, and the outcome is determined by them. -/
theorem validate_of_rows {oc : Bool} {code : Bytes} {rs : List Bytes} (hr : ∀ r ∈ rs, r.length = 15)
    {tail : Bytes} (ht : tail.length < 24) (e : Bytes) (he : base32Encode rs.flatten = .ok e)
    (hs : significant code = e ++ tail) :
    validate oc code = conclude (significant code) rs.flatten (validateRows oc 0 false rs) ∧
      (significant code).length = 24 * rs.length + tail.length := by
  obtain ⟨h1, h2, h3⟩ := base32Encode_length he
  have hl := flatten_length hr
  have hlen : (significant code).length = 24 * rs.length + tail.length := by rw [hs]; simp; omega
  refine ⟨?_, hlen⟩
  unfold validate
  simp only [formatCode_false]
  have ht : (significant code).take ((significant code).length / LINE_SIZE * LINE_SIZE) = e := by
    rw [hs]
    apply List.take_left'
    rw [lineSize, List.length_append]; omega
  rw [ht, base32_decode_encode he]
  simp only [Res.bind_ok]
  rw [show chunks (BLOCK_SIZE + 1) rs.flatten = rs from chunks_flatten 15 (by omega) rs hr]
  unfold conclude
  cases validateRows oc 0 false rs with
  | ok x => obtain ⟨sl, er⟩ := x; rfl
  | err e => rfl
  | panic => rfl

/-- Every text has rows. -/
theorem exists_rows (code : Bytes) : ∃ (rs : List Bytes) (e tail : Bytes), (∀ r ∈ rs, r.length = 15) ∧
    tail.length < 24 ∧ base32Encode rs.flatten = .ok e ∧ significant code = e ++ tail ∧
    rs.length = (significant code).length / 24 := by
  generalize hs : significant code = s
  have hm : ∀ c ∈ s, c ∈ codeAlphabet := by rw [← hs]; exact fun c => significant_mem
  obtain ⟨ls, h1, h2, h3⟩ := exists_pieces 24 (s.length / 24) (s.take (24 * (s.length / 24))) (by simp; omega)
  obtain ⟨rs, g1, g2, g3, _⟩ := rows_of_lines ls (by
    intro l hl
    refine ⟨h3 l hl, fun c hc => hm c ?_⟩
    have : c ∈ ls.flatten := List.mem_flatten.mpr ⟨l, hl, hc⟩
    rw [h1] at this
    exact List.mem_of_mem_take this)
  exact ⟨rs, ls.flatten, s.drop (24 * (s.length / 24)), g2, by simp; omega, g3, by rw [h1, List.take_append_drop],
    by omega⟩

/-- What `validate` accepts. -/
theorem validate_ok {oc : Bool} {code d : Bytes} (h : validate oc code = .ok d) :
    ∃ bs : List Bytes, (∀ b ∈ bs, b.length = 14) ∧ bs ≠ [] ∧ d = (rowsFrom bs.length 0 bs).flatten ∧
      base32Encode d = .ok (significant code) ∧ (oc = false ∨ bs.length ≤ 256) := by
  obtain ⟨rs, e, tail, hr, ht, he, hs, _⟩ := exists_rows code
  obtain ⟨hv, hlen⟩ := validate_of_rows (oc := oc) hr ht e he hs
  rw [hv] at h
  have key : validateRows oc 0 false rs = .ok (true, none) ∧ (significant code).length % 24 = 0 ∧ d = rs.flatten := by
    unfold conclude at h
    cases hval : validateRows oc 0 false rs with
    | err e => rw [hval] at h; cases h
    | panic => rw [hval] at h; cases h
    | ok x =>
      obtain ⟨sl, er⟩ := x
      rw [hval] at h
      simp only [Res.bind_ok] at h
      cases sl with
      | false => simp at h
      | true =>
        rw [if_neg (by simp)] at h
        by_cases hc : (er.isSome || decide ((significant code).length % 24 ≠ 0)) = true
        · rw [if_pos hc] at h; cases h
        · rw [if_neg hc] at h
          simp only [Bool.or_eq_true, not_or, decide_eq_true_eq, Classical.not_not] at hc
          cases er with
          | some _ => simp at hc
          | none => cases h; exact ⟨rfl, hc.2, rfl⟩
  obtain ⟨hok, hmod, rfl⟩ := key
  obtain ⟨bs, h1, h2, h3, h4⟩ := validateRows_accept rs 0 hr hok
  have hbl : bs.length = rs.length := by
    have := congrArg List.length h1
    rw [rowsFrom_length] at this
    exact this.symm
  rw [Nat.zero_add, ← hbl] at h1 h4
  refine ⟨bs, h2, ?_, by rw [← h1], ?_, h4⟩
  · intro h0; subst h0; simp [rowsFrom] at h1; exact h3 h1
  · have : tail = [] := List.length_eq_zero_iff.mp (by omega)
    rw [hs, this, List.append_nil]
    exact he

/-- Conversely, codes made of lines numbered in order are accepted. -/
theorem validate_complete {oc : Bool} {code : Bytes} {bs : List Bytes} (hb : ∀ b ∈ bs, b.length = 14) (hne : bs ≠ [])
    (ho : oc = false ∨ bs.length ≤ 256) {e tail : Bytes}
    (he : base32Encode (rowsFrom bs.length 0 bs).flatten = .ok e) (hs : significant code = e ++ tail) :
    validate oc code = if tail = [] then .ok (rowsFrom bs.length 0 bs).flatten
      else .err (.recoveryCodeExtraData bs.length) := by
  obtain ⟨rs, e', tail', hr, ht, he', hs', _⟩ := exists_rows (tail)
  have htail : significant tail = tail := by
    apply significant_of_alphabet
    intro c hc
    exact significant_mem (t := code) (by rw [hs]; simp [hc])
  have hl := rowsFrom_length bs.length bs 0
  have hr0 : ∀ r ∈ rowsFrom bs.length 0 bs, r.length = 15 := fun r hr => mem_rowsFrom hb hr
  have hall : ∀ r ∈ rowsFrom bs.length 0 bs ++ rs, r.length = 15 := by
    intro r hr'
    rcases List.mem_append.mp hr' with h | h
    · exact hr0 r h
    · exact hr r h
  have henc : base32Encode (rowsFrom bs.length 0 bs ++ rs).flatten = .ok (e ++ e') := by
    rw [List.flatten_append]
    exact base32Encode_append he he'
  obtain ⟨hv, hlen⟩ := validate_of_rows (oc := oc) hall ht _ henc (by
    rw [hs, ← htail, hs', List.append_assoc])
  rw [hv, validateRows_complete ho rs bs hb rfl hne]
  have helen : e.length = 24 * bs.length := by
    have h1 := (base32Encode_length he).1
    have h2 := flatten_length hr0
    omega
  unfold conclude
  simp only [Res.bind_ok]
  rw [if_neg (by simp)]
  rw [htail] at hs'
  rw [List.length_append, hl] at hlen
  by_cases hrs : rs = []
  · subst hrs
    have he0 : e' = [] := by simp [base32Encode, base32EncodeLoop] at he'; exact he'
    subst he0
    simp only [List.nil_append] at hs'
    subst hs'
    simp only [if_pos, Option.isSome_none, Bool.false_or, decide_eq_true_eq, List.append_nil]
    simp only [List.length_nil] at hlen
    by_cases h0 : tail = []
    · rw [if_neg (by rw [h0, List.length_nil] at hlen; omega), if_pos h0]
    · have : 0 < tail.length := List.length_pos_iff.mpr h0
      rw [if_pos (by omega), if_neg h0]
      congr 2
      omega
  · have h0 : tail ≠ [] := by
      intro h0
      rw [h0] at hs'
      have : e' = [] := (List.append_eq_nil_iff.mp hs'.symm).1
      have h1 := (base32Encode_length he').1
      have h2 := flatten_length hr
      rw [this, List.length_nil] at h1
      have : 0 < rs.length := List.length_pos_iff.mpr hrs
      omega
    simp [hrs, h0]

/-! ## Removing the checksums -/

theorem dropChecksums_within (a : Bytes) : ∀ (i : Nat) (rest : Bytes), i % 15 + a.length ≤ 14 →
    dropChecksums i (a ++ rest) = a ++ dropChecksums (i + a.length) rest := by
  induction a with
  | nil => intro i rest _; rfl
  | cons b a ih =>
    intro i rest h
    simp only [List.length_cons] at h
    rw [List.cons_append, dropChecksums, if_neg (by rw [blockSize]; omega), ih _ _ (by omega)]
    simp only [List.cons_append, List.length_cons]
    congr 3
    omega

theorem dropChecksums_row (i : Nat) (r b rest : Bytes) (v : UInt8) (hr : r = row v b) (hb : b.length = 14) :
    dropChecksums (15 * i) (r ++ rest) = b ++ dropChecksums (15 * (i + 1)) rest := by
  subst hr
  rw [row, List.append_assoc, dropChecksums_within _ _ _ (by omega)]
  simp only [List.cons_append, List.nil_append]
  rw [dropChecksums, if_pos (by rw [blockSize]; omega)]
  congr 2
  omega

theorem dropChecksums_rows {n : Nat} (bs : List Bytes) : ∀ i j, (∀ b ∈ bs, b.length = 14) →
    dropChecksums (15 * i) (rowsFrom n j bs).flatten = bs.flatten := by
  induction bs with
  | nil => intro i j _; rfl
  | cons b bs ih =>
    intro i j hb
    rw [rowsFrom, List.flatten_cons, dropChecksums_row i _ b _ _ rfl (hb b (by simp)),
      ih _ _ (fun b hb' => hb b (by simp [hb'])), List.flatten_cons]

/-! ## Generating -/

/-- The number of lines of a code for a password of the given byte length. -/
theorem fillBytes_spec (len : Nat) : 45 + len + fillBytes len = 14 * ((45 + len + 13) / 14) := by
  unfold fillBytes
  simp only [VERSION_SIZE, SALT_SIZE, NONCE_SIZE, TAG_SIZE, BLOCK_SIZE]
  generalize hm : (1 + 16 + 12 + 16 + len) % 14 = m
  cases m with
  | zero => simp only; omega
  | succ m => simp only; omega

/-- What is encoded in the lines of a code. -/
def payload (P : Prims) (nonce : Bytes) (password : Str) (salt key : Bytes) : Bytes :=
  VERSION :: (salt ++ nonce ++ P.gcmEncrypt key nonce
    (utf8 password ++ List.replicate (fillBytes (utf8 password).length) 0))

theorem payload_length {P : Prims} (hP : P.Lawful) {nonce : Bytes} {password : Str} {salt key : Bytes}
    (hn : nonce.length = 12) (hs : salt.length = 16) :
    (payload P nonce password salt key).length = 14 * ((45 + (utf8 password).length + 13) / 14) := by
  have := fillBytes_spec (utf8 password).length
  simp only [payload, List.length_cons, List.length_append, hP.gcm_length, List.length_replicate]
  omega

theorem generate_eq {P : Prims} (hP : P.Lawful) {oc : Bool} {nonce : Bytes} {password : Str} {salt key : Bytes}
    (hn : nonce.length = 12) (hs : salt.length = 16) (hk : key.length = 32) :
    generate P oc nonce password salt key = (do
      let output ← addChecksums oc ((payload P nonce password salt key).length / 14) 0 []
        (payload P nonce password salt key)
      let encoded ← base32Encode output
      .ok (formatCode encoded true)) := by
  unfold generate
  rw [if_neg (by simp [hs, SALT_SIZE])]
  simp only [encryptData]
  rw [if_neg (by omega)]
  simp only [Res.bind_ok]
  rw [splitOnce_append (Base64.underscore_not_mem _)]
  simp only [okOr_some, Res.bind_ok, Base64.decode_encode]
  rw [if_neg (by simp [hn, NONCE_SIZE])]
  rw [if_neg (by
    simp only [hP.gcm_length, List.length_append, List.length_replicate, TAG_SIZE]; simp)]
  rfl

theorem generate_ok {P : Prims} (hP : P.Lawful) {oc : Bool} {nonce : Bytes} {password : Str} {salt key : Bytes}
    (hn : nonce.length = 12) (hs : salt.length = 16) (hk : key.length = 32)
    (ho : oc = false ∨ (45 + (utf8 password).length + 13) / 14 ≤ 256) :
    ∃ (bs : List Bytes) (e : Bytes), bs.flatten = payload P nonce password salt key ∧ (∀ b ∈ bs, b.length = 14) ∧
      bs.length = (45 + (utf8 password).length + 13) / 14 ∧ base32Encode (rowsFrom bs.length 0 bs).flatten = .ok e ∧
      generate P oc nonce password salt key = .ok (layout e) ∧ significant (layout e) = e ∧
      e.length = 24 * bs.length := by
  have hpl := payload_length hP (password := password) (key := key) hn hs
  obtain ⟨bs, h1, h2, h3⟩ := exists_pieces 14 _ _ hpl
  have hr0 : ∀ r ∈ rowsFrom bs.length 0 bs, r.length = 15 := fun r hr => mem_rowsFrom h3 hr
  have hfl := flatten_length hr0
  rw [rowsFrom_length] at hfl
  obtain ⟨e, g1, g2, g3, _⟩ := encodeLoop_spec (rowsFrom bs.length 0 bs).flatten (by omega)
  have he : base32Encode (rowsFrom bs.length 0 bs).flatten = .ok e := by rw [base32Encode_eq (by omega), g1]
  refine ⟨bs, e, h1, h3, h2, he, ?_, significant_layout e g3, by omega⟩
  rw [generate_eq hP hn hs hk, hpl, ← h1]
  have := addChecksums_rows (oc := oc) (n := bs.length) (by rw [h2]; exact ho) bs 0 [] h3 (by omega)
  rw [Nat.mul_div_cancel_left _ (by omega), ← h2]
  rw [Nat.mul_zero, List.nil_append] at this
  rw [this]
  simp only [Res.bind_ok, he]
  rw [formatCode_true, significant_of_alphabet g3]

/-- When a code was generated, the preconditions held. -/
theorem of_generate {P : Prims} (hP : P.Lawful) {oc : Bool} {nonce : Bytes} {password : Str} {salt key g : Bytes}
    (h : generate P oc nonce password salt key = .ok g) :
    nonce.length = 12 ∧ salt.length = 16 ∧ key.length = 32 ∧
      (oc = false ∨ (45 + (utf8 password).length + 13) / 14 ≤ 256) := by
  by_cases hs : salt.length = 16
  · by_cases hk : key.length ≠ 32 ∨ nonce.length ≠ 12
    · unfold generate at h
      rw [if_neg (by simp [hs, SALT_SIZE])] at h
      simp only [encryptData] at h
      rw [if_pos hk] at h
      cases h
    · rw [not_or, Classical.not_not, Classical.not_not] at hk
      refine ⟨hk.2, hs, hk.1, ?_⟩
      by_cases ho : oc = false ∨ (45 + (utf8 password).length + 13) / 14 ≤ 256
      · exact ho
      · exfalso
        rw [not_or] at ho
        have hoc : oc = true := by simpa using ho.1
        have hpl := payload_length hP (password := password) (key := key) hk.2 hs
        obtain ⟨bs, h1, h2, h3⟩ := exists_pieces 14 _ _ hpl
        rw [generate_eq hP hk.2 hs hk.1, hpl, ← h1, Nat.mul_div_cancel_left _ (by omega), ← h2, hoc] at h
        have := addChecksums_panic (n := bs.length) (by omega) bs 0 [] h3 (by omega) (by
          intro h0; rw [h0, List.length_nil] at h2; omega)
        rw [Nat.mul_zero] at this
        rw [this] at h
        cases h
  · unfold generate at h
    rw [if_pos (by simpa [SALT_SIZE] using hs)] at h
    cases h

/-! ## Trailing zeros -/

theorem stripZeros_zeros {oc : Bool} {l : Bytes} (a k : Nat) (h : ∀ i, a ≤ i → i < a + k → l[i]? = some 0) :
    stripZeros oc l (a + k) = stripZeros oc l a := by
  induction k with
  | zero => rfl
  | succ k ih =>
    rw [← Nat.add_assoc, stripZeros, h (a + k) (by omega) (by omega)]
    simp only [ne_eq, not_true_eq_false, if_false]
    exact ih fun i h1 h2 => h i h1 (by omega)

theorem stripZeros_append {oc : Bool} (a : Bytes) (x : UInt8) (hx : x ≠ 0) (k : Nat) :
    stripZeros oc (a ++ [x] ++ List.replicate k 0) (a ++ [x] ++ List.replicate k 0).length = .ok (a.length + 1) := by
  have : (a ++ [x] ++ List.replicate k 0).length = a.length + 1 + k := by simp; omega
  rw [this, stripZeros_zeros]
  · rw [stripZeros]
    have : (a ++ [x] ++ List.replicate k 0)[a.length]? = some x := by simp
    rw [this]
    simp [hx]
  · intro i h1 h2
    rw [List.getElem?_append_right (by simp; omega), List.getElem?_replicate, if_pos]
    simp only [List.length_append, List.length_cons, List.length_nil]
    omega

theorem stripZeros_replicate {oc : Bool} (k : Nat) :
    stripZeros oc (List.replicate k 0) k = if oc then .panic else .ok 0 := by
  have := stripZeros_zeros (oc := oc) (l := List.replicate k 0) 0 k (by
    intro i _ h2
    rw [List.getElem?_replicate, if_pos (by omega)])
  rw [Nat.zero_add] at this
  rw [this]
  rfl

/-- Only a NUL character ends in a zero byte. -/
theorem utf8Char_last {c : Char} (h : c ≠ Char.ofNat 0) : ∃ a x, utf8Char c = a ++ [x] ∧ x ≠ (0 : UInt8) := by
  have hc := char_lt c
  have h0 : c.toNat ≠ 0 := fun h0 => h (char_eq_of_toNat (by rw [h0]; rfl))
  have key : ∀ n, n < 256 → n ≠ 0 → UInt8.ofNat n ≠ (0 : UInt8) := by
    intro n hn hn0 he
    have := congrArg UInt8.toNat he
    rw [UInt8.toNat_ofNat'] at this
    have h0 : (0 : UInt8).toNat = 0 := rfl
    rw [h0] at this
    omega
  unfold utf8Char
  simp only
  split
  · exact ⟨[], _, rfl, key _ (by omega) h0⟩
  · split
    · exact ⟨[_], _, rfl, key _ (by omega) (by omega)⟩
    · split
      · exact ⟨[_, _], _, rfl, key _ (by omega) (by omega)⟩
      · exact ⟨[_, _, _], _, rfl, key _ (by omega) (by omega)⟩

theorem utf8_nuls (k : Nat) : utf8 (List.replicate k (Char.ofNat 0)) = List.replicate k 0 := by
  induction k with
  | zero => rfl
  | succ k ih =>
    rw [List.replicate_succ, utf8_cons, ih, List.replicate_succ]
    rfl

/-! ## Decoding -/

/-- Decoding an accepted code, in terms of its payload. -/
theorem decode_eq {P : Prims} (hP : P.Lawful) {oc : Bool} {code d : Bytes} {primary : Str} {salt nonce ct : Bytes}
    (h : validate oc code = .ok d) (hd : dropChecksums 0 d = VERSION :: (salt ++ nonce ++ ct))
    (hs : salt.length = 16) (hn : nonce.length = 12) (hc : 16 ≤ ct.length) :
    decode P oc code primary = (do
      let decrypted ← okOr (P.gcmDecrypt (P.scrypt (utf8 primary) (utf8 (salt.map byteChar)) 32) nonce ct)
        .decryptionFailure
      let endPos ← stripZeros oc decrypted decrypted.length
      okOr (fromUtf8 (decrypted.take endPos)) .invalidUtf8) := by
  unfold decode
  rw [h]
  simp only [Res.bind_ok, hd]
  rw [if_neg (by simp), if_neg (by
    simp only [List.length_cons, List.length_append, VERSION_SIZE, SALT_SIZE, NONCE_SIZE, TAG_SIZE]; omega)]
  have e1 : ((VERSION :: (salt ++ nonce ++ ct)).drop VERSION_SIZE).take SALT_SIZE = salt := by
    simp only [VERSION_SIZE, SALT_SIZE, List.drop_succ_cons, List.drop_zero, List.append_assoc]
    exact List.take_left' hs
  have e2 : ((VERSION :: (salt ++ nonce ++ ct)).drop (VERSION_SIZE + SALT_SIZE)).take NONCE_SIZE = nonce := by
    have : VERSION_SIZE + SALT_SIZE = salt.length + 1 := by simp [VERSION_SIZE, SALT_SIZE, hs]
    rw [this, List.drop_succ_cons, List.append_assoc, List.drop_left]
    exact List.take_left' hn
  have e3 : (VERSION :: (salt ++ nonce ++ ct)).drop (VERSION_SIZE + SALT_SIZE + NONCE_SIZE) = ct := by
    have : VERSION_SIZE + SALT_SIZE + NONCE_SIZE = (salt ++ nonce).length + 1 := by
      simp [VERSION_SIZE, SALT_SIZE, NONCE_SIZE, hs, hn]
    rw [this, List.drop_succ_cons, List.drop_left]
  rw [e1, e2, e3]
  unfold getEncryptionKey deriveKey deriveBits
  rw [if_neg (by omega)]
  simp only [Res.bind_ok]
  unfold decryptData
  rw [if_neg (by simp [hP.scrypt_length]), splitOnce_append (Base64.underscore_not_mem _)]
  simp only [okOr_some, Res.bind_ok, Base64.decode_encode]
  rw [if_neg (by simp [hn])]

/-- A successful `getEncryptionKey` is the derived key. -/
theorem getEncryptionKey_eq (P : Prims) (primary : Str) (salt : Bytes) :
    getEncryptionKey P primary salt = .ok (P.scrypt (utf8 primary) (utf8 (salt.map byteChar)) 32) := by
  unfold getEncryptionKey deriveKey deriveBits
  rw [if_neg (by omega)]

/-- Decoding a generated code yields the padded password without trailing zeros. -/
theorem decode_generate {P : Prims} (hP : P.Lawful) {oc : Bool} {nonce : Bytes} {password : Str} {salt key g : Bytes}
    {primary : Str} (hkey : getEncryptionKey P primary salt = .ok key)
    (h : generate P oc nonce password salt key = .ok g) :
    ∃ k, decode P oc g primary = (do
      let l := utf8 password ++ List.replicate k 0
      let endPos ← stripZeros oc l l.length
      okOr (fromUtf8 (l.take endPos)) .invalidUtf8) := by
  obtain ⟨hn, hs, hk, ho⟩ := of_generate hP h
  obtain ⟨bs, e, h1, h2, h3, h4, h5, h6, _⟩ := generate_ok hP (password := password) hn hs hk ho
  rw [h5] at h
  cases h
  have hne : bs ≠ [] := by intro h0; rw [h0, List.length_nil] at h3; omega
  have hv := validate_complete (oc := oc) (tail := []) (code := layout e) h2 hne (by rw [h3]; exact ho) h4
    (by rw [h6, List.append_nil])
  rw [if_pos rfl] at hv
  have hd := dropChecksums_rows (n := bs.length) bs 0 0 h2
  rw [Nat.mul_zero, h1] at hd
  refine ⟨fillBytes (utf8 password).length, ?_⟩
  rw [decode_eq hP hv hd hs hn (by rw [hP.gcm_length]; omega)]
  rw [getEncryptionKey_eq] at hkey
  cases hkey
  rw [hP.gcm_roundtrip _ _ _ hk hn]
  rfl

end RecoveryCodes
end Pfp
