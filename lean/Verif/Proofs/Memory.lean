import Verif.Model.Memory
import Verif.Proofs.Base32
import Verif.Proofs.ToPassword
import Verif.Proofs.Recovery
import Verif.Proofs.Json

/-! # Buffers that do not grow -/

namespace Pfp.Memory

/-! ## Sequencing -/

theorem bind_ok {α β : Type} {m : Mem α} {f : α → Mem β} {left left' : List Bytes} {a : α} (h : m left = (.ok a, left')) :
    (m >>= f) left = f a left' := by rw [M.bind_apply, h]

theorem lift_bind {α β : Type} (r : Res α) (f : α → Mem β) (left : List Bytes) :
    (M.lift r >>= f) left = match r with
      | .ok a => f a left
      | .err e => (.err e, left)
      | .panic => (.panic, left) := by
  rw [M.bind_apply, M.lift_apply]
  cases r <;> rfl

theorem lift_ok {α β : Type} (a : α) (f : α → Mem β) (left : List Bytes) :
    (M.lift (.ok a) >>= f) left = f a left := rfl

theorem extend_room {A : Allocator} {v : Buf} {bytes : Bytes} (h : v.data.length + bytes.length ≤ v.cap)
    (left : List Bytes) : extend A v bytes left = (.ok ⟨v.cap, v.data ++ bytes⟩, left) := by
  unfold extend
  rw [if_pos h]

theorem push_room {A : Allocator} {v : Buf} {byte : UInt8} (h : v.data.length + 1 ≤ v.cap) (left : List Bytes) :
    push A v byte left = (.ok ⟨v.cap, v.data ++ [byte]⟩, left) := extend_room (by simpa using h) left

theorem push_bind {A : Allocator} {β : Type} {v : Buf} {byte : UInt8} (h : v.data.length + 1 ≤ v.cap) (f : Buf → Mem β)
    (left : List Bytes) : (push A v byte >>= f) left = f ⟨v.cap, v.data ++ [byte]⟩ left :=
  bind_ok (push_room h left)

/-! ## Deriving bits -/

theorem deriveBits_eq (A : Allocator) (P : Prims) (password : Str) (salt : Bytes) (size : Nat) (left : List Bytes) :
    ∃ cap, Memory.deriveBits A P password salt size left =
      ((Crypto.deriveBits P password salt size).map (Buf.mk cap), left) := by
  have hr : ∃ cap b, resize A new size left = (.ok ⟨cap, b⟩, left) := by
    unfold resize
    split
    · exact ⟨_, _, rfl⟩
    · unfold extend
      split
      · exact ⟨_, _, rfl⟩
      · exact ⟨_, _, rfl⟩
  obtain ⟨cap, b, hr⟩ := hr
  refine ⟨cap, ?_⟩
  unfold Memory.deriveBits
  rw [bind_ok hr, lift_bind]
  cases Crypto.deriveBits P password salt size <;> rfl

/-! ## Passwords -/

theorem pick_ascii {allowed : CharacterSet} {index : Nat} {L : List (CharacterType × Bytes)} {t : CharacterType}
    {c : UInt8} (hL : ∀ e ∈ L, ∀ b ∈ e.2, b.toNat < 128) (h : Crypto.pick allowed index L = some (t, c)) :
    c.toNat < 128 := by
  induction L generalizing index with
  | nil => simp [Crypto.pick] at h
  | cons e L ih =>
    obtain ⟨t', l⟩ := e
    rw [Crypto.pick] at h
    have hL' : ∀ e ∈ L, ∀ b ∈ e.2, b.toNat < 128 := fun e he => hL e (by simp [he])
    split at h
    · split at h
      · rename_i c' hc
        simp only [Option.some.injEq, Prod.mk.injEq] at h
        exact hL (t', l) (by simp) c (h.2 ▸ List.mem_of_getElem? hc)
      · exact ih hL' h
    · exact ih hL' h

theorem mapping_ascii : ∀ e ∈ Crypto.CHARS_MAPPING, ∀ b ∈ e.2, b.toNat < 128 := by decide

theorem utf8_byteChar {c : UInt8} (h : c.toNat < 128) (s : Str) : utf8 (byteChar c :: s) = c :: utf8 s := by
  have : (byteChar c).toNat = c.toNat := by
    revert h; revert c; apply Crypto.forall_u8; decide +kernel
  rw [utf8_cons, utf8Char_ascii (by omega), this]
  simp

theorem toPasswordLoop_eq {A : Allocator} {charset : CharacterSet} {len : Nat} (left : List Bytes) :
    ∀ (bytes : Bytes) (i : Nat) (seen : CharacterSet) (v : Buf), v.data.length + bytes.length ≤ v.cap →
      Memory.toPasswordLoop A charset len i seen v bytes left =
        ((Crypto.toPasswordLoop charset len i seen bytes).map fun s => ⟨v.cap, v.data ++ utf8 s⟩, left)
  | [], i, seen, v, h => by
    simp [Memory.toPasswordLoop, Crypto.toPasswordLoop, utf8_nil]
  | byte :: bytes, i, seen, v, h => by
    rw [Memory.toPasswordLoop, Crypto.toPasswordLoop]
    split
    · rfl
    · dsimp only
      generalize (if charset.len - seen.len ≥ len - i then charset.diff seen else charset) = allowed
      split
      · rfl
      · cases hp : Crypto.pick allowed (byte.toNat % Crypto.numChars allowed Crypto.CHARS_MAPPING) Crypto.CHARS_MAPPING with
        | some e =>
          obtain ⟨t, c⟩ := e
          dsimp only
          rw [push_bind (by simp at h; omega),
            toPasswordLoop_eq left bytes _ _ ⟨v.cap, v.data ++ [c]⟩ (by simp at h ⊢; omega)]
          cases Crypto.toPasswordLoop charset len (i + 1) (seen.insert t) bytes with
          | ok s => simp [Res.map, utf8_byteChar (pick_ascii mapping_ascii hp)]
          | err e => rfl
          | panic => rfl
        | none => exact toPasswordLoop_eq left bytes _ _ v (by simp at h; omega)

theorem toPassword_eq {A : Allocator} (hA : A.Fits) (bytes : Bytes) (charset : CharacterSet) (left : List Bytes) :
    Memory.toPassword A bytes charset left =
      ((Crypto.toPassword bytes charset).map fun s => ⟨A.fresh bytes.length, utf8 s⟩, left) := by
  unfold Memory.toPassword Crypto.toPassword
  rw [toPasswordLoop_eq left bytes 0 .empty _ (by simpa [withCapacity] using hA.fresh _)]
  simp [withCapacity]

/-! ## Base32 -/

theorem base32EncodeLoop_eq {A : Allocator} (left : List Bytes) : ∀ (input : Bytes) (v : Buf),
    v.data.length + input.length / 5 * 8 ≤ v.cap →
      Memory.base32EncodeLoop A v input left =
        ((Crypto.base32EncodeLoop input).map fun e => ⟨v.cap, v.data ++ e⟩, left)
  | [], v, h => by simp [Memory.base32EncodeLoop, Crypto.base32EncodeLoop]
  | b0 :: b1 :: b2 :: b3 :: b4 :: rest, v, h => by
    have h0 := b0.toNat_lt; have h1 := b1.toNat_lt; have h2 := b2.toNat_lt
    have h3 := b3.toNat_lt; have h4 := b4.toNat_lt
    simp only [List.length_cons] at h
    have hl : (rest.length + 1 + 1 + 1 + 1 + 1) / 5 = rest.length / 5 + 1 := by omega
    rw [hl] at h
    rw [Memory.base32EncodeLoop, Crypto.alphabetAt_eq (Crypto.enc0 b0) (by omega),
      Crypto.alphabetAt_eq (Crypto.enc1 b0 b1) (by omega), Crypto.alphabetAt_eq (Crypto.enc2 b1) (by omega),
      Crypto.alphabetAt_eq (Crypto.enc3 b1 b2) (by omega), Crypto.alphabetAt_eq (Crypto.enc4 b2 b3) (by omega),
      Crypto.alphabetAt_eq (Crypto.enc5 b3) (by omega), Crypto.alphabetAt_eq (Crypto.enc6 b3 b4) (by omega),
      Crypto.alphabetAt_eq (Crypto.enc7 b4) (by omega)]
    rw [lift_ok, push_bind (by omega), lift_ok, push_bind (by simp; omega), lift_ok, push_bind (by simp; omega),
      lift_ok, push_bind (by simp; omega), lift_ok, push_bind (by simp; omega), lift_ok,
      push_bind (by simp; omega), lift_ok, push_bind (by simp; omega), lift_ok, push_bind (by simp; omega)]
    rw [base32EncodeLoop_eq left rest _ (by simp; omega), Crypto.encodeLoop_cons]
    cases Crypto.base32EncodeLoop rest <;> simp [Crypto.encChunk, Res.map]
  | [_], v, h => rfl
  | [_, _], v, h => rfl
  | [_, _, _], v, h => rfl
  | [_, _, _, _], v, h => rfl

theorem base32Encode_eq {A : Allocator} (hA : A.Fits) (input : Bytes) (left : List Bytes) :
    Memory.base32Encode A input left =
      ((Crypto.base32Encode input).map fun e => ⟨A.fresh (input.length / 5 * 8), e⟩, left) := by
  unfold Memory.base32Encode Crypto.base32Encode
  split
  · rfl
  · rw [base32EncodeLoop_eq left input _ (by simpa [withCapacity] using hA.fresh _)]
    simp [withCapacity]

theorem base32DecodeLoop_eq {A : Allocator} (left : List Bytes) : ∀ (input : Bytes) (v : Buf),
    v.data.length + input.length / 8 * 5 ≤ v.cap →
      Memory.base32DecodeLoop A v input left =
        ((Crypto.base32DecodeLoop input).map fun e => ⟨v.cap, v.data ++ e⟩, left)
  | [], v, h => by simp [Memory.base32DecodeLoop, Crypto.base32DecodeLoop]
  | c0 :: c1 :: c2 :: c3 :: c4 :: c5 :: c6 :: c7 :: rest, v, h => by
    simp only [List.length_cons] at h
    have hl : (rest.length + 1 + 1 + 1 + 1 + 1 + 1 + 1 + 1) / 8 = rest.length / 8 + 1 := by omega
    rw [hl] at h
    rw [Memory.base32DecodeLoop, push_bind (by omega), push_bind (by simp; omega), push_bind (by simp; omega),
      push_bind (by simp; omega), push_bind (by simp; omega), base32DecodeLoop_eq left rest _ (by simp; omega),
      Crypto.base32DecodeLoop]
    cases Crypto.base32DecodeLoop rest <;> simp [Res.map]
  | [_], v, h => rfl
  | [_, _], v, h => rfl
  | [_, _, _], v, h => rfl
  | [_, _, _, _], v, h => rfl
  | [_, _, _, _, _], v, h => rfl
  | [_, _, _, _, _, _], v, h => rfl
  | [_, _, _, _, _, _, _], v, h => rfl

theorem base32Decode_eq {A : Allocator} (hA : A.Fits) (input : Bytes) (left : List Bytes) :
    Memory.base32Decode A input left =
      ((Crypto.base32Decode input).map fun e => ⟨A.fresh (input.length / 8 * 5), e⟩, left) := by
  unfold Memory.base32Decode Crypto.base32Decode
  split
  · rfl
  · split
    · rfl
    · rw [base32DecodeLoop_eq left _ _ (by simpa [withCapacity] using hA.fresh _)]
      simp [withCapacity]

/-! ## Recovery codes -/

theorem addChecksums_eq {A : Allocator} {oc : Bool} {blocks : Nat} (left : List Bytes) :
    ∀ (input : Bytes) (pos : Nat) (v : Buf),
      v.data.length + input.length + ((pos + input.length) / 14 - pos / 14) ≤ v.cap →
      Memory.addChecksums A oc blocks pos v input left =
        ((RecoveryCodes.addChecksums oc blocks pos v.data input).map fun o => ⟨v.cap, o⟩, left)
  | [], pos, v, h => by simp [Memory.addChecksums, RecoveryCodes.addChecksums]
  | byte :: input, pos, v, h => by
    simp only [List.length_cons] at h
    have hpos : pos + 1 + input.length = pos + (input.length + 1) := by omega
    rw [Memory.addChecksums, RecoveryCodes.addChecksums, push_bind (by omega)]
    dsimp only
    split
    · rename_i hb
      simp only [RecoveryCodes.BLOCK_SIZE] at hb
      have hd : (pos + 1) / 14 = pos / 14 + 1 := by omega
      have hm : (pos + 1) / 14 ≤ (pos + (input.length + 1)) / 14 := Nat.div_le_div_right (by omega)
      rw [lift_bind]
      cases RecoveryCodes.virtualByte oc blocks (pos / RecoveryCodes.BLOCK_SIZE) with
      | ok b =>
        dsimp only
        rw [push_bind (by simp; omega), addChecksums_eq left input _ _ (by simp; rw [hpos]; omega)]
        simp
      | err e => rfl
      | panic => rfl
    · have hd : pos / 14 ≤ (pos + 1) / 14 := Nat.div_le_div_right (by omega)
      exact addChecksums_eq left input _ ⟨v.cap, v.data ++ [byte]⟩ (by simp; rw [hpos]; omega)

theorem assemble_eq {A : Allocator} (hA : A.Fits) (oc : Bool) (salt nonce ciphertext : Bytes) (left : List Bytes) :
    assemble A oc salt nonce ciphertext left =
      ((do
        let input := RecoveryCodes.VERSION :: (salt ++ nonce ++ ciphertext)
        let blocks := input.length / RecoveryCodes.BLOCK_SIZE
        let output ← RecoveryCodes.addChecksums oc blocks 0 [] input
        let encoded ← Crypto.base32Encode output
        .ok (RecoveryCodes.formatCode encoded true) : Res Bytes), left) := by
  unfold assemble
  have hf := hA.fresh (RecoveryCodes.VERSION_SIZE + salt.length + nonce.length + ciphertext.length)
  simp only [RecoveryCodes.VERSION_SIZE] at hf
  dsimp only
  rw [push_bind (by simp [withCapacity, RecoveryCodes.VERSION_SIZE]; omega),
    bind_ok (extend_room (by simp [withCapacity, RecoveryCodes.VERSION_SIZE]; omega) left),
    bind_ok (extend_room (by simp [withCapacity, RecoveryCodes.VERSION_SIZE]; omega) left),
    bind_ok (extend_room (by simp [withCapacity, RecoveryCodes.VERSION_SIZE]; omega) left)]
  have hdata : (((withCapacity A (RecoveryCodes.VERSION_SIZE + salt.length + nonce.length + ciphertext.length)).data ++
      [RecoveryCodes.VERSION] ++ salt) ++ nonce) ++ ciphertext = RecoveryCodes.VERSION :: (salt ++ nonce ++ ciphertext) := by
    simp [withCapacity]
  dsimp only
  rw [hdata]
  generalize RecoveryCodes.VERSION :: (salt ++ nonce ++ ciphertext) = input
  have hg := hA.fresh (input.length + input.length / RecoveryCodes.BLOCK_SIZE)
  simp only [RecoveryCodes.BLOCK_SIZE] at hg
  rw [M.bind_apply, addChecksums_eq left input 0 _ (by simp [withCapacity, RecoveryCodes.BLOCK_SIZE]; omega)]
  simp only [withCapacity]
  cases RecoveryCodes.addChecksums oc (input.length / RecoveryCodes.BLOCK_SIZE) 0 [] input with
  | ok o =>
    simp only [Res.map_ok, Res.bind_ok]
    rw [M.bind_apply, base32Encode_eq hA]
    cases Crypto.base32Encode o <;> rfl
  | err e => rfl
  | panic => rfl

theorem paddedPassword_eq {A : Allocator} (hA : A.Fits) (password : Str) (left : List Bytes) :
    paddedPassword A password left =
      (.ok ⟨A.fresh ((utf8 password).length + RecoveryCodes.fillBytes (utf8 password).length),
        utf8 password ++ List.replicate
          (A.fresh ((utf8 password).length + RecoveryCodes.fillBytes (utf8 password).length) - (utf8 password).length) 0⟩,
        left) := by
  unfold paddedPassword
  have hf := hA.fresh ((utf8 password).length + RecoveryCodes.fillBytes (utf8 password).length)
  rw [bind_ok (extend_room (by simp only [withCapacity, List.length_nil]; omega) left)]
  simp only [withCapacity, List.nil_append]
  generalize A.fresh ((utf8 password).length + RecoveryCodes.fillBytes (utf8 password).length) = n at hf
  unfold resize
  dsimp only
  split
  · have : n = (utf8 password).length := by omega
    subst this
    simp
  · rw [extend_room (by simp; omega)]

theorem generate_left {A : Allocator} (hA : A.Fits) (P : Prims) (oc : Bool) (nonceBytes : Bytes) (password : Str)
    (salt key : Bytes) (left : List Bytes) : (Memory.generate A P oc nonceBytes password salt key left).2 = left := by
  unfold Memory.generate
  split
  · rfl
  · dsimp only
    rw [bind_ok (paddedPassword_eq hA password left), lift_bind]
    split
    · rw [lift_bind]
      split
      · rw [lift_bind]
        split
        · split
          · rfl
          · rw [lift_bind]
            split
            · split
              · rfl
              · rw [assemble_eq hA]
            · rfl
            · rfl
        · rfl
        · rfl
      · rfl
      · rfl
    · rfl
    · rfl

theorem generate_exact {A : Allocator} (hA : A.Fits) (P : Prims) (oc : Bool) (nonceBytes : Bytes) (password : Str)
    (salt key : Bytes) (left : List Bytes)
    (hx : A.fresh ((utf8 password).length + RecoveryCodes.fillBytes (utf8 password).length) =
      (utf8 password).length + RecoveryCodes.fillBytes (utf8 password).length) :
    (Memory.generate A P oc nonceBytes password salt key left).1 =
      RecoveryCodes.generate P oc nonceBytes password salt key := by
  unfold Memory.generate RecoveryCodes.generate
  split
  · rfl
  · dsimp only
    rw [bind_ok (paddedPassword_eq hA password left), lift_bind, hx, Nat.add_sub_cancel_left]
    dsimp only
    cases Crypto.encryptData P nonceBytes
        (utf8 password ++ List.replicate (RecoveryCodes.fillBytes (utf8 password).length) 0) key with
    | err e => rfl
    | panic => rfl
    | ok encrypted =>
      simp only [Res.bind_ok]
      rw [lift_bind]
      cases okOr (Crypto.splitOnce '_' encrypted) .invalidCiphertext with
      | err e => rfl
      | panic => rfl
      | ok parts =>
        simp only [Res.bind_ok]
        rw [lift_bind]
        cases okOr (Base64.decode parts.1) .invalidBase64 with
        | err e => rfl
        | panic => rfl
        | ok nonce =>
          simp only [Res.bind_ok]
          split
          · rfl
          · rw [lift_bind]
            cases okOr (Base64.decode parts.2) .invalidBase64 with
            | err e => rfl
            | panic => rfl
            | ok ciphertext =>
              simp only [Res.bind_ok]
              split
              · rfl
              · rw [assemble_eq hA]

theorem generate_roomy {A : Allocator} (hA : A.Fits) {P : Prims} (hP : P.Lawful) (oc : Bool) {nonceBytes : Bytes}
    (password : Str) {salt key : Bytes} (left : List Bytes) (hs : salt.length = 16) (hn : nonceBytes.length = 12)
    (hk : key.length = 32)
    (hx : A.fresh ((utf8 password).length + RecoveryCodes.fillBytes (utf8 password).length) ≠
      (utf8 password).length + RecoveryCodes.fillBytes (utf8 password).length) :
    (Memory.generate A P oc nonceBytes password salt key left).1 = .err .unexpectedData := by
  have hf := hA.fresh ((utf8 password).length + RecoveryCodes.fillBytes (utf8 password).length)
  unfold Memory.generate
  rw [if_neg (by simp [hs, RecoveryCodes.SALT_SIZE])]
  dsimp only
  rw [bind_ok (paddedPassword_eq hA password left), lift_bind]
  simp only [Crypto.encryptData]
  rw [if_neg (by omega)]
  dsimp only
  rw [lift_bind, Crypto.splitOnce_append (Base64.underscore_not_mem _)]
  simp only [okOr_some]
  rw [lift_bind]
  simp only [Base64.decode_encode, okOr_some]
  rw [if_neg (by simp [hn, RecoveryCodes.NONCE_SIZE]), lift_bind]
  dsimp only
  rw [if_pos (by
    simp only [hP.gcm_length, List.length_append, List.length_replicate, RecoveryCodes.TAG_SIZE]; omega)]
  rfl

/-! ## Buffers written piece by piece -/

/-- What is left behind when pieces are written. -/
theorem writeAll_spec {A : Allocator} (hA : A.Fits) (left : List Bytes) : ∀ (ps : List Bytes) (v : Buf),
    v.data.length ≤ v.cap → ∃ v' blocks, writeAll A v ps left = (.ok v', left ++ blocks) ∧
      v'.data = v.data ++ ps.flatten ∧ v'.data.length ≤ v'.cap ∧
      (v.data.length + ps.flatten.length ≤ v.cap → blocks = [] ∧ v'.cap = v.cap) ∧
      (∀ b ∈ blocks, v.data <+: b ∧ b <+: v'.data ∧ b.length < v'.data.length) ∧
      (v.cap ≠ 0 → v.cap < v.data.length + ps.flatten.length → blocks ≠ []) := by
  intro ps
  induction ps generalizing left with
  | nil =>
    intro v hv
    exact ⟨v, [], by simp [writeAll], by simp, hv, fun _ => ⟨rfl, rfl⟩, by simp, fun _ h => by simp at h; omega⟩
  | cons p ps ih =>
    intro v hv
    by_cases hr : v.data.length + p.length ≤ v.cap
    · obtain ⟨v', bs, h1, h2, h3, h4, h5, h6⟩ := ih left ⟨v.cap, v.data ++ p⟩ (by simpa using hr)
      refine ⟨v', bs, ?_, by simp [h2], h3, fun h => ?_, fun b hb => ?_, fun h h' => ?_⟩
      · rw [writeAll, bind_ok (extend_room hr left), h1]
      · exact h4 (by simp at h ⊢; omega)
      · obtain ⟨g1, g2⟩ := h5 b hb
        exact ⟨(List.prefix_append _ _).trans g1, g2⟩
      · exact h6 h (by simp at h' ⊢; omega)
    · have hg := hA.grown v.cap (v.data.length + p.length)
      obtain ⟨v', bs, h1, h2, h3, h4, h5, h6⟩ :=
        ih (if v.cap = 0 then left else left ++ [v.data]) ⟨A.grown v.cap (v.data.length + p.length), v.data ++ p⟩
          (by simpa using hg)
      have he : extend A v p left = (.ok ⟨A.grown v.cap (v.data.length + p.length), v.data ++ p⟩,
          if v.cap = 0 then left else left ++ [v.data]) := by
        unfold extend
        rw [if_neg hr]
      have hd : v'.data = v.data ++ (p :: ps).flatten := by simp [h2]
      have hl : v.data.length < v'.data.length := by rw [hd]; simp; omega
      refine ⟨v', if v.cap = 0 then bs else v.data :: bs, ?_, hd, h3, fun h => ?_, fun b hb => ?_, fun h h' => ?_⟩
      · rw [writeAll, bind_ok he, h1]
        split <;> simp
      · simp at h; omega
      · have key : ∀ b ∈ bs, v.data <+: b ∧ b <+: v'.data ∧ b.length < v'.data.length := fun b hb => by
          obtain ⟨g1, g2⟩ := h5 b hb
          exact ⟨(List.prefix_append _ _).trans g1, g2⟩
        split at hb
        · exact key b hb
        · rcases List.mem_cons.mp hb with rfl | hb
          · exact ⟨List.prefix_rfl, by rw [hd]; exact List.prefix_append _ _, hl⟩
          · exact key b hb
      · rw [if_neg h]; simp

theorem writeAll_append {A : Allocator} (a b : List Bytes) (v : Buf) (left : List Bytes) :
    writeAll A v (a ++ b) left = (writeAll A v a >>= fun v => writeAll A v b) left := by
  induction a generalizing v left with
  | nil => rfl
  | cons p a ih =>
    simp only [List.cons_append, writeAll]
    rw [M.bind_apply, M.bind_apply, M.bind_apply]
    cases extend A v p left with
    | mk r l =>
      cases r with
      | ok v' => exact ih v' l
      | err e => rfl
      | panic => rfl

theorem writeAll_room {A : Allocator} (left : List Bytes) : ∀ (ps : List Bytes) (v : Buf),
    v.data.length + ps.flatten.length ≤ v.cap → writeAll A v ps left = (.ok ⟨v.cap, v.data ++ ps.flatten⟩, left)
  | [], v, _ => by simp [writeAll]
  | p :: ps, v, h => by
    simp only [List.flatten_cons, List.length_append] at h
    rw [writeAll, bind_ok (extend_room (by omega) left), writeAll_room left ps _ (by simp only [List.length_append]; omega)]
    simp

/-! ## Reading a line -/

theorem readLineLoop_eq (A : Allocator) (left : List Bytes) : ∀ (input : Bytes) (v : Buf),
    readLineLoop A v input left =
      (writeAll A v ((Stdin.readLine input).1.map ([·])) >>= fun v => pure (v, (Stdin.readLine input).2)) left := by
  intro input
  induction input generalizing left with
  | nil => intro v; rfl
  | cons byte rest ih =>
    intro v
    rw [readLineLoop, Stdin.readLine]
    split
    · rfl
    · simp only [List.map_cons, writeAll]
      rw [M.bind_apply, M.bind_apply, M.bind_apply]
      unfold push
      cases extend A v [byte] left with
      | mk r l =>
        cases r with
        | ok v' => exact ih l v'
        | err e => rfl
        | panic => rfl

theorem flatten_map_singleton (l : Bytes) : (l.map ([·])).flatten = l := by
  induction l with
  | nil => rfl
  | cons a l ih => simp [ih]

/-- The first block left behind when a line outgrows the buffer. -/
theorem readLine_first {A : Allocator} (hA : A.Fits) (left : List Bytes) (line : Bytes) (n : Nat)
    (h0 : A.fresh n ≠ 0) (h : A.fresh n < line.length) : ∃ v blocks,
      writeAll A (withCapacity A n) (line.map ([·])) left = (.ok v, left ++ line.take (A.fresh n) :: blocks) ∧
      v.data = line ∧ ∀ b ∈ line.take (A.fresh n) :: blocks, b <+: line ∧ b.length < line.length ∧ A.fresh n ≤ b.length := by
  have hsplit : line.map ([·]) = (line.take (A.fresh n)).map ([·]) ++ (line.drop (A.fresh n)).map ([·]) := by
    rw [← List.map_append, List.take_append_drop]
  have hlen : (line.take (A.fresh n)).length = A.fresh n := by simp; omega
  obtain ⟨c, d, hcd⟩ : ∃ c d, line.drop (A.fresh n) = c :: d := by
    cases hd : line.drop (A.fresh n) with
    | nil => have := congrArg List.length hd; simp at this; omega
    | cons c d => exact ⟨c, d, rfl⟩
  have hg := hA.grown (A.fresh n) (A.fresh n + 1)
  obtain ⟨v, bs, h1, h2, h3, h4, h5, h6⟩ := writeAll_spec hA (left ++ [line.take (A.fresh n)]) (d.map ([·]))
    ⟨A.grown (A.fresh n) (A.fresh n + 1), line.take (A.fresh n) ++ [c]⟩ (by
      simp only [List.length_append, List.length_cons, List.length_nil, hlen]; omega)
  have hline : line = line.take (A.fresh n) ++ c :: d := by rw [← hcd, List.take_append_drop]
  have hv : v.data = line := by
    rw [h2, flatten_map_singleton]; simp only [List.append_assoc, List.singleton_append]; exact hline.symm
  refine ⟨v, bs, ?_, hv, fun b hb => ?_⟩
  · rw [hsplit, writeAll_append, bind_ok (writeAll_room left _ _ (by
      rw [flatten_map_singleton]; simp only [withCapacity, List.length_nil, hlen]; omega)), hcd]
    simp only [withCapacity, flatten_map_singleton, List.map_cons, writeAll, List.nil_append]
    have he : extend A ⟨A.fresh n, line.take (A.fresh n)⟩ [c] left =
        (.ok ⟨A.grown (A.fresh n) (A.fresh n + 1), line.take (A.fresh n) ++ [c]⟩, left ++ [line.take (A.fresh n)]) := by
      unfold extend
      simp only [hlen, List.length_cons, List.length_nil]
      rw [if_neg (by omega), if_neg h0]
    rw [bind_ok he, h1]
    simp
  · rcases List.mem_cons.mp hb with rfl | hb
    · exact ⟨List.take_prefix _ _, by omega, by omega⟩
    · obtain ⟨g1, g2, g3⟩ := h5 b hb
      rw [hv] at g2 g3
      have := g1.length_le
      simp only [List.length_append, List.length_cons, List.length_nil, hlen] at this
      exact ⟨g2, g3, by omega⟩

/-! ## JSON -/

theorem fragments_flatten (s run : Str) : (fragments run s).flatten = run ++ s.flatMap Json.escapeChar := by
  induction s generalizing run with
  | nil => rw [fragments]; split <;> simp_all
  | cons c s ih =>
    rw [fragments]
    split
    · rename_i h
      rw [ih]; simp [h]
    · split
      · rename_i h; subst h; simp [ih]
      · simp [ih]

theorem strPieces_flatten (s : Str) : (strPieces s).flatten = Json.printStr s := by
  simp [strPieces, Json.printStr, fragments_flatten]

mutual
theorem pieces_flatten : ∀ v : Json, (pieces v).flatten = Json.print v
  | .null => rfl
  | .bool true => rfl
  | .bool false => rfl
  | .num (.uint n) => by simp [pieces, Json.print]
  | .num .other => rfl
  | .str s => by rw [pieces, Json.print, strPieces_flatten]
  | .arr l => by simp [pieces, Json.print, elemPieces_flatten l]
  | .obj l => by simp [pieces, Json.print, memberPieces_flatten l]
theorem elemPieces_flatten : ∀ l : List Json, (elemPieces l).flatten = Json.printElems l
  | [] => rfl
  | [v] => by rw [elemPieces, Json.printElems, pieces_flatten v]
  | v :: w :: t => by
    rw [elemPieces, Json.printElems, ← pieces_flatten v, ← elemPieces_flatten (w :: t)]
    simp
theorem memberPieces_flatten : ∀ l : List (JKey × Json), (memberPieces l).flatten = Json.printMembers l
  | [] => rfl
  | [(k, v)] => by
    rw [memberPieces, Json.printMembers, ← pieces_flatten v, ← strPieces_flatten]
    simp
  | (k, v) :: w :: t => by
    rw [memberPieces, Json.printMembers, ← pieces_flatten v, ← memberPieces_flatten (w :: t), ← strPieces_flatten]
    simp
end

theorem flatten_utf8 (l : List Str) : (l.map utf8).flatten = utf8 l.flatten := by
  induction l with
  | nil => rfl
  | cons a l ih => simp [ih, utf8_append]

theorem pieces_utf8 (v : Json) : ((pieces v).map utf8).flatten = Serde.toVec v := by
  rw [flatten_utf8, pieces_flatten]; rfl

theorem flatMap_plain {s : Str} (h : ∀ c ∈ s, Json.escapeChar c = [c]) : s.flatMap Json.escapeChar = s := by
  induction s with
  | nil => rfl
  | cons c s ih =>
    rw [List.flatMap_cons, h c (by simp), ih fun c hc => h c (by simp [hc])]
    rfl

/-- The pieces of the record of a stored password: those up to the end of the password, and the others. -/
theorem stored_pieces (p : StoredPassword) : ∃ a b : List Str,
    pieces (Serde.passwordToJson (.stored p)) = a ++ b ∧
    pieces (Serde.passwordToJson (.stored { p with notes := [] })) = a ++ [['"'], ['}']] ∧
    p.password.flatMap Json.escapeChar <:+ a.flatten := by
  let l := [Serde.member (c!"type") (.str (c!"stored")), Serde.member (c!"site") (.str p.id.site),
    Serde.member (c!"name") (.str p.id.name), Serde.member (c!"revision") (.str p.id.revision)]
  let a0 : List Str := ['{'] :: (memberPieces l ++ [','] :: (strPieces (c!"password") ++ [[':'], ['"']]))
  refine ⟨a0 ++ fragments [] p.password, ['"'] :: ((if p.notes = [] then [] else
      [','] :: (strPieces (c!"notes") ++ [':'] :: strPieces p.notes)) ++ [['}']]), ?_, ?_, ?_⟩
  · by_cases hn : p.notes = [] <;>
      simp [Serde.passwordToJson, Serde.idMembers, Serde.notesMembers, hn, pieces, memberPieces, Serde.member, strPieces, a0, l]
  · simp [Serde.passwordToJson, Serde.idMembers, Serde.notesMembers, pieces, memberPieces, Serde.member, strPieces, a0, l]
  · rw [List.flatten_append, fragments_flatten, List.nil_append]
    exact List.suffix_append _ _

theorem base64_plain {b : Bytes} {c : Char} (h : c ∈ Base64.encode b) : Json.escapeChar c = [c] ∧ c.toNat < 128 := by
  have key : ∀ d ∈ Base64.alphabet ++ ['='], Json.escapeChar d = [d] ∧ d.toNat < 128 := by decide +kernel
  have hc := Base64.encode_isB64 b c h
  apply key
  simpa [Base64.isB64] using hc

end Pfp.Memory
