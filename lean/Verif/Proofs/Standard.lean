import Verif.Model.Standard

/-!
# Lemmas about the published algorithms
-/

namespace Pfp.Standard

@[simp] theorem word32be_length (w : UInt32) : (word32be w).length = 4 := rfl

theorem hash_length (m : Bytes) : (Sha256.hash m).length = 32 := by
  simp [Sha256.hash, Sha256.State.bytes]

theorem hmac_length (k m : Bytes) : (hmacSha256 k m).length = 32 := hash_length _

/-- Pieces of equal length. -/
theorem flatMap_length {α β : Type} (l : List α) (f : α → List β) (n : Nat) (h : ∀ x, (f x).length = n) :
    (l.flatMap f).length = l.length * n := by
  induction l with
  | nil => simp
  | cons a l ih => simp [ih, h, Nat.add_mul, Nat.add_comm]

theorem pbkdf2_length (p s : Bytes) (n : Nat) : (pbkdf2 p s n).length = n := by
  unfold pbkdf2
  rw [List.length_take, flatMap_length _ _ 32 fun i => hmac_length _ _, List.length_range]
  omega

theorem scrypt_length (a b c : Nat) (p s : Bytes) (n : Nat) : (Scrypt.scrypt a b c p s n).length = n :=
  pbkdf2_length _ _ _

theorem cipher_length (keys : List Bytes) (b : Bytes) : (Aes.cipher keys b).length = 16 := by
  simp [Aes.cipher, Aes.addRoundKey]

theorem tag_length (keys : List Bytes) (n c : Bytes) : (Gcm.tag keys n c).length = 16 := by
  simp [Gcm.tag, Gcm.block, cipher_length]

/-- The key stream of a nonce, for a text of the given length. -/
def stream (keys : List Bytes) (nonce : Bytes) (length : Nat) : Bytes :=
  (List.range ((length + 15) / 16)).flatMap fun i => Aes.cipher keys (Gcm.counter nonce (i + 2))

theorem stream_length (keys : List Bytes) (nonce : Bytes) (n : Nat) : n ≤ (stream keys nonce n).length := by
  unfold stream
  rw [flatMap_length _ _ 16 fun i => cipher_length _ _, List.length_range]
  omega

theorem gctr_eq (keys : List Bytes) (nonce text : Bytes) :
    Gcm.gctr keys nonce text = text.zipWith (· ^^^ ·) (stream keys nonce text.length) := rfl

theorem gctr_length (keys : List Bytes) (nonce text : Bytes) : (Gcm.gctr keys nonce text).length = text.length := by
  rw [gctr_eq, List.length_zipWith]
  have := stream_length keys nonce text.length
  omega

/-- The exclusive or with the same bytes twice. -/
theorem xor_xor (a b : Bytes) (h : a.length ≤ b.length) : (a.zipWith (· ^^^ ·) b).zipWith (· ^^^ ·) b = a := by
  induction a generalizing b with
  | nil => simp
  | cons x a ih =>
    cases b with
    | nil => simp at h
    | cons y b =>
      simp only [List.length_cons, Nat.add_le_add_iff_right] at h
      simp only [List.zipWith_cons_cons, ih b h, List.cons.injEq, and_true]
      rw [UInt8.xor_assoc, UInt8.xor_self, UInt8.xor_zero]

theorem gctr_gctr (keys : List Bytes) (nonce text : Bytes) :
    Gcm.gctr keys nonce (Gcm.gctr keys nonce text) = text := by
  rw [gctr_eq, gctr_length, gctr_eq]
  exact xor_xor _ _ (stream_length _ _ _)

theorem gcm_length (k n p : Bytes) : (Gcm.encrypt k n p).length = p.length + 16 := by
  simp [Gcm.encrypt, gctr_length, tag_length]

/-- Decryption accepts exactly what encryption produces. -/
theorem decrypt_iff (k n d p : Bytes) : Gcm.decrypt k n d = some p ↔ d = Gcm.encrypt k n p := by
  constructor
  · intro h
    unfold Gcm.decrypt at h
    split at h
    · cases h
    · dsimp only at h
      split at h
      · next hl ht =>
        simp only [Option.some.injEq] at h
        subst h
        show d = Gcm.gctr (Aes.roundKeys k) n (Gcm.gctr (Aes.roundKeys k) n (d.take (d.length - 16))) ++
          Gcm.tag (Aes.roundKeys k) n (Gcm.gctr (Aes.roundKeys k) n (Gcm.gctr (Aes.roundKeys k) n (d.take (d.length - 16))))
        rw [gctr_gctr, ht, List.take_append_drop]
      · cases h
  · rintro rfl
    unfold Gcm.decrypt
    rw [if_neg (by rw [gcm_length]; omega), gcm_length]
    have h1 : (Gcm.encrypt k n p).take (p.length + 16 - 16) = Gcm.gctr (Aes.roundKeys k) n p := by
      simp [Gcm.encrypt, gctr_length]
    have h2 : (Gcm.encrypt k n p).drop (p.length + 16 - 16) =
        Gcm.tag (Aes.roundKeys k) n (Gcm.gctr (Aes.roundKeys k) n p) := by
      simp [Gcm.encrypt, gctr_length]
    rw [h1, h2, if_pos rfl, gctr_gctr]

/-- The published algorithms are what the model assumes. -/
theorem lawful : prims.Lawful where
  scrypt_length p s n := scrypt_length 15 8 1 p s n
  gcm_length := gcm_length
  gcm_roundtrip k n p _ _ := (decrypt_iff k n _ p).mpr rfl
  hmac_length := hmac_length

end Pfp.Standard
