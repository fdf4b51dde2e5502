import Verif.Proofs.Tamper
import Verif.Props.Corrupt

/-!
# The published algorithms: C77, C78
-/

namespace Pfp.Props
open Spec Crypto

/-! ## C77: what the model assumes about the primitives holds of the published algorithms -/

/-- **C77.** SHA-256, HMAC, scrypt and AES-256-GCM as published have the output sizes that the other theorems assume, and
decryption inverts encryption. -/
theorem C77_lawful : Standard.prims.Lawful := Standard.lawful

/-- **C77 (environments).** So with these algorithms all that is left to assume about an environment is that iterating a map
visits its entries. -/
theorem C77_environment (E : Env) (hP : E.prims = Standard.prims) (ho : ∀ n d, (E.order n d).Perm d) : E.Lawful :=
  ⟨hP ▸ Standard.lawful, ho⟩

example : ({ Toy.env with prims := Standard.prims } : Env).Lawful := C77_environment _ rfl Toy.env_lawful.order

/-- **C77 (exactly one ciphertext).** For a key and a nonce, data is decrypted to a text exactly if it is what encrypting
the text yields. -/
theorem C77_exact (key nonce data text : Bytes) :
    Standard.Gcm.decrypt key nonce data = some text ↔ data = Standard.Gcm.encrypt key nonce text :=
  Standard.decrypt_iff key nonce data text

/-- **C77 (key stream).** Under one key and nonce, the ciphertexts of two texts differ exactly where the texts do: a nonce
must not be used twice. -/
theorem C77_key_stream (key nonce a b : Bytes) (h : a.length = b.length) (i : Nat) (hi : i < a.length) :
    (Standard.Gcm.encrypt key nonce a).getD i 0 ^^^ (Standard.Gcm.encrypt key nonce b).getD i 0 = a.getD i 0 ^^^ b.getD i 0 := by
  have hx : ∀ t : Bytes, i < t.length → (Standard.Gcm.encrypt key nonce t).getD i 0 =
      t.getD i 0 ^^^ (Standard.stream (Standard.Aes.roundKeys key) nonce t.length).getD i 0 := by
    intro t ht
    have hs := Standard.stream_length (Standard.Aes.roundKeys key) nonce t.length
    have hg := Standard.gctr_length (Standard.Aes.roundKeys key) nonce t
    show (Standard.Gcm.gctr (Standard.Aes.roundKeys key) nonce t ++ _).getD i 0 = _
    rw [List.getD_eq_getElem?_getD, List.getElem?_append_left (by omega), Standard.gctr_eq, List.getElem?_zipWith,
      List.getElem?_eq_getElem ht, List.getElem?_eq_getElem (by omega)]
    simp [List.getD_eq_getElem?_getD, List.getElem?_eq_getElem ht, List.getElem?_eq_getElem (Nat.lt_of_lt_of_le ht hs)]
  rw [hx a hi, hx b (h ▸ hi), h]
  have : ∀ x y z : UInt8, (x ^^^ z) ^^^ (y ^^^ z) = x ^^^ y := by
    intro x y z
    rw [UInt8.xor_comm y z, UInt8.xor_assoc, ← UInt8.xor_assoc z z, UInt8.xor_self, UInt8.zero_xor]
  exact this _ _ _

example (key nonce : Bytes) :
    (Standard.Gcm.encrypt key nonce (b!"two")).getD 1 0 ^^^ (Standard.Gcm.encrypt key nonce (b!"one")).getD 1 0 = 25 := by
  rw [C77_key_stream key nonce (b!"two") (b!"one") rfl 1 (by decide)]
  decide

/-- Multiplication in the field of AES (FIPS 197, 4.2): the sum of the multiples by powers of x. -/
def aesMul (a b : UInt8) : UInt8 :=
  (List.range 8).foldl (fun z i => if b.toNat.testBit i then z ^^^ Nat.repeat Standard.Aes.xtime i a else z) 0

/-- The affine transformation of FIPS 197, 5.1.1. -/
def aesAffine (c : UInt8) : UInt8 :=
  c ^^^ (c <<< 1 ||| c >>> 7) ^^^ (c <<< 2 ||| c >>> 6) ^^^ (c <<< 3 ||| c >>> 5) ^^^ (c <<< 4 ||| c >>> 4) ^^^ 0x63

/-- The 254th power. -/
def aesInverse (b : UInt8) : UInt8 := (List.range 6).foldl (fun z _ => let y := aesMul z b; aesMul y y) (aesMul b b)

/-- **C77 (S-box).** The table used for AES is the affine transformation of the inverse. -/
theorem C77_sbox (b : UInt8) : ∃ c, (aesMul b c = 1 ∨ (b = 0 ∧ c = 0)) ∧ Standard.Aes.subByte b = aesAffine c := by
  have h : ∀ n < 256, (aesMul (UInt8.ofNat n) (aesInverse (UInt8.ofNat n)) = 1 ∨
      (UInt8.ofNat n = 0 ∧ aesInverse (UInt8.ofNat n) = 0)) ∧
      Standard.Aes.subByte (UInt8.ofNat n) = aesAffine (aesInverse (UInt8.ofNat n)) := by
    decide +kernel
  have := h b.toNat b.toNat_lt
  rw [UInt8.ofNat_toNat] at this
  exact ⟨aesInverse b, this⟩

/-- A number from its bytes, the most significant one first. -/
def bigEndian (b : Bytes) : Nat := b.foldl (fun n x => 256 * n + x.toNat) 0

theorem bigEndian_nat64be {n : Nat} (h : n < 2 ^ 64) : bigEndian (Standard.nat64be n) = n := by
  simp only [bigEndian, Standard.nat64be, show List.range 8 = [0, 1, 2, 3, 4, 5, 6, 7] from rfl, List.map_cons, List.map_nil,
    List.foldl_cons, List.foldl_nil, UInt8.toNat_ofNat', Nat.shiftRight_eq_div_pow]
  omega

/-- **C77 (padding).** What SHA-256 processes are the bytes of the message, the byte 0x80, fewer than 64 zeros and the number of
bits of the message in eight bytes: complete blocks, different ones for different messages. -/
theorem C77_padding (m : Bytes) (h : 8 * m.length < 2 ^ 64) :
    (∃ z l, Standard.Sha256.pad m = m ++ 0x80 :: (List.replicate z 0 ++ l) ∧ z < 64 ∧ l.length = 8 ∧
      bigEndian l = 8 * m.length) ∧
    (Standard.Sha256.pad m).length % 64 = 0 ∧
    ∀ m', 8 * m'.length < 2 ^ 64 → Standard.Sha256.pad m' = Standard.Sha256.pad m → m' = m := by
  have hl : ∀ n, (Standard.nat64be n).length = 8 := fun n => by simp [Standard.nat64be]
  refine ⟨⟨(119 - m.length % 64) % 64, Standard.nat64be (8 * m.length), by simp [Standard.Sha256.pad],
    Nat.mod_lt _ (by omega), hl _, bigEndian_nat64be h⟩, ?_, fun m' h' e => ?_⟩
  · simp only [Standard.Sha256.pad, List.length_append, List.length_cons, List.length_replicate, hl]
    omega
  · unfold Standard.Sha256.pad at e
    obtain ⟨e1, e2⟩ := List.append_inj' e (by rw [hl, hl])
    have e3 := congrArg bigEndian e2
    rw [bigEndian_nat64be h, bigEndian_nat64be h'] at e3
    exact (List.append_inj e1 (by omega)).1

example : Standard.Sha256.pad (List.replicate 56 7) ≠ Standard.Sha256.pad (List.replicate 55 7) := fun h => by
  have := (C77_padding (List.replicate 55 7) (by decide)).2.2 _ (by decide) h
  revert this
  decide

/-- **C77 (HMAC).** RFC 2104: a key of up to 64 bytes is filled up with zeros, a longer one is replaced by its hash; with it the
hash of the hash is formed. -/
theorem C77_hmac (key message : Bytes) : ∃ k : Bytes, k.length = 64 ∧
    (key.length ≤ 64 → ∃ z, k = key ++ List.replicate z 0) ∧
    (64 < key.length → k = Standard.Sha256.hash key ++ List.replicate 32 0) ∧
    Standard.hmacSha256 key message = Standard.Sha256.hash (k.map (· ^^^ 0x5c) ++
      Standard.Sha256.hash (k.map (· ^^^ 0x36) ++ message)) := by
  have hh := Standard.hash_length key
  refine ⟨Standard.hmacBlock key, ?_, fun h => ?_, fun h => ?_, rfl⟩
  · unfold Standard.hmacBlock
    split <;> simp only [List.length_append, List.length_replicate] <;> omega
  · exact ⟨_, by unfold Standard.hmacBlock; rw [if_neg (by omega)]⟩
  · unfold Standard.hmacBlock
    rw [if_pos h]
    dsimp only
    rw [hh]

/-- A key of 64 bytes is used as it is. -/
example : Standard.hmacSha256 (List.replicate 64 1) [] = Standard.Sha256.hash (List.replicate 64 (1 ^^^ 0x5c) ++
    Standard.Sha256.hash (List.replicate 64 (1 ^^^ 0x36))) := by
  obtain ⟨k, h1, h2, -, h3⟩ := C77_hmac (List.replicate 64 1) []
  obtain ⟨z, rfl⟩ := h2 (by simp)
  obtain rfl : z = 0 := by simpa using h1
  rw [h3]
  simp

/-! ## C78: altered data is noticed -/

/-- **C78 (one byte).** If data can be decrypted, then it cannot when any one byte of it is changed – provided that AES under
the key does not map the block of zeros to itself, which happens for one key in 2^128. -/
theorem C78_one_byte (key nonce data text : Bytes)
    (hz : Standard.Aes.cipher (Standard.Aes.roundKeys key) (List.replicate 16 0) ≠ List.replicate 16 0)
    (h : Standard.Gcm.decrypt key nonce data = some text) (i : Nat) (b : UInt8) (hne : data.set i b ≠ data) :
    Standard.Gcm.decrypt key nonce (data.set i b) = none :=
  Standard.Gcm.altered_byte hz h i b hne

/-- The key of the tests in `storage.rs:326`. -/
def testKey : Bytes := b!"abcdefghijklmnopqrstuvwxyz123456"

/-- The nonce of the tests in `storage.rs`. -/
def testNonce : Bytes := b!"abcdefghijkl"

/-- The data of the record `{"site":"example.com"}` in `storage.rs:360`. -/
def testData : Bytes :=
  [123, 79, 246, 152, 87, 66, 173, 113, 95, 181, 168, 28, 254, 228, 106, 95, 92, 213, 90, 85, 87, 216, 41, 221, 84, 122, 48,
    247, 203, 204, 109, 253, 66, 18, 128, 140, 138, 119]

theorem testKey_zero : Standard.Aes.cipher (Standard.Aes.roundKeys testKey) (List.replicate 16 0) ≠ List.replicate 16 0 := by
  decide +kernel

theorem testData_decrypt : Standard.Gcm.decrypt testKey testNonce testData = some (b!"{\"site\":\"example.com\"}") := by
  decide +kernel

example : Standard.Gcm.decrypt testKey testNonce (testData.set 3 0) = none :=
  C78_one_byte _ _ _ _ testKey_zero testData_decrypt 3 0 (by decide)

/-- **C78 (one block).** The same holds for any change within one block of 16 bytes of the ciphertext, and for any change of
the tag. -/
theorem C78_one_block (key nonce c t text : Bytes)
    (hz : Standard.Aes.cipher (Standard.Aes.roundKeys key) (List.replicate 16 0) ≠ List.replicate 16 0)
    (ht : t.length = 16) (h : Standard.Gcm.decrypt key nonce (c ++ t) = some text) :
    (∀ (c' : Bytes) (j : Nat), c'.length = c.length → c' ≠ c → (∀ i, i / 16 ≠ j → c'[i]? = c[i]?) →
      Standard.Gcm.decrypt key nonce (c' ++ t) = none) ∧
    ∀ t' : Bytes, t'.length = 16 → t' ≠ t → Standard.Gcm.decrypt key nonce (c ++ t') = none :=
  ⟨fun _ _ hl hne hj => Standard.Gcm.altered_block hz ht h hl hne hj,
    fun _ hl hne => Standard.Gcm.altered_tag ht h hl hne⟩

example : Standard.Gcm.decrypt testKey testNonce ((testData.take 22).set 17 9 ++ testData.drop 22) = none :=
  (C78_one_block testKey testNonce (testData.take 22) (testData.drop 22) _ testKey_zero rfl testData_decrypt).1 _ 1 rfl
    (by decide) (by
      intro i hi
      rw [List.getElem?_set_ne]
      rintro rfl
      exact hi rfl)

/-- The text of a record (`crypto.rs:107-120`). -/
def recordText (nonce data : Bytes) : Str := Base64.encode nonce ++ '_' :: Base64.encode data

theorem recordText_decrypt {P : Prims} {k nonce data : Bytes} (hk : k.length = 32) (hn : nonce.length = 12) :
    decryptData P (recordText nonce data) k = okOr (P.gcmDecrypt k nonce data) .decryptionFailure := by
  unfold decryptData recordText
  rw [if_neg (by simp [hk]), splitOnce_append (Base64.underscore_not_mem nonce)]
  simp only [okOr_some, Res.bind_ok, Base64.decode_encode]
  rw [if_neg (by simp [hn])]

/-- **C78 (records).** If the record under a name can be read, then with any one byte of its encrypted data changed reading it
is a decryption failure. -/
theorem C78_record {α : Type} (E : Env) (hP : E.prims = Standard.prims) (f : Json → Option α) (w w' : World) (name : Str)
    (k : Bytes) (x : α) (hz : Standard.Aes.cipher (Standard.Aes.roundKeys k) (List.replicate 16 0) ≠ List.replicate 16 0)
    (hk : k.length = 32) (hread : Storage.get E w f name k = .ok x) (nonce data : Bytes) (hn : nonce.length = 12)
    (hw : w.data.get? name = some (recordText nonce data)) (i : Nat) (b : UInt8) (hne : data.set i b ≠ data)
    (hw' : w'.data.get? name = some (recordText nonce (data.set i b))) :
    Storage.get E w' f name k = .err .decryptionFailure := by
  unfold Storage.get FileIO.get at hread ⊢
  rw [hw] at hread
  rw [hw']
  simp only [okOr_some, Res.bind_ok, recordText_decrypt hk hn, hP] at hread ⊢
  cases hd : Standard.prims.gcmDecrypt k nonce data with
  | none => rw [hd] at hread; cases hread
  | some text =>
    have := C78_one_byte k nonce data text hz hd i b hne
    show (okOr (Standard.Gcm.decrypt k nonce (data.set i b)) .decryptionFailure >>= _) = _
    rw [this]
    rfl

/-- A world with one record. -/
def testWorld (data : Bytes) : World :=
  { data := [(c!"site:x", recordText testNonce data)], epoch := 0, disk := none, rpos := 0, fpos := 0 }

/-- The toy environment with the published algorithms. -/
def standardEnv : Env := { Toy.env with prims := Standard.prims }

theorem testWorld_get : Storage.get standardEnv (testWorld testData) Serde.siteFromJson (c!"site:x") testKey =
    .ok ⟨c!"example.com", none⟩ := by
  unfold Storage.get FileIO.get
  rw [show (testWorld testData).data.get? (c!"site:x") = some (recordText testNonce testData) from rfl]
  simp only [okOr_some, Res.bind_ok, recordText_decrypt (P := standardEnv.prims) (k := testKey) (nonce := testNonce) rfl rfl]
  rw [show standardEnv.prims.gcmDecrypt = Standard.Gcm.decrypt from rfl, testData_decrypt]
  decide +kernel

example : Storage.get standardEnv (testWorld (testData.set 5 1)) Serde.siteFromJson (c!"site:x") testKey =
    .err .decryptionFailure :=
  C78_record standardEnv rfl _ (testWorld testData) _ _ _ _ testKey_zero rfl testWorld_get testNonce testData rfl rfl 5 1
    (by decide) rfl

/-- **C78 (opening).** If a storage opens with a password, then with any one byte of the encrypted secret changed it does not:
it is a decryption failure, as if the password was wrong, and nothing changes. -/
theorem C78_unlock (E : Env) (hP : E.prims = Standard.prims) (p : Str) (s s' : PState) (salt nonce data : Bytes)
    (hopen : (Passwords.unlock E p s).1 = .ok ()) (hn : nonce.length = 12)
    (hsalt : s.world.data.get? (c!"salt") = some (Base64.encode salt))
    (hz : Standard.Aes.cipher (Standard.Aes.roundKeys (keyFor Standard.prims p salt)) (List.replicate 16 0) ≠
      List.replicate 16 0)
    (hw : s.world.data.get? (c!"hmac-secret") = some (recordText nonce data)) (i : Nat) (b : UInt8)
    (hne : data.set i b ≠ data) (hsalt' : s'.world.data.get? (c!"salt") = some (Base64.encode salt))
    (hw' : s'.world.data.get? (c!"hmac-secret") = some (recordText nonce (data.set i b))) :
    Passwords.unlock E p s' = (.err .decryptionFailure, s') := by
  have hk : (keyFor Standard.prims p salt).length = 32 := Standard.lawful.scrypt_length _ _ _
  have hkey : getEncryptionKey E.prims p salt = .ok (keyFor Standard.prims p salt) := by rw [hP]; rfl
  have hgs : ∀ t : PState, t.world.data.get? (c!"salt") = some (Base64.encode salt) →
      Storage.getSalt t.world = .ok salt := by
    intro t ht
    unfold Storage.getSalt FileIO.get
    rw [show Storage.SALT_KEY = c!"salt" from rfl, ht]
    simp [Base64.decode_encode]
  have hsec : ∀ (t : PState) (d : Bytes), t.world.data.get? (c!"hmac-secret") = some (recordText nonce d) →
      Storage.getHmacSecret E t.world (keyFor Standard.prims p salt) =
        (okOr (Standard.prims.gcmDecrypt (keyFor Standard.prims p salt) nonce d) .decryptionFailure >>= fun decrypted =>
          okOr (Serde.fromSlice Serde.asStr decrypted) .invalidJson >>= fun hmacSecret =>
          okOr (Base64.decode hmacSecret) .invalidBase64) := by
    intro t d ht
    unfold Storage.getHmacSecret FileIO.get
    rw [show Storage.HMAC_SECRET_KEY = c!"hmac-secret" from rfl, ht]
    simp only [okOr_some, Res.mapErr_ok, Res.bind_ok, recordText_decrypt hk hn, hP]
  have hun : ∀ t : PState, t.world.data.get? (c!"salt") = some (Base64.encode salt) → Passwords.unlock E p t =
      match Storage.getHmacSecret E t.world (keyFor Standard.prims p salt) with
      | .ok h => (.ok (), { t with key := some (keyFor Standard.prims p salt), hmacSecret := some h, primaryPassword := some p })
      | .err e => (.err e, t)
      | .panic => (.panic, t) := by
    intro t ht
    simp only [Passwords.unlock, M.bind_apply, M.get_apply, M.lift_apply, hgs t ht, hkey]
    cases Storage.getHmacSecret E t.world (keyFor Standard.prims p salt) <;> rfl
  rw [hun s hsalt, hsec s data hw] at hopen
  rw [hun s' hsalt', hsec s' _ hw']
  cases hd : Standard.prims.gcmDecrypt (keyFor Standard.prims p salt) nonce data with
  | none => rw [hd] at hopen; cases hopen
  | some text =>
    have : Standard.prims.gcmDecrypt (keyFor Standard.prims p salt) nonce (data.set i b) = none :=
      C78_one_byte _ nonce data text hz hd i b hne
    rw [this]
    rfl

/-- A state with the entries of a storage that opens with a password. -/
def standardState (salt : Bytes) (data : Bytes) : PState :=
  Passwords.new ⟨[(c!"salt", Base64.encode salt), (c!"hmac-secret", recordText testNonce data)], 0, none, 0, 0⟩

/-- The storage of `C78_unlock` exists for any password, salt and secret; the key is that of scrypt. -/
example (p : Str) (salt secret : Bytes)
    (hz : Standard.Aes.cipher (Standard.Aes.roundKeys (keyFor Standard.prims p salt)) (List.replicate 16 0) ≠
      List.replicate 16 0) :
    ∃ data, (Passwords.unlock standardEnv p (standardState salt data)).1 = .ok () ∧
      Passwords.unlock standardEnv p (standardState salt (data.set 0 (data.getD 0 0 + 1))) =
        (.err .decryptionFailure, standardState salt (data.set 0 (data.getD 0 0 + 1))) := by
  have hk : (keyFor Standard.prims p salt).length = 32 := Standard.lawful.scrypt_length _ _ _
  obtain ⟨data, hd⟩ : ∃ data, data = Standard.prims.gcmEncrypt (keyFor Standard.prims p salt) testNonce
    (Serde.toVec (.str (Base64.encode secret))) := ⟨_, rfl⟩
  have hdec := Standard.lawful.gcm_roundtrip (keyFor Standard.prims p salt) testNonce
    (Serde.toVec (.str (Base64.encode secret))) hk rfl
  have hlen : 0 < data.length := by rw [hd, Standard.lawful.gcm_length]; omega
  have hopen : (Passwords.unlock standardEnv p (standardState salt data)).1 = .ok () := by
    have h1 : Storage.getSalt (standardState salt data).world = .ok salt := by
      unfold Storage.getSalt FileIO.get
      rw [show (standardState salt data).world.data.get? Storage.SALT_KEY = some (Base64.encode salt) from rfl]
      simp [Base64.decode_encode]
    have h2 : Storage.getHmacSecret standardEnv (standardState salt data).world (keyFor Standard.prims p salt) = .ok secret := by
      unfold Storage.getHmacSecret FileIO.get
      rw [show (standardState salt data).world.data.get? Storage.HMAC_SECRET_KEY = some (recordText testNonce data) from rfl]
      simp only [okOr_some, Res.mapErr_ok, Res.bind_ok,
        recordText_decrypt (P := standardEnv.prims) (nonce := testNonce) hk rfl]
      rw [show standardEnv.prims.gcmDecrypt (keyFor Standard.prims p salt) testNonce data = _ from hd ▸ hdec]
      simp [Serde.fromSlice_toVec_str, Serde.asStr, Base64.decode_encode]
    have h3 : getEncryptionKey standardEnv.prims p salt = .ok (keyFor Standard.prims p salt) := rfl
    simp only [Passwords.unlock, M.bind_apply, M.get_apply, M.lift_apply, h1, h3, h2]
    rfl
  refine ⟨data, hopen, C78_unlock standardEnv rfl p (standardState salt data) _ salt testNonce data hopen rfl rfl hz rfl 0 _ ?_
    rfl rfl⟩
  intro h
  have h0 := congrArg (fun l => l[0]?) h
  simp only [List.getElem?_set_self hlen, List.getElem?_eq_getElem hlen, Option.some.injEq] at h0
  rw [List.getD_eq_getElem?_getD, List.getElem?_eq_getElem hlen, Option.getD_some] at h0
  have h1 : data[0] + (1 : UInt8) = data[0] + (0 : UInt8) := by rw [h0, UInt8.add_zero]
  exact absurd ((UInt8.add_right_inj data[0]).1 h1) (by decide)

end Pfp.Props
