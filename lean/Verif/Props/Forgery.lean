import Verif.Proofs.Forgery
import Verif.Props.Standard

/-!
# How many keys let altered data pass: C102
-/

namespace Pfp.Props

open Spec Crypto

/-- **C102.** If some data can be decrypted, then other data with the same nonce can be decrypted only under keys for which AES
maps the block of zeros to one of a few blocks.  These are not more than the data has blocks, out of 2^128, and depend only on
the two data. -/
theorem C102_few (data data' : Bytes) (hne : data' ≠ data) (hd : data.length < 2 ^ 61) (hd' : data'.length < 2 ^ 61) :
    ∃ subkeys : List Bytes, subkeys.length ≤ (max data.length data'.length + 15) / 16 ∧
      ∀ key nonce, (Standard.Gcm.decrypt key nonce data).isSome = true → (Standard.Gcm.decrypt key nonce data').isSome = true →
        Standard.Aes.cipher (Standard.Aes.roundKeys key) (List.replicate 16 0) ∈ subkeys := by
  by_cases h16 : data.length < 16 ∨ data'.length < 16
  · refine ⟨[], by simp, fun key nonce h h' => ?_⟩
    exfalso
    rcases h16 with hl | hl
    · unfold Standard.Gcm.decrypt at h
      rw [if_pos hl] at h
      cases h
    · unfold Standard.Gcm.decrypt at h'
      rw [if_pos hl] at h'
      cases h'
  · have hsplit : ∀ d : Bytes, 16 ≤ d.length → ∃ c t : Bytes, d = c ++ t ∧ t.length = 16 := fun d h =>
      ⟨d.take (d.length - 16), d.drop (d.length - 16), (List.take_append_drop _ _).symm, by rw [List.length_drop]; omega⟩
    obtain ⟨c, t, rfl, ht⟩ := hsplit data (by omega)
    obtain ⟨c', t', rfl, ht'⟩ := hsplit data' (by omega)
    rw [List.length_append] at hd hd'
    obtain ⟨subkeys, hl, hs⟩ := Standard.Gcm.tag_few (c := c) (c' := c') (by omega) (by omega) ht ht' (by
      rintro ⟨rfl, rfl⟩
      exact hne rfl)
    refine ⟨subkeys, ?_, fun key nonce h h' => hs _ nonce ?_ ?_⟩
    · rw [List.length_append, List.length_append, ht, ht']
      omega
    · rw [Standard.Gcm.decrypt_append ht] at h
      by_contra hc
      rw [if_neg hc] at h
      cases h
    · rw [Standard.Gcm.decrypt_append ht'] at h'
      by_contra hc
      rw [if_neg hc] at h'
      cases h'

/-- **C102 (attempts).** The same for any number of attempts: with each of them the list grows by the number of blocks. -/
theorem C102_attempts (data : Bytes) (n : Nat) (hn : n < 2 ^ 61) (hd : data.length ≤ n) (attempts : List Bytes)
    (ha : ∀ d ∈ attempts, d ≠ data ∧ d.length ≤ n) :
    ∃ subkeys : List Bytes, subkeys.length ≤ attempts.length * ((n + 15) / 16) ∧
      ∀ key nonce, (Standard.Gcm.decrypt key nonce data).isSome = true →
        (∃ d ∈ attempts, (Standard.Gcm.decrypt key nonce d).isSome = true) →
        Standard.Aes.cipher (Standard.Aes.roundKeys key) (List.replicate 16 0) ∈ subkeys := by
  induction attempts with
  | nil => exact ⟨[], by simp, fun key nonce _ ⟨d, hm, _⟩ => absurd hm (by simp)⟩
  | cons d attempts ih =>
    obtain ⟨subkeys, hl, hs⟩ := ih fun d' hd' => ha d' (List.mem_cons_of_mem _ hd')
    obtain ⟨h1, h2⟩ := ha d List.mem_cons_self
    obtain ⟨subkeys', hl', hs'⟩ := C102_few data d h1 (by omega) (by omega)
    refine ⟨subkeys' ++ subkeys, ?_, ?_⟩
    · rw [List.length_append, List.length_cons, Nat.add_mul, Nat.one_mul]
      have : (max data.length d.length + 15) / 16 ≤ (n + 15) / 16 := Nat.div_le_div_right (by omega)
      omega
    · rintro key nonce h ⟨d', hm, hd'⟩
      rw [List.mem_append]
      rcases List.mem_cons.mp hm with rfl | hm
      · exact .inl (hs' key nonce h hd')
      · exact .inr (hs key nonce h ⟨d', hm, hd'⟩)

/-- **C102 (records).** In a storage: if a record can be read, then with other data in its place, and the same nonce, reading it
is a decryption failure, unless the key is one of those. -/
theorem C102_record (data data' : Bytes) (hne : data' ≠ data) (hd : data.length < 2 ^ 61) (hd' : data'.length < 2 ^ 61) :
    ∃ subkeys : List Bytes, subkeys.length ≤ (max data.length data'.length + 15) / 16 ∧
      ∀ (α : Type) (E : Env) (f : Json → Option α) (w w' : World) (name : Str) (k nonce : Bytes) (x : α), E.prims = Standard.prims →
        k.length = 32 → nonce.length = 12 → w.data.get? name = some (recordText nonce data) →
        w'.data.get? name = some (recordText nonce data') → Storage.get E w f name k = .ok x →
        Standard.Aes.cipher (Standard.Aes.roundKeys k) (List.replicate 16 0) ∉ subkeys →
        Storage.get E w' f name k = .err .decryptionFailure := by
  obtain ⟨subkeys, hl, hs⟩ := C102_few data data' hne hd hd'
  refine ⟨subkeys, hl, ?_⟩
  intro α E f w w' name k nonce x hP hk hn hw hw' hread hsub
  unfold Storage.get FileIO.get at hread ⊢
  rw [hw] at hread
  rw [hw']
  simp only [okOr_some, Res.bind_ok, recordText_decrypt hk hn, hP] at hread ⊢
  change (okOr (Standard.Gcm.decrypt k nonce data) .decryptionFailure >>= _) = _ at hread
  show (okOr (Standard.Gcm.decrypt k nonce data') .decryptionFailure >>= _) = _
  cases h : Standard.Gcm.decrypt k nonce data with
  | none => rw [h] at hread; cases hread
  | some text =>
    cases h' : Standard.Gcm.decrypt k nonce data' with
    | none => rfl
    | some text' => exact absurd (hs k nonce (by rw [h]; rfl) (by rw [h']; rfl)) hsub

/-- **C102 (opening).** The same for the encrypted secret: opening fails as with a wrong password and changes nothing. -/
theorem C102_unlock (data data' : Bytes) (hne : data' ≠ data) (hd : data.length < 2 ^ 61) (hd' : data'.length < 2 ^ 61) :
    ∃ subkeys : List Bytes, subkeys.length ≤ (max data.length data'.length + 15) / 16 ∧
      ∀ (E : Env) (p : Str) (s s' : PState) (salt nonce : Bytes), E.prims = Standard.prims → nonce.length = 12 →
        s.world.data.get? (c!"salt") = some (Base64.encode salt) → s'.world.data.get? (c!"salt") = some (Base64.encode salt) →
        s.world.data.get? (c!"hmac-secret") = some (recordText nonce data) →
        s'.world.data.get? (c!"hmac-secret") = some (recordText nonce data') → (Passwords.unlock E p s).1 = .ok () →
        Standard.Aes.cipher (Standard.Aes.roundKeys (keyFor Standard.prims p salt)) (List.replicate 16 0) ∉ subkeys →
        Passwords.unlock E p s' = (.err .decryptionFailure, s') := by
  obtain ⟨subkeys, hl, hs⟩ := C102_few data data' hne hd hd'
  refine ⟨subkeys, hl, ?_⟩
  intro E p s s' salt nonce hP hn hsalt hsalt' hw hw' hopen hsub
  have hk : (keyFor Standard.prims p salt).length = 32 := Standard.lawful.scrypt_length _ _ _
  have hkey : getEncryptionKey E.prims p salt = .ok (keyFor Standard.prims p salt) := by rw [hP]; rfl
  have hgs : ∀ t : PState, t.world.data.get? (c!"salt") = some (Base64.encode salt) →
      Storage.getSalt t.world = .ok salt := by
    intro t ht
    unfold Storage.getSalt FileIO.get
    rw [show Storage.SALT_KEY = c!"salt" from rfl, ht]
    simp [Base64.decode_encode]
  have hsec : ∀ (t : PState) (d : Bytes), t.world.data.get? (c!"hmac-secret") = some (recordText nonce d) →
      Storage.getHmacSecret E t.world (keyFor Standard.prims p salt) =
        (okOr (Standard.Gcm.decrypt (keyFor Standard.prims p salt) nonce d) .decryptionFailure >>= fun decrypted =>
          okOr (Serde.fromSlice Serde.asStr decrypted) .invalidJson >>= fun hmacSecret =>
          okOr (Base64.decode hmacSecret) .invalidBase64) := by
    intro t d ht
    unfold Storage.getHmacSecret FileIO.get
    rw [show Storage.HMAC_SECRET_KEY = c!"hmac-secret" from rfl, ht]
    simp only [okOr_some, Res.mapErr_ok, Res.bind_ok, recordText_decrypt hk hn, hP]
    rfl
  have hun : ∀ t : PState, t.world.data.get? (c!"salt") = some (Base64.encode salt) → Passwords.unlock E p t =
      match Storage.getHmacSecret E t.world (keyFor Standard.prims p salt) with
      | .ok h => (.ok (), { t with key := some (keyFor Standard.prims p salt), hmacSecret := some h, primaryPassword := some p })
      | .err e => (.err e, t)
      | .panic => (.panic, t) := by
    intro t ht
    simp only [Passwords.unlock, M.bind_apply, M.get_apply, M.lift_apply, hgs t ht, hkey]
    cases Storage.getHmacSecret E t.world (keyFor Standard.prims p salt) <;> rfl
  rw [hun s hsalt, hsec s data hw] at hopen
  rw [hun s' hsalt', hsec s' _ hw']
  cases h : Standard.Gcm.decrypt (keyFor Standard.prims p salt) nonce data with
  | none => rw [h] at hopen; cases hopen
  | some text =>
    cases h' : Standard.Gcm.decrypt (keyFor Standard.prims p salt) nonce data' with
    | none => rfl
    | some text' => exact absurd (hs _ nonce (by rw [h]; rfl) (by rw [h']; rfl)) hsub

/-- **C102 (two keys).** For any two keys which map the block of zeros to different blocks there is data that can be decrypted
under both of them, beginning with whatever one likes: that data can be decrypted does not mean that it was encrypted under
the key. -/
theorem C102_two_keys (key key' nonce beginning : Bytes) (hb : beginning.length % 16 = 0)
    (hne : Standard.Aes.cipher (Standard.Aes.roundKeys key) (List.replicate 16 0) ≠
      Standard.Aes.cipher (Standard.Aes.roundKeys key') (List.replicate 16 0)) :
    ∃ rest, (Standard.Gcm.decrypt key nonce (beginning ++ rest)).isSome = true ∧
      (Standard.Gcm.decrypt key' nonce (beginning ++ rest)).isSome = true := by
  obtain ⟨x, hx, ht⟩ := Standard.Gcm.tag_both nonce hb hne
  have hl := Standard.tag_length (Standard.Aes.roundKeys key) nonce (beginning ++ x)
  refine ⟨x ++ Standard.Gcm.tag (Standard.Aes.roundKeys key) nonce (beginning ++ x), ?_, ?_⟩
  · rw [← List.append_assoc, Standard.Gcm.decrypt_append hl, if_pos rfl]
    rfl
  · rw [← List.append_assoc, Standard.Gcm.decrypt_append hl, if_pos ht.symm]
    rfl

/-! ## Cases -/

/-- The record of the tests: any other data in its place passes for at most three of the hash keys. -/
example (data' : Bytes) (hne : data' ≠ testData) (hl : data'.length ≤ 48) :
    ∃ subkeys : List Bytes, subkeys.length ≤ 3 ∧
      ((Standard.Gcm.decrypt testKey testNonce data').isSome = true →
        Standard.Aes.cipher (Standard.Aes.roundKeys testKey) (List.replicate 16 0) ∈ subkeys) := by
  have h38 : testData.length = 38 := rfl
  obtain ⟨subkeys, h, hs⟩ := C102_few testData data' hne (by omega) (by omega)
  exact ⟨subkeys, by omega, hs testKey testNonce (by rw [testData_decrypt]; rfl)⟩

/-- Two keys with data for both. -/
example : ∃ rest, (Standard.Gcm.decrypt testKey testNonce (List.replicate 32 7 ++ rest)).isSome = true ∧
    (Standard.Gcm.decrypt (testKey.reverse) testNonce (List.replicate 32 7 ++ rest)).isSome = true :=
  C102_two_keys _ _ _ _ rfl (by decide +kernel)

end Pfp.Props
