import Verif.Tests.Repository

/-!
# Test vectors for scrypt

The tests in `Verif.Tests.Repository` look the outputs of scrypt up in a table.  The vectors here have parameters small
enough to be evaluated in the kernel, so that they show `Standard.Scrypt.scrypt` itself to be faithful.
-/

namespace Pfp.Tests

open Standard

/-! The first test vector of RFC 7914, section 12, in three parts (each of them is evaluated on its own, which takes less
memory). -/

theorem scrypt_start : pbkdf2 [] [] 128 =
    x!"f7ce0b653d2d72a4108cf5abe912ffdd777616dbbb27a70e8204f3ae2d0f6fad89f68f4811d1e87bcc3bd7400a9ffd29094f0184639574f39ae5a1315217bcd7894991447213bb226c25b54da86370fbcd984380374666bb8ffcb5bf40c254b067d27c51ce4ad5fed829c90b505a571b7f4d1cad6a523cda770e67bceaaf7e89" := by
  decide +kernel

/-- (The test vector of section 10.) -/
theorem scrypt_mix : (Scrypt.roMix 16 (words32le (
      x!"f7ce0b653d2d72a4108cf5abe912ffdd777616dbbb27a70e8204f3ae2d0f6fad89f68f4811d1e87bcc3bd7400a9ffd29094f0184639574f39ae5a1315217bcd7894991447213bb226c25b54da86370fbcd984380374666bb8ffcb5bf40c254b067d27c51ce4ad5fed829c90b505a571b7f4d1cad6a523cda770e67bceaaf7e89"))).flatMap word32le =
    x!"79ccc193629debca047f0b70604bf6b62ce3dd4a9626e355fafc6198e6ea2b46d58413673b99b029d665c357601fb426a0b2f4bba200ee9f0a43d19b571a9c71ef1142e65d5a266fddca832ce59faa7cac0b9cf1be2bffca300d01ee387619c4ae12fd4438f203a0e4e1c47ec314861f4e9087cb33396a6873e8f9d2539a4b8e" := by
  decide +kernel

theorem scrypt_end : pbkdf2 [] (
      x!"79ccc193629debca047f0b70604bf6b62ce3dd4a9626e355fafc6198e6ea2b46d58413673b99b029d665c357601fb426a0b2f4bba200ee9f0a43d19b571a9c71ef1142e65d5a266fddca832ce59faa7cac0b9cf1be2bffca300d01ee387619c4ae12fd4438f203a0e4e1c47ec314861f4e9087cb33396a6873e8f9d2539a4b8e") 64 =
    x!"77d6576238657b203b19ca42c18a0497f16b4844e3074ae8dfdffa3fede21442fcd0069ded0948f8326a753a0fc81f17e8d3e0fb2e0d3628cf35e20c38d18906" := by
  decide +kernel

example : Scrypt.scrypt 4 1 1 [] [] 64 =
    x!"77d6576238657b203b19ca42c18a0497f16b4844e3074ae8dfdffa3fede21442fcd0069ded0948f8326a753a0fc81f17e8d3e0fb2e0d3628cf35e20c38d18906" := by
  have h : pieces (128 * 1) (pbkdf2 [] [] (1 * 128 * 1)) = [pbkdf2 [] [] 128] := by
    rw [Nat.one_mul, Nat.mul_one, scrypt_start]
    decide +kernel
  unfold Scrypt.scrypt
  dsimp only
  rw [h, List.flatMap_cons, List.flatMap_nil, List.append_nil, scrypt_start]
  show pbkdf2 [] ((Scrypt.roMix 16 _).flatMap word32le) 64 = _
  rw [scrypt_mix, scrypt_end]

/-- More than one lane and a length which is no multiple of that of the hash.  (Computed with another implementation of
scrypt.) -/
example : Scrypt.scrypt 1 1 2 (b!"please") (b!"NaCl") 40 =
    x!"33c9900d9a4c1ef99882b0368b447df426f1535700d36d006fb62b844e3ef5d444d0941a8ad9f1a1" := by
  decide +kernel

/-- More than one block. -/
example : (Scrypt.roMix 4 (words32le ((List.range 256).map UInt8.ofNat))).flatMap word32le =
    x!"2f83e828da98c659afbea3b4801470777977214c756acdd64d6debe8ecebd3ea8f4f381245c96084c14d40aba238ffc3e7c48d4346fb88cc2f10bc65ca17d78464c19fc0f929faeebfd341589c2e606b95f42c503153711667d338bf1bd1eeb91ec1b4d7910ac70c1d5b1dfa1d7ba69f3f9e8a56377e20112f303c259868c11803546400304008b5455d40e3ed82c32ee934b4426541373792656e0915e9530d3e73acfa37c067793f62c265b1fbdbdb9b00f20f9bb593aee579d53b3e6617e000c1f9d4b63c06f2705b2850e796fcd26942bb1f46688274ed4db19391b22a95dfe2a0df5dc0c34c43f05fc5344609b7eed271ebbce7f3dce5a4ce606d9a746f" := by
  decide +kernel

end Pfp.Tests
