import Verif.Tests.Repository

/-!
# Test vectors for SHA-256 and HMAC

The examples of FIPS 180-4, the cases 1 to 3, 6 and 7 of RFC 4231, and lengths around those of blocks.  (The values for the
latter have been computed with another implementation.)
-/

namespace Pfp.Tests

open Standard

/-- FIPS 180-4. -/
example : Sha256.hash [] =
    x!"e3b0c44298fc1c149afbf4c8996fb92427ae41e4649b934ca495991b7852b855" := by decide +kernel

example : Sha256.hash (b!"abc") =
    x!"ba7816bf8f01cfea414140de5dae2223b00361a396177a9cb410ff61f20015ad" := by decide +kernel

example : Sha256.hash (b!"abcdbcdecdefdefgefghfghighijhijkijkljklmklmnlmnomnopnopq") =
    x!"248d6a61d20638b8e5c026930c3e6039a33ce45964ff2167f6ecedd419db06c1" := by decide +kernel

example : Sha256.hash (b!"abcdefghbcdefghicdefghijdefghijkefghijklfghijklmghijklmnhijklmnoijklmnopjklmnopqklmnopqrlmnopqrsmnopqrstnopqrstu") =
    x!"cf5b16a778af8380036ce59e7b0492370b249b11e8f07a51afac45037afee9d1" := by decide +kernel

/-- The bytes 0 to 53. -/
example : Sha256.hash ((List.range 54).map UInt8.ofNat) =
    x!"675f28acc0b90a72d1c3a570fe83ac565555db358cf01826dc8eefb2bf7ca0f3" := by decide +kernel

/-- The bytes 0 to 54. -/
example : Sha256.hash ((List.range 55).map UInt8.ofNat) =
    x!"463eb28e72f82e0a96c0a4cc53690c571281131f672aa229e0d45ae59b598b59" := by decide +kernel

/-- The bytes 0 to 55. -/
example : Sha256.hash ((List.range 56).map UInt8.ofNat) =
    x!"da2ae4d6b36748f2a318f23e7ab1dfdf45acdc9d049bd80e59de82a60895f562" := by decide +kernel

/-- The bytes 0 to 56. -/
example : Sha256.hash ((List.range 57).map UInt8.ofNat) =
    x!"2fe741af801cc238602ac0ec6a7b0c3a8a87c7fc7d7f02a3fe03d1c12eac4d8f" := by decide +kernel

/-- The bytes 0 to 62. -/
example : Sha256.hash ((List.range 63).map UInt8.ofNat) =
    x!"29af2686fd53374a36b0846694cc342177e428d1647515f078784d69cdb9e488" := by decide +kernel

/-- The bytes 0 to 63. -/
example : Sha256.hash ((List.range 64).map UInt8.ofNat) =
    x!"fdeab9acf3710362bd2658cdc9a29e8f9c757fcf9811603a8c447cd1d9151108" := by decide +kernel

/-- The bytes 0 to 64. -/
example : Sha256.hash ((List.range 65).map UInt8.ofNat) =
    x!"4bfd2c8b6f1eec7a2afeb48b934ee4b2694182027e6d0fc075074f2fabb31781" := by decide +kernel

/-- The bytes 0 to 118. -/
example : Sha256.hash ((List.range 119).map UInt8.ofNat) =
    x!"da18797ed7c3a777f0847f429724a2d8cd5138e6ed2895c3fa1a6d39d18f7ec6" := by decide +kernel

/-- The bytes 0 to 119. -/
example : Sha256.hash ((List.range 120).map UInt8.ofNat) =
    x!"f52b23db1fbb6ded89ef42a23ce0c8922c45f25c50b568a93bf1c075420bbb7c" := by decide +kernel

/-- The bytes 0 to 127. -/
example : Sha256.hash ((List.range 128).map UInt8.ofNat) =
    x!"471fb943aa23c511f6f72f8d1652d9c880cfa392ad80503120547703e56a2be5" := by decide +kernel

/-- RFC 4231, case 1. -/
example : hmacSha256 (List.replicate 20 0x0b) (b!"Hi There") =
    x!"b0344c61d8db38535ca8afceaf0bf12b881dc200c9833da726e9376c2e32cff7" := by decide +kernel

/-- RFC 4231, case 2. -/
example : hmacSha256 (b!"Jefe") (b!"what do ya want for nothing?") =
    x!"5bdcc146bf60754e6a042426089575c75a003f089d2739839dec58b964ec3843" := by decide +kernel

/-- RFC 4231, case 3. -/
example : hmacSha256 (List.replicate 20 0xaa) (List.replicate 50 0xdd) =
    x!"773ea91e36800e46854db8ebd09181a72959098b3ef8c122d9635514ced565fe" := by decide +kernel

/-- RFC 4231, case 6. -/
example : hmacSha256 (List.replicate 131 0xaa) (b!"Test Using Larger Than Block-Size Key - Hash Key First") =
    x!"60e431591ee0b67f0d8a26aacbf5b77f8e0bc6213728c5140546040f0ee37f54" := by decide +kernel

/-- RFC 4231, case 7. -/
example : hmacSha256 (List.replicate 131 0xaa) (b!"This is a test using a larger than block-size key and a larger than block-size data. The key needs to be hashed before being used by the HMAC algorithm.") =
    x!"9b09ffa71b942fcb27635fbcd5b0e944bfdc63644f0713938a7f51535c3a35e2" := by decide +kernel

/-- A key of 0 bytes. -/
example : hmacSha256 [] (b!"pfp") =
    x!"f21b23ee638542b4b584b5fa0406f4fc71069c21513e047d247d2b3a2e61cea7" := by decide +kernel

/-- A key of 32 bytes. -/
example : hmacSha256 ((List.range 32).map UInt8.ofNat) (b!"pfp") =
    x!"6df2d982d7a15926deef3cb8f146f5cf889333571ec14ddd0a494e52ff87f487" := by decide +kernel

/-- A key of 63 bytes. -/
example : hmacSha256 ((List.range 63).map UInt8.ofNat) (b!"pfp") =
    x!"c94a7c69a6a6b56d4d7ef6954ed5b191686ae3900da94780a25a5ccefb4bd2b3" := by decide +kernel

/-- A key of 64 bytes. -/
example : hmacSha256 ((List.range 64).map UInt8.ofNat) (b!"pfp") =
    x!"4850a22894a2c2c2f97af259c08f2521a7dd06b1b5b91b2895e1c912a10f1079" := by decide +kernel

/-- A key of 65 bytes. -/
example : hmacSha256 ((List.range 65).map UInt8.ofNat) (b!"pfp") =
    x!"ad77be1a94e186620df51509c17f9d2b369bb78dba517cd00b5ba4129c2bf42e" := by decide +kernel

end Pfp.Tests
