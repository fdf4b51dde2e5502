import Verif.Tests.Repository

/-!
# Test vectors for AES-256 and GCM

The example of FIPS 197, appendix C.3, and the test cases 13 to 15 of the GCM specification (256-bit keys, no additional data).
-/

namespace Pfp.Tests

open Standard

/-- FIPS 197, appendix C.3. -/
example : Aes.cipher (Aes.roundKeys ((List.range 32).map UInt8.ofNat)) (x!"00112233445566778899aabbccddeeff") =
    x!"8ea2b7ca516745bfeafc49904b496089" := by decide +kernel

/-- Test case 13. -/
example : Gcm.encrypt (List.replicate 32 0) (List.replicate 12 0) [] = x!"530f8afbc74536b9a963b4f1c4cb738b" := by decide +kernel

/-- Test case 14. -/
example : Gcm.encrypt (List.replicate 32 0) (List.replicate 12 0) (List.replicate 16 0) =
    x!"cea7403d4d606b6e074ec5d3baf39d18d0d1c8a799996bf0265b98b5d48ab919" := by decide +kernel

/-- Test case 15. -/
example : Gcm.encrypt (x!"feffe9928665731c6d6a8f9467308308feffe9928665731c6d6a8f9467308308") (x!"cafebabefacedbaddecaf888")
    (x!"d9313225f88406e5a55909c5aff5269a86a7a9531534f7da2e4c303d8a318a721c3c0c95956809532fcf0e2449a6b525b16aedf5aa0de657ba637b391aafd255") =
    x!"522dc1f099567d07f47f37a32a84427d643a8cdcbfe5c0c97598a2bd2555d1aa8cb08e48590dbb3da7b08b1056828838c5f61e6393ba7a0abcc9f662898015adb094dac5d93471bdec1a502270e3cc6c" := by
  decide +kernel

end Pfp.Tests
