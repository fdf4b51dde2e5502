import Verif.Model.Crypto

/-!
# `pfp/src/recovery_codes.rs`
-/

namespace Pfp

/-- Models `pfp/src/passwords.rs:26-30` (`get_encryption_key`): the salt bytes read as Latin-1 characters and
encoded as UTF-8 are the scrypt salt. -/
def getEncryptionKey (P : Prims) (primaryPassword : Str) (salt : Bytes) : Res Bytes :=
  let saltStr : Str := salt.map byteChar
  Crypto.deriveKey P primaryPassword (utf8 saltStr)

namespace RecoveryCodes

/-- Models `recovery_codes.rs:14`. -/
def BLOCK_SIZE : Nat := 14
/-- Models `recovery_codes.rs:15` (the value is 24). -/
def LINE_SIZE : Nat := (BLOCK_SIZE + 1) / 5 * 8
/-- Models `recovery_codes.rs:16`. -/
def VERSION : UInt8 := 1
/-- Models `recovery_codes.rs:17`. -/
def VERSION_SIZE : Nat := 1
/-- Models `recovery_codes.rs:18`. -/
def SALT_SIZE : Nat := 16
/-- Models `recovery_codes.rs:19`. -/
def NONCE_SIZE : Nat := 12
/-- Models `recovery_codes.rs:20`. -/
def TAG_SIZE : Nat := 16

/-- `u8::to_ascii_uppercase`. -/
def toAsciiUppercase (b : UInt8) : UInt8 := if 97 ≤ b ∧ b ≤ 122 then b - 32 else b

/-- Models `recovery_codes.rs:138-156`: the loop of `format_code` with the counter `pos`, returning what is
pushed to `result`.  The pushed characters are ASCII, so the `String` is represented by its bytes. -/
def formatLoop (insertPunctuation : Bool) : Nat → Bytes → Bytes
  | _, [] => []
  | pos, byte :: code =>
    let uppercased := toAsciiUppercase byte
    if ¬ uppercased ∈ Crypto.BASE32_ALPHABET then formatLoop insertPunctuation pos code
    else
      let pos := pos + 1
      let punctuation : Bytes :=
        if insertPunctuation then
          if pos % LINE_SIZE = 0 then [10]                 -- '\n'
          else if pos % (LINE_SIZE / 2) = 0 then [58]      -- ':'
          else if pos % (LINE_SIZE / 6) = 0 then [45]      -- '-'
          else []
        else []
      uppercased :: (punctuation ++ formatLoop insertPunctuation pos code)

/-- Models `recovery_codes.rs:157-164`: drop one trailing punctuation character. -/
def popPunctuation (result : Bytes) : Bytes :=
  match result.getLast? with
  | some b => if b = 10 ∨ b = 58 ∨ b = 45 then result.dropLast else result
  | none => result

/-- Models `recovery_codes.rs:135-166` (`format_code`). -/
def formatCode (code : Bytes) (insertPunctuation : Bool) : Bytes :=
  popPunctuation (formatLoop insertPunctuation 0 code)

/-- Models `recovery_codes.rs:63-67`. -/
def fillBytes (passwordLen : Nat) : Nat :=
  match (VERSION_SIZE + SALT_SIZE + NONCE_SIZE + TAG_SIZE + passwordLen) % BLOCK_SIZE with
  | 0 => 0
  | rest => BLOCK_SIZE - rest

/-- Models `recovery_codes.rs:103-109`: the number mixed into the checksum of block `blockIndex`. -/
def virtualByte (overflowChecks : Bool) (blocks blockIndex : Nat) : Res UInt8 := do
  let last ← usizeSub overflowChecks blocks 1
  if blockIndex = last then
    let v ← usizeSub overflowChecks 255 blockIndex
    .ok (UInt8.ofNat v)
  else .ok (UInt8.ofNat blockIndex)

/-- Models `recovery_codes.rs:100-115`: the loop adding checksum bytes, with loop state `pos` and `output`. -/
def addChecksums (overflowChecks : Bool) (blocks : Nat) : Nat → Bytes → Bytes → Res Bytes
  | _, output, [] => .ok output
  | pos, output, byte :: input => do
    let output := output ++ [byte]
    if pos % BLOCK_SIZE = BLOCK_SIZE - 1 then
      let v ← virtualByte overflowChecks blocks (pos / BLOCK_SIZE)
      let output := output ++ [Crypto.pearsonHash (output.drop (output.length - BLOCK_SIZE)) v]
      addChecksums overflowChecks blocks (pos + 1) output input
    else addChecksums overflowChecks blocks (pos + 1) output input

/-- Models `recovery_codes.rs:51-118` (`generate`).  The 12 nonce bytes drawn inside `encrypt_data` are an
argument; the resulting `String` (ASCII) is represented by its bytes. -/
def generate (P : Prims) (overflowChecks : Bool) (nonceBytes : Bytes) (password : Str) (salt : Bytes)
    (encryptionKey : Bytes) : Res Bytes :=
  if salt.length ≠ SALT_SIZE then .err .unexpectedData                          -- 56-58
  else do
    let passwordLen := (utf8 password).length                                   -- 62
    let fill := fillBytes passwordLen                                           -- 63-67
    let passwordVec := utf8 password ++ List.replicate fill 0                   -- 69-74
    let encrypted ← Crypto.encryptData P nonceBytes passwordVec encryptionKey   -- 76
    let (nonceBase64, ciphertextBase64) ←
      okOr (Crypto.splitOnce '_' encrypted) .invalidCiphertext                  -- 77-78
    let nonce ← okOr (Base64.decode nonceBase64) .invalidBase64                 -- 80
    if nonce.length ≠ NONCE_SIZE then .err .unexpectedData                      -- 81-83
    else do
      let ciphertext ← okOr (Base64.decode ciphertextBase64) .invalidBase64     -- 85-86
      if ciphertext.length ≠ passwordLen + fill + TAG_SIZE then .err .unexpectedData  -- 87-89
      else do
        let input := VERSION :: (salt ++ nonce ++ ciphertext)                   -- 91-95
        let blocks := input.length / BLOCK_SIZE                                 -- 98
        let output ← addChecksums overflowChecks blocks 0 [] input              -- 99-115
        let encoded ← Crypto.base32Encode output                                -- 117
        .ok (formatCode encoded true)

/-- Models `recovery_codes.rs:247-260`: the loop over the rows, with loop state `i` and `seen_last`; returns
the final values of `seen_last` and `extra_row`.  (`extra_row` is only ever set on leaving the loop.) -/
def validateRows (overflowChecks : Bool) : Nat → Bool → List Bytes → Res (Bool × Option Nat)
  | _, seenLast, [] => .ok (seenLast, none)
  | i, true, _ :: _ => .ok (true, some i)
  | i, false, chunk :: rest =>
    match chunk[BLOCK_SIZE]? with
    | none => .panic
    | some checksum => do
      let v ← usizeSub overflowChecks 255 i
      if checksum = Crypto.pearsonHash (chunk.take BLOCK_SIZE) (UInt8.ofNat v) then
        validateRows overflowChecks (i + 1) true rest
      else if checksum ≠ Crypto.pearsonHash (chunk.take BLOCK_SIZE) (UInt8.ofNat i) then
        .err (.recoveryCodeChecksumMismatch i)
      else validateRows overflowChecks (i + 1) false rest

/-- Models `recovery_codes.rs:240-275` (`validate`). -/
def validate (overflowChecks : Bool) (code : Bytes) : Res Bytes := do
  let formatted := formatCode code false
  let decoded ← Crypto.base32Decode (formatted.take (formatted.length / LINE_SIZE * LINE_SIZE))
  let extraData : Bool := formatted.length % LINE_SIZE ≠ 0
  let (seenLast, extraRow) ← validateRows overflowChecks 0 false (chunks (BLOCK_SIZE + 1) decoded)
  if seenLast = false then .err .recoveryCodeIncomplete
  else if extraRow.isSome || extraData then
    .err (.recoveryCodeExtraData (match extraRow with
      | some row => row
      | none => formatted.length / LINE_SIZE))
  else .ok decoded

/-- Models `recovery_codes.rs:191-202`: drop every fifteenth byte, starting the count at `i`. -/
def dropChecksums : Nat → Bytes → Bytes
  | _, [] => []
  | i, byte :: rest =>
    if i % (BLOCK_SIZE + 1) = BLOCK_SIZE then dropChecksums (i + 1) rest
    else byte :: dropChecksums (i + 1) rest

/-- Models `recovery_codes.rs:222-228`: the loop moving `end_pos` back over zero bytes.  At `end_pos = 0` the
expression `end_pos - 1` underflows: a panic with overflow checks, else `get(usize::MAX)`, which is `None` as a
`Vec` has at most `isize::MAX` bytes. -/
def stripZeros (overflowChecks : Bool) (decrypted : Bytes) : Nat → Res Nat
  | 0 => if overflowChecks then .panic else .ok 0
  | n + 1 =>
    match decrypted[n]? with
    | some byte => if byte ≠ 0 then .ok (n + 1) else stripZeros overflowChecks decrypted n
    | none => .ok (n + 1)

/-- Models `recovery_codes.rs:188-238` (`decode`). `code` is the text's bytes (`code.as_bytes()`, line 241). -/
def decode (P : Prims) (overflowChecks : Bool) (code : Bytes) (primaryPassword : Str) : Res Str := do
  let decoded ← validate overflowChecks code                                    -- 189
  let withoutChecksums := dropChecksums 0 decoded                               -- 191-202
  if withoutChecksums ≠ [] ∧ withoutChecksums.head? ≠ some VERSION then
    .err .recoveryCodeWrongVersion                                              -- 203-205
  else if withoutChecksums.length < VERSION_SIZE + SALT_SIZE + NONCE_SIZE + TAG_SIZE then
    .err .recoveryCodeInsufficientData                                          -- 207-209
  else do
    let salt := (withoutChecksums.drop VERSION_SIZE).take SALT_SIZE             -- 211
    let nonce := (withoutChecksums.drop (VERSION_SIZE + SALT_SIZE)).take NONCE_SIZE  -- 212
    let ciphertext := withoutChecksums.drop (VERSION_SIZE + SALT_SIZE + NONCE_SIZE)  -- 213
    let encrypted := Base64.encode nonce ++ '_' :: Base64.encode ciphertext     -- 215-217
    let encryptionKey ← getEncryptionKey P primaryPassword salt                 -- 219
    let decrypted ← Crypto.decryptData P encrypted encryptionKey                -- 220
    let endPos ← stripZeros overflowChecks decrypted decrypted.length           -- 221-228
    okOr (fromUtf8 (decrypted.take endPos)) .invalidUtf8                        -- 229-237

end RecoveryCodes
end Pfp
