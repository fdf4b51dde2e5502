import Verif.Proofs.Memory
import Verif.Proofs.ToyEnv

/-!
# C94: copies of secrets in memory given back

When a buffer grows, its contents stay in the block it occupied before.  The buffers in which the application puts secrets
together do not grow; the exceptions are long lines of input and long records.
-/

namespace Pfp.Props
open Pfp Memory

/-- **C94.**  Deriving keys and passwords leaves nothing behind, whatever the allocator and whether or not it succeeds. -/
theorem C94_derived (A : Allocator) (hA : A.Fits) (P : Prims) (password : Str) (salt : Bytes) (size : Nat) (bytes : Bytes)
    (charset : CharacterSet) (left : List Bytes) :
    (deriveBits A P password salt size left).2 = left ∧
    (deriveBits A P password salt size left).1.map Buf.data = Crypto.deriveBits P password salt size ∧
    (toPassword A bytes charset left).2 = left ∧
    (toPassword A bytes charset left).1.map Buf.data = (Crypto.toPassword bytes charset).map utf8 := by
  obtain ⟨cap, h⟩ := deriveBits_eq A P password salt size left
  rw [h, toPassword_eq hA]
  refine ⟨rfl, ?_, rfl, ?_⟩
  · cases Crypto.deriveBits P password salt size <;> rfl
  · cases Crypto.toPassword bytes charset <;> rfl

/-- **C94.**  The same for the base32 encoding. -/
theorem C94_base32 (A : Allocator) (hA : A.Fits) (input : Bytes) (left : List Bytes) :
    (base32Encode A input left).2 = left ∧
    (base32Encode A input left).1.map Buf.data = Crypto.base32Encode input ∧
    (base32Decode A input left).2 = left ∧
    (base32Decode A input left).1.map Buf.data = Crypto.base32Decode input := by
  rw [base32Encode_eq hA, base32Decode_eq hA]
  refine ⟨rfl, ?_, rfl, ?_⟩
  · cases Crypto.base32Encode input <;> rfl
  · cases Crypto.base32Decode input <;> rfl

/-- **C94.**  Generating a recovery code leaves nothing behind. -/
theorem C94_recovery_code (A : Allocator) (hA : A.Fits) (P : Prims) (overflowChecks : Bool) (nonce : Bytes) (password : Str)
    (salt key : Bytes) (left : List Bytes) :
    (Memory.generate A P overflowChecks nonce password salt key left).2 = left :=
  generate_left hA P overflowChecks nonce password salt key left

/-- **C94.**  The number of zero bytes appended to the password is determined by the capacity of a vector, of which only a lower
bound is promised.  If more is allocated than was asked for, no recovery code is generated, which is an error; never a
recovery code that is different from the one otherwise generated. -/
theorem C94_capacity (A : Allocator) (hA : A.Fits) (P : Prims) (hP : P.Lawful) (overflowChecks : Bool) (nonce : Bytes)
    (password : Str) (salt key : Bytes) (left : List Bytes) (hs : salt.length = 16) (hn : nonce.length = 12)
    (hk : key.length = 32) (size : Nat)
    (hsize : size = (utf8 password).length + RecoveryCodes.fillBytes (utf8 password).length) :
    (A.fresh size = size → (Memory.generate A P overflowChecks nonce password salt key left).1 =
      RecoveryCodes.generate P overflowChecks nonce password salt key) ∧
    (A.fresh size ≠ size → (Memory.generate A P overflowChecks nonce password salt key left).1 = .err .unexpectedData) := by
  subst hsize
  exact ⟨generate_exact hA P overflowChecks nonce password salt key left,
    generate_roomy hA hP overflowChecks password left hs hn hk⟩

/-- **C94.**  Reading a line with a secret gives that line.  Nothing is left behind if it fits into 1024 bytes. -/
theorem C94_line (A : Allocator) (hA : A.Fits) (input : Bytes) (left : List Bytes)
    (h : (Stdin.readLine input).1.length ≤ 1024) :
    ∃ buffer, readLine A input left = (.ok (buffer, (Stdin.readLine input).2), left) ∧
      buffer.data = (Stdin.readLine input).1 := by
  have hf := hA.fresh 1024
  unfold readLine
  rw [readLineLoop_eq, bind_ok (writeAll_room left _ _ (by
    rw [flatten_map_singleton]; simp only [withCapacity, List.length_nil]; omega))]
  exact ⟨_, rfl, by simp [withCapacity, flatten_map_singleton]⟩

/-- **C94.**  Of a longer line the beginning is left behind, as much of it as the buffer could hold, possibly several times. -/
theorem C94_long_line (A : Allocator) (hA : A.Fits) (input : Bytes) (left : List Bytes)
    (h : A.fresh 1024 < (Stdin.readLine input).1.length) :
    ∃ buffer blocks, readLine A input left = (.ok (buffer, (Stdin.readLine input).2),
        left ++ (Stdin.readLine input).1.take (A.fresh 1024) :: blocks) ∧
      buffer.data = (Stdin.readLine input).1 ∧
      ∀ block ∈ blocks, 1024 ≤ block.length ∧ block <+: (Stdin.readLine input).1 ∧ block ≠ (Stdin.readLine input).1 := by
  have hf := hA.fresh 1024
  obtain ⟨v, bs, h1, h2, h3⟩ := readLine_first hA left (Stdin.readLine input).1 1024 (by omega) h
  refine ⟨v, bs, ?_, h2, fun b hb => ?_⟩
  · unfold readLine
    rw [readLineLoop_eq, bind_ok h1]
    rfl
  · obtain ⟨g1, g2, g3⟩ := h3 b (by simp [hb])
    exact ⟨by omega, g1, fun he => by rw [he] at g2; omega⟩

/-- **C94.**  Serializing a record gives its text.  What is left behind are beginnings of the text; nothing if the text fits
into the 128 bytes initially allocated, and something if it does not fit into what was allocated. -/
theorem C94_json (A : Allocator) (hA : A.Fits) (value : Json) (left : List Bytes) :
    ∃ buffer blocks, toVec A value left = (.ok buffer, left ++ blocks) ∧ buffer.data = Serde.toVec value ∧
      ((Serde.toVec value).length ≤ 128 → blocks = []) ∧
      (A.fresh 128 < (Serde.toVec value).length → blocks ≠ []) ∧
      ∀ block ∈ blocks, block <+: Serde.toVec value ∧ block ≠ Serde.toVec value := by
  have hf := hA.fresh 128
  obtain ⟨v, bs, h1, h2, h3, h4, h5, h6⟩ := writeAll_spec hA left ((pieces value).map utf8) (withCapacity A 128)
    (by simp [withCapacity])
  rw [pieces_utf8] at h2 h4 h6
  simp only [withCapacity, List.nil_append, List.length_nil, Nat.zero_add] at h2 h4 h6
  refine ⟨v, bs, h1, h2, fun h => (h4 (by omega)).1, fun h => h6 (by omega) h, fun b hb => ?_⟩
  obtain ⟨_, g2, g3⟩ := h5 b hb
  rw [h2] at g2 g3
  exact ⟨g2, fun he => by rw [he] at g3; omega⟩

/-- **C94.**  The secret from which the names of the records are derived is serialized without leaving anything behind. -/
theorem C94_hmac_secret (A : Allocator) (hA : A.Fits) (secret : Bytes) (h : secret.length = 32) (left : List Bytes) :
    (toVec A (.str (Base64.encode secret)) left).2 = left := by
  obtain ⟨v, bs, h1, _, h3, _⟩ := C94_json A hA (.str (Base64.encode secret)) left
  rw [h1, h3, List.append_nil]
  have he : ∀ s : Str, (∀ c ∈ s, c ∈ Base64.encode secret) → (utf8 (s.flatMap Json.escapeChar)).length = s.length := by
    intro s hs
    induction s with
    | nil => rfl
    | cons c s ih =>
      have := base64_plain (hs c (by simp))
      rw [List.flatMap_cons, utf8_append, this.1, utf8_cons, utf8Char_ascii this.2]
      simp [utf8_nil, ih fun c hc => hs c (by simp [hc])]
  have hl := Base64.encode_length secret
  simp only [Serde.toVec, Json.print, Json.printStr]
  rw [utf8_cons, utf8_append, List.length_append, List.length_append, he _ fun _ h => h, hl, h]
  decide

/-- **C94.**  If the record of a stored password fits into the block initially allocated without its notes but not with them,
then serializing it leaves a block behind that contains the password in clear text. -/
theorem C94_stored (A : Allocator) (hA : A.Fits) (p : StoredPassword) (left : List Bytes)
    (hp : ∀ c ∈ p.password, Json.escapeChar c = [c])
    (hshort : (Serde.toVec (Serde.passwordToJson (.stored { p with notes := [] }))).length ≤ 128)
    (hlong : A.fresh 128 < (Serde.toVec (Serde.passwordToJson (.stored p))).length) :
    ∃ buffer blocks, toVec A (Serde.passwordToJson (.stored p)) left = (.ok buffer, left ++ blocks) ∧ blocks ≠ [] ∧
      ∀ block ∈ blocks, utf8 p.password <:+: block := by
  have hf := hA.fresh 128
  obtain ⟨a, b, h1, h2, h3⟩ := stored_pieces p
  have hpw : p.password.flatMap Json.escapeChar = p.password := flatMap_plain hp
  rw [hpw] at h3
  have hs : ((a.map utf8).flatten).length + 2 = (Serde.toVec (Serde.passwordToJson (.stored { p with notes := [] }))).length := by
    rw [← pieces_utf8, h2]
    simp [utf8_cons, utf8_nil, utf8Char]
  have hl : ((a.map utf8).flatten).length + ((b.map utf8).flatten).length =
      (Serde.toVec (Serde.passwordToJson (.stored p))).length := by
    rw [← pieces_utf8, h1]
    simp only [List.map_append, List.flatten_append, List.length_append]
  obtain ⟨v, bs, g1, _, _, _, g5, g6⟩ := writeAll_spec hA left (b.map utf8)
    ⟨A.fresh 128, (a.map utf8).flatten⟩ (by simp only; omega)
  refine ⟨v, bs, ?_, g6 (by simp only; omega) (by simp only; omega), fun block hb => ?_⟩
  · unfold toVec
    rw [h1, List.map_append, writeAll_append, bind_ok (writeAll_room left _ _ (by
      simp only [withCapacity, List.length_nil]; omega))]
    simpa [withCapacity] using g1
  · have := (g5 block hb).1
    simp only [flatten_utf8] at this
    obtain ⟨pre, hpre⟩ := h3
    rw [← hpre, utf8_append] at this
    exact (List.suffix_append _ _).isInfix.trans this.isInfix

/-! ## Examples -/

theorem std_fits : std.Fits := ⟨fun _ => Nat.le_refl _, fun cap n => by simp only [std]; omega⟩

/-- An allocator that always gives a bit more, as the documentation of `Vec` allows. -/
def roomy : Allocator := ⟨fun n => n + 16, fun cap n => cap + n⟩

example : std.Fits ∧ roomy.Fits := ⟨std_fits, ⟨fun n => Nat.le_add_right n 16, fun cap n => Nat.le_add_left n cap⟩⟩

/-- A derived password, with nothing left behind; one byte less of capacity, and all of it but one character would be. -/
example : toPassword std (b!"0123456789") ⟨true, true, true, true⟩ [] = (.ok ⟨10, b!"456789!#mN"⟩, []) := by decide +kernel

/-- A recovery code with the usual allocator, none with the other one. -/
example : let key := List.replicate 32 7
    (Memory.generate std toyPrims false (List.replicate 12 1) (c!"asdf") (List.replicate 16 2) key []).1 =
      RecoveryCodes.generate toyPrims false (List.replicate 12 1) (c!"asdf") (List.replicate 16 2) key ∧
    (Memory.generate roomy toyPrims false (List.replicate 12 1) (c!"asdf") (List.replicate 16 2) key []).1 =
      .err .unexpectedData := by decide +kernel

/-- A line of 1025 bytes: all but the last byte are left behind. -/
example : (readLine std (List.replicate 1025 97) []).2 = [List.replicate 1024 97] := by decide +kernel

/-- A stored password with notes. -/
def noted : StoredPassword where
  id := ⟨c!"example.com", c!"me", c!"1"⟩
  password := c!"top secret"
  notes := c!"The answer to the security question is in the other password manager."

example : (∀ c ∈ noted.password, Json.escapeChar c = [c]) ∧
    (Serde.toVec (Serde.passwordToJson (.stored { noted with notes := [] }))).length ≤ 128 ∧
    std.fresh 128 < (Serde.toVec (Serde.passwordToJson (.stored noted))).length ∧
    (toVec std (Serde.passwordToJson (.stored noted)) []).2 =
      [utf8 (c!"{\"type\":\"stored\",\"site\":\"example.com\",\"name\":\"me\",\"revision\":\"1\",\"password\":\"top secret\",\"notes\":\"")] := by
  decide +kernel

end Pfp.Props
