import Verif.Proofs.Prompt
import Verif.Props.Checksums
import Verif.Proofs.ToyCli

/-!
# Entering a recovery code: C52
-/

namespace Pfp.Props
open Spec Crypto RecoveryCodes Pfp.Cli

variable {E : Env}

/-! ## No crash -/

theorem recoveryLoop_no_panic (hP : E.prims.Lawful) (hoc : E.overflowChecks = false) (answers : List (Option Str)) :
    ∀ (acc : Bytes) (s : CState), (recoveryLoop E acc answers s).1 ≠ .panic := by
  induction answers with
  | nil => intro acc s; simp [recoveryLoop]
  | cons a rest ih =>
    intro acc s
    cases a with
    | none => exact ih acc _
    | some line =>
      by_cases hline : line = []
      · subst hline; rw [recoveryLoop_abort]; simp
      · cases hp : s.ps.primaryPassword with
        | none => rw [recoveryLoop]; simp [if_neg hline, hp, okOr]
        | some primary =>
          cases hd : decode E.prims E.overflowChecks (acc ++ utf8 line) primary with
          | ok v => rw [recoveryLoop_ok hline hp hd]; simp
          | panic =>
            rw [hoc] at hd
            exact absurd hd (C18_release_never_panics _ hP _ _)
          | err e =>
            rcases decode_reports hP hd with he | he
            · rw [recoveryLoop_error hline hp hd he]; simp
            · rcases validate_reports he with rfl | ⟨k, rfl, -⟩ | ⟨k, rfl, -⟩
              · rw [recoveryLoop_incomplete hline hp hd]; exact ih _ _
              · rw [recoveryLoop_mismatch hP hline hp hd]; exact ih _ _
              · rw [recoveryLoop_extra hP hline hp hd]
                cases s.confirms with
                | nil => simp
                | cons x l =>
                  cases x with
                  | false => simp
                  | true =>
                    simp only
                    have := C18_release_never_panics E.prims hP
                      ((significant (acc ++ utf8 line)).take (24 * k)) primary
                    rw [hoc]
                    unfold convert
                    split
                    · simp
                    · simp
                    · rename_i h; exact absurd h this

/-- C52: in a build without overflow checks the prompt never crashes, whatever is entered and in whatever state. -/
theorem C52_no_panic (hP : E.prims.Lawful) (hoc : E.overflowChecks = false) (s : CState) :
    (promptRecoveryCode E s).1 ≠ .panic := recoveryLoop_no_panic hP hoc _ _ _

example : Toy.env.prims.Lawful ∧ Toy.env.overflowChecks = false := ⟨Toy.env_lawful.prims, rfl⟩

/-! ## Entering a code -/

/-- A text of bytes below 128. -/
theorem utf8_ascii {w : Bytes} (h : ∀ b ∈ w, b.toNat < 128) : utf8 (w.map byteChar) = w := by
  induction w with
  | nil => rfl
  | cons b w ih =>
    rw [List.map_cons, utf8_cons, ih fun c hc => h c (by simp [hc]), utf8Char_ascii (by
      rw [byteChar_toNat]; exact h b (by simp)), byteChar_toNat]
    simp

section
variable {nonce salt key code : Bytes} {password primary : Str}

/-- The prompt, `n` times. -/
def prompts (n : Nat) : Str := (List.replicate n RECOVERY_PROMPT).flatten

theorem prompts_succ (n : Nat) : prompts (n + 1) = RECOVERY_PROMPT ++ prompts n := by
  simp [prompts, List.replicate_succ]

theorem prompts_one : prompts 1 = RECOVERY_PROMPT := by simp [prompts]

theorem prompts_add (m n : Nat) : prompts (m + n) = prompts m ++ prompts n := by
  unfold prompts
  rw [List.replicate_add, List.flatten_append]

/-- Entering a proper prefix of a code in pieces. -/
theorem recoveryLoop_prefix (hP : E.prims.Lawful) (hgen : generate E.prims E.overflowChecks nonce password salt key = .ok code)
    (more : List (Option Str)) (pieces : List Str) : ∀ (acc missing : Bytes) (s : CState),
    s.ps.primaryPassword = some primary → (∀ l ∈ pieces, l ≠ []) →
    significant code = significant (acc ++ utf8 pieces.flatten) ++ missing → missing ≠ [] → s.answers = pieces.map some ++ more →
    recoveryLoop E acc (pieces.map some ++ more) s =
      recoveryLoop E (acc ++ utf8 pieces.flatten) more { s with
        answers := more, out := s.out ++ prompts pieces.length,
        errors := s.errors ++ List.replicate pieces.length .incomplete } := by
  induction pieces with
  | nil =>
    intro acc missing s _ _ _ _ ha
    rw [List.flatten_nil, utf8_nil, List.append_nil, ← (show s.answers = more from ha), List.length_nil,
      List.replicate_zero, List.append_nil]
    simp [prompts]
  | cons l pieces ih =>
    intro acc missing s hp hne hs hm ha
    rw [List.flatten_cons, utf8_append, ← List.append_assoc] at hs
    rw [List.map_cons, List.cons_append, recoveryLoop_incomplete (hne l (by simp)) hp
      (C14_incomplete E.prims hP _ nonce salt key code password primary _ (significant (utf8 pieces.flatten) ++ missing) hgen
        (by rw [hs, significant_append, List.append_assoc]) (by simp [hm])).2]
    rw [ih (acc ++ utf8 l) missing { s with
        answers := pieces.map some ++ more, out := s.out ++ RECOVERY_PROMPT, errors := s.errors ++ [.incomplete] } hp
      (fun x hx => hne x (by simp [hx])) hs hm rfl, List.length_cons, prompts_succ, List.flatten_cons, utf8_append, ← List.append_assoc, List.replicate_succ]
    simp

theorem code_ne_nil (hP : E.prims.Lawful) (hgen : generate E.prims E.overflowChecks nonce password salt key = .ok code) :
    significant code ≠ [] := by
  intro h
  have := (C13_code_shape E.prims hP _ _ _ _ _ _ hgen).2
  rw [h, List.length_nil] at this
  omega

theorem decode_code (hP : E.prims.Lawful) (hgen : generate E.prims E.overflowChecks nonce password salt key = .ok code)
    (hkey : getEncryptionKey E.prims primary salt = .ok key) (hne : password ≠ [])
    (hlast : password.getLast? ≠ some (Char.ofNat 0)) :
    decode E.prims E.overflowChecks code primary = .ok password :=
  C19_trailing_nuls_lost E.prims hP _ nonce salt key code password primary 0 hkey hne hlast (by simpa using hgen)

/-- C52: entering a generated code in any number of non-empty pieces, in any layout, returns the password; for each piece
before the one completing the code it is reported that the code is incomplete. -/
theorem C52_pieces (hP : E.prims.Lawful) (s : CState) (hp : s.ps.primaryPassword = some primary)
    (hgen : generate E.prims E.overflowChecks nonce password salt key = .ok code)
    (hkey : getEncryptionKey E.prims primary salt = .ok key) (hne : password ≠ [])
    (hlast : password.getLast? ≠ some (Char.ofNat 0)) (pieces : List Str) (more : List (Option Str))
    (hpieces : ∀ l ∈ pieces, l ≠ []) (hcode : significant (utf8 pieces.flatten) = significant code)
    (hs : s.answers = pieces.map some ++ more) :
    ∃ k, k < pieces.length ∧ promptRecoveryCode E s = (.ok password, { s with
      answers := (pieces.drop (k + 1)).map some ++ more, out := s.out ++ prompts (k + 1), errors := s.errors ++ List.replicate k .incomplete }) := by
  show ∃ k, k < pieces.length ∧ recoveryLoop E [] s.answers s = _
  have hc := code_ne_nil hP hgen
  -- split at the piece that completes the code
  have key : ∀ (pieces : List Str) (acc : Bytes) (s : CState), s.ps.primaryPassword = some primary → (∀ l ∈ pieces, l ≠ []) →
      significant (acc ++ utf8 pieces.flatten) = significant code → significant (utf8 pieces.flatten) ≠ [] →
      ∃ k, k < pieces.length ∧ recoveryLoop E acc (pieces.map some ++ more) s = (.ok password, { s with
        answers := (pieces.drop (k + 1)).map some ++ more, out := s.out ++ prompts (k + 1), errors := s.errors ++ List.replicate k .incomplete }) := by
    intro pieces
    induction pieces with
    | nil => intro acc s _ _ _ h; exact absurd rfl h
    | cons l pieces ih =>
      intro acc s hp hl h hn
      rw [List.flatten_cons, utf8_append, ← List.append_assoc, significant_append] at h
      by_cases h0 : significant (utf8 pieces.flatten) = []
      · rw [h0, List.append_nil] at h
        refine ⟨0, by simp, ?_⟩
        rw [List.map_cons, List.cons_append, recoveryLoop_ok (hl l (by simp)) hp (v := password) (by
          rw [C12_layout_ignored _ _ _ _ _ h]
          exact decode_code hP hgen hkey hne hlast)]
        simp [prompts_one]
      · rw [List.map_cons, List.cons_append, recoveryLoop_incomplete (hl l (by simp)) hp
          (C14_incomplete E.prims hP _ nonce salt _ code password primary _ _ hgen h.symm h0).2]
        obtain ⟨k, hk, h'⟩ := ih (acc ++ utf8 l) { s with
            answers := pieces.map some ++ more, out := s.out ++ RECOVERY_PROMPT, errors := s.errors ++ [.incomplete] } hp
          (fun x hx => hl x (by simp [hx])) (by rw [significant_append]; exact h) h0
        refine ⟨k + 1, by simpa using hk, ?_⟩
        rw [h', List.replicate_succ, prompts_succ (k + 1)]
        simp
  rw [hs]
  exact key pieces [] s hp hpieces (by simpa using hcode) (by rw [hcode]; exact hc)

/-- A code exists for the toy storage, and it is a text that can be entered in two pieces. -/
theorem toy_code : ∃ code, generate Toy.env.prims Toy.env.overflowChecks (List.replicate 12 5) (c!"abc") (List.replicate 16 7)
      (toyPrims.scrypt (utf8 (c!"secret1")) (utf8 ((List.replicate 16 7).map byteChar)) 32) = .ok code ∧
    getEncryptionKey Toy.env.prims (c!"secret1") (List.replicate 16 7) =
      .ok (toyPrims.scrypt (utf8 (c!"secret1")) (utf8 ((List.replicate 16 7).map byteChar)) 32) ∧
    Toy.unlocked.ps.primaryPassword = some (c!"secret1") := by
  obtain ⟨code, h, -⟩ := C11_recovery_roundtrip Toy.env.prims Toy.env_lawful.prims Toy.env.overflowChecks (List.replicate 12 5)
    (List.replicate 16 7) _ (c!"abc") (c!"secret1") (by decide) (by decide) (getEncryptionKey_eq _ _ _) (by decide) (by decide)
    (.inl rfl)
  refine ⟨code, h, getEncryptionKey_eq _ _ _, ?_⟩
  obtain ⟨a, pos, ho⟩ := Toy.one_open
  exact ho.session.2.2

example (code : Bytes) (h : significant code ≠ []) :
    (∀ l ∈ [c!"-", (significant code).map byteChar], l ≠ []) ∧
    significant (utf8 [c!"-", (significant code).map byteChar].flatten) = significant code := by
  have hascii : ∀ c ∈ codeAlphabet, c.toNat < 128 := by decide
  refine ⟨by simp [h], ?_⟩
  simp only [List.flatten_cons, List.flatten_nil, List.append_nil]
  rw [utf8_append, utf8_ascii (w := significant code) fun b hb => hascii b (significant_mem hb), significant_append,
    significant_significant]
  rfl

/-- C52: if more than the code was entered, the user is shown the code and asked: yes gives the password, no is a cancellation. -/
theorem C52_extra (hP : E.prims.Lawful) (s : CState) (hp : s.ps.primaryPassword = some primary)
    (hgen : generate E.prims E.overflowChecks nonce password salt key = .ok code)
    (hkey : getEncryptionKey E.prims primary salt = .ok key) (hne : password ≠ [])
    (hlast : password.getLast? ≠ some (Char.ofNat 0)) (pieces : List Str) (last : Str) (more : List (Option Str))
    (missing extra : Bytes) (answer : Bool) (confirms : List Bool)
    (hpieces : ∀ l ∈ pieces, l ≠ []) (hcode : significant code = significant (utf8 pieces.flatten) ++ missing)
    (hmissing : missing ≠ []) (hover : significant (utf8 last) = missing ++ extra) (hextra : extra ≠ [])
    (hs : s.answers = pieces.map some ++ some last :: more) (hc : s.confirms = answer :: confirms) :
    promptRecoveryCode E s =
      (if answer then .ok password else .err .aborted, { s with
        answers := more, confirms := confirms,
        out := s.out ++ prompts (pieces.length + 1) ++ extraQuestion (layout (significant code)), errors := s.errors ++ List.replicate pieces.length .incomplete }) := by
  have hl : last ≠ [] := by
    intro h
    rw [h, utf8_nil, significant_nil] at hover
    exact hextra (List.append_eq_nil_iff.mp hover.symm).2
  show recoveryLoop E [] s.answers s = _
  rw [hs, recoveryLoop_prefix hP hgen (some last :: more) pieces [] missing s hp hpieces (by simpa using hcode) hmissing hs,
    List.nil_append]
  have hex : significant (utf8 pieces.flatten ++ utf8 last) = significant (code ++ extra) := by
    have he : significant extra = extra := significant_of_alphabet fun c hc' =>
      significant_mem (t := utf8 last) (by rw [hover]; simp [hc'])
    rw [significant_append, significant_append, he, hover, hcode, List.append_assoc]
  have hextra' : significant extra ≠ [] := by
    have he : significant extra = extra := significant_of_alphabet fun c hc' =>
      significant_mem (t := utf8 last) (by rw [hover]; simp [hc'])
    rw [he]; exact hextra
  obtain ⟨k, h1, -, h3, h4⟩ := C15_extra_data E.prims hP _ nonce salt _ code password primary extra hgen hextra'
  rw [recoveryLoop_extra hP hl (by exact hp) (by rw [C12_layout_ignored _ _ _ _ _ hex]; exact h3)]
  simp only [hc]
  cases answer with
  | false => simp [hex, h4, prompts_add, prompts_one]
  | true =>
    simp only [if_true]
    rw [hex, h4, prompts_add, prompts_one, C12_layout_ignored _ _ (significant code) code primary (significant_significant _),
      decode_code hP hgen hkey hne hlast]
    simp [convert]

/-- The answers are the lines of the code in order, each in any layout; in between there are answers that the library
reports, together with the lines before, as a mismatch in that line, and failures to read a line.  The messages are those
the user should see: that the code is incomplete, or which lines have been accepted. -/
inductive Entered (E : Env) (primary : Str) :
    (before remaining : List Bytes) → (answers : List (Option Str)) → (messages : List Message) → Prop
  | done (before : List Bytes) (answers : List (Option Str)) : Entered E primary before [] answers []
  | last {before : List Bytes} {line : Bytes} {text : Str} {answers : List (Option Str)} (ht : text ≠ [])
      (hl : significant (utf8 text) = line) : Entered E primary before [line] (some text :: answers) []
  | right {before remaining : List Bytes} {line : Bytes} {text : Str} {answers : List (Option Str)}
      {messages : List Message} (ht : text ≠ []) (hl : significant (utf8 text) = line) (hr : remaining ≠ [])
      (h : Entered E primary (before ++ [line]) remaining answers messages) :
      Entered E primary before (line :: remaining) (some text :: answers) (.incomplete :: messages)
  | wrong {before remaining : List Bytes} {text : Str} {answers : List (Option Str)} {messages : List Message}
      (ht : text ≠ []) (hl : decode E.prims E.overflowChecks (before.flatten ++ utf8 text) primary =
        .err (.recoveryCodeChecksumMismatch before.length)) (h : Entered E primary before remaining answers messages) :
      Entered E primary before remaining (some text :: answers) (.typo (layout before.flatten) :: messages)
  | unread {before remaining : List Bytes} {answers : List (Option Str)} {messages : List Message}
      (h : Entered E primary before remaining answers messages) :
      Entered E primary before remaining (none :: answers) messages

/-- C52: entering a generated code line by line returns the password, also if any number of lines reported as wrong were
entered in between: exactly the lines before are kept, and shown to the user. -/
theorem C52_typos (hP : E.prims.Lawful) (s : CState) (hp : s.ps.primaryPassword = some primary)
    (hgen : generate E.prims E.overflowChecks nonce password salt key = .ok code)
    (hkey : getEncryptionKey E.prims primary salt = .ok key) (hne : password ≠ [])
    (hlast : password.getLast? ≠ some (Char.ofNat 0)) (lines : List Bytes) (hlines : significant code = lines.flatten)
    (hsize : ∀ l ∈ lines, l.length = 24) (messages : List Message) (h : Entered E primary [] lines s.answers messages) :
    ∃ used left, s.answers = used ++ left ∧ promptRecoveryCode E s = (.ok password, { s with
      answers := left, out := s.out ++ prompts used.length, errors := s.errors ++ messages }) := by
  show ∃ used left, s.answers = used ++ left ∧ recoveryLoop E [] s.answers s = _
  have key : ∀ {before remaining : List Bytes} {answers : List (Option Str)} {messages : List Message},
      Entered E primary before remaining answers messages →
      ∀ (acc : Bytes) (s : CState), s.ps.primaryPassword = some primary → (∀ l ∈ before ++ remaining, l.length = 24) →
      (before ++ remaining).flatten = significant code → remaining ≠ [] → significant acc = before.flatten →
      ∃ used left, answers = used ++ left ∧ recoveryLoop E acc answers s = (.ok password, { s with
        answers := left, out := s.out ++ prompts used.length, errors := s.errors ++ messages }) := by
    intro before remaining answers messages h
    induction h with
    | done => intro _ _ _ _ _ h; exact absurd rfl h
    | @last before line text answers ht hl =>
      intro acc s hp h24 hc _ hacc
      have hb : significant (acc ++ utf8 text) = (before ++ [line]).flatten := by
        rw [significant_append, hacc, hl]; simp
      refine ⟨[some text], answers, rfl, ?_⟩
      rw [List.append_nil, List.length_singleton, prompts_one]
      refine recoveryLoop_ok ht hp ?_
      rw [C12_layout_ignored _ _ _ code _ (by rw [hb, hc])]
      exact decode_code hP hgen hkey hne hlast
    | @right before remaining line text answers messages ht hl h0 h ih =>
      intro acc s hp h24 hc _ hacc
      have hb : significant (acc ++ utf8 text) = (before ++ [line]).flatten := by
        rw [significant_append, hacc, hl]; simp
      rw [recoveryLoop_incomplete ht hp (C14_incomplete E.prims hP _ nonce salt _ code password primary _ remaining.flatten
        hgen (by rw [← hc, hb]; simp) (by
          obtain ⟨x, hx⟩ := List.exists_mem_of_ne_nil _ h0
          have := h24 x (by simp [hx])
          intro he
          rw [List.flatten_eq_nil_iff] at he
          rw [he x hx] at this
          cases this)).2]
      obtain ⟨used, left, rfl, h'⟩ := ih (acc ++ utf8 text) { s with
          answers, out := s.out ++ RECOVERY_PROMPT, errors := s.errors ++ [.incomplete] } hp
        (fun l hl => h24 l (by simpa using hl)) (by simpa using hc) h0 hb
      exact ⟨some text :: used, left, rfl, by rw [h', List.length_cons, prompts_succ]; simp⟩
    | @wrong before remaining text answers messages ht hl h ih =>
      intro acc s hp h24 hc hr hacc
      have hsig : significant (acc ++ utf8 text) = significant (before.flatten ++ utf8 text) := by
        rw [significant_append, significant_append, hacc, ← hacc, significant_significant]
      rw [recoveryLoop_mismatch hP ht hp (by rw [C12_layout_ignored _ _ _ _ _ hsig]; exact hl)]
      have hlen : before.flatten.length = 24 * before.length := by
        have := flatten_length (n := 24) (ls := before) fun l hl => h24 l (by simp [hl])
        omega
      have htake : (significant (acc ++ utf8 text)).take (24 * before.length) = before.flatten := by
        rw [significant_append, hacc]
        exact List.take_left' hlen
      obtain ⟨used, left, rfl, h'⟩ := ih ((significant (acc ++ utf8 text)).take (24 * before.length)) { s with
          answers, out := s.out ++ RECOVERY_PROMPT, errors := s.errors ++ [.typo (layout before.flatten)] } hp h24 hc hr (by
        rw [significant_of_alphabet fun _ h => significant_mem (List.mem_of_mem_take h), htake])
      refine ⟨some text :: used, left, rfl, ?_⟩
      rw [htake] at h' ⊢
      rw [h', List.length_cons, prompts_succ]
      simp
    | unread h ih =>
      intro acc s hp h24 hc hr hacc
      rename_i answers messages
      obtain ⟨used, left, hu, h'⟩ := ih acc { s with answers := answers, out := s.out ++ RECOVERY_PROMPT } hp h24 hc hr hacc
      refine ⟨none :: used, left, by rw [hu]; rfl, ?_⟩
      rw [recoveryLoop]
      dsimp only
      rw [h', List.length_cons, prompts_succ]
      simp
  refine key h [] s hp (by simpa using hsize) (by simpa using hlines.symm) ?_ rfl
  intro h0
  rw [h0] at hlines
  exact code_ne_nil hP hgen hlines

/-- Any lines of characters of the alphabet can be entered, here after a wrong line and a failure to read one. -/
example (lines : List Bytes) (h : ∀ l ∈ lines, l ≠ [] ∧ ∀ c ∈ l, c ∈ codeAlphabet) :
    Entered Toy.env (c!"secret1") [] lines
      (some (c!"aaaa-aaaa-aaaa-aaaa-aaaa-aaaa") :: none :: lines.map fun l => some (l.map byteChar))
      (.typo [] :: List.replicate (lines.length - 1) .incomplete) := by
  refine .wrong (by decide) (decode_of_validate_err ?_) (.unread ?_)
  · show validate false _ = _
    decide +kernel
  · have hascii : ∀ c ∈ codeAlphabet, c.toNat < 128 := by decide
    generalize ([] : List Bytes) = before
    induction lines generalizing before with
    | nil => exact .done _ _
    | cons l lines ih =>
      obtain ⟨h1, h2⟩ := h l (by simp)
      have hs : significant (utf8 (l.map byteChar)) = l := by
        rw [utf8_ascii fun b hb => hascii b (h2 b hb), significant_of_alphabet h2]
      cases lines with
      | nil => exact .last (by simpa using h1) hs
      | cons l' lines =>
        exact .right (by simpa using h1) hs (by simp) (ih (fun l hl => h l (by simp [hl])) _)

/-- C52: after a text reported as wrong in line `k` (from 0), exactly the first `k` lines are kept, and shown. -/
theorem C52_lines_kept (hP : E.prims.Lawful) (s : CState) (hp : s.ps.primaryPassword = some primary) (accepted : Bytes)
    (text : Str) (ht : text ≠ []) (k : Nat)
    (h : decode E.prims E.overflowChecks (accepted ++ utf8 text) primary = .err (.recoveryCodeChecksumMismatch k))
    (more : List (Option Str)) :
    24 * k ≤ (significant (accepted ++ utf8 text)).length ∧
    recoveryLoop E accepted (some text :: more) s =
      recoveryLoop E ((significant (accepted ++ utf8 text)).take (24 * k)) more { s with
        answers := more, out := s.out ++ RECOVERY_PROMPT,
        errors := s.errors ++ [.typo (layout ((significant (accepted ++ utf8 text)).take (24 * k)))] } :=
  ⟨decode_line hP (.inr h), recoveryLoop_mismatch hP ht hp h⟩

/-- C52: a wrong byte in a line.  The text is reported as wrong in that line, except that by chance it can have the
checksum of a last line when it is not the last one – the code is then taken to be complete –, or have the checksum of
an ordinary line when it is the last one – the code is then taken to be incomplete. -/
theorem C52_wrong_byte (hP : E.prims.Lawful) (hgen : generate E.prims E.overflowChecks nonce password salt key = .ok code)
    (lines : List Bytes) (hlines : significant code = lines.flatten) (hsize : ∀ l ∈ lines, l.length = 24) (i : Nat)
    (hi : i < lines.length) (text right : Bytes) (pos : Nat) (x : UInt8) (hright : base32Decode lines[i] = .ok right)
    (hpos : pos < right.length) (hx : right[pos] ≠ x) (htext : base32Decode (significant text) = .ok (right.set pos x)) :
    validate E.overflowChecks ((lines.take i).flatten ++ text) = .err (.recoveryCodeChecksumMismatch i) ∨
    (i + 1 < lines.length ∧ ∃ d, validate E.overflowChecks ((lines.take i).flatten ++ text) = .ok d) ∨
    (i + 1 = lines.length ∧ validate E.overflowChecks ((lines.take i).flatten ++ text) = .err .recoveryCodeIncomplete) := by
  obtain ⟨hn, hs, hk, ho⟩ := of_generate hP hgen
  obtain ⟨bs, e, h1, h2, h3, h4, h5, h6, h7⟩ := generate_ok hP (password := password) hn hs hk ho
  rw [h5] at hgen
  cases hgen
  rw [h6] at hlines
  have halpha : ∀ l ∈ lines, l.length = 24 ∧ ∀ c ∈ l, c ∈ codeAlphabet := fun l hl =>
    ⟨hsize l hl, fun c hc => significant_mem (t := layout e) (by rw [h6, hlines]; exact List.mem_flatten.mpr ⟨l, hl, hc⟩)⟩
  obtain ⟨rs, r1, r2, r3, r4⟩ := rows_of_lines lines halpha
  have hbr : ∀ r ∈ rowsFrom bs.length 0 bs, r.length = 15 := fun r hr => mem_rowsFrom h2 hr
  have e1 : rs = rowsFrom bs.length 0 bs := by
    have := base32Encode_injective h4 (by rw [hlines]; exact r3)
    rw [← chunks_flatten 15 (by omega) rs r2, ← this, chunks_flatten 15 (by omega) _ hbr]
  have hbl : bs.length = lines.length := by rw [← r1, e1, rowsFrom_length]
  have hir : i < rs.length := by omega
  have hrr : right = rs[i] := by
    have := base32_decode_encode (r4 i hir hi)
    rw [hright] at this
    cases this; rfl
  -- the rows before, and the wrong one
  have hib : i < bs.length := by omega
  have hrow : rs[i] = row (lineNumber bs.length i) bs[i] := by
    have : rs[i]? = (rowsFrom bs.length 0 bs)[i]? := by rw [e1]
    rw [show bs = bs.take i ++ bs[i] :: bs.drop (i + 1) by simp] at this
    rw [rowsFrom_append, List.getElem?_append_right (by rw [rowsFrom_length]; simp), rowsFrom_length] at this
    simp only [List.length_take, Nat.min_eq_left (Nat.le_of_lt hib), Nat.sub_self, rowsFrom, Nat.zero_add] at this
    rw [List.getElem?_eq_getElem hir, List.getElem?_cons_zero] at this
    simpa using this
  have hb14 : bs[i].length = 14 := h2 _ (List.getElem_mem _)
  have hr15 : right.length = 15 := by rw [hrr]; exact r2 _ (List.getElem_mem _)
  obtain ⟨v, c, hvc, hc14⟩ := exists_lineNumber (right.set pos x) (by simpa using hr15)
  have hv : v ≠ lineNumber bs.length i := by
    intro hv
    subst hv
    rw [hrr, hrow] at hvc
    have := row_set pos hb14 (by omega) hvc.symm
    have h' : right[pos]? = some x := by rw [hrr, hrow]; exact this
    rw [List.getElem?_eq_getElem hpos] at h'
    exact hx (by simpa using h')
  -- the text in rows
  have henc : base32Encode (right.set pos x) = .ok (significant text) := by
    obtain ⟨hd, hd'⟩ := C08_base32_decode (significant text)
    by_cases hc : (significant text).length % 8 = 0 ∧ ∀ c ∈ significant text, c ∈ codeAlphabet
    · obtain ⟨b, g1, -, g3⟩ := hd hc
      rw [htext] at g1
      cases g1; exact g3
    · rw [hd' hc] at htext; cases htext
  have hwr : ∀ r ∈ rs.take i ++ [right.set pos x], r.length = 15 := by
    intro r hr
    rcases List.mem_append.mp hr with hr | hr
    · exact r2 r (List.mem_of_mem_take hr)
    · simp at hr; subst hr; simpa using hr15
  have htk : base32Encode (rs.take i).flatten = .ok (lines.take i).flatten := by
    obtain ⟨rs', q1, q2, q3, q4⟩ := rows_of_lines (lines.take i) fun l hl => halpha l (List.mem_of_mem_take hl)
    have : rs' = rs.take i := by
      apply List.ext_getElem (by rw [q1, List.length_take, List.length_take, r1])
      intro j j1 j2
      simp only [List.length_take] at q1 j2
      have a := q4 j j1 (by rw [List.length_take]; omega)
      have b := r4 j (by omega) (by omega)
      rw [List.getElem_take] at a
      rw [List.getElem_take]
      exact base32Encode_injective a b
    rw [← this]; exact q3
  have hsig : significant ((lines.take i).flatten ++ text) = ((lines.take i).flatten ++ significant text) ++ [] := by
    rw [significant_append, List.append_nil, significant_of_alphabet]
    intro c hc
    obtain ⟨l, hl, hcl⟩ := List.mem_flatten.mp hc
    exact (halpha l (List.mem_of_mem_take hl)).2 c hcl
  obtain ⟨hval, hlen⟩ := validate_of_rows (oc := E.overflowChecks) hwr (tail := []) (by simp) _ (by
    rw [List.flatten_append, List.flatten_cons, List.flatten_nil, List.append_nil]
    exact base32Encode_append htk henc) hsig
  have hio : E.overflowChecks = false ∨ i ≤ 255 := ho.imp_right (by omega)
  have htake : rs.take i = rowsFrom bs.length 0 (bs.take i) := by
    rw [e1]
    conv_lhs => rw [show bs = bs.take i ++ bs.drop i by simp, List.length_append, ← List.length_append, List.take_append_drop]
    conv_lhs => rw [show rowsFrom bs.length 0 bs = rowsFrom bs.length 0 (bs.take i ++ bs.drop i) by simp]
    rw [rowsFrom_append]
    exact List.take_left' (by rw [rowsFrom_length]; simp; omega)
  have hrows := validateRows_rows (oc := E.overflowChecks) (n := bs.length) (by rw [h3]; exact ho) [right.set pos x] (bs.take i) 0
    (fun b hb => h2 b (List.mem_of_mem_take hb)) (by rw [List.length_take]; omega)
  rw [← htake, Nat.zero_add, List.length_take, Nat.min_eq_left (Nat.le_of_lt hib), hvc, validateRows_cons hio v c hc14] at hrows
  rw [hvc, hrows] at hval
  rw [List.length_nil, Nat.add_zero] at hlen
  rw [hval]
  unfold conclude
  by_cases c1 : v = 255 - UInt8.ofNat i
  · right; left
    refine ⟨?_, ?_⟩
    · by_contra hc
      apply hv
      unfold lineNumber
      rw [if_pos (by omega), c1]
    · rw [if_pos c1, validateRows_true]
      simp only [if_true, Res.bind_ok, Option.isSome_none, Bool.false_or, decide_eq_true_eq]
      rw [if_neg (by simp), if_neg (by rw [hlen]; omega)]
      exact ⟨_, rfl⟩
  · rw [if_neg c1]
    by_cases c2 : v = UInt8.ofNat i
    · right; right
      refine ⟨?_, ?_⟩
      · by_contra hc
        apply hv
        unfold lineNumber
        rw [if_neg (by omega), c2]
      · rw [if_pos c2]; rfl
    · left
      rw [if_neg c2]; rfl

/-- C52: the exceptions are real.  For every code there is a text that differs from the first line in a single byte and
with which the prompt ends at once, reporting that the code has too little data. -/
theorem C52_typo_may_abort (hP : E.prims.Lawful) (s : CState) (hp : s.ps.primaryPassword = some primary)
    (hgen : generate E.prims E.overflowChecks nonce password salt key = .ok code) (more : List (Option Str)) :
    ∃ (text : Str) (right : Bytes) (x : UInt8), base32Decode ((significant code).take 24) = .ok right ∧
      (∃ h : 13 < right.length, right[13] ≠ x) ∧ base32Decode (utf8 text) = .ok (right.set 13 x) ∧
      (s.answers = some text :: more →
        promptRecoveryCode E s = (.err (.lib .recoveryCodeInsufficientData), { s with
          answers := more, out := s.out ++ RECOVERY_PROMPT })) := by
  obtain ⟨hn, hs, hk, ho⟩ := of_generate hP hgen
  obtain ⟨bs, e, h1, h2, h3, h4, h5, h6, h7⟩ := generate_ok hP (password := password) hn hs hk ho
  rw [h5] at hgen
  cases hgen
  obtain ⟨b, bs', hbs⟩ : ∃ b bs', bs = b :: bs' := by
    cases bs with
    | nil => rw [List.length_nil] at h3; omega
    | cons b bs' => exact ⟨b, bs', rfl⟩
  have hb : b.length = 14 := h2 b (by rw [hbs]; simp)
  have hl0 : lineNumber bs.length 0 = 0 := by unfold lineNumber; rw [if_neg (by omega)]; rfl
  -- the first line
  obtain ⟨y, hy⟩ : ∃ y, base32Encode (row 0 b) = .ok y := by
    have := row_length (v := 0) hb
    obtain ⟨y, hy, _⟩ := encodeLoop_spec (row 0 b) (by omega)
    exact ⟨y, by rw [base32Encode_eq (by omega), hy]⟩
  obtain ⟨z, hz⟩ : ∃ z, base32Encode (rowsFrom bs.length 1 bs').flatten = .ok z := by
    have := flatten_length fun r hr => mem_rowsFrom (n := bs.length) (fun c hc => h2 c (by rw [hbs]; simp [hc])) (i := 1) (bs := bs') (r := r) hr
    obtain ⟨z, hz, _⟩ := encodeLoop_spec (rowsFrom bs.length 1 bs').flatten (by omega)
    exact ⟨z, by rw [base32Encode_eq (by omega), hz]⟩
  have hyz : e = y ++ z := by
    have := base32Encode_append hy hz
    rw [show row 0 b ++ (rowsFrom bs.length 1 bs').flatten = (rowsFrom bs.length 0 bs).flatten by
      rw [show rowsFrom bs.length 0 bs = rowsFrom bs.length 0 (b :: bs') by rw [← hbs], rowsFrom, hl0]; rfl, h4] at this
    cases this; rfl
  have hyl : y.length = 24 := by
    have h1 := (base32Encode_length hy).1
    have := row_length (v := 0) hb
    omega
  have htake : (significant (layout e)).take 24 = y := by rw [h6, hyz]; exact List.take_left' hyl
  -- the wrong byte
  have hsplit : b = b.take 13 ++ b[13] :: [] := by
    have := List.take_append_drop 13 b
    rw [List.drop_eq_getElem_cons (by omega), List.drop_eq_nil_of_le (by omega)] at this
    exact this.symm
  obtain ⟨x, hx, -⟩ := C09_checksum_bijective (b.take 13) [] 255 (pearsonHash b 0)
  have hset : b.set 13 x = b.take 13 ++ [x] := by
    rw [List.set_eq_take_append_cons_drop, if_pos (by omega), List.drop_eq_nil_of_le (by omega)]
  have hne : b[13] ≠ x := by
    intro h
    rw [← h, ← hsplit] at hx
    exact absurd (row_eq_iff.mp hx) (by decide)
  have hrow : (row 0 b).set 13 x = row 255 (b.set 13 x) := by
    rw [row, row, List.set_append_left _ _ (by omega), hset, hx]
  have hb' : (b.set 13 x).length = 14 := by simpa using hb
  have hrl : (row 255 (b.set 13 x)).length = 15 := row_length hb'
  obtain ⟨w, hw1, hw2, hw3, -⟩ := encodeLoop_spec (row 255 (b.set 13 x)) (by omega)
  have hw : base32Encode (row 255 (b.set 13 x)) = .ok w := by rw [base32Encode_eq (by omega), hw1]
  have hascii : ∀ c ∈ codeAlphabet, c.toNat < 128 := by decide
  have htext : utf8 (w.map byteChar) = w := utf8_ascii fun c hc => hascii c (hw3 c hc)
  have hwl : w.length = 24 := by omega
  refine ⟨w.map byteChar, row 0 b, x, ?_, ⟨by rw [row_length hb]; omega, ?_⟩, ?_, ?_⟩
  · rw [htake]; exact base32_decode_encode hy
  · unfold row
    rw [List.getElem_append_left (by omega)]
    exact hne
  · rw [htext, hrow]; exact base32_decode_encode hw
  · intro ha
    show recoveryLoop E [] s.answers s = _
    rw [ha]
    have hwa : ∀ c ∈ w, c ∈ codeAlphabet := hw3
    have hsw : significant w = w := significant_of_alphabet hwa
    obtain ⟨hv, hlen⟩ := validate_of_rows (oc := E.overflowChecks) (code := w) (rs := [row 255 (b.set 13 x)])
      (by simpa using hrl) (tail := []) (by simp) w (by simpa using hw) (by rw [hsw, List.append_nil])
    rw [validateRows_cons (.inr (by omega)) _ _ hb', if_pos (by decide), validateRows_true] at hv
    have hv' : validate E.overflowChecks w = .ok [row 255 (b.set 13 x)].flatten := by
      rw [hv]
      unfold conclude
      simp only [if_true, Res.bind_ok, Option.isSome_none, Bool.false_or, decide_eq_true_eq]
      rw [if_neg (by simp), if_neg (by rw [hsw, hwl]; decide)]
    refine recoveryLoop_error (by intro h; rw [List.map_eq_nil_iff] at h; rw [h] at hwl; cases hwl) hp ?_ (by simp)
    rw [List.nil_append, htext]
    unfold decode
    rw [hv']
    simp only [Res.bind_ok, List.flatten_cons, List.flatten_nil, List.append_nil]
    have hd : dropChecksums 0 (row 255 (b.set 13 x)) = b.set 13 x := by
      have := dropChecksums_row 0 (row 255 (b.set 13 x)) (b.set 13 x) [] 255 rfl hb'
      rw [List.append_nil] at this
      simpa [dropChecksums] using this
    rw [hd]
    have hhead : (b.set 13 x).head? = some VERSION := by
      rw [hset]
      have : b.head? = some VERSION := by
        have hpay : bs.flatten.head? = some VERSION := by rw [h1]; rfl
        rw [hbs, List.flatten_cons] at hpay
        cases b with
        | nil => simp at hb
        | cons c b => simpa using hpay
      cases b with
      | nil => simp at hb
      | cons c b => simpa using this
    rw [if_neg (by simp [hhead]), if_pos (by rw [hb']; decide)]

end

end Pfp.Props
