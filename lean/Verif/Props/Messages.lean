import Verif.Model.Args
import Verif.Proofs.Bits

/-! # C86: error messages -/

namespace Pfp.Props
open Pfp Cli

/-! ## Which error it is -/

/-- How the message of an error begins, up to the first part that varies. -/
def beginning : CErr → Str
  | .lib .createDirFailure => c!"Failed creating directory for storage ("
  | .lib .fileReadFailure => c!"Failed reading storage file ("
  | .lib .fileWriteFailure => c!"Failed writing storage file ("
  | .lib .invalidBase64 => c!"Corrupt Base64 data in storage ("
  | .lib .invalidJson => c!"Corrupt JSON data in storage ("
  | .lib .invalidUtf8 => c!"Corrupt UTF-8 data in storage ("
  | .lib (.recoveryCodeExtraData _) => c!"Error in recovery code, extra data starting with line "
  | .lib (.recoveryCodeChecksumMismatch _) => c!"Error in recovery code, checksum mismatch in line "
  | .qrCode => c!"Error generating QR code: "
  | e => messageText [] e

theorem beginning_prefix (detail : Str) (e : CErr) : ∃ rest, messageText detail e = beginning e ++ rest := by
  rcases e with e | _ | _ | _ | _ | _
  · cases e
    all_goals first
      | exact ⟨_, rfl⟩
      | exact ⟨[], (List.append_nil _).symm⟩
      | exact ⟨_, by simp only [messageText, formatError, beginning, List.append_assoc]⟩
  all_goals first
    | exact ⟨_, rfl⟩
    | exact ⟨[], (List.append_nil _).symm⟩

/-- One error of each kind; the line is not looked at. -/
def kinds : List CErr :=
  [.lib .createDirFailure, .lib .fileReadFailure, .lib .fileWriteFailure, .lib .storageNotInitialized,
   .lib .unexpectedStorageFormat, .lib .passwordsLocked, .lib .keyMissing, .lib .unexpectedData, .lib .invalidCiphertext,
   .lib .invalidBase64, .lib .invalidJson, .lib .invalidUtf8, .lib .decryptionFailure, .lib .noSuchAlias, .lib .aliasToSelf,
   .lib .siteHasPasswords, .lib (.recoveryCodeExtraData 0), .lib (.recoveryCodeChecksumMismatch 0),
   .lib .recoveryCodeIncomplete, .lib .recoveryCodeWrongVersion, .lib .recoveryCodeInsufficientData, .primaryTooShort,
   .primaryMismatch, .noCharset, .qrCode]

/-- The error without the line. -/
def errKind : CErr → CErr
  | .lib (.recoveryCodeExtraData _) => .lib (.recoveryCodeExtraData 0)
  | .lib (.recoveryCodeChecksumMismatch _) => .lib (.recoveryCodeChecksumMismatch 0)
  | e => e

theorem errKind_mem (e : CErr) (h : e ≠ .aborted) : errKind e ∈ kinds := by
  rcases e with e | _ | _ | _ | _ | _
  · cases e
    case recoveryCodeExtraData l => exact show CErr.lib (.recoveryCodeExtraData 0) ∈ kinds by decide
    case recoveryCodeChecksumMismatch l => exact show CErr.lib (.recoveryCodeChecksumMismatch 0) ∈ kinds by decide
    all_goals decide
  all_goals first | decide | exact absurd rfl h

theorem beginning_errKind (e : CErr) : beginning (errKind e) = beginning e := by
  rcases e with e | _ | _ | _ | _ | _
  · cases e <;> rfl
  all_goals rfl

theorem kinds_apart : ∀ e ∈ kinds, ∀ e' ∈ kinds, e ≠ e' → ¬ beginning e <+: beginning e' := by decide +kernel

theorem beginning_ne : ∀ e ∈ kinds, beginning e ≠ [] := by decide +kernel

theorem natDigits_injective {m n : Nat} (h : Json.natDigits m = Json.natDigits n) : m = n := by
  rw [← Json.natDigits_val m, h, Json.natDigits_val]

/-- **C86 (unambiguous).**  The message tells the error, including the line of a recovery code, whatever the texts are that
come from the operating system and from the decoders. -/
theorem C86_unambiguous (d d' : Str) (e e' : CErr) (h : messageText d e = messageText d' e') : e = e' := by
  obtain ⟨r, hr⟩ := beginning_prefix d e
  obtain ⟨r', hr'⟩ := beginning_prefix d' e'
  have hk : errKind e = errKind e' := by
    by_cases ha : e = .aborted
    · by_cases hb : e' = .aborted
      · rw [ha, hb]
      · exfalso
        have := beginning_ne _ (errKind_mem e' hb)
        rw [beginning_errKind] at this
        rw [ha, hr'] at h
        exact this (List.append_eq_nil_iff.mp h.symm).1
    · by_cases hb : e' = .aborted
      · exfalso
        have := beginning_ne _ (errKind_mem e ha)
        rw [beginning_errKind] at this
        rw [hb, hr] at h
        exact this (List.append_eq_nil_iff.mp h).1
      · rw [hr, hr'] at h
        refine Decidable.byContradiction fun hne => ?_
        have h1 := kinds_apart _ (errKind_mem e ha) _ (errKind_mem e' hb) hne
        have h2 := kinds_apart _ (errKind_mem e' hb) _ (errKind_mem e ha) (Ne.symm hne)
        rw [beginning_errKind, beginning_errKind] at h1 h2
        rcases List.prefix_or_prefix_of_prefix (List.prefix_append (beginning e) r) (h ▸ List.prefix_append (beginning e') r')
          with h3 | h3
        · exact h1 h3
        · exact h2 h3
  have hline : ∀ (A : Str) (m n : Nat), A ++ Json.natDigits m ++ c!"." = A ++ Json.natDigits n ++ c!"." → m = n := by
    intro A m n h
    exact natDigits_injective (List.append_cancel_left (List.append_cancel_right h))
  rcases e with e | _ | _ | _ | _ | _
  · rcases e' with e' | _ | _ | _ | _ | _
    · cases e <;> cases e' <;> first
        | rfl
        | (cases hk; done)
        | (rw [hline _ _ _ h])
    all_goals cases e <;> cases hk
  all_goals
    rcases e' with e' | _ | _ | _ | _ | _
    · cases e' <;> cases hk
    all_goals first | rfl | cases hk

/-- **C86 (detail).**  The text from outside is in the message as it is; a message that does not depend on it never does. -/
theorem C86_detail (e : CErr) : (∀ d d', messageText d e = messageText d' e) ∨
    ∃ before after, ∀ d, messageText d e = before ++ d ++ after := by
  rcases e with e | _ | _ | _ | _ | _
  · cases e
    all_goals first
      | exact .inl fun _ _ => rfl
      | exact .inr ⟨_, _, fun _ => rfl⟩
  all_goals first
    | exact .inl fun _ _ => rfl
    | exact .inr ⟨_, [], fun d => by rw [List.append_nil]; rfl⟩

/-- **C86 (empty).**  Only abandoning a dialogue gives an empty message. -/
theorem C86_empty (d : Str) (e : CErr) : messageText d e = [] ↔ e = .aborted := by
  constructor
  · intro h
    exact C86_unambiguous d [] e .aborted h
  · rintro rfl
    rfl

/-! ## What is suggested -/

theorem suffix_last {A B : Str} (hA : A ≠ []) (h : A <:+ B) : B.getLast? = A.getLast? := by
  obtain ⟨x, rfl⟩ := h
  rw [List.getLast?_append]
  cases h : A.getLast? with
  | none => exact absurd (List.getLast?_eq_none_iff.mp h) hA
  | some c => rfl

/-- The messages of the library that end with a question mark. -/
theorem question_mark (d : Str) (e : Err) (h : (formatError d e).getLast? = some '?') :
    e = .fileReadFailure ∨ e = .storageNotInitialized ∨ e = .decryptionFailure ∨ e = .recoveryCodeWrongVersion := by
  cases e
  all_goals first
    | exact .inl rfl
    | exact .inr (.inl rfl)
    | exact .inr (.inr (.inl rfl))
    | exact .inr (.inr (.inr rfl))
    | (exfalso; simp [formatError] at h; done)
    | (exfalso
       have h2 : ∀ A : Str, (A ++ c!").").getLast? = some '.' := fun A => by simp
       have h3 : ∀ A : Str, (A ++ c!".").getLast? = some '.' := fun A => by simp
       unfold formatError at h
       first
         | (rw [h2] at h; cases h; done)
         | (rw [h3] at h; cases h; done)
         | (revert h; decide))

/-- **C86 (what to do).**  The program suggests `set-primary` exactly if the file cannot be read or is not a storage. -/
theorem C86_set_primary (d : Str) (e : Err) :
    c!"Maybe use set-primary subcommand first?" <:+ formatError d e ↔ e = .fileReadFailure ∨ e = .storageNotInitialized := by
  constructor
  · intro h
    rcases question_mark d e (suffix_last (by decide) h) with rfl | rfl | rfl | rfl
    · exact .inl rfl
    · exact .inr rfl
    · exact absurd (show _ <:+ formatError [] .decryptionFailure from h) (by decide +kernel)
    · exact absurd (show _ <:+ formatError [] .recoveryCodeWrongVersion from h) (by decide +kernel)
  · rintro (rfl | rfl)
    · exact ⟨c!"Failed reading storage file (" ++ d ++ c!"). ", by simp [formatError]⟩
    · exact ⟨c!"Storage is missing data. ", rfl⟩

/-- **C86 (wrong password).**  The program suggests that the primary password is wrong exactly if a decryption has failed. -/
theorem C86_wrong_password (d : Str) (e : Err) :
    c!"wrong primary password?" <:+ formatError d e ↔ e = .decryptionFailure := by
  constructor
  · intro h
    rcases question_mark d e (suffix_last (by decide) h) with rfl | rfl | rfl | rfl
    · exfalso
      have h1 : c!"wrong primary password?" <:+ (c!"Failed reading storage file (" ++ d) ++ c!"). Maybe use set-primary subcommand first?" := h
      have h2 := List.suffix_or_suffix_of_suffix h1 (List.suffix_append _ _)
      revert h2
      decide +kernel
    · exact absurd (show _ <:+ formatError [] .storageNotInitialized from h) (by decide +kernel)
    · rfl
    · exact absurd (show _ <:+ formatError [] .recoveryCodeWrongVersion from h) (by decide +kernel)
  · rintro rfl
    exact ⟨c!"Decryption failure, ", rfl⟩

/-! ## The texts -/

/-- The format strings of the sources (`utils.rs:15-56`, `set_primary.rs:20-25`, `add.rs:45`, `show.rs:50`). -/
def format : CErr → Str
  | .lib .createDirFailure => c!"Failed creating directory for storage ({})."
  | .lib .fileReadFailure => c!"Failed reading storage file ({}). Maybe use set-primary subcommand first?"
  | .lib .fileWriteFailure => c!"Failed writing storage file ({})."
  | .lib .storageNotInitialized => c!"Storage is missing data. Maybe use set-primary subcommand first?"
  | .lib .unexpectedStorageFormat => c!"Unexpected storage file format."
  | .lib .passwordsLocked => c!"Passwords are locked."
  | .lib .keyMissing => c!"No such value in storage."
  | .lib .unexpectedData => c!"Unexpected JSON data in storage."
  | .lib .invalidCiphertext => c!"Corrupt ciphertext data in storage."
  | .lib .invalidBase64 => c!"Corrupt Base64 data in storage ({})."
  | .lib .invalidJson => c!"Corrupt JSON data in storage ({})."
  | .lib .invalidUtf8 => c!"Corrupt UTF-8 data in storage ({})."
  | .lib .decryptionFailure => c!"Decryption failure, wrong primary password?"
  | .lib .noSuchAlias => c!"Site is not an alias."
  | .lib .aliasToSelf => c!"Cannot make a site an alias for itself."
  | .lib .siteHasPasswords => c!"Site has passwords, remove before making it an alias."
  | .lib (.recoveryCodeExtraData _) => c!"Error in recovery code, extra data starting with line {}."
  | .lib (.recoveryCodeChecksumMismatch _) => c!"Error in recovery code, checksum mismatch in line {}."
  | .lib .recoveryCodeIncomplete => c!"Error in recovery code, code is incomplete."
  | .lib .recoveryCodeWrongVersion => c!"Wrong recovery code version, generated by a newer application version?"
  | .lib .recoveryCodeInsufficientData => c!"Not enough data in the recovery code."
  | .primaryTooShort => c!"Primary password length should be at least 6 characters."
  | .primaryMismatch => c!"Primary passwords don't match."
  | .noCharset => c!"You need to allow at least one character set."
  | .aborted => c!""
  | .qrCode => c!"Error generating QR code: {}"

/-- The line of a recovery code that an error is about. -/
def codeLine : CErr → Option Nat
  | .lib (.recoveryCodeExtraData n) => some n
  | .lib (.recoveryCodeChecksumMismatch n) => some n
  | _ => none

/-- A format string with the argument in the place of `{}`. -/
def formatted (argument : Str) : Str → Str
  | '{' :: '}' :: rest => argument ++ rest
  | c :: rest => c :: formatted argument rest
  | [] => []

/-- **C86 (texts).**  Each message is the format string of the sources with the line or the text from outside put in. -/
theorem C86_texts (d : Str) (e : CErr) : messageText d e =
    formatted (match codeLine e with
      | some n => (toString n).toList
      | none => d) (format e) := by
  rcases e with e | _ | _ | _ | _ | _
  · cases e <;> simp [messageText, formatError, codeLine, format, formatted, Json.natDigits_eq]
  all_goals simp [messageText, codeLine, format, formatted]

/-- **C86 (other texts).**  What else is written to standard error: `utils.rs:159-169` and `shell.rs:94-98`. -/
theorem C86_other_texts (d : Str) (accepted : Bytes) (h : accepted ≠ []) :
    Message.text d (.typo []) = c!"The data you entered doesn't seem valid, please try again.\n\n" ∧
    Message.text d (.typo accepted) = formatted (accepted.map byteChar)
      (c!"The following lines were accepted:\n{}\nThe line after that doesn't seem valid, a typo maybe?\n\n") ∧
    Message.text d .incomplete = c!"Line accepted. The recovery code is still incomplete, please enter more data.\n\n" ∧
    Message.text d .noShell = c!"You cannot run a shell from a shell.\n" ∧
    Message.text d .noSetPrimary = c!"You cannot change primary password from a shell.\n" ∧
    Message.text d .notUnderstood = d ++ ['\n'] ∧
    ∀ e, Message.text d (.error e) = messageText d e ++ ['\n'] := by
  refine ⟨rfl, ?_, rfl, rfl, rfl, rfl, fun _ => rfl⟩
  simp [Message.text, h, formatted]

/-- A format string with its argument. -/
example : formatted (c!"12") (c!"line {}.") = c!"line 12." ∧ formatted (c!"12") (c!"lines {") = c!"lines {" := by decide

/-- The messages are what they look like. -/
example : formatError (c!"No such file or directory (os error 2)") .fileReadFailure =
      c!"Failed reading storage file (No such file or directory (os error 2)). Maybe use set-primary subcommand first?" ∧
    formatError [] (.recoveryCodeChecksumMismatch 12) = c!"Error in recovery code, checksum mismatch in line 12." := by
  decide +kernel

end Pfp.Props
