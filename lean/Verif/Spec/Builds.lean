import Verif.Model.Cli
import Verif.Spec.Recovery
import Verif.Spec.Universe

/-! # Builds with and without overflow checks -/

namespace Pfp.Spec

/-- The same environment with a build with or without overflow checks. -/
abbrev build (checks : Bool) (E : Env) : Env := { E with overflowChecks := checks }

/-- The same for the application. -/
abbrev cliBuild (checks : Bool) (C : Cli.CEnv) : Cli.CEnv := { C with env := build checks C.env }

/-- The recovery code of the password has more than 256 lines. -/
def LongCode (password : Str) : Prop := 256 * 14 < 45 + (utf8 password).length

/-- All that is going to be answered. -/
def allAnswers (answers : List (Option Str)) : Bytes := answers.flatMap fun a => utf8 (a.getD [])

/-- Out of what is going to be answered a code can be put together on which decoding crashes in a build with overflow
checks: it has more than 256 lines, or its lines are in order but it is the code of zero bytes only. -/
def ZeroOrLong (P : Prims) (primary : Str) (entered : Bytes) : Prop :=
  ∃ code, (significant code).Sublist (significant entered) ∧ (256 < (significant code).length / 24 ∨
    ∃ decoded salt nonce ciphertext k, RecoveryCodes.validate true code = .ok decoded ∧
      RecoveryCodes.dropChecksums 0 decoded = 1 :: (salt ++ nonce ++ ciphertext) ∧ salt.length = 16 ∧ nonce.length = 12 ∧
      P.gcmDecrypt (P.scrypt (utf8 primary) (utf8 (salt.map byteChar)) 32) nonce ciphertext = some (List.replicate k 0))

/-- What makes a command crash in a build with overflow checks only: `list --recovery` listing a stored password whose
code has more than 256 lines, or `add-stored --recovery` with answers that decoding crashes on. -/
def Overflows (C : Cli.CEnv) (c : Cli.Command) (s : Cli.CState) : Prop :=
  (∃ domain name showValues verbose, c = .list domain name showValues true verbose ∧
    ∃ site l z, ask C.env (Cli.ensureUnlocked C.env s).2.ps (.list site name) = .ok (.passwords l) ∧
      .stored z ∈ l ∧ LongCode z.password) ∨
  (∃ domain name revision assumeYes primary, c = .addStored domain name revision true assumeYes ∧
    (Cli.ensureUnlocked C.env s).2.ps.primaryPassword = some primary ∧
    ZeroOrLong C.env.prims primary (allAnswers s.answers))

/-- The command has the option `--recovery`. -/
def UsesRecovery (c : Cli.Command) : Prop :=
  (∃ domain name showValues verbose, c = .list domain name showValues true verbose) ∨
  (∃ domain name revision assumeYes, c = .addStored domain name revision true assumeYes)

end Pfp.Spec
