# Formal model of palant/pfp-cli in Lean 4

## 1. Layout

`lean/Verif/` has five layers.  A reader who wants to know *what is claimed* needs `Model`, `Spec` and the theorem
statements in `Props`; `Proofs` contains only lemmas.

| Layer | Contents |
|---|---|
| `Model/` | the code, function by function; every definition cites file and lines in `/repo` |
| `Spec/` | vocabulary the properties are stated in: the abstract password table, histories, texts in use, listing layout, runs, processes, published formats |
| `Proofs/` | lemmas (round trips, simulation, invariants) and a toy environment used in examples |
| `Props/` | the property theorems `Cxx_…`, each with an `example` showing that a non-trivial case meets its hypotheses |
| `Tests/` | tests of the repository, evaluated on the model (no claims; evidence that the model is faithful) |

### 1.1 Model

| Lean module | Models | Kind |
|---|---|---|
| `Model/Prelude.lean` | byte strings, Rust `String` (list of Unicode scalar values), UTF-8, `Result` + panic, wrapping/checked subtraction | own code + std |
| `Model/Base64.lean` | `base64` 0.13 encode/decode (`STANDARD`, padded) | dependency, concrete |
| `Model/Crypto.lean` | `pfp/src/crypto.rs` | repo, function by function |
| `Model/Json.lean` | `serde_json` printer and parser (depth limit, number grammar, escapes, surrogates) | dependency, concrete |
| `Model/Types.lean` | `pfp/src/storage_types/*`, `pfp/src/json/*`, incl. derived serde code (tagged, flattened, defaults, duplicates) | repo |
| `Model/StorageIO.lean` | `pfp/src/storage_io/{mod,file}.rs`, `fs::write` with faults and crash points | repo + OS |
| `Model/Storage.lean` | `pfp/src/storage.rs` | repo |
| `Model/Passwords.lean` | `pfp/src/passwords.rs` | repo |
| `Model/Generic.lean` | `Storage<IO>` and `Passwords<IO>` for any `StorageIO`, `pfp/src/storage_io/memory.rs` | repo |
| `Model/RecoveryCodes.lean` | `pfp/src/recovery_codes.rs` | repo |
| `Model/Cli.lean` | `cli/src/processor/*.rs`, `cli/src/main.rs` (`main_inner`), the length validator of `cli/src/args.rs` | repo |
| `Model/Wait.lean` | the end of the program with `--wait` (`Shutdown` in `cli/src/main.rs`) | repo |
| `Model/Terminal.lean` | `cli/src/**` once more, with one input for all prompts and one sequence of events | repo; `question` as an arbitrary reaction to lines |
| `Model/Stdout.lean` | the two ways to standard output: `LineWriter` of the standard library (1024 bytes) and writes to the file descriptor | std, concrete; `question` as flushing its prompts |
| `Model/Memory.lean` | the buffers in `crypto.rs`, `recovery_codes.rs`, `utils.rs` and `json::to_vec` with their capacities and the blocks given back on growing; `cli/src/leaking_allocator.rs` | repo; `Vec` by its contract, `serde_json::to_vec` concrete |
| `Model/Allocator.lean` | `cli/src/leaking_allocator.rs`, `cli/src/logging_allocator.rs`, the provided methods of `GlobalAlloc`; the memory of the process | repo; the system's allocator by its contract |
| `Model/Stdin.lean` | the reading of standard input in `cli/src/processor/utils.rs` (`prompt_secret_text`), byte by byte | repo |
| `Model/Piped.lean` | standard input that is not a terminal: the buffer of `read_line` beside the reading of `prompt_secret_text` | the standard library by its contract; whether `question` shares the buffer is a parameter |
| `Model/Args.lean` | `cli/src/args.rs`, the reading of lines in `cli/src/processor/shell.rs`, `format_error`, `main` with its messages, `--wait`, exit status and history file | repo; clap 3.2 and shellwords 1.1 as dependencies, concrete |
| `Model/Sha256.lean`, `Scrypt.lean`, `AesGcm.lean`, `Standard.lean` | SHA-256, HMAC, scrypt, AES-256, GCM: the published algorithms, as an instance of the primitives | dependencies, concrete |
| `Model/Wild.lean` | `wildmatch` 2.1 | dependency, concrete |
| `Model/Calls.lean` | `FileIO::load` and `flush` once more, as system calls of several processes on one file | repo; the operating system by its contract |
| `Model/QrCode.lean` | `qrcodegen` 1.8 as far as `encode_text` uses it: modes, versions, error correction, drawing, masks | dependency, concrete |

### 1.2 Modelling rules

* `&mut self` methods are state transformers `M σ α := σ → Res α × σ` returning the new state also on errors (Rust does
  not roll back).  `Result` stays data; a panic is a third outcome (`Res.panic`); in the command line model a prompt without
  further input is a fourth one (`COut.blocked`).
* `HashMap` is an association list with distinct keys.  Iteration order is an arbitrary function `Env.order` of the epoch
  (number of the map instance) and the contents, constrained only to give a permutation.
* Randomness is an arbitrary byte stream `Env.rand` with a read position (`World.rpos`).
* Each file write has an arbitrary outcome from `Env.fs`: success, directory not created, file not opened, or a failure
  after any number of bytes (`World.fpos` counts the writes).  Crash points are `FileIO.CrashDisk`.
* `overflowChecks` selects debug or release arithmetic for `usize` subtraction; theorems hold for both unless stated.
* User input is an arbitrary list of lines (secrets), possibly followed by a line that is not UTF-8, confirmations and
  answers.  That input of any bytes is such a list is C84.  Secrets, confirmations, answers and commands of a shell come from
  separate lists.  At a terminal they come from one list; that such runs are runs with separate lists is C93
  (`Model/Terminal.lean`).
* Theorems quantify over all of these.
* Cryptographic primitives (scrypt, AES-256-GCM, HMAC-SHA256) are a structure `Prims` of functions, with a predicate
  `Prims.Lawful` (output lengths; decryption inverts encryption).  The published algorithms are one such structure
  (`Standard.prims`), and `Prims.Lawful` is proved of them (C77), so that for the real program it is not an assumption.
  `wildmatch` is an arbitrary function `Env.wild`; where a theorem needs that `*` matches everything, this is a hypothesis,
  which `wildMatch` (the concrete model) fulfils (C79).

### 1.3 Assumptions about cryptography

They are never global laws (injectivity of a 32-byte digest is contradictory) but hypotheses: `Secure E U` says, for the
texts of a universe `U` (sites, names, revisions, primary passwords in use): no two of them have the same HMAC under a
secret drawn, and a key derived from another primary password in `U` does not authenticate the stored secret.  The same is
assumed of the secrets of storages created by other programs, if `U` admits such files (`Universe.foreign`; an `Origin` is
where the secrets of a storage come from).  Histories (`Reachable`, `SoundReachable`, `System.Arises`) may start without a
storage file, with one that cannot be loaded, or with one of another program in the published format.
`Proofs/ToyEnv.lean` shows that these hypotheses can be met together; all examples use it.

## 2. Trusted base

* Lean's kernel.  Axioms: no theorem uses anything but `propext`, `Classical.choice`, `Quot.sound`; there is no own axiom, no
  `sorry`, no `native_decide`, no `bv_decide`.  Dependence of the theorems in `MANIFEST.json` (from `#print axioms`):
  * `Quot.sound` only: C100_system;
  * `propext` only: C07_nul_collision, C10_format_code, C48_already, C48_not_initialized, C71_words, C71_mismatch,
    C71_unambiguous, C71_quoted, C80_lines, C86_detail, C97_whole, C105_written, C108_lawful;
  * `propext`, `Quot.sound`: C05_no_characters, C05_empty_charset_panics, C09_checksum_detects, C12_layout_ignored,
    C25_revision_one, C26_www_ignored, C32_refused, C32_together, C32_locked, C33_failure_changes_nothing,
    C33_authenticated, C36_reported, C36_which_error, C36_memory, C36_failed_reset, C36_data_loss,
    C40_encrypt_roundtrip, C40_decrypt_outcomes, C42_recovery_code, C46_add_stores, C46_add_stored_stores,
    C46_set_primary, C46_unreadable_replaced, C47_set, C47_refused, C47_trim, C48_first_accepted, C48_never_gives_up,
    C48_no_effect, C48_commands, C51_ties, C53_operations, C53_no_reset, C53_no_error, C53_told, C53_continues,
    C53_lock, C55_modules, C55_determines, C59_recovery_code, C59_failure_changes_nothing, C60_commands,
    C63_undisturbed, C64_show, C64_remove, C64_alias_set, C64_alias_remove, C64_alias_show, C64_notes, C64_notes_set,
    C64_add, C64_add_stored, C64_add_stored_end, C64_set_primary_question, C66_utf8, C66_base64, C69_shell,
    C69_nonce_crash, C72_refused, C73_messages, C73_no_message, C77_lawful, C77_environment, C77_exact, C77_key_stream,
    C77_sbox, C77_padding, C77_hmac, C79_pattern, C79_star, C79_plain, C79_pieces, C80_appended, C80_commands,
    C80_reason, C83_between, C83_undisturbed, C84_unwritten, C84_run, C84_shell, C84_crash, C85_once, C86_unambiguous,
    C86_empty, C86_set_primary, C86_wrong_password, C86_other_texts, C89_file, C89_contract, C89_histories, C90_unbound,
    C90_old_file, C93_terminal, C93_asked, C93_failure, C93_shell, C93_history, C94_derived, C94_base32,
    C94_recovery_code, C94_capacity, C94_line, C94_json, C94_hmac_secret, C94_stored, C97_bytes, C98_order, C98_prompt,
    C98_end, C98_buffer, C100_kept, C100_grown, C100_fresh, C100_log, C100_shutdown, C104_waits, C104_runs,
    C108_operation, C108_operations, C108_decode;
  * all three: the others.
* The reading of the Rust code into the model.  As a check, the unit tests of `pfp/src/*.rs` have been run on the model with the
  published algorithms: all expected values come out, among them the very bytes of encrypted records, recovery codes and
  generated passwords.  Some of them are checked by the kernel in `Tests/Repository.lean`, and published test vectors in
  `Tests/Scrypt.lean`, `Tests/Sha256.lean` and `Tests/AesGcm.lean`.  The integration tests `cli/tests/cli/*.rs` have been
  rewritten for the model of the whole program and succeed (`Tests/Commands.lean`, some of them also step by step at a terminal
  in `Tests/Sessions.lean`; evaluated at compile time, no part of any proof).  The picture of a QR code in the tests is the one the
  model draws, and the reader of C95 reads the password from it (`Tests/QrCode.lean`).
* That the crates `scrypt`, `aes-gcm`, `hmac`, `sha2` compute the published algorithms (only where a theorem speaks of
  `Standard.prims`).
* The behaviour of the dependencies as modelled (base64, serde, serde_json, enumset, clap's parser as far as `args.rs` uses
  it, `shellwords`, `qrcodegen`, std UTF-8 and string functions,
  `question`, `rpassword`, `rustyline` as sources of lines, `LineWriter` of std), written from their documentation since their source is not in
  the sandbox.
* The texts in use contain no NUL character in sites and names (`Universe.site_nul`, `name_nul`); C07 shows that with NUL
  characters identities do collide.

### Not modelled

* clap's help and usage texts (a command line that gives no command is one outcome, `Exit.usage`); arguments that are not
  Unicode; completion and abbreviation of subcommands (not enabled in `args.rs`);
* how the default paths are found (`app_dirs2`; they are parameters), the format of the
  history file (`CEnv.saveHistory` is an arbitrary function of the file before, the file now and the lines entered), loading of
  the history (lines of it can only be recalled by the user, which is entering them);
* input from a pipe whose writer neither waits for the prompts nor has written everything before (what is in the buffer then
  depends on timing); files of more than 8192 bytes with prompts of different kinds (C103 has the other cases);
* writes to standard output that fail (the program panics: C101 tells what the file is then, for every event at which this may happen;
  messages of the panic are not modelled), the prompt of `rustyline`;
* terminal handling (echo), timing, the backtraces in the log of `logging_allocator.rs`; of memory only buffers that grow (C94), not that `secrecy` erases what
  is dropped nor copies made within dependencies;
* what the single processes do with a file that is a mixture (C83 is about files written in one go, C97 about the bytes of files
  written in portions; of what is loaded from any bytes speak C56 and C90).

## 3. Plan per property

* C01–C05, C58 `to_password`: loop as recursion over bytes with the `seen` set; invariant "missing classes ≤ remaining
  characters"; for C58 bytes are constructed for a given text.
* C06, C07, C54: equational reasoning on salt construction; injectivity of NUL-separated concatenation and of UTF-8.
* C08, C09: bit-level lemmas per 5-byte chunk; the Pearson table is a permutation because 467 is odd.
* C10–C19: `format_code` as a filter plus punctuation; rows of 14+1 bytes; validation as a recursion over rows; the key fact
  is injectivity of the checksum in the line number.
* C20–C36, C41–C45, C59: refinement.  Abstract state = alias table + password table + saved copy (`Spec/Vault.lean`);
  abstraction relation `Rep` over the encrypted store; one simulation lemma per operation (`Proofs/Simulation.lean`);
  induction over histories.  Single properties are corollaries or proved directly on the model.
* C37–C40, C56: JSON printer/parser round trip, prefix-freeness of the printed object, ciphertext framing; C56 is about
  storages with arbitrary contents.
* C46–C53, C57, C60, C61, C64: command processors over input scripts; `Via` relates commands to library operations.
* C55: the half-block rendering has a left inverse.
* C62: transport of recovery codes between two environments.
* C63: processes with private memory and a common file; each is a history in the sense of the others.
* C66–C68: `Spec/Published.lean` spells out the formats from bits upwards (Base64, Base32, JSON texts, digests, checksums, the
  password algorithm), independently of the model's encoders; each encoder is shown to agree with it, and C66 adds the
  invariant that a file that can be loaded was written in whole.
* C65: runs of the program, with the invariant `Kept` (entry in memory and in the file unless that is unreadable).
* C69: every panic of the model is traced to its cause (`Spec/Calm.lean`, `Proofs/Calm.lean`), then excluded by the
  invariants of histories.

* C70–C72: the grammar of command lines and of quoting is stated as inductive relations on texts (`Spec/CommandLine.lean`); the
  parser is shown to decide them.
* C75: the JSON grammar and the shapes of records as inductive relations (`Spec/JsonText.lean`, `Spec/Records.lean`); the
  parser is shown to decide the grammar by induction on a bound of the size, and the derived `Deserialize` code the shapes.
* C76: storage files of other programs (`StorageFile`, `ForeignFile` in `Spec/Universe.lean`; `Spec/Foreign.lean`,
  `Proofs/Foreign.lean`, `Props/Foreign.lean`): files in the published format, however their JSON texts are spelled, open with
  their password, show their contents, and stay in the published format when changed.  C66 (the exact bytes) speaks of files
  created by this program (`Universe.Own`).
* C73, C74: `main` from arguments to exit status over a file system; C74 composes C70, C65 and C73.

* C77, C78: the algorithms as functions on lists of bytes; GCM's multiplication is multiplication by polynomials modulo an
  irreducible polynomial.  That it has no zero divisors is shown by computing the order of x, which is 2^128 − 1 (this number is
  factored, the factors are proved prime): all non-zero elements are powers of x.
* C79: patterns as an inductive relation.
* C80: every computation of the command line is shown to commute with texts printed before (`Framed` in
  `Proofs/Frame.lean`), so statements about streams reduce to runs starting with empty ones.
* C81: two executions are compared.  `Twins` (`Spec/Secrecy.lean`) relates states reached by the same operations up to the
  values stored; the abstract states then agree up to values (`Paired`, `Proofs/Secrecy.lean`), and commands run in step on
  them (`Par`, `Proofs/Parallel.lean`).  Two assumptions are needed.  Names and revisions must be told apart by the sort text
  (`Tieless`, see C51), as the order of ties comes from the hash map.  Both files must be readable or both not
  (`LoadAlike`): a write that fails after a given number of bytes may cut one file short and not the other.
* C82: two executions again, now with the random bytes being the same and the texts of equal size (`Even`, `Spec/Sizes.lean`);
  the storages in memory and in the file stay alike entry by entry (`EntryLike`, `Mir`, `Proofs/Sizes.lean`).  One assumption is
  added, `OrderByKeys`: the order in which the hash map is iterated does not depend on the values, so that both files list
  their entries in the same order.  What the cipher hides is no matter of the theorem: it says which texts of which size were
  encrypted with which key and nonce.
* C83: the operations that write are split at the point where `fs::write` has opened the file (`Crowd`,
  `Spec/Simultaneous.lean`).  What the program writes contains no white space (`RepStore.solid`), so a complete file with the
  rest of a longer one behind it is no JSON text (`load_tail`, `Proofs/Simultaneous.lean`).
* C84: the loop over bytes (`Model/Stdin.lean`) and the list of lines of the application's model are related by an inductive
  relation on bytes (`InputIs`, `Spec/Stdin.lean`).  That nothing is written before a crash is a property of the actions
  (`Unwritten`, `Proofs/Unwritten.lean`): all prompts come before the change, and what comes after a change cannot crash.
* C85: a process killed in its `n`-th write after `k` bytes is one whose `n`-th write fails after `k` bytes and whose later
  writes do not get to the file (`killed`, `Spec/Kill.lean`); of such a run only the file is looked at.  Commands in two
  environments that differ only in the outcome of writes are compared step by step (`Twin`, `Proofs/OneWrite.lean`).
* C86: no beginning of a message (up to the first varying part) is a beginning of another one (`kinds_apart`, decided over the
  complete list of kinds of errors, `errKind_mem`).
* C87: counting over an arbitrary list with all byte strings of a length, each one once (`AllStrings`, `Spec/Counting.lean`); that
  derived bytes are uniformly distributed is no assumption, the theorems are about the conversion of bytes to passwords only.
  Facts on sets of classes are decided over all 16 sets (`subset`).
* C88: the environments `build true E` and `build false E` differ in `overflowChecks` only; that arithmetic is the only difference
  between builds is part of the model (`usizeSub`, `stripZeros`), not a theorem.  `Overflows` names the reasons for a crash of the
  build with overflow checks; that they do occur is in `C88_generate`, `C18_long_code_panics` and an example.
* C89: `Model/Generic.lean` repeats `storage.rs` and `passwords.rs` over a record of the trait's methods; `Agree` is a simulation
  relation between two such records, and the theorem is a logical-relations argument, method by method.  The iteration order of
  the map of a `MemoryIO` is taken to be that of a `FileIO` with the same history.
* C90: `NoForgery` is the assumption about the cipher, about the ciphertexts with a legible plaintext in the one file that is
  opened only.  Recovery codes are no part of it; they are the subject of C91.  The invariant (`GivenVault`: everything in the
  table was given by an operation) is proved on the abstract machine; from there C56 tells what is read.  The other theorems need no assumption.
* C91: `Visible` says what is in a recovery code for everybody, by means of `validate` and the removal of checksums, which need no
  key.  `C91_genuine` has the weaker assumption `NoForgeryButCodes`: the ciphertexts of the codes made are available too.
* C92: `mainWait` is `main` followed by reading a line; case analysis.
* C93: a simulation (`SimT`), compositional over `>>=`, with the inputs left over universally quantified; when the lines are used
  up, so are the separate inputs.
* C94: each function with buffers equals the function without them, as long as there is room; the room is counted.  What is
  written in pieces leaves beginnings of the text behind, the first time when the next piece does not fit.
* C95: `Spec/QrCode.lean` is a reader written from the published tables: the places of the bits, the format words and the blocks
  are listed there, not computed as in the crate.  The proof follows the bits: the places drawn last are disjoint from those
  drawn before, the path visits each place once, masks are undone, blocks are put together, segments are read back.  The number
  of places is counted by the kernel for each of the forty versions.  Theorems about the program have an arbitrary `CEnv.qr`;
  `C95_show` is about this one.  `C95_mask` compares with the penalty points as the standard defines them, by lengths of runs
  (`Spec/QrPenalty.lean`); the program computes them by a history of the last seven runs.  `C95_padding` says what stands behind
  the password (`Spec/Padding.lean`); it was added because a wrong pad byte had broken no other theorem.
* C96: `Spec/ReedSolomon.lean` has the field with 256 elements by doubling and adding, and calls a block right if its polynomial
  vanishes at the first powers of two.  The remainder computed by the model makes blocks right (`right_block`).  Two right blocks
  that differ in at most as many places as there are codewords for error correction are equal (`right_unique`): the weights of
  such a difference solve a Vandermonde system.  A reader is any way to find right blocks that are near, so nothing is said about
  how they are found.  Damage to format and version information, which have codes of their own, is excluded.
* C97: invariants of the single calls; the grammar of JSON texts has no NUL character.
* C98: the buffer never holds a line break, so it is empty after texts ending with one; every computation of
  `Model/Terminal.lean` adds texts which do, or which are flushed at once.
* C99: the relation of C81 (`Twins`) for the model of the terminal, with traces that are equal except for texts written
  directly; the buffer does not depend on these.  The lines typed are assumed to be primary passwords in use if long enough.
* C100: a block given back stays among those the system has handed out, and everything the program writes is in other blocks.
* C101: each event is recorded with the state at that time.  A computation is one that announces nothing and leaves the file alone
  (`Part`), or consists of such a computation, one change, and events after it (`Act`); the program is put together from these.
* C102: the blocks with GCM's multiplication are an integral domain, so a polynomial has no more roots than its degree; two tags
  under one nonce differ by the value of a polynomial, with the ciphertexts as coefficients, at the image of the block of zeros.
* C103: what the descriptor and the buffer hold is followed line by line (`Served`); the order of prompts of a command is that of a
  computation reading passwords only followed by one reading none (`Ordered`).
* C104: by C93 a run at a terminal is one of C74, where no secret is left at the end, so those read are known to the last; for
  commands reading passwords only the correspondence of C93 is extended by the lines not read, which gives the other direction.
* C105: after unlocking, commands that look something up change nothing but the position of the random bytes before their last
  lookup, so that C90 applies to every answer; what is written is followed statement by statement (`Writes`).  As in C90,
  `NoForgery` is the assumption about the cipher, here for every line typed that unlocks the file.  For shells see C107.
* C106: what can be read in the table, by key, comes from the owner (`Clean`); every operation keeps it, and values put into a file
  by somebody else are known to have been in such a table.  `Secure` is only used for what the owner did before the first change.
* C107: an invariant of all computations at the terminal (`Held`): what is written, what is left to be read, and that the storage is
  locked as opened or a state of C106; it survives errors, after which a shell goes on.  That the owner types no other primary password
  that fits is an assumption, as is that the operations of the commands (`Commanded`) are among those of the owner.
  A restored password is one decoded from characters of lines typed (`Joined`), by the lines about `decode` of C12 and C52.
* C108: exact equality of two runs by following both, statement by statement (`Comm` for the library, `Sim` for the terminal); what is
  seen only grows, so that the assumption about the trace at the end (`OnlyAtPrompts`) covers every line read before.  Nothing is
  assumed of the primitives.  It says which way the password takes in the model's values; copies in memory are C94's matter, and the
  time taken is not modelled.
* C109: `Touches` says which entries an operation concerns, by names written out from the documented format (`siteName`,
  `passwordName`), not by the functions of the model.  The part about any storage follows the operations; notes are left out there
  because an entry moved by somebody else is written back where its text says (C106).  The part about no trace is by the
  invariants of C21 to C36.  The order of the entries in a file is up to the hash map, so that equality of files is up to the order.
* C110: by the table of C21, seen entry by entry (`many`): the final table is a function of the operations on each entry.  The states
  themselves differ (new nonces), so that the conclusion is about answers (`Alike`).
* C111: by C60 a run is a sequence of operations that its commands are entitled to (`run_ops`, `Entitled`); along it C109 says what
  stays in the storage, and `kept_flush` says that a file that can be loaded has the entries of the storage or is the file before.
  The state in which the entry is named is one reached by a part of these operations, because names depend on the secret in the file
  and on aliases.
* C112: the counterpart of C109 for reading.  `Needs` says by published names which entries matter; the proof follows an operation on two
  storages that agree on a set of names (`Near`, `Par`), and for the program two runs side by side (`NearC`).  No assumption about the
  primitives; that the order of entries is a permutation is needed for listings only.  Where an entry makes the program crash (a nonce
  of the wrong length, C56), looking for the first password of a site depends on the order, hence the exception for setting an alias.
* C113: C112 for runs that change the storage, several commands in a shell included.  `Side` relates the states of the two runs; the
  first one is reached by the operations `Steps`, so that the entries looked at (`Uses`, `Needs`) can be named by states of one run.
  Files are compared by what can be loaded from them; both are written at the same moments with the same outcome (`files_run`).  The
  command `list` needs that no two passwords or sites listed are sorted by the same text (`Untied`), otherwise see C51.
* C114: C65 and C112 together.  `C114_question` is C112 for runs as C65 has them; `kept_first` says that the line by which the storage is
  unlocked is the primary password.  An example shows that the password is not shown if its own entry has been removed.

All properties are proved in full; no theorem is `_partial`.

## 4. What was found in the code

Statements of the first list of properties that turned out to be false of the code were restated so that the exception is
part of the theorem.  Behaviour that may surprise users:

* A password entered for a site with a NUL character can coincide with another identity (C07_nul_collision).
* `list` hides passwords: if A becomes an alias of B after B has become an alias of C, passwords are looked up one step only
  (C30, C49_chain_broken); `list` removes the entry of a site entered as `www.www.x` though it has passwords
  (C49_www_removed).
* An alias of an unknown site without passwords makes `list` fail with "No such value in storage" (C50).
* The order of listed passwords with equal sort keys depends on the hash map's order (C51_ties).
* `set-primary` replaces an unreadable or corrupt file without asking (C46_unreadable_replaced).
* With `--stdin-passwords`, `ensure_unlocked_passwords` loops forever at the end of the input (C48_never_gives_up), and
  `add-stored` stores an empty password (C64_add_stored_end).
* The minimum length of primary passwords is six UTF-8 bytes, though the message says characters (C47).
* A mistyped line of a recovery code can be taken for the last line, ending the dialogue (C52_typo_may_abort).
* After a failed write the change stays in memory and is written by the next successful operation (C36); a failed `reset`
  leaves key and contents out of step and can lose data (C36_failed_reset, C36_data_loss).
* A crash while writing can lose both old and new contents (C37_crash_can_lose_everything); of two processes the last writer
  wins and changes of the other one are lost without an error (C63_lost_update).
* Two processes writing at the same time can leave a file that cannot be loaded, both reporting success (C83_two); and while
  a process is writing, others find a file that cannot be loaded (C83_between), which `set-primary` would replace.
* If writes are done in portions, two processes can both report success and leave a file with the changes of neither (C97_neither).
* A wrong nonce length in an entry is a panic (C40, C56, C69_nonce_crash); an unreadable site entry is replaced (C56).
* A line that is not UTF-8 where a password or notes are expected aborts the program, in a shell too (C84_crash).
* The empty password and trailing NUL characters do not survive a recovery code (C19).
* `show` prints "Password retrieved." directly followed by the password (C64_show).
* QR codes have the bytes of the password without saying that they are UTF-8, which a reader has to guess; the published default
  is another character set (C95_read).
* `show --qrcode` prints the first line of the picture behind "Password retrieved.", displaced by 19 columns, so that what is on
  the screen is not a QR code (C95_displaced); each reader first has to put the line into its place.
* `show --qrcode` fails for passwords of more than 2953 bytes, after "Password retrieved." has been printed (C95_show).
* `shell --history <path>` with the path of the storage file replaces the storage by the history when the shell is left; it
  cannot be loaded afterwards (C80_storage_as_history).
* The history file keeps site and user names in plain text, which the storage file hides (C80_history).
* The release profile aborts on panics: no exit status 101 and no text of `--wait` (C73_status, C80_wait).
* With `--wait` a last line that is not UTF-8 crashes the program after a successful command (C92_status).
* Entries are encrypted without associated data: who can change the file can exchange the passwords of two sites, put back old
  ones or remove some, and nothing is noticed (C90_exchange, C90_removal, C90_old_file, C105_exchange).
* `set_notes` writes a record to the entry that it belongs to, not to the one where it was found: with two passwords exchanged in
  the file, entering notes for one of them destroys its value (C106_notes, C106_lost).
* Recovery codes are encrypted under the key of the storage, and nothing says what a ciphertext is for: a password whose text is
  that of a record becomes, through its recovery code, an entry of the file (C91_planted).
* Memory given back unerased can contain a stored password, if its record with notes exceeds 128 bytes, and the beginning of a
  secret entered with more than 1024 bytes (C94_stored, C94_long_line).
* `recovery_codes.rs:72` fills up to the capacity obtained; if `Vec` ever allocated more than asked for, which its documentation
  allows, recovery codes could no longer be generated (C94_capacity).
* AES-GCM does not commit to the key: for two keys there is data that decrypts under both (C102_two_keys).  A secret of this
  kind would still have to be JSON and Base64 under both to open with two primary passwords.
* With `--stdin-passwords` and a file as input, `add-stored` asks whether to overwrite, takes the new password into the buffer with
  the answer, and stores the empty password, reporting success (C103_add_stored).  For the same reason a shell with a script as
  input can never be opened: it asks for the primary password again and again at the end of the input (C103_shell).
* Nonces are random; if one repeats, the ciphertexts reveal the exclusive or of the plaintexts (C77_key_stream).

## 5. Wrong programs

`seeded/LOG.jsonl` has one line per wrong program tried in a scratch copy: definition, edit, claim broken, theorems that no
longer check (directly or because a lemma they use does not check), and theorems added or tightened because of survivors.
