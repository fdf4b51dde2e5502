{"id": "C01", "title": "Generated password has exactly the requested length", "statement": "For every primary password, salt, length between 1 and the scrypt output limit, and non-empty character set, deriving a generated password terminates without a panic and yields exactly `length` characters.", "quantifier": "every derived byte string (hence every primary password, site, name, revision), every length, every non-empty character set", "why_tests_cant": "256^length byte strings times 15 character sets; the index arithmetic (modulus, subtraction) must never go out of range for any of them", "anchors": ["pfp/src/crypto.rs: to_password, derive_password, CHARS_MAPPING"]}
{"id": "C02", "title": "Generated password uses only the selected characters", "statement": "Every character of a generated password belongs to one of the selected character classes; the easily confused or unsafe characters I l O 0 1 i o L \" ' \\ ` and white space never occur.", "quantifier": "every derived byte string, every length, every non-empty character set", "why_tests_cant": "tests sample a handful of outputs", "anchors": ["pfp/src/crypto.rs: to_password, derive_password, CHARS_MAPPING"]}
{"id": "C03", "title": "Every selected character class occurs", "statement": "If the length is at least the number of selected classes then each selected class contributes at least one character to the generated password.", "quantifier": "every derived byte string, every non-empty character set, every length not below the number of classes", "why_tests_cant": "the byte strings for which a class would only be reached at the very end are exponentially rare, a sampled test never meets them", "anchors": ["pfp/src/crypto.rs: to_password, derive_password, CHARS_MAPPING"]}
{"id": "C04", "title": "Short passwords repeat no class", "statement": "If the length is smaller than the number of selected classes, no class contributes two characters.", "quantifier": "every derived byte string, every character set, every length below the number of classes", "why_tests_cant": "rare configurations times all byte strings", "anchors": ["pfp/src/crypto.rs: to_password, derive_password, CHARS_MAPPING"]}
{"id": "C05", "title": "Empty character set is a crash, and the command line never stores one", "statement": "Retrieving a generated password with an empty character set and a non-zero length panics for every derived byte string; the `add` command never stores an entry whose character set is empty or whose length is outside 4..=24.", "quantifier": "every command line accepted by the argument parser, every storage state; every byte string", "why_tests_cant": "must hold for all flag combinations, argument texts and states", "anchors": ["pfp/src/crypto.rs: to_password, derive_password, CHARS_MAPPING", "cli/src/processor/add.rs: processor", "cli/src/args.rs: validate_length"]}
{"id": "C06", "title": "Generated passwords are a function of the primary password and the parameters only", "statement": "Two storages with different random salts, HMAC secrets, nonces and other contents give the same value for a generated password with the same primary password, (resolved) site, name, revision, length and character set.", "quantifier": "every pair of storage histories, every random stream", "why_tests_cant": "relational property over pairs of executions", "anchors": ["pfp/src/passwords.rs: get", "pfp/src/storage_types/password.rs: GeneratedPassword::salt"]}
{"id": "C07", "title": "Different password identities use different derivation salts", "statement": "For site, name and revision without NUL characters, distinct (site, name, revision) triples give distinct derivation salts, revision \"1\" being the same as no revision; with NUL characters this is false.", "quantifier": "every pair of triples of strings", "why_tests_cant": "infinite input space", "anchors": ["pfp/src/storage_types/password.rs: GeneratedPassword::salt, PasswordId::new"]}
{"id": "C08", "title": "Base32 codec is lossless and total", "statement": "Encoding succeeds exactly on inputs whose length is a multiple of 5 and decoding the result gives the input back; decoding succeeds exactly on inputs whose length is a multiple of 8 and which consist of alphabet characters, and encoding the result gives the input back.", "quantifier": "every byte string", "why_tests_cant": "infinite input space, bit-level packing", "anchors": ["pfp/src/crypto.rs: base32_encode, base32_decode"]}
{"id": "C09", "title": "Line checksum detects every change of one byte and every wrong line position", "statement": "Changing exactly one byte of a block, or the line number mixed into its checksum, always changes the checksum byte.", "quantifier": "every block content, every byte position and value, every pair of line numbers", "why_tests_cant": "256^14 blocks", "anchors": ["pfp/src/crypto.rs: pearson_hash"]}
{"id": "C10", "title": "Formatting a recovery code is idempotent and lossless", "statement": "format_code keeps exactly the alphabet characters, upper-cased, in order; with punctuation it inserts only `-`, `:` and line breaks at fixed positions (groups of 4, half lines of 12, lines of 24), never at the end; formatting a formatted code changes nothing and stripping punctuation gives the unpunctuated form.", "quantifier": "every byte string entered by a user", "why_tests_cant": "infinite input space", "anchors": ["pfp/src/recovery_codes.rs: format_code"]}
{"id": "C11", "title": "A recovery code decodes to the password it was generated from", "statement": "For every non-empty password that does not end in a NUL character and needs at most 256 lines, decoding the code generated for it with the storage salt and the key of the primary password returns the password.", "quantifier": "every password, salt, primary password and nonce", "why_tests_cant": "infinite input space across six layers (padding, GCM, Base64, checksums, Base32, formatting)", "anchors": ["pfp/src/recovery_codes.rs: generate, decode, validate"]}
{"id": "C12", "title": "Recovery code decoding ignores layout", "statement": "Decoding gives the same result for any two texts that agree after upper-casing and dropping characters outside the code alphabet.", "quantifier": "every pair of texts, every primary password", "why_tests_cant": "infinite input space", "anchors": ["pfp/src/recovery_codes.rs: decode, format_code"]}
{"id": "C13", "title": "Recovery code length reveals only the padded length", "statement": "The number of lines of a recovery code is ceil((45 + byte length of the password)/14) and every line is full, so passwords of the same padded length have codes of the same shape.", "quantifier": "every password, salt, key, nonce", "why_tests_cant": "infinite input space", "anchors": ["pfp/src/recovery_codes.rs: generate"]}
{"id": "C14", "title": "Incomplete recovery codes are reported as incomplete", "statement": "Every text that is a proper prefix (in alphabet characters) of a generated recovery code, including the empty one, is rejected as incomplete, never accepted and never reported as a checksum error.", "quantifier": "every generated code and every proper prefix of it", "why_tests_cant": "the interactive prompt relies on this for all codes", "anchors": ["pfp/src/recovery_codes.rs: validate", "cli/src/processor/utils.rs: prompt_recovery_code"]}
{"id": "C15", "title": "Extra data after a recovery code is reported with the right line", "statement": "Appending any non-empty alphabet text to a generated code is rejected as extra data starting at the line following the code, and cutting the text there gives the original code back.", "quantifier": "every generated code, every appended text", "why_tests_cant": "infinite input space", "anchors": ["pfp/src/recovery_codes.rs: validate", "cli/src/processor/utils.rs: prompt_recovery_code"]}
{"id": "C16", "title": "One wrong byte in a recovery code is always caught", "statement": "Changing one byte of the decoded representation of a valid recovery code (data or checksum) always makes validation fail.", "quantifier": "every valid code, every byte position, every wrong value", "why_tests_cant": "all codes times all corruptions", "anchors": ["pfp/src/recovery_codes.rs: validate"]}
{"id": "C17", "title": "Mixed-up recovery code lines are always caught", "statement": "Reordering the lines of a valid recovery code in any way that changes the text, or leaving out or repeating lines, never yields a code accepted by validation.", "quantifier": "every valid code with at most 128 lines, every sequence drawn from its lines other than the code itself", "why_tests_cant": "all codes times all rearrangements", "anchors": ["pfp/src/recovery_codes.rs: validate"]}
{"id": "C18", "title": "Recovery code decoding never crashes on arbitrary text", "statement": "Decoding returns a value or an error for every text: the version, length and checksum guards exclude every out-of-range slice. The exceptions are exactly builds with overflow checks: more than 256 lines, or a decrypted password consisting of zero bytes only.", "quantifier": "every text, every primary password", "why_tests_cant": "infinite input space", "anchors": ["pfp/src/recovery_codes.rs: decode, validate"]}
{"id": "C19", "title": "Trailing NUL characters are lost and empty passwords only round-trip without overflow checks", "statement": "The recovery code of a password p followed by NUL characters decodes to p without them; for the empty password decoding panics in builds with overflow checks and returns the empty string otherwise.", "quantifier": "every password and number of trailing NULs", "why_tests_cant": "documents the exact boundary of the round trip for all inputs", "anchors": ["pfp/src/recovery_codes.rs: decode"]}
{"id": "C20", "title": "What was stored is what is retrieved", "statement": "After a successful set_stored(site, name, revision, value), get(site, name, revision) returns value; after a successful set_generated, get returns the derived password with those parameters; until some operation on that password or an alias change touches it, after any number of other operations.", "quantifier": "every history of API operations from a fresh reset, every argument, every random stream", "why_tests_cant": "histories are unbounded and the storage layer composes hashing, encryption, Base64 and JSON", "anchors": ["pfp/src/passwords.rs: set_stored, set_generated, get", "pfp/src/storage.rs"]}
{"id": "C21", "title": "API operations behave like a simple abstract map", "statement": "Every history of API operations (reset, lock, unlock, reload from disk, aliases, passwords, notes, removal, listing; with failing writes) gives the same results as an abstract password table keyed by (site, name, revision) with an alias table.", "quantifier": "every history of operations, all arguments drawn from NUL-free strings on which the HMAC has no collision, every random stream, every pattern of write failures", "why_tests_cant": "unbounded histories", "anchors": ["pfp/src/passwords.rs", "pfp/src/storage.rs", "pfp/src/storage_io/file.rs"]}
{"id": "C22", "title": "Operations on one password leave all others untouched", "statement": "set_stored, set_generated, set_notes and remove on one (site, name, revision) do not change value, notes or presence of any other password.", "quantifier": "every reachable state, every pair of distinct identities", "why_tests_cant": "all pairs in all states", "anchors": ["pfp/src/passwords.rs", "pfp/src/storage.rs: get_password_key"]}
{"id": "C23", "title": "Removal is complete", "statement": "After a successful remove, has returns false and get, get_notes, set_notes and remove return KeyMissing; remove of a password that does not exist is KeyMissing and changes nothing.", "quantifier": "every reachable state, every identity", "why_tests_cant": "all states", "anchors": ["pfp/src/passwords.rs: remove", "pfp/src/storage.rs: remove_password"]}
{"id": "C24", "title": "has agrees with get", "statement": "In every reachable unlocked state has(site,name,revision) is true exactly if get_notes succeeds, and otherwise get returns KeyMissing.", "quantifier": "every reachable state, every identity", "why_tests_cant": "all states", "anchors": ["pfp/src/passwords.rs: has, get"]}
{"id": "C25", "title": "Revision 1 is no revision", "statement": "Every operation taking a revision behaves identically for revision \"1\" and the empty revision.", "quantifier": "every state, every operation and argument", "why_tests_cant": "all states and arguments", "anchors": ["pfp/src/storage_types/password.rs: PasswordId::new"]}
{"id": "C26", "title": "A www. prefix is ignored, once", "statement": "Every operation taking a site, except remove_sites, behaves identically for `www.`-prefixed and unprefixed site names, provided the unprefixed name does not itself start with `www.`. The proviso is needed. (remove_sites takes names as they are stored and does not normalize.)", "quantifier": "every state, every operation and argument", "why_tests_cant": "all states and arguments", "anchors": ["pfp/src/storage.rs: normalize_site, resolve_site"]}
{"id": "C27", "title": "Passwords are reachable through aliases", "statement": "After set_alias(a, b) succeeds, every password operation through a acts on the same entry as through the alias target, until the alias is removed.", "quantifier": "every reachable state, every operation", "why_tests_cant": "all states", "anchors": ["pfp/src/storage.rs: resolve_site, get_alias"]}
{"id": "C28", "title": "A site with passwords never becomes an alias", "statement": "set_alias(site, ...) on a site that has passwords returns SiteHasPasswords and changes nothing; set_alias of a site to itself (after normalization and resolution) returns AliasToSelf and changes nothing.", "quantifier": "every reachable state, every site", "why_tests_cant": "all states", "anchors": ["pfp/src/passwords.rs: set_alias"]}
{"id": "C29", "title": "Removing an alias restores a regular site", "statement": "remove_alias succeeds exactly on aliases (else NoSuchAlias without change), afterwards the site resolves to itself and all other sites and all passwords are unchanged.", "quantifier": "every reachable state, every site", "why_tests_cant": "all states", "anchors": ["pfp/src/passwords.rs: remove_alias", "pfp/src/storage.rs: remove_alias"]}
{"id": "C30", "title": "Alias chains can arise", "statement": "The documented rule that an alias of an alias becomes an alias of the final site is enforced only when the alias is created: there are histories after which an alias points to a site that is itself an alias, and even two sites that are aliases of each other. Resolution is a single step and always terminates.", "quantifier": "existence of a history; every state for termination", "why_tests_cant": "needs a search over histories, and the positive part holds for all states", "anchors": ["pfp/src/passwords.rs: set_alias", "pfp/src/storage.rs: resolve_site"]}
{"id": "C31", "title": "Notes round trip and keep the password", "statement": "After set_notes(id, n) get_notes returns n for every text including the empty one, and the password value, type and parameters are unchanged; overwriting a password with set_stored or set_generated drops its notes.", "quantifier": "every reachable state, every text", "why_tests_cant": "all states and texts", "anchors": ["pfp/src/passwords.rs: set_notes, get_notes"]}
{"id": "C32", "title": "Locked storage reveals and changes nothing", "statement": "While locked every operation that needs the primary password returns PasswordsLocked (the iterators panic), and neither memory nor disk changes; key, HMAC secret and primary password are always present or absent together.", "quantifier": "every reachable state, every operation", "why_tests_cant": "all states", "anchors": ["pfp/src/passwords.rs"]}
{"id": "C33", "title": "Unlocking is exact", "statement": "unlock with the primary password the storage was reset with succeeds and restores access to all data; if unlock fails nothing changes; success with any other password requires the cipher to authenticate the stored HMAC secret under the other key.", "quantifier": "every reachable state, every candidate password", "why_tests_cant": "all states and passwords", "anchors": ["pfp/src/passwords.rs: unlock", "pfp/src/storage.rs: get_hmac_secret"]}
{"id": "C34", "title": "Reset removes everything", "statement": "After a successful reset the storage is initialized, unlocked with the new password, and contains no site, alias or password; the old entries are gone from the file.", "quantifier": "every prior state", "why_tests_cant": "all states", "anchors": ["pfp/src/passwords.rs: reset", "pfp/src/storage.rs: clear"]}
{"id": "C35", "title": "Success means durable", "statement": "When a modifying operation returns Ok, a fresh process loading the file and unlocking with the same primary password sees exactly the state in memory.", "quantifier": "every history, every point of reload", "why_tests_cant": "all histories and crash points between operations", "anchors": ["pfp/src/passwords.rs", "pfp/src/storage_io/file.rs: load, flush"]}
{"id": "C36", "title": "A failed write is reported but the change stays in memory", "statement": "If writing the file fails the operation returns CreateDirFailure or FileWriteFailure, never Ok; the change is nevertheless visible in memory and is written by the next successful operation; after a failed reset the in-memory storage no longer matches the key in use.", "quantifier": "every state, every operation, every failure", "why_tests_cant": "fault injection at every point", "anchors": ["pfp/src/passwords.rs", "pfp/src/storage_io/file.rs: flush"]}
{"id": "C37", "title": "Interrupted writes are detected, but not survived", "statement": "If the process dies while the file is written, the file holds the old contents, nothing, or a prefix of the new contents; a proper prefix never loads as a valid storage, so a partial state is never mistaken for a complete one; but there are crash points at which both old and new contents are lost.", "quantifier": "every storage content, every crash point", "why_tests_cant": "every crash point of every content", "anchors": ["pfp/src/storage_io/file.rs: flush, load"]}
{"id": "C38", "title": "The storage file round-trips", "statement": "Loading the file written for any key/value data gives the same data back, whatever characters occur in keys and values and whatever the hash map order; files with a different application name, format number, or unknown or missing fields are rejected.", "quantifier": "every map of strings, every iteration order, every file text", "why_tests_cant": "infinite input space", "anchors": ["pfp/src/storage_io/file.rs", "pfp/src/json/macros.rs: const_serializable"]}
{"id": "C39", "title": "Password and site records round-trip through JSON", "statement": "Deserializing the serialized form of every Site and Password value gives the same value, for all strings including control characters, quotes and non-ASCII text.", "quantifier": "every record", "why_tests_cant": "infinite input space", "anchors": ["pfp/src/storage_types", "pfp/src/json"]}
{"id": "C40", "title": "Encrypted values round-trip", "statement": "decrypt_data(encrypt_data(v, k), k) = v for every byte string, 32-byte key and nonce; texts without `_` are InvalidCiphertext; bad Base64 is InvalidBase64; a nonce of a length other than 12 bytes is a panic.", "quantifier": "every value, key, nonce; every stored text", "why_tests_cant": "infinite input space", "anchors": ["pfp/src/crypto.rs: encrypt_data, decrypt_data"]}
{"id": "C41", "title": "File contents consist of digests and ciphertexts", "statement": "In every reachable state every key in the file is `salt`, `hmac-secret`, `site:<digest>` or `site:<digest>:<digest>`, where the digests are HMACs under the secret, and every value other than the salt is an encryption under the current key.", "quantifier": "every reachable state", "why_tests_cant": "all histories", "anchors": ["pfp/src/storage.rs: get_site_key, get_password_key, set"]}
{"id": "C42", "title": "No nonce is drawn twice", "statement": "All ciphertexts produced in a history use pairwise disjoint segments of the random stream as nonces; the salt and HMAC secret are drawn from segments of their own.", "quantifier": "every history", "why_tests_cant": "all histories", "anchors": ["pfp/src/crypto.rs: encrypt_data, get_rng", "pfp/src/passwords.rs: reset"]}
{"id": "C43", "title": "Listing a site's passwords is complete and sound", "statement": "list(site, pattern) returns exactly the passwords of the resolved site whose name matches the wildcard pattern, each once; entries of other sites never appear.", "quantifier": "every reachable state, every site and pattern", "why_tests_cant": "all states", "anchors": ["pfp/src/passwords.rs: list", "pfp/src/storage.rs: list_passwords"]}
{"id": "C44", "title": "Listing sites is complete and sound", "statement": "list_sites(pattern) returns exactly the site entries whose name or alias target matches, each once; password entries never appear.", "quantifier": "every reachable state, every pattern", "why_tests_cant": "all states", "anchors": ["pfp/src/passwords.rs: list_sites", "pfp/src/storage.rs: list_sites"]}
{"id": "C45", "title": "remove_sites removes site entries only", "statement": "remove_sites on existing distinct sites removes exactly these entries and keeps all passwords; if one is missing the call fails with KeyMissing after removing the earlier ones in memory without writing the file.", "quantifier": "every reachable state, every list of sites", "why_tests_cant": "all states", "anchors": ["pfp/src/passwords.rs: remove_sites"]}
{"id": "C46", "title": "Nothing is overwritten without consent", "statement": "`add` and `add-stored` without -y leave an existing password untouched unless the user confirms; `set-primary` without -y leaves a loadable storage file untouched unless the user confirms. An unreadable or corrupt storage file is replaced without confirmation.", "quantifier": "every state, every input script", "why_tests_cant": "all states and scripts", "anchors": ["cli/src/processor/add.rs", "cli/src/processor/add_stored.rs", "cli/src/main.rs: main_inner"]}
{"id": "C47", "title": "Primary password rules", "statement": "set-primary succeeds only with a trimmed password of at least six bytes entered twice identically; otherwise storage and file are unchanged.", "quantifier": "every state and input script", "why_tests_cant": "all scripts", "anchors": ["cli/src/processor/set_primary.rs"]}
{"id": "C48", "title": "Commands only run unlocked", "statement": "ensure_unlocked_passwords returns success only if the storage is initialized and unlocked, never changes storage or file, tries only passwords of at least six bytes, and never stops asking (in particular it loops forever at end of input).", "quantifier": "every input script", "why_tests_cant": "unbounded scripts", "anchors": ["cli/src/processor/utils.rs: ensure_unlocked_passwords"]}
{"id": "C49", "title": "The list command removes only empty site entries", "statement": "`list` never removes passwords, and for sites not starting with `www.` and without alias chains it only removes entries of sites without passwords. Counterexamples outside: a site entered as `www.www.x`, and alias chains.", "quantifier": "every reachable state, every pattern", "why_tests_cant": "all states", "anchors": ["cli/src/processor/list.rs"]}
{"id": "C50", "title": "The list command can fail on a dangling alias", "statement": "If the target of an alias has no site entry and no passwords, `list` with name `*` ends with the KeyMissing error and the removals it made are not written.", "quantifier": "every such state", "why_tests_cant": "all states", "anchors": ["cli/src/processor/list.rs", "pfp/src/passwords.rs: remove_sites"]}
{"id": "C51", "title": "The list output does not depend on hash map order", "statement": "The output of `list` is the same for every iteration order of the underlying map provided no two passwords of a site have the same sort key; with equal sort keys it can differ.", "quantifier": "every state, every pair of iteration orders", "why_tests_cant": "iteration order is randomized per process", "anchors": ["cli/src/processor/list.rs"]}
{"id": "C52", "title": "Entering a recovery code line by line works", "statement": "In a build without overflow checks the interactive prompt never crashes, whatever lines are entered. Entering a generated code line by line, or in any other pieces, returns the password, also after lines that were reported as wrong: exactly the lines before them are kept. A line with a wrong byte is reported as wrong, unless it happens to have the checksum of a line of the other kind (last or not), for which there are examples with every code.", "quantifier": "every sequence of entered lines, every generated code", "why_tests_cant": "unbounded scripts", "anchors": ["cli/src/processor/utils.rs: prompt_recovery_code"]}
{"id": "C53", "title": "The shell cannot change the primary password", "statement": "No sequence of shell commands runs set-primary or a nested shell; errors never end the shell; `lock` locks; exit and end of input end it.", "quantifier": "every command sequence", "why_tests_cant": "unbounded scripts", "anchors": ["cli/src/processor/shell.rs"]}
{"id": "C54", "title": "The encryption key depends injectively on the salt bytes", "statement": "The key derivation input computed from the binary salt (bytes read as Latin-1 and encoded as UTF-8) is different for different salts, so that no two salts share keys by construction.", "quantifier": "every pair of salts", "why_tests_cant": "256^16 salts", "anchors": ["pfp/src/passwords.rs: get_encryption_key"]}
{"id": "C55", "title": "QR code output shows every module", "statement": "The text printed for a QR code determines the value of every module of the code: two modules per character, rows in order, odd last row padded with light modules.", "quantifier": "every QR code matrix", "why_tests_cant": "all matrices", "anchors": ["cli/src/processor/show.rs"]}
{"id": "C56", "title": "Corrupt entries fail closed", "statement": "Reading an entry that is not a well-formed ciphertext under the current key never yields a password: it is an error (or a panic for a wrong nonce length), such entries are skipped by listings, and ensure-site-data replaces an unreadable site entry.", "quantifier": "every storage content", "why_tests_cant": "arbitrary corruption", "anchors": ["pfp/src/storage.rs: get, list_passwords, ensure_site_data"]}
{"id": "C57", "title": "The length argument is validated", "statement": "For every argument text, if the argument parser accepts the length then it is a number between 4 and 24.", "quantifier": "every argument text", "why_tests_cant": "infinite input space", "anchors": ["cli/src/args.rs: validate_length"]}
{"id": "C58", "title": "No conforming password is excluded", "statement": "Every text made of characters of the selected classes in which every selected class occurs is the generated password for some derived byte string: the rules that force missing classes do not exclude any password conforming to them.", "quantifier": "every character set, every text", "why_tests_cant": "A statement about the image of the function over all byte strings; tests only sample outputs and cannot show that none of the conforming passwords is unreachable.", "anchors": ["pfp/src/crypto.rs:60-91"]}
{"id": "C59", "title": "A refused operation changes nothing", "statement": "In every state, an operation of the library that fails with an error other than one of writing the file leaves the state (memory, file, secrets) exactly as it was; the exceptions are the position in the random stream for get_recovery_code, and remove_sites: if one of the sites has no entry, the entries of those before it are gone from memory, not from the file.", "quantifier": "every state, every operation and argument", "why_tests_cant": "all states, including ones with corrupted or hostile data, and all operations", "anchors": ["pfp/src/passwords.rs", "pfp/src/storage.rs"]}
{"id": "C60", "title": "Commands are the library operations they stand for", "statement": "Every command, and every session of the shell, has on the storage the effect of a sequence of library operations, each of them an unlock with a line entered or the operation the command stands for with exactly the given arguments; hence every run of the program on a file left by earlier runs stays within the states reachable through the library, and all statements about those states hold for it.", "quantifier": "every command and arguments, every user input, every state, every sequence of shell commands and program runs", "why_tests_cant": "Unbounded sequences of program runs and inputs; also shows the absence of any other effect.", "anchors": ["cli/src/main.rs", "cli/src/processor/"]}
{"id": "C61", "title": "The list command shows exactly the matching passwords", "statement": "In every state reached by commands the argument parser accepted, `list` shows a block for exactly the sites with passwords matching the name, in ascending order of UTF-8 bytes; each block has the site's matching aliases in ascending order (verbose), and for each password, in ascending order of name and revision, its title and the value, recovery code and parameters asked for; it says that nothing was found exactly if there was no block and the command succeeded.", "quantifier": "every reachable unlocked state, every pattern, every combination of options", "why_tests_cant": "all contents of the storage and all combinations of options", "anchors": ["cli/src/processor/list.rs"]}
{"id": "C62", "title": "Recovery codes carry passwords to another storage", "statement": "In every reachable unlocked state a recovery code is given out for a stored password (of at most 256 lines if overflow checks are on). In any state of any other storage with the same primary password the code decodes to this password, in whatever layout; and entering the printed lines one after the other at the prompt of `add-stored --recovery` stores exactly this password there.", "quantifier": "every pair of reachable unlocked storages with the same primary password, every non-empty password not ending in NUL, every split of the code into lines", "why_tests_cant": "all passwords, all storages, all layouts of the code", "anchors": ["pfp/src/passwords.rs: get_recovery_code, decode_recovery_code", "pfp/src/recovery_codes.rs: generate, decode", "cli/src/processor/add_stored.rs", "cli/src/processor/utils.rs: prompt_recovery_code"]}
{"id": "C63", "title": "Several processes using one storage file", "statement": "Any number of processes load and write one storage file, their operations interleaved in any order. The state each of them is in is one reachable in the sense of all other properties; the answers it gives do not depend on what the others do; whoever starts after a successful change finds exactly the contents of the process that wrote last, under its primary password; so what another process has stored in between is lost without any error.", "quantifier": "every number of processes, every interleaving of operations, every outcome of file writes", "why_tests_cant": "unboundedly many processes and interleavings", "anchors": ["pfp/src/storage_io/file.rs: load, flush", "pfp/src/passwords.rs: Passwords::new, flush", "cli/src/main.rs: main_inner", "cli/src/processor/shell.rs"]}
{"id": "C64", "title": "What each command does and writes", "statement": "Given an unlocked storage, each of the commands set-primary, show, add, add-stored, remove, alias, notes performs exactly the library operation it names with the arguments of the command line, and writes exactly its message: show writes the password the library returns without altering a character of it; add-stored stores the line entered without surrounding whitespace; notes shows and stores the text as it is; a failure of the library operation is reported as this failure, with nothing written to the output after it. A question is asked exactly if data would be overwritten and -y is not given; the answer no ends the command without effect.", "quantifier": "every state of the storage, all arguments, all lines entered, every outcome of the library operation", "why_tests_cant": "unboundedly many storage states, passwords and notes", "anchors": ["cli/src/processor/set_primary.rs", "cli/src/processor/show.rs", "cli/src/processor/add.rs", "cli/src/processor/add_stored.rs", "cli/src/processor/remove.rs", "cli/src/processor/alias.rs", "cli/src/processor/notes.rs"]}
{"id": "C65", "title": "A password entered is shown by a later run of the program", "statement": "Once a password has been stored or generated, a later run of the program with the command show and the primary password (possibly after wrong lines) writes this password, whatever runs of the program - including shell sessions, failing commands and failing writes - take place in between, as long as no command of theirs concerns this password, the alias of its site or the primary password and the file can be read in the end. If no write fails, it can be read.", "quantifier": "every reachable storage, all arguments, every sequence of runs in between, every input and outcome of writes", "why_tests_cant": "unboundedly many sequences of runs", "anchors": ["cli/src/main.rs: main_inner", "cli/src/processor/mod.rs", "cli/src/processor/shell.rs", "cli/src/processor/list.rs", "pfp/src/passwords.rs"]}
{"id": "C66", "title": "The storage file is in the published format", "statement": "Unless the storage was created by another program (see C76): whenever the storage file can be loaded, its bytes are exactly the text {\"application\":\"pfp\",\"format\":3,\"data\":{...}} in UTF-8, with entries in the published format: the Base64 salt; the HMAC secret, sites and passwords as Base64 nonce, underscore and Base64 AES-GCM ciphertext of the documented JSON texts, under the key derived by scrypt (N = 2^15, r = 8, p = 1); sites and passwords named by the documented Base64 HMAC digests. No name or value needs escaping. After a successful change these entries are precisely the sites and passwords that can be seen through the library.", "quantifier": "every reachable state, every history, all contents", "why_tests_cant": "unboundedly many storage contents; a test that reads back what was written does not notice a consistent deviation from the format", "anchors": ["pfp/src/storage_io/file.rs", "pfp/src/storage.rs", "pfp/src/crypto.rs", "pfp/src/json", "pfp/src/storage_types"]}
{"id": "C67", "title": "Recovery codes are in the published format", "statement": "A recovery code is exactly the text of the published format: version 1, salt, nonce and AES-GCM ciphertext of the zero-padded password in blocks of 14 bytes, each followed by its Pearson checksum with the line number (counted down from 255 for the last line), in Base32 with the documented alphabet, laid out in lines; the format determines the code.", "quantifier": "all passwords, keys, salts and nonces", "why_tests_cant": "unboundedly many passwords; round trips do not notice consistent deviations", "anchors": ["pfp/src/recovery_codes.rs: generate", "pfp/src/crypto.rs: base32_encode, pearson_hash"]}
{"id": "C68", "title": "Generated passwords are those of the published algorithm", "statement": "The password made from derived bytes is the one of the published algorithm: each byte modulo the number of candidates selects one, the candidates being all selected characters, or only those of missing classes if no more characters are left than classes are missing. A generated password retrieved is the result for the bytes derived by scrypt (N = 2^15, r = 8, p = 1) from the primary password and the site, name and revision separated by NUL characters (no revision if it is empty or \"1\").", "quantifier": "all byte strings, character sets, lengths, primary passwords, sites, names, revisions and histories", "why_tests_cant": "unboundedly many inputs", "anchors": ["pfp/src/crypto.rs: derive_bits, derive_password, to_password", "pfp/src/storage_types/password.rs"]}
{"id": "C69", "title": "The program does not crash", "statement": "In the released build no command, shell session or run of the program on files it wrote itself ends in a panic. On any other file, a run crashes only on a stored value whose nonce does not have 12 bytes, or when showing passwords of a storage with a generated password of length zero (or beyond the limit of scrypt) or without character classes; the commands never write such values.", "quantifier": "all histories, commands, inputs, file contents and outcomes of writes", "why_tests_cant": "unboundedly many files and histories", "anchors": ["pfp/src/passwords.rs", "pfp/src/storage.rs", "pfp/src/crypto.rs: decrypt_data, derive_password", "cli/src/processor/*.rs", "cli/src/main.rs: main_inner"]}
{"id": "C70", "title": "Command lines mean what the grammar says", "statement": "The argument parser accepts exactly the command lines of a grammar stated apart from it (options in any order and between the arguments, long and short spellings, attached values, grouped flags, `--`, no option given twice, the arguments demanded by the subcommand, lengths from 4 to 24) and reads them as the grammar says. The meaning is unique; the order of options does not matter; every sensible command can be typed, whatever its arguments consist of.", "quantifier": "all argument lists and commands", "why_tests_cant": "unboundedly many argument lists and spellings", "anchors": ["cli/src/args.rs"]}
{"id": "C71", "title": "Words of a shell line", "statement": "A line of the shell is split into words exactly according to the quoting rules (blanks separate; single quotes, double quotes with four escapes, backslash); it is refused exactly if it cannot be read by these rules; the reading is unique; every list of words has a line giving it.", "quantifier": "all lines and all lists of words", "why_tests_cant": "unboundedly many lines", "anchors": ["cli/src/processor/shell.rs"]}
{"id": "C72", "title": "Shell lines run the command they spell", "statement": "A line of the shell runs a command exactly if its words spell this command in the grammar of the command line, and ends the shell or locks the storage exactly if it consists of the word `exit` or `lock` (with no program option other than the allowed ones); any other line runs nothing. Every command can be typed. `shell` and `set-primary` typed in the shell have no effect.", "quantifier": "all lines", "why_tests_cant": "unboundedly many lines", "anchors": ["cli/src/processor/shell.rs", "cli/src/args.rs"]}
{"id": "C73", "title": "The program as a whole: exit status, messages, files", "statement": "The program prints usage and does nothing exactly if the command line is not one of the grammar. Otherwise the exit status is 0 exactly if the command succeeded and 1 exactly if it reported an error; two different errors never give the same message, and only a cancelled prompt gives none. A crash aborts the program. A run touches no file but the storage file named on the command line (or the default one) and, for the shell, the history file, and does not depend on any other storage file.", "quantifier": "all argument lists, inputs and file systems", "why_tests_cant": "unboundedly many command lines and file contents", "anchors": ["cli/src/main.rs", "cli/src/processor/utils.rs: format_error"]}
{"id": "C74", "title": "Passwords survive, from typed text to printed text", "statement": "If a typed command line meaning `add` (`add-stored`) ends with success, then a later command line meaning `show` for the same site, name and revision, with the same primary password typed, ends with success and prints the password: of the demanded length and character classes (the line entered, without blanks around it), whatever other command lines are run on the file in between that do not concern this password.", "quantifier": "all command lines, spellings, inputs, files and sequences of runs", "why_tests_cant": "unboundedly many sequences of runs", "anchors": ["cli/src/main.rs", "cli/src/args.rs", "cli/src/processor/add.rs", "cli/src/processor/add_stored.rs", "cli/src/processor/show.rs"]}
{"id": "C75", "title": "Which texts are accepted as JSON, storage files and records", "statement": "The parser accepts exactly the JSON texts of RFC 8259 (white space, escape sequences, number grammar, at most 127 levels) and yields the value they denote; no text denotes two values. A file is loaded exactly if it is the UTF-8 encoding of a JSON text denoting a storage (members application, format and data in any order, or as an array). Decrypted bytes are read as a site or password exactly if they are a JSON text of the record of this site or password: members in any order, each once, notes optional, a character class selected exactly if a member of its name is true, unknown members ignored for passwords and refused for sites.", "quantifier": "all texts, all byte strings, all values", "why_tests_cant": "unboundedly many spellings; a parser that accepts a bit too much or too little passes round trip tests", "anchors": ["pfp/src/storage_io/file.rs", "pfp/src/storage_types/password.rs", "pfp/src/storage_types/site.rs", "pfp/src/storage_types/macros.rs"]}
{"id": "C76", "title": "Storage files of other programs", "statement": "A storage file in the published format, with JSON texts spelled in any way (order of members, white space, escape sequences, unknown members of password records), is loaded, unlocked by its primary password and by no other one in use, and all queries are then answered according to the contents of the file; all histories starting from it behave like the table of its contents. In every reachable state a storage file that can be loaded has the published format, and after every successful change its contents are those that the queries show.", "quantifier": "all files in the published format, all primitives meeting the stated hypotheses, all sequences of operations, failing writes and other processes included", "why_tests_cant": "unboundedly many spellings of files and sequences of operations; tests only read files written by the same code", "anchors": ["pfp/src/storage_io/file.rs", "pfp/src/storage.rs", "pfp/src/passwords.rs", "pfp/src/crypto.rs"]}
{"id": "C77", "title": "The published cryptographic algorithms fulfil what the model assumes of the primitives", "statement": "SHA-256 (FIPS 180-4), HMAC (RFC 2104), PBKDF2 and scrypt (RFC 8018, RFC 7914), AES-256 (FIPS 197) and GCM (SP 800-38D) as published have the output sizes that crypto.rs relies on; decryption accepts exactly what encryption yields for the key, nonce and text. Encrypting two texts under the same nonce shows where they differ. The AES table is the affine transformation of the inverse in the field of AES.", "quantifier": "all keys, nonces, texts, passwords, salts and sizes", "why_tests_cant": "The output sizes and the inverse hold for infinitely many inputs; test vectors show the algorithms right on a few of them.", "anchors": ["pfp/src/crypto.rs:10-16", "pfp/src/crypto.rs:36-48", "pfp/src/crypto.rs:107-145"]}
{"id": "C78", "title": "Altered data is always noticed if the change is small", "statement": "Without any assumption about the security of the algorithms: if encrypted data can be decrypted, then it cannot after a change of one byte, of any bytes within one block of 16 bytes, or of the tag - unless AES under the key maps the block of zeros to itself. So reading a record with such a change is a decryption failure, and opening a storage with such a change in the encrypted secret fails as with a wrong password and changes nothing.", "quantifier": "all keys (but those mapping the block of zeros to itself), nonces, data, positions and changes", "why_tests_cant": "Tests flip a few bits of a few ciphertexts; the claim is that no change of this kind of any ciphertext is ever missed, which rests on the multiplication of GHASH having no zero divisors.", "anchors": ["pfp/src/crypto.rs:122-138", "pfp/src/storage.rs:53-60", "pfp/src/passwords.rs:127-136"]}
{"id": "C79", "title": "Patterns", "statement": "The pattern given to list selects exactly the names that fit it, where * stands for any text, ? for one character and any other character for itself: the passwords listed for a site and a pattern are exactly the existing ones whose name fits. The default pattern * selects everything, a pattern without * and ? only itself.", "quantifier": "all patterns, texts and reachable states", "why_tests_cant": "Tests try a few patterns on a few names; matching with several wildcards needs backtracking, where errors show only in particular combinations.", "anchors": ["pfp/src/passwords.rs:425-457", "cli/src/args.rs:114-130"]}
{"id": "C80", "title": "What the program tells on standard output and standard error", "statement": "Texts once printed stay: every command only appends to what was printed on the two streams. While the storage is unlocked there is exactly one message on standard error for every line refused, telling why; after that a command gives no messages except for wrong lines of recovery codes; if the program fails, the reason is its last message. --wait prints its text exactly if the program ends by itself. The shell's history file gets exactly the lines entered up to the exit command, only if the shell ended with success, and does not depend on passwords entered. If the history file named is the storage file, the storage cannot be loaded afterwards.", "quantifier": "all commands, argument lists, input scripts, states and file systems", "why_tests_cant": "Tests look for a few words in the output of a few runs and never check that nothing else is said, nor which lines enter the history.", "anchors": ["cli/src/processor/utils.rs: ensure_unlocked_passwords", "cli/src/processor/shell.rs", "cli/src/processor/add_stored.rs", "cli/src/main.rs"]}
{"id": "C81", "title": "What is told does not depend on the values of stored passwords", "statement": "Take two histories that differ only in the values of passwords stored. The library then gives the same answers, including whether and why operations fail, except for the values themselves and the order of lists. The application, as long as it is not asked to show values (no show, no list with --show or --recovery), gives the same result, prints the same text on both streams and asks the same questions, for single commands, for the shell and for whole runs of the program; and so it does while different values are being entered.", "quantifier": "all pairs of such histories of any length with other processes and failing writes, all commands, scripts of input, environments", "why_tests_cant": "The claim relates two executions; tests look at one execution with one value and would not see text depending on another value.", "anchors": ["cli/src/processor/*.rs", "pfp/src/passwords.rs", "pfp/src/storage.rs"]}
{"id": "C82", "title": "What the file tells about passwords and notes without the primary password", "statement": "Take two histories with the same random bytes that differ only in the values of stored passwords and in the notes, each of equal size in JSON. Then the two storage files have the same number of bytes, also when a write has stopped half way; if one can be read so can the other; and their entries have the same names in the same order, and values that are the same or are encryptions, with the key derived from the primary password and the salt and with the same nonce, of texts of equal size. Further changes have the same outcome in both, draw as many random bytes and write equally often. So someone without the key learns about values and notes nothing but their sizes, as far as the cipher hides the texts.", "quantifier": "all pairs of such histories of any length with other processes and failing writes", "why_tests_cant": "The claim relates the files of two executions; tests look at one file and cannot show that nothing in it depends on the values other than through the cipher.", "anchors": ["pfp/src/storage.rs:62-73", "pfp/src/storage_io/file.rs:77-86", "pfp/src/crypto.rs:107-120"]}
{"id": "C83", "title": "Processes writing the file at the same time", "statement": "Writing the file is two steps: it is opened, which empties it, and then all bytes are written to its start. Let any number of processes do anything with the file, any number of them being between the two steps at any time. Then each process only ever gets into the states all other properties speak of, and its answers about its contents are not affected. When a process has written, the file is exactly as this process meant to leave it, or it cannot be loaded: a mixture is never taken for a storage. If two processes have both opened the file before either writes, both report success; if the one writing last has written less than the other, the file is lost, otherwise the other's changes are. Whatever has happened to the file, the next undisturbed successful change by any process makes it that process's contents again. Between opening and writing nobody can load the file.", "quantifier": "all interleavings of any number of processes, with killed processes and failing writes (but with each write done in one portion)", "why_tests_cant": "Tests run one process at a time; the interleavings of opening and writing are unboundedly many and hardly reproducible.", "anchors": ["pfp/src/storage_io/file.rs:77-86", "cli/src/main.rs:76-96"]}
{"id": "C84", "title": "Input that is not text", "statement": "Standard input is read byte by byte up to a line feed. Every input is a number of lines of UTF-8 text, followed by its end or by a line that is not UTF-8, in exactly one way. The prompts give the lines one after another, unchanged, a last line counting whether it is ended or not; then the empty text, over and over, or a crash on the line that is not UTF-8. A command that asks for the primary password, a password to be stored or notes crashes on such a line right after the prompt. On files which the program wrote there is no other crash of the program. A command that crashes, for whatever reason and in whatever state, has not touched the file; in a shell, the file is as the commands before left it.", "quantifier": "all inputs, commands, sessions and states", "why_tests_cant": "Tests enter a few well-formed lines; that a crash never follows a write is a statement about all commands, states and inputs.", "anchors": ["cli/src/processor/utils.rs:71-93", "cli/src/processor/utils.rs:95-118"]}
{"id": "C85", "title": "Killing the program at any moment", "statement": "A command does not touch the storage file or writes it exactly once, with the contents it has in memory at the end; what it writes does not depend on how the writing goes. So a command killed at any moment leaves the file as it was or the first bytes, maybe all, of what it would have written. A shell killed at any moment leaves the file as the commands before left it, or the first bytes of what the command it was killed in would have written. The next run finds a file that cannot be read, or the file as it was, or as the whole run would have left it, or, for the shell, as a session with some first part of the lines would have left it; never a mixture.", "quantifier": "all commands, sessions, states and moments of being killed", "why_tests_cant": "A test would have to kill the process between any two bytes of any write of any command.", "anchors": ["pfp/src/storage_io/file.rs:77-86", "cli/src/processor/mod.rs:22-38", "cli/src/processor/shell.rs:47-116", "cli/src/main.rs:68-98"]}
{"id": "C86", "title": "Error messages tell what is wrong", "statement": "The message printed for an error tells which error it is, including the line number of errors in recovery codes, whatever the texts are that come from the operating system and the decoders; two different errors never have the same message. These texts are in the message as they are. All messages are the texts in the sources. The message is empty only when a dialogue is abandoned. set-primary is suggested exactly if the file cannot be read or is no storage, and a wrong primary password is suggested exactly if a decryption has failed.", "quantifier": "all pairs of errors and all texts from outside", "why_tests_cant": "Tests look at single messages; that no text from outside can make one message look like another is a statement about all texts.", "anchors": ["cli/src/processor/utils.rs:15-56", "cli/src/main.rs:100-111"]}
{"id": "C87", "title": "No generated password is likely", "statement": "Out of all 256^n byte strings that can be derived, the number of those leading to a given password of n characters is the product, over its characters, of the number of byte values choosing the character; each candidate gets floor(256/m) or one more of the 256 byte values, m being the number of candidates. With m selected characters no password results from more than 22.5 * ceil(256/m)^n byte strings; in particular with all classes and 16 characters from no more than one in 2^91. Each password with selected characters only and all selected classes results from at least 3^n.", "quantifier": "all character sets, all passwords of all lengths, all byte strings of the length", "why_tests_cant": "The number of byte strings is astronomical; only a proof can count those leading to each password.", "anchors": ["pfp/src/crypto.rs:20-30", "pfp/src/crypto.rs:60-91"]}
{"id": "C88", "title": "Builds with and without overflow checks agree", "statement": "A run of the program built with overflow checks and one of the program built without them print, ask, store and return the same, whatever the file, the arguments and the input are, or the build with overflow checks crashes. It does so only in two cases: when list --recovery lists a stored password whose recovery code has more than 256 lines, and when add-stored --recovery is given answers from which a code of more than 256 lines or the code of zero bytes only can be put together. Without the option --recovery the builds do not differ at all.", "quantifier": "all operations in all states, all commands, all sessions of the shell, all runs on all files", "why_tests_cant": "Tests run in one build; that two builds agree everywhere else is a statement about all inputs.", "anchors": ["pfp/src/recovery_codes.rs:51-118", "pfp/src/recovery_codes.rs:188-275", "cli/src/processor/utils.rs:125-177", "cli/src/processor/list.rs:108-119"]}
{"id": "C89", "title": "The library does the same on every storage access that keeps the contract", "statement": "Storage and Passwords depend on the type behind the trait StorageIO through its methods only: on two storage accesses whose methods cannot be told apart, every sequence of operations gives the same results, errors and panics included. MemoryIO, with which the tests of the library run, is indistinguishable from FileIO as long as the file can be written, and what it keeps as the contents of the file is what loading the file gives. With FileIO the generic code is the code of the application.", "quantifier": "all storage accesses, all pairs of related states, all sequences of operations", "why_tests_cant": "The tests run with MemoryIO only and never with FileIO; that nothing but the methods of the trait matters is a statement about all types that implement it.", "anchors": ["pfp/src/storage_io/mod.rs:31-49", "pfp/src/storage_io/memory.rs:12-62", "pfp/src/storage_io/file.rs:52-87", "pfp/src/storage.rs:28-320", "pfp/src/passwords.rs:65-460"]}
{"id": "C90", "title": "What somebody who can change the file can achieve without the primary password", "statement": "Whatever bytes are put into the storage file, if the file opens with the owner's primary password and every ciphertext accepted by the cipher is one the owner once had in memory, then every password, notes, alias target and list entry shown was entered by the owner (or is generated from parameters entered by the owner, for a site they named). Beyond that nothing is protected: each answer depends only on the values of the entries concerned, so that exchanging the values of two passwords, removing entries, putting back old entries or a whole old file is not noticed, and the password of one site is shown for another.", "quantifier": "all files, all histories of the owner, all pairs of entries", "why_tests_cant": "The claim quantifies over everything an attacker may write and over all the owner did before.", "anchors": ["pfp/src/crypto.rs:107-140", "pfp/src/storage.rs:53-75", "pfp/src/storage.rs:91-105", "pfp/src/passwords.rs:127-136", "pfp/src/passwords.rs:312-336"]}
{"id": "C91", "title": "Recovery codes and entries of the file are encrypted under one key", "statement": "A recovery code shows to everybody the salt of the storage, a nonce and a ciphertext; nonce and ciphertext put together are a value the storage decrypts under its own key, to the password filled up with NUL bytes. So if the text of a password is that of a record and fills the lines, its recovery code can be put into the file under the name of any password, and the record's password and notes are shown there, while everything else stays the same. Conversely a value of the file of suitable length can be turned, without any key, into a recovery code that decodes to the text of the record. As long as no recovery code is made of a password whose text is a record (or a JSON string) and fills the lines, recovery codes do not help to change the file: everything shown was entered by the owner.", "quantifier": "all storages, passwords, records, entries and files", "why_tests_cant": "The positive part quantifies over everything an attacker may write to the file and all histories of the owner; the coincidence needs texts chosen for the purpose.", "anchors": ["pfp/src/passwords.rs:338-357", "pfp/src/recovery_codes.rs:51-118", "pfp/src/recovery_codes.rs:182-236", "pfp/src/crypto.rs:107-140"]}
{"id": "C92", "title": "What waiting at the end can change", "statement": "With --wait one line of input is read after the command. This changes no file and no output. The exit of the program is the same as without waiting, except if the command succeeded or failed and the line is not UTF-8: then the program crashes, and the exit status does not tell any more whether the command succeeded. Without a command given there is no waiting.", "quantifier": "all command lines, inputs, files and lines", "why_tests_cant": "Tests wait with a usual line at most; the claim is about any bytes after any command.", "anchors": ["cli/src/main.rs:31-57", "cli/src/main.rs:100-111"]}
{"id": "C93", "title": "One input and one sequence of events at a terminal", "statement": "Whatever lines are typed at the terminal where the program runs, each prompt takes the next line, no line is skipped or taken twice, and no line is taken without the prompt asking for it right before. Each such run is one of the model where secrets, confirmations, lines of recovery codes and commands of the shell come from separate lists, with the same end, the same files and the same texts: the lists are the lines sorted by the prompts that have read them. An error ending the program is the last thing shown. Of the lines typed exactly those read at the prompt of the shell get into the history file.", "quantifier": "all command lines, all lines typed, all files, all ways answers to questions are understood", "why_tests_cant": "The tests feed each prompt with the input meant for it; the claim is about any lines, with any misunderstanding between user and program about what is asked for.", "anchors": ["cli/src/processor/utils.rs:71-177", "cli/src/processor/shell.rs:24-127", "cli/src/main.rs:68-111", "cli/src/processor/set_primary.rs:13-35", "cli/src/processor/add_stored.rs:14-52"]}
{"id": "C94", "title": "Copies of secrets left in memory", "statement": "When a buffer grows, the memory block it occupied before is given back with its contents, without being erased. The buffers in which keys, generated passwords, base32 data and recovery codes are put together never grow, whatever the allocator does beyond its contract. A line with a secret of at most 1024 bytes is read without a copy being left; of a longer line at least the first 1024 bytes are left. Serializing the HMAC secret leaves nothing; serializing a record leaves something if and only if its JSON text exceeds the block allocated initially (128 bytes), and if the record of a stored password exceeds it because of the notes, then the password is left in clear text. Generating a recovery code relies on a vector getting exactly the capacity asked for: with an allocator giving more it fails with an error, and it never gives a different code.", "quantifier": "all allocators obeying the contract of Vec, all passwords, salts, lines, records", "why_tests_cant": "The contents of memory that was given back cannot be observed by the tests, and the sizes of the inputs are not bounded.", "anchors": ["pfp/src/crypto.rs:36-91", "pfp/src/crypto.rs:147-206", "pfp/src/recovery_codes.rs:51-118", "pfp/src/storage.rs:62-73", "pfp/src/storage.rs:106-119", "cli/src/processor/utils.rs:71-93", "cli/src/leaking_allocator.rs:9-20"]}
{"id": "C95", "title": "The QR code is a QR code of the password", "statement": "`show --qrcode` prints a picture from which a reader following the published format gets exactly the bytes of the password, whatever the password is. The picture has all patterns by which QR codes are recognized (finder, timing and alignment patterns, quiet lines, version information, dark module). There is a picture exactly for passwords of up to 7089 digits, 4296 characters of the 45 in the table, or 2953 bytes; otherwise the command fails without printing any part of the password. The code is of the smallest size the password fits into, with the highest error correction level possible at this size and with the mask for which the standard counts the fewest penalty points, and different passwords have different pictures. Behind the password, the data of the code are exactly those the standard demands: the terminator, zeros up to the end of the codeword, and the two pad codewords in turn.", "quantifier": "all passwords", "why_tests_cant": "The repository tests the picture of one password of four characters; there are forty sizes, four levels, eight masks and three modes, and texts of any length.", "anchors": ["cli/src/processor/show.rs:27-58"]}
{"id": "C96", "title": "A damaged QR code still shows the password", "statement": "In the QR code drawn for a password, each block of codewords is a word of the Reed-Solomon code given in the standard. If the modules with data are damaged so that in each block at most half as many codewords are wrong as there are for error correction, every reader that replaces the blocks by right ones that near reads exactly the password and nothing else, whichever way it finds them. In particular any three modules with data can be wrong.", "quantifier": "all passwords, all damages within the bound, all readers", "why_tests_cant": "The tests compare a single undamaged picture; the number of damages grows exponentially with the size, and that nothing else can be read is a statement about all sequences of codewords.", "anchors": ["cli/src/processor/show.rs:31-46"]}
{"id": "C97", "title": "Reading and writing the storage file in portions", "statement": "When any number of processes read and write the storage file in portions, their system calls coming in any order: each byte of the file and each byte read is the one that was there before, one that a process writes at the same position, or zero; a file with a zero byte cannot be loaded. A process that is not disturbed leaves exactly its contents, reads exactly the file, and at any moment before the file is a beginning of the contents, whatever the portions are. Processes writing the same contents do each other no harm. Otherwise two processes can both succeed and leave a file that can be loaded but that neither has written, in particular a file with the changes of neither.", "quantifier": "all sequences of calls of any number of processes, all contents, all portions", "why_tests_cant": "The orders in which calls can follow one another cannot be enumerated, and tests have no influence on them.", "anchors": ["pfp/src/storage_io/file.rs:41-49", "pfp/src/storage_io/file.rs:77-86"]}
{"id": "C98", "title": "Standard output in the order of the program", "statement": "Text gets to standard output through the line buffer of the standard library or directly. In every run, at any moment but right before the buffer is flushed, the bytes on standard output are all texts printed so far, in the order of the program, and nothing is left in the buffer: when text is written directly, when a message goes to standard error, when a line is read, and at the end, also after a failure or a panic. This holds however print! divides its texts. The buffer neither loses nor reorders anything and never holds a line break. Without the flushes a label would come after the password or the notes it announces.", "quantifier": "all runs at a terminal (arguments, lines typed, files, environments), all moments, all divisions of texts into pieces", "why_tests_cant": "Whether something is left in the buffer depends on the texts, their lengths and on how they are divided; tests see the output after the end of the program.", "anchors": ["cli/src/processor/list.rs:69-158", "cli/src/processor/show.rs:29-57", "cli/src/processor/notes.rs:31-50", "cli/src/processor/shell.rs:45-46", "cli/src/processor/shell.rs:106", "cli/src/processor/utils.rs:72-75", "cli/src/main.rs:43-49"]}
{"id": "C99", "title": "Values do not pass through the buffer of standard output", "statement": "The code writes passwords to standard output directly so that the buffer of the standard library, which is not erased, never holds them. Runs on files that differ in the values of stored passwords only, with the same arguments and the same lines typed, end in the same way, read the same lines, print the same texts through the buffer and to standard error, in the same order and equally often, and leave the same other files, the shell's history included; only texts written directly may differ. At every moment the buffer may hold the same bytes in both runs. This includes show and list --show; it excludes show --qrcode, which fails for long values, and list --recovery. If no command meant to show values is given, the texts written directly are the same too.", "quantifier": "all arguments and lines typed (with identities in use), all pairs of histories differing in values of stored passwords, all moments, all divisions of texts into pieces", "why_tests_cant": "It compares two runs for all values; a test would have to look into the memory of the standard library at every moment.", "anchors": ["cli/src/processor/show.rs:27-61", "cli/src/processor/list.rs:92-106", "cli/src/processor/utils.rs:62-123", "cli/src/processor/shell.rs:47-127", "cli/src/main.rs:68-111"]}
{"id": "C100", "title": "The allocators for looking at memory", "statement": "With the repository's allocators (leaking_allocator.rs, of the variant memtest built for looking at the memory of the waiting program, and logging_allocator.rs) a block given back, because it is dropped or because a buffer grows, keeps its contents at every later moment, whatever the program does within the blocks it owns; a buffer that grows has its contents in the new block too; no address is handed out twice. The log has exactly the blocks requested since init_allocator in their order, without those requested by keeping the log itself; writing it at the end never waits for the lock.", "quantifier": "all system allocators keeping their promise, all sequences of requests, growth, deallocations and writes to blocks owned, all requests made by keeping the log", "why_tests_cant": "What allocators do is not visible from within the program; a reused block would show in rare orders of requests only.", "anchors": ["cli/src/leaking_allocator.rs:9-20", "cli/src/logging_allocator.rs:10-53", "cli/src/main.rs:10-23", "cli/src/main.rs:53", "cli/src/main.rs:101", ".github/workflows/rust.yml:28-31"]}
{"id": "C101", "title": "What is announced is done, wherever the program ends", "statement": "At each moment of a run at the terminal: when the program says that a password, notes, an alias or the primary password has been added, removed or set, the storage file already can be loaded and has exactly the entries in memory. While the storage is locked nothing gets to standard output but seven fixed texts, and when the shell says that the passwords are locked no secret is held. A run changes the file at most once, in the shell at most once after each command line; so a run ending at any event, for instance because standard output can no longer be written and printing panics, leaves the file as it was or as it is after the whole run, the latter if success has been announced.", "quantifier": "all arguments, all lines typed, all contents of the file, all outcomes of writes, every event of the run", "why_tests_cant": "Tests look at the file after the program has ended, not at each moment, and do not break standard output between two texts.", "anchors": ["cli/src/processor/set_primary.rs:13-35", "cli/src/processor/add.rs:13-67", "cli/src/processor/add_stored.rs:14-52", "cli/src/processor/remove.rs:12-29", "cli/src/processor/notes.rs:15-55", "cli/src/processor/alias.rs:12-40", "cli/src/processor/list.rs:16-163", "cli/src/processor/shell.rs:24-127", "cli/src/main.rs:68-111"]}
{"id": "C102", "title": "How few keys let altered data pass", "statement": "If some data can be decrypted with AES-256-GCM under a key and a nonce, then other data can be decrypted under the same key and nonce only if AES maps the block of zeros to one of a few blocks: not more than the longer data has blocks of 16 bytes, out of 2^128, and depending only on the two data. For several attempts the numbers add up. So a record, or the encrypted secret, exchanged for other data with the same nonce gives a decryption failure, and opening changes nothing, unless the key is one of these. On the other hand, for any two keys which map the block of zeros to different blocks there is data that can be decrypted under both, with an arbitrary beginning: a decryption which succeeds does not show under which key the data was encrypted.", "quantifier": "all keys, nonces, ciphertexts, tags and lists of attempts; data below 2^61 bytes", "why_tests_cant": "The tests alter single bytes of a record under one key; the statement is about all pairs of different data and counts keys.", "anchors": ["pfp/src/crypto.rs:122-138", "pfp/src/storage.rs:53-60", "pfp/src/storage.rs:91-103", "pfp/src/passwords.rs:127-137"]}
{"id": "C103", "title": "Passwords from a file after other prompts", "statement": "With `--stdin-passwords`, passwords are read from standard input byte by byte, but answers and command lines through a buffer. If nothing behind a line is handed out with it, as at a terminal, each prompt gets the next line. From a file of at most 8192 bytes, every password read after the first answer or command line is empty, whatever the file says. Commands that ask for passwords before anything else get the lines in order. So a shell reading a file never opens the storage, shows nothing but fixed texts and changes no file but the history; `set-primary` without `--assume-yes` on an existing storage changes nothing; and `add-stored` without `--assume-yes` for an existing password either changes nothing or replaces the password by the empty one, without an error.", "quantifier": "all files of at most 8192 bytes, all command lines, storages, dialogs and runs; the buffer of the dependency `question` shared or of its own", "why_tests_cant": "The tests send each line only after waiting for its prompt, so nothing behind a line is ever in the pipe; what happens otherwise depends on the buffer and on the order of prompts over a whole run.", "anchors": ["cli/src/processor/utils.rs:71-123", "cli/src/processor/shell.rs:36-116", "cli/src/processor/add_stored.rs:14-52", "cli/src/processor/set_primary.rs:13-35", "cli/src/main.rs:40-98"]}
{"id": "C104", "title": "From the lines typed at a terminal to what a terminal shows", "statement": "When `add-stored` or `add` succeeds at a terminal, the last lines read for it are the primary password and, for a stored one, the password. After any further runs at terminals that do not concern the entry, while the file can be read, `show` at a terminal, whatever wrong lines come first, ends with success, leaves all files as they are and makes standard output exactly the prompts and the password, without spaces around it, and the text of --wait; standard error has one message for each wrong line. For all commands that ask for nothing but passwords and notes, what a terminal shows is that of the model where all lines are secrets, and as many lines are left. The program waits forever only after everything typed has been read.", "quantifier": "all lines typed in all runs, all command lines meaning the commands, all files, all runs in between, all ways answers are understood and texts are divided", "why_tests_cant": "Each test looks at one run with the inputs meant for it; the claim is about the password coming back over any number of runs, with any mistakes when typing.", "anchors": ["cli/src/main.rs:68-111", "cli/src/processor/add_stored.rs:14-52", "cli/src/processor/add.rs:13-67", "cli/src/processor/show.rs:15-61", "cli/src/processor/utils.rs:71-123"]}
{"id": "C105", "title": "What the program shows of a storage file that somebody else has changed", "statement": "Whatever somebody without the primary password makes of the storage file: if the cipher is not broken, every text that `show`, `notes`, `list`, `alias` and `remove` write to standard output at a terminal, whatever is typed, is one of sixteen fixed texts or tells something that the owner entered: a password entered by the owner or generated with the owner's parameters for a site named by the owner (also as a QR code), the recovery code of one, notes, sites, aliases, names, revisions and parameters. Which site they are shown for is not protected: with two values exchanged in the file, `show` shows each password for the other, and the terminal looks exactly as if nothing had happened.", "quantifier": "all files, all histories of the owner, all command lines meaning the commands, all lines typed", "why_tests_cant": "Tests use files made by the program; the claim is about all bytes that anybody could put there.", "anchors": ["cli/src/processor/show.rs:15-61", "cli/src/processor/notes.rs:15-55", "cli/src/processor/list.rs:16-163", "cli/src/processor/alias.rs:12-40", "cli/src/processor/remove.rs:12-29", "cli/src/processor/utils.rs:104-123", "cli/src/main.rs:68-111"]}
{"id": "C106", "title": "Working on with storage files that somebody else keeps changing", "statement": "The owner works on with files that somebody without the primary password keeps changing: processes open whatever is there, add, change and remove passwords, notes and aliases, lock and unlock, and save; values from the memory of all these processes may come back in later files, under any names. If the cipher is never broken, every password, note, alias target and record that any of these processes ever returns has been entered by the owner at some time (generated passwords: with the owner's parameters, for a site named by the owner), and keys and HMAC secrets are always those of the owner. Notes may be attached to a password other than the one they were entered for: `set_notes` writes the record to the entry it belongs to, not to the entry where it was found, so if two passwords have been exchanged in the file, entering notes for the first replaces the value of the first by the second, and the value of the first is lost.", "quantifier": "all histories of the owner's processes and of changes to the files in between, all operations except reset, all stored values", "why_tests_cant": "Tests work with files that only the program writes; the claim is about every sequence of changes by somebody else and operations of the owner.", "anchors": ["pfp/src/passwords.rs:127-136", "pfp/src/passwords.rs:167-286", "pfp/src/passwords.rs:312-419", "pfp/src/storage.rs:45-87", "pfp/src/storage.rs:146-286"]}
{"id": "C107", "title": "Whole runs at a terminal, shells included, with files somebody else keeps changing", "statement": "The owner keeps using the program at a terminal, with any commands other than set-primary and with shells, and any lines typed (mistyped passwords, nonsense, lock and unlocking again), while somebody without the primary password changes the storage file in any way between the runs; values from the memory of earlier runs may come back, under any names. If the cipher is never broken and no other primary password that fits is typed, every text that any of these runs writes to standard output is one of the fixed texts or tells something that the owner entered, in whatever run: a password, its QR code, notes, an alias target, a site, aliases, name, type, parameters or a recovery code; or it repeats a recovery code typed in that run. A password restored by `add-stored --recovery` is one contained in a code put together from lines typed. All states of these processes are again ones about which C106 speaks.", "quantifier": "all numbers of runs, all command lines, all lines typed, all contents of the file before each run, all answers to questions", "why_tests_cant": "Tests run commands with files that the program wrote; the claim is about every sequence of runs, every text typed into a shell and every file in between.", "anchors": ["cli/src/processor/shell.rs:24-127", "cli/src/processor/utils.rs:71-123", "cli/src/processor/add.rs:13-67", "cli/src/processor/add_stored.rs:14-52", "cli/src/processor/remove.rs:12-29", "cli/src/processor/show.rs:15-61", "cli/src/processor/notes.rs:15-55", "cli/src/processor/alias.rs:12-40", "cli/src/processor/list.rs:16-163", "cli/src/processor/mod.rs:22-38", "cli/src/main.rs:40-111"]}
{"id": "C108", "title": "The primary password gets nowhere except through the key derivation", "statement": "Let primary passwords be replaced by other ones in any one-to-one way that respects being shorter than six bytes, and let the key derivation (scrypt) be replaced by one that does with the old passwords what the original does with the new ones. Then nothing else changes: every operation of the library has the same result and leaves the same file, storage in memory and other secrets; and in every run of the program at a terminal (any command line, shells and set-primary included, any lines typed) with the lines at the prompts for primary passwords replaced accordingly, the exit status, all files including the history of the shell, all texts on standard output and all messages on standard error, in their order, are the same. So what is stored, shown or reported depends on the primary password only through scrypt, through its being shorter than six bytes, and through the comparison of the two typed when setting a new one. In particular two primary passwords with the same scrypt results cannot be told apart. Assumption: the replaced lines are read at prompts for a primary password only.", "quantifier": "all replacements of primary passwords, all key derivations, all operations and states, all command lines, lines typed, files and answers", "why_tests_cant": "The claim compares every run with another one in which both the password and the algorithm are different; tests have one implementation of scrypt.", "anchors": ["pfp/src/crypto.rs:36-58", "pfp/src/crypto.rs:93-95", "pfp/src/passwords.rs:26-30", "pfp/src/passwords.rs:106-136", "pfp/src/passwords.rs:312-357", "pfp/src/recovery_codes.rs:188-238", "cli/src/processor/utils.rs:71-177", "cli/src/processor/set_primary.rs:13-35", "cli/src/processor/shell.rs:24-127", "cli/src/main.rs:40-111"]}
{"id": "C109", "title": "An operation changes only the entries it concerns, and what is removed leaves no trace", "statement": "Every operation other than creating a new storage and reading the file again leaves all entries of the storage as they are, to the last character of the ciphertext, except the ones it concerns: setting a password concerns the entry of that password and the one of its site, changing notes or removing a password the entry of that password, setting and removing an alias the entry of the aliased site, removing sites their entries, all others none. The names of the entries are the published ones (HMAC of the site, and of site, name and revision). Except for changing notes this holds whatever is in the storage, whoever wrote it, and whether or not the operation succeeds; for changing notes in storages nobody has tampered with. Consequently: if a password that does not exist is added, given notes, replaced, looked up and removed, in any order and any number of times, and at the end does not exist, then the storage contains the entries it contained before, with the same ciphertexts, except possibly one for its site if there was none; after a successful removal so does the file, which then has the same entries if the site had one. If the site had none, then nothing is left once the site has been removed. The same holds for an alias that is set for a site without an entry and removed.", "quantifier": "all storage contents, keys, operations and sequences of operations about a password, all failures of the file system", "why_tests_cant": "It is about all entries that an operation does not concern and about sequences of any length; tests look at the entries they have in mind.", "anchors": ["pfp/src/passwords.rs:142-454", "pfp/src/storage.rs:49-77", "pfp/src/storage.rs:121-325", "pfp/src/storage_io/file.rs"]}
{"id": "C110", "title": "The order of operations on different passwords does not matter, and what is replaced is forgotten", "statement": "Two sequences of operations that enter, replace, remove passwords or change their notes are carried out from the same unlocked state. If for every single password (site after resolving aliases, name, revision) the operations on it are the same and in the same order in both, then afterwards all questions about aliases, passwords, their existence and notes have the same answers, and the listings of passwords and of sites have the same items; whether or not writing the file succeeds in between. If the last operation of each has been successful then the same holds of programs started afterwards with the files, unlocked with the primary password. In particular operations on two different passwords can be exchanged. When a password is entered, it does not matter what has been done to it before, and doing an operation twice is the same as doing it once. Same assumptions as C21.", "quantifier": "all reachable unlocked states, all sequences of operations on passwords, all outcomes of writing", "why_tests_cant": "It is about all interleavings of sequences of any length.", "anchors": ["pfp/src/passwords.rs:231-286", "pfp/src/passwords.rs:380-419", "pfp/src/storage.rs:164-187", "pfp/src/storage.rs:239-286"]}
{"id": "C111", "title": "A run of the program changes only the entries of the file which its commands concern", "statement": "Let a run of the program (any command line other than set-primary; a shell with any inputs at its prompt, provided that the history of the shell is kept in another file) start with a storage file that can be loaded and leave one that can be loaded. If an entry is not the same in both, then one of the commands carried out has called a library operation it is entitled to, with the arguments given to it, which concerns this entry in the sense of C109: for add and add-stored the entry of this password and the one of its site, for notes --set and remove the entry of this password, for alias the entry of this site, for list (only if the name is *) entries of sites; the other commands concern no entry. It does not matter what is typed, which writes fail or are incomplete, or how the run ends; for runs that do not set notes it does not matter who wrote the file either; for runs that set notes the file is one nobody has tampered with.", "quantifier": "all command lines, inputs, files, outcomes of writing, and keys of entries", "why_tests_cant": "It compares every entry of every possible file before and after every possible run, including runs with failing writes.", "anchors": ["cli/src/main.rs:68-111", "cli/src/processor/mod.rs:22-38", "cli/src/processor/add.rs:13-67", "cli/src/processor/alias.rs:12-40", "cli/src/processor/list.rs:16-163", "cli/src/processor/remove.rs:12-29", "cli/src/processor/shell.rs:24-127", "pfp/src/passwords.rs:231-286", "pfp/src/passwords.rs:380-419", "pfp/src/storage.rs:164-286", "pfp/src/storage_io/file.rs:30-87"]}
{"id": "C112", "title": "What is told about one password does not depend on the other entries", "statement": "The result of every library operation depends only on the entries of the storage which it looks at: unlocking on the salt and the encrypted secret; questions about a password, changing its notes and removing it on the entry of the site given and the entry of that password at the site it stands for; entering a password on the entries of the site given and of the site it stands for; asking for and removing an alias on the entry of the site given; setting one on the entry of the target and on the entries of passwords of the site; listing passwords on the entry of the site given and the entries of passwords of the site it stands for; listing sites on the entries of sites. Two storages, whoever wrote them, that agree on these entries (with the same secrets in memory, random numbers and outcomes of writing) give the same result, listings in a possibly different order, and afterwards agree on all entries on which they agreed before. For setting an alias provided that no entry makes the program crash. Consequently a run of the program that shows a password, its notes or an alias ends in the same way and writes the same to standard output and standard error for two files that agree on the salt, the encrypted secret and these entries, whatever lines are typed: an entry that is damaged, altered, added or missing makes no difference to what is shown from other entries.", "quantifier": "all storage contents and files, all operations and states, all command lines and lines typed", "why_tests_cant": "It compares every storage with every other one that agrees on a few entries; tests can damage some entries in some ways.", "anchors": ["pfp/src/storage.rs:45-315", "pfp/src/passwords.rs:85-457", "cli/src/main.rs:68-111", "cli/src/processor/show.rs:15-61", "cli/src/processor/notes.rs:15-55", "cli/src/processor/alias.rs:12-40", "cli/src/processor/utils.rs:104-123"]}
{"id": "C113", "title": "Runs on two storage files that agree on what matters agree", "statement": "A run of the program with any commands other than set-primary, given as arguments or entered in a shell, on two storage files, whoever wrote them, that agree on the salt, the encrypted secret and every entry which one of the commands looks at after some of what the run may do: with the same input, random numbers and outcomes of writing it ends in the same way and writes the same to standard output and standard error, and the files left agree on every entry on which they agreed before if both can be read. If an alias is set, then one of the runs may crash instead; passwords and sites listed must not be put in order by equal texts. In particular, entries other than the salt, the encrypted secret and those whose names begin with 'site:' make no difference to such runs, whatever is entered.", "quantifier": "all pairs of storage files, all command lines, shell inputs and lines entered, all outcomes of writing", "why_tests_cant": "It compares the runs on every two files that agree on some entries, with every sequence of commands.", "anchors": ["cli/src/main.rs:68-111", "cli/src/processor/shell.rs:24-127", "cli/src/processor/utils.rs:71-177", "cli/src/processor/add.rs:13-67", "cli/src/processor/add_stored.rs:14-52", "cli/src/processor/remove.rs:12-29", "cli/src/processor/show.rs:15-61", "cli/src/processor/notes.rs:15-55", "cli/src/processor/alias.rs:12-40", "cli/src/processor/list.rs:16-163", "pfp/src/passwords.rs:85-457", "pfp/src/storage_io/file.rs:25-87"]}
{"id": "C114", "title": "A password is shown from a damaged file", "statement": "Once a password has been stored or generated, and after other runs of the program that do not concern it (as in C65), a run with the command show and the primary password (possibly after wrong lines) writes this password even if somebody has damaged or replaced the storage file afterwards, as long as the file can still be read and its salt, its encrypted secret, the entry of the site given and the entry of this password at the site it stands for are those which the program left. It ends successfully and tells nothing else. More generally, a run that shows a password, its notes or an alias has the same result and output on two files, whoever wrote them, that agree on the salt, the encrypted secret and the entries looked at after unlocking with the first line accepted.", "quantifier": "every reachable storage, all arguments, every sequence of runs in between, every input and outcome of writes, every file that agrees on these entries", "why_tests_cant": "unboundedly many sequences of runs and damaged files", "anchors": ["cli/src/main.rs: main_inner", "cli/src/processor/show.rs", "pfp/src/passwords.rs", "pfp/src/storage.rs", "pfp/src/storage_io/file.rs"]}
