import Verif.Spec.Foreign
import Verif.Props.Files
import Verif.Props.Published

/-!
# Storage files of other programs (C76)
-/

namespace Pfp.Props
open Spec

variable {E : Env} {U : Universe}

theorem shows_of_open (hE : E.Lawful) (hS : Secure E U) {s : PState} {A : AState} {o : Origin} {p : Str} {V : Vault}
    (ho : Open E U s A o p V) : Shows E U p V s where
  aliases _ ha := ho.ask_getAlias hE hS ha
  has _ _ _ ha hn hr := ho.ask_has hE hS ha hn hr
  stored a n r v notes ha hn hr hV := by
    rw [ho.ask_get hE hS ha hn hr, hV]
    rfl
  generated a n r length charset notes ha hn hr hV := by
    rw [ho.ask_get hE hS ha hn hr, hV]
    rfl
  notes a n r e ha hn hr hV := by rw [ho.ask_getNotes hE hS ha hn hr, hV]
  missing a n r ha hn hr hV := by
    rw [ho.ask_get hE hS ha hn hr, ho.ask_getNotes hE hS ha hn hr, hV]
    exact ⟨rfl, rfl⟩
  sites q := ho.listSites hE hS q
  passwords _ q ha := ho.list hE hS q ha

/-- **C76 (operations).** From a program start with a storage file in the published format, whatever program has written
it, the results of every sequence of operations are results of the abstract machine with the contents of this file. -/
theorem C76_abstract_map (hE : E.Lawful) (hS : Secure E U) (s : PState) (p : Str) (V : Vault) (hs : ForeignStart E U p V s)
    (ops : List Op) (hops : ∀ op ∈ ops, op.Within U) :
    ∃ a', ARun (deriveWith E.prims) E.wild (fun w => ∃ n, WriteFor (E.fs n) w) ops
      { mem := .blank, disk := .store p V, unlocked := false } (runAll E ops s).1 a' :=
  arun_of_rep hE hS ops s (foreignA p V) (foreign_rep hs) hops

theorem foreign_open (hE : E.Lawful) (hS : Secure E U) {s : PState} {p : Str} {V : Vault} (hs : ForeignStart E U p V s) :
    ∃ A o, Open E U (after E (after E s .reload) (.unlock p)) A o p V := by
  obtain ⟨w, _, h1, h2⟩ := step hE hS (foreign_rep hs) .reload trivial
  simp only [astep, foreignA] at h1 h2
  have hp : U.primary p := by
    obtain ⟨_, _, _, _, _, _, _, h⟩ := hs
    exact h.primary
  obtain ⟨w', _, _, h4⟩ := step hE hS h2 (.unlock p) hp
  simp only [astep, if_true] at h4
  obtain ⟨o, R, hses⟩ := h4.mem
  exact ⟨_, o, h4, ⟨by simp, by simp⟩, rfl, rfl, R, hses⟩

/-- **C76 (opening).** Such a file is loaded and unlocked by its primary password, and by no other; then all of its
contents are shown. -/
theorem C76_opened (hE : E.Lawful) (hS : Secure E U) (s : PState) (p : Str) (V : Vault) (hs : ForeignStart E U p V s) :
    ask E s .reload = .ok .unit ∧
    (∀ q, U.primary q → ask E (after E s .reload) (.unlock q) = if q = p then .ok .unit else .err .decryptionFailure) ∧
    Shows E U p V (after E (after E s .reload) (.unlock p)) := by
  have hrep := foreign_rep hs
  obtain ⟨w, _, h1, h2⟩ := step hE hS hrep .reload trivial
  simp only [astep, foreignA] at h1 h2
  refine ⟨h1, fun q hq => ?_, ?_⟩
  · obtain ⟨w', _, h3, _⟩ := step hE hS h2 (.unlock q) hq
    simp only [astep] at h3
    split at h3
    · rename_i h; rw [if_pos h]; exact h3
    · rename_i h; rw [if_neg h]; exact h3
  · obtain ⟨A, o, ho⟩ := foreign_open hE hS hs
    exact shows_of_open hE hS ho

/-- A represented table in a file. -/
theorem storageFile_of {o : Origin} {p : Str} {V : Vault} {b : Bytes} {d : Data} (hl : FileIO.load (some b) = .ok d)
    (R : RepStore E U o p d V) :
    StorageFile E.prims ⟨saltAt E o, secretAt E o, nonceAt E o, secretTextAt E o⟩ p V b := by
  obtain ⟨text, j, members, h1, h2, h3, h4⟩ := C38_only_storages_load b d hl
  have hseal : ∀ {F : Prop} {k : Bytes} {m : Str → Prop} {own : Json} {v : Str}, IsEnc E.prims F k m own v →
      Seals E.prims k m v := by
    rintro F k m own v ⟨nonce, t, g1, rfl, g2, -⟩
    exact ⟨nonce, t, _, _, g1, g2, isBase64_encode _, isBase64_encode _, by simp [sealText]⟩
  refine ⟨⟨saltAt_length R.origin, nonceAt_length R.origin, _, isBase64_encode _, secretText_json R.origin⟩,
    text, j, members, h1.symm, (Json.parse_iff _ _).mp h2, h3, ?_, ?_, ?_, ?_, ?_⟩
  · exact ⟨_, by rw [← h4]; exact R.salt, isBase64_encode _⟩
  · refine ⟨_, _, ?_, isBase64_encode _, isBase64_encode _⟩
    rw [← h4, publishedKey_eq]
    have := R.secret
    simpa [sealText, Storage.HMAC_SECRET_KEY] using this
  · intro s t hs
    obtain ⟨-, -, v, g1, g2⟩ := R.vault.site_in s t hs
    refine ⟨_, v, isBase64_encode _, ?_, ?_⟩
    · rw [← h4]; exact g1
    · rw [publishedKey_eq]; exact hseal g2
  · intro i e hi
    obtain ⟨-, v, g1, g2⟩ := R.vault.password_in i e hi
    refine ⟨_, _, v, isBase64_encode _, isBase64_encode _, ?_, ?_⟩
    · rw [← h4, ← g1]
      rfl
    · rw [publishedKey_eq]; exact hseal g2
  · intro k v hk
    rw [← h4] at hk
    rcases R.vault.only k v hk with h | h | ⟨s, t, g1, g2⟩ | ⟨i, e, g1, g2⟩
    · exact .inl h
    · exact .inr (.inl h)
    · exact .inr (.inr (.inl ⟨s, t, _, g1, isBase64_encode _, g2⟩))
    · exact .inr (.inr (.inr ⟨i, e, _, _, g1, isBase64_encode _, isBase64_encode _, g2⟩))

/-- **C76 (format kept).** In every reachable state, if the storage file can be loaded, then it is in the published
format, which is what other programs rely on. -/
theorem C76_format_kept (hE : E.Lawful) (hS : Secure E U) (s : PState) (hs : Reachable E U s) (d : Data)
    (hl : FileIO.load s.world.disk = .ok d) :
    ∃ b f p V, s.world.disk = some b ∧ U.primary p ∧ StorageFile E.prims f p V b := by
  obtain ⟨a, hrep, ha⟩ := reach hE hS hs
  have hdisk := hrep.disk
  cases hD : a.disk with
  | missing =>
    rw [hD] at hdisk
    have hdisk : s.world.disk = none := hdisk
    rw [hdisk] at hl
    cases hl
  | unreadable =>
    rw [hD] at hdisk
    rcases hdisk with h | h <;> (rw [hl] at h; cases h)
  | torn => exact absurd hD ha.2
  | store p V =>
    rw [hD] at hdisk
    obtain ⟨o, d', h1, R⟩ := hdisk
    cases hb : s.world.disk with
    | none => rw [hb] at h1; cases h1
    | some b => exact ⟨b, _, p, V, rfl, R.primary, storageFile_of (hb ▸ h1) R⟩

/-- **C76 (written).** After every successful change the storage file has the published format, with the contents that
are shown: what another program finds there is what the user has seen. -/
theorem C76_written (hE : E.Lawful) (hS : Secure E U) (s : PState) (hs : Reachable E U s) (op : Op) (hw : op.Within U)
    (hop : op.changes = true ∨ ∃ p, op = .reset p) (hok : ask E s op = .ok .unit)
    (hu : (after E s op).key.isSome = true) :
    ∃ b f p V, (after E s op).world.disk = some b ∧ (after E s op).primaryPassword = some p ∧
      StorageFile E.prims f p V b ∧ Shows E U p V (after E s op) := by
  have hreach : Reachable E U (after E s op) := .step hs op hw fun _ _ => .inl hok
  have hdisk : (after E s op).world.disk = some (FileIO.contents (FileIO.entries E (after E s op).world)) := by
    rcases hop with hc | ⟨p, rfl⟩
    · exact (changes_written E s op hc _ hok).2.1
    · exact (reset_written hE s p hok).2.1
  obtain ⟨A, o, p, V, ho⟩ := reach_open hE hS hreach hu
  refine ⟨_, ⟨saltAt E o, secretAt E o, nonceAt E o, secretTextAt E o⟩, p, V, hdisk, ho.session.2.2, ?_, shows_of_open hE hS ho⟩
  generalize after E s op = t at *
  have hperm := hE.order t.world.epoch t.world.data
  exact storageFile_of (FileIO.load_contents _ ((hperm.map _).nodup_iff.mpr ho.store.vault.nodup))
    (ho.store.perm ((List.reverse_perm _).trans hperm).symm)

/-! An example: the file of a program with habits of its own. -/

namespace Example

/-- Salt, HMAC secret and nonce; the text of the HMAC secret has an escape sequence and blanks. -/
def secrets : ForeignSecrets := ⟨List.replicate 16 7, b!"xyz", List.replicate 12 9, c!" \"\\u0065Hl6\"\n"⟩

/-- The key. -/
def key : Bytes := publishedKey toyPrims (c!"secret1") secrets.salt

/-- The site "a" with a password "x" for the name "u". -/
def table : Vault := (Vault.empty.know (c!"a")).put ⟨c!"a", c!"u", []⟩ ⟨.stored (c!"x"), c!"!"⟩

/-- Records, not spelled like this program would spell them. -/
def siteRecord : Str := c!"{\"alias\":null, \"site\":\"a\"}"
def passwordRecord : Str := c!"{\"notes\":\"!\",\"password\":\"\\u0078\",\"site\":\"a\",\"name\":\"u\",\"x\":[],\"type\":\"stored\",\"revision\":\"\"}"

/-- An encrypted text. -/
def sealed (nonce : Bytes) (m : Str) : Str :=
  Base64.encode nonce ++ ['_'] ++ Base64.encode (toyPrims.gcmEncrypt key nonce (utf8 m))

/-- The names of the entries. -/
def siteName : Str := c!"site:" ++ Base64.encode (toyPrims.hmac secrets.secret (utf8 (c!"a")))
def passwordName : Str :=
  siteName ++ [':'] ++ Base64.encode (toyPrims.hmac secrets.secret (utf8 (idText ⟨c!"a", c!"u", []⟩)))

/-- The entries. -/
def members : List (Str × Str) :=
  [(passwordName, sealed (List.replicate 12 1) passwordRecord), (c!"hmac-secret", sealed secrets.nonce secrets.text),
    (siteName, sealed (List.replicate 12 2) siteRecord), (c!"salt", Base64.encode secrets.salt)]

/-- The file. -/
def file : Str :=
  c!"{ \"data\" :{\n" ++ (members.flatMap fun m => c!"  \"" ++ m.1 ++ c!"\": \"" ++ m.2 ++ c!"\" ,\n").dropLast.dropLast ++
    c!"},\n\"format\": 3, \"application\": \"pfp\"\n}\n"

/-- A program start with this file. -/
def state : PState := Passwords.new { data := [], epoch := 0, disk := some (utf8 file), rpos := 0, fpos := 0 }

theorem file_loads : FileIO.load (some (utf8 file)) = .ok members.reverse := by decide +kernel

theorem siteRecord_text : SiteRecordText ⟨c!"a", none⟩ siteRecord := by
  obtain ⟨m, j, h1, h2, h3⟩ := Serde.fromSlice_iff.mp (show Serde.fromSlice Serde.siteFromJson (utf8 siteRecord) =
    some ⟨c!"a", none⟩ by decide +kernel)
  cases utf8_injective h1
  exact ⟨j, h2, Serde.site_iff.mp h3⟩

theorem passwordRecord_text : PasswordRecordText (.stored ⟨⟨c!"a", c!"u", []⟩, c!"x", c!"!"⟩) passwordRecord := by
  obtain ⟨m, j, h1, h2, h3⟩ := Serde.fromSlice_iff.mp (show Serde.fromSlice Serde.passwordFromJson (utf8 passwordRecord) =
    some (.stored ⟨⟨c!"a", c!"u", []⟩, c!"x", c!"!"⟩) by decide +kernel)
  cases utf8_injective h1
  exact ⟨j, h2, Serde.password_iff.mp h3⟩

theorem secrets_text : JsonText (.str (Base64.encode secrets.secret)) secrets.text := by
  obtain ⟨m, j, h1, h2, h3⟩ := Serde.fromSlice_iff.mp (show Serde.fromSlice Serde.asStr (utf8 secrets.text) =
    some (Base64.encode secrets.secret) by decide +kernel)
  cases utf8_injective h1
  cases j <;> simp [Serde.asStr] at h3
  subst h3
  exact h2

theorem sealed_seals {nonce : Bytes} (hn : nonce.length = 12) {m : Str → Prop} {t : Str} (hm : m t) :
    Seals toyPrims key m (sealed nonce t) :=
  ⟨nonce, t, _, _, hn, hm, isBase64_encode _, isBase64_encode _, rfl⟩

theorem table_sites {s : Str} {t : Option Str} (h : table.sites s = some t) : s = c!"a" ∧ t = none := by
  simp only [table, Vault.put, Vault.know, Vault.empty, update, if_true] at h
  split at h
  · rename_i hs; cases h; exact ⟨hs, rfl⟩
  · cases h

theorem table_passwords {i : PasswordId} {e : Entry} (h : table.passwords i = some e) :
    i = ⟨c!"a", c!"u", []⟩ ∧ e = ⟨.stored (c!"x"), c!"!"⟩ := by
  simp only [table, Vault.put, Vault.know, Vault.empty, update, if_true] at h
  split at h
  · rename_i hs; cases h; exact ⟨hs, rfl⟩
  · cases h

theorem storageFile : StorageFile toyPrims secrets (c!"secret1") table (utf8 file) := by
  obtain ⟨text, j, l, h1, h2, h3, h4⟩ := C38_only_storages_load _ _ file_loads
  refine ⟨⟨rfl, rfl, _, isBase64_encode _, secrets_text⟩, text, j, l, h1.symm, (Json.parse_iff _ _).mp h2, h3, ?_, ?_, ?_,
    ?_, ?_⟩
  · exact ⟨_, by rw [← h4]; decide +kernel, isBase64_encode _⟩
  · refine ⟨_, _, ?_, isBase64_encode _, isBase64_encode _⟩
    rw [← h4]
    decide +kernel
  · intro s t h
    obtain ⟨rfl, rfl⟩ := table_sites h
    refine ⟨_, sealed (List.replicate 12 2) siteRecord, isBase64_encode _, ?_, sealed_seals rfl siteRecord_text⟩
    rw [← h4]
    decide +kernel
  · intro i e h
    obtain ⟨rfl, rfl⟩ := table_passwords h
    refine ⟨_, _, sealed (List.replicate 12 1) passwordRecord, isBase64_encode _, isBase64_encode _, ?_,
      sealed_seals rfl passwordRecord_text⟩
    rw [← h4]
    decide +kernel
  · intro k v h
    rw [← h4] at h
    have hm : k ∈ (members.reverse).map (·.1) := List.mem_map_of_mem (f := (·.1)) (Data.mem_of_get? h)
    simp only [members, List.reverse_cons, List.reverse_nil, List.nil_append, List.cons_append, List.map_cons, List.map_nil,
      List.mem_cons, List.not_mem_nil, or_false] at hm
    rcases hm with rfl | rfl | rfl | rfl
    · exact .inl rfl
    · exact .inr (.inr (.inl ⟨c!"a", none, _, rfl, isBase64_encode _, rfl⟩))
    · exact .inr (.inl rfl)
    · exact .inr (.inr (.inr ⟨⟨c!"a", c!"u", []⟩, _, _, _, rfl, isBase64_encode _, isBase64_encode _, rfl⟩))

theorem foreignStart : ForeignStart Toy.env Toy.openUniv (c!"secret1") table state := by
  refine ⟨rfl, rfl, rfl, rfl, _, secrets, rfl, trivial, storageFile, ?_, ?_, ?_⟩
  · show _ ∈ Toy.primaries; decide
  · intro s t h
    obtain ⟨rfl, rfl⟩ := table_sites h
    exact ⟨Toy.site_a, by simp⟩
  · intro i e h
    obtain ⟨rfl, rfl⟩ := table_passwords h
    exact ⟨⟨Toy.site_a, Toy.name_u, Toy.revision_nil⟩, by decide⟩

end Example

example : Toy.env.Lawful ∧ Secure Toy.env Toy.openUniv ∧ ForeignStart Toy.env Toy.openUniv (c!"secret1") Example.table
    Example.state := ⟨Toy.env_lawful, Toy.openSecure, Example.foreignStart⟩

-- The password of the other program is shown.
example : ask Toy.env (after Toy.env (after Toy.env Example.state .reload) (.unlock (c!"secret1")))
    (.get (c!"www.a") (c!"u") (c!"1")) = .ok (.text (c!"x")) :=
  (C76_opened Toy.env_lawful Toy.openSecure _ _ _ Example.foreignStart).2.2.stored _ _ _ _ (c!"!") Toy.site_www Toy.name_u
    Toy.revision_1 rfl

example : Reachable Toy.env Toy.openUniv Example.state ∧ ∃ d, FileIO.load Example.state.world.disk = .ok d :=
  ⟨.foreign Example.foreignStart, _, Example.file_loads⟩

-- A change by this program in the file of the other one.
example : ∃ s, Reachable Toy.env Toy.openUniv s ∧
    ask Toy.env s (.setStored (c!"a") (c!"v") [] (c!"y")) = .ok .unit ∧
    (after Toy.env s (.setStored (c!"a") (c!"v") [] (c!"y"))).key.isSome = true := by
  obtain ⟨A, o, ho⟩ := foreign_open Toy.env_lawful Toy.openSecure Example.foreignStart
  obtain ⟨h1, A', o', ho'⟩ :=
    (ho.setStored Toy.env_lawful Toy.openSecure (c!"y") ⟨Toy.site_a, Toy.name_v, Toy.revision_nil⟩).ok rfl
  have hk := congrArg Option.isSome ho'.session.1
  refine ⟨_, .step (.step (.foreign Example.foreignStart) .reload trivial (by simp)) (.unlock (c!"secret1")) ?_ (by simp), h1, hk⟩
  show _ ∈ Toy.primaries; decide

end Pfp.Props
