import Verif.Props.Tampering
import Verif.Props.Recovery
import Verif.Spec.SameKey

/-!
# Recovery codes and entries of the file use the same key: C91

`get_recovery_code` (`passwords.rs:340-344`) encrypts with the key and the salt of the storage, and neither ciphertext says
what it is for.
-/

namespace Pfp.Props
open Spec Crypto RecoveryCodes

variable {E : Env}

/-! ## From a recovery code to an entry -/

theorem carries_madeOf (nonce c : Bytes) : Carries (madeOf nonce c) nonce c := ⟨_, _, rfl, ⟨0, by simp⟩, ⟨0, by simp⟩⟩

theorem visible_generate {P : Prims} (hP : P.Lawful) {oc : Bool} {nonce : Bytes} {password : Str} {salt key g : Bytes}
    (h : generate P oc nonce password salt key = .ok g) :
    Visible g salt nonce (P.gcmEncrypt key nonce (utf8 password ++ List.replicate (fillBytes (utf8 password).length) 0)) := by
  obtain ⟨hn, hs, hk, ho⟩ := of_generate hP h
  obtain ⟨bs, e, h1, h2, h3, h4, h5, h6, _⟩ := generate_ok hP (password := password) hn hs hk ho
  rw [h5] at h
  cases h
  have hne : bs ≠ [] := by intro h0; rw [h0, List.length_nil] at h3; omega
  have hv := validate_complete (oc := false) (tail := []) (code := layout e) h2 hne (.inl rfl) h4
    (by rw [h6, List.append_nil])
  rw [if_pos rfl] at hv
  have hd := dropChecksums_rows (n := bs.length) bs 0 0 h2
  rw [Nat.mul_zero, h1] at hd
  exact ⟨_, hv, hd, hs, hn⟩

theorem fillBytes_zero {n : Nat} (h : (45 + n) % 14 = 0) : fillBytes n = 0 := by
  have := fillBytes_spec n
  omega

/-- **C91 (a recovery code is an entry).** A recovery code shows, to everybody, the salt of the storage and a nonce and a
ciphertext which put together are a value that the storage accepts under its own key: its plaintext is the password, filled
up with NUL bytes to complete lines. -/
theorem C91_code_decrypts (hP : E.prims.Lawful) (s : PState) (k : Bytes) (hk : s.key = some k) (z : StoredPassword) (g : Bytes)
    (hg : ask E s (.getRecoveryCode z) = .ok (.code g)) :
    ∃ salt nonce c j, Visible g salt nonce c ∧ Storage.getSalt s.world = .ok salt ∧ j < 14 ∧
      FillsLines (utf8 z.password ++ List.replicate j 0) ∧
      Decrypts E.prims k (madeOf nonce c) (utf8 z.password ++ List.replicate j 0) := by
  simp only [ask, run, Passwords.getRecoveryCode, M.bind_apply, M.get_apply, M.lift_apply, hk, okOr_some] at hg
  cases hsalt : Storage.getSalt s.world with
  | err e => rw [hsalt] at hg; cases hg
  | panic => rw [hsalt] at hg; cases hg
  | ok salt =>
    rw [hsalt] at hg
    replace hg : (generate E.prims E.overflowChecks (FileIO.randBytes E s.world.rpos 12) z.password salt k).map Out.code =
      .ok (.code g) := hg
    generalize FileIO.randBytes E s.world.rpos 12 = nonce at hg
    have hg' : generate E.prims E.overflowChecks nonce z.password salt k = .ok g := by
      cases hgen : generate E.prims E.overflowChecks nonce z.password salt k with
      | ok g' => rw [hgen] at hg; cases hg; rfl
      | err e => rw [hgen] at hg; cases hg
      | panic => rw [hgen] at hg; cases hg
    obtain ⟨hn, hs, hkl, -⟩ := of_generate hP hg'
    have hf := fillBytes_spec (utf8 z.password).length
    refine ⟨salt, nonce, _, fillBytes (utf8 z.password).length, visible_generate hP hg', rfl, by omega, ?_,
      _, _, nonce, _, rfl, ⟨0, by simp⟩, hn, ⟨0, by simp⟩, hP.gcm_roundtrip _ _ _ hkl hn⟩
    simp only [FillsLines, List.length_append, List.length_replicate]
    omega

theorem visible_unique {g salt nonce c salt' nonce' c' : Bytes} (h : Visible g salt nonce c) (h' : Visible g salt' nonce' c') :
    salt = salt' ∧ nonce = nonce' ∧ c = c' := by
  obtain ⟨d, h1, h2, h3, h4⟩ := h
  obtain ⟨d', h1', h2', h3', h4'⟩ := h'
  rw [h1] at h1'
  cases h1'
  rw [h2] at h2'
  simp only [List.cons.injEq, true_and, List.append_assoc] at h2'
  obtain ⟨rfl, h5⟩ := List.append_inj h2' (by omega)
  obtain ⟨rfl, rfl⟩ := List.append_inj h5 (by omega)
  exact ⟨rfl, rfl, rfl⟩

/-- **C91 (planting a record).** If the text of a password happens to be that of a record and to fill the lines, then who
sees its recovery code, and knows no key, can put the record into the file under the name of any password: the file opens, and
what is shown is what the record says.  (The text may have been chosen by somebody else, and spaces in it fill the lines.) -/
theorem C91_planted (hP : E.prims.Lawful) (p : Str) (s : PState) (ho : Opens E p s) (d : Data)
    (hd : FileIO.load s.world.disk = .ok d) (h : Bytes) (hh : (opened E p s).hmacSecret = some h) (z : StoredPassword) (g : Bytes)
    (t : PState) (htk : t.key = (opened E p s).key) (hg : ask E t (.getRecoveryCode z) = .ok (.code g)) (x : StoredPassword)
    (hx : Serde.fromSlice Serde.passwordFromJson (utf8 z.password) = some (.stored x)) (hfill : FillsLines (utf8 z.password))
    (salt nonce c : Bytes) (hvis : Visible g salt nonce c) (a n r : Str) (ha : ask E (opened E p s) (.getAlias a) ≠ .panic)
    (s' : PState)
    (hs' : s'.world.disk = some (FileIO.contents (d.insert (entryMeant E h (opened E p s) a n r) (madeOf nonce c)))) :
    Opens E p s' ∧ ask E (opened E p s') (.has a n r) = .ok (.bool true) ∧
      ask E (opened E p s') (.get a n r) = .ok (.text x.password) ∧
      ask E (opened E p s') (.getNotes a n r) = .ok (.text x.notes) ∧
      (∀ y, ask E (opened E p s') (.getAlias y) = ask E (opened E p s) (.getAlias y)) ∧
      ∀ y m q, ask E (opened E p s) (.getAlias y) ≠ .panic →
        entryMeant E h (opened E p s) y m q ≠ entryMeant E h (opened E p s) a n r →
        ask E (opened E p s') (.has y m q) = ask E (opened E p s) (.has y m q) ∧
        ask E (opened E p s') (.get y m q) = ask E (opened E p s) (.get y m q) ∧
        ask E (opened E p s') (.getNotes y m q) = ask E (opened E p s) (.getNotes y m q) := by
  obtain ⟨_, _, k, _, -, -, -, -, hkl, -, hk, -, -⟩ := opens_iff hP ho
  obtain ⟨salt', nonce', c', j, g1, -, hj, g2, g3⟩ := C91_code_decrypts hP t k (htk.trans hk) z g hg
  obtain ⟨rfl, rfl, rfl⟩ := visible_unique hvis g1
  obtain rfl : j = 0 := by
    simp only [FillsLines, List.length_append, List.length_replicate] at g2 hfill
    omega
  rw [List.replicate_zero, List.append_nil] at g3
  have hdata := opened_data hP ho hd
  generalize hkey : entryMeant E h (opened E p s) a n r = key at *
  obtain ⟨d', hl, hget⟩ := load_any (d := d.insert key (madeOf nonce c)) (Data.insert_nodup _ _ (load_nodup hd))
  have hl' : FileIO.load s'.world.disk = .ok d' := by rw [hs']; exact hl
  have hothers : ∀ key', key' ∉ [key] → d'.get? key' = d.get? key' := by
    intro key' hm
    simp only [List.mem_cons, List.not_mem_nil, or_false] at hm
    rw [hget, Data.get?_insert, if_neg hm]
  have hkeys : ∀ key' ∈ [key], ∃ i, key' = passwordEntry E.prims h i := by
    intro key' hm
    simp only [List.mem_cons, List.not_mem_nil, or_false] at hm
    subst hm
    exact ⟨_, hkey.symm⟩
  obtain ⟨f1, f2, f3, f4⟩ := passwords_changed hP p s s' ho d d' hd hl' h hh [key] hkeys hothers
  obtain ⟨-, hk', -⟩ := C90_unbound hP p s s' ho d d' hd hl'
    (hothers _ fun hm => by
      obtain ⟨i, hi⟩ := hkeys _ hm
      rw [← passwordKey_entry] at hi
      exact Storage.passwordKey_ne_salt E i h hi.symm)
    (hothers _ fun hm => by
      obtain ⟨i, hi⟩ := hkeys _ hm
      rw [← passwordKey_entry] at hi
      exact Storage.passwordKey_ne_hmac E i h hi.symm)
  obtain ⟨_, _, _, _, -, -, -, -, -, -, -, -, hp'⟩ := opens_iff hP f1
  obtain ⟨e1, e2, e3, -⟩ := C56_get E (opened E p s') k h p (hk'.trans hk) hkl f2 hp' a n r (by rw [f3]; exact ha)
  have hv : (opened E p s').world.data.get? (passwordEntry E.prims h ⟨siteMeant E (opened E p s') a, n, revisionOf r⟩) =
      some (madeOf nonce c) := by
    have : passwordEntry E.prims h ⟨siteMeant E (opened E p s') a, n, revisionOf r⟩ = key := by
      rw [← hkey]
      unfold entryMeant siteMeant
      rw [f3]
    rw [this, opened_data hP f1 hl', hget, Data.get?_insert, if_pos rfl]
  refine ⟨f1, e1.mpr (by rw [hv]; rfl), (e3 _).mpr ⟨_, _, hv, ⟨_, g3, hx⟩, rfl⟩, (e2 _).mpr ⟨_, _, hv, ⟨_, g3, hx⟩, rfl⟩, f3,
    fun y m q ey hy => f4 y m q y m q ey ey (hothers _ (by simpa using hy))⟩

/-- **C91 (nothing else foreign).** That is the only way: as long as the owner makes no recovery code of a password whose text
is legible for the storage and fills the lines, the recovery codes are of no use for changing the file, and everything shown was
entered by the owner (`C90_genuine`). -/
theorem C91_genuine {U : Universe} {G : Op → Prop} (hE : E.Lawful) (hS : Secure E U) (owner : PState → Prop)
    (howner : ∀ u, owner u → Done E U G u) (p : Str) (hp : U.primary p) (s : PState) (ho : Opens E p s)
    (made : StoredPassword → Prop) (hn : NoForgeryButCodes E owner made p (opened E p s))
    (hz : ∀ z j, made z → j < 14 → FillsLines (utf8 z.password ++ List.replicate j 0) →
      ¬Legible (utf8 z.password ++ List.replicate j 0)) :
    NoForgery E owner p (opened E p s) ∧
    (∀ a n r x, ask E (opened E p s) (.get a n r) = .ok (.text x) →
      (∃ a' n' r', G (.setStored a' n' r' x)) ∨
      ∃ a' n' r' len cs site, G (.setGenerated a' n' r' len cs) ∧ Named G site ∧
        deriveWith E.prims p ⟨site, n', revisionOf r'⟩ len cs = .ok x) ∧
    (∀ a n r x, ask E (opened E p s) (.getNotes a n r) = .ok (.text x) → x = [] ∨ ∃ a' n' r', G (.setNotes a' n' r' x)) ∧
    ∀ a x, ask E (opened E p s) (.getAlias a) = .ok (.text x) → Named G x := by
  have h : NoForgery E owner p (opened E p s) := by
    intro k key v nonce c m hk hv hc hm hl
    rcases hn k key v nonce c m hk hv hc hm hl with h | ⟨u, z, g, salt, -, h1, h2, h3, h4⟩
    · exact h
    · obtain ⟨salt', nonce', c', j, g1, -, g0, g2, g3⟩ := C91_code_decrypts hE.prims u k h2 z g h3
      obtain ⟨rfl, rfl, rfl⟩ := visible_unique h4 g1
      obtain ⟨nonce', c', h5, h6⟩ := carries_of_decrypts g3
      obtain ⟨rfl, rfl⟩ := carries_unique (carries_madeOf nonce c) h5
      rw [hm] at h6
      cases h6
      exact absurd hl (hz z j h1 g0 g2)
  obtain ⟨h1, h2, h3, -⟩ := C90_genuine hE hS owner howner p hp s ho h
  exact ⟨h, h1, h2, h3⟩

/-! ## From an entry to a recovery code -/

/-- **C91 (an entry is a recovery code).** From the salt and any value of the file that fills the lines everybody can make a
recovery code: with the primary password it decodes to the text of the record. -/
theorem C91_entry_as_code (salt nonce c : Bytes) (hs : salt.length = 16) (hn : nonce.length = 12) (hc : 16 ≤ c.length)
    (hfill : (29 + c.length) % 14 = 0) :
    ∃ g, Visible g salt nonce c ∧ ∀ (P : Prims), P.Lawful → ∀ (overflowChecks : Bool) (p t : Str),
      (overflowChecks = false ∨ 29 + c.length ≤ 256 * 14) → t ≠ [] → t.getLast? ≠ some (Char.ofNat 0) →
      Decrypts P (keyFor P p salt) (madeOf nonce c) (utf8 t) → decode P overflowChecks g p = .ok t := by
  have hlen : (VERSION :: (salt ++ nonce ++ c)).length = 14 * ((29 + c.length) / 14) := by
    simp only [List.length_cons, List.length_append]; omega
  obtain ⟨bs, h1, h2, h3⟩ := exists_pieces 14 _ _ hlen
  have hr0 : ∀ r ∈ rowsFrom bs.length 0 bs, r.length = 15 := fun r hr => mem_rowsFrom h3 hr
  have hfl := flatten_length hr0
  rw [rowsFrom_length] at hfl
  obtain ⟨e, g1, g2, g3, _⟩ := encodeLoop_spec (rowsFrom bs.length 0 bs).flatten (by omega)
  have he : base32Encode (rowsFrom bs.length 0 bs).flatten = .ok e := by rw [base32Encode_eq (by omega), g1]
  have hne : bs ≠ [] := by intro h0; rw [h0, List.length_nil] at h2; omega
  have hv : ∀ oc, (oc = false ∨ 29 + c.length ≤ 256 * 14) → validate oc (layout e) = .ok (rowsFrom bs.length 0 bs).flatten := by
    intro oc hoc
    have := validate_complete (oc := oc) (tail := []) (code := layout e) h3 hne (hoc.imp_right (by omega)) he
      (by rw [significant_layout e g3, List.append_nil])
    rwa [if_pos rfl] at this
  have hd := dropChecksums_rows (n := bs.length) bs 0 0 h3
  rw [Nat.mul_zero, h1] at hd
  refine ⟨layout e, ⟨_, hv false (.inl rfl), hd, hs, hn⟩, fun P hP oc p t hoc hne' hlast hdec => ?_⟩
  obtain ⟨nonce', c', hcar, hdec'⟩ := carries_of_decrypts hdec
  obtain ⟨rfl, rfl⟩ := carries_unique (carries_madeOf nonce c) hcar
  rw [decode_eq hP (hv oc hoc) hd hs hn hc]
  have : P.gcmDecrypt (P.scrypt (utf8 p) (utf8 (salt.map byteChar)) 32) nonce c = some (utf8 t) := hdec'
  rw [this]
  obtain ⟨q, ch, rfl⟩ : ∃ q ch, t = q ++ [ch] := ⟨_, _, (List.dropLast_append_getLast hne').symm⟩
  have hch : ch ≠ Char.ofNat 0 := by
    intro h0; apply hlast; simp [h0]
  obtain ⟨a, x, hx, hx0⟩ := utf8Char_last hch
  have hu : utf8 (q ++ [ch]) = (utf8 q ++ a) ++ [x] := by
    rw [utf8_append, utf8_cons, hx, utf8_nil, List.append_nil, List.append_assoc]
  have hst := stripZeros_append (oc := oc) (utf8 q ++ a) x hx0 0
  rw [List.replicate_zero, List.append_nil, ← hu] at hst
  simp only [okOr_some, Res.bind_ok, hst]
  rw [List.take_of_length_le (by rw [hu]; simp only [List.length_append, List.length_cons, List.length_nil]; omega),
    fromUtf8_utf8]
  rfl

/-! ## Examples -/

section Examples

/-- A password whose text is a record and fills the lines. -/
def innocent : StoredPassword := ⟨⟨c!"b", c!"u", c!"1"⟩, c!"{\"type\":\"stored\",\"site\":\"\",\"name\":\"\",\"revision\":\"\",\"password\":\"evil\"}            ", []⟩

theorem code_made (z : StoredPassword)
    (h : (match ask Toy.env twoStored (.getRecoveryCode z) with | .ok (.code _) => true | _ => false) = true) :
    ∃ g, ask Toy.env twoStored (.getRecoveryCode z) = .ok (.code g) := by
  generalize ask Toy.env twoStored (.getRecoveryCode z) = r at h ⊢
  split at h
  · exact ⟨_, rfl⟩
  · cases h

/-- Who sees its recovery code makes `evil` the password of `a`. -/
example : ∃ g, ask Toy.env twoStored (.getRecoveryCode innocent) = .ok (.code g) ∧ ∃ salt nonce c, Visible g salt nonce c ∧
    ∀ s' : PState, s'.world.disk = some (FileIO.contents (twoData.insert
      (entryMeant Toy.env twoSecret (opened Toy.env (c!"secret1") twoStored) (c!"a") (c!"u") []) (madeOf nonce c))) →
      ask Toy.env (opened Toy.env (c!"secret1") s') (.get (c!"a") (c!"u") []) = .ok (.text (c!"evil")) ∧
      ask Toy.env (opened Toy.env (c!"secret1") s') (.get (c!"b") (c!"u") []) = .ok (.text (c!"y")) := by
  have hk : twoStored.key = (opened Toy.env (c!"secret1") twoStored).key := by decide +kernel
  obtain ⟨g, hg⟩ := code_made innocent (by decide +kernel)
  obtain ⟨_, _, k, _, -, -, -, -, -, -, hk', -, -⟩ := opens_iff Toy.env_lawful.prims twoStored_opens
  obtain ⟨salt, nonce, c, -, h1, -⟩ := C91_code_decrypts Toy.env_lawful.prims twoStored k (hk.trans hk') innocent g hg
  have hf : FillsLines (utf8 innocent.password) := by unfold FillsLines; decide +kernel
  refine ⟨g, hg, salt, nonce, c, h1, fun s' hs' => ?_⟩
  obtain ⟨-, -, h2, -, -, h3⟩ := C91_planted Toy.env_lawful.prims (c!"secret1") twoStored twoStored_opens twoData twoStored_load
    twoSecret (by decide +kernel) innocent g twoStored hk hg ⟨⟨[], [], []⟩, c!"evil", []⟩ (by decide +kernel)
    hf salt nonce c h1 (c!"a") (c!"u") [] (by decide +kernel) s' hs'
  exact ⟨h2, (h3 (c!"b") (c!"u") [] (by decide +kernel) (by decide +kernel)).2.1.trans twoStored_values.2⟩

/-- A usual password. -/
def usual : StoredPassword := ⟨⟨c!"b", c!"u", c!"1"⟩, c!"y", []⟩

theorem usual_illegible : ∀ j, j < 14 → ¬Legible (utf8 usual.password ++ List.replicate j 0) := by
  have h : ∀ j, j < 14 → Serde.fromSlice Serde.asStr (utf8 usual.password ++ List.replicate j 0) = none ∧
      Serde.fromSlice Serde.siteFromJson (utf8 usual.password ++ List.replicate j 0) = none ∧
      Serde.fromSlice Serde.passwordFromJson (utf8 usual.password ++ List.replicate j 0) = none := by decide +kernel
  rintro j hj (⟨x, hx⟩ | ⟨x, hx⟩ | ⟨x, hx⟩)
  · rw [(h j hj).1] at hx; cases hx
  · rw [(h j hj).2.1] at hx; cases hx
  · rw [(h j hj).2.2] at hx; cases hx

/-- Its recovery code is of no use: put into the file under the name of `a`, there is nothing that would be shown. -/
example : ∃ g salt nonce c, Visible g salt nonce c ∧ ask Toy.env twoStored (.getRecoveryCode usual) = .ok (.code g) ∧
    ∀ s' : PState, s'.world.disk = some (FileIO.contents (twoData.insert
      (entryMeant Toy.env twoSecret (opened Toy.env (c!"secret1") twoStored) (c!"a") (c!"u") []) (madeOf nonce c))) →
    ∀ a n r x, ask Toy.env (opened Toy.env (c!"secret1") s') (.get a n r) = .ok (.text x) →
      ∃ a' n' r', owned (.setStored a' n' r' x) := by
  obtain ⟨g, hg⟩ := code_made usual (by decide +kernel)
  have hk : twoStored.key = (opened Toy.env (c!"secret1") twoStored).key := by decide +kernel
  have hkey : (after Toy.env twoStored (.unlock (c!"secret1"))).key = twoStored.key := by decide +kernel
  have hun : ask Toy.env twoStored (.unlock (c!"secret1")) = .ok .unit := by decide +kernel
  have hsame : twoStored.world.data = twoData := by decide +kernel
  obtain ⟨_, _, k, _, -, -, -, -, -, -, hk', -, -⟩ := opens_iff Toy.env_lawful.prims twoStored_opens
  obtain ⟨salt, nonce, c, -, h1, -⟩ := C91_code_decrypts Toy.env_lawful.prims twoStored k (hk.trans hk') usual g hg
  refine ⟨g, salt, nonce, c, h1, hg, fun s' hs' a n r x hx => ?_⟩
  generalize hmeant : entryMeant Toy.env twoSecret (opened Toy.env (c!"secret1") twoStored) (c!"a") (c!"u") [] = e at hs'
  obtain ⟨d', hl, hget⟩ := load_any (d := twoData.insert e (madeOf nonce c)) (Data.insert_nodup _ _ (load_nodup twoStored_load))
  have hl' : FileIO.load s'.world.disk = .ok d' := by rw [hs']; exact hl
  have hothers : ∀ key, key ≠ e → d'.get? key = twoData.get? key := fun key hne => by
    rw [hget, Data.get?_insert, if_neg hne]
  obtain ⟨ho, hkk, -⟩ := C90_unbound Toy.env_lawful.prims (c!"secret1") twoStored s' twoStored_opens twoData d' twoStored_load hl'
    (hothers _ fun h => by
      rw [← hmeant, entryMeant, ← passwordKey_entry] at h
      exact Storage.passwordKey_ne_salt _ _ _ h.symm)
    (hothers _ fun h => by
      rw [← hmeant, entryMeant, ← passwordKey_entry] at h
      exact Storage.passwordKey_ne_hmac _ _ _ h.symm)
  obtain ⟨-, h2, -⟩ := C91_genuine Toy.env_lawful Toy.secure (· = twoStored) (by rintro u rfl; exact twoStored_done) (c!"secret1")
    (by show _ ∈ Toy.primaries; decide) s' ho (· = usual)
    (by
      intro k1 key v nonce1 c1 m hk1 hv hc _ _
      rw [opened_data Toy.env_lawful.prims ho hl'] at hv
      have hk2 : twoStored.key = some k1 := hk.trans (hkk.symm.trans hk1)
      by_cases hke : key = e
      · rw [hke, hget, Data.get?_insert, if_pos rfl] at hv
        cases hv
        obtain ⟨rfl, rfl⟩ := carries_unique (carries_madeOf nonce c) hc
        exact .inr ⟨twoStored, usual, g, salt, rfl, rfl, hk2, hg, h1⟩
      · rw [hothers _ hke] at hv
        exact .inl ⟨twoStored, key, v, rfl, ⟨hun, hkey.trans hk2⟩, by rw [hsame]; exact hv, hc⟩)
    (by rintro z j rfl hj -; exact usual_illegible j hj)
  rcases h2 a n r x hx with h | ⟨_, _, _, _, _, _, h, -⟩
  · exact h
  · rcases h with h | h | h <;> cases h

/-- An entry of the file that fills the lines, as recovery code. -/
example : ∃ g, decode toyPrims true g (c!"secret1") = .ok innocent.password := by
  have hk : (keyFor toyPrims (c!"secret1") (List.replicate 16 7)).length = 32 := Toy.env_lawful.prims.scrypt_length _ _ _
  obtain ⟨g, -, h⟩ := C91_entry_as_code (List.replicate 16 7) (List.replicate 12 9)
    (toyPrims.gcmEncrypt (keyFor toyPrims (c!"secret1") (List.replicate 16 7)) (List.replicate 12 9) (utf8 innocent.password))
    (by decide) (by decide) (by decide +kernel) (by decide +kernel)
  exact ⟨g, h toyPrims Toy.env_lawful.prims true (c!"secret1") _ (.inr (by decide +kernel)) (by decide) (by decide)
    ⟨_, _, List.replicate 12 9, _, rfl, ⟨0, List.append_nil _⟩, by decide, ⟨0, List.append_nil _⟩,
      Toy.env_lawful.prims.gcm_roundtrip _ _ _ hk (by decide)⟩⟩

end Examples

end Pfp.Props
