import Verif.Spec.Published
import Verif.Proofs.Bits
import Verif.Proofs.Cli
import Verif.Proofs.ToPassword
import Verif.Proofs.ToyEnv
import Verif.Props.Contents
import Verif.Props.Generated

/-!
# The formats shared with other implementations (C66–C68)
-/

namespace Pfp.Props
open Spec

variable {E : Env} {U : Universe}

/-! ## C66: the storage file -/

/-- **C66 (UTF-8).** Texts are encoded as UTF-8, as in Lean's own library. -/
theorem C66_utf8 (s : Str) : utf8 s = s.flatMap String.utf8EncodeChar := by
  unfold utf8
  congr 1
  funext c
  have hv : c.toNat < 0x110000 := by
    have := c.valid
    simp only [UInt32.isValidChar, Nat.isValidChar] at this
    simp only [Char.toNat]
    omega
  unfold utf8Char String.utf8EncodeChar
  simp only [Char.toNat] at hv ⊢
  by_cases h1 : c.val.toNat < 0x80
  · rw [if_pos h1, if_pos (show c.val.toNat ≤ 0x7f by omega)]
  · rw [if_neg h1, if_neg (show ¬c.val.toNat ≤ 0x7f by omega)]
    by_cases h2 : c.val.toNat < 0x800
    · rw [if_pos h2, if_pos (show c.val.toNat ≤ 0x7ff by omega),
        Nat.mod_eq_of_lt (show c.val.toNat / 64 < 0x20 by omega), Nat.add_comm 0xC0, Nat.add_comm 0x80]
    · rw [if_neg h2, if_neg (show ¬c.val.toNat ≤ 0x7ff by omega)]
      by_cases h3 : c.val.toNat < 0x10000
      · rw [if_pos h3, if_pos (show c.val.toNat ≤ 0xffff by omega),
          Nat.mod_eq_of_lt (show c.val.toNat / 4096 < 0x10 by omega), Nat.add_comm 0xE0, Nat.add_comm 0x80,
          Nat.add_comm 0x80]
      · rw [if_neg h3, if_neg (show ¬c.val.toNat ≤ 0xffff by omega),
          Nat.mod_eq_of_lt (show c.val.toNat / 262144 < 0x08 by omega), Nat.add_comm 0xF0, Nat.add_comm 0x80,
          Nat.add_comm 0x80, Nat.add_comm 0x80]

/-- **C66 (Base64).** -/
theorem C66_base64 (b : Bytes) (t : Str) : Base64.encode b = t ↔ IsBase64 b t := by
  rw [isBase64_iff]
  exact eq_comm

example : IsBase64 (b!"pfp!") (c!"cGZwIQ==") := (C66_base64 _ _).mp (by decide)

/-- If the file can be loaded, then it was written in whole. -/
def Whole (disk : Option Bytes) : Prop := ∀ d, FileIO.load disk = .ok d →
  ∃ entries, disk = some (FileIO.contents entries) ∧ (entries.map (·.1)).Nodup

theorem whole_flush (hE : E.Lawful) {w : World} (hd : Distinct w) (h : Whole w.disk) : Whole (Storage.flush E w).2.disk := by
  have hnd : ((FileIO.entries E w).map (·.1)).Nodup := ((hE.order w.epoch w.data).map _).nodup_iff.mpr hd
  unfold Storage.flush FileIO.flush
  cases hf : E.fs w.fpos with
  | ok => exact fun _ _ => ⟨_, rfl, hnd⟩
  | createDirFailure => exact h
  | openFailure => exact h
  | writeFailure n =>
    intro d hl
    simp only at hl ⊢
    by_cases hn : n < (FileIO.contents (FileIO.entries E w)).length
    · rcases FileIO.load_prefix _ n hn with h' | h' <;> rw [h'] at hl <;> cases hl
    · rw [List.take_of_length_le (by omega)]
      exact ⟨_, rfl, hnd⟩

theorem distinct_reach (hE : E.Lawful) (hS : Secure E U) {s : PState} (hs : Reachable E U s) : Distinct s.world := by
  obtain ⟨a, hrep, ha⟩ := reach hE hS hs
  have hmem := hrep.mem
  cases hm : a.mem with
  | blank => rw [hm] at hmem; unfold Distinct; rw [hmem.1]; simp
  | torn => exact absurd hm ha.1
  | store p V =>
    rw [hm] at hmem
    obtain ⟨pos, R, _⟩ := hmem
    exact R.vault.nodup

theorem disk_unchanged (s : PState) (op : Op) (hc : op.changes = false) (hr : ∀ p, op ≠ .reset p) :
    (run E op s).2.world.disk = s.world.disk := by
  cases op with
  | reset p => exact absurd rfl (hr p)
  | removeSites l =>
    have hl : l = [] := by simpa [Op.changes] using hc
    subst hl
    rfl
  | reload =>
    simp only [run, reload]
    split <;> rfl
  | unlock p =>
    simp only [run]
    by_cases h : (Passwords.unlock E p s).1 = .ok ()
    · rw [(Cli.unlock_ok h).1]
    · rw [Cli.unlock_locked h]
  | getRecoveryCode q =>
    exact (quiet_bind quiet_get (fun s' => quiet_bind (quiet_lift _) fun _ => quiet_bind (quiet_lift _) fun _ =>
      quiet_bind (quiet_onWorld fun w => ⟨rfl, rfl, Nat.le_add_right _ _, id⟩) fun _ => quiet_lift _) s).1.1
  | _ => first | rfl | cases hc

theorem whole_reach (hE : E.Lawful) (hS : Secure E U) (hO : U.Own) {s : PState} (hs : Reachable E U s) : Whole s.world.disk := by
  induction hs with
  | start h =>
    intro d hd
    rcases h.2.2.2.2 with h | h <;> rw [h] at hd <;> cases hd
  | foreign h =>
    obtain ⟨_, _, _, _, b, f, _, h⟩ := h
    exact absurd h.known (hO f)
  | meanwhile h ho hm ih ih' =>
    rcases hm.file with h' | h' | h'
    · rw [h']; exact ih'
    all_goals intro d hd; rw [h'] at hd; cases hd
  | @step s h op hop hreset ih =>
    have hd := distinct_reach hE hS h
    by_cases hc : op.changes = true
    · have hq := (quiet_pre E op s).1
      have h1 : Whole (pre E op s).2.world.disk := by rw [hq.1]; exact ih
      rcases run_changing E op hc s with ⟨e, _, h⟩ | ⟨_, h⟩ | ⟨_, h⟩
      · rw [h]; exact h1
      · rw [h]; exact h1
      · rw [h]; exact whole_flush hE (hq.2.2.2 hd) h1
    · by_cases hr : ∃ p, op = .reset p
      · obtain ⟨p, rfl⟩ := hr
        have := reset_world hE s p
        rw [after] at this
        rw [this]
        refine whole_flush hE ?_ ih
        exact Data.insert_nodup _ _ (Data.insert_nodup _ _ (by simp))
      · rw [disk_unchanged s op (by simpa using hc) fun p hp => hr ⟨p, hp⟩]
        exact ih

theorem ciphertext_of_isEnc {P : Prims} {k : Bytes} {F : Prop} (hF : ¬F) {t : Str → Prop} {j : Json} {v m : Str} (h : IsEnc P F k t j v)
    (hm : Serde.toVec j = utf8 m) : IsCiphertext P k m v := by
  obtain ⟨nonce, text, h1, rfl, _, h2⟩ := h
  have h3 : utf8 text = utf8 m := by rw [h2.resolve_left hF]; exact hm
  refine ⟨nonce, _, _, h1, isBase64_encode _, isBase64_encode _, ?_⟩
  rw [sealText, h3]
  simp

theorem record_id' (i : PasswordId) (e : Entry) : (Vault.record i e).id = i := by
  obtain ⟨sec, notes⟩ := e
  cases sec <;> rfl

section
variable {pos : Nat} {p : Str} {d : Data} {V : Vault}

theorem siteEntry_of (R : RepStore E U (.drawn pos) p d V) {x : Str} {t : Option Str} (h : V.sites x = some t) :
    ∃ v, d.get? (Storage.siteKey E x (secretAt E pos)) = some v ∧
      SiteEntry E.prims (keyFor E.prims p (saltAt E pos)) (secretAt E pos) ⟨x, t⟩ (Storage.siteKey E x (secretAt E pos)) v := by
  obtain ⟨_, _, v, h2, h3⟩ := R.vault.site_in x t h
  refine ⟨v, h2, _, isBase64_encode _, ?_, ciphertext_of_isEnc id h3 (siteText_eq ⟨x, t⟩)⟩
  rfl

theorem passwordEntry_of (R : RepStore E U (.drawn pos) p d V) {i : PasswordId} {e : Entry} (h : V.passwords i = some e) :
    ∃ v, d.get? (Storage.passwordKey E i (secretAt E pos)) = some v ∧
      PasswordEntry E.prims (keyFor E.prims p (saltAt E pos)) (secretAt E pos) (Vault.record i e)
        (Storage.passwordKey E i (secretAt E pos)) v := by
  obtain ⟨_, v, h2, h3⟩ := R.vault.password_in i e h
  refine ⟨v, h2, _, _, isBase64_encode _, isBase64_encode _, ?_, ciphertext_of_isEnc id h3 (passwordText_eq _)⟩
  rw [Storage.passwordKey_eq, record_id']
  simp [Crypto.getDigest, Storage.STORAGE_PREFIX, idText]

theorem published_of_store (R : RepStore E U (.drawn pos) p d V) {k v : Str} (h : d.get? k = some v) :
    Published E.prims (saltAt E pos) (publishedKey E.prims p (saltAt E pos)) (secretAt E pos) k v := by
  rw [publishedKey_eq]
  rcases R.vault.only k v h with rfl | rfl | ⟨x, t, h1, rfl⟩ | ⟨i, e, h1, rfl⟩
  · rw [R.salt] at h
    cases h
    exact .salt (isBase64_encode _)
  · rw [R.secret] at h
    cases h
    refine .secret (isBase64_encode _) ⟨nonceAt E (.drawn pos), _, _, randBytes_length _ _ _, isBase64_encode _, isBase64_encode _, ?_⟩
    rw [← Json.printStr_eq]
    simp [sealText]
    rfl
  · obtain ⟨v', h2, d', h3, h4, h5⟩ := siteEntry_of R h1
    rw [h2] at h
    cases h
    rw [h4]
    exact .site x t h3 h5
  · obtain ⟨v', h2, d', e', h3, h4, h5, h6⟩ := passwordEntry_of R h1
    rw [h2] at h
    cases h
    rw [h5]
    exact .password _ h3 h4 h6

end

/-- **C66 (file).** Unless the file was created by another program (see `C76` for this case): in every reachable state, if
the storage file can be loaded, then it is the published text, down to the last byte, for entries in the published format;
these include the salt and the HMAC secret. -/
theorem C66_file (hE : E.Lawful) (hS : Secure E U) (hO : U.Own) (s : PState) (hs : Reachable E U s) (data : Data)
    (hl : FileIO.load s.world.disk = .ok data) :
    ∃ p salt secret entries, s.world.disk = some (utf8 (fileText entries)) ∧ (entries.map (·.1)).Nodup ∧
      salt.length = 16 ∧ secret.length = 32 ∧
      (∀ k v, (k, v) ∈ entries → Published E.prims salt (publishedKey E.prims p salt) secret k v) ∧
      (∃ v, (c!"salt", v) ∈ entries) ∧ ∃ v, (c!"hmac-secret", v) ∈ entries := by
  obtain ⟨entries, h1, h2⟩ := whole_reach hE hS hO hs data hl
  obtain ⟨a, hrep, ha⟩ := reach hE hS hs
  have hdisk := hrep.disk
  rw [h1, FileIO.load_contents _ h2] at hl
  cases hl
  cases hD : a.disk with
  | missing =>
    rw [hD] at hdisk
    rw [hdisk] at h1
    cases h1
  | unreadable =>
    rw [hD, h1] at hdisk
    simp only [DiskRep, FileIO.load_contents _ h2] at hdisk
    rcases hdisk with h | h <;> cases h
  | torn => exact absurd hD ha.2
  | store p V =>
    rw [hD] at hdisk
    obtain ⟨pos, d', h3, R⟩ := hdisk
    rw [h1, FileIO.load_contents _ h2] at h3
    cases h3
    obtain ⟨pos, rfl⟩ := own_drawn hO R.origin
    refine ⟨p, saltAt E pos, secretAt E pos, entries, ?_, h2, randBytes_length _ _ _, randBytes_length _ _ _, ?_, ?_, ?_⟩
    · rw [h1, contents_eq]
    · intro k v hkv
      exact published_of_store R (Data.get?_of_mem R.vault.nodup (by simpa using hkv))
    · exact ⟨_, List.mem_reverse.mp (Data.mem_of_get? R.salt)⟩
    · exact ⟨_, List.mem_reverse.mp (Data.mem_of_get? R.secret)⟩

example : Toy.univ.Own := Toy.univ_own

example : ∃ d, FileIO.load Toy.one.world.disk = .ok d :=
  let ⟨d, h, _⟩ := C35_written Toy.env_lawful Toy.fresh (distinct_reach Toy.env_lawful Toy.secure Toy.fresh_reachable)
    (.setStored (c!"a") (c!"u") [] (c!"x")) (.inl rfl) Toy.one_ok
  ⟨d, h⟩

theorem base64_plain {b : Bytes} {t : Str} (h : IsBase64 b t) : ∀ c ∈ t, jsonChar c = [c] := by
  obtain ⟨values, zeros, equals, h1, _, _, _, rfl, _⟩ := h
  have hall : ∀ v, v < 64 → jsonChar (base64Char v) = [base64Char v] := by decide
  intro c hc
  rcases List.mem_append.mp hc with hc | hc
  · obtain ⟨v, hv, rfl⟩ := List.mem_map.mp hc
    exact hall v (h1 v hv)
  · rw [(List.mem_replicate.mp hc).2]
    decide

theorem ciphertext_plain {P : Prims} {k : Bytes} {m v : Str} (h : IsCiphertext P k m v) : ∀ c ∈ v, jsonChar c = [c] := by
  obtain ⟨nonce, n, x, _, h1, h2, rfl⟩ := h
  intro c hc
  simp only [List.mem_append, List.mem_singleton] at hc
  rcases hc with (hc | rfl) | hc
  · exact base64_plain h1 c hc
  · decide
  · exact base64_plain h2 c hc

theorem quoted_plain {t : Str} (h : ∀ c ∈ t, jsonChar c = [c]) : quoted t = ['"'] ++ t ++ ['"'] := by
  unfold quoted
  congr 2
  induction t with
  | nil => rfl
  | cons c t ih =>
    rw [List.flatMap_cons, h c (by simp), ih fun x hx => h x (by simp [hx])]
    rfl

/-- **C66 (no escapes).** Neither names nor values of entries need escaping in the file. -/
theorem C66_plain (P : Prims) (salt key secret : Bytes) (k v : Str) (h : Published P salt key secret k v) :
    quoted k = ['"'] ++ k ++ ['"'] ∧ quoted v = ['"'] ++ v ++ ['"'] := by
  have hsite : ∀ c ∈ (c!"site:"), jsonChar c = [c] := by decide
  cases h with
  | salt hv => exact ⟨quoted_plain (by decide), quoted_plain (base64_plain hv)⟩
  | secret hb hv => exact ⟨quoted_plain (by decide), quoted_plain (ciphertext_plain hv)⟩
  | site x t hd hv =>
    refine ⟨quoted_plain fun c hc => ?_, quoted_plain (ciphertext_plain hv)⟩
    rcases List.mem_append.mp hc with hc | hc
    · exact hsite c hc
    · exact base64_plain hd c hc
  | password x hd he hv =>
    refine ⟨quoted_plain fun c hc => ?_, quoted_plain (ciphertext_plain hv)⟩
    rcases List.mem_append.mp hc with hc | hc
    · rcases List.mem_append.mp hc with hc | hc
      · rcases List.mem_append.mp hc with hc | hc
        · exact hsite c hc
        · exact base64_plain hd c hc
      · rw [List.mem_singleton.mp hc]
        decide
    · exact base64_plain he c hc

example : Published toyPrims (List.replicate 16 7) [] [] (c!"salt") (Base64.encode (List.replicate 16 7)) :=
  .salt (isBase64_encode _)

/-- **C66 (contents).** Unless the file was created by another program: after a successful change the file holds the table
that can be seen through the interface, in the published format: all sites and passwords listed have their entries, and besides the salt and the HMAC secret there
are no others. -/
theorem C66_contents (hE : E.Lawful) (hS : Secure E U) (hO : U.Own) (s : PState) (hs : Reachable E U s) (op : Op) (hw : op.Within U)
    (hop : op.changes = true ∨ ∃ p, op = .reset p) (hok : ask E s op = .ok .unit)
    (hu : (after E s op).key.isSome = true) :
    ∃ p salt secret key entries, (after E s op).primaryPassword = some p ∧ key = publishedKey E.prims p salt ∧
      (after E s op).world.disk = some (utf8 (fileText entries)) ∧ (entries.map (·.1)).Nodup ∧
      (∀ k v, (k, v) ∈ entries → Published E.prims salt key secret k v) ∧
      (∀ q l, ask E (after E s op) (.listSites q) = .ok (.sites l) → ∀ x ∈ l, ∃ k v, (k, v) ∈ entries ∧
        SiteEntry E.prims key secret x k v) ∧
      (∀ a q l, U.site a → ask E (after E s op) (.list a q) = .ok (.passwords l) → ∀ x ∈ l, ∃ k v, (k, v) ∈ entries ∧
        PasswordEntry E.prims key secret x k v) ∧
      ∀ k v, (k, v) ∈ entries → k = c!"salt" ∨ k = c!"hmac-secret" ∨
        (∃ x, SiteEntry E.prims key secret x k v ∧
          ∀ q, E.wild q x.name = true → ∃ l, ask E (after E s op) (.listSites q) = .ok (.sites l) ∧ x ∈ l) ∨
        ∃ x, PasswordEntry E.prims key secret x k v ∧
          ∀ a q, U.site a → siteMeant E (after E s op) a = x.id.site → E.wild q x.id.name = true →
            ∃ l, ask E (after E s op) (.list a q) = .ok (.passwords l) ∧ x ∈ l := by
  have hreach : Reachable E U (after E s op) := .step hs op hw fun _ _ => .inl hok
  have hdisk : (after E s op).world.disk = some (FileIO.contents (FileIO.entries E (after E s op).world)) := by
    rcases hop with hc | ⟨p, rfl⟩
    · exact (changes_written E s op hc _ hok).2.1
    · exact (reset_written hE s p hok).2.1
  obtain ⟨A, pos, p, V, ho⟩ := reach_open hE hS hreach hu
  generalize after E s op = t at *
  obtain ⟨pos, rfl⟩ := own_drawn hO ho.store.origin
  have hnd := ho.store.vault.nodup
  have hperm := hE.order t.world.epoch t.world.data
  have hmem : ∀ k v, (k, v) ∈ FileIO.entries E t.world ↔ t.world.data.get? k = some v := fun k v =>
    hperm.mem_iff.trans (Data.get?_iff hnd).symm
  refine ⟨p, saltAt E pos, secretAt E pos, _, FileIO.entries E t.world, ho.session.2.2, rfl, ?_,
    (hperm.map _).nodup_iff.mpr hnd, ?_, ?_, ?_, ?_⟩
  · rw [hdisk, contents_eq]
  · intro k v hkv
    exact published_of_store ho.store ((hmem k v).mp hkv)
  · intro q l hl x hx
    obtain ⟨l', h1, _, h3⟩ := ho.listSites hE hS q
    rw [hl] at h1
    cases h1
    obtain ⟨v, h4, h5⟩ := siteEntry_of ho.store ((h3 x).mp hx).1
    rw [publishedKey_eq]
    exact ⟨_, v, (hmem _ _).mpr h4, h5⟩
  · intro a q l ha hl x hx
    obtain ⟨l', h1, _, h3⟩ := ho.list hE hS q ha
    rw [hl] at h1
    cases h1
    obtain ⟨i, e, h4, rfl, _⟩ := (h3 x).mp hx
    obtain ⟨v, h5, h6⟩ := passwordEntry_of ho.store h4
    rw [publishedKey_eq]
    exact ⟨_, v, (hmem _ _).mpr h5, h6⟩
  · intro k v hkv
    have hg := (hmem k v).mp hkv
    rw [publishedKey_eq]
    rcases ho.store.vault.only k v hg with rfl | rfl | ⟨x, t', h1, rfl⟩ | ⟨i, e, h1, rfl⟩
    · exact .inl rfl
    · exact .inr (.inl rfl)
    · obtain ⟨v', h2, h3⟩ := siteEntry_of ho.store h1
      rw [hg] at h2
      cases h2
      refine .inr (.inr (.inl ⟨_, h3, fun q hq => ?_⟩))
      obtain ⟨l, h4, _, h5⟩ := ho.listSites hE hS q
      exact ⟨l, h4, (h5 _).mpr ⟨h1, .inl hq⟩⟩
    · obtain ⟨v', h2, h3⟩ := passwordEntry_of ho.store h1
      rw [hg] at h2
      cases h2
      refine .inr (.inr (.inr ⟨_, h3, fun a q ha hm hq => ?_⟩))
      obtain ⟨l, h4, _, h5⟩ := ho.list hE hS q ha
      rw [ho.siteMeant_eq hE hS ha, record_id'] at hm
      rw [record_id'] at hq
      exact ⟨l, h4, (h5 _).mpr ⟨i, e, h1, rfl, hm.symm, hq⟩⟩

example : Reachable Toy.env Toy.univ Toy.fresh ∧
    ask Toy.env Toy.fresh (.setStored (c!"a") (c!"u") [] (c!"x")) = .ok .unit ∧
    (after Toy.env Toy.fresh (.setStored (c!"a") (c!"u") [] (c!"x"))).key.isSome = true :=
  ⟨Toy.fresh_reachable, Toy.one_ok, Toy.one_unlocked⟩

/-! ## C67: recovery codes -/

/-- **C67.** A recovery code is exactly what the published format says, down to the last byte. -/
theorem C67_code {P : Prims} (hP : P.Lawful) (oc : Bool) (nonce : Bytes) (password : Str) (salt key code : Bytes)
    (h : RecoveryCodes.generate P oc nonce password salt key = .ok code) :
    nonce.length = 12 ∧ salt.length = 16 ∧ key.length = 32 ∧ IsCode P key salt nonce password code := by
  obtain ⟨hn, hs, hk, ho⟩ := RecoveryCodes.of_generate hP h
  obtain ⟨bs, e, h1, h2, h3, h4, h5, _, _⟩ := RecoveryCodes.generate_ok hP (password := password) hn hs hk ho
  rw [h5] at h
  cases h
  refine ⟨hn, hs, hk, RecoveryCodes.fillBytes (utf8 password).length, bs, _, e, ?_, h2, ?_, RecoveryCodes.rows_lines bs,
    ((Crypto.isBase32_iff _ _).mp h4).2, rfl⟩
  · have := RecoveryCodes.fillBytes_spec (utf8 password).length
    omega
  · rw [h1]
    rfl

/-- **C67 (unique).** The published format leaves no choice. -/
theorem C67_unique {P : Prims} (hP : P.Lawful) (key salt nonce : Bytes) (password : Str) (code code' : Bytes)
    (h : IsCode P key salt nonce password code) (h' : IsCode P key salt nonce password code') : code = code' := by
  obtain ⟨z, bs, ls, e, h1, h2, h3, h4, h5, rfl⟩ := h
  obtain ⟨z', bs', ls', e', h1', h2', h3', h4', h5', rfl⟩ := h'
  have hl := congrArg List.length h3
  have hl' := congrArg List.length h3'
  rw [flatten_length h2] at hl
  rw [flatten_length h2'] at hl'
  simp only [List.length_cons, List.length_append, hP.gcm_length, List.length_replicate] at hl hl'
  have hz : z = z' := by omega
  subst hz
  have hb : bs = bs' := by
    rw [← chunks_flatten 14 (by omega) bs h2, h3, ← h3', chunks_flatten 14 (by omega) bs' h2']
  subst hb
  rw [RecoveryCodes.isLines_unique h4 h4'] at h5
  rw [Crypto.isBase32_unique h5 h5']

/-- **C67 (iff).** With overflow checks disabled (as in release builds) or for passwords that are not excessively long, the
codes generated are precisely the ones of the published format. -/
theorem C67_iff {P : Prims} (hP : P.Lawful) (oc : Bool) (nonce : Bytes) (password : Str) (salt key code : Bytes)
    (hn : nonce.length = 12) (hs : salt.length = 16) (hk : key.length = 32)
    (ho : oc = false ∨ (utf8 password).length ≤ 14 * 256 - 45) :
    RecoveryCodes.generate P oc nonce password salt key = .ok code ↔ IsCode P key salt nonce password code := by
  refine ⟨fun h => (C67_code hP oc nonce password salt key code h).2.2.2, fun h => ?_⟩
  obtain ⟨bs, e, _, _, _, _, h5, _⟩ := RecoveryCodes.generate_ok hP (oc := oc) (password := password) hn hs hk (by
    rcases ho with h | h
    · exact .inl h
    · right; omega)
  rw [h5, C67_unique hP key salt nonce password code _ h (C67_code hP oc nonce password salt key _ h5).2.2.2]

example : ∃ code, RecoveryCodes.generate toyPrims true (List.replicate 12 1) (c!"x") (List.replicate 16 7)
    (List.replicate 32 9) = .ok code :=
  let ⟨_, _, _, _, _, _, h, _⟩ := RecoveryCodes.generate_ok toyPrims_lawful (oc := true) (password := c!"x")
    (nonce := List.replicate 12 1) (salt := List.replicate 16 7) (key := List.replicate 32 9) rfl rfl rfl (.inr (by decide))
  ⟨_, h⟩

/-! ## C68: generated passwords -/

open Crypto CharacterSet

/-- The characters to choose from, for a part of the table. -/
def choices (allowed : CharacterSet) (L : List (CharacterType × Bytes)) : Str :=
  L.flatMap fun e => if allowed.contains e.1 then e.2.map byteChar else []

theorem numChars_choices (allowed : CharacterSet) : ∀ L, numChars allowed L = (choices allowed L).length
  | [] => rfl
  | (t, l) :: L => by
    have : choices allowed ((t, l) :: L) = (if allowed.contains t then l.map byteChar else []) ++ choices allowed L := rfl
    rw [numChars, numChars_choices allowed L, this, List.length_append]
    split <;> simp

theorem pick_choices (allowed : CharacterSet) : ∀ (L : List (CharacterType × Bytes)) (i : Nat) (t : CharacterType) (c : UInt8),
    pick allowed i L = some (t, c) → (choices allowed L)[i]? = some (byteChar c)
  | [], i, t, c, h => by cases h
  | (u, l) :: L, i, t, c, h => by
    rw [pick] at h
    rw [choices, List.flatMap_cons]
    by_cases hu : allowed.contains u = true
    · rw [if_pos hu] at h ⊢
      cases hi : l[i]? with
      | some x =>
        rw [hi] at h
        cases h
        rw [List.getElem?_append_left (by simpa using (List.getElem?_eq_some_iff.mp hi).1), List.getElem?_map, hi]
        rfl
      | none =>
        rw [hi] at h
        have hle := List.getElem?_eq_none_iff.mp hi
        rw [List.getElem?_append_right (by simpa using hle), List.length_map]
        exact pick_choices allowed L _ t c h
    · rw [if_neg hu] at h ⊢
      exact pick_choices allowed L i t c h

theorem choices_mapping (allowed : CharacterSet) : choices allowed CHARS_MAPPING =
    (classes.filter allowed.contains).flatMap fun t => (classText t).toList := by
  rw [← funext classBytes_text]
  obtain ⟨a, b, c, d⟩ := allowed
  cases a <;> cases b <;> cases c <;> cases d <;> rfl

theorem len_classes (s : CharacterSet) : s.len = (classes.filter s.contains).length := by
  obtain ⟨a, b, c, d⟩ := s
  cases a <;> cases b <;> cases c <;> cases d <;> rfl

/-- The classes seen are the selected ones with a character in the text. -/
def SeenIn (charset seen : CharacterSet) (text : Str) : Prop :=
  ∀ t, seen.contains t = true ↔ charset.contains t = true ∧ ∃ c ∈ text, InClass t c

theorem missing_eq {charset seen : CharacterSet} {text : Str} (h : SeenIn charset seen text) :
    missing charset text = classes.filter (charset.diff seen).contains := by
  unfold missing selected
  rw [List.filter_filter]
  apply List.filter_congr
  intro t _
  rw [contains_diff, Bool.eq_iff_iff]
  have := h t
  cases hc : charset.contains t <;> cases hs : seen.contains t <;> simp_all

theorem len_diff {s t : CharacterSet} (h : t.Sub s) : (s.diff t).len = s.len - t.len := by
  obtain ⟨a, b, c, d⟩ := s
  obtain ⟨a', b', c', d'⟩ := t
  have h1 := h .lower
  have h2 := h .upper
  have h3 := h .digit
  have h4 := h .symbol
  simp only [contains] at h1 h2 h3 h4
  cases a <;> cases b <;> cases c <;> cases d <;> cases a' <;> cases b' <;> cases c' <;> cases d' <;>
    first | rfl | (exfalso; simp_all)

theorem loop_made (charset : CharacterSet) (len : Nat) : ∀ (bytes : Bytes) (seen : CharacterSet) (i : Nat) (pre p : Str),
    SeenIn charset seen pre → i + bytes.length = len → toPasswordLoop charset len i seen bytes = .ok p →
    p.length = bytes.length ∧ ∀ j b, bytes[j]? = some b →
      ∃ c, (candidates charset (pre ++ p.take j) (bytes.length - j))[b.toNat %
        (candidates charset (pre ++ p.take j) (bytes.length - j)).length]? = some c ∧ p[j]? = some c
  | [], seen, i, pre, p, hseen, hi, h => by
    cases h
    exact ⟨rfl, by intro j b hb; simp at hb⟩
  | x :: bytes, seen, i, pre, p, hseen, hi, h => by
    rw [toPasswordLoop] at h
    simp only [List.length_cons] at hi
    have hsub : seen.Sub charset := fun t ht => ((hseen t).mp ht).1
    rw [if_neg (by have := len_le_of_sub hsub; omega)] at h
    have hcand : candidates charset pre (bytes.length + 1) =
        choices (if charset.len - seen.len ≥ len - i then charset.diff seen else charset) CHARS_MAPPING := by
      unfold candidates
      rw [choices_mapping, missing_eq hseen, ← len_classes, len_diff hsub]
      by_cases hlt : charset.len - seen.len < bytes.length + 1
      · rw [if_pos hlt, if_neg (by omega)]
        rfl
      · rw [if_neg hlt, if_pos (by omega)]
    have hallow : ∀ t, (if charset.len - seen.len ≥ len - i then charset.diff seen else charset).contains t = true →
        charset.contains t = true := by
      intro t ht
      split at ht
      · rw [contains_diff] at ht
        simp only [Bool.and_eq_true] at ht
        exact ht.1
      · exact ht
    generalize (if charset.len - seen.len ≥ len - i then charset.diff seen else charset) = allowed at h hcand hallow
    simp only at h
    split at h
    · cases h
    · rename_i hn
      obtain ⟨t, c, l, h1, h2, h3, h4⟩ := pick_spec allowed CHARS_MAPPING (x.toNat % numChars allowed CHARS_MAPPING)
        (Nat.mod_lt _ (Nat.pos_of_ne_zero hn))
      rw [h1] at h
      simp only at h
      cases hr : toPasswordLoop charset len (i + 1) (seen.insert t) bytes with
      | err e => rw [hr] at h; cases h
      | panic => rw [hr] at h; cases h
      | ok q =>
        rw [hr] at h
        cases h
        have hct : InClass t (byteChar c) := inClass_of_mem (mapping_eq h3 ▸ h4)
        have hseen' : SeenIn charset (seen.insert t) (pre ++ [byteChar c]) := by
          intro u
          rw [contains_insert]
          simp only [Bool.or_eq_true, decide_eq_true_eq, hseen u, List.mem_append, List.mem_singleton]
          constructor
          · rintro (⟨e1, y, e2, e3⟩ | rfl)
            · exact ⟨e1, y, .inl e2, e3⟩
            · exact ⟨hallow _ h2, _, .inr rfl, hct⟩
          · rintro ⟨e1, y, e2 | rfl, e3⟩
            · exact .inl ⟨e1, y, e2, e3⟩
            · exact .inr (classes_disjoint hct e3)
        obtain ⟨g1, g2⟩ := loop_made charset len bytes (seen.insert t) (i + 1) (pre ++ [byteChar c]) q hseen' (by omega) hr
        refine ⟨by simp [g1], ?_⟩
        intro j b hb
        cases j with
        | zero =>
          cases hb
          have := pick_choices allowed CHARS_MAPPING _ t c h1
          rw [numChars_choices] at this
          refine ⟨byteChar c, ?_, rfl⟩
          simp only [List.take_zero, List.append_nil, List.length_cons, Nat.sub_zero]
          rw [hcand]
          exact this
        | succ j =>
          obtain ⟨c', e1, e2⟩ := g2 j b hb
          refine ⟨c', ?_, e2⟩
          simp only [List.take_succ_cons, List.length_cons, Nat.add_sub_add_right]
          rw [← List.append_cons] at e1
          exact e1

theorem madeFrom_unique {charset : CharacterSet} {bytes : Bytes} {p q : Str} (hp : MadeFrom charset bytes p)
    (hq : MadeFrom charset bytes q) : p = q := by
  have key : ∀ i, i ≤ bytes.length → p.take i = q.take i := by
    intro i
    induction i with
    | zero => intro _; rfl
    | succ i ih =>
      intro hi
      have hb : bytes[i]? = some bytes[i] := List.getElem?_eq_getElem (by omega)
      obtain ⟨c, h1, h2⟩ := hp.2 i _ hb
      obtain ⟨c', h1', h2'⟩ := hq.2 i _ hb
      rw [ih (by omega), h1'] at h1
      cases h1
      rw [List.take_add_one, List.take_add_one, ih (by omega), h2, h2']
  have := key _ (Nat.le_refl _)
  rwa [List.take_of_length_le (by rw [hp.1]), List.take_of_length_le (by rw [hq.1])] at this

/-- **C68 (bytes to password).** The password made from derived bytes is exactly the one of the published algorithm; it
fails only if the algorithm gives none (no class is selected). -/
theorem C68_made (bytes : Bytes) (charset : CharacterSet) (p : Str) :
    toPassword bytes charset = .ok p ↔ MadeFrom charset bytes p := by
  have hmade : ∀ p, toPassword bytes charset = .ok p → MadeFrom charset bytes p := fun p h =>
    loop_made charset bytes.length bytes .empty 0 [] p (by intro t; rw [contains_empty]; simp) (by omega) h
  refine ⟨hmade p, fun h => ?_⟩
  by_cases hne : 0 < charset.len
  · obtain ⟨_, q, h1, _⟩ := toPassword_spec bytes charset hne
    rw [h1, madeFrom_unique h (hmade q h1)]
  · have he := eq_empty_of_len (show charset.len = 0 by omega)
    subst he
    cases bytes with
    | nil =>
      have := h.1
      simp at this
      subst this
      rfl
    | cons x bytes =>
      obtain ⟨c, h1, _⟩ := h.2 0 x rfl
      exfalso
      have hc : candidates .empty (p.take 0) ((x :: bytes).length - 0) = [] := by
        unfold candidates missing selected
        have : classes.filter CharacterSet.empty.contains = [] := by decide
        rw [this]
        simp
      rw [hc] at h1
      simp at h1

example : MadeFrom ⟨true, false, true, false⟩ [24, 0, 30] (c!"3a9") := (C68_made _ _ _).mp (by decide)

theorem derive_made {P : Prims} {primary site name revision v : Str} {length : Nat} {charset : CharacterSet}
    (h : derivePassword P primary (saltText ⟨site, name, revisionOf revision⟩) length charset = .ok v) :
    MadeFrom charset (passwordBytes P primary site name revision length) v := by
  unfold derivePassword deriveBits at h
  split at h
  · cases h
  · have h := (C68_made _ _ _).mp h
    have hs : saltText ⟨site, name, revisionOf revision⟩ = site ++ ['\x00'] ++ name ++
        (if revision = [] ∨ revision = c!"1" then [] else ['\x00'] ++ revision) := by
      unfold saltText revisionOf
      by_cases h1 : revision = c!"1"
      · simp [h1]
      · by_cases h2 : revision = []
        · simp [h2]
        · simp [h1, h2]
    rw [hs] at h
    exact h

/-- **C68 (values).** A generated password entered with some parameters is, whatever else is done before or after, the
one of the published algorithm, applied to the bytes derived with the published parameters from the primary password,
the site, the name and the revision.  (`C01` says when there is one at all.) -/
theorem C68_value (hE : E.Lawful) (hS : Secure E U) (s : PState) (hs : Reachable E U s) (a n r : Str) (len : UInt64)
    (cs : CharacterSet) (ha : U.site a) (hn : U.name n) (hr : U.revision r)
    (hok : ask E s (.setGenerated a n r len cs) = .ok .unit)
    (ops : List Op) (hops : ∀ op ∈ ops, op.Within U)
    (hleave : LeavesAll E a n r ops (after E s (.setGenerated a n r len cs)))
    (hu : (runAll E ops (after E s (.setGenerated a n r len cs))).2.key.isSome = true) (v : Str)
    (hv : ask E (runAll E ops (after E s (.setGenerated a n r len cs))).2 (.get a n r) = .ok (.text v)) :
    ∃ p, s.primaryPassword = some p ∧
      MadeFrom cs (passwordBytes E.prims p (siteMeant E s a) n r len.toNat) v := by
  obtain ⟨p, h1, h2, _⟩ := C20_generated hE hS s hs a n r len cs ha hn hr hok ops hops hleave
  rw [h2 hu] at hv
  refine ⟨p, h1, derive_made ?_⟩
  revert hv
  cases derivePassword E.prims p (saltText ⟨siteMeant E s a, n, revisionOf r⟩) len.toNat cs with
  | ok x => intro hv; cases hv; rfl
  | err e => intro hv; cases hv
  | panic => intro hv; cases hv

/-- **C68 (listed).** The same for every generated password that is listed, however it came to be there. -/
theorem C68_listed (hE : E.Lawful) (hS : Secure E U) (s : PState) (hs : Reachable E U s) (hu : s.key.isSome = true)
    (a q : Str) (ha : U.site a) (l : List Password) (hl : ask E s (.list a q) = .ok (.passwords l))
    (x : GeneratedPassword) (hx : .generated x ∈ l) (v : Str)
    (hv : ask E s (.get a x.id.name x.id.revision) = .ok (.text v)) :
    ∃ p, s.primaryPassword = some p ∧
      MadeFrom x.charset (passwordBytes E.prims p x.id.site x.id.name x.id.revision x.length.toNat) v := by
  obtain ⟨m, p, h1, h2, _, h3⟩ := C43_sound hE hS s hs hu a q ha
  rw [hl] at h1
  cases h1
  obtain ⟨A, pos, p', V, ho⟩ := reach_open hE hS hs hu
  obtain ⟨l', g1, _, g3⟩ := ho.list hE hS q ha
  rw [hl] at g1
  cases g1
  obtain ⟨i, e, g4, g5, _⟩ := (g3 _).mp hx
  have hr := ho.store.vault.revision i e g4
  have hi : x.id = i := by
    have := congrArg Password.id g5
    rwa [record_id'] at this
  rw [← hi] at hr
  have hv' := (h3 _ hx).2.2.2.2
  simp only [Password.id] at hv'
  rw [hv] at hv'
  refine ⟨p, h2, derive_made ?_⟩
  rw [show revisionOf x.id.revision = x.id.revision by unfold revisionOf; rw [if_neg hr]]
  revert hv'
  cases derivePassword E.prims p (saltText ⟨x.id.site, x.id.name, x.id.revision⟩) x.length.toNat x.charset with
  | ok y => intro h; cases h; rfl
  | err e => intro h; cases h
  | panic => intro h; cases h

/-- A history as in `C68_value` and `C68_listed`: the password can be retrieved and is listed. -/
example : ∃ t v, t = after Toy.env Toy.fresh (.setGenerated (c!"a") (c!"u") [] 8 ⟨true, true, true, true⟩) ∧
    ask Toy.env Toy.fresh (.setGenerated (c!"a") (c!"u") [] 8 ⟨true, true, true, true⟩) = .ok .unit ∧
    t.key.isSome = true ∧ ask Toy.env t (.get (c!"a") (c!"u") []) = .ok (.text v) ∧
    ∃ l, ask Toy.env t (.list (c!"a") (c!"*")) = .ok (.passwords l) ∧
      ∃ x, .generated x ∈ l ∧ x.id.name = c!"u" ∧ x.id.revision = [] := by
  obtain ⟨A, pos, ho⟩ := Toy.fresh_open
  obtain ⟨h1, A', pos', ho'⟩ := (ho.setGenerated Toy.env_lawful Toy.secure 8 ⟨true, true, true, true⟩
    ⟨Toy.site_a, Toy.name_u, Toy.revision_nil⟩).ok rfl
  obtain ⟨v, hv, _⟩ := C01_generated_length Toy.env.prims Toy.env_lawful.prims (c!"secret1")
    (saltText ⟨c!"a", c!"u", []⟩) 8 ⟨true, true, true, true⟩ (by decide) (by decide) ⟨.lower, rfl⟩
  refine ⟨_, v, rfl, h1, by rw [ho'.session.1]; rfl, ?_, ?_⟩
  · rw [ho'.ask_get Toy.env_lawful Toy.secure Toy.site_a Toy.name_u Toy.revision_nil]
    exact congrArg (Res.map Out.text) hv
  · obtain ⟨l, h2, _, h3⟩ := ho'.list Toy.env_lawful Toy.secure (c!"*") Toy.site_a
    exact ⟨l, h2, ⟨⟨c!"a", c!"u", []⟩, 8, ⟨true, true, true, true⟩, []⟩, (h3 _).mpr ⟨⟨c!"a", c!"u", []⟩,
      ⟨.generated 8 ⟨true, true, true, true⟩, []⟩, rfl, rfl, rfl, rfl⟩, rfl, rfl⟩

end Pfp.Props
