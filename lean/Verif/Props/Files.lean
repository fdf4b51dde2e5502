import Verif.Model.Storage
import Verif.Proofs.Load
import Verif.Proofs.Recovery
import Verif.Proofs.Toy
import Verif.Spec.Files

/-!
# The storage file, records and ciphertexts (C37–C40, C54)
-/

namespace Pfp.Props
open Spec Crypto

/-! ## C38 -/

/-- **C38 (round trip).** Loading the file written for a map gives a map with the same entries, in whatever order the
entries were written and whatever characters they contain. -/
theorem C38_file_roundtrip (d entries : Data) (hd : (d.map (·.1)).Nodup) (horder : entries.Perm d) :
    ∃ d', FileIO.load (some (FileIO.contents entries)) = .ok d' ∧ d'.Perm d ∧ ∀ k, d'.get? k = d.get? k := by
  have he : (entries.map (·.1)).Nodup := (horder.map _).nodup_iff.mpr hd
  have hp : entries.reverse.Perm d := (List.reverse_perm entries).trans horder
  exact ⟨entries.reverse, FileIO.load_contents entries he, hp,
    fun k => Data.get?_perm hp (((List.reverse_perm entries).map _).nodup_iff.mpr he) k⟩

example : (([(c!"a\"\n", c!"é"), (c!"b", c!"")] : Data).map (·.1)).Nodup ∧
    ([(c!"b", c!""), (c!"a\"\n", c!"é")] : Data).Perm [(c!"a\"\n", c!"é"), (c!"b", c!"")] :=
  ⟨by decide, List.Perm.swap _ _ _⟩

theorem strings_of_dataFromMembers : ∀ (l : List (JKey × Json)) (acc d : Data), FileIO.dataFromMembers acc l = some d →
    ∀ m ∈ l, ∃ s, m.2 = .str s
  | [], _, _, _ => by simp
  | (k', v) :: l, acc, d, h => by
    rw [FileIO.dataFromMembers] at h
    cases v with
    | str s =>
      intro m hm
      rcases List.mem_cons.mp hm with rfl | hm
      · exact ⟨s, rfl⟩
      · exact strings_of_dataFromMembers l (acc.insert k'.str s) d (by simpa [Serde.asStr] using h) m hm
    | _ => simp [Serde.asStr] at h

theorem required_perm {k : Str} {v : Json} {l : List (JKey × Json)} (h : Serde.required k l = some v) :
    ∃ a : JKey, a.str = k ∧ l.filter (fun m => m.1.str = k) = [(a, v)] := by
  unfold Serde.required Serde.valuesOf at h
  split at h
  · rename_i w hw
    simp only [Option.some.injEq] at h
    subst h
    obtain ⟨m, hm, hv⟩ := List.map_eq_singleton_iff.mp hw
    refine ⟨m.1, ?_, by rw [hm, ← hv]⟩
    have : m ∈ l.filter (fun m => m.1.str = k) := by rw [hm]; simp
    simpa using (List.mem_filter.mp this).2
  · simp at h

/-- **C38 (validation).** A file loads exactly if it is the UTF-8 text of a JSON document which is a storage: with
another application name or format number, missing, repeated or unknown fields, or values that are no texts it is
rejected; the map loaded has the last value given for each key. -/
theorem C38_only_storages_load (b : Bytes) (d : Data) (h : FileIO.load (some b) = .ok d) :
    ∃ text j members, utf8 text = b ∧ Json.parse text = some j ∧ IsStorage j members ∧
      ∀ k, d.get? k = lastValue members k := by
  unfold FileIO.load at h
  simp only at h
  cases hu : fromUtf8 b with
  | none => simp [hu] at h
  | some text =>
    simp only [hu, bind, Option.bind] at h
    cases hj : Json.parse text with
    | none => simp [hj] at h
    | some j =>
      simp only [hj] at h
      have hfinal : ∀ members, FileIO.dataFromMembers [] members = some d →
          (∀ m ∈ members, ∃ s, m.2 = .str s) ∧ ∀ k, d.get? k = lastValue members k := by
        intro members hm
        have hs := strings_of_dataFromMembers members [] d hm
        obtain ⟨d', h1, h2⟩ := dataFromMembers_some members [] hs
        rw [hm] at h1
        simp only [Option.some.injEq] at h1
        subst h1
        refine ⟨hs, fun k => ?_⟩
        rw [h2 k]
        simp [Data.get?]
      have happ : ∀ v, FileIO.applicationFromJson v = some () → v = .str (c!"pfp") := by
        intro v hv
        cases v with
        | str s =>
          simp only [FileIO.applicationFromJson, Serde.asStr, bind, Option.bind] at hv
          split at hv
          · rename_i hs; rw [hs]
          · simp at hv
        | _ => simp [FileIO.applicationFromJson, Serde.asStr] at hv
      have hfmt : ∀ v, FileIO.formatFromJson v = some () → v = .num (.uint 3) := by
        intro v hv
        unfold FileIO.formatFromJson at hv
        cases v with
        | num n =>
          cases n with
          | uint n =>
            simp only [Serde.asU8, bind, Option.bind] at hv
            by_cases hn : n < 256
            · simp only [hn, if_true] at hv
              split at hv
              · rename_i h3; rw [h3]
              · simp at hv
            · simp [hn] at hv
          | other => simp [Serde.asU8] at hv
        | _ => simp [Serde.asU8] at hv
      have hdat : ∀ v, FileIO.dataFromJson v = some d → ∃ members, v = .obj members ∧
          FileIO.dataFromMembers [] members = some d := by
        intro v hv
        cases v with
        | obj l => exact ⟨l, rfl, hv⟩
        | _ => simp [FileIO.dataFromJson] at hv
      cases hf : FileIO.fromJson j with
      | none => simp [hf] at h
      | some d' =>
        simp only [hf, okOr_some, Res.ok.injEq] at h
        subst h
        have key : ∀ a f x : Option Json, (do
            a >>= FileIO.applicationFromJson
            f >>= FileIO.formatFromJson
            x >>= FileIO.dataFromJson) = some d' →
            a = some (.str (c!"pfp")) ∧ f = some (.num (.uint 3)) ∧
            ∃ members, x = some (.obj members) ∧ FileIO.dataFromMembers [] members = some d' := by
          intro a f x hx
          cases a with
          | none => simp at hx
          | some a =>
            simp only [bind, Option.bind] at hx
            cases ha : FileIO.applicationFromJson a with
            | none => simp [ha] at hx
            | some u =>
              simp only [ha] at hx
              cases f with
              | none => simp at hx
              | some f =>
                simp only at hx
                cases hff : FileIO.formatFromJson f with
                | none => simp [hff] at hx
                | some u' =>
                  simp only [hff] at hx
                  cases x with
                  | none => simp at hx
                  | some x =>
                    obtain ⟨ms, rfl, hms⟩ := hdat x hx
                    exact ⟨by rw [happ a ha], by rw [hfmt f hff], ms, rfl, hms⟩
        cases j with
        | obj l =>
          simp only [FileIO.fromJson] at hf
          split at hf
          · simp at hf
          · rename_i hw
            simp only [Decidable.not_not] at hw
            obtain ⟨h1, h2, ms, h3, h4⟩ := key _ _ _ hf
            obtain ⟨hms, hget⟩ := hfinal ms h4
            refine ⟨text, _, ms, utf8_of_fromUtf8 b text hu, hj, ?_, hget⟩
            obtain ⟨ka, hka, h1⟩ := required_perm h1
            obtain ⟨kf, hkf, h2⟩ := required_perm h2
            obtain ⟨kd, hkd, h3⟩ := required_perm h3
            refine .object l ms ka kf kd hka hkf hkd ?_ hms
            have p1 := (List.filter_append_perm (fun m : JKey × Json => decide (m.1.str = c!"application")) l).symm
            rw [h1] at p1
            refine p1.trans (List.Perm.cons _ ?_)
            have p2 := (List.filter_append_perm (fun m : JKey × Json => decide (m.1.str = c!"format"))
              (l.filter fun m => !decide (m.1.str = c!"application"))).symm
            rw [List.filter_filter] at p2
            have e2 : l.filter (fun m => decide (m.1.str = c!"format") && !decide (m.1.str = c!"application")) =
                l.filter (fun m => decide (m.1.str = c!"format")) := by
              apply List.filter_congr
              intro m _
              by_cases hm : m.1.str = c!"format"
              · simp [hm]
              · simp [hm]
            rw [e2, h2] at p2
            refine p2.trans (List.Perm.cons _ ?_)
            rw [List.filter_filter, ← h3]
            apply List.Perm.of_eq
            apply List.filter_congr
            intro m hm
            have hmem : m.1.str ∈ [c!"application", c!"format", c!"data"] := by
              have := List.filter_eq_nil_iff.mp hw m hm
              rw [decide_eq_true_eq, Decidable.not_not] at this
              exact this
            simp only [List.mem_cons, List.not_mem_nil, or_false] at hmem
            rcases hmem with h | h | h <;> rw [h] <;> decide
        | arr l =>
          match l, hf with
          | [a, f, x], hf =>
            simp only [FileIO.fromJson] at hf
            obtain ⟨h1, h2, ms, h3, h4⟩ := key (some a) (some f) (some x) hf
            obtain ⟨hms, hget⟩ := hfinal ms h4
            simp only [Option.some.injEq] at h1 h2 h3
            subst h1 h2 h3
            exact ⟨text, _, ms, utf8_of_fromUtf8 b text hu, hj, .array ms hms, hget⟩
        | _ => simp [FileIO.fromJson] at hf

/-- **C38 (validation, converse).** Every such document does load. -/
theorem C38_storages_load (text : Str) (j : Json) (members : List (JKey × Json)) (hp : Json.parse text = some j)
    (hj : IsStorage j members) :
    ∃ d, FileIO.load (some (utf8 text)) = .ok d ∧ ∀ k, d.get? k = lastValue members k := by
  obtain ⟨d, h1, _, h2⟩ := storages_load text j members hp hj
  exact ⟨d, h1, h2⟩

example : IsStorage (.obj [(⟨c!"data", true⟩, .obj []), (⟨c!"application", true⟩, .str (c!"pfp")),
    (⟨c!"format", false⟩, .num (.uint 3))]) [] :=
  .object _ _ ⟨c!"application", true⟩ ⟨c!"format", false⟩ ⟨c!"data", true⟩ rfl rfl rfl
    ((List.Perm.swap _ _ _).trans ((List.Perm.swap _ _ _).cons _)) (by simp)

/-! ## C37 -/

/-- **C37 (detected).** Whatever a crash during a write leaves behind, it is the old file, or the complete new file, or a
file that does not load: a partial state is never mistaken for a complete one. -/
theorem C37_torn_write_detected (old : Option Bytes) (entries : Data) (disk : Option Bytes)
    (h : FileIO.CrashDisk old (FileIO.contents entries) disk) :
    disk = old ∨ disk = some (FileIO.contents entries) ∨
      FileIO.load disk = .err .fileReadFailure ∨ FileIO.load disk = .err .invalidJson := by
  cases h with
  | before => exact .inl rfl
  | during n =>
    by_cases hn : n < (FileIO.contents entries).length
    · exact .inr (.inr (FileIO.load_prefix entries n hn))
    · exact .inr (.inl (by rw [List.take_of_length_le (by omega)]))

/-- **C37 (write errors).** The same holds for a write that fails half way and is reported: what is left behind is the
complete new file or does not load. -/
theorem C37_failed_write_detected (E : Env) (w w' : World) (n : Nat) (hfs : E.fs w.fpos = .writeFailure n)
    (h : (Storage.flush E w).2 = w') :
    (Storage.flush E w).1 = .err .fileWriteFailure ∧
    (w'.disk = some (FileIO.contents (FileIO.entries E w)) ∨
      FileIO.load w'.disk = .err .fileReadFailure ∨ FileIO.load w'.disk = .err .invalidJson) := by
  subst h
  unfold Storage.flush FileIO.flush
  simp only [hfs]
  refine ⟨trivial, ?_⟩
  by_cases hn : n < (FileIO.contents (FileIO.entries E w)).length
  · exact .inr (FileIO.load_prefix _ n hn)
  · exact .inl (by rw [List.take_of_length_le (by omega)])

/-- **C37 (not survived).** Whatever the old and the new contents are, there is a crash point after which neither can be
loaded. -/
theorem C37_crash_can_lose_everything (old : Option Bytes) (entries : Data) :
    ∃ disk, FileIO.CrashDisk old (FileIO.contents entries) disk ∧ ∃ e, FileIO.load disk = .err e := by
  refine ⟨_, .during 0, ?_⟩
  have : 0 < (FileIO.contents entries).length := by
    unfold FileIO.contents FileIO.toJson
    rw [Json.print]
    exact utf8_length_pos (by simp)
  rcases FileIO.load_prefix entries 0 this with h | h
  · exact ⟨_, h⟩
  · exact ⟨_, h⟩

/-! ## C39 -/

/-- **C39 (passwords).** Every password record is read back as it was written. -/
theorem C39_password_roundtrip (p : Password) :
    Serde.fromSlice Serde.passwordFromJson (Serde.toVec (Serde.passwordToJson p)) = some p :=
  Serde.password_roundtrip p

/-- **C39 (sites).** Every site record is read back as it was written. -/
theorem C39_site_roundtrip (s : Site) :
    Serde.fromSlice Serde.siteFromJson (Serde.toVec (Serde.siteToJson s)) = some s :=
  Serde.site_roundtrip s

/-- **C39 (separation).** No site record can be read as a password record or the other way round. -/
theorem C39_kinds_disjoint (s : Site) (p : Password) :
    Serde.fromSlice Serde.passwordFromJson (Serde.toVec (Serde.siteToJson s)) = none ∧
    Serde.fromSlice Serde.siteFromJson (Serde.toVec (Serde.passwordToJson p)) = none := by
  constructor
  · obtain ⟨name, target⟩ := s
    cases target with
    | none =>
      rw [Serde.siteToJson, Serde.fromSlice_toVec_obj _ _ (by simp [Serde.member, Serde.scalar_str])]
      rfl
    | some a =>
      rw [Serde.siteToJson, Serde.fromSlice_toVec_obj _ _ (by simp [Serde.member, Serde.scalar_str])]
      rfl
  · have key : ∀ l, (∀ m ∈ l, Serde.Scalar m.2) → Serde.fromSlice Serde.siteFromJson
        (Serde.toVec (.obj (Serde.member (c!"type") (.str (c!"generated2")) :: l))) = none ∧
        Serde.fromSlice Serde.siteFromJson
        (Serde.toVec (.obj (Serde.member (c!"type") (.str (c!"stored")) :: l))) = none := by
      intro l hl
      constructor <;>
      · rw [Serde.fromSlice_toVec_obj _ _ (by
          intro m hm
          rcases List.mem_cons.mp hm with rfl | hm
          · exact Serde.scalar_str _
          · exact hl m hm)]
        simp [Serde.siteFromJson, Serde.without, Serde.member, Json.readKey]
    have hs := Serde.passwordToJson_scalar p
    cases p with
    | generated p => exact (key _ (fun m hm => hs _ rfl m (by simp [hm]))).1
    | stored p => exact (key _ (fun m hm => hs _ rfl m (by simp [hm]))).2

/-! ## C40 -/

/-- **C40 (round trip).** Decrypting an encrypted value with the same key gives the value back. -/
theorem C40_encrypt_roundtrip (P : Prims) (hP : P.Lawful) (nonce value key : Bytes) (hk : key.length = 32)
    (hn : nonce.length = 12) :
    ∃ text, encryptData P nonce value key = .ok text ∧ decryptData P text key = .ok value := by
  refine ⟨_, by unfold encryptData; rw [if_neg (by simp [hk, hn])], ?_⟩
  unfold decryptData
  rw [if_neg (by simp [hk]), splitOnce_append (Base64.underscore_not_mem _)]
  simp only [okOr_some, Res.bind_ok, Base64.decode_encode]
  rw [if_neg (by simp [hn]), hP.gcm_roundtrip _ _ _ hk hn]
  rfl

theorem splitOnce_none {sep : Char} {s : Str} (h : sep ∉ s) : splitOnce sep s = none := by
  induction s with
  | nil => rfl
  | cons c s ih =>
    simp only [List.mem_cons, not_or] at h
    rw [splitOnce, if_neg (Ne.symm h.1), ih h.2]
    rfl

/-- **C40 (other texts).** With a 32-byte key, the outcome for any text: without `_` it is `InvalidCiphertext`; if the
part before the first `_` is not Base64 it is `InvalidBase64`; if that part is not twelve bytes long it is a panic; if
the rest is not Base64 it is `InvalidBase64`; otherwise the cipher decides. -/
theorem C40_decrypt_outcomes (P : Prims) (key : Bytes) (hk : key.length = 32) :
    (∀ text, '_' ∉ text → decryptData P text key = .err .invalidCiphertext) ∧
    (∀ a b, '_' ∉ a → Base64.decode a = none → decryptData P (a ++ '_' :: b) key = .err .invalidBase64) ∧
    (∀ a b nonce, '_' ∉ a → Base64.decode a = some nonce → nonce.length ≠ 12 →
      decryptData P (a ++ '_' :: b) key = .panic) ∧
    (∀ a b nonce, '_' ∉ a → Base64.decode a = some nonce → nonce.length = 12 → Base64.decode b = none →
      decryptData P (a ++ '_' :: b) key = .err .invalidBase64) ∧
    (∀ a b nonce c, '_' ∉ a → Base64.decode a = some nonce → nonce.length = 12 → Base64.decode b = some c →
      decryptData P (a ++ '_' :: b) key =
        match P.gcmDecrypt key nonce c with
        | some value => .ok value
        | none => .err .decryptionFailure) := by
  refine ⟨?_, ?_, ?_, ?_, ?_⟩
  · intro text h
    unfold decryptData
    rw [if_neg (by simp [hk]), splitOnce_none h]
    rfl
  · intro a b h h1
    unfold decryptData
    rw [if_neg (by simp [hk]), splitOnce_append h]
    simp only [okOr_some, Res.bind_ok, h1, okOr_none, Res.bind_err]
  · intro a b nonce h h1 h2
    unfold decryptData
    rw [if_neg (by simp [hk]), splitOnce_append h]
    simp only [okOr_some, Res.bind_ok, h1, h2, ne_eq, not_false_eq_true, if_true]
  · intro a b nonce h h1 h2 h3
    unfold decryptData
    rw [if_neg (by simp [hk]), splitOnce_append h]
    simp only [okOr_some, Res.bind_ok, h1]
    rw [if_neg (by simp [h2]), h3]
    rfl
  · intro a b nonce c h h1 h2 h3
    unfold decryptData
    rw [if_neg (by simp [hk]), splitOnce_append h]
    simp only [okOr_some, Res.bind_ok, h1]
    rw [if_neg (by simp [h2]), h3]
    simp only [okOr_some, Res.bind_ok]
    cases P.gcmDecrypt key nonce c <;> rfl

example : toyPrims.Lawful ∧ (List.replicate 32 (0 : UInt8)).length = 32 ∧ '_' ∉ (c!"AAAA") ∧
    Base64.decode (c!"AAAA") = some [0, 0, 0] ∧ Base64.decode (c!"A") = none ∧
    Base64.decode (c!"AAAAAAAAAAAAAAAA") = some (List.replicate 12 0) :=
  ⟨toyPrims_lawful, by decide, by decide, by decide, by decide, by decide⟩

/-! ## C54 -/

/-- **C54.** The key is derived by scrypt from the primary password and a text that is different for different salts. -/
theorem C54_key_salt_injective (P : Prims) (primary : Str) :
    ∃ input : Bytes → Bytes, (∀ salt, getEncryptionKey P primary salt = .ok (P.scrypt (utf8 primary) (input salt) 32)) ∧
      ∀ salt salt', input salt = input salt' → salt = salt' := by
  refine ⟨fun salt => utf8 (salt.map byteChar), fun salt => RecoveryCodes.getEncryptionKey_eq P primary salt, ?_⟩
  intro salt salt' h
  have h := utf8_injective h
  exact List.map_inj_right (fun a b hab => byteChar_injective hab) |>.mp h

end Pfp.Props
