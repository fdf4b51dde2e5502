import Verif.Props.Contents

/-!
# Storage contents of whatever kind: C56

Nothing is assumed here about how the storage came about: any names, any values.
-/

namespace Pfp.Props
open Spec Crypto

variable {E : Env}

/-! ## Reading an entry -/

/-- **C40 (Base64).** The texts accepted as Base64 are exactly the encodings, with the padding at the end complete or in
part or fully left off. -/
theorem C40_base64_accepted (t : Str) (b : Bytes) : Base64.decode t = some b ↔ ∃ k, t ++ List.replicate k '=' = Base64.encode b :=
  Base64.decode_iff t b

example : Base64.decode (c!"AAECAw==") = some [0, 1, 2, 3] ∧ Base64.decode (c!"AAECAw") = some [0, 1, 2, 3] ∧
    Base64.decode (c!"AAECAx") = none := by decide

theorem base64Text_iff (t : Str) (b : Bytes) : Base64Text t b ↔ Base64.decode t = some b := (Base64.decode_iff t b).symm

theorem base64Text_no_underscore {t : Str} {b : Bytes} (h : Base64Text t b) : '_' ∉ t := by
  obtain ⟨k, hk⟩ := h
  intro hm
  refine Base64.underscore_not_mem b ?_
  rw [← hk]
  simp [hm]

theorem splitOnce_eq_some {c : Char} : ∀ {v a b : Str}, splitOnce c v = some (a, b) → v = a ++ c :: b ∧ c ∉ a
  | [], _, _, h => by cases h
  | x :: v, a, b, h => by
    rw [splitOnce] at h
    split at h
    · rename_i hx; cases h; simp [hx]
    · rename_i hx
      cases hs : splitOnce c v with
      | none => simp [hs] at h
      | some p =>
        obtain ⟨a', b'⟩ := p
        simp only [hs, Option.map_some, Option.some.injEq, Prod.mk.injEq] at h
        obtain ⟨rfl, rfl⟩ := h
        obtain ⟨h1, h2⟩ := splitOnce_eq_some hs
        refine ⟨by rw [h1]; rfl, ?_⟩
        simp only [List.mem_cons, not_or]
        exact ⟨fun h => hx h.symm, h2⟩

/-- **C56 (one value).** Under a key of the right size, exactly the values that are a ciphertext accepted by the cipher
can be decrypted, and exactly a nonce of the wrong size is a crash. -/
theorem C56_decrypt (P : Prims) (k : Bytes) (hk : k.length = 32) (v : Str) :
    (∀ m, decryptData P v k = .ok m ↔ Decrypts P k v m) ∧ (decryptData P v k = .panic ↔ BadNonce v) := by
  unfold decryptData
  rw [if_neg (by simp [hk])]
  cases hs : splitOnce '_' v with
  | none =>
    have hno : ∀ n c, (∃ b, Base64Text n b) → v ≠ n ++ '_' :: c := by
      rintro n c ⟨b, hb⟩ rfl
      rw [splitOnce_append (base64Text_no_underscore hb)] at hs
      cases hs
    simp only [okOr, Res.bind_err]
    refine ⟨fun m => ⟨fun h => (by cases h), ?_⟩, ⟨fun h => (by cases h), ?_⟩⟩
    · rintro ⟨n, c, nonce, ct, h, hn, -⟩
      exact absurd h (hno n c ⟨_, hn⟩)
    · rintro ⟨n, c, nonce, h, hn, -⟩
      exact absurd h (hno n c ⟨_, hn⟩)
  | some p =>
    obtain ⟨n, c⟩ := p
    obtain ⟨hv, hu⟩ := splitOnce_eq_some hs
    have hsame : ∀ n' c', (∃ b, Base64Text n' b) → v = n' ++ '_' :: c' → n' = n ∧ c' = c := by
      rintro n' c' ⟨b, hb⟩ h'
      rw [h', splitOnce_append (base64Text_no_underscore hb)] at hs
      cases hs; exact ⟨rfl, rfl⟩
    simp only [okOr_some, Res.bind_ok]
    cases hd : Base64.decode n with
    | none =>
      simp only [okOr, Res.bind_err]
      refine ⟨fun m => ⟨fun h => (by cases h), ?_⟩, ⟨fun h => (by cases h), ?_⟩⟩
      · rintro ⟨n', c', nonce, ct, h, hn, -⟩
        obtain ⟨rfl, rfl⟩ := hsame n' c' ⟨_, hn⟩ h
        rw [base64Text_iff, hd] at hn; cases hn
      · rintro ⟨n', c', nonce, h, hn, -⟩
        obtain ⟨rfl, rfl⟩ := hsame n' c' ⟨_, hn⟩ h
        rw [base64Text_iff, hd] at hn; cases hn
    | some nonce =>
      simp only [okOr_some, Res.bind_ok]
      have hnt := (base64Text_iff n nonce).mpr hd
      by_cases hl : nonce.length = 12
      · rw [if_neg (by simp [hl])]
        have hnobad : ¬BadNonce v := by
          rintro ⟨n', c', nonce', h, hn, hl'⟩
          obtain ⟨rfl, rfl⟩ := hsame n' c' ⟨_, hn⟩ h
          rw [base64Text_iff, hd] at hn; cases hn
          exact hl' hl
        cases hc : Base64.decode c with
        | none =>
          simp only [okOr, Res.bind_err]
          refine ⟨fun m => ⟨fun h => (by cases h), ?_⟩, ⟨fun h => (by cases h), fun h => absurd h hnobad⟩⟩
          rintro ⟨n', c', nonce', ct, h, hn, -, hct, -⟩
          obtain ⟨rfl, rfl⟩ := hsame n' c' ⟨_, hn⟩ h
          rw [base64Text_iff, hc] at hct; cases hct
        | some ct =>
          simp only [okOr_some, Res.bind_ok]
          constructor
          · intro m
            constructor
            · intro h
              refine ⟨n, c, nonce, ct, hv, hnt, hl, (base64Text_iff c ct).mpr hc, ?_⟩
              cases hg : P.gcmDecrypt k nonce ct with
              | none => simp [hg, okOr] at h
              | some x => simp [hg, okOr] at h; rw [h]
            · rintro ⟨n', c', nonce', ct', h, hn, -, hct, hg⟩
              obtain ⟨rfl, rfl⟩ := hsame n' c' ⟨_, hn⟩ h
              rw [base64Text_iff, hc] at hct; cases hct
              rw [base64Text_iff, hd] at hn; cases hn
              rw [hg]; rfl
          · constructor
            · intro h
              cases hg : P.gcmDecrypt k nonce ct <;> simp [hg, okOr] at h
            · exact fun h => absurd h hnobad
      · rw [if_pos (by simpa using hl)]
        refine ⟨fun m => ⟨fun h => (by cases h), ?_⟩, ⟨fun _ => ⟨n, c, nonce, hv, hnt, hl⟩, fun _ => rfl⟩⟩
        rintro ⟨n', c', nonce', ct, h, hn, hl', -⟩
        obtain ⟨rfl, rfl⟩ := hsame n' c' ⟨_, hn⟩ h
        rw [base64Text_iff, hd] at hn; cases hn
        exact absurd hl' hl

theorem get_ok_iff {α : Type} (f : Json → Option α) (w : World) (key : Str) (k : Bytes) (hk : k.length = 32) (x : α) :
    Storage.get E w f key k = .ok x ↔ ∃ v, w.data.get? key = some v ∧ ReadsAs E.prims k f v x := by
  unfold Storage.get FileIO.get
  cases hd : w.data.get? key with
  | none => simp [okOr]
  | some v =>
    simp only [okOr_some, Res.bind_ok, Option.some.injEq, exists_eq_left']
    constructor
    · intro h
      cases hm : decryptData E.prims v k with
      | ok m =>
        refine ⟨m, ((C56_decrypt E.prims k hk v).1 m).mp hm, ?_⟩
        rw [hm] at h
        cases hf : Serde.fromSlice f m with
        | none => simp [hf, okOr] at h
        | some y => simp [hf, okOr] at h; rw [h]
      | err e => rw [hm] at h; cases h
      | panic => rw [hm] at h; cases h
    · rintro ⟨m, hm, hf⟩
      rw [((C56_decrypt E.prims k hk v).1 m).mpr hm]
      simp [hf, okOr]

theorem get_panic_iff {α : Type} (f : Json → Option α) (w : World) (key : Str) (k : Bytes) (hk : k.length = 32) :
    Storage.get E w f key k = .panic ↔ ∃ v, w.data.get? key = some v ∧ BadNonce v := by
  unfold Storage.get FileIO.get
  cases hd : w.data.get? key with
  | none => simp [okOr]
  | some v =>
    simp only [okOr_some, Res.bind_ok, Option.some.injEq, exists_eq_left']
    rw [← (C56_decrypt E.prims k hk v).2]
    cases hm : decryptData E.prims v k with
    | ok m => cases hf : Serde.fromSlice f m <;> simp [okOr, hf]
    | err e => simp
    | panic => simp

theorem siteKey_eq (E : Env) (x : Str) (h : Bytes) : Storage.siteKey E x h = siteEntry E.prims h x := rfl

theorem passwordKey_entry (E : Env) (i : PasswordId) (h : Bytes) : Storage.passwordKey E i h = passwordEntry E.prims h i := by
  unfold Storage.passwordKey Storage.sitePrefix passwordEntry
  rw [List.append_assoc]; rfl

/-! ## Aliases and passwords -/

/-- **C56 (aliases).** In every state whatever: a site is an alias exactly if its entry is an encryption of a record
saying so.  An entry with a nonce of the wrong size is a crash, and with any other entry, or none, the site is taken for
an ordinary one. -/
theorem C56_alias (E : Env) (s : PState) (k h : Bytes) (hk : s.key = some k) (hl : k.length = 32)
    (hh : s.hmacSecret = some h) (a : Str) :
    (∀ t, ask E s (.getAlias a) = .ok (.text t) ↔ ∃ v x, s.world.data.get? (siteEntry E.prims h (canonical a)) = some v ∧
      ReadsAs E.prims k Serde.siteFromJson v x ∧ x.alias = some t) ∧
    (ask E s (.getAlias a) = .panic ↔ ∃ v, s.world.data.get? (siteEntry E.prims h (canonical a)) = some v ∧ BadNonce v) ∧
    (∀ e, ask E s (.getAlias a) = .err e → e = .noSuchAlias) := by
  have hs : Passwords.secrets s = .ok (h, k) := by simp [Passwords.secrets, hk, hh, okOr]
  have h1 := get_ok_iff (E := E) Serde.siteFromJson s.world (siteEntry E.prims h (canonical a)) k hl
  have h2 := get_panic_iff (E := E) Serde.siteFromJson s.world (siteEntry E.prims h (canonical a)) k hl
  simp only [ask, run, Passwords.getAlias, hs, Res.bind_ok, Storage.getAlias, Storage.getSite, RepVault.normalizeSite_eq, siteKey_eq]
  cases hg : Storage.get E s.world Serde.siteFromJson (siteEntry E.prims h (canonical a)) k with
  | ok x =>
    rw [hg] at h2
    obtain ⟨v, hv, hx⟩ := (h1 x).mp hg
    refine ⟨fun t => ?_, ⟨fun h => ?_, fun h => absurd (h2.mpr h) (by simp)⟩, fun e he => ?_⟩
    · constructor
      · intro h
        refine ⟨v, x, hv, hx, ?_⟩
        cases ha : x.alias with
        | none => simp [Res.mapErr, ha, okOr] at h
        | some u => simp [Res.mapErr, ha, okOr] at h; rw [h]
      · rintro ⟨v', x', hv', hx', ha⟩
        have := (h1 x').mpr ⟨v', hv', hx'⟩
        rw [hg] at this
        cases this
        simp [Res.mapErr, ha, okOr]
    · cases ha : x.alias <;> simp [Res.mapErr, ha, okOr] at h
    · cases ha : x.alias <;> simp [Res.mapErr, ha, okOr] at he
      exact he.symm
  | err e' =>
    rw [hg] at h1 h2
    refine ⟨fun t => ?_, ?_, fun e he => ?_⟩
    · constructor
      · intro h; simp [Res.mapErr] at h
      · rintro ⟨v', x', hv', hx', ha⟩
        exact absurd ((h1 x').mpr ⟨v', hv', hx'⟩) (by simp)
    · rw [← h2]; simp [Res.mapErr]
    · simp [Res.mapErr] at he; exact he.symm
  | panic =>
    rw [hg] at h1 h2
    refine ⟨fun t => ?_, ?_, fun e he => ?_⟩
    · constructor
      · intro h; simp [Res.mapErr] at h
      · rintro ⟨v', x', hv', hx', ha⟩
        exact absurd ((h1 x').mpr ⟨v', hv', hx'⟩) (by simp)
    · rw [← h2]; simp [Res.mapErr]
    · simp [Res.mapErr] at he

/-- The site meant, unless reading its entry crashes. -/
theorem resolve_siteMeant {s : PState} {k h : Bytes} (hk : s.key = some k) (hh : s.hmacSecret = some h) (a : Str) :
    (ask E s (.getAlias a) = .panic ∧ Storage.resolveSite E s.world a h k = .panic) ∨
    (ask E s (.getAlias a) ≠ .panic ∧ Storage.resolveSite E s.world a h k = .ok (siteMeant E s a)) := by
  have hs : Passwords.secrets s = .ok (h, k) := by simp [Passwords.secrets, hk, hh, okOr]
  have e1 : ask E s (.getAlias a) = (Storage.getAlias E s.world (canonical a) h k).map .text := by
    simp only [ask, run, Passwords.getAlias, hs, Res.bind_ok, RepVault.normalizeSite_eq]
  unfold siteMeant Storage.resolveSite
  simp only [RepVault.normalizeSite_eq]
  rw [e1]
  cases Storage.getAlias E s.world (canonical a) h k <;> simp [Res.unwrapOr]

/-- **C56 (passwords).** In every state whatever: `get` and `get_notes` only ever succeed with the contents of an entry
that is an encryption, under the current key, of a password record; an entry with a nonce of the wrong size is a crash;
`has` only looks whether there is an entry. -/
theorem C56_get (E : Env) (s : PState) (k h : Bytes) (p : Str) (hk : s.key = some k) (hl : k.length = 32)
    (hh : s.hmacSecret = some h) (hp : s.primaryPassword = some p) (a n r : Str) (hna : ask E s (.getAlias a) ≠ .panic) :
    (ask E s (.has a n r) = .ok (.bool true) ↔
      (s.world.data.get? (passwordEntry E.prims h ⟨siteMeant E s a, n, revisionOf r⟩)).isSome = true) ∧
    (∀ t, ask E s (.getNotes a n r) = .ok (.text t) ↔
      ∃ v x, s.world.data.get? (passwordEntry E.prims h ⟨siteMeant E s a, n, revisionOf r⟩) = some v ∧
        ReadsAs E.prims k Serde.passwordFromJson v x ∧ x.notes = t) ∧
    (∀ t, ask E s (.get a n r) = .ok (.text t) ↔
      ∃ v x, s.world.data.get? (passwordEntry E.prims h ⟨siteMeant E s a, n, revisionOf r⟩) = some v ∧
        ReadsAs E.prims k Serde.passwordFromJson v x ∧
        match x with
        | .stored z => z.password = t
        | .generated g => deriveWith E.prims p g.id g.length g.charset = .ok t) ∧
    ((∃ v, s.world.data.get? (passwordEntry E.prims h ⟨siteMeant E s a, n, revisionOf r⟩) = some v ∧ BadNonce v) →
      ask E s (.get a n r) = .panic ∧ ask E s (.getNotes a n r) = .panic) := by
  have hs : Passwords.secrets s = .ok (h, k) := by simp [Passwords.secrets, hk, hh, okOr]
  have hr : Storage.resolveSite E s.world a h k = .ok (siteMeant E s a) := by
    rcases resolve_siteMeant (E := E) hk hh a with ⟨h1, -⟩ | ⟨-, h1⟩
    · exact absurd h1 hna
    · exact h1
  have hid : PasswordId.new (siteMeant E s a) n r = ⟨siteMeant E s a, n, revisionOf r⟩ := by
    unfold PasswordId.new revisionOf; split <;> simp_all
  generalize hi : (⟨siteMeant E s a, n, revisionOf r⟩ : PasswordId) = i at *
  have h1 := get_ok_iff (E := E) Serde.passwordFromJson s.world (passwordEntry E.prims h i) k hl
  have h2 := get_panic_iff (E := E) Serde.passwordFromJson s.world (passwordEntry E.prims h i) k hl
  simp only [ask, run, Passwords.has, Passwords.get, Passwords.getNotes, hs, hp, okOr_some, Res.bind_ok, hr, hid,
    Storage.hasPassword, Storage.contains, FileIO.containsKey, Data.contains, Storage.getPassword, passwordKey_entry, Res.map_ok,
    Res.ok.injEq, Out.bool.injEq, true_and]
  cases hg : Storage.get E s.world Serde.passwordFromJson (passwordEntry E.prims h i) k with
  | ok x =>
    rw [hg] at h2
    obtain ⟨v, hv, hx⟩ := (h1 x).mp hg
    have huniq : ∀ v' x', s.world.data.get? (passwordEntry E.prims h i) = some v' →
        ReadsAs E.prims k Serde.passwordFromJson v' x' → x' = x := by
      intro v' x' hv' hx'
      have := (h1 x').mpr ⟨v', hv', hx'⟩
      rw [hg] at this; cases this; rfl
    refine ⟨fun t => ?_, fun t => ?_, fun hb => absurd (h2.mpr hb) (by simp)⟩
    · constructor
      · intro h; simp at h; exact ⟨v, x, hv, hx, h⟩
      · rintro ⟨v', x', hv', hx', ht⟩
        rw [huniq v' x' hv' hx'] at ht
        simp [ht]
    · constructor
      · intro h
        refine ⟨v, x, hv, hx, ?_⟩
        cases x with
        | stored z => simpa using h
        | generated g =>
          simp only [Res.bind_ok, salt_eq] at h
          show derivePassword _ _ _ _ _ = _
          cases hd : derivePassword E.prims p (saltText g.id) g.length.toNat g.charset <;> rw [hd] at h <;> simp at h
          rw [h]
      · rintro ⟨v', x', hv', hx', ht⟩
        rw [huniq v' x' hv' hx'] at ht
        cases x with
        | stored z => simpa using ht
        | generated g =>
          have : derivePassword E.prims p (saltText g.id) g.length.toNat g.charset = .ok t := ht
          simp only [Res.bind_ok, salt_eq, this, Res.map_ok]
  | err e' =>
    rw [hg] at h1 h2
    refine ⟨fun t => ⟨fun h => ?_, ?_⟩, fun t => ⟨fun h => ?_, ?_⟩, fun hb => absurd (h2.mpr hb) (by simp)⟩
    · simp at h
    · rintro ⟨v', x', hv', hx', ha⟩
      exact absurd ((h1 x').mpr ⟨v', hv', hx'⟩) (by simp)
    · simp at h
    · rintro ⟨v', x', hv', hx', ha⟩
      exact absurd ((h1 x').mpr ⟨v', hv', hx'⟩) (by simp)
  | panic =>
    rw [hg] at h1 h2
    refine ⟨fun t => ⟨fun h => ?_, ?_⟩, fun t => ⟨fun h => ?_, ?_⟩, fun hb => ⟨rfl, rfl⟩⟩
    · simp at h
    · rintro ⟨v', x', hv', hx', ha⟩
      exact absurd ((h1 x').mpr ⟨v', hv', hx'⟩) (by simp)
    · simp at h
    · rintro ⟨v', x', hv', hx', ha⟩
      exact absurd ((h1 x').mpr ⟨v', hv', hx'⟩) (by simp)

/-! ## Listings -/

/-- What an iterator over all entries yields: one row for every selected entry that can be read. -/
theorem collect_exact {α : Type} (hE : E.Lawful) (w : World) (hd : Distinct w) (f : Json → Option α) (sel : Str → Bool)
    (k : Bytes) (hl : k.length = 32) :
    ((∀ key v, sel key = true → w.data.get? key = some v → ¬BadNonce v) → ∃ rows : List (Str × α),
      Storage.collect E w f sel k (FileIO.keys E w) = .ok (rows.map (·.2)) ∧ (rows.map (·.1)).Nodup ∧
      ∀ key x, (key, x) ∈ rows ↔ sel key = true ∧ ∃ v, w.data.get? key = some v ∧ ReadsAs E.prims k f v x) ∧
    ((∃ key v, sel key = true ∧ w.data.get? key = some v ∧ BadNonce v) →
      Storage.collect E w f sel k (FileIO.keys E w) = .panic) := by
  have hnd : (FileIO.keys E w).Nodup := ((hE.order _ _).map _).nodup_iff.mpr hd
  constructor
  · intro hno
    refine ⟨((FileIO.keys E w).filter sel).filterMap fun key => (Storage.peek E w f k key).map fun x => (key, x), ?_, ?_, ?_⟩
    · rw [Storage.collect_eq]
      · unfold Storage.peekAll
        rw [List.map_filterMap]
        congr 2
        funext key
        cases Storage.peek E w f k key <;> rfl
      · intro key _ hs hp
        obtain ⟨v, hv, hb⟩ := (get_panic_iff f w key k hl).mp hp
        exact hno key v hs hv hb
    · rw [List.map_filterMap]
      have hsub : ∀ l : List Str, (l.filterMap fun key => ((Storage.peek E w f k key).map fun x => (key, x)).map (·.1)).Sublist l := by
        intro l
        induction l with
        | nil => exact .slnil
        | cons key l ih =>
          rw [List.filterMap_cons]
          cases Storage.peek E w f k key with
          | none => exact .cons _ ih
          | some x => exact .cons_cons _ ih
      exact (hnd.sublist (List.filter_sublist)).sublist (hsub _)
    · intro key x
      rw [List.mem_filterMap]
      have hg := get_ok_iff (E := E) f w key k hl x
      constructor
      · rintro ⟨key', hm, hp⟩
        cases hpk : Storage.peek E w f k key' with
        | none => simp [hpk] at hp
        | some y =>
          simp only [hpk, Option.map_some, Option.some.injEq, Prod.mk.injEq] at hp
          obtain ⟨rfl, rfl⟩ := hp
          refine ⟨(List.mem_filter.mp hm).2, hg.mp ?_⟩
          unfold Storage.peek at hpk
          split at hpk
          · rename_i a ha; cases hpk; exact ha
          · cases hpk
      · rintro ⟨hs, hv⟩
        refine ⟨key, List.mem_filter.mpr ⟨?_, hs⟩, ?_⟩
        · obtain ⟨v, hv, -⟩ := hv
          exact (RepVault.mem_keys hE w key).mpr ⟨v, hv⟩
        · unfold Storage.peek
          rw [hg.mpr hv]; rfl
  · rintro ⟨key, v, hs, hv, hb⟩
    have hm : key ∈ FileIO.keys E w := (RepVault.mem_keys hE w key).mpr ⟨v, hv⟩
    have hp := (get_panic_iff (E := E) f w key k hl).mpr ⟨v, hv, hb⟩
    have : ∀ l : List Str, key ∈ l → Storage.collect E w f sel k l = .panic := by
      intro l
      induction l with
      | nil => intro h; cases h
      | cons x l ih =>
        intro hm
        rw [Storage.collect]
        rcases List.mem_cons.mp hm with rfl | hm
        · rw [if_pos hs, hp]; rfl
        · rw [ih hm]
          split
          · cases Storage.get E w f x k <;> rfl
          · rfl
    exact this _ hm

/-- **C56 (listing passwords).** In every state whatever: `list` has one row for every entry below the site that is an
encryption of a password record with a matching name, and skips all others; only a nonce of the wrong size is a crash. -/
theorem C56_list (hE : E.Lawful) (s : PState) (hd : Distinct s.world) (k h : Bytes) (hk : s.key = some k)
    (hl : k.length = 32) (hh : s.hmacSecret = some h) (a q : Str) (hna : ask E s (.getAlias a) ≠ .panic) :
    ((∀ key v, siteEntry E.prims h (siteMeant E s a) ++ [':'] <+: key → s.world.data.get? key = some v → ¬BadNonce v) →
      ∃ rows : List (Str × Password), ask E s (.list a q) = .ok (.passwords (rows.map (·.2))) ∧ (rows.map (·.1)).Nodup ∧
        ∀ key x, (key, x) ∈ rows ↔ siteEntry E.prims h (siteMeant E s a) ++ [':'] <+: key ∧
          E.wild q x.id.name = true ∧ ∃ v, s.world.data.get? key = some v ∧ ReadsAs E.prims k Serde.passwordFromJson v x) ∧
    ((∃ key v, siteEntry E.prims h (siteMeant E s a) ++ [':'] <+: key ∧ s.world.data.get? key = some v ∧ BadNonce v) →
      ask E s (.list a q) = .panic) := by
  have hr : Storage.resolveSite E s.world a h k = .ok (siteMeant E s a) := by
    rcases resolve_siteMeant (E := E) hk hh a with ⟨h1, -⟩ | ⟨-, h1⟩
    · exact absurd h1 hna
    · exact h1
  have hpre : ∀ key, (Storage.sitePrefix E (siteMeant E s a) h).isPrefixOf key = true ↔
      siteEntry E.prims h (siteMeant E s a) ++ [':'] <+: key := fun key => List.isPrefixOf_iff_prefix
  obtain ⟨h1, h2⟩ := collect_exact hE s.world hd Serde.passwordFromJson
    (Storage.sitePrefix E (siteMeant E s a) h).isPrefixOf k hl
  simp only [ask, run, Passwords.list, hk, hh, Passwords.orPanic, Res.bind_ok, hr, Storage.listPasswords]
  constructor
  · intro hno
    obtain ⟨rows, e1, e2, e3⟩ := h1 fun key v hs => hno key v ((hpre key).mp hs)
    refine ⟨rows.filter fun row => E.wild q row.2.id.name, ?_, ?_, ?_⟩
    · rw [e1]
      simp only [Res.bind_ok, Res.map_ok, List.filter_map]
      rfl
    · exact e2.sublist ((List.filter_sublist).map _)
    · intro key x
      rw [List.mem_filter, e3, hpre]
      constructor
      · rintro ⟨⟨g1, g2⟩, g3⟩; exact ⟨g1, g3, g2⟩
      · rintro ⟨g1, g2, g3⟩; exact ⟨⟨g1, g3⟩, g2⟩
  · rintro ⟨key, v, g1, g2, g3⟩
    rw [h2 ⟨key, v, (hpre key).mpr g1, g2, g3⟩]
    rfl

/-- **C56 (listing sites).** In every state whatever: `list_sites` has one row for every entry of the form `site:…`
without a second colon that is an encryption of a matching site record, and skips all others; only a nonce of the wrong
size is a crash. -/
theorem C56_list_sites (hE : E.Lawful) (s : PState) (hd : Distinct s.world) (k : Bytes) (hk : s.key = some k)
    (hl : k.length = 32) (q : Str) :
    ((∀ rest v, ':' ∉ rest → s.world.data.get? (c!"site:" ++ rest) = some v → ¬BadNonce v) →
      ∃ rows : List (Str × Site), ask E s (.listSites q) = .ok (.sites (rows.map (·.2))) ∧ (rows.map (·.1)).Nodup ∧
        ∀ key x, (key, x) ∈ rows ↔ (∃ rest, key = c!"site:" ++ rest ∧ ':' ∉ rest) ∧ Matches E q x ∧
          ∃ v, s.world.data.get? key = some v ∧ ReadsAs E.prims k Serde.siteFromJson v x) ∧
    ((∃ rest v, ':' ∉ rest ∧ s.world.data.get? (c!"site:" ++ rest) = some v ∧ BadNonce v) →
      ask E s (.listSites q) = .panic) := by
  have hsel : ∀ key, Storage.isSiteKey key = true ↔ ∃ rest, key = c!"site:" ++ rest ∧ ':' ∉ rest := by
    intro key
    unfold Storage.isSiteKey
    simp only [Bool.and_eq_true, List.isPrefixOf_iff_prefix, Bool.not_eq_true', List.contains_eq_mem, decide_eq_false_iff_not]
    constructor
    · rintro ⟨⟨rest, rfl⟩, h⟩
      exact ⟨rest, rfl, by simpa using h⟩
    · rintro ⟨rest, rfl, h⟩
      exact ⟨⟨rest, rfl⟩, by simpa [Storage.STORAGE_PREFIX] using h⟩
  have hm : ∀ x : Site, ((match x.alias with | some «alias» => E.wild q «alias» | none => false) || E.wild q x.name) = true ↔
      Matches E q x := by
    intro x
    unfold Matches
    cases x.alias <;> simp [or_comm]
  obtain ⟨h1, h2⟩ := collect_exact hE s.world hd Serde.siteFromJson Storage.isSiteKey k hl
  simp only [ask, run, Passwords.listSites, hk, Passwords.orPanic, Res.bind_ok, Storage.listSites]
  constructor
  · intro hno
    obtain ⟨rows, e1, e2, e3⟩ := h1 (by
      intro key v hs hv
      obtain ⟨rest, rfl, hr⟩ := (hsel key).mp hs
      exact hno rest v hr hv)
    refine ⟨rows.filter fun row =>
      (match row.2.alias with | some «alias» => E.wild q «alias» | none => false) || E.wild q row.2.name, ?_, ?_, ?_⟩
    · rw [e1]
      simp only [Res.bind_ok, Res.map_ok, List.filter_map]
      rfl
    · exact e2.sublist ((List.filter_sublist).map _)
    · intro key x
      rw [List.mem_filter, e3, hsel, hm]
      constructor
      · rintro ⟨⟨g1, g2⟩, g3⟩; exact ⟨g1, g3, g2⟩
      · rintro ⟨g1, g2, g3⟩; exact ⟨⟨g1, g3⟩, g2⟩
  · rintro ⟨rest, v, g1, g2, g3⟩
    rw [h2 ⟨_, v, (hsel _).mpr ⟨rest, rfl, g1⟩, g2, g3⟩]
    rfl

/-! ## Writing -/

theorem flush_get? (w : World) (key : Str) : (Storage.flush E w).2.data.get? key = w.data.get? key := by
  rw [flush_data]

/-- What `ensure_site_data` leaves behind, whatever was there. -/
theorem ensureSiteData_any (w : World) (site : Str) (h k : Bytes) (hl : k.length = 32) :
    ((Storage.ensureSiteData E site h k w).1 = .panic ∧
      Storage.get E w Serde.siteFromJson (siteEntry E.prims h site) k = .panic) ∨
    ∃ w1, Storage.ensureSiteData E site h k w = (.ok (), w1) ∧
      (w1 = w ∧ (∃ x, Storage.get E w Serde.siteFromJson (siteEntry E.prims h site) k = .ok x) ∨
        w1 = Storage.setWorld E (siteEntry E.prims h site) (Serde.siteToJson ⟨site, none⟩) k w ∧
        ∃ e, Storage.get E w Serde.siteFromJson (siteEntry E.prims h site) k = .err e) := by
  unfold Storage.ensureSiteData
  rw [M.bind_apply]
  simp only [M.get_apply, siteKey_eq]
  cases hg : Storage.get E w Serde.siteFromJson (siteEntry E.prims h site) k with
  | ok x => exact .inr ⟨w, rfl, .inl ⟨rfl, x, rfl⟩⟩
  | err e => exact .inr ⟨_, Storage.set_eq E _ _ _ hl w, .inr ⟨rfl, e, rfl⟩⟩
  | panic => exact .inl ⟨rfl, rfl⟩

theorem get_congr {α : Type} (f : Json → Option α) {w w' : World} {key : Str} (k : Bytes)
    (h : w'.data.get? key = w.data.get? key) : Storage.get E w' f key k = Storage.get E w f key k := by
  unfold Storage.get FileIO.get
  rw [h]

theorem get_setWorld {α : Type} (hP : E.prims.Lawful) (f : Json → Option α) (w : World) (key : Str) (j : Json) (k : Bytes)
    (hl : k.length = 32) {x : α} (hx : Serde.fromSlice f (Serde.toVec j) = some x) :
    Storage.get E (Storage.setWorld E key j k w) f key k = .ok x :=
  Storage.get_enc E hP _ f key k hl (F := False) (m := fun m => m = Json.print j) (own := j)
    (by simp [Storage.setWorld, Data.get?_insert]; rfl) ⟨_, _, randBytes_length _ _ _, rfl, rfl, .inr rfl⟩
    (by rintro _ rfl; exact hx)

theorem get?_setWorld_ne (w : World) {key key' : Str} (j : Json) (k : Bytes) (h : key' ≠ key) :
    (Storage.setWorld E key j k w).data.get? key' = w.data.get? key' := by
  simp [Storage.setWorld, Data.get?_insert, h]

/-- `set_stored` in any state. -/
theorem setStored_any {s : PState} {k h : Bytes} (hk : s.key = some k) (hl : k.length = 32) (hh : s.hmacSecret = some h)
    (a n r v : Str) :
    ((Passwords.setStored E a n r v s).1 = .panic ∧ (Storage.resolveSite E s.world a h k = .ok (siteMeant E s a) →
      Storage.get E s.world Serde.siteFromJson (siteEntry E.prims h (siteMeant E s a)) k = .panic)) ∨
    ∃ w1, ask E s (.getAlias a) ≠ .panic ∧
      Passwords.setStored E a n r v s = ((Storage.flush E (Storage.setWorld E (passwordEntry E.prims h
        ⟨siteMeant E s a, n, revisionOf r⟩) (Serde.passwordToJson (.stored ⟨⟨siteMeant E s a, n, revisionOf r⟩, v, []⟩)) k w1)).1,
        { s with world := (Storage.flush E (Storage.setWorld E (passwordEntry E.prims h ⟨siteMeant E s a, n, revisionOf r⟩)
          (Serde.passwordToJson (.stored ⟨⟨siteMeant E s a, n, revisionOf r⟩, v, []⟩)) k w1)).2 }) ∧
      (w1 = s.world ∧ (∃ x, Storage.get E s.world Serde.siteFromJson (siteEntry E.prims h (siteMeant E s a)) k = .ok x) ∨
        w1 = Storage.setWorld E (siteEntry E.prims h (siteMeant E s a)) (Serde.siteToJson ⟨siteMeant E s a, none⟩) k s.world ∧
        ∃ e, Storage.get E s.world Serde.siteFromJson (siteEntry E.prims h (siteMeant E s a)) k = .err e) := by
  have hs : Passwords.secrets s = .ok (h, k) := by simp [Passwords.secrets, hk, hh, okOr]
  rcases resolve_siteMeant (E := E) hk hh a with ⟨-, hr⟩ | ⟨hna, hr⟩
  · left
    simp only [Passwords.setStored, M.bind_apply, M.get_apply, M.lift_apply, hs, hr, true_and]
    intro hc; cases hc
  have hid : StoredPassword.new (siteMeant E s a) n r v = ⟨⟨siteMeant E s a, n, revisionOf r⟩, v, []⟩ := by
    unfold StoredPassword.new PasswordId.new revisionOf; split <;> simp_all
  have hstart : Passwords.setStored E a n r v s = (do
      Passwords.onWorld (Storage.ensureSiteData E (siteMeant E s a) h k)
      Passwords.onWorld (Storage.setStored E ⟨⟨siteMeant E s a, n, revisionOf r⟩, v, []⟩ h k)
      Passwords.onWorld (Storage.flush E)) s := by
    unfold Passwords.setStored
    rw [M.bind_apply]; simp only [M.get_apply]
    rw [M.bind_apply]; simp only [M.lift_apply, hs]
    rw [M.bind_apply]; simp only [M.lift_apply, hr, hid]
  rcases ensureSiteData_any (E := E) s.world (siteMeant E s a) h k hl with ⟨hpan, hg⟩ | ⟨w1, he, hw1⟩
  · refine .inl ⟨?_, fun _ => hg⟩
    rw [hstart, M.bind_apply]
    have : (Passwords.onWorld (Storage.ensureSiteData E (siteMeant E s a) h k) s).1 = .panic := hpan
    rcases hc : Passwords.onWorld (Storage.ensureSiteData E (siteMeant E s a) h k) s with ⟨r, s'⟩
    rw [hc] at this
    cases this
    rfl
  · refine .inr ⟨w1, hna, ?_, hw1⟩
    rw [hstart, onWorld_ok he]
    unfold Storage.setStored
    rw [onWorld_then_flush (Storage.set_eq E _ _ _ hl _)]
    simp only [passwordKey_entry]

/-- **C56 (storing).** In every state whatever, with any unreadable entries: unless a nonce of the wrong size makes it
crash, `set_stored` succeeds or fails only in writing the file, and the password is there.  An entry of the site that
could not be read has been replaced by the entry of an ordinary site, one that could be read is unchanged, and no other
entry has changed. -/
theorem C56_stored (hP : E.prims.Lawful) (s : PState) (k h : Bytes) (p : Str) (hk : s.key = some k) (hl : k.length = 32)
    (hh : s.hmacSecret = some h) (hp : s.primaryPassword = some p) (a n r v : Str)
    (h1 : ∀ t, s.world.data.get? (siteEntry E.prims h (canonical a)) = some t → ¬BadNonce t)
    (h2 : ∀ t, s.world.data.get? (siteEntry E.prims h (siteMeant E s a)) = some t → ¬BadNonce t) :
    let s' := after E s (.setStored a n r v)
    (ask E s (.setStored a n r v) = .ok .unit ∨ ∃ e, ask E s (.setStored a n r v) = .err e ∧ WriteError e) ∧
    ask E s' (.get a n r) = .ok (.text v) ∧ ask E s' (.getNotes a n r) = .ok (.text []) ∧
    ask E s' (.has a n r) = .ok (.bool true) ∧ siteMeant E s' a = siteMeant E s a ∧
    (∃ t x, s'.world.data.get? (siteEntry E.prims h (siteMeant E s a)) = some t ∧
      ReadsAs E.prims k Serde.siteFromJson t x ∧
      (s.world.data.get? (siteEntry E.prims h (siteMeant E s a)) = some t ∨
        x = ⟨siteMeant E s a, none⟩ ∧
        ∀ t' y, s.world.data.get? (siteEntry E.prims h (siteMeant E s a)) = some t' →
          ¬ReadsAs E.prims k Serde.siteFromJson t' y)) ∧
    ∀ key, key ≠ siteEntry E.prims h (siteMeant E s a) →
      key ≠ passwordEntry E.prims h ⟨siteMeant E s a, n, revisionOf r⟩ →
      s'.world.data.get? key = s.world.data.get? key := by
  intro s'
  rcases setStored_any (E := E) hk hl hh a n r v with ⟨hpan, hg⟩ | ⟨w1, hna, hrun, hw1⟩
  · exfalso
    rcases resolve_siteMeant (E := E) hk hh a with ⟨hc, -⟩ | ⟨-, hr⟩
    · obtain ⟨t, ht, hb⟩ := ((C56_alias E s k h hk hl hh a).2.1).mp hc
      exact h1 t ht hb
    · obtain ⟨t, ht, hb⟩ := (get_panic_iff (E := E) Serde.siteFromJson s.world _ k hl).mp (hg hr)
      exact h2 t ht hb
  generalize hx : siteMeant E s a = x at *
  set i : PasswordId := ⟨x, n, revisionOf r⟩ with hi
  have hne : siteEntry E.prims h x ≠ passwordEntry E.prims h i := by
    rw [← siteKey_eq, ← passwordKey_entry]; exact Storage.siteKey_ne_passwordKey E _ _ _
  have hne' : siteEntry E.prims h (canonical a) ≠ passwordEntry E.prims h i := by
    rw [← siteKey_eq, ← passwordKey_entry]; exact Storage.siteKey_ne_passwordKey E _ _ _
  have hs'eq : s' = { s with world := (Storage.flush E (Storage.setWorld E (passwordEntry E.prims h i)
          (Serde.passwordToJson (.stored ⟨i, v, []⟩)) k w1)).2 } := by
    show (run E _ s).2 = _
    simp only [run, hrun]
  have hget : ∀ key, s'.world.data.get? key = (Storage.setWorld E (passwordEntry E.prims h i)
          (Serde.passwordToJson (.stored ⟨i, v, []⟩)) k w1).data.get? key := by
    intro key; rw [hs'eq]; exact flush_get? _ _
  have hk' : s'.key = some k := by rw [hs'eq]; exact hk
  have hh' : s'.hmacSecret = some h := by rw [hs'eq]; exact hh
  have hp' : s'.primaryPassword = some p := by rw [hs'eq]; exact hp
  have hsite : s'.world.data.get? (siteEntry E.prims h x) = w1.data.get? (siteEntry E.prims h x) := by
    rw [hget, get?_setWorld_ne _ _ _ hne]
  have hcan : s'.world.data.get? (siteEntry E.prims h (canonical a)) = w1.data.get? (siteEntry E.prims h (canonical a)) := by
    rw [hget, get?_setWorld_ne _ _ _ hne']
  -- the alias of the site as before
  have hresolve : Storage.resolveSite E s'.world a h k = .ok x := by
    have hr : Storage.resolveSite E s.world a h k = .ok x := by
      rcases resolve_siteMeant (E := E) hk hh a with ⟨h1, -⟩ | ⟨-, h1⟩
      · exact absurd h1 hna
      · rw [h1, hx]
    unfold Storage.resolveSite Storage.getAlias Storage.getSite at hr ⊢
    simp only [RepVault.normalizeSite_eq, siteKey_eq] at hr ⊢
    rw [get_congr Serde.siteFromJson k hcan]
    rcases hw1 with ⟨rfl, -⟩ | ⟨rfl, e, he⟩
    · exact hr
    · by_cases hsame : siteEntry E.prims h (canonical a) = siteEntry E.prims h x
      · rw [hsame] at hr ⊢
        rw [get_setWorld hP Serde.siteFromJson _ _ _ k hl (Serde.site_roundtrip _)]
        rw [he] at hr
        exact hr
      · rw [get_congr Serde.siteFromJson k (get?_setWorld_ne _ _ _ hsame)]
        exact hr
  have hmeant : ask E s' (.getAlias a) ≠ .panic ∧ siteMeant E s' a = x := by
    rcases resolve_siteMeant (E := E) hk' hh' a with ⟨-, h1⟩ | ⟨h0, h1⟩
    · rw [h1] at hresolve; cases hresolve
    · rw [h1] at hresolve; cases hresolve; exact ⟨h0, rfl⟩
  have hentry : ∃ t, s'.world.data.get? (passwordEntry E.prims h i) = some t ∧
      ReadsAs E.prims k Serde.passwordFromJson t (.stored ⟨i, v, []⟩) := by
    refine (get_ok_iff (E := E) _ _ _ k hl _).mp ?_
    rw [get_congr (E := E) Serde.passwordFromJson k (hget _)]
    exact get_setWorld hP _ _ _ _ k hl (Serde.password_roundtrip _)
  obtain ⟨t, ht, htx⟩ := hentry
  obtain ⟨g1, g2, g3, -⟩ := C56_get E s' k h p hk' hl hh' hp' a n r hmeant.1
  rw [hmeant.2] at g1 g2 g3
  have hout : ask E s (.setStored a n r v) = .ok .unit ∨ ∃ e, ask E s (.setStored a n r v) = .err e ∧ WriteError e := by
    simp only [ask, run, hrun]
    by_cases hf : E.fs (Storage.setWorld E (passwordEntry E.prims h i)
          (Serde.passwordToJson (.stored ⟨i, v, []⟩)) k w1).fpos = .ok
    · left
      unfold Storage.flush FileIO.flush
      simp only [hf, Res.map_ok]
    · right
      obtain ⟨e, he, hwe⟩ := flush_not_ok hf
      exact ⟨e, by rw [he]; rfl, hwe⟩
  refine ⟨hout, (g3 v).mpr ⟨t, _, ht, htx, rfl⟩, (g2 []).mpr ⟨t, _, ht, htx, rfl⟩, g1.mpr (by rw [ht]; rfl), hmeant.2, ?_, ?_⟩
  · rcases hw1 with ⟨rfl, y, hy⟩ | ⟨rfl, e, he⟩
    · obtain ⟨u, hu, hux⟩ := (get_ok_iff (E := E) _ _ _ k hl _).mp hy
      exact ⟨u, y, by rw [hsite, hu], hux, .inl hu⟩
    · obtain ⟨u, hu, hux⟩ := (get_ok_iff (E := E) _ _ _ k hl _).mp
        (get_setWorld hP Serde.siteFromJson s.world (siteEntry E.prims h x) _ k hl (Serde.site_roundtrip ⟨x, none⟩))
      refine ⟨u, _, by rw [hsite, hu], hux, .inr ⟨rfl, fun t' y ht' hy => ?_⟩⟩
      rw [(get_ok_iff (E := E) _ _ _ k hl _).mpr ⟨t', ht', hy⟩] at he
      cases he
  · intro key h1 h2
    rw [hget, get?_setWorld_ne _ _ _ h2]
    rcases hw1 with ⟨rfl, -⟩ | ⟨rfl, -⟩
    · rfl
    · rw [get?_setWorld_ne _ _ _ h1]

/-! ## A damaged storage -/

/-- A storage with three bad entries: rubbish for the site `a`, rubbish below it, and a nonce of one byte. -/
def damaged : PState where
  world := {
    data := [(siteEntry Toy.env.prims [1] (c!"a"), c!"rubbish"),
             (siteEntry Toy.env.prims [1] (c!"a") ++ c!":x", c!"rubbish"),
             (c!"site:y", c!"AA==_")], epoch := 0, disk := none, rpos := 0, fpos := 0 }
  key := some (List.replicate 32 7)
  hmacSecret := some [1]
  primaryPassword := some (c!"secret")

theorem not_badNonce_rubbish : ¬BadNonce (c!"rubbish") := by
  rintro ⟨n, c, nonce, h, -⟩
  have : '_' ∈ c!"rubbish" := by rw [h]; simp
  exact absurd this (by decide)

theorem damaged_a {t : Str} (h : damaged.world.data.get? (siteEntry Toy.env.prims [1] (c!"a")) = some t) : t = c!"rubbish" := by
  rw [show damaged.world.data.get? (siteEntry Toy.env.prims [1] (c!"a")) = some (c!"rubbish") from by
    simp [damaged, Data.get?]] at h
  exact (Option.some.inj h).symm

theorem damaged_meant : siteMeant Toy.env damaged (c!"a") = c!"a" := by
  have h1 := C56_alias Toy.env damaged _ _ rfl (by decide) rfl (c!"a")
  unfold siteMeant
  cases hg : ask Toy.env damaged (.getAlias (c!"a")) with
  | ok o =>
    cases o with
    | text t =>
      obtain ⟨v, x, hv, ⟨m, ⟨n, c, nonce, ct, h, -⟩, -⟩, -⟩ := (h1.1 t).mp hg
      have hv' := damaged_a hv
      have : '_' ∈ c!"rubbish" := by rw [← hv', h]; simp
      exact absurd this (by decide)
    | _ => rfl
  | err e => rfl
  | panic => rfl

theorem damaged_distinct : Distinct damaged.world := by
  unfold Distinct
  decide +kernel

/-- Storing a password for the site `a` works all the same, and listing crashes. -/
example : ask Toy.env (after Toy.env damaged (.setStored (c!"a") (c!"n") [] (c!"v"))) (.get (c!"a") (c!"n") []) =
      .ok (.text (c!"v")) ∧
    ask Toy.env damaged (.listSites (c!"*")) = .panic := by
  constructor
  · refine (C56_stored toyPrims_lawful damaged _ _ _ rfl (by decide) rfl rfl _ _ _ _ ?_ ?_).2.1
    · intro t ht
      rw [damaged_a ht]; exact not_badNonce_rubbish
    · intro t ht
      rw [damaged_meant] at ht
      rw [damaged_a ht]; exact not_badNonce_rubbish
  · refine (C56_list_sites Toy.env_lawful damaged ?_ _ rfl (by decide) _).2 ⟨c!"y", c!"AA==_", by decide, ?_, ?_⟩
    · exact damaged_distinct
    · decide +kernel
    · exact ⟨c!"AA==", [], [0], rfl, ⟨0, rfl⟩, by decide⟩

/-- Listing the passwords of the site `a` skips the bad one. -/
example : ask Toy.env damaged (.list (c!"a") (c!"*")) = .ok (.passwords []) := by
  have hval : ∀ key v, siteEntry Toy.env.prims [1] (siteMeant Toy.env damaged (c!"a")) ++ [':'] <+: key →
      damaged.world.data.get? key = some v → v = c!"rubbish" := by
    intro key v hp hv
    rw [damaged_meant] at hp
    have hm : (key, v) ∈ damaged.world.data := Data.mem_of_get? hv
    have hy : ¬ siteEntry Toy.env.prims [1] (c!"a") ++ [':'] <+: c!"site:y" := by decide +kernel
    simp only [damaged, List.mem_cons, Prod.mk.injEq, List.not_mem_nil, or_false] at hm
    rcases hm with ⟨-, h⟩ | ⟨-, h⟩ | ⟨rfl, -⟩
    · exact h
    · exact h
    · exact absurd hp hy
  obtain ⟨rows, h1, -, h3⟩ := (C56_list Toy.env_lawful damaged damaged_distinct _ _ rfl (by decide) rfl (c!"a") (c!"*") (by
    intro hc
    obtain ⟨v, hv, hb⟩ := ((C56_alias Toy.env damaged _ _ rfl (by decide) rfl (c!"a")).2.1).mp hc
    rw [damaged_a hv] at hb
    exact not_badNonce_rubbish hb)).1 (by
    intro key v hp hv
    rw [hval key v hp hv]; exact not_badNonce_rubbish)
  have : rows = [] := by
    rw [List.eq_nil_iff_forall_not_mem]
    rintro ⟨key, x⟩ hm
    obtain ⟨hp, -, v, hv, m, ⟨n, c, nonce, ct, h, -⟩, -⟩ := (h3 key x).mp hm
    have hv' := hval key v hp hv
    have : '_' ∈ c!"rubbish" := by rw [← hv', h]; simp
    exact absurd this (by decide)
  rw [h1, this]; rfl

end Pfp.Props
