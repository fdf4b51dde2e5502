import Verif.Spec.Calm
import Verif.Props.Prompt
import Verif.Proofs.SoundReach
import Verif.Proofs.Cli
import Verif.Props.Generated

/-!
# Proofs: where the library can crash
-/

namespace Pfp

open Spec

variable {E : Env}

/-! ## Reading -/

theorem Crypto.splitOnce_some {sep : Char} : ∀ {v a b : Str}, splitOnce sep v = some (a, b) → sep ∉ a ∧ v = a ++ sep :: b
  | [], _, _, h => by cases h
  | c :: v, a, b, h => by
    rw [splitOnce] at h
    split at h
    · rename_i hc
      cases h
      exact ⟨by simp, by rw [hc]; rfl⟩
    · rename_i hc
      cases hs : splitOnce sep v with
      | none => rw [hs] at h; cases h
      | some x =>
        obtain ⟨a', b'⟩ := x
        rw [hs] at h
        cases h
        obtain ⟨h1, h2⟩ := splitOnce_some hs
        refine ⟨by simp [h1]; exact fun h => hc h.symm, by rw [h2]; rfl⟩

theorem decryptData_panic {P : Prims} {v : Str} {key : Bytes} (hk : key.length = 32)
    (h : Crypto.decryptData P v key = .panic) : ¬NonceSized v := by
  intro hv
  unfold Crypto.decryptData at h
  rw [if_neg (by simp [hk])] at h
  cases hs : Crypto.splitOnce '_' v with
  | none => rw [hs] at h; cases h
  | some x =>
    obtain ⟨n, c⟩ := x
    obtain ⟨h1, h2⟩ := Crypto.splitOnce_some hs
    rw [hs] at h
    simp only [okOr_some, Res.bind_ok] at h
    cases hd : Base64.decode n with
    | none => rw [hd] at h; cases h
    | some nonce =>
      rw [hd] at h
      simp only [okOr_some, Res.bind_ok] at h
      rw [if_neg (by simp [hv n c nonce h1 h2 hd])] at h
      cases hd' : Base64.decode c with
      | none => rw [hd'] at h; cases h
      | some x =>
        rw [hd'] at h
        simp only [okOr_some, Res.bind_ok] at h
        cases hg : P.gcmDecrypt key nonce x with
        | none => rw [hg] at h; cases h
        | some _ => rw [hg] at h; cases h

theorem okOr_panic {α : Type} {o : Option α} {e : Err} : okOr o e ≠ .panic := by
  cases o <;> simp [okOr]

theorem Res.bind_panic_inv {α β : Type} {r : Res α} {f : α → Res β} (h : (r >>= f) = .panic) :
    r = .panic ∨ ∃ a, r = .ok a ∧ f a = .panic := by
  cases r with
  | ok a => exact Or.inr ⟨a, rfl, h⟩
  | err e => cases h
  | panic => exact Or.inl rfl

theorem Res.mapErr_panic_inv {α : Type} {r : Res α} {e : Err} (h : r.mapErr e = .panic) : r = .panic := by
  cases r <;> first | rfl | cases h

theorem Res.unwrapOr_panic_inv {α : Type} {r : Res α} {d : α} (h : r.unwrapOr d = .panic) : r = .panic := by
  cases r <;> first | rfl | cases h

theorem Res.toOption_panic_inv {α : Type} {r : Res α} (h : r.toOption? = .panic) : r = .panic := by
  cases r <;> first | rfl | cases h

namespace Storage

theorem get_calm {α : Type} {w : World} {key : Str} {k : Bytes} (hd : Calm w.data) (hk : k.length = 32)
    (f : Json → Option α) : get E w f key k ≠ .panic := by
  intro h
  unfold get FileIO.get at h
  cases hv : w.data.get? key with
  | none => rw [hv] at h; cases h
  | some v =>
    rw [hv] at h
    simp only [okOr_some, Res.bind_ok] at h
    rcases Res.bind_panic_inv h with h | ⟨a, -, h⟩
    · exact decryptData_panic hk h (hd key v hv)
    · exact okOr_panic h

theorem getAlias_calm {w : World} {site : Str} {h k : Bytes} (hd : Calm w.data) (hk : k.length = 32) :
    getAlias E w site h k ≠ .panic := by
  intro hp
  unfold getAlias at hp
  rcases Res.bind_panic_inv hp with hp | ⟨a, -, hp⟩
  · exact get_calm hd hk _ (Res.mapErr_panic_inv hp)
  · exact okOr_panic hp

theorem resolveSite_calm {w : World} {site : Str} {h k : Bytes} (hd : Calm w.data) (hk : k.length = 32) :
    resolveSite E w site h k ≠ .panic :=
  fun hp => getAlias_calm hd hk (Res.unwrapOr_panic_inv hp)

theorem collect_calm {α : Type} {w : World} {k : Bytes} (hd : Calm w.data) (hk : k.length = 32) (f : Json → Option α)
    (select : Str → Bool) : ∀ l, collect E w f select k l ≠ .panic
  | [] => by simp [collect]
  | key :: rest => by
    intro hp
    rw [collect] at hp
    split at hp
    · rcases Res.bind_panic_inv hp with hp | ⟨a, -, hp⟩
      · exact get_calm hd hk _ (Res.toOption_panic_inv hp)
      · rcases Res.bind_panic_inv hp with hp | ⟨a, -, hp⟩
        · exact collect_calm hd hk f select rest hp
        · cases hp
    · exact collect_calm hd hk f select rest hp

theorem first_calm {α : Type} {w : World} {k : Bytes} (hd : Calm w.data) (hk : k.length = 32) (f : Json → Option α)
    (select : Str → Bool) : ∀ l, first E w f select k l ≠ .panic
  | [] => by simp [first]
  | key :: rest => by
    intro hp
    rw [first] at hp
    split at hp
    · rcases Res.bind_panic_inv hp with hp | ⟨a, -, hp⟩
      · exact get_calm hd hk _ (Res.toOption_panic_inv hp)
      · cases a with
        | some v => cases hp
        | none => exact first_calm hd hk f select rest hp
    · exact first_calm hd hk f select rest hp

theorem getSalt_calm {w : World} : getSalt w ≠ .panic := by
  intro hp
  unfold getSalt at hp
  rcases Res.bind_panic_inv hp with hp | ⟨a, -, hp⟩
  · exact okOr_panic (Res.mapErr_panic_inv hp)
  · exact okOr_panic hp

theorem getHmacSecret_calm {w : World} {k : Bytes} (hd : Calm w.data) (hk : k.length = 32) :
    getHmacSecret E w k ≠ .panic := by
  intro hp
  unfold getHmacSecret at hp
  unfold FileIO.get at hp
  cases hv : w.data.get? HMAC_SECRET_KEY with
  | none => rw [hv] at hp; cases hp
  | some v =>
    rw [hv] at hp
    simp only [okOr_some, Res.mapErr_ok, Res.bind_ok] at hp
    rcases Res.bind_panic_inv hp with hp | ⟨a, -, hp⟩
    · exact decryptData_panic hk hp (hd _ v hv)
    · rcases Res.bind_panic_inv hp with hp | ⟨a, -, hp⟩ <;> exact okOr_panic hp

end Storage

/-! ## Writing -/

/-- The computation does not crash, keeps the invariant, and its results are as stated. -/
def Safe {σ α : Type} (J : σ → Prop) (Q : α → Prop) (m : M σ α) : Prop :=
  ∀ s, J s → (m s).1 ≠ .panic ∧ J (m s).2 ∧ ∀ a, (m s).1 = .ok a → Q a

section Safe
variable {σ α β : Type} {J : σ → Prop}

theorem Safe.bind {Q : α → Prop} {R : β → Prop} {m : M σ α} {f : α → M σ β} (hm : Safe J Q m)
    (hf : ∀ a, Q a → Safe J R (f a)) : Safe J R (m >>= f) := by
  intro s hs
  obtain ⟨h1, h2, h3⟩ := hm s hs
  rw [M.bind_apply]
  generalize hr : m s = r at h1 h2 h3
  obtain ⟨r, s'⟩ := r
  cases r with
  | ok a => exact hf a (h3 a rfl) s' h2
  | err e => exact ⟨by simp, h2, by simp⟩
  | panic => exact absurd rfl h1

theorem Safe.get_bind {R : β → Prop} {f : σ → M σ β} (hf : ∀ s, J s → Safe J R (f s)) :
    Safe J R (M.get >>= f) := fun s hs => hf s hs s hs

theorem Safe.lift {r : Res α} (h : r ≠ .panic) : Safe J (fun a => r = .ok a) (M.lift r : M σ α) :=
  fun _ hs => ⟨h, hs, fun _ h => h⟩

theorem Safe.pure (a : α) : Safe J (fun _ => True) (Pure.pure a : M σ α) :=
  fun _ hs => ⟨by simp, hs, fun _ _ => trivial⟩

theorem Safe.mono {Q R : α → Prop} {m : M σ α} (h : Safe J Q m) (hQ : ∀ a, Q a → R a) : Safe J R m :=
  fun s hs => ⟨(h s hs).1, (h s hs).2.1, fun a ha => hQ a ((h s hs).2.2 a ha)⟩

theorem Safe.triv {Q : α → Prop} {m : M σ α} (h : Safe J Q m) : Safe J (fun _ => True) m := h.mono fun _ _ => trivial

end Safe

/-- The invariant on the data. -/
def CalmW (w : World) : Prop := Calm w.data

theorem calm_nil : Calm [] := fun _ _ h => by cases h

theorem calm_insert {d : Data} {k v : Str} (hd : Calm d) (hv : NonceSized v) : Calm (d.insert k v) := by
  intro k' v' h
  rw [Data.get?_insert] at h
  split at h
  · cases h; exact hv
  · exact hd _ _ h

theorem calm_erase {d : Data} {k : Str} (hd : Calm d) : Calm (d.erase k) := by
  intro k' v' h
  rw [Data.get?_erase] at h
  split at h
  · cases h
  · exact hd _ _ h

theorem nonceSized_base64 (b : Bytes) : NonceSized (Base64.encode b) := by
  intro n c nonce _ h _
  exact absurd (h ▸ Base64.underscore_not_mem b) (by simp)

theorem nonceSized_pair {b x : Bytes} (hb : b.length = 12) : NonceSized (Base64.encode b ++ '_' :: Base64.encode x) := by
  intro n c nonce hn h hd
  have := append_sep_inj (Base64.underscore_not_mem b) hn h
  rw [← this.1, Base64.decode_encode] at hd
  cases hd
  exact hb

namespace FileIO

theorem gen_safe (n : Nat) : Safe CalmW (fun b : Bytes => b.length = n) (gen E n) :=
  fun w hw => ⟨by simp [gen], hw, fun a h => by cases h; exact randBytes_length E _ n⟩

theorem set_safe {k v : Str} (hv : NonceSized v) : Safe CalmW (fun _ : Unit => True) (set k v) :=
  fun w hw => ⟨by simp [set], calm_insert hw hv, fun _ _ => trivial⟩

theorem remove_safe {k : Str} : Safe CalmW (fun _ : Unit => True) (remove k) := by
  intro w hw
  unfold remove
  split
  · exact ⟨by simp, calm_erase hw, fun _ _ => trivial⟩
  · exact ⟨by simp, hw, fun _ _ => trivial⟩

theorem clear_safe : Safe CalmW (fun _ : Unit => True) clear :=
  fun w hw => ⟨by simp [clear], calm_nil, fun _ _ => trivial⟩

theorem flush_safe : Safe CalmW (fun _ : Unit => True) (flush E) := by
  intro w hw
  unfold flush
  simp only
  split <;> exact ⟨by simp, hw, fun _ _ => trivial⟩

end FileIO

namespace Storage

theorem encrypt_safe {value k : Bytes} (hk : k.length = 32) : Safe CalmW NonceSized (encrypt E value k) := by
  refine (FileIO.gen_safe 12).bind fun nonce hn => ?_
  have : Crypto.encryptData E.prims nonce value k =
      .ok (Base64.encode nonce ++ '_' :: Base64.encode (E.prims.gcmEncrypt k nonce value)) := by
    unfold Crypto.encryptData
    rw [if_neg (by simp [hk, hn])]
  rw [this]
  refine (Safe.lift (by simp)).mono fun a h => ?_
  cases h
  exact nonceSized_pair hn

theorem set_safe {key : Str} {value : Json} {k : Bytes} (hk : k.length = 32) :
    Safe CalmW (fun _ : Unit => True) (set E key value k) :=
  (encrypt_safe hk).bind fun _ hv => FileIO.set_safe hv

theorem clear_safe {salt h k : Bytes} (hk : k.length = 32) : Safe CalmW (fun _ : Unit => True) (clear E salt h k) :=
  FileIO.clear_safe.bind fun _ _ => (FileIO.set_safe (nonceSized_base64 _)).bind fun _ _ =>
    (encrypt_safe hk).bind fun _ hv => FileIO.set_safe hv

theorem ensureSiteData_safe {site : Str} {h k : Bytes} (hk : k.length = 32) :
    Safe CalmW (fun _ : Unit => True) (ensureSiteData E site h k) := by
  refine Safe.get_bind fun w hw => ?_
  cases hg : get E w Serde.siteFromJson (siteKey E site h) k with
  | err e => exact set_safe hk
  | ok a => exact Safe.pure ()
  | panic => exact absurd hg (get_calm hw hk _)

theorem setAlias_safe {site a : Str} {h k : Bytes} (hk : k.length = 32) :
    Safe CalmW (fun _ : Unit => True) (setAlias E site a h k) := by
  unfold setAlias
  split
  · exact (Safe.lift (by simp)).triv
  · exact set_safe hk

theorem removeAlias_safe {site : Str} {h k : Bytes} (hk : k.length = 32) :
    Safe CalmW (fun _ : Unit => True) (removeAlias E site h k) := by
  refine Safe.get_bind fun w hw => ?_
  refine (Safe.lift fun hp => get_calm hw hk _ (Res.mapErr_panic_inv hp)).bind fun a _ => ?_
  split
  · exact (Safe.lift (by simp)).triv
  · exact FileIO.remove_safe

end Storage

namespace Passwords

/-- The invariant of the library. -/
def CalmP (s : PState) : Prop := Calm s.world.data ∧ Secrets s

theorem onWorld_safe {α : Type} {Q : α → Prop} {m : M World α} (h : Safe CalmW Q m) : Safe CalmP Q (onWorld m) := by
  intro s ⟨h1, h2⟩
  obtain ⟨g1, g2, g3⟩ := h s.world h1
  refine ⟨g1, ⟨g2, ?_⟩, g3⟩
  cases h2 with
  | locked a b c => exact .locked a b c
  | unlocked k h p hk a b c => exact .unlocked k h p hk a b c

theorem deriveKey_ok (hP : E.prims.Lawful) (p : Str) (salt : Bytes) :
    ∃ k, getEncryptionKey E.prims p salt = .ok k ∧ k.length = 32 :=
  ⟨_, getEncryptionKey_keyFor E.prims p salt, keyFor_length hP p salt⟩

theorem reset_safe (hP : E.prims.Lawful) (p : Str) : Safe CalmP (fun _ : Unit => True) (reset E p) := by
  refine (onWorld_safe (FileIO.gen_safe 16)).bind fun salt _ => ?_
  obtain ⟨k, hk, hl⟩ := deriveKey_ok hP p salt
  rw [hk]
  refine (Safe.lift (by simp)).bind fun k' hk' => ?_
  cases hk'
  refine (onWorld_safe (FileIO.gen_safe 32)).bind fun h _ => ?_
  refine (onWorld_safe (Storage.clear_safe hl)).bind fun _ _ => (onWorld_safe FileIO.flush_safe).bind fun _ _ => ?_
  intro s hs
  exact ⟨by simp, ⟨hs.1, .unlocked k h p hl rfl rfl rfl⟩, fun _ _ => trivial⟩

theorem unlock_safe (hP : E.prims.Lawful) (p : Str) : Safe CalmP (fun _ : Unit => True) (unlock E p) := by
  refine Safe.get_bind fun s hs => ?_
  refine (Safe.lift Storage.getSalt_calm).bind fun salt _ => ?_
  obtain ⟨k, hk, hl⟩ := deriveKey_ok hP p salt
  rw [hk]
  refine (Safe.lift (by simp)).bind fun k' hk' => ?_
  cases hk'
  refine (Safe.lift (Storage.getHmacSecret_calm hs.1 hl)).bind fun h _ => ?_
  intro s hs
  exact ⟨by simp, ⟨hs.1, .unlocked k h p hl rfl rfl rfl⟩, fun _ _ => trivial⟩

theorem secrets_calm {s : PState} (hs : Secrets s) :
    secrets s = .err .passwordsLocked ∨ ∃ h k, secrets s = .ok (h, k) ∧ k.length = 32 := by
  cases hs with
  | locked h1 h2 h3 => left; simp [secrets, h2, okOr]
  | unlocked k h p hk h1 h2 h3 => exact Or.inr ⟨h, k, by simp [secrets, h1, h2], hk⟩

/-- An operation that starts with obtaining the secrets. -/
theorem with_secrets {α : Type} {f : PState → Bytes × Bytes → M PState α}
    (hf : ∀ s h k, CalmP s → k.length = 32 → Safe CalmP (fun _ => True) (f s (h, k))) :
    Safe CalmP (fun _ => True) (do
      let s ← M.get
      let x ← M.lift (secrets s)
      f s x) := by
  refine Safe.get_bind fun s hs => ?_
  rcases secrets_calm hs.2 with h | ⟨h, k, hk, hl⟩
  · rw [h]
    exact (Safe.lift (by simp)).bind fun a ha => by cases ha
  · rw [hk]
    refine (Safe.lift (by simp)).bind fun a ha => ?_
    cases ha
    exact hf s h k hs hl

theorem setAlias_safe (site a : Str) : Safe CalmP (fun _ : Unit => True) (setAlias E site a) := by
  refine with_secrets fun s h k hs hk => ?_
  refine (Safe.lift (Storage.resolveSite_calm hs.1 hk)).bind fun r _ => ?_
  refine (Safe.lift (Storage.first_calm hs.1 hk _ _ _)).bind fun r _ => ?_
  split
  · exact (Safe.lift (by simp)).triv
  · exact (onWorld_safe (Storage.setAlias_safe hk)).bind fun _ _ => onWorld_safe FileIO.flush_safe

theorem removeAlias_safe (site : Str) : Safe CalmP (fun _ : Unit => True) (removeAlias E site) :=
  with_secrets fun _ _ _ _ hk =>
    (onWorld_safe (Storage.removeAlias_safe hk)).bind fun _ _ => onWorld_safe FileIO.flush_safe

theorem removeSitesLoop_safe (h : Bytes) : ∀ l, Safe CalmW (fun _ : Unit => True) (removeSitesLoop E h l)
  | [] => Safe.pure ()
  | _ :: rest => FileIO.remove_safe.bind fun _ _ => removeSitesLoop_safe h rest

theorem removeSites_safe (l : List Str) : Safe CalmP (fun _ : Unit => True) (removeSites E l) := by
  unfold removeSites
  split
  · exact Safe.pure ()
  · refine Safe.get_bind fun s hs => ?_
    exact (Safe.lift okOr_panic).bind fun h _ => (onWorld_safe (removeSitesLoop_safe h l)).bind fun _ _ =>
      onWorld_safe FileIO.flush_safe

theorem setGenerated_safe (site n r : Str) (len : UInt64) (cs : CharacterSet) :
    Safe CalmP (fun _ : Unit => True) (setGenerated E site n r len cs) :=
  with_secrets fun _ _ _ hs hk => (Safe.lift (Storage.resolveSite_calm hs.1 hk)).bind fun _ _ =>
    (onWorld_safe (Storage.ensureSiteData_safe hk)).bind fun _ _ =>
      (onWorld_safe (Storage.set_safe hk)).bind fun _ _ => onWorld_safe FileIO.flush_safe

theorem setStored_safe (site n r v : Str) : Safe CalmP (fun _ : Unit => True) (setStored E site n r v) :=
  with_secrets fun _ _ _ hs hk => (Safe.lift (Storage.resolveSite_calm hs.1 hk)).bind fun _ _ =>
    (onWorld_safe (Storage.ensureSiteData_safe hk)).bind fun _ _ =>
      (onWorld_safe (Storage.set_safe hk)).bind fun _ _ => onWorld_safe FileIO.flush_safe

theorem setNotes_safe (site n r v : Str) : Safe CalmP (fun _ : Unit => True) (setNotes E site n r v) :=
  with_secrets fun _ _ _ hs hk => (Safe.lift (Storage.resolveSite_calm hs.1 hk)).bind fun _ _ =>
    (Safe.lift (Storage.get_calm hs.1 hk _)).bind fun _ _ =>
      (onWorld_safe (Storage.set_safe hk)).bind fun _ _ => onWorld_safe FileIO.flush_safe

theorem remove_safe (site n r : Str) : Safe CalmP (fun _ : Unit => True) (remove E site n r) :=
  with_secrets fun _ _ _ hs hk => (Safe.lift (Storage.resolveSite_calm hs.1 hk)).bind fun _ _ =>
    (onWorld_safe FileIO.remove_safe).bind fun _ _ => onWorld_safe FileIO.flush_safe

theorem generate_calm (hP : E.prims.Lawful) (hoc : E.overflowChecks = false) {nonce salt key : Bytes} {p : Str}
    (hn : nonce.length = 12) (hk : key.length = 32) :
    RecoveryCodes.generate E.prims E.overflowChecks nonce p salt key ≠ .panic := by
  by_cases hs : salt.length = 16
  · obtain ⟨_, _, _, _, _, _, h, _⟩ := RecoveryCodes.generate_ok hP (password := p) hn hs hk (Or.inl hoc)
    rw [h]; simp
  · unfold RecoveryCodes.generate
    rw [if_pos (by simpa [RecoveryCodes.SALT_SIZE] using hs)]
    simp

theorem getRecoveryCode_safe (hP : E.prims.Lawful) (hoc : E.overflowChecks = false) (p : StoredPassword) :
    Safe CalmP (fun _ : Bytes => True) (getRecoveryCode E p) := by
  refine Safe.get_bind fun s hs => ?_
  refine (Safe.lift Storage.getSalt_calm).bind fun salt _ => ?_
  refine (Safe.lift okOr_panic).bind fun k hk => (onWorld_safe (FileIO.gen_safe 12)).bind fun nonce hn => ?_
  have hl : k.length = 32 := by
    cases hs.2 with
    | locked h1 h2 h3 => rw [h1] at hk; cases hk
    | unlocked k' h p hk' h1 h2 h3 => rw [h1] at hk; cases hk; exact hk'
  exact (Safe.lift (generate_calm hP hoc hn hl)).triv

/-! ## Queries -/

/-- A query that starts with obtaining the secrets. -/
theorem query_calm {α : Type} {s : PState} {f : Bytes × Bytes → Res α} (hs : CalmP s)
    (hp : (secrets s >>= f) = .panic) :
    ∃ h k, s.key = some k ∧ s.hmacSecret = some h ∧ k.length = 32 ∧ f (h, k) = .panic := by
  cases hs.2 with
  | locked h1 h2 h3 => simp [secrets, h2, okOr] at hp
  | unlocked k h p hk h1 h2 h3 =>
    refine ⟨h, k, h1, h2, hk, ?_⟩
    simpa [secrets, h1, h2] using hp

theorem getAlias_calm {s : PState} (hs : CalmP s) (site : Str) : getAlias E s site ≠ .panic := by
  intro hp
  obtain ⟨h, k, -, -, hk, hp⟩ := query_calm hs hp
  exact Storage.getAlias_calm hs.1 hk hp

theorem has_calm {s : PState} (hs : CalmP s) (site n r : Str) : has E s site n r ≠ .panic := by
  intro hp
  obtain ⟨h, k, -, -, hk, hp⟩ := query_calm hs hp
  rcases Res.bind_panic_inv hp with hp | ⟨_, -, hp⟩
  · exact Storage.resolveSite_calm hs.1 hk hp
  · cases hp

theorem getNotes_calm {s : PState} (hs : CalmP s) (site n r : Str) : getNotes E s site n r ≠ .panic := by
  intro hp
  obtain ⟨h, k, -, -, hk, hp⟩ := query_calm hs hp
  rcases Res.bind_panic_inv hp with hp | ⟨_, -, hp⟩
  · exact Storage.resolveSite_calm hs.1 hk hp
  · rcases Res.bind_panic_inv hp with hp | ⟨_, -, hp⟩
    · exact Storage.get_calm hs.1 hk _ hp
    · cases hp

theorem unlocked_inv {s : PState} (hs : CalmP s) (hu : s.key.isSome = true) :
    ∃ k h p, s.key = some k ∧ s.hmacSecret = some h ∧ s.primaryPassword = some p ∧ k.length = 32 := by
  cases hs.2 with
  | locked h1 h2 h3 => rw [h1] at hu; cases hu
  | unlocked k h p hk h1 h2 h3 => exact ⟨k, h, p, h1, h2, h3, hk⟩

theorem list_calm {s : PState} (hs : CalmP s) (hu : s.key.isSome = true) (site n : Str) : list E s site n ≠ .panic := by
  obtain ⟨k, h, p, h1, h2, h3, hk⟩ := unlocked_inv hs hu
  intro hp
  simp only [list, h1, h2, orPanic, Res.bind_ok] at hp
  rcases Res.bind_panic_inv hp with hp | ⟨_, -, hp⟩
  · exact Storage.resolveSite_calm hs.1 hk hp
  · rcases Res.bind_panic_inv hp with hp | ⟨_, -, hp⟩
    · exact Storage.collect_calm hs.1 hk _ _ _ hp
    · cases hp

theorem listSites_calm {s : PState} (hs : CalmP s) (hu : s.key.isSome = true) (site : Str) :
    listSites E s site ≠ .panic := by
  obtain ⟨k, h, p, h1, h2, h3, hk⟩ := unlocked_inv hs hu
  intro hp
  simp only [listSites, h1, orPanic, Res.bind_ok] at hp
  rcases Res.bind_panic_inv hp with hp | ⟨_, -, hp⟩
  · exact Storage.collect_calm hs.1 hk _ _ _ hp
  · cases hp

theorem derive_panic {P : Prims} (hP : P.Lawful) {p salt : Str} {len : UInt64} {cs : CharacterSet} :
    Crypto.derivePassword P p salt len.toNat cs = .panic ↔ Underivable len cs := by
  constructor
  · intro h
    by_cases h0 : len.toNat = 0
    · exact Or.inl h0
    by_cases h1 : 0xffffffff < len.toNat / 32
    · exact Or.inr (Or.inl h1)
    refine Or.inr (Or.inr fun t => ?_)
    cases ht : cs.contains t with
    | false => rfl
    | true =>
      obtain ⟨ts, s, g1, -, -, -⟩ := Crypto.toPassword_spec (P.scrypt (utf8 p) (utf8 salt) len.toNat) cs
        (CharacterSet.len_pos_of_contains ht)
      unfold Crypto.derivePassword Crypto.deriveBits at h
      rw [if_neg (by omega)] at h
      simp only [Res.bind_ok, g1] at h
      cases h
  · intro h
    unfold Crypto.derivePassword Crypto.deriveBits
    by_cases hc : len.toNat = 0 ∨ len.toNat / 32 > 0xffffffff
    · rw [if_pos hc]; rfl
    · rw [if_neg hc]
      rcases h with h | h | h
      · exact absurd (Or.inl h) hc
      · exact absurd (Or.inr h) hc
      · have : cs = .empty := by
          obtain ⟨a, b, c, d⟩ := cs
          have h1 := h .lower; have h2 := h .upper; have h3 := h .digit; have h4 := h .symbol
          simp only [CharacterSet.contains] at h1 h2 h3 h4
          subst h1 h2 h3 h4; rfl
        subst this
        exact Crypto.toPassword_empty _ (by
          intro h0
          have := hP.scrypt_length (utf8 p) (utf8 salt) len.toNat
          rw [h0] at this
          simp at this
          omega)

/-- Retrieving a password crashes only on a generated password which cannot be derived. -/
theorem get_calm {s : PState} (hP : E.prims.Lawful) (hs : CalmP s) {site n r : Str} (hp : get E s site n r = .panic) :
    ∃ k h id g, s.key = some k ∧ s.hmacSecret = some h ∧ Storage.getPassword E s.world id h k = .ok (.generated g) ∧
      Underivable g.length g.charset := by
  obtain ⟨h, k, h1, h2, hk, hp⟩ := query_calm hs hp
  rcases Res.bind_panic_inv hp with hp | ⟨_, -, hp⟩
  · exact absurd hp okOr_panic
  rcases Res.bind_panic_inv hp with hp | ⟨_, -, hp⟩
  · exact absurd hp (Storage.resolveSite_calm hs.1 hk)
  rcases Res.bind_panic_inv hp with hp | ⟨e, he, hp⟩
  · exact absurd hp (Storage.get_calm hs.1 hk _)
  cases e with
  | generated g => exact ⟨k, h, _, g, h1, h2, he, (derive_panic hP).mp hp⟩
  | stored _ => cases hp

end Passwords

end Pfp
