import Verif.Spec.Sizes
import Verif.Proofs.Bits
import Verif.Proofs.Writes
import Verif.Proofs.Foreign

/-!
# Storages that differ in values and notes of equal size only
-/

namespace Pfp
open Spec

variable {E : Env} {U : Universe}

/-! ## Sizes -/

theorem utf8_escapeChar_length (c : Char) : (utf8 (Json.escapeChar c)).length = charSize c := by
  have hp : ∀ n, n < 128 → (utf8Char (Char.ofNat n)).length = 1 := by decide
  have hh : ∀ n, n < 16 → (utf8Char (Json.hexDigit n)).length = 1 := by decide
  unfold Json.escapeChar charSize
  by_cases h1 : c = '"'
  · subst h1; decide
  by_cases h2 : c = '\\'
  · subst h2; decide
  by_cases h3 : c.toNat = 8
  · simp [h1, h2, h3]; decide
  by_cases h4 : c.toNat = 9
  · simp [h1, h2, h4]; decide
  by_cases h5 : c.toNat = 10
  · simp [h1, h2, h5]; decide
  by_cases h6 : c.toNat = 12
  · simp [h1, h2, h6]; decide
  by_cases h7 : c.toNat = 13
  · simp [h1, h2, h7]; decide
  simp only [h1, h2, h3, h4, h5, h6, h7, if_false, false_or]
  split
  · rename_i h
    have a1 := hh (c.toNat / 16) (by omega)
    have a2 := hh (c.toNat % 16) (by omega)
    simp only [utf8_cons, utf8_nil, List.length_append, a1, a2]
    decide
  · rfl

theorem utf8_escape_length : ∀ t : Str, (utf8 (t.flatMap Json.escapeChar)).length = jsonSize t
  | [] => rfl
  | c :: t => by
    rw [List.flatMap_cons, utf8_append, List.length_append, utf8_escapeChar_length, utf8_escape_length t]
    simp [jsonSize]

theorem printStr_length (t : Str) : (utf8 (Json.printStr t)).length = jsonSize t + 2 := by
  unfold Json.printStr
  rw [utf8_cons, utf8_append, List.length_append, List.length_append, utf8_escape_length]
  have h1 : (utf8Char '"').length = 1 := by decide
  have h2 : (utf8 ['"']).length = 1 := by decide
  omega

theorem charSize_pos (c : Char) : 0 < charSize c := by
  unfold charSize
  split
  · omega
  · split
    · omega
    · rw [utf8_cons, List.length_append]
      have := List.length_pos_of_ne_nil (utf8Char_ne_nil c)
      omega

theorem jsonSize_eq_zero {t : Str} : jsonSize t = 0 ↔ t = [] := by
  cases t with
  | nil => simp [jsonSize]
  | cons c t =>
    have := charSize_pos c
    simp only [jsonSize, List.map_cons, List.sum_cons]
    constructor
    · intro h; omega
    · intro h; cases h

/-- Members of JSON objects of equal size. -/
def MembersAlike : List (JKey × Json) → List (JKey × Json) → Prop :=
  List.Forall₂ fun m m' => m'.1 = m.1 ∧ (utf8 (Json.print m'.2)).length = (utf8 (Json.print m.2)).length

theorem printMembers_length : ∀ {l l' : List (JKey × Json)}, MembersAlike l l' →
    (utf8 (Json.printMembers l')).length = (utf8 (Json.printMembers l)).length
  | _, _, .nil => rfl
  | [_], [_], .cons (a := (k, v)) (b := (k', v')) h .nil => by
    obtain ⟨h1, h2⟩ := h
    cases h1
    simp only [Json.printMembers, utf8_append, utf8_cons, List.length_append] at h2 ⊢
    omega
  | _ :: _ :: _, _ :: _ :: _, .cons (a := (k, v)) (b := (k', v')) h (.cons h3 ht) => by
    obtain ⟨h1, h2⟩ := h
    cases h1
    have ih := printMembers_length (.cons h3 ht)
    simp only [Json.printMembers, utf8_append, utf8_cons, List.length_append] at h2 ih ⊢
    omega

theorem printObj_length {l l' : List (JKey × Json)} (h : MembersAlike l l') :
    (utf8 (Json.print (.obj l'))).length = (utf8 (Json.print (.obj l))).length := by
  have := printMembers_length h
  simp only [Json.print, utf8_append, utf8_cons, List.length_append] at this ⊢
  omega

theorem membersAlike_refl (l : List (JKey × Json)) : MembersAlike l l := by
  induction l with
  | nil => exact .nil
  | cons m l ih => exact .cons ⟨rfl, rfl⟩ ih

theorem membersAlike_append {l1 l1' l2 l2' : List (JKey × Json)} (h1 : MembersAlike l1 l1') (h2 : MembersAlike l2 l2') :
    MembersAlike (l1 ++ l2) (l1' ++ l2') := by
  induction h1 with
  | nil => exact h2
  | cons h _ ih => exact .cons h ih

/-! ## Records -/

/-- Records that differ in the value and in the notes only, both of equal size. -/
inductive PwLike : Password → Password → Prop
  | generated {x x' : GeneratedPassword} (hid : x'.id = x.id) (hl : x'.length = x.length) (hc : x'.charset = x.charset)
      (hn : jsonSize x'.notes = jsonSize x.notes) : PwLike (.generated x) (.generated x')
  | stored {x x' : StoredPassword} (hid : x'.id = x.id) (hv : jsonSize x'.password = jsonSize x.password)
      (hn : jsonSize x'.notes = jsonSize x.notes) : PwLike (.stored x) (.stored x')

theorem PwLike.refl (x : Password) : PwLike x x := by
  cases x with
  | generated x => exact .generated rfl rfl rfl rfl
  | stored x => exact .stored rfl rfl rfl

theorem PwLike.id {x x' : Password} (h : PwLike x x') : x'.id = x.id := by
  cases h with
  | generated h => exact h
  | stored h => exact h

theorem PwLike.setNotes {x x' : Password} (h : PwLike x x') {t t' : Str} (ht : jsonSize t' = jsonSize t) :
    PwLike (x.setNotes t) (x'.setNotes t') := by
  cases h with
  | generated h1 h2 h3 => exact .generated h1 h2 h3 ht
  | stored h1 h2 => exact .stored h1 h2 ht

theorem notesMembers_alike {t t' : Str} (h : jsonSize t' = jsonSize t) :
    MembersAlike (Serde.notesMembers t) (Serde.notesMembers t') := by
  unfold Serde.notesMembers
  have : t' = [] ↔ t = [] := by rw [← jsonSize_eq_zero, h, jsonSize_eq_zero]
  by_cases ht : t = []
  · rw [if_pos ht, if_pos (this.mpr ht)]
    exact .nil
  · rw [if_neg ht, if_neg fun h => ht (this.mp h)]
    refine .cons ⟨rfl, ?_⟩ .nil
    simp only [Serde.member, Json.print, printStr_length, h]

theorem PwLike.size {x x' : Password} (h : PwLike x x') :
    (Serde.toVec (Serde.passwordToJson x')).length = (Serde.toVec (Serde.passwordToJson x)).length := by
  unfold Serde.toVec
  cases h with
  | generated h1 h2 h3 h4 =>
    simp only [Serde.passwordToJson, h1, h2, h3]
    exact printObj_length (.cons ⟨rfl, rfl⟩ (membersAlike_append (membersAlike_refl _)
      (.cons ⟨rfl, rfl⟩ (membersAlike_append (membersAlike_refl _) (notesMembers_alike h4)))))
  | stored h1 h2 h3 =>
    simp only [Serde.passwordToJson, h1]
    refine printObj_length (.cons ⟨rfl, rfl⟩ (membersAlike_append (membersAlike_refl _) (.cons ⟨rfl, ?_⟩ (notesMembers_alike h3))))
    simp only [Serde.member, Json.print, printStr_length, h2]

/-! ## Entries and storages -/

/-- Keys that passwords may be stored under. -/
def isPasswordKey (key : Str) : Prop :=
  Storage.isSiteKey key = false ∧ key ≠ Storage.SALT_KEY ∧ key ≠ Storage.HMAC_SECRET_KEY

/-- Entries that are the same or hold records that differ in values and notes of equal size only. -/
def EntryLike (P : Prims) (k : Bytes) (e e' : Str × Str) : Prop :=
  e'.1 = e.1 ∧ (e'.2 = e.2 ∨ (isPasswordKey e.1 ∧ ∃ nonce x x', nonce.length = 12 ∧ PwLike x x' ∧
    e.2 = encText P k nonce (Serde.passwordToJson x) ∧ e'.2 = encText P k nonce (Serde.passwordToJson x')))

/-- The data of such storages. -/
def DataLike (P : Prims) (k : Bytes) : Data → Data → Prop := List.Forall₂ (EntryLike P k)

theorem EntryLike.refl (P : Prims) (k : Bytes) (e : Str × Str) : EntryLike P k e e := ⟨rfl, .inl rfl⟩

theorem DataLike.refl (P : Prims) (k : Bytes) : ∀ d : Data, DataLike P k d d
  | [] => .nil
  | e :: d => .cons (EntryLike.refl P k e) (DataLike.refl P k d)

section
variable {P : Prims} {k : Bytes} {d d' : Data}

theorem DataLike.keys (h : DataLike P k d d') : d'.map (·.1) = d.map (·.1) := by
  induction h with
  | nil => rfl
  | cons h _ ih => rw [List.map_cons, List.map_cons, h.1, ih]

theorem DataLike.get (h : DataLike P k d d') (key : Str) : (d.get? key = none ∧ d'.get? key = none) ∨
    ∃ v v', d.get? key = some v ∧ d'.get? key = some v' ∧ EntryLike P k (key, v) (key, v') := by
  unfold Data.get?
  induction h with
  | nil => exact .inl ⟨rfl, rfl⟩
  | @cons e e' _ _ h _ ih =>
    obtain ⟨a, b⟩ := e
    obtain ⟨a', b'⟩ := e'
    obtain ⟨h1, h2⟩ := h
    simp only at h1 h2
    subst h1
    by_cases hk : key = a'
    · subst hk
      rw [List.lookup_cons_self, List.lookup_cons_self]
      exact .inr ⟨b, b', rfl, rfl, rfl, h2⟩
    · have hb : (key == a') = false := by simpa using hk
      rw [List.lookup_cons, List.lookup_cons, hb]
      exact ih

theorem DataLike.get_same (h : DataLike P k d d') {key : Str} (hk : ¬isPasswordKey key) : d'.get? key = d.get? key := by
  rcases h.get key with ⟨h1, h2⟩ | ⟨v, v', h1, h2, -, h3 | ⟨h3, -⟩⟩
  · rw [h1, h2]
  · rw [h1, h2]; exact congrArg some h3
  · exact absurd h3 hk

theorem DataLike.contains (h : DataLike P k d d') (key : Str) : d'.contains key = d.contains key := by
  unfold Data.contains
  rcases h.get key with ⟨h1, h2⟩ | ⟨v, v', h1, h2, -⟩ <;> rw [h1, h2]
  rfl

theorem DataLike.erase (h : DataLike P k d d') (key : Str) : DataLike P k (d.erase key) (d'.erase key) := by
  unfold Data.erase
  induction h with
  | nil => exact .nil
  | @cons e e' _ _ h _ ih =>
    rw [List.filter_cons, List.filter_cons, h.1]
    split
    · exact .cons h ih
    · exact ih

theorem DataLike.insert (h : DataLike P k d d') {key v v' : Str} (hv : EntryLike P k (key, v) (key, v')) :
    DataLike P k (d.insert key v) (d'.insert key v') := .cons hv (h.erase key)

theorem DataLike.reverse (h : DataLike P k d d') : DataLike P k d.reverse d'.reverse := by
  unfold DataLike at h ⊢
  rw [List.forall₂_reverse_iff]
  exact h

end

/-! ## What is read and written -/

/-- Iterating both maps yields entries that are alike. -/
theorem DataLike.order {P : Prims} {k : Bytes} {d d' e e' : Data} (h : DataLike P k d d') (hp : e.Perm d) (hp' : e'.Perm d')
    (hk : e'.map (·.1) = e.map (·.1)) (hd : (d.map (·.1)).Nodup) : DataLike P k e e' := by
  have hd' : (d'.map (·.1)).Nodup := by rw [h.keys]; exact hd
  have hlen : e.length = e'.length := by
    have := congrArg List.length hk
    simpa using this.symm
  refine List.forall₂_iff_zip.mpr ⟨hlen, ?_⟩
  rintro ⟨a, b⟩ ⟨a', b'⟩ hm
  have hm1 := hp.mem_iff.mp (List.of_mem_zip hm).1
  have hm2 := hp'.mem_iff.mp (List.of_mem_zip hm).2
  have ha : a' = a := by
    obtain ⟨i, hi, hz⟩ := List.getElem_of_mem hm
    rw [List.getElem_zip] at hz
    simp only [Prod.mk.injEq] at hz
    simp only [List.length_zip] at hi
    have h1 : (e.map (·.1))[i]? = some a := by
      rw [List.getElem?_map, List.getElem?_eq_getElem (by omega), hz.1]; rfl
    have h2 : (e'.map (·.1))[i]? = some a' := by
      rw [List.getElem?_map, List.getElem?_eq_getElem (by omega), hz.2]; rfl
    rw [hk, h1] at h2
    exact (Option.some.inj h2).symm
  subst ha
  have g1 := Data.get?_of_mem hd hm1
  have g2 := Data.get?_of_mem hd' hm2
  rcases h.get a' with ⟨h1, -⟩ | ⟨v, v', h1, h2, h3⟩
  · rw [h1] at g1; cases g1
  · rw [h1] at g1; rw [h2] at g2
    cases g1; cases g2
    exact h3

/-- Worlds that differ in such entries and in the file only. -/
structure WLike (E : Env) (k : Bytes) (w w' : World) : Prop where
  data : DataLike E.prims k w.data w'.data
  nodup : (w.data.map (·.1)).Nodup
  epoch : w'.epoch = w.epoch
  rpos : w'.rpos = w.rpos
  fpos : w'.fpos = w.fpos

/-- Results that are alike. -/
inductive ResLike {α β : Type} (R : α → β → Prop) : Res α → Res β → Prop
  | ok {a : α} {b : β} (h : R a b) : ResLike R (.ok a) (.ok b)
  | err (e : Err) : ResLike R (.err e) (.err e)
  | panic : ResLike R .panic .panic

theorem ResLike.refl {α : Type} {R : α → α → Prop} (h : ∀ a, R a a) (r : Res α) : ResLike R r r := by
  cases r with
  | ok a => exact .ok (h a)
  | err e => exact .err e
  | panic => exact .panic

theorem ResLike.mapErr {α β : Type} {R : α → β → Prop} {r : Res α} {r' : Res β} (h : ResLike R r r') (e : Err) :
    ResLike R (r.mapErr e) (r'.mapErr e) := by
  cases h with
  | ok h => exact .ok h
  | err _ => exact .err e
  | panic => exact .panic

section
variable {k h : Bytes} {w w' : World}

theorem WLike.get_same (hw : WLike E k w w') {α : Type} (f : Json → Option α) {key : Str} (hk : ¬isPasswordKey key) (key2 : Bytes) :
    Storage.get E w' f key key2 = Storage.get E w f key key2 := by
  unfold Storage.get FileIO.get
  rw [hw.data.get_same hk]

theorem not_password_siteKey (E : Env) (x : Str) (h : Bytes) : ¬isPasswordKey (Storage.siteKey E x h) := fun hp => by
  rw [isPasswordKey, Storage.isSiteKey_siteKey] at hp
  cases hp.1

theorem WLike.getPassword (hw : WLike E k w w') (hP : E.prims.Lawful) (hk : k.length = 32) (key : Str) :
    ResLike PwLike (Storage.get E w Serde.passwordFromJson key k) (Storage.get E w' Serde.passwordFromJson key k) := by
  rcases hw.data.get key with ⟨h1, h2⟩ | ⟨v, v', h1, h2, -, h3 | ⟨-, nonce, x, x', hn, hx, h3, h4⟩⟩
  · rw [Storage.get_missing E w _ _ _ h1, Storage.get_missing E w' _ _ _ h2]
    exact .err _
  · simp only at h3
    subst h3
    have : Storage.get E w' Serde.passwordFromJson key k = Storage.get E w Serde.passwordFromJson key k := by
      unfold Storage.get FileIO.get; rw [h1, h2]
    rw [this]
    exact ResLike.refl PwLike.refl _
  · simp only at h3 h4
    have he : ∀ y nonce, nonce.length = 12 → ∀ u : World, u.data.get? key = some (encText E.prims k nonce (Serde.passwordToJson y)) →
        Storage.get E u Serde.passwordFromJson key k = .ok y := fun y nonce hn u hu =>
      Storage.get_enc E hP u _ key k hk hu (passwordEnc_own E.prims True k nonce hn y) fun t ht => password_read ht
    rw [he x nonce hn w (by rw [h1, h3]), he x' nonce hn w' (by rw [h2, h4])]
    exact .ok hx

theorem WLike.resolve (hw : WLike E k w w') (x : Str) (key : Bytes) : Storage.resolveSite E w' x h key = Storage.resolveSite E w x h key := by
  unfold Storage.resolveSite Storage.getAlias Storage.getSite
  dsimp only
  rw [hw.get_same _ (not_password_siteKey E _ _)]

theorem WLike.entries (hE : E.Lawful) (ho : OrderByKeys E) (hw : WLike E k w w') :
    DataLike E.prims k (FileIO.entries E w) (FileIO.entries E w') := by
  unfold FileIO.entries
  rw [hw.epoch]
  exact hw.data.order (hE.order _ _) (hE.order _ _) (ho _ _ _ hw.data.keys) hw.nodup

theorem WLike.first (hw : WLike E k w w') (hP : E.prims.Lawful) (hk : k.length = 32) (sel : Str → Bool) (keys : List Str) :
    ResLike (fun a b => b.isSome = a.isSome) (Storage.first E w Serde.passwordFromJson sel k keys)
      (Storage.first E w' Serde.passwordFromJson sel k keys) := by
  induction keys with
  | nil => exact .ok rfl
  | cons key rest ih =>
    unfold Storage.first
    split
    · have hg := hw.getPassword hP hk key
      generalize Storage.get E w Serde.passwordFromJson key k = r at hg
      generalize Storage.get E w' Serde.passwordFromJson key k = r' at hg
      cases hg with
      | ok h => exact .ok rfl
      | err e => exact ih
      | panic => exact .panic
    · exact ih

theorem WLike.firstPassword (hE : E.Lawful) (ho : OrderByKeys E) (hw : WLike E k w w') (hk : k.length = 32) (x : Str) :
    ResLike (fun a b => b.isSome = a.isSome) (Storage.firstPassword E w x h k) (Storage.firstPassword E w' x h k) := by
  unfold Storage.firstPassword FileIO.keys
  rw [(hw.entries hE ho).keys]
  exact hw.first hE.prims hk _ _

end

/-! ## Computations -/

/-- States that differ in such entries and in the file only. -/
structure SLike (E : Env) (k : Bytes) (s s' : PState) : Prop where
  world : WLike E k s.world s'.world
  own : ∀ key, s.key = some key → key = k
  key : s'.key = s.key
  hmacSecret : s'.hmacSecret = s.hmacSecret
  primaryPassword : s'.primaryPassword = s.primaryPassword

/-- Computations on storages that behave alike. -/
def SimW (E : Env) (k : Bytes) {α : Type} (R : α → α → Prop) (m m' : M World α) : Prop :=
  ∀ w w', WLike E k w w' → ResLike R (m w).1 (m' w').1 ∧ WLike E k (m w).2 (m' w').2

/-- Computations that behave alike. -/
def Sim (E : Env) (k : Bytes) {α : Type} (R : α → α → Prop) (m m' : M PState α) : Prop :=
  ∀ s s', SLike E k s s' → ResLike R (m s).1 (m' s').1 ∧ SLike E k (m s).2 (m' s').2

section
variable {k : Bytes} {α β : Type}

theorem simW_bind {R : α → α → Prop} {Q : β → β → Prop} {m m' : M World α} {f f' : α → M World β}
    (hm : SimW E k R m m') (hf : ∀ a b, R a b → SimW E k Q (f a) (f' b)) : SimW E k Q (m >>= f) (m' >>= f') := by
  intro w w' hw
  have h := hm w w' hw
  rw [M.bind_apply, M.bind_apply]
  revert h
  cases m w with
  | mk r u =>
    cases m' w' with
    | mk r' u' =>
      rintro ⟨h1, h2⟩
      cases h1 with
      | ok h => exact hf _ _ h _ _ h2
      | err e => exact ⟨.err e, h2⟩
      | panic => exact ⟨.panic, h2⟩

theorem sim_bind {R : α → α → Prop} {Q : β → β → Prop} {m m' : M PState α} {f f' : α → M PState β}
    (hm : Sim E k R m m') (hf : ∀ a b, R a b → Sim E k Q (f a) (f' b)) : Sim E k Q (m >>= f) (m' >>= f') := by
  intro w w' hw
  have h := hm w w' hw
  rw [M.bind_apply, M.bind_apply]
  revert h
  cases m w with
  | mk r u =>
    cases m' w' with
    | mk r' u' =>
      rintro ⟨h1, h2⟩
      cases h1 with
      | ok h => exact hf _ _ h _ _ h2
      | err e => exact ⟨.err e, h2⟩
      | panic => exact ⟨.panic, h2⟩

theorem simW_lift {R : α → α → Prop} {r r' : Res α} (h : ResLike R r r') : SimW E k R (M.lift r) (M.lift r') :=
  fun _ _ hw => ⟨h, hw⟩

theorem sim_lift {R : α → α → Prop} {r r' : Res α} (h : ResLike R r r') : Sim E k R (M.lift r) (M.lift r') :=
  fun _ _ hw => ⟨h, hw⟩

theorem simW_get : SimW E k (WLike E k) M.get M.get := fun _ _ hw => ⟨.ok hw, hw⟩
theorem sim_get : Sim E k (SLike E k) M.get M.get := fun _ _ hs => ⟨.ok hs, hs⟩

theorem sim_onWorld {R : α → α → Prop} {m m' : M World α} (h : SimW E k R m m') :
    Sim E k R (Passwords.onWorld m) (Passwords.onWorld m') := by
  intro s s' hs
  obtain ⟨h1, h2⟩ := h _ _ hs.world
  exact ⟨h1, h2, hs.own, hs.key, hs.hmacSecret, hs.primaryPassword⟩

theorem sim_secrets {s s' : PState} (h : SLike E k s s') :
    Sim E k (fun x x' => x' = x ∧ x.2 = k) (M.lift (Passwords.secrets s)) (M.lift (Passwords.secrets s')) := by
  apply sim_lift
  unfold Passwords.secrets
  rw [h.key, h.hmacSecret]
  cases s.hmacSecret with
  | none => exact .err _
  | some m =>
    cases hk : s.key with
    | none => exact .err _
    | some key => exact .ok ⟨rfl, h.own key hk⟩

/-- Storing the same value. -/
theorem simW_set (hk : k.length = 32) (key : Str) (j : Json) : SimW E k Eq (Storage.set E key j k) (Storage.set E key j k) := by
  intro w w' hw
  rw [Storage.set_eq E _ _ _ hk, Storage.set_eq E _ _ _ hk]
  refine ⟨.ok rfl, ?_, Data.insert_nodup _ _ hw.nodup, ?_, ?_, ?_⟩
  · simp only [Storage.setWorld, hw.rpos]
    exact hw.data.insert (EntryLike.refl _ _ _)
  · simp only [Storage.setWorld, hw.epoch]
  · simp only [Storage.setWorld, hw.rpos]
  · simp only [Storage.setWorld, hw.fpos]

/-- Storing records of equal size. -/
theorem simW_setPassword (hk : k.length = 32) (h : Bytes) {x x' : Password} (hx : PwLike x x') :
    SimW E k Eq (Storage.setPassword E x h k) (Storage.setPassword E x' h k) := by
  intro w w' hw
  unfold Storage.setPassword
  rw [Storage.set_eq E _ _ _ hk, Storage.set_eq E _ _ _ hk, hx.id]
  refine ⟨.ok rfl, ?_, Data.insert_nodup _ _ hw.nodup, ?_, ?_, ?_⟩
  · simp only [Storage.setWorld, hw.rpos]
    exact hw.data.insert ⟨rfl, .inr ⟨⟨Storage.isSiteKey_passwordKey _ _ _, Storage.passwordKey_ne_salt _ _ _,
      Storage.passwordKey_ne_hmac _ _ _⟩, _, x, x', randBytes_length _ _ _, hx, rfl, rfl⟩⟩
  · simp only [Storage.setWorld, hw.epoch]
  · simp only [Storage.setWorld, hw.rpos]
  · simp only [Storage.setWorld, hw.fpos]

theorem simW_remove (key : Str) : SimW E k Eq (Storage.remove key) (Storage.remove key) := by
  intro w w' hw
  unfold Storage.remove FileIO.remove
  rw [hw.data.contains]
  split
  · exact ⟨.ok rfl, hw.data.erase key, Data.erase_nodup _ hw.nodup, by simp only [hw.epoch], hw.rpos, hw.fpos⟩
  · exact ⟨.err _, hw⟩

theorem simW_ensure (hk : k.length = 32) (x : Str) (h : Bytes) :
    SimW E k Eq (Storage.ensureSiteData E x h k) (Storage.ensureSiteData E x h k) := by
  refine simW_bind simW_get fun w w' hw => ?_
  rw [hw.get_same _ (not_password_siteKey E _ _)]
  cases Storage.get E w Serde.siteFromJson (Storage.siteKey E x h) k with
  | err _ => exact simW_set hk _ _
  | ok _ => exact simW_lift (.ok rfl)
  | panic => exact simW_lift .panic

theorem simW_removeSites (h : Bytes) : ∀ l, SimW E k Eq (Passwords.removeSitesLoop E h l) (Passwords.removeSitesLoop E h l)
  | [] => simW_lift (.ok rfl)
  | x :: l => by
    rw [Passwords.removeSitesLoop]
    exact simW_bind (simW_remove _) fun _ _ _ => simW_removeSites h l

end

/-- The part of an operation before the file is written. -/
theorem sim_pre (hE : E.Lawful) (ho : OrderByKeys E) {k : Bytes} (hk : k.length = 32) {op op' : Op} (h : EvenOp op op') :
    Sim E k Eq (pre E op) (pre E op') := by
  have hres : ∀ {s s' : PState} (_ : SLike E k s s') (x : Str) (h key : Bytes),
      Sim E k Eq (M.lift (Storage.resolveSite E s.world x h key)) (M.lift (Storage.resolveSite E s'.world x h key)) := by
    intro s s' hs x h key
    rw [hs.world.resolve]
    exact sim_lift (ResLike.refl (fun _ => rfl) _)
  have hnotes : ∀ (a n r t t' : Str), jsonSize t' = jsonSize t → Sim E k Eq (pre E (.setNotes a n r t)) (pre E (.setNotes a n r t')) := by
    intro a n r t t' ht
    refine sim_bind sim_get fun s s' hs => sim_bind (sim_secrets hs) ?_
    rintro ⟨m, k'⟩ _ ⟨rfl, rfl⟩
    refine sim_bind (hres hs _ _ _) ?_
    rintro y _ rfl
    refine sim_bind (sim_lift (hs.world.getPassword hE.prims hk _)) fun x x' hx => ?_
    exact sim_onWorld (simW_setPassword hk _ (hx.setNotes ht))
  have hvalue : ∀ (a n r v v' : Str), jsonSize v' = jsonSize v → Sim E k Eq (pre E (.setStored a n r v)) (pre E (.setStored a n r v')) := by
    intro a n r v v' hv
    refine sim_bind sim_get fun s s' hs => sim_bind (sim_secrets hs) ?_
    rintro ⟨m, k'⟩ _ ⟨rfl, rfl⟩
    refine sim_bind (hres hs _ _ _) ?_
    rintro y _ rfl
    refine sim_bind (sim_onWorld (simW_ensure hk _ _)) fun _ _ _ => ?_
    exact sim_onWorld (simW_setPassword hk _ (x := .stored (.new y n r v)) (x' := .stored (.new y n r v')) (.stored rfl hv rfl))
  cases h with
  | value a n r v v' h => exact hvalue a n r v v' h
  | notes a n r t t' h => exact hnotes a n r t t' h
  | code z z' => exact sim_lift (.ok rfl)
  | same op =>
    cases op with
    | setAlias a b =>
      refine sim_bind sim_get fun s s' hs => sim_bind (sim_secrets hs) ?_
      rintro ⟨m, k'⟩ _ ⟨rfl, rfl⟩
      refine sim_bind (hres hs _ _ _) ?_
      rintro y _ rfl
      refine sim_bind (sim_lift (hs.world.firstPassword hE ho hk _)) fun o o' hoo => ?_
      simp only [hoo]
      split
      · exact sim_lift (.err _)
      · apply sim_onWorld
        unfold Storage.setAlias
        split
        · exact simW_lift (.err _)
        · exact simW_set hk _ _
    | removeAlias a =>
      refine sim_bind sim_get fun s s' hs => sim_bind (sim_secrets hs) ?_
      rintro ⟨m, k'⟩ _ ⟨rfl, rfl⟩
      refine sim_onWorld (simW_bind simW_get fun w w' hw => ?_)
      rw [hw.get_same _ (not_password_siteKey E _ _)]
      refine simW_bind (simW_lift (ResLike.refl (R := Eq) (fun _ => rfl) _)) ?_
      rintro x _ rfl
      split
      · exact simW_lift (.err _)
      · exact simW_remove _
    | removeSites l =>
      refine sim_bind sim_get fun s s' hs => ?_
      rw [hs.hmacSecret]
      refine sim_bind (sim_lift (ResLike.refl (R := Eq) (fun _ => rfl) _)) ?_
      rintro x _ rfl
      exact sim_onWorld (simW_removeSites _ _)
    | setGenerated a n r len cs =>
      refine sim_bind sim_get fun s s' hs => sim_bind (sim_secrets hs) ?_
      rintro ⟨m, k'⟩ _ ⟨rfl, rfl⟩
      refine sim_bind (hres hs _ _ _) ?_
      rintro y _ rfl
      exact sim_bind (sim_onWorld (simW_ensure hk _ _)) fun _ _ _ => sim_onWorld (simW_set hk _ _)
    | setStored a n r v => exact hvalue a n r v v rfl
    | setNotes a n r t => exact hnotes a n r t t rfl
    | remove a n r =>
      refine sim_bind sim_get fun s s' hs => sim_bind (sim_secrets hs) ?_
      rintro ⟨m, k'⟩ _ ⟨rfl, rfl⟩
      refine sim_bind (hres hs _ _ _) ?_
      rintro y _ rfl
      exact sim_onWorld (simW_remove _)
    | _ => exact sim_lift (.ok rfl)

/-! ## The file -/

theorem charSize_b64 : ∀ c ∈ Base64.alphabet ++ ['=', '_'], charSize c = 1 := by decide

theorem jsonSize_of_b64 : ∀ {t : Str}, (∀ c ∈ t, c ∈ Base64.alphabet ++ ['=', '_']) → jsonSize t = t.length
  | [], _ => rfl
  | c :: t, h => by
    have h1 := charSize_b64 c (h c (List.mem_cons_self ..))
    have h2 := jsonSize_of_b64 fun x hx => h x (List.mem_cons_of_mem _ hx)
    simp only [jsonSize, List.map_cons, List.sum_cons, List.length_cons] at h2 ⊢
    omega

theorem encode_chars (b : Bytes) : ∀ c ∈ Base64.encode b, c ∈ Base64.alphabet ++ ['=', '_'] := by
  intro c hc
  have := Base64.encode_isB64 b c hc
  simp only [Base64.isB64, Bool.or_eq_true, beq_iff_eq, List.contains_iff_mem] at this
  rcases this with h | h
  · exact List.mem_append_left _ h
  · exact List.mem_append_right _ (by simp [h])

theorem jsonSize_encText (P : Prims) (k nonce : Bytes) (j : Json) : jsonSize (encText P k nonce j) =
    (Base64.encode nonce).length + (Base64.encode (P.gcmEncrypt k nonce (Serde.toVec j))).length + 1 := by
  rw [jsonSize_of_b64, encText, List.length_append, List.length_cons]
  · omega
  · intro c hc
    rw [encText, List.mem_append, List.mem_cons] at hc
    rcases hc with h | h | h
    · exact encode_chars _ c h
    · exact List.mem_append_right _ (by simp [h])
    · exact encode_chars _ c h

theorem EntryLike.size {P : Prims} (hP : P.Lawful) {k : Bytes} {e e' : Str × Str} (h : EntryLike P k e e') :
    jsonSize e'.2 = jsonSize e.2 := by
  obtain ⟨-, h | ⟨-, nonce, x, x', -, hx, h1, h2⟩⟩ := h
  · rw [h]
  · rw [h1, h2, jsonSize_encText, jsonSize_encText, Base64.encode_length (P.gcmEncrypt ..), Base64.encode_length (P.gcmEncrypt ..),
      hP.gcm_length, hP.gcm_length, hx.size]

theorem DataLike.size {P : Prims} (hP : P.Lawful) {k : Bytes} {d d' : Data} (h : DataLike P k d d') :
    (FileIO.contents d').length = (FileIO.contents d).length := by
  unfold FileIO.contents FileIO.toJson
  refine printObj_length (.cons ⟨rfl, rfl⟩ (.cons ⟨rfl, rfl⟩ (.cons ⟨rfl, ?_⟩ .nil)))
  refine printObj_length ?_
  induction h with
  | nil => exact .nil
  | cons h _ ih =>
    refine .cons ⟨by simp only [Serde.member, h.1], ?_⟩ ih
    simp only [Serde.member, Json.print, printStr_length, h.size hP]

/-- Memories that are alike. -/
def MemLike (E : Env) (U : Universe) (d d' : Data) : Prop :=
  d' = d ∨ ∃ pos p V, RepStore E U pos p d V ∧ DataLike E.prims (keyFor E.prims p (saltAt E pos)) d d'

/-- Files that are alike. -/
def FileLike (E : Env) (U : Universe) (disk disk' : Option Bytes) : Prop :=
  disk' = disk ∨ ∃ pos p V d d' n, RepStore E U pos p d V ∧ DataLike E.prims (keyFor E.prims p (saltAt E pos)) d d' ∧
    disk = some ((FileIO.contents d).take n) ∧ disk' = some ((FileIO.contents d').take n)

/-- What both files hold is alike, or none can be read. -/
theorem FileLike.load (hP : E.prims.Lawful) {disk disk' : Option Bytes} (h : FileLike E U disk disk') :
    (∃ d d', FileIO.load disk = .ok d ∧ FileIO.load disk' = .ok d' ∧ MemLike E U d d') ∨
    ((∀ d, FileIO.load disk ≠ .ok d) ∧ ∀ d, FileIO.load disk' ≠ .ok d) := by
  rcases h with rfl | ⟨pos, p, V, d, d', n, R, hd, rfl, rfl⟩
  · cases h : FileIO.load disk' with
    | ok d => exact .inl ⟨d, d, rfl, rfl, .inl rfl⟩
    | err e => exact .inr ⟨fun d hd => (by cases hd), fun d hd => (by cases hd)⟩
    | panic => exact .inr ⟨fun d hd => (by cases hd), fun d hd => (by cases hd)⟩
  · have hsize := hd.size hP
    by_cases hn : n < (FileIO.contents d).length
    · right
      have h1 := FileIO.load_prefix d n hn
      have h2 := FileIO.load_prefix d' n (by omega)
      constructor
      · intro x hx; rw [hx] at h1; rcases h1 with h | h <;> cases h
      · intro x hx; rw [hx] at h2; rcases h2 with h | h <;> cases h
    · left
      rw [List.take_of_length_le (by omega), List.take_of_length_le (by omega)]
      refine ⟨_, _, FileIO.load_contents d R.vault.nodup, FileIO.load_contents d' (by rw [hd.keys]; exact R.vault.nodup), .inr ?_⟩
      exact ⟨pos, p, V, R.perm (List.reverse_perm _).symm, hd.reverse⟩

theorem FileLike.size (hP : E.prims.Lawful) {disk disk' : Option Bytes} (h : FileLike E U disk disk') :
    disk'.map List.length = disk.map List.length := by
  rcases h with rfl | ⟨pos, p, V, d, d', n, R, hd, rfl, rfl⟩
  · rfl
  · simp only [Option.map_some, List.length_take, hd.size hP]

/-- Entries that are alike look alike. -/
theorem EntryLike.looks {P : Prims} {k : Bytes} {e e' : Str × Str} (h : EntryLike P k e e') : LooksAlike P k e e' := by
  obtain ⟨h0, h | ⟨-, nonce, x, x', hn, hx, h1, h2⟩⟩ := h
  · exact ⟨h0, .inl h⟩
  · refine ⟨h0, .inr ⟨nonce, Json.print (Serde.passwordToJson x), Json.print (Serde.passwordToJson x'), hn, hx.size, ?_, ?_⟩⟩
    · exact ⟨_, _, isBase64_encode nonce, isBase64_encode _, by rw [h1, encText]; simp [Serde.toVec]⟩
    · exact ⟨_, _, isBase64_encode nonce, isBase64_encode _, by rw [h2, encText]; simp [Serde.toVec]⟩

theorem MemLike.looks {d d' : Data} (h : MemLike E U d d') : StoragesAlike E.prims U d d' := by
  rcases h with h | ⟨pos, p, V, R, hd⟩
  · exact .inl h
  · refine .inr ⟨p, saltAt E pos, _, R.primary, (Data.get?_iff R.vault.nodup).mp R.salt, isBase64_encode _, ?_⟩
    rw [publishedKey_eq]
    exact hd.imp fun e e' h => h.looks

/-! ## States -/

/-- A storage can be opened in one way only. -/
theorem RepStore.key_unique (hE : E.Lawful) (hS : Secure E U) {pos pos2 : Origin} {p p2 : Str} {d : Data} {V V2 : Vault}
    (R : RepStore E U pos p d V) (R2 : RepStore E U pos2 p2 d V2) :
    keyFor E.prims p (saltAt E pos) = keyFor E.prims p2 (saltAt E pos2) := by
  let s : PState := Passwords.new { data := d, epoch := 0, disk := none, rpos := 0, fpos := 0 }
  have h1 := unlock_eq (s := s) hE hS R p2 R2.primary
  have h2 := unlock_eq (s := s) hE hS R2 p2 R2.primary
  rw [if_pos rfl] at h2
  rw [h2] at h1
  split at h1
  · simp only [Prod.mk.injEq, PStateOf.mk.injEq, Option.some.injEq] at h1
    exact h1.2.2.1.symm
  · cases h1

/-- States that are alike. -/
structure Mir (E : Env) (U : Universe) (s s' : PState) : Prop where
  reach : Reachable E U s
  key : s'.key = s.key
  hmacSecret : s'.hmacSecret = s.hmacSecret
  primaryPassword : s'.primaryPassword = s.primaryPassword
  epoch : s'.world.epoch = s.world.epoch
  rpos : s'.world.rpos = s.world.rpos
  fpos : s'.world.fpos = s.world.fpos
  mem : MemLike E U s.world.data s'.world.data
  file : FileLike E U s.world.disk s'.world.disk

/-- On unlocked storages the memories are alike for the key in use. -/
theorem Mir.slike (hE : E.Lawful) (hS : Secure E U) {s s' : PState} (h : Mir E U s s') {a : AState} {pos : Origin} {p : Str} {V : Vault}
    (ho : Open E U s a pos p V) : SLike E (keyFor E.prims p (saltAt E pos)) s s' := by
  refine ⟨⟨?_, ho.store.vault.nodup, h.epoch, h.rpos, h.fpos⟩, ?_, h.key, h.hmacSecret, h.primaryPassword⟩
  · rcases h.mem with hd | ⟨pos2, p2, V2, R, hd⟩
    · rw [hd]; exact DataLike.refl _ _ _
    · rw [ho.store.key_unique hE hS R]; exact hd
  · intro key hk
    rw [ho.session.1] at hk
    exact (Option.some.inj hk).symm

/-- Writing the file. -/
theorem flush_like (hE : E.Lawful) (ho : OrderByKeys E) {k : Bytes} {w w' : World} (h : WLike E k w w') :
    ResLike Eq (Storage.flush E w).1 (Storage.flush E w').1 ∧ WLike E k (Storage.flush E w).2 (Storage.flush E w').2 ∧
    (((Storage.flush E w).2.disk = w.disk ∧ (Storage.flush E w').2.disk = w'.disk) ∨
      ∃ n, (Storage.flush E w).2.disk = some ((FileIO.contents (FileIO.entries E w)).take n) ∧
        (Storage.flush E w').2.disk = some ((FileIO.contents (FileIO.entries E w')).take n)) := by
  have hsize := (h.entries hE ho).size hE.prims
  have hrest : ∀ disk disk', WLike E k { w with fpos := w.fpos + 1, disk } { w' with fpos := w'.fpos + 1, disk := disk' } :=
    fun _ _ => ⟨h.data, h.nodup, h.epoch, h.rpos, by simp only [h.fpos]⟩
  unfold Storage.flush FileIO.flush
  simp only
  rw [h.fpos]
  cases E.fs w.fpos with
  | ok =>
    refine ⟨.ok rfl, ?_, .inr ⟨(FileIO.contents (FileIO.entries E w)).length, ?_, ?_⟩⟩
    · have := hrest (some (FileIO.contents (FileIO.entries E w))) (some (FileIO.contents (FileIO.entries E w')))
      rw [h.fpos] at this; exact this
    · simp only [List.take_length]
    · simp only [← hsize, List.take_length]
  | createDirFailure =>
    refine ⟨.err _, ?_, .inl ⟨rfl, rfl⟩⟩
    have := hrest w.disk w'.disk
    rw [h.fpos] at this; exact this
  | openFailure =>
    refine ⟨.err _, ?_, .inl ⟨rfl, rfl⟩⟩
    have := hrest w.disk w'.disk
    rw [h.fpos] at this; exact this
  | writeFailure n =>
    refine ⟨.err _, ?_, .inr ⟨n, rfl, rfl⟩⟩
    have := hrest (some ((FileIO.contents (FileIO.entries E w)).take n)) (some ((FileIO.contents (FileIO.entries E w')).take n))
    rw [h.fpos] at this; exact this

theorem ResLike.eq {α : Type} {r r' : Res α} (h : ResLike Eq r r') : r' = r := by
  cases h with
  | ok h => rw [h]
  | err e => rfl
  | panic => rfl

theorem locked_secret (hE : E.Lawful) (hS : Secure E U) {s : PState} (h : Reachable E U s) (hk : s.key = none) :
    s.hmacSecret = none ∧ s.primaryPassword = none := by
  obtain ⟨a, hrep, ha⟩ := Pfp.reach hE hS h
  have hmem := hrep.mem
  cases hm : a.mem with
  | blank => rw [hm] at hmem; exact ⟨hmem.2.2.2.1, hmem.2.2.2.2⟩
  | torn => exact absurd hm ha.1
  | store p V =>
    rw [hm] at hmem
    obtain ⟨pos, -, hses⟩ := hmem
    cases hu : a.unlocked with
    | false => rw [hu] at hses; exact hses.2
    | true => rw [hu] at hses; rw [hses.1] at hk; cases hk

theorem MemLike.get_same {d d' : Data} (h : MemLike E U d d') {key : Str} (hk : ¬isPasswordKey key) : d'.get? key = d.get? key := by
  rcases h with rfl | ⟨pos, p, V, R, hd⟩
  · rfl
  · exact hd.get_same hk

theorem not_password_salt : ¬isPasswordKey Storage.SALT_KEY := fun h => h.2.1 rfl
theorem not_password_hmac : ¬isPasswordKey Storage.HMAC_SECRET_KEY := fun h => h.2.2 rfl

theorem Spec.EvenOp.special_eq {op op' : Op} (h : EvenOp op op') (hs : special op = true) : op' = op := by
  cases h with
  | same => rfl
  | value => cases hs
  | notes => cases hs
  | code => cases hs

theorem Spec.EvenOp.special {op op' : Op} (h : EvenOp op op') : Pfp.special op' = Pfp.special op := by
  cases h <;> rfl

theorem Spec.EvenOp.changes {op op' : Op} (h : EvenOp op op') : op'.changes = op.changes := by
  cases h <;> rfl

/-- A reset in both. -/
theorem mir_reset (hE : E.Lawful) (hO : OrderByKeys E) {s s' : PState} (h : Mir E U s s') (p : Str) (hp : U.primary p)
    (hr : Reachable E U (after E s (.reset p))) : Mir E U (after E s (.reset p)) (after E s' (.reset p)) := by
  have R : RepStore E U s.world.rpos p (clearedWorld E p s.world).data .empty := cleared_rep p hp s.world
  have hw : WLike E (keyFor E.prims p (saltAt E s.world.rpos)) (clearedWorld E p s.world) (clearedWorld E p s'.world) := by
    refine ⟨?_, R.vault.nodup, ?_, ?_, ?_⟩
    · simp only [clearedWorld, h.rpos]; exact DataLike.refl _ _ _
    · simp only [clearedWorld, h.epoch]
    · simp only [clearedWorld, h.rpos]
    · simp only [clearedWorld, h.fpos]
  obtain ⟨h1, h2, h3⟩ := flush_like hE hO hw
  have hmem : (Storage.flush E (clearedWorld E p s'.world)).2.data = (Storage.flush E (clearedWorld E p s.world)).2.data := by
    rw [flush_data, flush_data]; simp only [clearedWorld, h.rpos]
  have hfile : FileLike E U (Storage.flush E (clearedWorld E p s.world)).2.disk (Storage.flush E (clearedWorld E p s'.world)).2.disk := by
    rcases h3 with ⟨h3, h4⟩ | ⟨n, h3, h4⟩
    · rw [h3, h4]; exact h.file
    · exact .inr ⟨_, p, _, _, _, n, R.perm (hE.order _ _).symm, hw.entries hE hO, h3, h4⟩
  have e := h2.epoch
  have r := h2.rpos
  have f := h2.fpos
  revert hr
  unfold after
  simp only [run, reset_eq hE]
  cases hf : Storage.flush E (clearedWorld E p s.world) with
  | mk res w =>
    cases hf' : Storage.flush E (clearedWorld E p s'.world) with
    | mk res' w' =>
      rw [hf, hf'] at h1 hmem hfile e r f
      intro hr
      cases h1 with
      | ok _ => exact ⟨hr, by simp only [h.rpos], by simp only [h.rpos], rfl, e, r, f, .inl hmem, hfile⟩
      | err _ => exact ⟨hr, h.key, h.hmacSecret, h.primaryPassword, e, r, f, .inl hmem, hfile⟩
      | panic => exact ⟨hr, h.key, h.hmacSecret, h.primaryPassword, e, r, f, .inl hmem, hfile⟩

/-- Unlocking both. -/
theorem mir_unlock {s s' : PState} (h : Mir E U s s') (p : Str)
    (hr : Reachable E U (after E s (.unlock p))) : Mir E U (after E s (.unlock p)) (after E s' (.unlock p)) := by
  have h1 : Storage.getSalt s'.world = Storage.getSalt s.world := by
    unfold Storage.getSalt FileIO.get; rw [h.mem.get_same not_password_salt]
  have h2 : ∀ k, Storage.getHmacSecret E s'.world k = Storage.getHmacSecret E s.world k := by
    intro k; unfold Storage.getHmacSecret FileIO.get; rw [h.mem.get_same not_password_hmac]
  revert hr
  unfold after
  simp only [run, Passwords.unlock, M.bind_apply, M.get_apply, M.lift_apply, h1, h2]
  cases Storage.getSalt s.world with
  | err e => exact fun _ => h
  | panic => exact fun _ => h
  | ok salt =>
    simp only
    cases getEncryptionKey E.prims p salt with
    | err e => exact fun _ => h
    | panic => exact fun _ => h
    | ok key =>
      simp only
      cases Storage.getHmacSecret E s.world key with
      | err e => exact fun _ => h
      | panic => exact fun _ => h
      | ok m => exact fun hr => ⟨hr, rfl, rfl, rfl, h.epoch, h.rpos, h.fpos, h.mem, h.file⟩

/-- Starting over in both. -/
theorem mir_reload (hE : E.Lawful) {s s' : PState} (h : Mir E U s s')
    (hr : Reachable E U (after E s .reload)) : Mir E U (after E s .reload) (after E s' .reload) := by
  have hkeep : ∀ u : PState, (∀ d, FileIO.load u.world.disk ≠ .ok d) → after E u .reload = u := by
    intro u hu
    unfold after
    simp only [run, reload]
    cases hl : FileIO.load u.world.disk with
    | ok d => exact absurd hl (hu d)
    | err e => rfl
    | panic => rfl
  have hload : ∀ (u : PState) d, FileIO.load u.world.disk = .ok d →
      after E u .reload = Passwords.new { u.world with data := d, epoch := u.world.epoch + 1 } := by
    intro u d hu
    unfold after
    simp only [run, reload, hu]
  rcases h.file.load hE.prims with ⟨d, d', h1, h2, h3⟩ | ⟨h1, h2⟩
  · rw [hload s d h1] at hr ⊢
    rw [hload s' d' h2]
    exact ⟨hr, rfl, rfl, rfl, by simp only [Passwords.new, h.epoch], h.rpos, h.fpos, h3, h.file⟩
  · rw [hkeep s h1, hkeep s' h2]; exact h

/-- A change in both. -/
theorem mir_change (hE : E.Lawful) (hS : Secure E U) (hO : OrderByKeys E) {s s' : PState} (h : Mir E U s s') {op op' : Op}
    (he : EvenOp op op') (hc : op.changes = true) {a : AState} {pos : Origin} {p : Str} {V : Vault} (ho : Open E U s a pos p V)
    (hr : Reachable E U (after E s op)) : Mir E U (after E s op) (after E s' op') ∧ ask E s' op' = ask E s op := by
  obtain ⟨h1, h2⟩ := sim_pre hE hO (keyFor_length hE.prims p (saltAt E pos)) he s s' (h.slike hE hS ho)
  obtain ⟨⟨q1, -⟩, -⟩ := quiet_pre E op s
  obtain ⟨⟨q2, -⟩, -⟩ := quiet_pre E op' s'
  obtain ⟨-, qk, -, -⟩ := quiet_pre E op s
  have hfile : FileLike E U (pre E op s).2.world.disk (pre E op' s').2.world.disk := by rw [q1, q2]; exact h.file
  -- what the state reached holds
  have hstore : ∀ t : PState, Reachable E U t → t.key = s.key → ∃ pos2 p2 V2, RepStore E U pos2 p2 t.world.data V2 ∧
      keyFor E.prims p2 (saltAt E pos2) = keyFor E.prims p (saltAt E pos) := by
    intro t ht hk
    rw [ho.session.1] at hk
    obtain ⟨a2, pos2, p2, V2, ho2⟩ := reach_open hE hS ht (by rw [hk]; rfl)
    refine ⟨pos2, p2, V2, ho2.store, ?_⟩
    have := ho2.session.1
    rw [hk] at this
    exact (Option.some.inj this).symm
  have hfail : ∀ r r', run E op s = (r, (pre E op s).2) → run E op' s' = (r', (pre E op' s').2) →
      Mir E U (after E s op) (after E s' op') := by
    intro r r' hr1 hr2
    unfold after at hr ⊢
    rw [hr1] at hr ⊢
    rw [hr2]
    obtain ⟨pos2, p2, V2, R2, hk2⟩ := hstore _ hr qk
    exact ⟨hr, h2.key, h2.hmacSecret, h2.primaryPassword, h2.world.epoch, h2.world.rpos, h2.world.fpos,
      .inr ⟨pos2, p2, V2, R2, by rw [hk2]; exact h2.world.data⟩, hfile⟩
  have hc' : op'.changes = true := by rw [he.changes]; exact hc
  rcases run_changing E op hc s with ⟨e, p1, r1⟩ | ⟨p1, r1⟩ | ⟨p1, r1⟩ <;>
    rcases run_changing E op' hc' s' with ⟨e', p2, r2⟩ | ⟨p2, r2⟩ | ⟨p2, r2⟩
  · refine ⟨hfail _ _ r1 r2, ?_⟩
    rw [p1, p2] at h1
    unfold ask
    rw [r1, r2]
    cases h1; rfl
  · rw [p1, p2] at h1; cases h1
  · rw [p1, p2] at h1; cases h1
  · rw [p1, p2] at h1; cases h1
  · refine ⟨hfail _ _ r1 r2, ?_⟩
    unfold ask
    rw [r1, r2]
  · rw [p1, p2] at h1; cases h1
  · rw [p1, p2] at h1; cases h1
  · rw [p1, p2] at h1; cases h1
  · obtain ⟨f1, f2, f3⟩ := flush_like hE hO h2.world
    unfold after ask at *
    rw [r1] at hr ⊢
    rw [r2]
    obtain ⟨pos2, p2, V2, R2, hk2⟩ := hstore _ hr qk
    refine ⟨⟨hr, h2.key, h2.hmacSecret, h2.primaryPassword, f2.epoch, f2.rpos, f2.fpos,
      .inr ⟨pos2, p2, V2, R2, by rw [hk2]; exact f2.data⟩, ?_⟩, ?_⟩
    · rcases f3 with ⟨f3, f4⟩ | ⟨n, f3, f4⟩
      · simp only [f3, f4]; exact hfile
      · refine .inr ⟨pos2, p2, V2, _, _, n, ?_, ?_, f3, f4⟩
        · simp only [flush_data] at R2
          exact R2.perm (hE.order _ _).symm
        · rw [hk2]; exact h2.world.entries hE hO
    · simp only [f1.eq]

/-- An operation in both. -/
theorem mir_step (hE : E.Lawful) (hS : Secure E U) (hO : OrderByKeys E) {s s' : PState} (h : Mir E U s s') {op op' : Op}
    (he : EvenOp op op') (hop : op.Within U) (hreset : ∀ p, op = .reset p → ask E s op = .ok .unit ∨ s.key = none) :
    Mir E U (after E s op) (after E s' op') ∧ (op.changes = true → ask E s' op' = ask E s op) := by
  have hr : Reachable E U (after E s op) := h.reach.step op hop hreset
  by_cases hsp : special op = true
  · cases he.special_eq hsp
    refine ⟨?_, fun hc => ?_⟩
    · cases op with
      | reset p => exact mir_reset hE hO h p hop hr
      | unlock p => exact mir_unlock h p hr
      | reload => exact mir_reload hE h hr
      | lock => exact ⟨hr, rfl, rfl, rfl, h.epoch, h.rpos, h.fpos, h.mem, h.file⟩
      | initialized => exact h
      | unlocked => exact h
      | _ => cases hsp
    · cases op <;> first | exact Bool.noConfusion hsp | exact Bool.noConfusion hc
  · have hsp : special op = false := by simpa using hsp
    cases hk : s.key with
    | none =>
      have hh := (locked_secret hE hS h.reach hk).1
      have e1 := run_locked E s hk hh op hsp
      have e2 := run_locked E s' (h.key.trans hk) (h.hmacSecret.trans hh) op' (by rw [he.special]; exact hsp)
      unfold after ask
      rw [e1, e2]
      refine ⟨h, fun hc => ?_⟩
      cases he with
      | same =>
        cases op with
        | getRecoveryCode => cases hc
        | _ => rfl
      | value => rfl
      | notes => rfl
      | code => cases hc
    | some k =>
      obtain ⟨a, pos, p, V, ho⟩ := reach_open hE hS h.reach (by rw [hk]; rfl)
      by_cases hc : op.changes = true
      · obtain ⟨g1, g2⟩ := mir_change hE hS hO h he hc ho hr
        exact ⟨g1, fun _ => g2⟩
      · refine ⟨?_, fun hc' => absurd hc' hc⟩
        have hsalt : Storage.getSalt s'.world = Storage.getSalt s.world := by
          unfold Storage.getSalt FileIO.get; rw [h.mem.get_same not_password_salt]
        have hcode : ∀ z z', Reachable E U (after E s (.getRecoveryCode z)) →
            Mir E U (after E s (.getRecoveryCode z)) (after E s' (.getRecoveryCode z')) := by
          intro z z' hr
          revert hr
          unfold after
          simp only [run, Passwords.getRecoveryCode, M.bind_apply, M.get_apply, M.lift_apply, hsalt, h.key, hk]
          cases Storage.getSalt s.world with
          | err e => exact fun _ => h
          | panic => exact fun _ => h
          | ok salt =>
            exact fun hr => ⟨hr, h.key, h.hmacSecret, h.primaryPassword, h.epoch, congrArg (· + 12) h.rpos, h.fpos, h.mem, h.file⟩
        cases he with
        | value => exact absurd rfl hc
        | notes => exact absurd rfl hc
        | code z z' => exact hcode z z' hr
        | same =>
          cases op with
          | getRecoveryCode z => exact hcode z z hr
          | removeSites l =>
            have hl : l = [] := by simpa [Op.changes] using hc
            subst hl
            exact h
          | reset => cases hsp
          | unlock => cases hsp
          | reload => cases hsp
          | lock => cases hsp
          | setAlias => exact absurd rfl hc
          | removeAlias => exact absurd rfl hc
          | setGenerated => exact absurd rfl hc
          | setStored => exact absurd rfl hc
          | setNotes => exact absurd rfl hc
          | remove => exact absurd rfl hc
          | _ => exact h

theorem even_mir (hE : E.Lawful) (hS : Secure E U) (hO : OrderByKeys E) {s s' : PState} (h : Even E U s s') : Mir E U s s' := by
  induction h with
  | same h => exact ⟨h, rfl, rfl, rfl, rfl, rfl, rfl, .inl rfl, .inl rfl⟩
  | meanwhile h ho hm hm' hfile hepoch hrpos hfpos ih iho =>
    refine ⟨.meanwhile ih.reach iho.reach hm, ?_, ?_, ?_, hepoch, hrpos, hfpos, ?_, ?_⟩
    · rw [hm'.key, hm.key, ih.key]
    · rw [hm'.hmacSecret, hm.hmacSecret, ih.hmacSecret]
    · rw [hm'.primaryPassword, hm.primaryPassword, ih.primaryPassword]
    · rw [hm'.data, hm.data]; exact ih.mem
    · rcases hfile with ⟨h1, h2⟩ | h1
      · rw [h1, h2]; exact iho.file
      · exact .inl h1
  | step h he hop hreset ih => exact (mir_step hE hS hO ih he hop hreset).1

end Pfp
