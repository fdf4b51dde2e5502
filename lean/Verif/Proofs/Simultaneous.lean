import Verif.Spec.Simultaneous
import Verif.Proofs.Sizes
import Verif.Proofs.JsonText
import Verif.Props.Contents
import Verif.Props.Published

/-!
# Files written over longer files
-/

namespace Pfp
open Spec Json

variable {E : Env} {U : Universe}

/-- Text without white space. -/
def Solid (t : Str) : Prop := ∀ c ∈ t, isWs c = false

instance (t : Str) : Decidable (Solid t) := inferInstanceAs (Decidable (∀ c ∈ t, isWs c = false))

/-- The bytes of white space. -/
def wsBytes : List UInt8 := [9, 10, 13, 32]

theorem Solid.append {s t : Str} (hs : Solid s) (ht : Solid t) : Solid (s ++ t) := by
  intro c hc
  rcases List.mem_append.mp hc with h | h
  · exact hs c h
  · exact ht c h

theorem Solid.cons {c : Char} {t : Str} (hc : isWs c = false) (ht : Solid t) : Solid (c :: t) := by
  intro x hx
  rcases List.mem_cons.mp hx with h | h
  · rw [h]; exact hc
  · exact ht x h

theorem solid_hexDigit : ∀ n, n < 16 → isWs (hexDigit n) = false := by decide

theorem solid_escapeChar {c : Char} (h : isWs c = false) : Solid (escapeChar c) := by
  unfold escapeChar
  split; · decide
  split; · decide
  split; · decide
  split; · decide
  split; · decide
  split; · decide
  split; · decide
  split
  · exact .cons (by decide) (.cons (by decide) (.cons (by decide) (.cons (by decide)
      (.cons (solid_hexDigit _ (by omega)) (.cons (solid_hexDigit _ (by omega)) (by intro _ h; cases h))))))
  · exact .cons h (by intro _ h; cases h)

theorem solid_printStr {s : Str} (h : Solid s) : Solid (printStr s) := by
  refine .cons (by decide) (.append ?_ (by decide))
  intro c hc
  obtain ⟨x, hx, hc⟩ := List.mem_flatMap.mp hc
  exact solid_escapeChar (h x hx) c hc

theorem solid_members : ∀ {es : Data}, (∀ e ∈ es, Solid e.1 ∧ Solid e.2) →
    Solid (printMembers (es.map fun e => Serde.member e.1 (.str e.2)))
  | [], _ => by intro _ h; cases h
  | [e], h => by
    have := h e (by simp)
    exact .append (solid_printStr this.1) (.cons (by decide) (solid_printStr this.2))
  | e :: e' :: es, h => by
    have h1 := h e (by simp)
    have h2 := solid_members (es := e' :: es) fun x hx => h x (List.mem_cons_of_mem _ hx)
    exact .append (solid_printStr h1.1) (.cons (by decide) (.append (solid_printStr h1.2) (.cons (by decide) h2)))

theorem solid_file {es : Data} (h : ∀ e ∈ es, Solid e.1 ∧ Solid e.2) : Solid (print (FileIO.toJson es)) := by
  simp only [FileIO.toJson, Serde.member, print, printMembers]
  repeat' first
    | decide
    | exact solid_members h
    | apply Solid.cons
    | apply Solid.append

theorem utf8_ws {c : Char} (h : isWs c = true) : ∃ b, utf8Char c = [b] ∧ b ∈ wsBytes := by
  rcases (isWs_iff c).mp h with rfl | rfl | rfl | rfl <;> exact ⟨_, rfl, by decide⟩

theorem ofNat_high {n : Nat} (h1 : 128 ≤ n) (h2 : n < 256) : UInt8.ofNat n ∉ wsBytes := by
  intro h
  have h3 : (UInt8.ofNat n).toNat = n := by simp [UInt8.toNat_ofNat']; omega
  simp only [wsBytes, List.mem_cons, List.not_mem_nil, or_false] at h
  rcases h with h | h | h | h <;> rw [h] at h3 <;> simp at h3 <;> omega

theorem utf8_not_ws {c : Char} (h : isWs c = false) : ∀ b ∈ utf8Char c, b ∉ wsBytes := by
  have hlt := scalar_lt c
  intro b hb
  unfold utf8Char at hb
  simp only at hb
  split at hb
  · rename_i hn
    rw [List.mem_singleton] at hb
    subst hb
    intro hw
    have h3 : (UInt8.ofNat c.toNat).toNat = c.toNat := by simp [UInt8.toNat_ofNat']; omega
    have h4 : c.toNat = 9 ∨ c.toNat = 10 ∨ c.toNat = 13 ∨ c.toNat = 32 := by
      simp only [wsBytes, List.mem_cons, List.not_mem_nil, or_false] at hw
      rcases hw with h | h | h | h <;> rw [h] at h3 <;> simp at h3 <;> omega
    have h5 : isWs c = true := by
      rw [isWs_iff]
      rcases h4 with h | h | h | h
      · exact .inr (.inl (char_of_toNat h))
      · exact .inr (.inr (.inl (char_of_toNat h)))
      · exact .inr (.inr (.inr (char_of_toNat h)))
      · exact .inl (char_of_toNat h)
    rw [h] at h5; cases h5
  all_goals
    split at hb <;>
    first
    | (simp only [List.mem_cons, List.not_mem_nil, or_false] at hb
       rcases hb with rfl | rfl <;> exact ofNat_high (by omega) (by omega))
    | (split at hb
       · simp only [List.mem_cons, List.not_mem_nil, or_false] at hb
         rcases hb with rfl | rfl | rfl <;> exact ofNat_high (by omega) (by omega)
       · simp only [List.mem_cons, List.not_mem_nil, or_false] at hb
         rcases hb with rfl | rfl | rfl | rfl <;> exact ofNat_high (by omega) (by omega))

theorem solid_utf8 {t : Str} : Solid t ↔ ∀ b ∈ utf8 t, b ∉ wsBytes := by
  constructor
  · intro h b hb
    obtain ⟨c, hc, hb⟩ := List.mem_flatMap.mp hb
    exact utf8_not_ws (h c hc) b hb
  · intro h c hc
    cases hw : isWs c with
    | false => rfl
    | true =>
      obtain ⟨b, h1, h2⟩ := utf8_ws hw
      exact absurd h2 (h b (List.mem_flatMap.mpr ⟨c, hc, by rw [h1]; simp⟩))

/-- A complete file with something else behind it, which is not white space, cannot be loaded. -/
theorem load_tail (es : Data) {z : Bytes} (hz : z ≠ []) (hs : ∀ b ∈ z, b ∉ wsBytes) :
    Unreadable (some (FileIO.contents es ++ z)) := by
  unfold Unreadable FileIO.load
  simp only
  cases hu : fromUtf8 (FileIO.contents es ++ z) with
  | none => left; rfl
  | some T =>
    right
    have hT := utf8_of_fromUtf8 _ _ hu
    obtain ⟨t, ht⟩ := prefix_of_utf8_prefix (s := T) (t := print (FileIO.toJson es)) (by rw [hT]; exact List.prefix_append _ _)
    have htz : utf8 t = z := by
      rw [← ht, utf8_append] at hT
      exact List.append_cancel_left hT
    have hsolid : Solid t := solid_utf8.mpr (by rw [htz]; exact hs)
    have hne : t ≠ [] := by
      rintro rfl
      exact hz htz.symm
    have hr := FileIO.reads_file es
    have h1 := hr.2 (2 * (print (FileIO.toJson es)).length) [] (by omega) rfl
    rw [List.append_nil] at h1
    have h2 := (extend t _).1 128 _ _ _ (2 * T.length + 2) (by rw [← ht]; simp; omega) h1 (.inr fun n hn => by cases hn)
    rw [ht, List.nil_append] at h2
    have h3 : parse T = none := by
      unfold parse
      simp only [h2, bind, Option.bind]
      rw [if_neg]
      cases t with
      | nil => exact absurd rfl hne
      | cons c t => rw [skipWs_of_not_ws (hsolid c (by simp))]; simp
    simp only [h3, bind, Option.bind]
    rfl

theorem load_empty : Unreadable (some []) := .inr rfl

/-! ## What the program writes contains no white space -/

theorem solid_b64 : ∀ c ∈ Base64.alphabet ++ ['=', '_'], isWs c = false := by decide

theorem solid_encode (b : Bytes) : Solid (Base64.encode b) := fun c hc => solid_b64 c (encode_chars b c hc)

theorem solid_sealText (P : Prims) (k nonce : Bytes) (text : Str) : Solid (sealText P k nonce text) :=
  (solid_encode _).append (.cons (by decide) (solid_encode _))

theorem solid_siteKey (E : Env) (x : Str) (h : Bytes) : Solid (Storage.siteKey E x h) :=
  .append (by decide) (solid_encode _)

theorem solid_passwordKey (E : Env) (i : PasswordId) (h : Bytes) : Solid (Storage.passwordKey E i h) :=
  ((solid_siteKey E _ h).append (by decide)).append (solid_encode _)

theorem RepStore.solid {pos : Origin} {p : Str} {d : Data} {V : Vault} (R : RepStore E U pos p d V) :
    ∀ e ∈ d, Solid e.1 ∧ Solid e.2 := by
  intro ⟨key, v⟩ he
  have hg := (Data.get?_iff R.vault.nodup).mpr he
  rcases R.vault.only key v hg with rfl | rfl | ⟨x, t, h1, rfl⟩ | ⟨i, e, h1, rfl⟩
  · rw [R.salt] at hg
    cases hg
    exact ⟨(by decide : Solid Storage.SALT_KEY), solid_encode _⟩
  · rw [R.secret] at hg
    cases hg
    exact ⟨(by decide : Solid Storage.HMAC_SECRET_KEY), solid_sealText _ _ _ _⟩
  · obtain ⟨-, -, w, h2, nonce, text, -, h3, -⟩ := R.vault.site_in x t h1
    rw [h2] at hg
    cases hg
    exact ⟨solid_siteKey E x _, by rw [h3]; exact solid_sealText _ _ _ _⟩
  · obtain ⟨-, w, h2, nonce, text, -, h3, -⟩ := R.vault.password_in i e h1
    rw [h2] at hg
    cases hg
    exact ⟨solid_passwordKey E i _, by rw [h3]; exact solid_sealText _ _ _ _⟩

theorem RepStore.solid_contents {pos : Origin} {p : Str} {d : Data} {V : Vault} (R : RepStore E U pos p d V) :
    ∀ b ∈ FileIO.contents d, b ∉ wsBytes := solid_utf8.mp (solid_file R.solid)

/-- What writing leaves. -/
theorem flush_file (E : Env) (w : World) : (Storage.flush E w).2.disk = w.disk ∨
    ∃ n, (Storage.flush E w).2.disk = some ((FileIO.contents (FileIO.entries E w)).take n) := by
  unfold Storage.flush FileIO.flush
  simp only
  cases E.fs w.fpos with
  | ok => exact .inr ⟨(FileIO.contents (FileIO.entries E w)).length, by simp⟩
  | createDirFailure => exact .inl rfl
  | openFailure => exact .inl rfl
  | writeFailure n => exact .inr ⟨n, rfl⟩

/-- An operation leaves the file as it is, or writes some part of the contents of a storage. -/
theorem file_after (hE : E.Lawful) (hS : Secure E U) {s : PState} (h : Reachable E U s) (op : Op) (hop : op.Within U)
    (hreset : ∀ p, op = .reset p → ask E s op = .ok .unit ∨ s.key = none) :
    (after E s op).world.disk = s.world.disk ∨
    ∃ pos p d V n, RepStore E U pos p d V ∧ (after E s op).world.disk = some ((FileIO.contents d).take n) := by
  by_cases hr : ∃ p, op = .reset p
  · obtain ⟨p, rfl⟩ := hr
    rw [Props.reset_world hE]
    rcases flush_file E (clearedWorld E p s.world) with h1 | ⟨n, h1⟩
    · left; rw [h1]; rfl
    · right
      have R : RepStore E U s.world.rpos p (clearedWorld E p s.world).data .empty := cleared_rep p hop s.world
      exact ⟨_, _, _, _, n, R.perm (hE.order _ _).symm, h1⟩
  by_cases hc : op.changes = true
  · have hs' : Reachable E U (after E s op) := h.step op hop hreset
    obtain ⟨⟨q1, -⟩, qk, -, -⟩ := quiet_pre E op s
    cases hk : s.key with
    | none =>
      have hsp : special op = false := by cases op <;> first | rfl | exact Bool.noConfusion hc
      left
      rw [after, run_locked E s hk (locked_secret hE hS h hk).1 op hsp]
    | some k =>
      rcases run_changing E op hc s with ⟨e, -, h1⟩ | ⟨-, h1⟩ | ⟨-, h1⟩
      · left; rw [after, h1]; exact q1
      · left; rw [after, h1]; exact q1
      · have hkey : (after E s op).key = s.key := by rw [after, h1]; exact qk
        obtain ⟨a, pos, p, V, ho⟩ := reach_open hE hS hs' (by rw [hkey, hk]; rfl)
        have R := ho.store
        rw [after, h1] at R ⊢
        simp only [flush_data] at R
        rcases flush_file E (pre E op s).2.world with h2 | ⟨n, h2⟩
        · left; rw [h2]; exact q1
        · right; exact ⟨_, _, _, _, n, R.perm (hE.order _ _).symm, h2⟩
  · left
    exact Props.disk_unchanged s op (by simpa using hc) fun p hp => hr ⟨p, hp⟩

end Pfp
