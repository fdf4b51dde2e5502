import Verif.Proofs.Toy
import Verif.Proofs.Effects
import Verif.Model.Wild

/-!
# A toy environment

Used only in examples, to show that the hypotheses of the theorems about histories can be met together.
-/

namespace Pfp.Toy

open Spec

/-- An environment with the toy primitives in which writing always works. -/
def env : Env where
  prims := toyPrims
  rand n := UInt8.ofNat n
  fs _ := .ok
  order _ d := d.reverse
  wild := wildMatch
  overflowChecks := false

theorem wild_star (t : Str) : env.wild (c!"*") t = true := by
  show (List.range (t.length + 1)).any _ = true
  rw [List.any_eq_true]
  exact ⟨t.length, by simp, by simp [wildMatch]⟩

theorem env_lawful : env.Lawful := ⟨toyPrims_lawful, fun _ d => List.reverse_perm d⟩

def sites : List Str := [c!"a", c!"b", c!"c", c!"www.a", c!"www.www.a"]
def names : List Str := [c!"u", c!"v", c!"u v"]
def revisions : List Str := [[], c!"1", c!"2", c!"w", c!"v w"]
def primaries : List Str := [c!"secret1", c!"secret2"]

/-- A small universe, with any files of other programs that are wanted. -/
def univWith (foreign : ForeignSecrets → Prop) : Universe where
  site s := s ∈ sites
  name s := s ∈ names
  revision s := s ∈ revisions
  primary s := s ∈ primaries
  site_nul := by decide
  name_nul := by decide
  site_canonical := by decide
  revision_nil := by decide
  foreign := foreign

/-- A small universe without files of other programs. -/
def univ : Universe := univWith fun _ => False

/-- A small universe with all files of other programs. -/
def openUniv : Universe := univWith fun _ => True

theorem decrypt_other {k k' n m : Bytes} (h : tag k ≠ tag k') :
    toyPrims.gcmDecrypt k' n (toyPrims.gcmEncrypt k n m) = none := by
  have hlen : (tag k).length = 16 := by simp [tag]
  simp [toyPrims, hlen, h]

theorem secureWith (foreign : ForeignSecrets → Prop) : Secure env (univWith foreign) where
  collisionFree o _ := by
    constructor
    · have : ∀ s ∈ sites, ∀ s' ∈ sites, toyPrims.hmac [] (utf8 s) = toyPrims.hmac [] (utf8 s') → s = s' := by
        decide +kernel
      exact fun s s' hs hs' h => this s hs s' hs' h
    · have : ∀ s ∈ sites, ∀ n ∈ names, ∀ r ∈ revisions, ∀ s' ∈ sites, ∀ n' ∈ names, ∀ r' ∈ revisions,
          toyPrims.hmac [] (utf8 (idText ⟨s, n, r⟩)) = toyPrims.hmac [] (utf8 (idText ⟨s', n', r'⟩)) →
          idText ⟨s, n, r⟩ = idText ⟨s', n', r'⟩ := by
        decide +kernel
      intro i i' hi hi' h
      obtain ⟨s, n, r⟩ := i
      obtain ⟨s', n', r'⟩ := i'
      exact this s hi.1 n hi.2.1 r hi.2.2 s' hi'.1 n' hi'.2.1 r' hi'.2.2 h
  wrongPassword o _ p p' hp hp' hne := by
    have : ∀ p ∈ primaries, ∀ p' ∈ primaries, p ≠ p' →
        tag (toyPrims.scrypt (utf8 p) [] 32) ≠ tag (toyPrims.scrypt (utf8 p') [] 32) := by
      decide +kernel
    have hk : ∀ q salt, keyFor env.prims q salt = toyPrims.scrypt (utf8 q) [] 32 := fun q salt => rfl
    exact decrypt_other (by rw [hk, hk]; exact this p hp p' hp' hne)

theorem secure : Secure env univ := secureWith _

theorem openSecure : Secure env openUniv := secureWith _

theorem univ_own : univ.Own := fun _ h => h

/-- A program start without storage file. -/
def start : PState := Passwords.new { data := [], epoch := 0, disk := none, rpos := 0, fpos := 0 }

theorem start_initial : Initial start := ⟨rfl, rfl, rfl, rfl, .inl rfl⟩

/-- The storage after `reset`. -/
def fresh : PState := after env start (.reset (c!"secret1"))

theorem reset_ok : ask env start (.reset (c!"secret1")) = .ok .unit := by
  simp only [ask, run]
  rw [reset_eq env_lawful]
  rfl

theorem fresh_reachable : Reachable env univ fresh :=
  .step (.start start_initial) _ (by show _ ∈ primaries; decide) (fun _ _ => .inl reset_ok)

theorem fresh_unlocked : fresh.key.isSome = true := by
  simp only [fresh, after, run]
  rw [reset_eq env_lawful]
  rfl

theorem fresh_open : ∃ a pos, Open env univ fresh a pos (c!"secret1") .empty := by
  obtain ⟨wr, h1, _, h3⟩ := step env_lawful secure (initial_rep (U := univ) start_initial) (.reset (c!"secret1"))
    (by show _ ∈ primaries; decide)
  have hw : wr = .ok := h1
  subst hw
  obtain ⟨pos, R, hses⟩ := h3.mem
  exact ⟨_, pos, h3, ⟨by simp [astep, AState.afterReset], by simp [astep, AState.afterReset]⟩, rfl, rfl, R, hses⟩

theorem site_a : univ.site (c!"a") := by show _ ∈ sites; decide
theorem site_b : univ.site (c!"b") := by show _ ∈ sites; decide
theorem site_c : univ.site (c!"c") := by show _ ∈ sites; decide
theorem site_www : univ.site (c!"www.a") := by show _ ∈ sites; decide
theorem name_u : univ.name (c!"u") := by show _ ∈ names; decide
theorem name_v : univ.name (c!"v") := by show _ ∈ names; decide
theorem revision_nil : univ.revision [] := by show _ ∈ revisions; decide
theorem revision_1 : univ.revision (c!"1") := by show _ ∈ revisions; decide
theorem revision_2 : univ.revision (c!"2") := by show _ ∈ revisions; decide

/-- A storage with one password: site "a", name "u", value "x". -/
def one : PState := after env fresh (.setStored (c!"a") (c!"u") [] (c!"x"))

theorem one_ok : ask env fresh (.setStored (c!"a") (c!"u") [] (c!"x")) = .ok .unit := by
  obtain ⟨a, pos, ho⟩ := fresh_open
  exact ((ho.setStored env_lawful secure (c!"x") ⟨site_a, name_u, revision_nil⟩).ok rfl).1

theorem one_reachable : Reachable env univ one :=
  .step fresh_reachable _ ⟨site_a, name_u, revision_nil⟩ (by simp)

theorem one_open : ∃ a pos, Open env univ one a pos (c!"secret1")
    ((Vault.empty.know (c!"a")).put ⟨c!"a", c!"u", []⟩ ⟨.stored (c!"x"), []⟩) := by
  obtain ⟨a, pos, ho⟩ := fresh_open
  exact ((ho.setStored env_lawful secure (c!"x") ⟨site_a, name_u, revision_nil⟩).ok rfl).2

theorem one_unlocked : one.key.isSome = true := by
  obtain ⟨a, pos, ho⟩ := one_open
  rw [ho.session.1]; rfl

theorem one_has : ask env one (.has (c!"a") (c!"u") []) = .ok (.bool true) := by
  obtain ⟨a, pos, ho⟩ := one_open
  rw [ho.ask_has env_lawful secure site_a name_u revision_nil]
  rfl

theorem one_has_not : ask env one (.has (c!"a") (c!"v") []) = .ok (.bool false) := by
  obtain ⟨a, pos, ho⟩ := one_open
  rw [ho.ask_has env_lawful secure site_a name_v revision_nil]
  rfl

/-- A storage with one password and the alias "b" of its site. -/
def two : PState := after env one (.setAlias (c!"b") (c!"a"))

theorem two_effect : ask env one (.setAlias (c!"b") (c!"a")) = .ok .unit ∧ ∃ a pos, Open env univ two a pos (c!"secret1")
    (((Vault.empty.know (c!"a")).put ⟨c!"a", c!"u", []⟩ ⟨.stored (c!"x"), []⟩).link (c!"b") (c!"a")) := by
  obtain ⟨a, pos, ho⟩ := one_open
  refine (ho.setAlias env_lawful secure (x := c!"b") (y := c!"a") ⟨site_b, site_a⟩ ?_ (by decide)).ok rfl
  rintro ⟨i, e, h1, h2⟩
  simp only [Vault.put, update, know_passwords] at h1
  split at h1
  · rename_i h
    rw [h] at h2
    exact absurd h2 (by decide)
  · cases h1

theorem two_reachable : Reachable env univ two := .step one_reachable _ ⟨site_b, site_a⟩ (by simp)

theorem two_unlocked : two.key.isSome = true := by
  obtain ⟨_, a, pos, ho⟩ := two_effect
  rw [ho.session.1]; rfl

theorem two_alias : ask env two (.getAlias (c!"b")) = .ok (.text (c!"a")) := by
  obtain ⟨_, a, pos, ho⟩ := two_effect
  rw [ho.ask_getAlias env_lawful secure site_b]
  rfl

end Pfp.Toy
