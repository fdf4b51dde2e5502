import Verif.Proofs.SoundReach
import Verif.Proofs.ToyEnv
import Verif.Props.Session

/-!
# The toy environment for examples about the application
-/

namespace Pfp.Toy
open Spec Cli

def cenv : CEnv := ⟨env, fun _ => none, c!"storage.json", fun _ _ lines => some (b!"#V2\n" ++ (lines.flatMap fun l => utf8 l ++ [10]))⟩

theorem start_sound : SoundReachable env univ start := .start start_initial

theorem fresh_sound : SoundReachable env univ fresh :=
  .step start_sound _ (by show _ ∈ primaries; decide) trivial (fun _ _ => .inl reset_ok)

theorem one_sound : SoundReachable env univ one := .step fresh_sound _ ⟨site_a, name_u, revision_nil⟩ trivial (by simp)

theorem two_sound : SoundReachable env univ two := .step one_sound _ ⟨site_b, site_a⟩ trivial (by simp)

/-- The storage with one password, locked; the user is going to enter three lines and to answer no. -/
def locked : CState where
  ps := after env one .lock
  secrets := [c!"short", c!"secret2", c!"  secret1 "]
  confirms := [false]
  answers := []
  out := []
  errors := []

theorem locked_sound : SoundReachable env univ locked.ps := .step one_sound .lock trivial trivial (by simp)

theorem locked_initialized : Passwords.initialized locked.ps = true := by
  obtain ⟨a, pos, ho⟩ := one_open
  show Storage.initialized one.world = true
  unfold Storage.initialized FileIO.containsKey Data.contains
  simp only [Bool.and_eq_true]
  have h1 := ho.store.salt
  have h2 := ho.store.secret
  rw [h1, h2]
  exact ⟨rfl, rfl⟩

theorem locked_unlock : ask env locked.ps (.unlock (c!"secret1")) = .ok .unit ∧
    (after env locked.ps (.unlock (c!"secret1"))).key.isSome = true ∧
    ask env locked.ps (.unlock (c!"secret2")) = .err .decryptionFailure := by
  obtain ⟨h1, h2, h3⟩ := Props.C33_exactly_the_password env_lawful secure start (c!"secret1")
    (by show _ ∈ primaries; decide) reset_ok [.setStored (c!"a") (c!"u") [] (c!"x"), .lock] (by
      intro op hop
      simp only [List.mem_cons, List.not_mem_nil, or_false] at hop
      rcases hop with rfl | rfl
      · exact ⟨site_a, name_u, revision_nil⟩
      · trivial) (by
      intro op hop
      simp only [List.mem_cons, List.not_mem_nil, or_false] at hop
      rcases hop with rfl | rfl <;> simp)
  exact ⟨h1, h2, congrArg Prod.fst (h3 (c!"secret2") (by show _ ∈ primaries; decide) (by decide))⟩

theorem locked_accepted : Accepted env locked.ps (c!"  secret1 ") := ⟨by decide, locked_unlock.1⟩

theorem locked_refused : ∀ line ∈ [c!"short", c!"secret2"], Refused env locked.ps line := by
  intro line hl
  simp only [List.mem_cons, List.not_mem_nil, or_false] at hl
  rcases hl with rfl | rfl
  · exact .inl (by decide)
  · exact .inr ⟨_, locked_unlock.2.2⟩

/-- The same storage, unlocked. -/
def unlocked : CState := { locked with ps := one }

theorem unlocked_initialized : Passwords.initialized unlocked.ps = true := locked_initialized

theorem lines : LinesWithin univ locked.secrets := by
  intro line hl h6
  have hl : line ∈ [c!"short", c!"secret2", c!"  secret1 "] := hl
  simp only [List.mem_cons, List.not_mem_nil, or_false] at hl
  rcases hl with rfl | rfl | rfl
  · exact absurd h6 (by decide)
  · show _ ∈ primaries; decide
  · show _ ∈ primaries; decide

/-- A storage with an alias of a site that is not known. -/
def dangling : PState := after env fresh (.setAlias (c!"a") (c!"b"))

theorem dangling_effect : ask env fresh (.setAlias (c!"a") (c!"b")) = .ok .unit ∧
    ∃ a pos, Open env univ dangling a pos (c!"secret1") (Vault.empty.link (c!"a") (c!"b")) := by
  obtain ⟨a, pos, ho⟩ := fresh_open
  refine (ho.setAlias env_lawful secure (x := c!"a") (y := c!"b") ⟨site_a, site_b⟩ ?_ (by decide)).ok rfl
  rintro ⟨i, e, h1, h2⟩
  cases h1

theorem dangling_sound : SoundReachable env univ dangling := .step fresh_sound _ ⟨site_a, site_b⟩ trivial (by simp)

/-- A storage with an alias of an alias. -/
def chain : PState := after env dangling (.setAlias (c!"b") (c!"c"))

theorem chain_effect : ask env dangling (.setAlias (c!"b") (c!"c")) = .ok .unit ∧
    ∃ a pos, Open env univ chain a pos (c!"secret1") ((Vault.empty.link (c!"a") (c!"b")).link (c!"b") (c!"c")) := by
  obtain ⟨-, a, pos, ho⟩ := dangling_effect
  refine (ho.setAlias env_lawful secure (x := c!"b") (y := c!"c") ⟨site_b, site_c⟩ ?_ (by decide)).ok rfl
  rintro ⟨i, e, h1, h2⟩
  cases h1

theorem chain_sound : SoundReachable env univ chain := .step dangling_sound _ ⟨site_b, site_c⟩ trivial (by simp)

theorem site_wwwwww : univ.site (c!"www.www.a") := by show _ ∈ sites; decide

/-- A storage with a password for the site "www.www.a". -/
def www : PState := after env fresh (.setStored (c!"www.www.a") (c!"u") [] (c!"x"))

theorem www_open : ∃ a pos, Open env univ www a pos (c!"secret1")
    ((Vault.empty.know (c!"www.a")).put ⟨c!"www.a", c!"u", []⟩ ⟨.stored (c!"x"), []⟩) := by
  obtain ⟨a, pos, ho⟩ := fresh_open
  exact ((ho.setStored env_lawful secure (c!"x") ⟨site_wwwwww, name_u, revision_nil⟩).ok rfl).2

theorem www_sound : SoundReachable env univ www := .step fresh_sound _ ⟨site_wwwwww, name_u, revision_nil⟩ trivial (by simp)

/-- A storage with two passwords with the same sort text. -/
def tied : PState := after env (after env fresh (.setStored (c!"a") (c!"u v") (c!"w") (c!"x"))) (.setStored (c!"a") (c!"u") (c!"v w") (c!"y"))

theorem tied_open : ∃ a pos, Open env univ tied a pos (c!"secret1")
    (((((Vault.empty.know (c!"a")).put ⟨c!"a", c!"u v", c!"w"⟩ ⟨.stored (c!"x"), []⟩)).know (c!"a")).put
      ⟨c!"a", c!"u", c!"v w"⟩ ⟨.stored (c!"y"), []⟩) := by
  have hn : univ.name (c!"u v") := by show _ ∈ names; decide
  have hr : univ.revision (c!"w") := by show _ ∈ revisions; decide
  have hr' : univ.revision (c!"v w") := by show _ ∈ revisions; decide
  obtain ⟨a, pos, ho⟩ := fresh_open
  obtain ⟨a, pos, ho⟩ := ((ho.setStored env_lawful secure (c!"x") ⟨site_a, hn, hr⟩).ok rfl).2
  exact ((ho.setStored env_lawful secure (c!"y") ⟨site_a, name_u, hr'⟩).ok rfl).2

end Pfp.Toy
