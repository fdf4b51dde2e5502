import Verif.Spec.Universe

/-!
# Specification: what an unlocked storage shows
-/

namespace Pfp.Spec

/-- All queries are answered according to the table `V` and the primary password `p`. -/
structure Shows (E : Env) (U : Universe) (p : Str) (V : Vault) (s : PState) : Prop where
  aliases : ∀ a, U.site a → ask E s (.getAlias a) =
    match V.sites (canonical a) with
    | some (some target) => .ok (.text target)
    | _ => .err .noSuchAlias
  has : ∀ a n r, U.site a → U.name n → U.revision r →
    ask E s (.has a n r) = .ok (.bool (V.passwords (V.idOf a n r)).isSome)
  stored : ∀ a n r v notes, U.site a → U.name n → U.revision r → V.passwords (V.idOf a n r) = some ⟨.stored v, notes⟩ →
    ask E s (.get a n r) = .ok (.text v)
  generated : ∀ a n r length charset notes, U.site a → U.name n → U.revision r →
    V.passwords (V.idOf a n r) = some ⟨.generated length charset, notes⟩ →
    ask E s (.get a n r) = (deriveWith E.prims p (V.idOf a n r) length charset).map .text
  notes : ∀ a n r e, U.site a → U.name n → U.revision r → V.passwords (V.idOf a n r) = some e →
    ask E s (.getNotes a n r) = .ok (.text e.notes)
  missing : ∀ a n r, U.site a → U.name n → U.revision r → V.passwords (V.idOf a n r) = none →
    ask E s (.get a n r) = .err .keyMissing ∧ ask E s (.getNotes a n r) = .err .keyMissing
  sites : ∀ q, ∃ l, ask E s (.listSites q) = .ok (.sites l) ∧ l.Nodup ∧ ∀ x : Site, x ∈ l ↔
    V.sites x.name = some x.alias ∧
      (E.wild q x.name = true ∨ ∃ target, x.alias = some target ∧ E.wild q target = true)
  passwords : ∀ a q, U.site a → ∃ l, ask E s (.list a q) = .ok (.passwords l) ∧ l.Nodup ∧ ∀ x, x ∈ l ↔
    ∃ i e, V.passwords i = some e ∧ x = Vault.record i e ∧ i.site = V.resolve a ∧ E.wild q i.name = true

end Pfp.Spec
