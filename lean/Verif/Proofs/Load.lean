import Verif.Proofs.Serde
import Verif.Spec.Files

/-!
# Loading storage files
-/

namespace Pfp
open Spec

theorem dataFromMembers_some : ∀ (l : List (JKey × Json)) (acc : Data), (∀ m ∈ l, ∃ s, m.2 = .str s) →
    ∃ d, FileIO.dataFromMembers acc l = some d ∧ ∀ k, d.get? k = (lastValue l k).or (acc.get? k)
  | [], acc, _ => ⟨acc, rfl, fun k => rfl⟩
  | (k', v) :: l, acc, h => by
    obtain ⟨s, hs⟩ := h (k', v) (by simp)
    simp only at hs
    subst hs
    obtain ⟨d, h1, h2⟩ := dataFromMembers_some l (acc.insert k'.str s) (fun m hm => h m (by simp [hm]))
    refine ⟨d, by simpa [FileIO.dataFromMembers, Serde.asStr] using h1, ?_⟩
    intro k
    rw [h2 k, Data.get?_insert]
    cases hf : l.reverse.find? (fun m => decide (m.1.str = k)) with
    | none =>
      by_cases hk : k = k'.str
      · subst hk; simp [lastValue, List.find?_append, hf]
      · simp [lastValue, List.find?_append, hf, Ne.symm hk, hk]
    | some m =>
      obtain ⟨s', hs'⟩ := h m (by simp [List.mem_reverse.mp (List.mem_of_find?_eq_some hf)])
      obtain ⟨mk, mv⟩ := m
      simp only at hs'
      subst hs'
      simp [lastValue, List.find?_append, hf]

theorem required_of_perm {k : Str} {v : Json} {a : JKey} {l l' : List (JKey × Json)} (h : l.Perm l')
    (h' : l'.filter (fun m => m.1.str = k) = [(a, v)]) : Serde.required k l = some v := by
  have := (h.filter (fun m => decide (m.1.str = k)))
  rw [h'] at this
  unfold Serde.required Serde.valuesOf
  rw [List.perm_singleton.mp this]
  rfl

theorem dataFromMembers_nodup : ∀ (l : List (JKey × Json)) (acc d : Data), (acc.map (·.1)).Nodup →
    FileIO.dataFromMembers acc l = some d → (d.map (·.1)).Nodup
  | [], acc, d, h, hd => by
    simp only [FileIO.dataFromMembers, Option.some.injEq] at hd
    exact hd ▸ h
  | (k', v) :: l, acc, d, h, hd => by
    rw [FileIO.dataFromMembers] at hd
    cases v with
    | str s => exact dataFromMembers_nodup l (acc.insert k'.str s) d (Data.insert_nodup _ _ h) (by simpa [Serde.asStr] using hd)
    | _ => simp [Serde.asStr] at hd

theorem storages_load (text : Str) (j : Json) (members : List (JKey × Json)) (hp : Json.parse text = some j)
    (hj : IsStorage j members) :
    ∃ d, FileIO.load (some (utf8 text)) = .ok d ∧ (d.map (·.1)).Nodup ∧ ∀ k, d.get? k = lastValue members k := by
  have hlast : ∀ (d : Data), (∀ k, d.get? k = (lastValue members k).or (Data.get? [] k)) →
      ∀ k, d.get? k = lastValue members k := by
    intro d h k
    rw [h k]
    simp [Data.get?]
  unfold FileIO.load
  simp only [fromUtf8_utf8, hp, bind, Option.bind]
  cases hj with
  | object l _ a f x ha hf hd hl ht =>
    obtain ⟨d, h1, h2⟩ := dataFromMembers_some members [] ht
    refine ⟨d, ?_, dataFromMembers_nodup members [] d (by simp) h1, hlast d h2⟩
    have r1 : Serde.required (c!"application") l = some (.str (c!"pfp")) := by
      refine required_of_perm (a := a) hl ?_
      simp [ha, hf, hd]
    have r2 : Serde.required (c!"format") l = some (.num (.uint 3)) := by
      refine required_of_perm (a := f) hl ?_
      simp [ha, hf, hd]
    have r3 : Serde.required (c!"data") l = some (.obj members) := by
      refine required_of_perm (a := x) hl ?_
      simp [ha, hf, hd]
    have hw : Serde.without [c!"application", c!"format", c!"data"] l = [] := by
      have := hl.filter (fun m => decide (m.1.str ∉ [c!"application", c!"format", c!"data"]))
      have e : [((a, Json.str (c!"pfp")) : JKey × Json), (f, .num (.uint 3)), (x, .obj members)].filter
          (fun m => decide (m.1.str ∉ [c!"application", c!"format", c!"data"])) = [] := by
        simp [ha, hf, hd]
      rw [e] at this
      exact List.perm_nil.mp this
    simp only [FileIO.fromJson]
    rw [if_neg (by rw [hw]; simp), r1, r2, r3]
    simp [FileIO.applicationFromJson, FileIO.formatFromJson, Serde.asStr, Serde.asU8, FileIO.dataFromJson, h1]
  | array _ ht =>
    obtain ⟨d, h1, h2⟩ := dataFromMembers_some members [] ht
    refine ⟨d, ?_, dataFromMembers_nodup members [] d (by simp) h1, hlast d h2⟩
    simp [FileIO.fromJson, FileIO.applicationFromJson, FileIO.formatFromJson, Serde.asStr, Serde.asU8,
      FileIO.dataFromJson, h1]

end Pfp
