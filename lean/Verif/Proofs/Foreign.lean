import Verif.Proofs.Simulation
import Verif.Proofs.Load
import Verif.Proofs.Bits

/-!
# Storage files of other programs
-/

namespace Pfp
open Spec

variable {E : Env} {U : Universe}

theorem publishedKey_eq (P : Prims) (p : Str) (salt : Bytes) : publishedKey P p salt = keyFor P p salt := by
  unfold publishedKey keyFor Prims.scrypt
  congr 1
  unfold utf8
  rw [List.flatMap_map]
  simp [byteChar]

theorem own_drawn (hO : U.Own) {o : Origin} (h : o.Within U) : ∃ pos, o = .drawn pos := by
  cases o with
  | drawn pos => exact ⟨pos, rfl⟩
  | foreign f => exact absurd h.1 (hO f)

theorem isEnc_of_seals {P : Prims} {F : Prop} (hF : F) {key : Bytes} {m : Str → Prop} {v : Str} (own : Json)
    (h : Seals P key m v) : IsEnc P F key m own v := by
  obtain ⟨nonce, t, n, c, h1, h2, h3, h4, rfl⟩ := h
  rw [isBase64_iff] at h3 h4
  subst h3 h4
  exact ⟨nonce, t, h1, by simp [sealText], h2, .inl hF⟩

/-- A file in the published format is loaded, and represents its table. -/
theorem foreign_store {f : ForeignSecrets} {p : Str} {V : Vault} {b : Bytes} (h : ForeignFile E.prims U f p V b) :
    ∃ d, FileIO.load (some b) = .ok d ∧ RepStore E U (.foreign f) p d V := by
  obtain ⟨text, j, members, rfl, h1, h2, ⟨sv, h3, h3'⟩, ⟨n, c, h4, h4', h4''⟩, h5, h6, h7⟩ := h.file.file
  obtain ⟨d, hd, hn, hg⟩ := storages_load text j members ((Json.parse_iff _ _).mpr h1) h2
  rw [isBase64_iff] at h3' h4' h4''
  subst h3' h4' h4''
  refine ⟨d, hd, ⟨hn, ?_, ?_, ?_, ?_⟩, h.primary, ⟨h.known, h.file.valid⟩, by rw [hg]; exact h3, ?_⟩
  · intro s t hs
    obtain ⟨d', v, q1, q2, q3⟩ := h5 s t hs
    rw [isBase64_iff] at q1
    subst q1
    refine ⟨(h.sites s t hs).1, (h.sites s t hs).2, v, ?_, ?_⟩
    · rw [hg]; exact q2
    · rw [publishedKey_eq] at q3
      exact isEnc_of_seals trivial _ q3
  · exact fun i e hi => (h.passwords i e hi).2
  · intro i e hi
    obtain ⟨d', d'', v, q1, q1', q2, q3⟩ := h6 i e hi
    rw [isBase64_iff] at q1 q1'
    subst q1 q1'
    refine ⟨(h.passwords i e hi).1, v, ?_, ?_⟩
    · rw [hg]; exact q2
    · rw [publishedKey_eq] at q3
      exact isEnc_of_seals trivial _ q3
  · intro k v hk
    rw [hg] at hk
    rcases h7 k v hk with h | h | ⟨s, t, d', q1, q2, q3⟩ | ⟨i, e, d', d'', q1, q2, q2', q3⟩
    · exact .inl h
    · exact .inr (.inl h)
    · rw [isBase64_iff] at q2
      subst q2
      exact .inr (.inr (.inl ⟨s, t, q1, q3⟩))
    · rw [isBase64_iff] at q2 q2'
      subst q2 q2'
      exact .inr (.inr (.inr ⟨i, e, q1, q3⟩))
  · rw [hg]
    rw [publishedKey_eq] at h4
    simpa [sealText, Storage.HMAC_SECRET_KEY, nonceAt, saltAt, secretTextAt] using h4

/-- What abstract state belongs to such a program start. -/
def foreignA (p : Str) (V : Vault) : AState := { mem := .blank, disk := .store p V, unlocked := false }

theorem foreign_rep {p : Str} {V : Vault} {s : PState} (h : ForeignStart E U p V s) : Rep E U s (foreignA p V) := by
  obtain ⟨h1, h2, h3, h4, b, f, h5, h6⟩ := h
  obtain ⟨d, hd, R⟩ := foreign_store h6
  exact ⟨⟨h1, rfl, h2, h3, h4⟩, .foreign f, d, by rw [h5]; exact hd, R⟩

end Pfp
