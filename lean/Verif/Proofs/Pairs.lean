import Verif.Spec.Pairs
import Verif.Proofs.Locality
import Verif.Proofs.Touched

/-!
# Proofs for C113
-/

namespace Pfp.Proofs.Pairs
open Spec Props Cli Proofs.Locality Proofs.Touched

variable {α β : Type} {E : Env} {K : Str → Prop}

/-- The files agree on the entries `K` if they can be loaded. -/
structure Files (K : Str → Prop) (u v : PState) : Prop where
  left : Distinct u.world
  right : Distinct v.world
  files : ∀ d d', FileIO.load u.world.disk = .ok d → FileIO.load v.world.disk = .ok d' → ∀ k, K k → d.get? k = d'.get? k

/-- What can be loaded after writing the whole file or a part of it. -/
theorem flush_loaded (hE : E.Lawful) {w : World} (hd : Distinct w) :
    (E.fs w.fpos = .createDirFailure ∨ E.fs w.fpos = .openFailure) ∧ (Storage.flush E w).2.disk = w.disk ∨
    ¬(E.fs w.fpos = .createDirFailure ∨ E.fs w.fpos = .openFailure) ∧
      ∀ d, FileIO.load (Storage.flush E w).2.disk = .ok d → ∀ k, d.get? k = w.data.get? k := by
  have hp : (FileIO.entries E w).Perm w.data := hE.order _ _
  have hnd : ((FileIO.entries E w).map (·.1)).Nodup := (hp.map _).nodup_iff.mpr hd
  have whole : ∀ d, FileIO.load (some (FileIO.contents (FileIO.entries E w))) = .ok d → ∀ k, d.get? k = w.data.get? k := by
    intro d h k
    rw [FileIO.load_contents _ hnd] at h
    cases h
    exact (Data.get?_perm ((List.reverse_perm _).trans hp).symm hd k).symm
  unfold Storage.flush FileIO.flush
  cases E.fs w.fpos with
  | ok => exact .inr ⟨by simp, whole⟩
  | createDirFailure => exact .inl ⟨.inl rfl, rfl⟩
  | openFailure => exact .inl ⟨.inr rfl, rfl⟩
  | writeFailure n =>
    refine .inr ⟨by simp, fun d hl => ?_⟩
    simp only at hl
    by_cases hn : n < (FileIO.contents (FileIO.entries E w)).length
    · rcases FileIO.load_prefix _ n hn with h' | h' <;> rw [h'] at hl <;> cases hl
    · rw [List.take_of_length_le (by omega)] at hl
      exact whole d hl

theorem flush_fpos (w : World) : (Storage.flush E w).2.fpos = w.fpos + 1 := by
  unfold Storage.flush FileIO.flush
  cases E.fs w.fpos <;> rfl

theorem distinct_run (hE : E.Lawful) {s : PState} (h : Distinct s.world) (op : Op) (hr : ∀ p, op ≠ .reset p) (hre : op ≠ .reload) :
    Distinct (run E op s).2.world := by
  by_cases hc : op.changes = true
  · obtain ⟨hq, -⟩ := quiet_pre E op s
    have hd := hq.2.2.2 h
    rcases run_changing E op hc s with ⟨e, _, hx⟩ | ⟨_, hx⟩ | ⟨_, hx⟩
    · rw [hx]; exact hd
    · rw [hx]; exact hd
    · rw [hx]
      show ((Storage.flush E _).2.data.map _).Nodup
      rw [flush_data]; exact hd
  · cases op with
    | reset p => exact absurd rfl (hr p)
    | reload => exact absurd rfl hre
    | removeSites l =>
      have hl : l = [] := by simpa [Op.changes] using hc
      subst hl
      exact h
    | unlock p =>
      simp only [run]
      by_cases h' : (Passwords.unlock E p s).1 = .ok ()
      · rw [(Cli.unlock_ok h').1]; exact h
      · rw [Cli.unlock_locked h']; exact h
    | getRecoveryCode q =>
      exact (quiet_bind quiet_get (fun s' => quiet_bind (quiet_lift _) fun _ => quiet_bind (quiet_lift _) fun _ =>
        quiet_bind (quiet_onWorld fun w => ⟨rfl, rfl, Nat.le_add_right _ _, id⟩) fun _ => quiet_lift _) s).1.2.2.2 h
    | _ => first | exact h | exact absurd rfl hc

theorem files_run (hE : E.Lawful) {u v : PState} (h : Files K u v) (hn : NearP K u v) (op : Op)
    (hn' : NearP K (run E op u).2 (run E op v).2) (hr : ∀ p, op ≠ .reset p) (hre : op ≠ .reload) :
    Files K (run E op u).2 (run E op v).2 := by
  refine ⟨distinct_run hE h.left op hr hre, distinct_run hE h.right op hr hre, ?_⟩
  by_cases hc : op.changes = true
  · obtain ⟨hq, -⟩ := quiet_pre E op u
    obtain ⟨hq', -⟩ := quiet_pre E op v
    have same : ∀ {x y : PState}, (run E op u).2 = x → (run E op v).2 = y → x.world.disk = u.world.disk → y.world.disk = v.world.disk →
        ∀ d d', FileIO.load (run E op u).2.world.disk = .ok d → FileIO.load (run E op v).2.world.disk = .ok d' →
        ∀ k, K k → d.get? k = d'.get? k := by
      intro x y hx hy h1 h2
      rw [hx, hy, h1, h2]
      exact h.files
    have hf := hn'.world.fpos
    have hlr := hn.world.fpos
    have left : (run E op u).2 = (pre E op u).2 ∨ (run E op u).2 = { (pre E op u).2 with world := (Storage.flush E (pre E op u).2.world).2 } := by
      rcases run_changing E op hc u with ⟨e, _, hx⟩ | ⟨_, hx⟩ | ⟨_, hx⟩
      · exact .inl (by rw [hx])
      · exact .inl (by rw [hx])
      · exact .inr (by rw [hx])
    have right : (run E op v).2 = (pre E op v).2 ∨ (run E op v).2 = { (pre E op v).2 with world := (Storage.flush E (pre E op v).2.world).2 } := by
      rcases run_changing E op hc v with ⟨e, _, hx⟩ | ⟨_, hx⟩ | ⟨_, hx⟩
      · exact .inl (by rw [hx])
      · exact .inl (by rw [hx])
      · exact .inr (by rw [hx])
    rcases left with hx | hx <;> rcases right with hy | hy
    · exact same hx hy hq.1 hq'.1
    · rw [hx, hy] at hf
      dsimp only at hf
      rw [flush_fpos, hq.2.1, hq'.2.1] at hf
      omega
    · rw [hx, hy] at hf
      dsimp only at hf
      rw [flush_fpos, hq.2.1, hq'.2.1] at hf
      omega
    · have hdata := hn'.world.data
      rw [hx, hy] at hdata ⊢
      dsimp only at hdata ⊢
      rw [flush_data, flush_data] at hdata
      have hpos : (pre E op u).2.world.fpos = (pre E op v).2.world.fpos := by rw [hq.2.1, hq'.2.1, hlr]
      rcases flush_loaded hE (hq.2.2.2 h.left) with ⟨g1, g2⟩ | ⟨g1, g2⟩ <;>
        rcases flush_loaded hE (hq'.2.2.2 h.right) with ⟨g3, g4⟩ | ⟨g3, g4⟩
      · rw [g2, g4, hq.1, hq'.1]; exact h.files
      · exact absurd (hpos ▸ g1) g3
      · exact absurd (hpos ▸ g3) g1
      · intro d d' hl hl' k hk
        rw [g2 d hl k, g4 d' hl' k]
        exact hdata k hk
  · rw [disk_unchanged (E := E) u op (by simpa using hc) hr, disk_unchanged (E := E) v op (by simpa using hc) hr]
    exact h.files

end Pfp.Proofs.Pairs
