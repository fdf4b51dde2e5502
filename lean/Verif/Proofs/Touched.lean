import Verif.Spec.Touched
import Verif.Proofs.Traces
import Verif.Props.Traces
import Verif.Props.CliReach
import Verif.Props.Tampering

/-!
# Proofs for C111
-/

namespace Pfp.Proofs.Touched
open Spec Props Cli Proofs.Traces

variable {E : Env}

/-- The entry `k` of the storage and, if the file can be loaded, of the file. -/
structure Kept (k : Str) (v : Option Str) (s : PState) : Prop where
  distinct : Distinct s.world
  data : s.world.data.get? k = v
  file : ∀ d, FileIO.load s.world.disk = .ok d → d.get? k = v

theorem kept_flush (hE : E.Lawful) {k : Str} {v : Option Str} {w : World} (hd : Distinct w) (hv : w.data.get? k = v)
    (hf : ∀ d, FileIO.load w.disk = .ok d → d.get? k = v) (d : Data) (hl : FileIO.load (Storage.flush E w).2.disk = .ok d) :
    d.get? k = v := by
  have hp : (FileIO.entries E w).Perm w.data := hE.order _ _
  have hnd : ((FileIO.entries E w).map (·.1)).Nodup := (hp.map _).nodup_iff.mpr hd
  have whole : FileIO.load (some (FileIO.contents (FileIO.entries E w))) = .ok d → d.get? k = v := by
    intro h
    rw [FileIO.load_contents _ hnd] at h
    cases h
    rw [← hv]
    exact (Data.get?_perm ((List.reverse_perm _).trans hp).symm hd k).symm
  revert hl
  unfold Storage.flush FileIO.flush
  cases E.fs w.fpos with
  | ok => exact whole
  | createDirFailure => exact hf d
  | openFailure => exact hf d
  | writeFailure n =>
    simp only
    intro hl
    by_cases hn : n < (FileIO.contents (FileIO.entries E w)).length
    · rcases FileIO.load_prefix _ n hn with h' | h' <;> rw [h'] at hl <;> cases hl
    · rw [List.take_of_length_le (by omega)] at hl
      exact whole hl

theorem flush_data (w : World) : (Storage.flush E w).2.data = w.data := by
  unfold Storage.flush FileIO.flush
  cases E.fs w.fpos <;> rfl

theorem kept_run (hE : E.Lawful) {k : Str} {v : Option Str} {s : PState} (h : Kept k v s) (op : Op) (hr : ∀ p, op ≠ .reset p)
    (hre : op ≠ .reload) (hs : (run E op s).2.world.data.get? k = s.world.data.get? k) : Kept k v (run E op s).2 := by
  by_cases hc : op.changes = true
  · obtain ⟨hq, -⟩ := quiet_pre E op s
    have hd := hq.2.2.2 h.distinct
    rcases run_changing E op hc s with ⟨e, _, hx⟩ | ⟨_, hx⟩ | ⟨_, hx⟩
    · refine ⟨by rw [hx]; exact hd, hs.trans h.data, ?_⟩
      rw [hx]; rw [hq.1]; exact h.file
    · refine ⟨by rw [hx]; exact hd, hs.trans h.data, ?_⟩
      rw [hx]; rw [hq.1]; exact h.file
    · have hv := hs.trans h.data
      refine ⟨?_, hv, ?_⟩
      · rw [hx]
        show ((Storage.flush E _).2.data.map _).Nodup
        rw [flush_data]; exact hd
      · rw [hx] at hv ⊢
        refine kept_flush hE hd ?_ (by rw [hq.1]; exact h.file)
        rw [← hv, flush_data]
  · have hdisk := disk_unchanged (E := E) s op (by simpa using hc) hr
    refine ⟨?_, hs.trans h.data, by rw [hdisk]; exact h.file⟩
    cases op with
    | reset p => exact absurd rfl (hr p)
    | reload => exact absurd rfl hre
    | removeSites l =>
      have hl : l = [] := by simpa [Op.changes] using hc
      subst hl
      exact h.distinct
    | unlock p =>
      simp only [run]
      by_cases h' : (Passwords.unlock E p s).1 = .ok ()
      · rw [(Cli.unlock_ok h').1]; exact h.distinct
      · rw [Cli.unlock_locked h']; exact h.distinct
    | getRecoveryCode q =>
      exact (quiet_bind quiet_get (fun s' => quiet_bind (quiet_lift _) fun _ => quiet_bind (quiet_lift _) fun _ =>
        quiet_bind (quiet_onWorld fun w => ⟨rfl, rfl, Nat.le_add_right _ _, id⟩) fun _ => quiet_lift _) s).1.2.2.2 h.distinct
    | _ => first | exact h.distinct | exact absurd rfl hc

/-- If no operation changes the entry, then it stays as it is. -/
theorem kept_all (hE : E.Lawful) {k : Str} {v : Option Str} : ∀ (ops : List Op) (s : PState), Kept k v s →
    (∀ pre op post, ops = pre ++ op :: post → (∀ p, op ≠ .reset p) ∧ op ≠ .reload ∧
      (run E op (runAll E pre s).2).2.world.data.get? k = (runAll E pre s).2.world.data.get? k) → Kept k v (runAll E ops s).2
  | [], _, h, _ => h
  | op :: ops, s, h, hn => by
    obtain ⟨h1, h2, h3⟩ := hn [] op ops rfl
    exact kept_all hE ops _ (kept_run hE h op h1 h2 h3) fun pre op' post hp => hn (op :: pre) op' post (by rw [hp]; rfl)

/-- An entry that does not stay as it is is concerned by one of the operations. -/
theorem touched (hE : E.Lawful) {ops : List Op} {s : PState} {before after : Data} {k : Str} (hd : Distinct s.world)
    (hb : s.world.data = before) (hl : FileIO.load s.world.disk = .ok before)
    (ha : FileIO.load (runAll E ops s).2.world.disk = .ok after) (hk : after.get? k ≠ before.get? k)
    (hs : ∀ pre op post, ops = pre ++ op :: post → ¬Touches E (runAll E pre s).2 op k →
      (run E op (runAll E pre s).2).2.world.data.get? k = (runAll E pre s).2.world.data.get? k) :
    ∃ pre op post, ops = pre ++ op :: post ∧ Touches E (runAll E pre s).2 op k := by
  apply Classical.byContradiction
  intro hno
  have hno' : ∀ pre op post, ops = pre ++ op :: post → ¬Touches E (runAll E pre s).2 op k :=
    fun pre op post h h' => hno ⟨pre, op, post, h, h'⟩
  refine hk ((kept_all hE ops s ⟨hd, by rw [hb], fun d h => ?_⟩ fun pre op post h => ⟨?_, ?_, hs pre op post h (hno' pre op post h)⟩).file
    after ha)
  · rw [hl] at h; cases h; rfl
  · rintro p rfl; exact hno' _ _ _ h trivial
  · rintro rfl; exact hno' _ _ _ h trivial

end Pfp.Proofs.Touched
