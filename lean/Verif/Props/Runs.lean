import Verif.Props.CliList
import Verif.Props.CliReach
import Verif.Props.Commands
import Verif.Spec.Runs

/-!
# Runs of the program: C65
-/

namespace Pfp
open Spec Cli

variable {E : Env} {U : Universe}

/-- A state reached, with a readable file if all writes succeed. -/
def Alive (E : Env) (U : Universe) (s : PState) : Prop :=
  SoundReachable E U s ∧ ((∀ k, E.fs k = .ok) → ∃ d, FileIO.load s.world.disk = .ok d)

/-- A state reached in which site name `a` leads to the entry `i` with the given secret, in memory and in the file, unless
that is unreadable. -/
def Kept (E : Env) (U : Universe) (p a : Str) (i : PasswordId) (sec : Secret) (s : PState) : Prop :=
  Alive E U s ∧ ∃ A, Rep E U s A ∧ KeepA p a i sec A

/-- An operation leaves the file alone, or writes the entries in memory. -/
theorem disk_after (E : Env) (hfs : ∀ k, E.fs k = .ok) (op : Op) (hreset : ∀ q, op ≠ .reset q) (s : PState) :
    (after E s op).world.disk = s.world.disk ∨
    (after E s op).world.disk = some (FileIO.contents (FileIO.entries E (after E s op).world)) := by
  by_cases hc : op.changes = true
  · have hq := quiet_pre E op s
    rcases run_changing E op hc s with ⟨e, _, h⟩ | ⟨_, h⟩ | ⟨_, h⟩
    · rw [after, h]; exact .inl hq.1.1
    · rw [after, h]; exact .inl hq.1.1
    · rw [after, h]
      right
      have hf : (Storage.flush E (pre E op s).2.world).1 = .ok () := by
        unfold Storage.flush FileIO.flush
        simp only [hfs]
      exact (flush_ok hf).2
  · left
    cases op with
    | reset p => exact absurd rfl (hreset p)
    | reload =>
      simp only [after, run, reload]
      cases FileIO.load s.world.disk <;> rfl
    | removeSites l =>
      have hl : l = [] := by simpa [Op.changes] using hc
      subst hl
      rfl
    | unlock p =>
      simp only [after, run]
      by_cases h : (Passwords.unlock E p s).1 = .ok ()
      · rw [(unlock_ok h).1]
      · rw [unlock_locked h]
    | getRecoveryCode q =>
      exact (quiet_bind quiet_get (fun s' => quiet_bind (quiet_lift _) fun _ => quiet_bind (quiet_lift _) fun _ =>
        quiet_bind (quiet_onWorld fun w => ⟨rfl, rfl, Nat.le_add_right _ _, id⟩) fun _ => quiet_lift _) s).1.1
    | _ => first | rfl | exact absurd rfl hc

theorem alive_step (hE : E.Lawful) {s : PState} (h : Alive E U s) (op : Op) (hw : op.Within U) (hsound : op.Sound)
    (hreset : ∀ q, op ≠ .reset q) (hd : Distinct (after E s op).world) : Alive E U (after E s op) := by
  refine ⟨.step h.1 op hw hsound fun q hq => absurd hq (hreset q), fun hfs => ?_⟩
  rcases disk_after E hfs op hreset s with h' | h'
  · rw [h']; exact h.2 hfs
  · exact ⟨_, (Props.load_flushed hE hd h').1⟩

theorem kept_distinct {p : Str} {G H : Vault → Prop} {s : PState} {A : AState} (hrep : Rep E U s A) (hK : KeepGH p G H A) :
    Distinct s.world := by
  obtain ⟨V, hm, -⟩ := hK.1
  have hmem := hrep.mem
  rw [hm] at hmem
  obtain ⟨pos, R, -⟩ := hmem
  exact R.vault.nodup

section
variable {p a n r : Str} {i : PasswordId} {sec : Secret}

theorem kept_step (hE : E.Lawful) (hS : Secure E U) (ha : U.site a) (hi : i.name = n) (hir : i.revision = revisionOf r)
    {s : PState} (h : Kept E U p a i sec s) (op : Op) (hw : op.Within U) (hsound : op.Sound) (hreset : ∀ q, op ≠ .reset q)
    (hl : Leaves E s a n r op) : Kept E U p a i sec (after E s op) := by
  obtain ⟨h1, A, h2, h3⟩ := h
  obtain ⟨A', k1, k2⟩ := keepG_step hE hS h2 h3 op hw hreset fun pos V _ ho hg => good_after hE hS ho ha hi hir hg op hw hl
  exact ⟨alive_step hE h1 op hw hsound hreset (kept_distinct k1 k2), A', k1, k2⟩

/-- The operations not concerning the entry in whatever state. -/
def Harmless (U : Universe) (E : Env) (a n r : Str) (op : Op) : Prop :=
  op.Within U ∧ op.Sound ∧ (∀ q, op ≠ .reset q) ∧ ∀ s, Leaves E s a n r op

theorem kept_harmless (hE : E.Lawful) (hS : Secure E U) (ha : U.site a) (hi : i.name = n) (hir : i.revision = revisionOf r)
    (op : Op) (s : PState) (hop : Harmless U E a n r op) (h : Kept E U p a i sec s) : Kept E U p a i sec (run E op s).2 :=
  kept_step hE hS ha hi hir h op hop.1 hop.2.1 hop.2.2.1 (hop.2.2.2 s)

theorem kept_ensure (hE : E.Lawful) (hS : Secure E U) (ha : U.site a) (hi : i.name = n) (hir : i.revision = revisionOf r)
    (cs : CState) (h : Kept E U p a i sec cs.ps) (hl : LinesWithin U cs.secrets) :
    Kept E U p a i sec (ensureUnlocked E cs).2.ps ∧ ∀ l ∈ (ensureUnlocked E cs).2.secrets, l ∈ cs.secrets := by
  have hI := kept_harmless (p := p) (sec := sec) hE hS ha hi hir
  obtain ⟨⟨ops, h1, h2⟩, h3⟩ := via_ensure (E := E) (A := Harmless U E a n r) (Q := (· ∈ cs.secrets)) (I := Kept E U p a i sec)
    (fun line hm h6 => ⟨hl line hm h6, trivial, by simp, fun _ => trivial⟩) hI cs h fun _ h => h
  refine ⟨?_, h3⟩
  rw [h2]
  exact runAll_keeps hI ops cs.ps h1 h

/-- Entry operations, while the site meant in memory does not change. -/
def KeptWhile (E : Env) (U : Universe) (p a : Str) (i : PasswordId) (sec : Secret) (x X : Str) (s : PState) : Prop :=
  Alive E U s ∧ ∃ A, Rep E U s A ∧ KeepGH p (fun V => Good a i sec V ∧ V.resolve x = X) (Good a i sec) A

theorem keptWhile_step (hE : E.Lawful) (hS : Secure E U) {x X : Str}
    (op : Op) (hw : op.Within U) (hsound : op.Sound)
    (hop : (∃ q, op = .unlock q) ∨ ∃ n' r', (∃ len cs, op = .setGenerated x n' r' len cs) ∧ (⟨X, n', revisionOf r'⟩ : PasswordId) ≠ i ∨
      (∃ v, op = .setStored x n' r' v) ∧ (⟨X, n', revisionOf r'⟩ : PasswordId) ≠ i ∨
      op = .remove x n' r' ∧ (⟨X, n', revisionOf r'⟩ : PasswordId) ≠ i)
    (s : PState) (h : KeptWhile E U p a i sec x X s) : KeptWhile E U p a i sec x X (run E op s).2 := by
  obtain ⟨h1, A, h2, h3⟩ := h
  have hreset : ∀ q, op ≠ .reset q := by
    rcases hop with ⟨q, rfl⟩ | ⟨n', r', ⟨⟨_, _, rfl⟩, -⟩ | ⟨⟨_, rfl⟩, -⟩ | ⟨rfl, -⟩⟩ <;> simp
  have hreload : op = .reload → ∀ V, Good a i sec V → Good a i sec V ∧ V.resolve x = X := by
    rcases hop with ⟨q, rfl⟩ | ⟨n', r', ⟨⟨_, _, rfl⟩, -⟩ | ⟨⟨_, rfl⟩, -⟩ | ⟨rfl, -⟩⟩ <;> simp
  suffices hA : ∃ A', Rep E U (after E s op) A' ∧ KeepGH p (fun V => Good a i sec V ∧ V.resolve x = X) (Good a i sec) A' by
    obtain ⟨A', k1, k2⟩ := hA
    exact ⟨alive_step hE h1 op hw hsound hreset (kept_distinct k1 k2), A', k1, k2⟩
  refine keepGH_step hE hS h2 (fun _ h => h.1) h3 op hw hreset hreload fun pos V hsp ho hg => ?_
  have hid : ∀ n' r', (⟨X, n', revisionOf r'⟩ : PasswordId) ≠ i → V.idOf x n' r' ≠ i := by
    intro n' r' hne
    rw [Vault.idOf, hg.2]; exact hne
  rcases hop with ⟨q, rfl⟩ | ⟨n', r', ⟨⟨_, _, rfl⟩, hne⟩ | ⟨⟨_, rfl⟩, hne⟩ | ⟨rfl, hne⟩⟩
  · cases hsp
  · exact ⟨put_good hg.1 _ _ (hid n' r' hne), by rw [vaultAfter, resolve_put, resolve_know]; exact hg.2⟩
  · exact ⟨put_good hg.1 _ _ (hid n' r' hne), by rw [vaultAfter, resolve_put, resolve_know]; exact hg.2⟩
  · simp only [vaultAfter]
    split
    · refine ⟨⟨?_, ?_⟩, ?_⟩
      · simp only [Vault.delete, update, if_neg (Ne.symm (hid n' r' hne))]; exact hg.1.1
      · exact hg.1.2
      · exact hg.2
    · exact hg

section
variable {lines : List Str} {op : Op} {x n' r' : Str}

theorem may_add {len : UInt64} {f1 f2 f3 f4 y : Bool} (h : May lines (.add x n' r' len f1 f2 f3 f4 y) op) :
    (∃ q, op = .unlock q) ∨ (∃ len cs, op = .setGenerated x n' r' len cs) ∨ (∃ v, op = .setStored x n' r' v) ∨
      op = .remove x n' r' := by
  cases op with
  | unlock q => exact .inl ⟨q, rfl⟩
  | setGenerated a' n'' r'' l cs => obtain ⟨rfl, rfl, rfl, -⟩ := h; exact .inr (.inl ⟨_, _, rfl⟩)
  | _ => exact h.elim

theorem may_addStored {rec y : Bool} (h : May lines (.addStored x n' r' rec y) op) :
    (∃ q, op = .unlock q) ∨ (∃ len cs, op = .setGenerated x n' r' len cs) ∨ (∃ v, op = .setStored x n' r' v) ∨
      op = .remove x n' r' := by
  cases op with
  | unlock q => exact .inl ⟨q, rfl⟩
  | setStored a' n'' r'' v => obtain ⟨rfl, rfl, rfl, -⟩ := h; exact .inr (.inr (.inl ⟨_, rfl⟩))
  | _ => exact h.elim

theorem may_remove (h : May lines (.remove x n' r') op) :
    (∃ q, op = .unlock q) ∨ (∃ len cs, op = .setGenerated x n' r' len cs) ∨ (∃ v, op = .setStored x n' r' v) ∨
      op = .remove x n' r' := by
  cases op with
  | unlock q => exact .inl ⟨q, rfl⟩
  | remove a' n'' r'' => obtain ⟨rfl, rfl, rfl⟩ := h; exact .inr (.inr (.inr rfl))
  | _ => exact h.elim

theorem may_other {c : Command} (h : May lines c op) {t : PState} (hl : Command.Leaves E t a n r c)
    (hc : (∃ d n' r' q, c = .«show» d n' r' q) ∨ (∃ d n' r' q, c = .notes d n' r' q) ∨ ∃ d t rm, c = .«alias» d t rm) :
    (∀ q, op ≠ .reset q) ∧ ∀ s, Leaves E s a n r op := by
  rcases hc with ⟨d, n', r', q, rfl⟩ | ⟨d, n', r', q, rfl⟩ | ⟨d, t', rm, rfl⟩
  · cases op with
    | unlock q => exact ⟨by simp, fun _ => trivial⟩
    | _ => exact h.elim
  · cases q with
    | false =>
      cases op with
      | unlock q => exact ⟨by simp, fun _ => trivial⟩
      | _ => exact h.elim
    | true =>
      cases op with
      | unlock q => exact ⟨by simp, fun _ => trivial⟩
      | setNotes => exact ⟨by simp, fun _ => trivial⟩
      | _ => exact h.elim
  · cases t' with
    | some t' =>
      cases op with
      | unlock q => exact ⟨by simp, fun _ => trivial⟩
      | setAlias x y => obtain ⟨rfl, rfl⟩ := h; exact ⟨by simp, fun _ => hl⟩
      | _ => exact h.elim
    | none =>
      cases rm with
      | false =>
        cases op with
        | unlock q => exact ⟨by simp, fun _ => trivial⟩
        | _ => exact h.elim
      | true =>
        cases op with
        | unlock q => exact ⟨by simp, fun _ => trivial⟩
        | removeAlias x => have h : x = d := h; subst h; exact ⟨by simp, fun _ => hl⟩
        | _ => exact h.elim

end

theorem kept_command (C : CEnv) (hE : C.env.Lawful) (hS : Secure C.env U) (hstar : ∀ t, C.env.wild (c!"*") t = true)
    (ha : U.site a) (hi : i.name = n) (hir : i.revision = revisionOf r) (b : Bool) (c : Command) (h1 : c ≠ .shell)
    (h2 : ∀ y, c ≠ .setPrimary y) (hc : Command.Within U c) (cs : CState) (hlines : LinesWithin U cs.secrets)
    (h : Kept C.env U p a i sec cs.ps)
    (hl : (ensureUnlocked C.env cs).1 = .ok () → Command.Leaves C.env (ensureUnlocked C.env cs).2.ps a n r c) :
    Kept C.env U p a i sec (processCommand C b c cs).2.ps := by
  obtain ⟨he, hsub⟩ := kept_ensure hE hS ha hi hir cs h hlines
  obtain ⟨g1, g2⟩ := Props.C48_commands C b c h1 h2 cs
  by_cases hok : (ensureUnlocked C.env cs).1 = .ok ()
  case neg => rw [g2 hok]; exact he
  rw [g1 hok]
  have hl := hl hok
  obtain ⟨-, -, -, hk⟩ := Props.C48_no_effect C.env cs
  have hk := (hk hok).2
  have hlines : LinesWithin U (ensureUnlocked C.env cs).2.secrets := fun l hm => hlines l (hsub l hm)
  generalize (ensureUnlocked C.env cs).2 = t at *
  clear g1 g2 hsub h hok
  -- the commands concerning one entry
  have entry : ∀ x n' r', U.site x → ¬SameEntry C.env t.ps x n' r' a n r →
      (∀ lines op, May lines c op → (∃ q, op = .unlock q) ∨ (∃ len cs, op = .setGenerated x n' r' len cs) ∨
        (∃ v, op = .setStored x n' r' v) ∨ op = .remove x n' r') →
      Kept C.env U p a i sec (processCommand C b c t).2.ps := by
    intro x n' r' hx hne hmay
    obtain ⟨hs, A, hrep, hK⟩ := he
    obtain ⟨V, hm, hg⟩ := hK.1
    have hint := keepG_intact hK
    obtain ⟨pos, p', V', ho⟩ := open_of_rep hrep hint hk
    have hm' := ho.mem
    rw [hm] at hm'
    cases hm'
    have hid : (⟨V.resolve x, n', revisionOf r'⟩ : PasswordId) ≠ i := by
      intro heq
      apply hne
      refine ⟨?_, ?_, ?_⟩
      · rw [ho.siteMeant_eq hE hS hx, ho.siteMeant_eq hE hS ha, hg.2, ← heq]
      · rw [← hi, ← heq]
      · rw [← hir, ← heq]
    have hI : ∀ op s, (op.Within U ∧ op.Sound ∧ ((∃ q, op = .unlock q) ∨ (∃ len cs, op = .setGenerated x n' r' len cs) ∨
        (∃ v, op = .setStored x n' r' v) ∨ op = .remove x n' r')) → KeptWhile C.env U p a i sec x (V.resolve x) s →
        KeptWhile C.env U p a i sec x (V.resolve x) (run C.env op s).2 := by
      rintro op s ⟨q1, q2, q3⟩ hs
      refine keptWhile_step hE hS op q1 q2 ?_ s hs
      rcases q3 with q3 | q3 | q3 | q3
      · exact .inl q3
      · exact .inr ⟨n', r', .inl ⟨q3, hid⟩⟩
      · exact .inr ⟨n', r', .inr (.inl ⟨q3, hid⟩)⟩
      · exact .inr ⟨n', r', .inr (.inr ⟨q3, hid⟩)⟩
    have h0 : KeptWhile C.env U p a i sec x (V.resolve x) t.ps := ⟨hs, A, hrep, ⟨V, hm, hg, rfl⟩, hK.2⟩
    obtain ⟨⟨ops, q1, q2⟩, -⟩ := via_command (I := KeptWhile C.env U p a i sec x (V.resolve x))
      (A := fun op => op.Within U ∧ op.Sound ∧ ((∃ q, op = .unlock q) ∨ (∃ len cs, op = .setGenerated x n' r' len cs) ∨
        (∃ v, op = .setStored x n' r' v) ∨ op = .remove x n' r')) C b c t.secrets (fun op hop hseen => by
          obtain ⟨w1, w2⟩ := may_within hE hS hlines hc hop (by
            intro l hl
            have := hmay _ _ hop
            subst hl
            simp at this)
          exact ⟨w1, w2, hmay _ _ hop⟩) hI t h0 fun _ h => h
    have := runAll_keeps hI ops t.ps q1 h0
    rw [← q2] at this
    obtain ⟨e1, A', e2, ⟨V', e3, e4, -⟩, e5⟩ := this
    exact ⟨e1, A', e2, ⟨V', e3, e4⟩, e5⟩
  -- the commands not concerning it in whatever state
  have other : (∀ lines op, May lines c op → (∀ q, op ≠ .reset q) ∧ ∀ s, Leaves C.env s a n r op) → (∀ d n' x y z, c ≠ .list d n' x y z) →
      Kept C.env U p a i sec (processCommand C b c t).2.ps := by
    intro hmay hnl
    have hI := kept_harmless (E := C.env) (p := p) (sec := sec) hE hS ha hi hir
    obtain ⟨⟨ops, q1, q2⟩, -⟩ := via_command (I := Kept C.env U p a i sec) (A := Harmless U C.env a n r) C b c t.secrets
      (fun op hop hseen => by
        obtain ⟨w1, w2⟩ := may_within hE hS hlines hc hop (by
            intro l hl
            subst hl
            cases c with
            | list d n' x y z => exact absurd rfl (hnl d n' x y z)
            | _ => simp [May] at hop)
        exact ⟨w1, w2, hmay _ _ hop⟩) hI t he fun _ h => h
    rw [q2]
    exact runAll_keeps hI ops t.ps q1 he
  cases c with
  | setPrimary y => exact absurd rfl (h2 y)
  | shell => exact absurd rfl h1
  | add x n' r' len f1 f2 f3 f4 y => exact entry x n' r' hc.1 hl fun lines op hop => may_add hop
  | addStored x n' r' rec y => exact entry x n' r' hc.1 hl fun lines op hop => may_addStored hop
  | remove x n' r' => exact entry x n' r' hc.1 hl fun lines op hop => may_remove hop
  | «show» d n' r' q => exact other (fun lines op hop => may_other hop hl (.inl ⟨d, n', r', q, rfl⟩)) (by simp)
  | notes d n' r' x => exact other (fun lines op hop => may_other hop hl (.inr (.inl ⟨d, n', r', x, rfl⟩))) (by simp)
  | «alias» d t' rm => exact other (fun lines op hop => may_other hop hl (.inr (.inr ⟨d, t', rm, rfl⟩))) (by simp)
  | list d n' x y z =>
    obtain ⟨hs, A, hrep, hK⟩ := he
    obtain ⟨V, hm, hg⟩ := hK.1
    obtain ⟨pos, p', V', ho⟩ := open_of_rep hrep (keepG_intact hK) hk
    have hm' := ho.mem
    rw [hm] at hm'
    cases hm'
    obtain ⟨m, empty, k, q1, -, q3, q4⟩ := Props.C49_effect C hE hS b t (SoundReachable.reachable hs.1) hk d n' x y z
    have hd : Kept C.env U p a i sec (drawn t.ps k) :=
      ⟨⟨.meanwhile hs.1 hs.1 ⟨rfl, rfl, rfl, rfl, .inl rfl⟩, hs.2⟩, A, (ho.drawn k).rep, hK⟩
    rcases q4 with ⟨-, q4⟩ | ⟨-, q4⟩
    · rw [q4]; exact hd
    · rw [q4]
      refine kept_step hE hS ha hi hir hd (.removeSites empty) ?_ trivial (by simp) ?_
      · intro y hy
        obtain ⟨l, g1, -, g3⟩ := ho.listSites hE hS d
        rw [q1] at g1
        cases g1
        rcases ((q3 y).mp hy).1 with h | ⟨⟨x, hx, ha⟩, -⟩
        · exact (ho.store.vault.site_in _ _ ((g3 _).mp h).1).1
        · exact (ho.store.vault.site_in _ _ ((g3 x).mp hx).1).2.1 y ha
      · intro _ hmem
        rw [(ho.drawn k).siteMeant_eq hE hS ha]
        rcases hl with hl | hl
        · obtain ⟨l, g1, -, g3⟩ := ho.list hE hS (c!"*") (U.site_canonical a ha)
          rw [((q3 _).mp hmem).2.2] at g1
          simp only [Res.ok.injEq, Out.passwords.injEq] at g1
          subst g1
          obtain ⟨notes, hn⟩ := hg.1
          have hres : V.resolve (canonical a) = V.resolve a := by simp only [Vault.resolve, hl]
          exact absurd ((g3 _).mpr ⟨i, _, hn, rfl, by rw [hres, hg.2], hstar _⟩) (by simp)
        · rw [← hl, ho.siteMeant_eq hE hS ha]

theorem shell_secrets (C : CEnv) (b : Bool) (events : List ShellEvent) (cs : CState) :
    ∀ l ∈ (shellLoop C b events cs).2.secrets, l ∈ cs.secrets :=
  (via_shell (A := fun _ => True) (I := fun _ => True) C b cs.secrets trivial events (fun _ _ _ _ _ _ _ => trivial)
    (fun _ _ _ _ => trivial) cs trivial fun _ h => h).2

theorem shellLoop_cons (C : CEnv) (b : Bool) (e : ShellEvent) (rest : List ShellEvent) (cs : CState) (he : e ≠ .exit) :
    shellLoop C b (e :: rest) cs =
      match shellLoop C b [e] cs with
      | (.ok _, s') => shellLoop C b rest s'
      | (r, s') => (r, s') := by
  cases e with
  | exit => exact absurd rfl he
  | noCommand => rfl
  | lock => rfl
  | command c =>
    by_cases h1 : c = .shell
    · subst h1; rfl
    by_cases h2 : ∃ y, c = .setPrimary y
    · obtain ⟨y, rfl⟩ := h2; rfl
    have h2 : ∀ y, c ≠ .setPrimary y := fun y h => h2 ⟨y, h⟩
    rw [shellLoop_command C b c rest cs h1 h2, shellLoop_command C b c [] cs h1 h2]
    cases processCommand C b c cs with
    | mk x s' => cases x <;> rfl

theorem kept_shell (C : CEnv) (hE : C.env.Lawful) (hS : Secure C.env U) (hstar : ∀ t, C.env.wild (c!"*") t = true)
    (ha : U.site a) (hi : i.name = n) (hir : i.revision = revisionOf r) (b : Bool) : ∀ (events : List ShellEvent) (cs : CState),
    (∀ e ∈ events, ShellEvent.Within U e) → LinesWithin U cs.secrets → Kept C.env U p a i sec cs.ps →
    ShellLeaves C b a n r events cs → Kept C.env U p a i sec (shellLoop C b events cs).2.ps
  | [], _, _, _, h, _ => h
  | e :: rest, cs, hw, hlines, h, hl => by
    by_cases hexit : e = .exit
    · subst hexit; exact h
    have hone : Kept C.env U p a i sec (shellLoop C b [e] cs).2.ps ∧ ShellLeaves C b a n r rest (shellLoop C b [e] cs).2 := by
      cases e with
      | exit => exact absurd rfl hexit
      | noCommand => exact ⟨h, hl⟩
      | lock => exact ⟨kept_step hE hS ha hi hir h .lock trivial trivial (by simp) trivial, hl⟩
      | command c =>
        refine ⟨?_, hl.2⟩
        by_cases h1 : c = .shell
        · subst h1; exact h
        by_cases h2 : ∃ y, c = .setPrimary y
        · obtain ⟨y, rfl⟩ := h2; exact h
        have h2' : ∀ y, c ≠ .setPrimary y := fun y h => h2 ⟨y, h⟩
        rw [shellLoop_command C b c [] cs h1 h2']
        have := kept_command (p := p) (sec := sec) C hE hS hstar ha hi hir b c h1 h2' (hw (.command c) (by simp)) cs hlines h
          ((hl.1.resolve_left h1).resolve_left h2)
        cases hr : processCommand C b c cs with
        | mk x s' =>
          rw [hr] at this
          cases x <;> exact this
    rw [shellLoop_cons C b e rest cs hexit]
    have hsub := shell_secrets C b [e] cs
    obtain ⟨k1, k2⟩ := hone
    cases hr : shellLoop C b [e] cs with
    | mk x s' =>
      rw [hr] at k1 k2 hsub
      cases x with
      | ok u =>
        exact kept_shell C hE hS hstar ha hi hir b rest s' (fun e he => hw e (List.mem_cons_of_mem _ he))
          (fun l hm => hlines l (hsub l hm)) k1 k2
      | err e => exact k1
      | panic => exact k1
      | blocked => exact k1

theorem kept_load (hE : E.Lawful) (hS : Secure E U) (ha : U.site a) (hi : i.name = n) (hir : i.revision = revisionOf r)
    {s : PState} (h : Kept E U p a i sec s) {data : Data} (hd : FileIO.load s.world.disk = .ok data) :
    Kept E U p a i sec (openWith s.world data) := by
  have := kept_step hE hS ha hi hir h .reload trivial trivial (by simp) trivial
  simp only [after, run, reload, hd] at this
  exact this

/-- Whether lines concern an entry does not depend on what has been written before. -/
theorem shellLeaves_over (C : CEnv) (b : Bool) : ∀ (events : List ShellEvent) (s : CState) (o : Str) (e : List Message),
    ShellLeaves C b a n r events (s.over o e) ↔ ShellLeaves C b a n r events s
  | [], _, _, _ => Iff.rfl
  | x :: rest, s, o, e => by
    have h1 := framed_shellLoop C b [x] s o e
    have h2 := framed_ensureUnlocked (E := C.env) s o e
    have ih := shellLeaves_over C b rest (shellLoop C b [x] s).2 o e
    cases x with
    | exit => exact Iff.rfl
    | command c =>
      simp only [ShellLeaves, h1, h2, ih]
      exact Iff.rfl
    | lock => simp only [ShellLeaves, h1, ih]
    | noCommand => simp only [ShellLeaves, h1, ih]

theorem kept_run (C : CEnv) (hE : C.env.Lawful) (hS : Secure C.env U) (hstar : ∀ t, C.env.wild (c!"*") t = true)
    (ha : U.site a) (hi : i.name = n) (hir : i.revision = revisionOf r) (x : Run) (s : PState) (hw : x.Within U)
    (h : Kept C.env U p a i sec s) (hl : x.Leaves C a n r s) : Kept C.env U p a i sec (x.result C s).2.ps := by
  unfold Run.result
  rw [Props.mainInner_eq C _ _ _ _ hl.1]
  show Kept C.env U p a i sec (match FileIO.load s.world.disk with
    | .ok data => process C x.stdinPasswords x.events x.command { x.start s with ps := openWith s.world data }
    | .err e => (.err (.lib e), x.start s)
    | .panic => (.panic, x.start s)).2.ps
  cases hd : FileIO.load s.world.disk with
  | err e => exact h
  | panic => exact h
  | ok data =>
    have hk := kept_load hE hS ha hi hir h hd
    obtain ⟨hl1, hl2⟩ := hl.2 data hd
    simp only
    by_cases hsh : x.command = .shell
    · rw [hsh]
      show Kept C.env U p a i sec ((println _ >>= fun _ => shellLoop C x.stdinPasswords x.events) _).2.ps
      rw [CM.bind_apply]
      refine kept_shell C hE hS hstar ha hi hir _ x.events _ hw.2.1 hw.2.2 hk ?_
      have := (shellLeaves_over C x.stdinPasswords (a := a) (n := n) (r := r) x.events { x.start s with ps := openWith s.world data }
        (c!"Enter a command or type 'help' for a list of commands. Enter 'help <command>' for detailed information on a command.\n")
        []).mpr (hl1 hsh)
      exact this
    · have : process C x.stdinPasswords x.events x.command = processCommand C x.stdinPasswords x.command := by
        cases hc : x.command with
        | shell => exact absurd hc hsh
        | _ => rfl
      rw [this]
      exact kept_command C hE hS hstar ha hi hir _ _ hsh hl.1 hw.1 _ hw.2.2 hk (hl2 hsh)

theorem kept_runs (C : CEnv) (hE : C.env.Lawful) (hS : Secure C.env U) (hstar : ∀ t, C.env.wild (c!"*") t = true)
    (ha : U.site a) (hi : i.name = n) (hir : i.revision = revisionOf r) : ∀ (xs : List Run) (s : PState), (∀ x ∈ xs, x.Within U) →
    Kept C.env U p a i sec s → RunsLeave C a n r xs s → Kept C.env U p a i sec (runPrograms C xs s)
  | [], _, _, h, _ => h
  | x :: xs, s, hw, h, hl => kept_runs C hE hS hstar ha hi hir xs _ (fun y hy => hw y (List.mem_cons_of_mem _ hy))
      (kept_run C hE hS hstar ha hi hir x s (hw x (by simp)) h hl.1) hl.2

/-- What a later `show` writes. -/
theorem kept_show (C : CEnv) (hE : C.env.Lawful) (hS : Secure C.env U) (ha : U.site a) (hn : U.name n) (hr : U.revision r)
    (hi : i.name = n) (hir : i.revision = revisionOf r) {s : PState} (h : Kept C.env U p a i sec s) {v : Str}
    (hv : valueOf (deriveWith C.env.prims) p i ⟨sec, []⟩ = .ok v) {data : Data} (hd : FileIO.load s.world.disk = .ok data)
    (b : Bool) (bad : List Str) (good : Str) (rest : List Str) (hp : trim good = p) (h6 : 6 ≤ (utf8 p).length)
    (hlines : LinesWithin U bad) (hbad : ∀ l ∈ bad, trim l ≠ p) (events : List ShellEvent) (garbled : Bool) (confirms : List Bool)
    (answers : List (Option Str)) :
    let res := (⟨b, .«show» a n r false, events, bad ++ good :: rest, garbled, confirms, answers⟩ : Run).result C s
    res.1 = .ok () ∧ res.2.ps.world = (openWith s.world data).world ∧
    res.2.out = (List.replicate (bad.length + 1) (c!"Your primary password: ")).flatten ++
      (c!"Password retrieved." ++ v ++ c!"\n") ∧
    res.2.errors = bad.map fun l => .error (if (utf8 (trim l)).length < 6 then .primaryTooShort else .lib .decryptionFailure) := by
  intro res
  have hk := kept_load hE hS ha hi hir h hd
  have hkey : (openWith s.world data).key = none := rfl
  set t : CState := ⟨openWith s.world data, bad ++ good :: rest, garbled, confirms, answers, [], []⟩ with ht
  have hres : res = processCommand C b (.«show» a n r false) t := by
    show mainInner C b events (.«show» a n r false) _ = _
    rw [Props.mainInner_eq C _ _ _ _ (by simp)]
    simp only [Run.start, hd]
    rfl
  obtain ⟨-, A, hrep, hK⟩ := hk
  obtain ⟨V, hm, hg⟩ := hK.1
  have hmem := hrep.mem
  rw [hm] at hmem
  obtain ⟨pos, R, -⟩ := hmem
  have hu := unlock_eq hE hS R
  have hinit : Passwords.initialized t.ps = true := R.initialized
  have hacc : Accepted C.env t.ps good := by
    refine ⟨by rw [hp]; exact h6, ?_⟩
    show ask C.env (openWith s.world data) _ = _
    rw [hp, ask, run, hu p R.primary, if_pos rfl]; rfl
  have href : ∀ l ∈ bad, Refused C.env t.ps l := by
    intro l hl
    by_cases h6' : (utf8 (trim l)).length < 6
    · exact .inl h6'
    · refine .inr ⟨.decryptionFailure, ?_⟩
      show ask C.env (openWith s.world data) _ = _
      rw [ask, run, hu _ (hlines l hl (Nat.le_of_not_lt h6')), if_neg (hbad l hl)]; rfl
  have hens := Props.C48_first_accepted C.env t hkey hinit bad good rest rfl href hacc
  set t' : CState := { t with
      ps := after C.env t.ps (.unlock (trim good)), secrets := rest,
      out := t.out ++ (List.replicate (bad.length + 1) (c!"Your primary password: ")).flatten,
      errors := t.errors ++ bad.map (refusal C.env t.ps) } with ht'
  have hps : t'.ps = { openWith s.world data with
      key := some (keyFor C.env.prims p (saltAt C.env pos)), hmacSecret := some (secretAt C.env pos), primaryPassword := some p } := by
    show after C.env (openWith s.world data) (.unlock (trim good)) = _
    rw [hp, after, run, hu p R.primary, if_pos rfl]
  have hk' : t'.ps.key.isSome = true := by rw [hps]; rfl
  have hi' : Passwords.initialized t'.ps = true := by rw [hps]; exact hinit
  have hkept : Kept C.env U p a i sec t'.ps := by
    show Kept C.env U p a i sec (after C.env (openWith s.world data) (.unlock (trim good)))
    refine kept_step hE hS ha hi hir (kept_load hE hS ha hi hir h hd) _ ?_ trivial (by simp) trivial
    show U.primary (trim good)
    rw [hp]; exact R.primary
  obtain ⟨-, A', hrep', hK'⟩ := hkept
  have hget : ask C.env t'.ps (.get a n r) = .ok (.text v) := by
    rw [(keep_get hE hS hrep' ha hn hr hi hir hK').1 hk', hv]; rfl
  have hshow := (Props.C64_show C b a n r t' hk' hi').1 v hget
  have hsame : processCommand C b (.«show» a n r false) t = processCommand C b (.«show» a n r false) t' := by
    show «show» C a n r false t = «show» C a n r false t'
    unfold «show»
    rw [CM.bind_ok hens, CM.bind_ok (Props.C48_already C.env t' hk' hi')]
  rw [hres, hsame, hshow]
  refine ⟨rfl, ?_, ?_, ?_⟩
  · show t'.ps.world = _
    rw [hps]
  · simp [ht', ht]
  · have hmap : bad.map (refusal C.env t.ps) = bad.map fun l =>
        .error (if (utf8 (trim l)).length < 6 then .primaryTooShort else .lib .decryptionFailure) := by
      refine List.map_congr_left fun l hl => ?_
      rw [refusal]
      by_cases h6' : (utf8 (trim l)).length < 6
      · rw [if_pos h6', if_pos h6']
      · rw [if_neg h6', if_neg h6']
        have : ask C.env t.ps (.unlock (trim l)) = .err .decryptionFailure := by
          show ask C.env (openWith s.world data) _ = _
          rw [ask, run, hu _ (hlines l hl (Nat.le_of_not_lt h6')), if_neg (hbad l hl)]; rfl
        rw [this]
    rw [← hmap]
    rfl

end

theorem kept_stored (hE : E.Lawful) (hS : Secure E U) {s : PState} (hs : SoundReachable E U s) {a n r v : Str} (ha : U.site a)
    (hn : U.name n) (hr : U.revision r) (hok : ask E s (.setStored a n r v) = .ok .unit) :
    ∃ p i, s.primaryPassword = some p ∧ i.name = n ∧ i.revision = revisionOf r ∧
      Kept E U p a i (.stored v) (after E s (.setStored a n r v)) := by
  obtain ⟨A, pos, p, V, ho⟩ := open_of_ok' hE hS (SoundReachable.reachable hs) rfl (by simp) hok
  obtain ⟨wr, _, h2, pos', ho'⟩ := ho.setStored hE hS v ⟨ha, hn, hr⟩
  have h2' := h2
  rw [hok] at h2'
  have := result_ok h2'.symm
  subst this
  obtain ⟨d, hd, -⟩ := Props.C35_written hE s (by exact ho.store.vault.nodup) _ (.inl rfl) hok
  exact ⟨p, V.idOf a n r, ho.session.2.2, rfl, rfl, ⟨.step hs _ ⟨ha, hn, hr⟩ trivial (by simp), fun _ => ⟨d, hd⟩⟩, _, ho'.rep,
    keepA_commit (good_put V a n r (.stored v))⟩

theorem kept_generated (hE : E.Lawful) (hS : Secure E U) {s : PState} (hs : SoundReachable E U s) {a n r : Str} {len : UInt64}
    {cs : CharacterSet} (ha : U.site a) (hn : U.name n) (hr : U.revision r) (hsound : Op.Sound (.setGenerated a n r len cs))
    (hok : ask E s (.setGenerated a n r len cs) = .ok .unit) :
    ∃ p, s.primaryPassword = some p ∧ Kept E U p a ⟨siteMeant E s a, n, revisionOf r⟩ (.generated len cs)
      (after E s (.setGenerated a n r len cs)) := by
  obtain ⟨A, pos, p, V, ho⟩ := open_of_ok' hE hS (SoundReachable.reachable hs) rfl (by simp) hok
  obtain ⟨wr, _, h2, pos', ho'⟩ := ho.setGenerated hE hS len cs ⟨ha, hn, hr⟩
  have h2' := h2
  rw [hok] at h2'
  have := result_ok h2'.symm
  subst this
  obtain ⟨d, hd, -⟩ := Props.C35_written hE s (by exact ho.store.vault.nodup) _ (.inl rfl) hok
  refine ⟨p, ho.session.2.2, ⟨.step hs _ ⟨ha, hn, hr⟩ hsound (by simp), fun _ => ⟨d, hd⟩⟩, _, ho'.rep, ?_⟩
  rw [ho.siteMeant_eq hE hS ha]
  exact keepA_commit (good_put V a n r (.generated len cs))

namespace Props

/-- **C65 (stored).** A password entered is shown by a later run of the program: whatever other runs — with whatever
commands, whether they succeed or fail, and whether their writes succeed or fail — take place in between, as long as none of
their commands concerns this password, its site's alias or the primary password, and as long as the file can be read in the
end.  After lines other than the primary password it is asked for again, and the reason is told. -/
theorem C65_stored (C : CEnv) (hE : C.env.Lawful) (hS : Secure C.env U) (hstar : ∀ t, C.env.wild (c!"*") t = true)
    (s : PState) (hs : SoundReachable C.env U s) (a n r v : Str) (ha : U.site a) (hn : U.name n) (hr : U.revision r)
    (hok : ask C.env s (.setStored a n r v) = .ok .unit) (xs : List Run) (hxs : ∀ x ∈ xs, x.Within U)
    (hleave : RunsLeave C a n r xs (after C.env s (.setStored a n r v))) (data : Data)
    (hdata : FileIO.load (runPrograms C xs (after C.env s (.setStored a n r v))).world.disk = .ok data) :
    ∃ p, s.primaryPassword = some p ∧
    ∀ (b : Bool) (bad : List Str) (good : Str) (rest : List Str), trim good = p → 6 ≤ (utf8 p).length →
    LinesWithin U bad → (∀ l ∈ bad, trim l ≠ p) → ∀ (events : List ShellEvent) (garbled : Bool) (confirms : List Bool)
    (answers : List (Option Str)),
    let res := (⟨b, .«show» a n r false, events, bad ++ good :: rest, garbled, confirms, answers⟩ : Run).result C
      (runPrograms C xs (after C.env s (.setStored a n r v)))
    res.1 = .ok () ∧
    res.2.ps.world.disk = (runPrograms C xs (after C.env s (.setStored a n r v))).world.disk ∧
    res.2.out = (List.replicate (bad.length + 1) (c!"Your primary password: ")).flatten ++
      (c!"Password retrieved." ++ v ++ c!"\n") ∧
    res.2.errors = bad.map fun l => .error (if (utf8 (trim l)).length < 6 then .primaryTooShort else .lib .decryptionFailure) := by
  obtain ⟨p, i, h1, h2, h3, hk⟩ := kept_stored hE hS hs ha hn hr hok
  refine ⟨p, h1, ?_⟩
  have hk' := kept_runs C hE hS hstar ha h2 h3 xs _ hxs hk hleave
  intro b bad good rest hp h6 hl hbad ev ga co an
  obtain ⟨q1, q2, q3⟩ := kept_show C hE hS ha hn hr h2 h3 hk' (v := v) rfl hdata b bad good rest hp h6 hl hbad ev ga co an
  exact ⟨q1, by rw [q2]; rfl, q3⟩

/-- **C65 (generated).** The same for generated passwords: shown is the text derived from the primary password, for the
site meant when the password was entered. -/
theorem C65_generated (C : CEnv) (hE : C.env.Lawful) (hS : Secure C.env U) (hstar : ∀ t, C.env.wild (c!"*") t = true)
    (s : PState) (hs : SoundReachable C.env U s) (a n r : Str) (len : UInt64) (cs : CharacterSet) (ha : U.site a)
    (hn : U.name n) (hr : U.revision r) (hsound : Op.Sound (.setGenerated a n r len cs))
    (hok : ask C.env s (.setGenerated a n r len cs) = .ok .unit) (xs : List Run) (hxs : ∀ x ∈ xs, x.Within U)
    (hleave : RunsLeave C a n r xs (after C.env s (.setGenerated a n r len cs))) (data : Data)
    (hdata : FileIO.load (runPrograms C xs (after C.env s (.setGenerated a n r len cs))).world.disk = .ok data) :
    ∃ p v, s.primaryPassword = some p ∧
    Crypto.derivePassword C.env.prims p (saltText ⟨siteMeant C.env s a, n, revisionOf r⟩) len.toNat cs = .ok v ∧
    ∀ (b : Bool) (bad : List Str) (good : Str) (rest : List Str), trim good = p → 6 ≤ (utf8 p).length →
    LinesWithin U bad → (∀ l ∈ bad, trim l ≠ p) → ∀ (events : List ShellEvent) (garbled : Bool) (confirms : List Bool)
    (answers : List (Option Str)),
    let res := (⟨b, .«show» a n r false, events, bad ++ good :: rest, garbled, confirms, answers⟩ : Run).result C
      (runPrograms C xs (after C.env s (.setGenerated a n r len cs)))
    res.1 = .ok () ∧
    res.2.ps.world.disk = (runPrograms C xs (after C.env s (.setGenerated a n r len cs))).world.disk ∧
    res.2.out = (List.replicate (bad.length + 1) (c!"Your primary password: ")).flatten ++
      (c!"Password retrieved." ++ v ++ c!"\n") ∧
    res.2.errors = bad.map fun l => .error (if (utf8 (trim l)).length < 6 then .primaryTooShort else .lib .decryptionFailure) := by
  obtain ⟨p, h1, hk⟩ := kept_generated hE hS hs ha hn hr hsound hok
  have hk' := kept_runs C hE hS hstar ha rfl rfl xs _ hxs hk hleave
  obtain ⟨v, hv, -⟩ := C01_generated_length C.env.prims hE.prims p (saltText ⟨siteMeant C.env s a, n, revisionOf r⟩) len.toNat cs
    (Nat.le_trans (by decide) hsound.1) (Nat.le_trans hsound.2.1 (by decide)) hsound.2.2
  refine ⟨p, v, h1, hv, ?_⟩
  intro b bad good rest hp h6 hl hbad ev ga co an
  obtain ⟨q1, q2, q3⟩ := kept_show C hE hS ha hn hr rfl rfl hk' (v := v) hv hdata b bad good rest hp h6 hl hbad ev ga co an
  exact ⟨q1, by rw [q2]; rfl, q3⟩

/-- **C65 (readable).** If no write fails, the file can be read in the end. -/
theorem C65_readable (C : CEnv) (hE : C.env.Lawful) (hS : Secure C.env U) (hstar : ∀ t, C.env.wild (c!"*") t = true)
    (hfs : ∀ k, C.env.fs k = .ok) (s : PState) (hs : SoundReachable C.env U s) (a n r v : Str) (ha : U.site a)
    (hn : U.name n) (hr : U.revision r) (hok : ask C.env s (.setStored a n r v) = .ok .unit) (xs : List Run)
    (hxs : ∀ x ∈ xs, x.Within U) (hleave : RunsLeave C a n r xs (after C.env s (.setStored a n r v))) :
    ∃ data, FileIO.load (runPrograms C xs (after C.env s (.setStored a n r v))).world.disk = .ok data := by
  obtain ⟨p, i, -, h2, h3, hk⟩ := kept_stored hE hS hs ha hn hr hok
  exact (kept_runs C hE hS hstar ha h2 h3 xs _ hxs hk hleave).1.2 hfs

/-! ### An example: the hypotheses are met -/

def exampleRuns : List Run :=
  [⟨false, .«alias» (c!"b") (some (c!"a")) false, [], [c!"secret1"], false, [], []⟩,
   ⟨true, .shell, [.command (.remove (c!"a") (c!"v") []), .lock, .noCommand, .command (.list (c!"*") (c!"*") true true true),
      .exit], [c!"wrong", c!"secret1"], true, [], []⟩]

example : ask Toy.env Toy.fresh (.setStored (c!"a") (c!"u") [] (c!"x")) = .ok .unit ∧
    (∀ x ∈ exampleRuns, x.Within Toy.univ) ∧
    RunsLeave Toy.cenv (c!"a") (c!"u") [] exampleRuns (after Toy.env Toy.fresh (.setStored (c!"a") (c!"u") [] (c!"x"))) ∧
    (∀ t, Toy.env.wild (c!"*") t = true) ∧ ∀ k, Toy.env.fs k = .ok := by
  refine ⟨Toy.one_ok, ?_, ?_, ?_, fun _ => rfl⟩
  · intro x hx
    simp only [exampleRuns, List.mem_cons, List.not_mem_nil, or_false] at hx
    rcases hx with rfl | rfl
    · refine ⟨⟨Toy.site_b, ?_⟩, by simp, ?_⟩
      · intro t ht; cases ht; exact Toy.site_a
      · intro l hl _
        simp only [List.mem_cons, List.not_mem_nil, or_false] at hl
        subst hl
        show _ ∈ Toy.primaries; decide
    · refine ⟨trivial, ?_, ?_⟩
      · intro e he
        simp only [List.mem_cons, List.not_mem_nil, or_false] at he
        rcases he with rfl | rfl | rfl | rfl | rfl
        · exact ⟨Toy.site_a, Toy.name_v, Toy.revision_nil⟩
        all_goals trivial
      · intro l hl h6
        simp only [List.mem_cons, List.not_mem_nil, or_false] at hl
        rcases hl with rfl | rfl
        · exact absurd h6 (by decide)
        · show _ ∈ Toy.primaries; decide
  · refine ⟨⟨by simp, fun data _ => ⟨by simp, fun _ _ => ?_⟩⟩, ⟨by simp, fun data _ => ⟨fun _ => ?_, by simp⟩⟩, trivial⟩
    · show canonical (c!"b") ≠ canonical (c!"a"); decide
    · refine ⟨.inr (.inr fun _ => ?_), .inr (.inr fun _ => .inl (by decide)), trivial⟩
      show ¬SameEntry _ _ _ _ _ _ _ _
      rintro ⟨-, h, -⟩
      exact absurd h (by decide)
  · exact Toy.wild_star

end Props

end Pfp
