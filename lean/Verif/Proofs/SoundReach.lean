import Verif.Proofs.Cli

/-!
# States reached by commands
-/

namespace Pfp
open Spec Cli

variable {E : Env} {U : Universe}

theorem SoundReachable.reachable {s : PState} (h : SoundReachable E U s) : Reachable E U s := by
  induction h with
  | start h => exact .start h
  | foreign h _ => exact .foreign h
  | meanwhile _ _ hm ih iho => exact .meanwhile ih iho hm
  | step _ op hop _ hreset ih => exact .step ih op hop hreset

theorem soundVault_empty : SoundVault .empty := fun _ _ _ _ h => by cases h

/-- This holds for the table in memory and for the one in the file. -/
structure SoundState (a : AState) : Prop where
  mem : ∀ p V, a.mem = .store p V → SoundVault V
  disk : ∀ p V, a.disk = .store p V → SoundVault V

theorem soundState_commit {a : AState} (h : SoundState a) {p : Str} {V : Vault} (hV : SoundVault V) (w : Write) :
    SoundState (a.commit p V w).2 := by
  refine ⟨fun p' V' h' => ?_, fun p' V' h' => ?_⟩
  · cases h'; exact hV
  · simp only [AState.commit] at h'
    cases w <;> simp only [Write.disk] at h'
    · cases h'; exact hV
    · exact h.disk _ _ h'
    · exact h.disk _ _ h'
    · cases h'
    · cases h'; exact hV

theorem soundVault_put {V : Vault} (h : SoundVault V) {id : PasswordId} {e : Entry}
    (he : ∀ length charset notes, e = ⟨.generated length charset, notes⟩ → 4 ≤ length.toNat ∧ length.toNat ≤ 24 ∧
      ∃ t : CharacterType, charset.contains t = true) : SoundVault (V.put id e) := by
  intro id' length charset notes h'
  simp only [Vault.put, update] at h'
  split at h'
  · cases h'; exact he _ _ _ rfl
  · exact h _ _ _ _ h'

theorem soundVault_know {V : Vault} (h : SoundVault V) (x : Str) : SoundVault (V.know x) := by
  unfold Vault.know
  split
  · exact h
  · exact h

theorem soundVault_forgetAll : ∀ (l : List Str) {V : Vault}, SoundVault V → SoundVault (V.forgetAll l).2
  | [], _, h => h
  | x :: l, V, h => by
    rw [Vault.forgetAll]
    split
    · exact h
    · exact soundVault_forgetAll l (V := V.forget x) h

theorem soundVault_delete {V : Vault} (h : SoundVault V) (id : PasswordId) : SoundVault (V.delete id) := by
  intro id' length charset notes h'
  simp only [Vault.delete, update] at h'
  split at h'
  · cases h'
  · exact h _ _ _ _ h'

theorem soundState_unlocked {derive : Str → PasswordId → UInt64 → CharacterSet → Res Str} {wild : Str → Str → Bool}
    {a : AState} {p : Str} {V : Vault} (h : SoundState a) (hm : a.mem = .store p V) (w : Write) (op : Op) (hs : op.Sound) :
    SoundState (astepUnlocked derive wild a p V w op).2 := by
  have hV := h.mem p V hm
  cases op with
  | setAlias x y =>
    simp only [astepUnlocked]
    split
    · exact h
    · split
      · exact h
      · exact soundState_commit h (V := V.link _ _) hV w
  | removeAlias x =>
    simp only [astepUnlocked]
    split
    · exact soundState_commit h (V := V.forget _) hV w
    · exact h
  | removeSites l =>
    simp only [astepUnlocked]
    split
    · exact h
    · split
      · exact soundState_commit h (soundVault_forgetAll l hV) w
      · exact ⟨fun p' V' h' => by cases h'; exact soundVault_forgetAll l hV, h.disk⟩
  | setGenerated x n r len cs =>
    refine soundState_commit h (soundVault_put (soundVault_know hV _) ?_) w
    intro l c t h'; cases h'; exact hs
  | setStored x n r v =>
    refine soundState_commit h (soundVault_put (soundVault_know hV _) ?_) w
    intro l c t h'; cases h'
  | setNotes x n r t =>
    simp only [astepUnlocked]
    split
    · rename_i e he
      refine soundState_commit h (soundVault_put hV ?_) w
      intro l c t' h'
      obtain ⟨sec, nt⟩ := e
      cases h'
      exact hV _ _ _ _ he
    · exact h
  | remove x n r =>
    simp only [astepUnlocked]
    split
    · exact soundState_commit h (soundVault_delete hV _) w
    · exact h
  | getAlias => simp only [astepUnlocked]; split <;> exact h
  | get => simp only [astepUnlocked]; split <;> exact h
  | getNotes => simp only [astepUnlocked]; split <;> exact h
  | _ => exact h

theorem soundState_step {derive : Str → PasswordId → UInt64 → CharacterSet → Res Str} {wild : Str → Str → Bool}
    {a : AState} (h : SoundState a) (ha : Intact a) (w : Write) (op : Op) (hs : op.Sound) :
    SoundState (astep derive wild w a op).2 := by
  by_cases hsp : special op = true
  · cases op with
    | reset p =>
      simp only [astep, AState.afterReset]
      split
      · exact ⟨fun _ _ h' => by cases h'; exact soundVault_empty, fun _ _ h' => by cases h'; exact soundVault_empty⟩
      · refine ⟨fun p' V' h' => ?_, fun p' V' h' => ?_⟩
        · simp only [AState.afterFailedReset] at h'
          split at h'
          · cases h'; exact soundVault_empty
          · split at h'
            · cases h'
            · cases h'; exact soundVault_empty
          · cases h'
        · cases w <;> simp only [Write.disk] at h'
          · cases h'; exact soundVault_empty
          · exact h.disk _ _ h'
          · exact h.disk _ _ h'
          · cases h'
          · cases h'; exact soundVault_empty
    | reload =>
      simp only [astep]
      split
      · exact h
      · exact h
      · rename_i p V hd
        exact ⟨fun _ _ h' => by cases h'; exact h.disk _ _ hd, h.disk⟩
      · rename_i hd; exact absurd hd ha.2
    | lock => exact ⟨h.mem, h.disk⟩
    | unlock p =>
      simp only [astep]
      split <;> first | exact h | (rename_i h'; exact absurd h' ha.1) | skip
      all_goals (try split) <;> exact ⟨h.mem, h.disk⟩
    | initialized =>
      have := ha.1
      simp only [astep]
      split <;> simp_all
    | unlocked =>
      have := ha.1
      simp only [astep]
      exact h
    | _ => cases hsp
  · have hsp : special op = false := by simpa using hsp
    cases hm : a.mem with
    | torn => exact absurd hm ha.1
    | blank =>
      have : astep derive wild w a op = astepLocked a op := by
        cases op <;> first | exact Bool.noConfusion hsp | simp only [astep, hm]
      rw [this, astepLocked_state]; exact h
    | store p V =>
      have : astep derive wild w a op =
          if a.unlocked then astepUnlocked derive wild a p V w op else astepLocked a op := by
        cases op <;> first | exact Bool.noConfusion hsp | simp only [astep, hm]
      rw [this]
      split
      · exact soundState_unlocked h hm w op hs
      · rw [astepLocked_state]; exact h

theorem sound_reach (hE : E.Lawful) (hS : Secure E U) {s : PState} (h : SoundReachable E U s) :
    ∃ a, Rep E U s a ∧ Intact a ∧ SoundState a := by
  induction h with
  | start h =>
    refine ⟨_, initial_rep h, ⟨by simp [initialA], ?_⟩, fun _ _ h' => by simp [initialA] at h', fun _ _ h' => ?_⟩
    · unfold initialA
      simp only
      split <;> simp
    · unfold initialA at h'
      simp only at h'
      split at h' <;> simp at h'
  | foreign h hV =>
    refine ⟨_, foreign_rep h, ⟨by simp [foreignA], by simp [foreignA]⟩, fun _ _ h' => by simp [foreignA] at h', ?_⟩
    intro _ _ h'
    simp only [foreignA, Disk.store.injEq] at h'
    exact h'.2 ▸ hV
  | meanwhile h ho hm ih iho =>
    obtain ⟨a, hrep, ha, hs⟩ := ih
    obtain ⟨b, hrep', hb, hs'⟩ := iho
    obtain ⟨d, hd, hd'⟩ := rep_meanwhile hrep hrep' hm
    refine ⟨_, hd, ⟨ha.1, ?_⟩, ⟨hs.mem, ?_⟩⟩
    · rcases hd' with rfl | rfl
      · exact hb.2
      · simp
    · rcases hd' with rfl | rfl
      · exact hs'.disk
      · intro p V h; cases h
  | step h op hop hsound hreset ih =>
    obtain ⟨a, hrep, ha, hs⟩ := ih
    obtain ⟨wr, _, h1, h2⟩ := step hE hS hrep op hop
    refine ⟨_, h2, astep_intact ha op ?_, soundState_step hs ha wr op hsound⟩
    rintro p rfl
    rcases hreset p rfl with h | h
    · left
      have h1 : _ = _ := h1
      rw [h] at h1
      exact result_ok h1.symm
    · right
      have hmem := hrep.mem
      cases hm : a.mem with
      | blank => rw [hm] at hmem; exact hmem.2.1
      | torn => exact absurd hm ha.1
      | store q V =>
        rw [hm] at hmem
        obtain ⟨pos, _, hses⟩ := hmem
        cases hu : a.unlocked with
        | false => rfl
        | true => rw [hu] at hses; rw [hses.1] at h; cases h

theorem sound_open (hE : E.Lawful) (hS : Secure E U) {s : PState} (h : SoundReachable E U s) (hu : s.key.isSome = true) :
    ∃ a pos p V, Open E U s a pos p V ∧ SoundVault V := by
  obtain ⟨a, hrep, ha, hs⟩ := sound_reach hE hS h
  obtain ⟨pos, p, V, ho⟩ := open_of_rep hrep ha hu
  exact ⟨a, pos, p, V, ho, hs.mem p V ho.mem⟩

theorem listSites_unlocked {s : PState} {q : Str} {m : List Site} (h : Passwords.listSites E s q = .ok m) :
    s.key.isSome = true := by
  cases hk : s.key with
  | some k => rfl
  | none => 
    simp only [Passwords.listSites, hk, Passwords.orPanic] at h
    cases h

theorem seen_site (hE : E.Lawful) (hS : Secure E U) {x : Str} (h : Seen E (SoundReachable E U) x) : U.site x := by
  obtain ⟨ps, q, m, hr, hl, y, hy, h⟩ := h
  obtain ⟨a, pos, p, V, ho⟩ := reach_open hE hS (SoundReachable.reachable hr) (listSites_unlocked hl)
  obtain ⟨l, h1, -, h2⟩ := ho.listSites hE hS q
  simp only [ask, run, hl, Res.map, Res.ok.injEq, Out.sites.injEq] at h1
  subst h1
  obtain ⟨g1, g2, -⟩ := ho.store.vault.site_in _ _ ((h2 y).mp hy).1
  rcases h with ⟨h, -⟩ | h
  · exact h ▸ g1
  · exact g2 _ h

/-- The operations a command with texts in use is entitled to are operations on texts in use. -/
theorem may_within (hE : E.Lawful) (hS : Secure E U) {lines : List Str} (hl : LinesWithin U lines) {c : Command}
    (hc : Command.Within U c) {op : Op} (h : May lines c op)
    (hx : ∀ l, op = .removeSites l → ∀ x ∈ l, Seen E (SoundReachable E U) x) : op.Within U ∧ op.Sound := by
  cases op with
  | unlock p =>
    have : ∃ line ∈ lines, p = trim line ∧ 6 ≤ (utf8 p).length := by cases c <;> exact h
    obtain ⟨line, h1, rfl, h2⟩ := this
    exact ⟨hl line h1 h2, trivial⟩
  | reset p =>
    cases c with
    | setPrimary y =>
      obtain ⟨line, h1, rfl, h2⟩ := h
      exact ⟨hl line h1 h2, trivial⟩
    | _ => simp [May] at h
  | removeSites l => exact ⟨fun x hx' => seen_site hE hS (hx l rfl x hx'), trivial⟩
  | setGenerated a n r len cs =>
    cases c with
    | add a' n' r' len' fl fu fd fs y =>
      obtain ⟨rfl, rfl, rfl, rfl, rfl, h⟩ := h
      obtain ⟨h1, h2, h3, h4, h5⟩ := hc
      refine ⟨⟨h1, h2, h3⟩, h4, h5, ?_⟩
      cases fl with
      | false => exact ⟨.lower, rfl⟩
      | true =>
        cases fu with
        | false => exact ⟨.upper, rfl⟩
        | true =>
          cases fd with
          | false => exact ⟨.digit, rfl⟩
          | true =>
            cases fs with
            | false => exact ⟨.symbol, rfl⟩
            | true => exact absurd ⟨rfl, rfl, rfl, rfl⟩ h
    | _ => simp [May] at h
  | setStored a n r v =>
    cases c with
    | addStored a' n' r' rec y => obtain ⟨rfl, rfl, rfl, -⟩ := h; exact ⟨hc, trivial⟩
    | _ => simp [May] at h
  | setNotes a n r t =>
    cases c with
    | notes a' n' r' st =>
      cases st with
      | true => obtain ⟨rfl, rfl, rfl, -⟩ := h; exact ⟨hc, trivial⟩
      | false => simp [May] at h
    | _ => simp [May] at h
  | remove a n r =>
    cases c with
    | remove a' n' r' => obtain ⟨rfl, rfl, rfl⟩ := h; exact ⟨hc, trivial⟩
    | _ => simp [May] at h
  | setAlias a b =>
    cases c with
    | «alias» a' t rm =>
      cases t with
      | some t' => obtain ⟨rfl, rfl⟩ := h; exact ⟨⟨hc.1, hc.2 _ rfl⟩, trivial⟩
      | none => simp [May] at h
    | _ => simp [May] at h
  | removeAlias a =>
    cases c with
    | «alias» a' t rm =>
      cases t with
      | some t' => simp [May] at h
      | none =>
        cases rm with
        | true => have h : a = a' := h; subst h; exact ⟨hc.1, trivial⟩
        | false => simp [May] at h
    | _ => simp [May] at h
  | getRecoveryCode p => exact ⟨trivial, trivial⟩
  | _ => cases c <;> simp [May] at h

theorem may_reset {lines : List Str} {c : Command} {op : Op} (h : May lines c op) (hc : ∀ y, c ≠ .setPrimary y) (p : Str) :
    op ≠ .reset p := by
  rintro rfl
  cases c with
  | setPrimary y => exact hc y rfl
  | _ => simp [May] at h

end Pfp
