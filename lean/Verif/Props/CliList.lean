import Verif.Proofs.Listing
import Verif.Props.Contents
import Verif.Props.CliReach

/-!
# The `list` command: C49, C50, C51, C61
-/

namespace Pfp
open Spec Cli

variable {E : Env} {U : Universe}

theorem Open.drawn {s : PState} {A : AState} {pos : Origin} {p : Str} {V : Vault} (ho : Open E U s A pos p V) (k : Nat) :
    Open E U (drawn s k) A pos p V where
  rep := ⟨by
    have := ho.rep.mem
    cases hm : A.mem <;> rw [hm] at this <;> exact this, ho.rep.disk⟩
  intact := ho.intact
  unlocked := ho.unlocked
  mem := ho.mem
  store := ho.store
  session := ho.session

theorem Open.initialized {s : PState} {A : AState} {pos : Origin} {p : Str} {V : Vault} (ho : Open E U s A pos p V) :
    Passwords.initialized s = true := by
  show Storage.initialized s.world = true
  unfold Storage.initialized FileIO.containsKey Data.contains
  simp only [Bool.and_eq_true]
  rw [ho.store.salt, ho.store.secret]
  exact ⟨rfl, rfl⟩

theorem Open.key {s : PState} {A : AState} {pos : Origin} {p : Str} {V : Vault} (ho : Open E U s A pos p V) :
    s.key.isSome = true := by
  have := ho.session.1
  rw [this]; rfl

/-- Removing sites until one is not known. -/
theorem forgetAll_any : ∀ (l : List Str) (V : Vault), l.Nodup → ∃ l₁, l₁ <+: l ∧
    (V.forgetAll l).2.passwords = V.passwords ∧
    (∀ y, (V.forgetAll l).2.sites y = if y ∈ l₁ then none else V.sites y) ∧
    (((V.forgetAll l).1 = true ∧ l₁ = l ∧ ∀ x ∈ l, V.sites x ≠ none) ∨
      ((V.forgetAll l).1 = false ∧ ∃ x ∈ l, V.sites x = none))
  | [], V, _ => ⟨[], by simp, by simp [Vault.forgetAll], by simp [Vault.forgetAll], by simp [Vault.forgetAll]⟩
  | x :: l, V, hn => by
    obtain ⟨hx, hn⟩ := List.nodup_cons.mp hn
    rw [Vault.forgetAll]
    by_cases hV : V.sites x = none
    · rw [if_pos hV]
      exact ⟨[], by simp, rfl, by simp, Or.inr ⟨rfl, x, by simp, hV⟩⟩
    · rw [if_neg hV]
      obtain ⟨l₁, h1, h2, h3, h4⟩ := forgetAll_any l (V.forget x) hn
      have hother : ∀ y ∈ l, (V.forget x).sites y = V.sites y := by
        intro y hy
        have : y ≠ x := fun he => hx (he ▸ hy)
        simp [Vault.forget, update, this]
      refine ⟨x :: l₁, List.cons_prefix_cons.mpr ⟨rfl, h1⟩, h2, fun y => ?_, ?_⟩
      · rw [h3]
        by_cases hy : y ∈ l₁
        · simp [hy]
        · by_cases hyx : y = x
          · simp [hyx, Vault.forget, update]
          · simp [hy, hyx, Vault.forget, update]
      · rcases h4 with ⟨g1, g2, g3⟩ | ⟨g1, y, hy, g2⟩
        · refine Or.inl ⟨g1, by rw [g2], fun y hy => ?_⟩
          rcases List.mem_cons.mp hy with rfl | hy
          · exact hV
          · rw [← hother y hy]; exact g3 y hy
        · exact Or.inr ⟨g1, y, List.mem_cons_of_mem _ hy, by rw [← hother y hy]; exact g2⟩

/-- `remove_sites` in an unlocked storage. -/
theorem Open.removeSites {s : PState} {A : AState} {pos : Origin} {p : Str} {V : Vault} (ho : Open E U s A pos p V)
    (hE : E.Lawful) (hS : Secure E U) {l : List Str} (hl : ∀ x ∈ l, U.site x) (hnd : l.Nodup) :
    ∃ l₁ A' pos' V', l₁ <+: l ∧ Open E U (after E s (.removeSites l)) A' pos' p V' ∧ V'.passwords = V.passwords ∧
      (∀ y, V'.sites y = if y ∈ l₁ then none else V.sites y) ∧
      (((∀ x ∈ l, V.sites x ≠ none) ∧ l₁ = l ∧
        (ask E s (.removeSites l) = .ok .unit ∨ ∃ e, ask E s (.removeSites l) = .err e ∧ WriteError e) ∧
        (l ≠ [] → E.fs s.world.fpos = .ok → ask E s (.removeSites l) = .ok .unit)) ∨
       ((∃ x ∈ l, V.sites x = none) ∧ ask E s (.removeSites l) = .err .keyMissing ∧
        (after E s (.removeSites l)).world.disk = s.world.disk)) := by
  by_cases hne : l = []
  · subst hne
    exact ⟨[], A, pos, V, by simp, ho, rfl, by simp, Or.inl ⟨by simp, rfl, Or.inl rfl, by simp⟩⟩
  · obtain ⟨l₁, h1, h2, h3, h4⟩ := forgetAll_any l V hnd
    have hstep := ho.stepOk hE hS (.removeSites l) hl rfl
    rcases h4 with ⟨g1, g2, g3⟩ | ⟨g1, hx⟩
    · simp only [astepUnlocked, if_neg hne, if_pos g1] at hstep
      have hc := ho.changes hstep
      have hres := hc.result
      have hok := fun h => (hc.ok h).1
      obtain ⟨_, _, _, pos', ho'⟩ := hc
      exact ⟨l₁, _, pos', _, h1, ho', h2, h3, Or.inl ⟨g3, g2, hres, fun _ => hok⟩⟩
    · simp only [astepUnlocked, if_neg hne, g1] at hstep
      obtain ⟨wr, _, k2, k3⟩ := hstep
      simp only [Bool.false_eq_true, if_false] at k2 k3
      have hask : ask E s (.removeSites l) = .err .keyMissing := k2
      obtain ⟨pos', R, hses⟩ := k3.mem
      have ho' : Open E U (after E s (.removeSites l)) _ pos' p (V.forgetAll l).2 :=
        ⟨k3, ⟨by simp, ho.intact.2⟩, ho.unlocked, rfl, R, by rw [ho.unlocked] at hses; exact hses⟩
      refine ⟨l₁, _, pos', _, h1, ho', h2, h3, Or.inr ⟨hx, hask, ?_⟩⟩
      rcases run_changing E (.removeSites l) (by simp [Op.changes, hne]) s with ⟨e, _, h⟩ | ⟨_, h⟩ | ⟨_, h⟩
      · rw [after, h]
        exact (quiet_pre E _ s).1.1
      · rw [ask, h] at hask; cases hask
      · rw [ask, h] at hask
        exact absurd (map_err_iff.mp hask) (Props.flush_noKeyMissing _)

/-- The end of the `list` command. -/
def listEnd (E : Env) (r : Bool × List Str) : CM Unit :=
  call (Passwords.removeSites E r.2) >>= fun _ => if r.1 = true then pure () else println (c!"No matching passwords found.")

/-- The `list` command in an unlocked storage. -/
theorem Open.list_run {s : PState} {A : AState} {pos : Origin} {p : Str} {V : Vault} (ho : Open E U s A pos p V)
    (hE : E.Lawful) (hS : Secure E U) (d n : Str) :
    ∃ (m : List Site) (rows : Str → List Password), ask E s (.listSites d) = .ok (.sites m) ∧ (m.map Site.name).Nodup ∧
      (∀ x, x ∈ m ↔ V.sites x.name = some x.alias ∧ Matches E d x) ∧
      (∀ y ∈ listedSites (candidateSites m), U.site y ∧ Passwords.list E s y n = .ok (rows y) ∧
        ask E s (.list y n) = .ok (.passwords (rows y)) ∧
        ∀ x, x ∈ rows y ↔ ∃ id e, V.passwords id = some e ∧ x = Vault.record id e ∧ id.site = V.resolve y ∧
          E.wild n id.name = true) ∧
      ∀ (cs : CState) (a b c : Bool), cs.ps = s → Cli.list E d n a b c cs =
        (listLoop E n a b c (candidateSites m) (listedSites (candidateSites m)) >>= listEnd E) cs := by
  obtain ⟨m, h1, h2, h3⟩ := ho.listSites hE hS d
  have hnd : (m.map Site.name).Nodup := by
    refine List.Nodup.map_on ?_ h2
    intro x hx y hy hxy
    have h4 := ((h3 x).mp hx).1
    have h5 := ((h3 y).mp hy).1
    obtain ⟨xn, xa⟩ := x
    obtain ⟨yn, ya⟩ := y
    cases hxy
    rw [h4] at h5
    cases h5
    rfl
  have hsite : ∀ y ∈ listedSites (candidateSites m), U.site y := by
    intro y hy
    rcases (mem_listed_iff hnd y).mp hy with h | ⟨⟨x, hx, ha⟩, -⟩
    · exact (ho.store.vault.site_in _ _ ((h3 _).mp h).1).1
    · exact (ho.store.vault.site_in _ _ ((h3 x).mp hx).1).2.1 y ha
  have hrow : ∀ y, ∃ l, y ∈ listedSites (candidateSites m) → Passwords.list E s y n = .ok l ∧
        ask E s (.list y n) = .ok (.passwords l) ∧
        ∀ x, x ∈ l ↔ ∃ id e, V.passwords id = some e ∧ x = Vault.record id e ∧ id.site = V.resolve y ∧
          E.wild n id.name = true := by
    intro y
    by_cases hy : y ∈ listedSites (candidateSites m)
    · obtain ⟨l, g1, -, g3⟩ := ho.list hE hS n (hsite y hy)
      refine ⟨l, fun _ => ⟨?_, g1, g3⟩⟩
      simp only [ask, run] at g1
      cases hl : Passwords.list E s y n with
      | ok l' => rw [hl] at g1; cases g1; rfl
      | err e => rw [hl] at g1; cases g1
      | panic => rw [hl] at g1; cases g1
    · exact ⟨[], fun h => absurd h hy⟩
  obtain ⟨rows, hrows⟩ := Classical.axiomOfChoice hrow
  refine ⟨m, rows, h1, hnd, h3, fun y hy => ⟨hsite y hy, hrows y hy⟩, fun cs a b c hcs => ?_⟩
  have hu : ensureUnlocked E cs = (.ok (), cs) :=
    Props.C48_already E cs (by rw [hcs]; exact ho.key) (by rw [hcs]; exact ho.initialized)
  have hm : Passwords.listSites E cs.ps d = .ok m := by
    rw [hcs]
    simp only [ask, run] at h1
    cases hl : Passwords.listSites E s d with
    | ok l' => rw [hl] at h1; cases h1; rfl
    | err e => rw [hl] at h1; cases h1
    | panic => rw [hl] at h1; cases h1
  unfold Cli.list
  rw [CM.bind_apply, hu]
  simp only
  have hq : (query fun s => Passwords.listSites E s d) cs = (.ok m, cs) := by
    show (convert (Passwords.listSites E cs.ps d), cs) = _
    rw [hm]; rfl
  rw [CM.bind_apply, hq]
  rfl

/-- Recovery codes in an unlocked storage. -/
theorem Open.getRecoveryCode {s : PState} {A : AState} {pos : Origin} {p : Str} {V : Vault} (ho : Open E U s A pos p V)
    (hE : E.Lawful) (z : StoredPassword) (hz : E.overflowChecks = true → (utf8 z.password).length ≤ 256 * 14 - 45) (k : Nat) :
    ∃ c, Passwords.getRecoveryCode E z (Spec.drawn s k) = (.ok c, Spec.drawn s (k + 12)) := by
  obtain ⟨bs, e, -, -, -, -, h5, -⟩ := RecoveryCodes.generate_ok hE.prims (oc := E.overflowChecks) (nonce := FileIO.randBytes E k 12)
    (password := z.password) (salt := saltAt E pos) (key := keyFor E.prims p (saltAt E pos)) (randBytes_length _ _ _)
    (saltAt_length ho.store.origin) (keyFor_length hE.prims _ _) (by
      cases ho : E.overflowChecks with
      | false => exact .inl rfl
      | true => have := hz ho; exact .inr (by omega))
  refine ⟨layout e, ?_⟩
  unfold Passwords.getRecoveryCode
  have h1 : Storage.getSalt (Spec.drawn s k).world = .ok (saltAt E pos) := RepStore.getSalt_eq (w := (Spec.drawn s k).world) ho.store
  have h2 : okOr (Spec.drawn s k).key .passwordsLocked = .ok (keyFor E.prims p (saltAt E pos)) := by
    show okOr s.key _ = _
    rw [ho.session.1]; rfl
  simp only [M.bind_apply, M.get_apply, M.lift_apply, h1, h2]
  show ((RecoveryCodes.generate E.prims E.overflowChecks (FileIO.randBytes E k 12) z.password _ _), Spec.drawn s (k + 12)) = _
  rw [h5]

/-- What is listed can be shown. -/
theorem Open.showable {s : PState} {A : AState} {pos : Origin} {p : Str} {V : Vault} (ho : Open E U s A pos p V)
    (hE : E.Lawful) (hS : Secure E U) (hV : SoundVault V) {y : Str} (hy : U.site y) (a b : Bool) {id : PasswordId} {e : Entry}
    (he : V.passwords id = some e) (hid : id.site = V.resolve y)
    (hfit : b = true → E.overflowChecks = true → ∀ z, Vault.record id e = .stored z → (utf8 z.password).length ≤ 256 * 14 - 45) :
    Showable E s y a b (Vault.record id e) where
  value := by
    intro _
    have hU := (ho.store.vault.password_in _ _ he).1
    have hrid : (Vault.record id e).id = id := by
      obtain ⟨sec, notes⟩ := e
      cases sec <;> rfl
    rw [hrid]
    have hidOf : V.idOf y id.name id.revision = id := by
      unfold Vault.idOf revisionOf
      rw [if_neg (ho.store.vault.revision _ _ he), ← hid]
    have h := ho.ask_get hE hS hy hU.2.1 hU.2.2
    rw [hidOf, he] at h
    simp only at h
    have hval : ∃ v, valueOf (deriveWith E.prims) p id e = .ok v := by
      obtain ⟨sec, notes⟩ := e
      cases sec with
      | stored v => exact ⟨v, rfl⟩
      | generated len cs =>
        obtain ⟨h4, h24, hcs⟩ := hV _ _ _ _ he
        obtain ⟨v, hv, -⟩ := Props.C01_generated_length E.prims hE.prims p (saltText id) len.toNat cs (by omega) (by omega) hcs
        exact ⟨v, hv⟩
    obtain ⟨v, hv⟩ := hval
    rw [hv] at h
    simp only [ask, run] at h
    cases hg : Passwords.get E s y id.name id.revision with
    | ok v => exact ⟨v, rfl⟩
    | err e => rw [hg] at h; cases h
    | panic => rw [hg] at h; cases h
  code := fun hb z hz k => ho.getRecoveryCode hE z (fun hoc => hfit hb hoc z hz) k

/-- The `list` command when everything listed can be shown. -/
theorem Open.list_shown {cs : CState} {A : AState} {pos : Origin} {p : Str} {V : Vault} (ho : Open E U cs.ps A pos p V)
    (hE : E.Lawful) (hS : Secure E U) (hV : SoundVault V) (d n : Str) (a b c : Bool)
    (hfit : b = true → E.overflowChecks = true → ∀ y l z, ask E cs.ps (.list y n) = .ok (.passwords l) → .stored z ∈ l →
      (utf8 z.password).length ≤ 256 * 14 - 45) :
    ∃ (m : List Site) (rows : Str → List Password) (blocks : List (Str × Str)) (empty : List Str) (k : Nat),
      ask E cs.ps (.listSites d) = .ok (.sites m) ∧ (m.map Site.name).Nodup ∧
      (∀ y, Heading m y → ask E cs.ps (.list y n) = .ok (.passwords (rows y))) ∧
      blocks.map Prod.fst = (listedSites (candidateSites m)).filter (fun y => rows y ≠ []) ∧
      (∀ e ∈ blocks, SiteText E cs.ps a b c e.1 (aliasesOf (candidateSites m) e.1) (sortPasswords (rows e.1)) e.2) ∧
      empty = (if n = c!"*" then (listedSites (candidateSites m)).filter fun y => rows y = [] else []) ∧
      Cli.list E d n a b c cs = listEnd E (!blocks.isEmpty, empty) (shown cs.ps cs k (blocks.flatMap Prod.snd)) := by
  obtain ⟨m, rows, h1, h2, h3, h4, h5⟩ := ho.list_run hE hS d n
  have hsh : ∀ y ∈ listedSites (candidateSites m), ∀ x ∈ rows y, Showable E cs.ps y a b x := by
    intro y hy x hx
    obtain ⟨g1, g2, g3, g4⟩ := h4 y hy
    obtain ⟨id, e, he, rfl, hid, -⟩ := (g4 x).mp hx
    exact ho.showable hE hS hV g1 a b he hid fun hb hoc z hz => hfit hb hoc y _ z g3 (hz ▸ hx)
  obtain ⟨blocks, k, b1, b2, b3⟩ := listLoop_shown (c := c) (cands := candidateSites m) (fun y hy => (h4 y hy).2.1) hsh cs
    cs.ps.world.rpos []
  refine ⟨m, rows, blocks, _, k, h1, h2, fun y hy => (h4 y ((mem_listed_iff h2 y).mpr hy)).2.2.1, b1, b2, rfl, ?_⟩
  rw [h5 cs a b c rfl, CM.bind_apply]
  have : shown cs.ps cs cs.ps.world.rpos [] = cs := by simp [shown, Spec.drawn]
  rw [this] at b3
  rw [b3]
  rfl

theorem listEnd_result (E : Env) (r : Bool × List Str) (cs : CState) :
    (listEnd E r cs).1 = (match ask E cs.ps (.removeSites r.2) with
      | .ok _ => .ok ()
      | .err e => .err (.lib e)
      | .panic => .panic) ∧
    (listEnd E r cs).2.ps = after E cs.ps (.removeSites r.2) ∧
    ∃ tail, (listEnd E r cs).2.out = cs.out ++ tail ∧
      (r.1 = false → (listEnd E r cs).1 = .ok () → tail = c!"No matching passwords found.\n") ∧
      (r.1 = true ∨ (listEnd E r cs).1 ≠ .ok () → tail = []) := by
  unfold listEnd
  rw [CM.bind_apply]
  have hcall : call (Passwords.removeSites E r.2) cs = (convert (Passwords.removeSites E r.2 cs.ps).1,
      { cs with ps := (Passwords.removeSites E r.2 cs.ps).2 }) := rfl
  rw [hcall]
  simp only [ask, after, run]
  cases (Passwords.removeSites E r.2 cs.ps).1 with
  | ok u =>
    simp only [convert, Res.map]
    cases r.1 with
    | true => simp
    | false => simp [println, print]
  | err e => simp [convert, Res.map]
  | panic => simp [convert, Res.map]

namespace Props

/-! ## C49 -/

/-- **C49 (effect).** In every reachable unlocked state the `list` command does, apart from drawing random bytes for
recovery codes, nothing to the storage but one call of `remove_sites`; the sites are the ones shown for the pattern of
which no passwords are listed, and none at all if the name is not `*`.  (It may end before that call when a password
cannot be shown, and then the storage is unchanged.) -/
theorem C49_effect (C : CEnv) (hE : C.env.Lawful) (hS : Secure C.env U) (b : Bool) (cs : CState)
    (hs : Reachable C.env U cs.ps) (hu : cs.ps.key.isSome = true) (d n : Str) (showValues recovery verbose : Bool) :
    ∃ m empty k, ask C.env cs.ps (.listSites d) = .ok (.sites m) ∧ Ascending empty ∧
      (∀ y, y ∈ empty ↔ Heading m y ∧ n = c!"*" ∧ ask C.env cs.ps (.list y (c!"*")) = .ok (.passwords [])) ∧
      (((processCommand C b (.list d n showValues recovery verbose) cs).1 ≠ .ok () ∧
          (processCommand C b (.list d n showValues recovery verbose) cs).2.ps = drawn cs.ps k) ∨
        ((processCommand C b (.list d n showValues recovery verbose) cs).1 =
          (match ask C.env (drawn cs.ps k) (.removeSites empty) with
          | .ok _ => .ok ()
          | .err e => .err (.lib e)
          | .panic => .panic) ∧
        (processCommand C b (.list d n showValues recovery verbose) cs).2.ps =
          after C.env (drawn cs.ps k) (.removeSites empty))) := by
  obtain ⟨A, pos, p, V, ho⟩ := reach_open hE hS hs hu
  obtain ⟨m, rows, h1, h2, h3, h4, h5⟩ := ho.list_run hE hS d n
  have hps : cs.ps = drawn cs.ps cs.ps.world.rpos := rfl
  show ∃ m empty k, _ ∧ _ ∧ _ ∧ (((Cli.list C.env d n showValues recovery verbose cs).1 ≠ _ ∧
    (Cli.list C.env d n showValues recovery verbose cs).2.ps = _) ∨
    (Cli.list C.env d n showValues recovery verbose cs).1 = _ ∧
    (Cli.list C.env d n showValues recovery verbose cs).2.ps = _)
  rw [h5 cs showValues recovery verbose rfl]
  obtain ⟨k, hk⟩ := draws_listLoop (E := C.env) n showValues recovery verbose (candidateSites m)
    (listedSites (candidateSites m)) cs _ hps
  let empty := if n = c!"*" then (listedSites (candidateSites m)).filter fun y => rows y = [] else []
  have hasc : Ascending empty := by
    show Ascending (if n = c!"*" then _ else _)
    split
    · exact List.Pairwise.sublist (List.filter_sublist.map _) (listed_ascending m)
    · exact List.Pairwise.nil
  refine ⟨m, empty, k, h1, hasc, fun y => ?_, ?_⟩
  · show y ∈ (if n = c!"*" then _ else _) ↔ _
    by_cases hn : n = c!"*"
    · rw [if_pos hn, List.mem_filter, mem_listed_iff h2]
      constructor
      · rintro ⟨g1, g2⟩
        refine ⟨g1, hn, ?_⟩
        have := (h4 y ((mem_listed_iff h2 y).mpr g1)).2.2.1
        rw [hn, of_decide_eq_true g2] at this
        exact this
      · rintro ⟨g1, -, g2⟩
        refine ⟨g1, decide_eq_true ?_⟩
        have := (h4 y ((mem_listed_iff h2 y).mpr g1)).2.2.1
        rw [hn, g2] at this
        simp only [Res.ok.injEq, Out.passwords.injEq] at this
        exact this.symm
    · simp [hn]
  · rw [CM.bind_apply]
    cases hr : listLoop C.env n showValues recovery verbose (candidateSites m) (listedSites (candidateSites m)) cs with
    | mk r cs' =>
      rw [hr] at hk
      cases r with
      | err e => exact Or.inl ⟨by simp, hk⟩
      | panic => exact Or.inl ⟨by simp, hk⟩
      | blocked => exact Or.inl ⟨by simp, hk⟩
      | ok r =>
        obtain ⟨g1, -⟩ := listLoop_empty n showValues recovery verbose (candidateSites m) rows
          (listedSites (candidateSites m)) cs _ r hps (fun y hy => (h4 y hy).2.1) (by rw [hr])
        have g1 : r.2 = empty := g1
        right
        simp only [listEnd, CM.bind_apply]
        have hcall : call (Passwords.removeSites C.env r.2) cs' =
            (convert (Passwords.removeSites C.env empty (drawn cs.ps k)).1,
              { cs' with ps := (Passwords.removeSites C.env empty (drawn cs.ps k)).2 }) := by
          have hk : cs'.ps = drawn cs.ps k := hk
          rw [← hk, g1]; rfl
        rw [hcall]
        simp only [ask, after, run]
        cases (Passwords.removeSites C.env empty (drawn cs.ps k)).1 with
        | ok u =>
          simp only [convert, Res.map]
          split <;> exact ⟨rfl, rfl⟩
        | err e => exact ⟨rfl, rfl⟩
        | panic => exact ⟨rfl, rfl⟩

theorem ascending_nodup {l : List Str} (h : Ascending l) : l.Nodup := by
  have h : (l.map utf8).Nodup := by
    refine List.Pairwise.imp ?_ h
    intro a b hlt he
    rw [he] at hlt
    exact List.lt_irrefl _ hlt
  exact List.Nodup.of_map utf8 h

/-- What the `list` command has removed. -/
theorem list_removed (C : CEnv) (hE : C.env.Lawful) (hS : Secure C.env U) (b : Bool) (cs : CState)
    {A : AState} {pos : Origin} {p : Str} {V : Vault} (ho : Open C.env U cs.ps A pos p V)
    (hs : Reachable C.env U cs.ps) (d n : Str) (showValues recovery verbose : Bool) :
    ∃ (m : List Site) (removed : List Str) (A' : AState) (pos' : Origin) (V' : Vault), ask C.env cs.ps (.listSites d) = .ok (.sites m) ∧ removed.Nodup ∧
      (∀ y ∈ removed, Heading m y ∧ n = c!"*" ∧ ask C.env cs.ps (.list y (c!"*")) = .ok (.passwords [])) ∧
      ((processCommand C b (.list d n showValues recovery verbose) cs).1 = .ok () → ∀ y, Heading m y → n = c!"*" →
        ask C.env cs.ps (.list y (c!"*")) = .ok (.passwords []) → y ∈ removed) ∧
      Open C.env U (processCommand C b (.list d n showValues recovery verbose) cs).2.ps A' pos' p V' ∧
      V'.passwords = V.passwords ∧ (∀ y, V'.sites y = if y ∈ removed then none else V.sites y) := by
  obtain ⟨m, empty, k, h1, h2, h3, h4⟩ := C49_effect C hE hS b cs hs ho.key d n showValues recovery verbose
  have hsite : ∀ y ∈ empty, U.site y := by
    intro y hy
    obtain ⟨l, g1, -, g3⟩ := ho.listSites hE hS d
    rw [h1] at g1
    cases g1
    rcases ((h3 y).mp hy).1 with h | ⟨⟨x, hx, ha⟩, -⟩
    · exact (ho.store.vault.site_in _ _ ((g3 _).mp h).1).1
    · exact (ho.store.vault.site_in _ _ ((g3 x).mp hx).1).2.1 y ha
  rcases h4 with ⟨g1, g2⟩ | ⟨g1, g2⟩
  · rw [g2]
    exact ⟨m, [], A, pos, V, h1, List.nodup_nil, by simp, fun h => absurd h g1, ho.drawn k, rfl, by simp⟩
  · obtain ⟨l₁, A', pos', V', r1, r2, r3, r4, r5⟩ := (ho.drawn k).removeSites hE hS hsite (ascending_nodup h2)
    rw [g2]
    refine ⟨m, l₁, A', pos', V', h1, (ascending_nodup h2).sublist r1.sublist, fun y hy => (h3 y).mp (r1.subset hy),
      fun hok y q1 q2 q3 => ?_, r2, r3, r4⟩
    rcases r5 with ⟨-, r5, -⟩ | ⟨-, r5, -⟩
    · rw [r5]
      exact (h3 y).mpr ⟨q1, q2, q3⟩
    · rw [g1, r5] at hok
      cases hok

/-- **C49 (removals).** In every reachable unlocked state, however the `list` command ends: it removes site entries only,
of sites shown for the pattern of which no passwords are listed, and none if the name is not `*`.  If the command
succeeds, it removes all of these. -/
theorem C49_removals (C : CEnv) (hE : C.env.Lawful) (hS : Secure C.env U) (b : Bool) (cs : CState)
    (hs : Reachable C.env U cs.ps) (hu : cs.ps.key.isSome = true) (d n : Str) (showValues recovery verbose : Bool) :
    ∃ (m : List Site) (removed : List Str), ask C.env cs.ps (.listSites d) = .ok (.sites m) ∧
      (∀ y ∈ removed, Heading m y ∧ n = c!"*" ∧ ask C.env cs.ps (.list y (c!"*")) = .ok (.passwords [])) ∧
      ((processCommand C b (.list d n showValues recovery verbose) cs).1 = .ok () → ∀ y, Heading m y → n = c!"*" →
        ask C.env cs.ps (.list y (c!"*")) = .ok (.passwords []) → y ∈ removed) ∧
      SitesRemoved C.env U removed cs.ps (processCommand C b (.list d n showValues recovery verbose) cs).2.ps := by
  obtain ⟨A, pos, p, V, ho⟩ := reach_open hE hS hs hu
  obtain ⟨m, removed, A', pos', V', h1, -, h2, h3, h4, h5, h6⟩ := list_removed C hE hS b cs ho hs d n showValues recovery verbose
  exact ⟨m, removed, h1, h2, h3, sitesRemoved hE hS ho h4 h5 h6⟩

/-- **C49.** If site names do not start with `www.` and there are no aliases of aliases, then the `list` command, however
it ends, changes no answer about passwords and aliases, and the only sites gone from the listings are sites without
passwords that are not aliases. -/
theorem C49_only_empty_sites (C : CEnv) (hE : C.env.Lawful) (hS : Secure C.env U) (b : Bool) (cs : CState)
    (hs : Reachable C.env U cs.ps) (hu : cs.ps.key.isSome = true) (hp : PlainSites C.env cs.ps)
    (hstar : ∀ t, C.env.wild (c!"*") t = true) (d n : Str) (showValues recovery verbose : Bool) (s' : PState)
    (hs' : s' = (processCommand C b (.list d n showValues recovery verbose) cs).2.ps) :
    (∀ a, U.site a → ask C.env s' (.getAlias a) = ask C.env cs.ps (.getAlias a)) ∧
    (∀ a n' r, U.site a → U.name n' → U.revision r → ask C.env s' (.has a n' r) = ask C.env cs.ps (.has a n' r) ∧
      ask C.env s' (.get a n' r) = ask C.env cs.ps (.get a n' r) ∧
      ask C.env s' (.getNotes a n' r) = ask C.env cs.ps (.getNotes a n' r)) ∧
    (∀ a q, U.site a → ∃ l l', ask C.env cs.ps (.list a q) = .ok (.passwords l) ∧
      ask C.env s' (.list a q) = .ok (.passwords l') ∧ l'.Perm l) ∧
    ∀ q, ∃ l l', ask C.env cs.ps (.listSites q) = .ok (.sites l) ∧ ask C.env s' (.listSites q) = .ok (.sites l') ∧
      (∀ x ∈ l', x ∈ l) ∧ ∀ x ∈ l, x ∉ l' → x.alias = none ∧ ask C.env cs.ps (.list x.name (c!"*")) = .ok (.passwords []) ∧
        ∀ n' r, U.name n' → U.revision r → ask C.env cs.ps (.has x.name n' r) = .ok (.bool false) := by
  obtain ⟨A, pos, p, V, ho⟩ := reach_open hE hS hs hu
  obtain ⟨m, removed, A', pos', V', h1, -, h2, -, h4, h5, h6⟩ := list_removed C hE hS b cs ho hs d n showValues recovery verbose
  rw [← hs'] at h4
  obtain ⟨ms, k1, -, k3⟩ := ho.listSites hE hS (c!"*")
  obtain ⟨m', j1, -, j3⟩ := ho.listSites hE hS d
  rw [h1] at j1
  cases j1
  have hkey : ∀ y ∈ removed, U.site y ∧ canonical y = y ∧ ∀ t, V.sites y ≠ some (some t) := by
    intro y hy
    rcases (h2 y hy).1 with h | ⟨⟨x, hx, ha⟩, -⟩
    · refine ⟨(ho.store.vault.site_in _ _ ((j3 _).mp h).1).1, (hp.names d m h1 _ h).1, fun t ht => ?_⟩
      have := ((j3 _).mp h).1
      rw [ht] at this
      cases this
    · refine ⟨(ho.store.vault.site_in _ _ ((j3 x).mp hx).1).2.1 y ha, (hp.names d m h1 x hx).2 y ha, fun t ht => ?_⟩
      have hy' : (⟨y, some t⟩ : Site) ∈ ms := (k3 _).mpr ⟨ht, .inl (hstar y)⟩
      have := hp.chains d m _ ms h1 k1 x hx _ hy' ha
      cases this
  have hresolve : ∀ a, V'.resolve a = V.resolve a := by
    intro a
    unfold Vault.resolve
    rw [h6]
    by_cases hr : canonical a ∈ removed
    · rw [if_pos hr]
      cases hV : V.sites (canonical a) with
      | none => rfl
      | some t =>
        cases t with
        | none => rfl
        | some t => exact absurd hV ((hkey _ hr).2.2 t)
    · rw [if_neg hr]
  refine ⟨fun a ha => ?_, fun a n' r ha hn hr => ?_, fun a q ha => ?_, fun q => ?_⟩
  · rw [h4.ask_getAlias hE hS ha, ho.ask_getAlias hE hS ha, h6]
    by_cases hr : canonical a ∈ removed
    · rw [if_pos hr]
      cases hV : V.sites (canonical a) with
      | none => rfl
      | some t =>
        cases t with
        | none => rfl
        | some t => exact absurd hV ((hkey _ hr).2.2 t)
    · rw [if_neg hr]
  · exact sameAnswers hE hS ho h4 ha hn hr (by rw [h5]) (hresolve a)
  · obtain ⟨l, g1, g2, g3⟩ := ho.list hE hS q ha
    obtain ⟨l', g1', g2', g3'⟩ := h4.list hE hS q ha
    refine ⟨l, l', g1, g1', (List.perm_ext_iff_of_nodup g2' g2).mpr fun x => ?_⟩
    rw [g3, g3', h5, hresolve]
  · obtain ⟨l, g1, g2, g3⟩ := ho.listSites hE hS q
    obtain ⟨l', g1', g2', g3'⟩ := h4.listSites hE hS q
    refine ⟨l, l', g1, g1', fun x hx => ?_, fun x hx hx' => ?_⟩
    · rw [g3', h6] at hx
      rw [g3]
      by_cases hr : x.name ∈ removed
      · rw [if_pos hr] at hx
        cases hx.1
      · rw [if_neg hr] at hx
        exact hx
    · have hr : x.name ∈ removed := by
        by_contra hr
        rw [g3', h6, if_neg hr] at hx'
        exact hx' ((g3 x).mp hx)
      obtain ⟨q1, q2, q3⟩ := hkey _ hr
      obtain ⟨-, -, hempty⟩ := h2 _ hr
      refine ⟨?_, hempty, fun n' r hn' hr' => ?_⟩
      · cases ha : x.alias with
        | none => rfl
        | some t => exact absurd (((g3 x).mp hx).1.trans (congrArg some ha)) (q3 t)
      · rw [ho.ask_has hE hS q1 hn' hr']
        cases he : V.passwords (V.idOf x.name n' r) with
        | none => rfl
        | some e =>
          obtain ⟨l, i1, -, i3⟩ := ho.list hE hS (c!"*") q1
          rw [hempty] at i1
          cases i1
          have := (i3 (Vault.record (V.idOf x.name n' r) e)).mpr ⟨_, _, he, rfl, rfl, hstar _⟩
          cases this

/-- C49: why the restriction on alias chains is needed.  If the site is an alias matching the pattern, and the site it
leads to is itself an alias not matching the pattern, then `list` removes the latter alias when there are no passwords. -/
theorem C49_chain_broken (C : CEnv) (hE : C.env.Lawful) (hS : Secure C.env U) (b : Bool) (cs : CState)
    (hs : Reachable C.env U cs.ps) (hu : cs.ps.key.isSome = true) (d : Str) (showValues recovery verbose : Bool)
    (m : List Site) (hm : ask C.env cs.ps (.listSites d) = .ok (.sites m)) (x y z : Str) (hx : ⟨x, some y⟩ ∈ m)
    (hy : ∀ w ∈ m, w.name ≠ y) (hU : U.site y) (hcy : canonical y = y) (_hz : ask C.env cs.ps (.getAlias y) = .ok (.text z))
    (hempty : ask C.env cs.ps (.list y (c!"*")) = .ok (.passwords []))
    (hok : (processCommand C b (.list d (c!"*") showValues recovery verbose) cs).1 = .ok ()) :
    ask C.env (processCommand C b (.list d (c!"*") showValues recovery verbose) cs).2.ps (.getAlias y) = .err .noSuchAlias := by
  obtain ⟨m', removed, h1, -, h3, h4⟩ := C49_removals C hE hS b cs hs hu d (c!"*") showValues recovery verbose
  rw [hm] at h1
  cases h1
  exact h4.noAlias y hU (by rw [hcy]; exact h3 hok y (.inr ⟨⟨_, hx, rfl⟩, hy⟩) rfl hempty)

/-- C49: why the restriction on `www.` is needed.  If a password was stored for `www.` followed by `y`, and `y` itself
starts with `www.`, then `list` removes the site though the password is still there. -/
theorem C49_www_removed (C : CEnv) (hE : C.env.Lawful) (hS : Secure C.env U) (b : Bool) (cs : CState)
    (hs : Reachable C.env U cs.ps) (hu : cs.ps.key.isSome = true) (d : Str) (showValues recovery verbose : Bool)
    (m : List Site) (hm : ask C.env cs.ps (.listSites d) = .ok (.sites m)) (y n r : Str) (hy : ⟨y, none⟩ ∈ m)
    (hd : C.env.wild d y = true) (hU : U.site (c!"www." ++ y)) (hn : U.name n) (hr : U.revision r)
    (hempty : ask C.env cs.ps (.list y (c!"*")) = .ok (.passwords []))
    (hhas : ask C.env cs.ps (.has (c!"www." ++ y) n r) = .ok (.bool true))
    (hok : (processCommand C b (.list d (c!"*") showValues recovery verbose) cs).1 = .ok ()) :
    Unknown C.env (processCommand C b (.list d (c!"*") showValues recovery verbose) cs).2.ps y ∧
      ask C.env (processCommand C b (.list d (c!"*") showValues recovery verbose) cs).2.ps (.has (c!"www." ++ y) n r) =
        .ok (.bool true) := by
  obtain ⟨m', removed, h1, -, h3, h4⟩ := C49_removals C hE hS b cs hs hu d (c!"*") showValues recovery verbose
  rw [hm] at h1
  cases h1
  have hmem := h3 hok y (.inl hy) rfl hempty
  constructor
  · obtain ⟨l, l', g1, g2, g3⟩ := h4.listings d
    exact ⟨d, l', g2, hd, fun x hx he => ((g3 x).mp hx).2 (he ▸ hmem)⟩
  · obtain ⟨A, pos, p, V, ho⟩ := reach_open hE hS hs hu
    have hcan : canonical (c!"www." ++ y) = y := by
      simp [canonical]
    have hmeant : siteMeant C.env cs.ps (c!"www." ++ y) = canonical (c!"www." ++ y) := by
      rw [ho.siteMeant_eq hE hS hU]
      unfold Vault.resolve
      obtain ⟨l, g1, -, g3⟩ := ho.listSites hE hS d
      rw [hm] at g1
      cases g1
      have := ((g3 _).mp hy).1
      rw [hcan, this]
    rw [(h4.passwords _ n r hU hn hr (.inr hmeant)).1, hhas]

/-! ## C61 -/

/-- **C61.** What the `list` command shows, in every state reached by commands accepted by the argument parser: the sites
with passwords matching the name, in ascending order; for each site its aliases among the matching sites, in ascending
order; and the passwords in ascending order (those with equal sort text in the order `list` of the library has them) with the
lines asked for.  It says that nothing was found if there was no
such site.  The result is the one of removing the sites without passwords.  (With overflow checks enabled, recovery codes
can only be shown if the passwords are short enough.) -/
theorem C61_list_text (C : CEnv) (hE : C.env.Lawful) (hS : Secure C.env U) (b : Bool) (cs : CState)
    (hs : SoundReachable C.env U cs.ps) (hu : cs.ps.key.isSome = true) (d n : Str) (showValues recovery verbose : Bool)
    (hfit : recovery = true → C.env.overflowChecks = true → ∀ y l z, ask C.env cs.ps (.list y n) = .ok (.passwords l) →
      .stored z ∈ l → (utf8 z.password).length ≤ 256 * 14 - 45)
    (r : COut Unit) (cs' : CState) (h : processCommand C b (.list d n showValues recovery verbose) cs = (r, cs')) :
    ∃ (m : List Site) (blocks : List (Str × Str)) (empty : List Str) (k : Nat),
      ask C.env cs.ps (.listSites d) = .ok (.sites m) ∧
      Ascending (blocks.map Prod.fst) ∧
      (∀ y, y ∈ blocks.map Prod.fst ↔ Heading m y ∧ ∃ l, ask C.env cs.ps (.list y n) = .ok (.passwords l) ∧ l ≠ []) ∧
      (∀ e ∈ blocks, ∃ aliases l sorted, ask C.env cs.ps (.list e.1 n) = .ok (.passwords l) ∧
        Ascending aliases ∧ (∀ x, x ∈ aliases ↔ ⟨x, some e.1⟩ ∈ m) ∧ sorted.Perm l ∧ Sorted sorted ∧
        (∀ k, sorted.filter (fun x => sortText x = k) = l.filter fun x => sortText x = k) ∧
        SiteText C.env cs.ps showValues recovery verbose e.1 aliases sorted e.2) ∧
      Ascending empty ∧
      (∀ y, y ∈ empty ↔ Heading m y ∧ n = c!"*" ∧ ask C.env cs.ps (.list y (c!"*")) = .ok (.passwords [])) ∧
      r = (match ask C.env (drawn cs.ps k) (.removeSites empty) with
        | .ok _ => .ok ()
        | .err e => .err (.lib e)
        | .panic => .panic) ∧
      cs'.ps = after C.env (drawn cs.ps k) (.removeSites empty) ∧
      ∃ tail, cs'.out = cs.out ++ blocks.flatMap Prod.snd ++ tail ∧
        (blocks = [] → r = .ok () → tail = c!"No matching passwords found.\n") ∧
        (blocks ≠ [] ∨ r ≠ .ok () → tail = []) := by
  obtain ⟨A, pos, p, V, ho, hV⟩ := sound_open hE hS hs hu
  obtain ⟨m, rows, blocks, empty, k, h1, h2, h3, h4, h5, h6, h7⟩ := ho.list_shown hE hS hV d n showValues recovery verbose hfit
  have h : Cli.list C.env d n showValues recovery verbose cs = (r, cs') := h
  obtain ⟨e1, e2, e3⟩ := listEnd_result C.env (!blocks.isEmpty, empty) (shown cs.ps cs k (blocks.flatMap Prod.snd))
  rw [← h7, h] at e1 e2 e3
  refine ⟨m, blocks, empty, k, h1, ?_, fun y => ?_, fun e he => ?_, ?_, fun y => ?_, e1, e2, ?_⟩
  · rw [h4]
    exact List.Pairwise.sublist (List.filter_sublist.map _) (listed_ascending m)
  · rw [h4, List.mem_filter, mem_listed_iff h2]
    constructor
    · rintro ⟨g1, g2⟩
      exact ⟨g1, rows y, h3 y g1, of_decide_eq_true g2⟩
    · rintro ⟨g1, l, g2, g3⟩
      rw [h3 y g1] at g2
      cases g2
      exact ⟨g1, decide_eq_true g3⟩
  · have hy : e.1 ∈ blocks.map Prod.fst := List.mem_map_of_mem he
    rw [h4, List.mem_filter, mem_listed_iff h2] at hy
    exact ⟨_, _, _, h3 _ hy.1, aliasesOf_ascending m _, fun x => mem_aliasesOf h2 x _, sortPasswords_perm _,
      sortPasswords_sorted _, sortPasswords_stable _, h5 e he⟩
  · rw [h6]
    split
    · exact List.Pairwise.sublist (List.filter_sublist.map _) (listed_ascending m)
    · exact List.Pairwise.nil
  · rw [h6]
    by_cases hn : n = c!"*"
    · rw [if_pos hn, List.mem_filter, mem_listed_iff h2]
      constructor
      · rintro ⟨g1, g2⟩
        have := h3 y g1
        rw [hn, of_decide_eq_true g2] at this
        exact ⟨g1, hn, this⟩
      · rintro ⟨g1, -, g2⟩
        have := h3 y g1
        rw [hn, g2] at this
        simp only [Res.ok.injEq, Out.passwords.injEq] at this
        exact ⟨g1, decide_eq_true this.symm⟩
    · simp [hn]
  · obtain ⟨tail, t1, t2, t3⟩ := e3
    have hb : (!blocks.isEmpty) = false ↔ blocks = [] := by cases blocks <;> simp
    have hb' : (!blocks.isEmpty) = true ↔ blocks ≠ [] := by cases blocks <;> simp
    exact ⟨tail, t1, fun g => t2 (hb.mpr g), fun g => t3 (g.imp_left hb'.mpr)⟩

/-! ## C50 -/

/-- **C50.** If a site matching the pattern is an alias of a site without entry and without passwords, then `list` fails,
and the file is as before. -/
theorem C50_dangling_alias_fails (C : CEnv) (hE : C.env.Lawful) (hS : Secure C.env U) (b : Bool) (cs : CState)
    (hs : Reachable C.env U cs.ps) (hu : cs.ps.key.isSome = true) (d : Str) (showValues recovery verbose : Bool)
    (m : List Site) (hm : ask C.env cs.ps (.listSites d) = .ok (.sites m)) (x t : Str) (hx : ⟨x, some t⟩ ∈ m)
    (hun : Unknown C.env cs.ps t) (hempty : ask C.env cs.ps (.list t (c!"*")) = .ok (.passwords [])) :
    (processCommand C b (.list d (c!"*") showValues recovery verbose) cs).1 ≠ .ok () ∧
      (processCommand C b (.list d (c!"*") showValues recovery verbose) cs).2.ps.world.disk = cs.ps.world.disk := by
  obtain ⟨A, pos, p, V, ho⟩ := reach_open hE hS hs hu
  obtain ⟨m', empty, k, h1, h2, h3, h4⟩ := C49_effect C hE hS b cs hs hu d (c!"*") showValues recovery verbose
  rw [hm] at h1
  cases h1
  obtain ⟨m', j1, -, j3⟩ := ho.listSites hE hS d
  rw [hm] at j1
  cases j1
  have hVt := Props.Open.unknown ho hE hS hun
  have hmem : t ∈ empty := (h3 t).mpr ⟨.inr ⟨⟨_, hx, rfl⟩, fun z hz he => by
    have := ((j3 z).mp hz).1
    rw [he, hVt] at this
    cases this⟩, rfl, hempty⟩
  rcases h4 with ⟨g1, g2⟩ | ⟨g1, g2⟩
  · exact ⟨g1, by rw [g2]; rfl⟩
  · have hsite : ∀ y ∈ empty, U.site y := by
      intro y hy
      rcases ((h3 y).mp hy).1 with h | ⟨⟨z, hz, ha⟩, -⟩
      · exact (ho.store.vault.site_in _ _ ((j3 _).mp h).1).1
      · exact (ho.store.vault.site_in _ _ ((j3 z).mp hz).1).2.1 y ha
    obtain ⟨l₁, A', pos', V', -, -, -, -, r5⟩ := (ho.drawn k).removeSites hE hS hsite (ascending_nodup h2)
    rcases r5 with ⟨r5, -⟩ | ⟨-, r5, r6⟩
    · exact absurd hVt (r5 t hmem)
    · rw [g1, g2, r5, r6]
      exact ⟨by simp, rfl⟩

/-- C50: the error is `KeyMissing`. -/
theorem C50_dangling_alias_error (C : CEnv) (hE : C.env.Lawful) (hS : Secure C.env U) (b : Bool) (cs : CState)
    (hs : SoundReachable C.env U cs.ps) (hu : cs.ps.key.isSome = true) (d : Str) (showValues recovery verbose : Bool)
    (hfit : recovery = true → C.env.overflowChecks = true → ∀ y l z, ask C.env cs.ps (.list y (c!"*")) = .ok (.passwords l) →
      .stored z ∈ l → (utf8 z.password).length ≤ 256 * 14 - 45)
    (m : List Site) (hm : ask C.env cs.ps (.listSites d) = .ok (.sites m)) (x t : Str) (hx : ⟨x, some t⟩ ∈ m)
    (hun : Unknown C.env cs.ps t) (hempty : ask C.env cs.ps (.list t (c!"*")) = .ok (.passwords [])) :
    (processCommand C b (.list d (c!"*") showValues recovery verbose) cs).1 = .err (.lib .keyMissing) ∧
      (processCommand C b (.list d (c!"*") showValues recovery verbose) cs).2.ps.world.disk = cs.ps.world.disk := by
  refine ⟨?_, (C50_dangling_alias_fails C hE hS b cs (SoundReachable.reachable hs) hu d showValues recovery verbose m hm x t hx hun hempty).2⟩
  obtain ⟨A, pos, p, V, ho, hV⟩ := sound_open hE hS hs hu
  obtain ⟨m', blocks, empty, k, h1, -, -, -, h2, h3, h4, -, -⟩ := C61_list_text C hE hS b cs hs hu d (c!"*") showValues recovery verbose
    hfit _ _ Prod.mk.eta.symm
  rw [hm] at h1
  cases h1
  obtain ⟨m', j1, -, j3⟩ := ho.listSites hE hS d
  rw [hm] at j1
  cases j1
  have hVt := Props.Open.unknown ho hE hS hun
  have hmem : t ∈ empty := (h3 t).mpr ⟨.inr ⟨⟨_, hx, rfl⟩, fun z hz he => by
    have := ((j3 z).mp hz).1
    rw [he, hVt] at this
    cases this⟩, rfl, hempty⟩
  have hsite : ∀ y ∈ empty, U.site y := by
    intro y hy
    rcases ((h3 y).mp hy).1 with h | ⟨⟨z, hz, ha⟩, -⟩
    · exact (ho.store.vault.site_in _ _ ((j3 _).mp h).1).1
    · exact (ho.store.vault.site_in _ _ ((j3 z).mp hz).1).2.1 y ha
  obtain ⟨l₁, A', pos', V', -, -, -, -, r5⟩ := (ho.drawn k).removeSites hE hS hsite (ascending_nodup h2)
  rcases r5 with ⟨r5, -⟩ | ⟨-, r5, -⟩
  · exact absurd hVt (r5 t hmem)
  · rw [h4, r5]

/-- C50: without such an alias `list` succeeds, unless the file cannot be written. -/
theorem C50_otherwise_succeeds (C : CEnv) (hE : C.env.Lawful) (hS : Secure C.env U) (b : Bool) (cs : CState)
    (hs : SoundReachable C.env U cs.ps) (hu : cs.ps.key.isSome = true) (d n : Str) (showValues recovery verbose : Bool)
    (hfit : recovery = true → C.env.overflowChecks = true → ∀ y l z, ask C.env cs.ps (.list y n) = .ok (.passwords l) →
      .stored z ∈ l → (utf8 z.password).length ≤ 256 * 14 - 45)
    (m : List Site) (hm : ask C.env cs.ps (.listSites d) = .ok (.sites m))
    (hknown : n = c!"*" → ∀ x t, ⟨x, some t⟩ ∈ m → ask C.env cs.ps (.list t (c!"*")) = .ok (.passwords []) → Known C.env cs.ps t) :
    ((processCommand C b (.list d n showValues recovery verbose) cs).1 = .ok () ∨
      ∃ e, (processCommand C b (.list d n showValues recovery verbose) cs).1 = .err (.lib e) ∧ WriteError e) ∧
    (C.env.fs cs.ps.world.fpos = .ok → (processCommand C b (.list d n showValues recovery verbose) cs).1 = .ok ()) := by
  obtain ⟨A, pos, p, V, ho, hV⟩ := sound_open hE hS hs hu
  obtain ⟨m', blocks, empty, k, h1, -, -, -, h2, h3, h4, -, -⟩ := C61_list_text C hE hS b cs hs hu d n showValues recovery verbose
    hfit _ _ Prod.mk.eta.symm
  rw [hm] at h1
  cases h1
  obtain ⟨m', j1, -, j3⟩ := ho.listSites hE hS d
  rw [hm] at j1
  cases j1
  have hsite : ∀ y ∈ empty, U.site y ∧ V.sites y ≠ none := by
    intro y hy
    obtain ⟨g1, g2, g3⟩ := (h3 y).mp hy
    rcases g1 with h | ⟨⟨⟨zn, za⟩, hz, ha⟩, -⟩
    · refine ⟨(ho.store.vault.site_in _ _ ((j3 _).mp h).1).1, ?_⟩
      rw [((j3 _).mp h).1]
      simp
    · cases ha
      exact ⟨(ho.store.vault.site_in _ _ ((j3 _).mp hz).1).2.1 y rfl, Props.Open.known ho hE hS (hknown g2 _ _ hz g3)⟩
  obtain ⟨l₁, A', pos', V', -, -, -, -, r5⟩ := (ho.drawn k).removeSites hE hS (fun y hy => (hsite y hy).1) (ascending_nodup h2)
  rcases r5 with ⟨-, -, r6, r7⟩ | ⟨⟨y, hy, r5⟩, -⟩
  · constructor
    · rcases r6 with r6 | ⟨e, r6, r8⟩
      · left
        rw [h4, r6]
      · right
        exact ⟨e, by rw [h4, r6], r8⟩
    · intro hfs
      rw [h4]
      by_cases he : empty = []
      · subst he
        rfl
      · rw [r7 he hfs]
  · exact absurd r5 (hsite y hy).2

/-- C50: such an alias is easily made: by the `alias` command for a target that was never used before. -/
theorem C50_alias_then_list (C : CEnv) (hE : C.env.Lawful) (hS : Secure C.env U) (b : Bool) (cs : CState)
    (hs : SoundReachable C.env U cs.ps) (hu : cs.ps.key.isSome = true) (a t : Str) (ha : U.site a) (ht : U.site t)
    (hct : canonical t = t) (hun : Unknown C.env cs.ps t)
    (hempty : ask C.env cs.ps (.list t (c!"*")) = .ok (.passwords []))
    (hok : ask C.env cs.ps (.setAlias a t) = .ok .unit) (cs' : CState) (hps : cs'.ps = after C.env cs.ps (.setAlias a t))
    (d : Str) (hd : C.env.wild d (canonical a) = true) :
    (processCommand C b (.list d (c!"*") false false false) cs').1 = .err (.lib .keyMissing) := by
  obtain ⟨A, pos, p, V, ho⟩ := reach_open hE hS (SoundReachable.reachable hs) hu
  have hVt := Props.Open.unknown ho hE hS hun
  obtain ⟨h1, h2⟩ := setAlias_conditions hE hS ho ha ht hok
  have hrt : V.resolve t = t := by
    unfold Vault.resolve
    rw [hct, hVt]
  rw [hrt] at h2
  obtain ⟨wr, -, -, pos', ho'⟩ := ho.setAlias hE hS (x := a) (y := t) ⟨ha, ht⟩ h1 (by rw [hrt]; exact h2)
  rw [hrt, ← hps] at ho'
  have hsite : ∀ y, (V.link (canonical a) t).sites y = if y = canonical a then some (some t) else V.sites y := fun y => rfl
  obtain ⟨m, j1, -, j3⟩ := ho'.listSites hE hS d
  obtain ⟨q, l, q1, q2, q3⟩ := hun
  refine (C50_dangling_alias_error C hE hS b cs' (hps ▸ .step hs _ ⟨ha, ht⟩ trivial (by simp)) ho'.key d false false false (by simp)
    m j1 (canonical a) t ((j3 _).mpr ⟨by rw [hsite, if_pos rfl], .inl hd⟩) ?_ ?_).1
  · obtain ⟨l', i1, -, i3⟩ := ho'.listSites hE hS q
    refine ⟨q, l', i1, q2, fun x hx he => ?_⟩
    have := ((i3 x).mp hx).1
    rw [he, hsite, if_neg (Ne.symm h2), hVt] at this
    cases this
  · obtain ⟨l', i1, -, i3⟩ := ho'.list hE hS (c!"*") ht
    obtain ⟨l, k1, -, k3⟩ := ho.list hE hS (c!"*") ht
    rw [hempty] at k1
    cases k1
    rw [i1]
    have : l' = [] := by
      rw [List.eq_nil_iff_forall_not_mem]
      intro x hx
      obtain ⟨id, e, e1, e2, e3, e4⟩ := (i3 x).mp hx
      have hrt' : (V.link (canonical a) t).resolve t = t := by
        unfold Vault.resolve
        rw [hct, hsite, if_neg (Ne.symm h2), hVt]
      rw [hrt'] at e3
      have := (k3 x).mpr ⟨id, e, e1, e2, by rw [hrt]; exact e3, e4⟩
      cases this
    rw [this]

/-! ## The hypotheses can be met -/

/-- The state of the application with this storage. -/
def Toy.withStorage (s : PState) : CState := { Toy.locked with ps := s }

theorem Toy.nothing_listed {s : PState} {A : AState} {pos : Origin} {p : Str} {V : Vault} (ho : Open Toy.env Toy.univ s A pos p V)
    {y q : Str} (hy : Toy.univ.site y) (h : ∀ i e, V.passwords i = some e → i.site ≠ V.resolve y) :
    ask Toy.env s (.list y q) = .ok (.passwords []) := by
  obtain ⟨l, h1, -, h3⟩ := ho.list Toy.env_lawful Toy.secure q hy
  have : l = [] := by
    rw [List.eq_nil_iff_forall_not_mem]
    intro x hx
    obtain ⟨id, e, e1, -, e3, -⟩ := (h3 x).mp hx
    exact h id e e1 e3
  rw [h1, this]

/-- C49: one password, one alias. -/
example : Reachable Toy.env Toy.univ Toy.two ∧ Toy.two.key.isSome = true ∧ PlainSites Toy.env Toy.two ∧
    ∀ t, Toy.env.wild (c!"*") t = true := by
  obtain ⟨-, A, pos, ho⟩ := Toy.two_effect
  have hV : ∀ y t, (((Vault.empty.know (c!"a")).put ⟨c!"a", c!"u", []⟩ ⟨.stored (c!"x"), []⟩).link (c!"b") (c!"a")).sites y =
      some t → (y = c!"b" ∧ t = some (c!"a")) ∨ (y = c!"a" ∧ t = none) := by
    intro y t h
    simp only [Vault.link, Vault.put, Vault.know, Vault.empty, update, if_true] at h
    split at h
    · cases h; exact .inl ⟨by assumption, rfl⟩
    · split at h
      · cases h; exact .inr ⟨by assumption, rfl⟩
      · cases h
  refine ⟨Toy.two_reachable, Toy.two_unlocked, ⟨fun q l h x hx => ?_, fun q l q' l' h h' x hx y hy ha => ?_⟩, Toy.wild_star⟩
  · obtain ⟨m, h1, -, h3⟩ := ho.listSites Toy.env_lawful Toy.secure q
    rw [h] at h1
    cases h1
    rcases hV _ _ ((h3 x).mp hx).1 with ⟨g1, g2⟩ | ⟨g1, g2⟩
    · rw [g1, g2]
      exact ⟨by decide, fun t ht => by cases ht; decide⟩
    · rw [g1, g2]
      exact ⟨by decide, fun t ht => by cases ht⟩
  · obtain ⟨m, h1, -, h3⟩ := ho.listSites Toy.env_lawful Toy.secure q
    rw [h] at h1
    cases h1
    obtain ⟨m, h1, -, h4⟩ := ho.listSites Toy.env_lawful Toy.secure q'
    rw [h'] at h1
    cases h1
    rcases hV _ _ ((h3 x).mp hx).1 with ⟨g1, g2⟩ | ⟨g1, g2⟩
    · rcases hV _ _ ((h4 y).mp hy).1 with ⟨g3, g4⟩ | ⟨g3, g4⟩
      · rw [g2, g3] at ha
        exact absurd ha (by decide)
      · exact g4
    · rw [g2] at ha; cases ha

/-- C49: an alias of an alias. -/
example : ∃ m, SoundReachable Toy.env Toy.univ Toy.chain ∧ Toy.chain.key.isSome = true ∧
    ask Toy.env Toy.chain (.listSites (c!"a")) = .ok (.sites m) ∧ ⟨c!"a", some (c!"b")⟩ ∈ m ∧ (∀ w ∈ m, w.name ≠ c!"b") ∧
    ask Toy.env Toy.chain (.getAlias (c!"b")) = .ok (.text (c!"c")) ∧
    ask Toy.env Toy.chain (.list (c!"b") (c!"*")) = .ok (.passwords []) ∧
    (processCommand Toy.cenv true (.list (c!"a") (c!"*") true true true) (Toy.withStorage Toy.chain)).1 = .ok () := by
  obtain ⟨-, A, pos, ho⟩ := Toy.chain_effect
  obtain ⟨m, h1, -, h3⟩ := ho.listSites Toy.env_lawful Toy.secure (c!"a")
  have hb : ∀ w ∈ m, w.name ≠ c!"b" := by
    intro w hw he
    obtain ⟨g1, g2⟩ := (h3 w).mp hw
    have : some (some (c!"c")) = some w.alias := by
      rw [← g1, he]; rfl
    simp only [Option.some.injEq] at this
    rw [he, ← this] at g2
    rcases g2 with g2 | ⟨t, g2, g3⟩
    · exact absurd g2 (by decide)
    · cases g2
      exact absurd g3 (by decide)
  refine ⟨m, Toy.chain_sound, ho.key, h1, (h3 _).mpr ⟨rfl, .inl rfl⟩, hb, ?_, ?_, ?_⟩
  · rw [ho.ask_getAlias Toy.env_lawful Toy.secure Toy.site_b]; rfl
  · exact Toy.nothing_listed ho Toy.site_b fun i e h => by cases h
  · refine (C50_otherwise_succeeds Toy.cenv Toy.env_lawful Toy.secure true (Toy.withStorage Toy.chain) Toy.chain_sound ho.key
      (c!"a") (c!"*") true true true (fun _ h => by cases h) m h1 fun _ x t hx _ => ?_).2 rfl
    obtain ⟨g1, g2⟩ := (h3 _).mp hx
    obtain ⟨l, k1, -, k3⟩ := ho.listSites Toy.env_lawful Toy.secure (c!"*")
    simp only [Vault.link, update, Vault.empty] at g1
    split at g1
    · rename_i he
      exact absurd he (hb _ hx)
    · split at g1
      · cases g1
        exact ⟨_, l, k1, ⟨c!"b", some (c!"c")⟩, (k3 _).mpr ⟨rfl, .inl rfl⟩, rfl⟩
      · cases g1

/-- C49: a password for `www.www.a`. -/
example : ∃ m, SoundReachable Toy.env Toy.univ Toy.www ∧ Toy.www.key.isSome = true ∧
    ask Toy.env Toy.www (.listSites (c!"*")) = .ok (.sites m) ∧ ⟨c!"www.a", none⟩ ∈ m ∧
    ask Toy.env Toy.www (.has (c!"www." ++ c!"www.a") (c!"u") []) = .ok (.bool true) ∧
    ask Toy.env Toy.www (.list (c!"www.a") (c!"*")) = .ok (.passwords []) ∧
    (processCommand Toy.cenv true (.list (c!"*") (c!"*") true true true) (Toy.withStorage Toy.www)).1 = .ok () := by
  obtain ⟨A, pos, ho⟩ := Toy.www_open
  obtain ⟨m, h1, -, h3⟩ := ho.listSites Toy.env_lawful Toy.secure (c!"*")
  refine ⟨m, Toy.www_sound, ho.key, h1, (h3 _).mpr ⟨rfl, .inl rfl⟩, ?_, ?_, ?_⟩
  · exact ho.ask_has Toy.env_lawful Toy.secure Toy.site_wwwwww Toy.name_u Toy.revision_nil
  · refine Toy.nothing_listed ho Toy.site_www fun i e h => ?_
    simp only [Vault.put, Vault.know, Vault.empty, update, if_true] at h
    split at h
    · rename_i he
      rw [he]; decide
    · cases h
  · refine (C50_otherwise_succeeds Toy.cenv Toy.env_lawful Toy.secure true (Toy.withStorage Toy.www) Toy.www_sound ho.key
      (c!"*") (c!"*") true true true (fun _ h => by cases h) m h1 fun _ x t hx _ => ?_).2 rfl
    have g1 := ((h3 _).mp hx).1
    simp only [Vault.put, Vault.know, Vault.empty, update, if_true] at g1
    split at g1 <;> cases g1

/-- C50: an alias of a site that was never used. -/
example : ∃ m, SoundReachable Toy.env Toy.univ Toy.dangling ∧ Toy.dangling.key.isSome = true ∧
    ask Toy.env Toy.dangling (.listSites (c!"*")) = .ok (.sites m) ∧ ⟨c!"a", some (c!"b")⟩ ∈ m ∧
    Unknown Toy.env Toy.dangling (c!"b") ∧ ask Toy.env Toy.dangling (.list (c!"b") (c!"*")) = .ok (.passwords []) := by
  obtain ⟨-, A, pos, ho⟩ := Toy.dangling_effect
  obtain ⟨m, h1, -, h3⟩ := ho.listSites Toy.env_lawful Toy.secure (c!"*")
  refine ⟨m, Toy.dangling_sound, ho.key, h1, (h3 _).mpr ⟨rfl, .inl rfl⟩, ⟨_, m, h1, rfl, fun x hx he => ?_⟩, ?_⟩
  · have := ((h3 x).mp hx).1
    rw [he] at this
    cases this
  · exact Toy.nothing_listed ho Toy.site_b fun i e h => by cases h

/-- C50: making this alias. -/
example : SoundReachable Toy.env Toy.univ Toy.fresh ∧ Toy.fresh.key.isSome = true ∧ canonical (c!"b") = c!"b" ∧
    Unknown Toy.env Toy.fresh (c!"b") ∧ ask Toy.env Toy.fresh (.list (c!"b") (c!"*")) = .ok (.passwords []) ∧
    ask Toy.env Toy.fresh (.setAlias (c!"a") (c!"b")) = .ok .unit := by
  obtain ⟨A, pos, ho⟩ := Toy.fresh_open
  obtain ⟨m, h1, -, h3⟩ := ho.listSites Toy.env_lawful Toy.secure (c!"*")
  refine ⟨Toy.fresh_sound, ho.key, by decide, ⟨_, m, h1, rfl, fun x hx he => ?_⟩, ?_, Toy.dangling_effect.1⟩
  · cases ((h3 x).mp hx).1
  · exact Toy.nothing_listed ho Toy.site_b fun i e h => by cases h

/-- C61: one password, one alias, and a build without overflow checks. -/
example : SoundReachable Toy.env Toy.univ Toy.two ∧ Toy.two.key.isSome = true ∧ Toy.env.overflowChecks = false :=
  ⟨Toy.two_sound, Toy.two_unlocked, rfl⟩

end Props
end Pfp
