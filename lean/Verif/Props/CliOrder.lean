import Verif.Props.CliList

/-!
# The order of the hash map does not show: C51
-/

namespace Pfp
open Spec Cli

variable {E : Env} {U : Universe}

/-- The same environment with another iteration order. -/
def Env.reorder (E : Env) (o : Nat → Data → Data) : Env := { E with order := o }

section
variable (o : Nat → Data → Data)

theorem reorder_get (s : PState) (a n r : Str) : Passwords.get (E.reorder o) s a n r = Passwords.get E s a n r := rfl

theorem reorder_recoveryCode (z : StoredPassword) : Passwords.getRecoveryCode (E.reorder o) z = Passwords.getRecoveryCode E z := rfl

theorem reorder_resolve (w : World) (x : Str) (h k : Bytes) :
    Storage.resolveSite (E.reorder o) w x h k = Storage.resolveSite E w x h k := rfl

theorem reorder_collect {α : Type} (w : World) (f : Json → Option α) (sel : Str → Bool) (key : Bytes) :
    ∀ l, Storage.collect (E.reorder o) w f sel key l = Storage.collect E w f sel key l
  | [] => rfl
  | x :: l => by
    rw [Storage.collect, Storage.collect, reorder_collect w f sel key l]
    rfl

end

/-- Results that are lists equal up to their order. -/
def SameUpToOrder {α : Type} (r r' : Res (List α)) : Prop :=
  (∃ l l', r = .ok l ∧ r' = .ok l' ∧ l.Perm l') ∨ (r = r' ∧ ∀ l, r ≠ .ok l)

theorem SameUpToOrder.rfl {α : Type} (r : Res (List α)) : SameUpToOrder r r := by
  cases r with
  | ok l => exact .inl ⟨l, l, by rfl, by rfl, .refl _⟩
  | err e => exact .inr ⟨by rfl, by simp⟩
  | panic => exact .inr ⟨by rfl, by simp⟩

theorem SameUpToOrder.trans {α : Type} {r₁ r₂ r₃ : Res (List α)} (h : SameUpToOrder r₁ r₂) (h' : SameUpToOrder r₂ r₃) :
    SameUpToOrder r₁ r₃ := by
  rcases h with ⟨l, l', h1, h2, h3⟩ | ⟨h1, h2⟩
  · rcases h' with ⟨m, m', g1, g2, g3⟩ | ⟨g1, g2⟩
    · rw [h2] at g1
      cases g1
      exact .inl ⟨l, m', h1, g2, h3.trans g3⟩
    · exact absurd h2 (g2 _)
  · rw [h1]; exact h'

theorem SameUpToOrder.filter {α : Type} {r r' : Res (List α)} (h : SameUpToOrder r r') (p : α → Bool) :
    SameUpToOrder (r >>= fun l => .ok (l.filter p)) (r' >>= fun l => .ok (l.filter p)) := by
  rcases h with ⟨l, l', rfl, rfl, h⟩ | ⟨rfl, h⟩
  · exact .inl ⟨_, _, by rfl, by rfl, h.filter p⟩
  · exact SameUpToOrder.rfl _

theorem SameUpToOrder.append {α : Type} {r r' : Res (List α)} (h : SameUpToOrder r r') (a : Res (Option α)) :
    SameUpToOrder (a >>= fun v => r >>= fun t => .ok (v.toList ++ t)) (a >>= fun v => r' >>= fun t => .ok (v.toList ++ t)) := by
  rcases h with ⟨l, l', rfl, rfl, h⟩ | ⟨rfl, h⟩
  · cases a with
    | ok v => exact .inl ⟨_, _, by rfl, by rfl, h.append_left _⟩
    | err e => exact SameUpToOrder.rfl _
    | panic => exact SameUpToOrder.rfl _
  · exact SameUpToOrder.rfl _

theorem collect_no_err {α : Type} (w : World) (f : Json → Option α) (sel : Str → Bool) (key : Bytes) :
    ∀ l, (∃ r, Storage.collect E w f sel key l = .ok r) ∨ Storage.collect E w f sel key l = .panic
  | [] => .inl ⟨[], rfl⟩
  | x :: l => by
    rw [Storage.collect]
    split
    · cases Storage.get E w f x key with
      | panic => exact .inr rfl
      | err e =>
        rcases collect_no_err w f sel key l with ⟨r, h⟩ | h
        · rw [h]; exact .inl ⟨_, rfl⟩
        · rw [h]; exact .inr rfl
      | ok v =>
        rcases collect_no_err w f sel key l with ⟨r, h⟩ | h
        · rw [h]; exact .inl ⟨_, rfl⟩
        · rw [h]; exact .inr rfl
    · exact collect_no_err w f sel key l

theorem collect_perm {α : Type} (w : World) (f : Json → Option α) (sel : Str → Bool) (key : Bytes) {l l' : List Str}
    (h : l.Perm l') : SameUpToOrder (Storage.collect E w f sel key l) (Storage.collect E w f sel key l') := by
  induction h with
  | nil => exact SameUpToOrder.rfl _
  | cons x h ih =>
    rw [Storage.collect, Storage.collect]
    split
    · exact ih.append _
    · exact ih
  | swap x y l =>
    rw [Storage.collect, Storage.collect, Storage.collect, Storage.collect]
    split
    · split
      · cases Storage.get E w f x key with
        | panic =>
          cases Storage.get E w f y key <;> exact SameUpToOrder.rfl _
        | err e =>
          cases Storage.get E w f y key with
          | panic => exact SameUpToOrder.rfl _
          | err e => exact SameUpToOrder.rfl _
          | ok v =>
            rcases collect_no_err (E := E) w f sel key l with ⟨r, h⟩ | h
            · rw [h]; exact SameUpToOrder.rfl _
            · rw [h]; exact SameUpToOrder.rfl _
        | ok u =>
          cases Storage.get E w f y key with
          | panic => exact SameUpToOrder.rfl _
          | err e =>
            rcases collect_no_err (E := E) w f sel key l with ⟨r, h⟩ | h
            · rw [h]; exact SameUpToOrder.rfl _
            · rw [h]; exact SameUpToOrder.rfl _
          | ok v =>
            rcases collect_no_err (E := E) w f sel key l with ⟨r, h⟩ | h
            · rw [h]; exact .inl ⟨_, _, rfl, rfl, .swap _ _ _⟩
            · rw [h]; exact SameUpToOrder.rfl _
      · exact SameUpToOrder.rfl _
    · exact SameUpToOrder.rfl _
  | trans _ _ ih ih' => exact ih.trans ih'

section
variable {o : Nat → Data → Data}

theorem keys_perm (hE : E.Lawful) (ho : ∀ n d, (o n d).Perm d) (w : World) :
    (FileIO.keys (E.reorder o) w).Perm (FileIO.keys E w) :=
  ((ho w.epoch w.data).trans (hE.order w.epoch w.data).symm).map _

theorem listSites_reorder (hE : E.Lawful) (ho : ∀ n d, (o n d).Perm d) (s : PState) (q : Str) :
    SameUpToOrder (Passwords.listSites (E.reorder o) s q) (Passwords.listSites E s q) := by
  unfold Passwords.listSites
  cases Passwords.orPanic s.key with
  | err e => exact SameUpToOrder.rfl _
  | panic => exact SameUpToOrder.rfl _
  | ok key =>
    refine SameUpToOrder.filter (p := _) (r := Storage.listSites (E.reorder o) s.world key) (r' := Storage.listSites E s.world key) ?_
    unfold Storage.listSites
    rw [reorder_collect]
    exact collect_perm _ _ _ _ (keys_perm hE ho _)

theorem list_reorder (hE : E.Lawful) (ho : ∀ n d, (o n d).Perm d) (s : PState) (y q : Str) :
    SameUpToOrder (Passwords.list (E.reorder o) s y q) (Passwords.list E s y q) := by
  unfold Passwords.list
  cases Passwords.orPanic s.key with
  | err e => exact SameUpToOrder.rfl _
  | panic => exact SameUpToOrder.rfl _
  | ok key =>
    cases Passwords.orPanic s.hmacSecret with
    | err e => exact SameUpToOrder.rfl _
    | panic => exact SameUpToOrder.rfl _
    | ok secret =>
      simp only [Res.bind_ok, reorder_resolve]
      cases Storage.resolveSite E s.world y secret key with
      | err e => exact SameUpToOrder.rfl _
      | panic => exact SameUpToOrder.rfl _
      | ok x =>
        refine SameUpToOrder.filter (p := _) (r := Storage.listPasswords (E.reorder o) s.world x secret key)
          (r' := Storage.listPasswords E s.world x secret key) ?_
        unfold Storage.listPasswords
        rw [reorder_collect]
        exact collect_perm _ _ _ _ (keys_perm hE ho _)

theorem collect_append {α : Type} (w : World) (f : Json → Option α) (sel : Str → Bool) (key : Bytes) (l' : List Str)
    {r' : List α} (h' : Storage.collect E w f sel key l' = .ok r') :
    ∀ (l : List Str) (r : List α), Storage.collect E w f sel key l = .ok r → Storage.collect E w f sel key (l ++ l') = .ok (r ++ r')
  | [], r, h => by cases h; exact h'
  | x :: l, r, h => by
    rw [List.cons_append, Storage.collect]
    rw [Storage.collect] at h
    split at h
    · rename_i hx
      rw [if_pos hx]
      cases hg : Storage.get E w f x key with
      | panic => rw [hg] at h; cases h
      | err e =>
        rw [hg] at h
        simp only [Res.toOption?_err, Res.bind_ok] at h ⊢
        cases hc : Storage.collect E w f sel key l with
        | ok t => rw [hc] at h; cases h; rw [collect_append w f sel key l' h' l t hc]; rfl
        | err e => rw [hc] at h; cases h
        | panic => rw [hc] at h; cases h
      | ok v =>
        rw [hg] at h
        simp only [Res.toOption?_ok, Res.bind_ok] at h ⊢
        cases hc : Storage.collect E w f sel key l with
        | ok t => rw [hc] at h; cases h; rw [collect_append w f sel key l' h' l t hc]; rfl
        | err e => rw [hc] at h; cases h
        | panic => rw [hc] at h; cases h
    · rename_i hx
      rw [if_neg hx]
      exact collect_append w f sel key l' h' l r h

theorem collect_reverse {α : Type} (w : World) (f : Json → Option α) (sel : Str → Bool) (key : Bytes) :
    ∀ (l : List Str) (r : List α), Storage.collect E w f sel key l = .ok r → Storage.collect E w f sel key l.reverse = .ok r.reverse
  | [], r, h => by cases h; rfl
  | x :: l, r, h => by
    rw [List.reverse_cons]
    rw [Storage.collect] at h
    split at h
    · rename_i hx
      cases hg : Storage.get E w f x key with
      | panic => rw [hg] at h; cases h
      | err e =>
        rw [hg] at h
        simp only [Res.toOption?_err, Res.bind_ok] at h
        cases hc : Storage.collect E w f sel key l with
        | ok t =>
          rw [hc] at h; cases h
          have := collect_append (E := E) w f sel key [x] (r' := []) (by rw [Storage.collect, if_pos hx, hg]; rfl) _ _
            (collect_reverse w f sel key l t hc)
          simpa using this
        | err e => rw [hc] at h; cases h
        | panic => rw [hc] at h; cases h
      | ok v =>
        rw [hg] at h
        simp only [Res.toOption?_ok, Res.bind_ok] at h
        cases hc : Storage.collect E w f sel key l with
        | ok t =>
          rw [hc] at h; cases h
          have := collect_append (E := E) w f sel key [x] (r' := [v]) (by rw [Storage.collect, if_pos hx, hg]; rfl) _ _
            (collect_reverse w f sel key l t hc)
          simpa using this
        | err e => rw [hc] at h; cases h
        | panic => rw [hc] at h; cases h
    · rename_i hx
      have := collect_append (E := E) w f sel key [x] (r' := []) (by rw [Storage.collect, if_neg hx]; rfl) _ _
        (collect_reverse w f sel key l r h)
      simpa using this

theorem list_reverse (E : Env) (s : PState) (y q : Str) {r : List Password} (h : Passwords.list E s y q = .ok r) :
    Passwords.list (E.reorder fun k d => (E.order k d).reverse) s y q = .ok r.reverse := by
  unfold Passwords.list at h ⊢
  cases hk : Passwords.orPanic s.key with
  | err e => rw [hk] at h; cases h
  | panic => rw [hk] at h; cases h
  | ok key =>
    cases hh : Passwords.orPanic s.hmacSecret with
    | err e => rw [hk, hh] at h; cases h
    | panic => rw [hk, hh] at h; cases h
    | ok secret =>
      rw [hk, hh] at h
      simp only [Res.bind_ok, reorder_resolve] at h ⊢
      cases hr : Storage.resolveSite E s.world y secret key with
      | err e => rw [hr] at h; cases h
      | panic => rw [hr] at h; cases h
      | ok x =>
        rw [hr] at h
        simp only [Res.bind_ok, Storage.listPasswords, reorder_collect] at h ⊢
        cases hc : Storage.collect E s.world Serde.passwordFromJson (Storage.sitePrefix E x secret).isPrefixOf key (FileIO.keys E s.world) with
        | err e => rw [hc] at h; cases h
        | panic => rw [hc] at h; cases h
        | ok l =>
          rw [hc] at h
          cases h
          have hkeys : FileIO.keys (E.reorder fun k d => (E.order k d).reverse) s.world = (FileIO.keys E s.world).reverse := by
            show List.map _ (List.reverse _) = _
            rw [List.map_reverse]; rfl
          have hp : Storage.sitePrefix (E.reorder fun k d => (E.order k d).reverse) x secret = Storage.sitePrefix E x secret := rfl
          rw [hkeys, hp, collect_reverse _ _ _ _ _ _ hc]
          simp only [Res.bind_ok, List.filter_reverse]
          rfl

theorem printPasswords_reorder (site : Str) (a b c : Bool) :
    ∀ l, printPasswords (E.reorder o) site a b c l = printPasswords E site a b c l
  | [] => rfl
  | x :: l => by
    rw [printPasswords, printPasswords, printPasswords_reorder site a b c l]
    have h1 : printValue (E.reorder o) site x = printValue E site x := rfl
    have h2 : printRecovery (E.reorder o) x = printRecovery E x := rfl
    rw [h1, h2]

theorem candidateSites_perm {m m' : List Site} (hm : (m.map Site.name).Nodup) (h : m'.Perm m) :
    candidateSites m' = candidateSites m := by
  have hm' : (m'.map Site.name).Nodup := (h.map _).nodup_iff.mpr hm
  have hnd : ∀ m : List Site, (candidateSites m).Nodup := fun m =>
    (candidates_ascending m).imp fun {a b} hlt he => by rw [he] at hlt; exact List.lt_irrefl _ hlt
  have hp : (candidateSites m').Perm (candidateSites m) := by
    rw [List.perm_ext_iff_of_nodup (hnd _) (hnd _)]
    intro x
    rw [mem_candidates_iff hm, mem_candidates_iff hm']
    simp only [h.mem_iff]
  refine List.Perm.eq_of_pairwise (le := fun x y => utf8 x.name < utf8 y.name) ?_ (candidates_ascending _) (candidates_ascending _) hp
  intro a b _ _ h1 h2
  exact absurd (List.lt_trans h1 h2) (List.lt_irrefl _)

theorem sortPasswords_perm_eq {l l' : List Password} (h : l'.Perm l)
    (ht : ∀ x ∈ l, ∀ z ∈ l, sortText x = sortText z → x = z) : sortPasswords l' = sortPasswords l := by
  have hp := ((sortPasswords_perm l').trans h).trans (sortPasswords_perm l).symm
  refine List.Perm.eq_of_pairwise (le := fun x y => utf8 (sortText x) ≤ utf8 (sortText y)) ?_ (sortPasswords_sorted _)
    (sortPasswords_sorted _) hp
  intro a b ha hb h1 h2
  have ha' := h.mem_iff.mp ((sortPasswords_perm l').mem_iff.mp ha)
  have hb' := (sortPasswords_perm l).mem_iff.mp hb
  exact ht a ha' b hb' (utf8_injective (List.le_antisymm h1 h2))

theorem listLoop_reorder (hE : E.Lawful) (ho : ∀ n d, (o n d).Perm d) {s₀ : PState} (name : Str) (a b c : Bool)
    (cands : List Site) : ∀ (l : List Str), (∀ y ∈ l, ∀ r, Passwords.list E s₀ y name = .ok r →
      ∀ x ∈ r, ∀ z ∈ r, sortText x = sortText z → x = z) → ∀ (s : CState) (k : Nat), s.ps = drawn s₀ k →
    listLoop (E.reorder o) name a b c cands l s = listLoop E name a b c cands l s
  | [], _, s, k, _ => rfl
  | y :: l, hl, s, k, hk => by
    have ih := listLoop_reorder hE ho name a b c cands l fun y hy => hl y (List.mem_cons_of_mem _ hy)
    rw [listLoop_cons, listLoop_cons, CM.bind_apply, CM.bind_apply]
    have h1 : (query fun s => Passwords.list (E.reorder o) s y name) s = (convert (Passwords.list (E.reorder o) s.ps y name), s) := rfl
    have h2 : (query fun s => Passwords.list E s y name) s = (convert (Passwords.list E s.ps y name), s) := rfl
    rw [h1, h2, hk, list_drawn, list_drawn]
    have hr := list_reorder hE ho s₀ y name
    rcases hr with ⟨r', r, g1, g2, g3⟩ | ⟨g1, g2⟩
    · have hs := sortPasswords_perm_eq g3 (hl y (by simp) r g2)
      rw [g1, g2]
      simp only [convert, hs]
      have he : (r' = []) = (r = []) := by
        apply propext
        constructor
        · rintro rfl
          exact g3.symm.eq_nil
        · rintro rfl
          exact g3.eq_nil
      simp only [he]
      by_cases hr : r = []
      · simp only [if_pos hr]
        rw [CM.bind_apply, CM.bind_apply, ih s k hk]
      · simp only [if_neg hr, printPasswords_reorder]
        have hd : ∀ m : CM Unit, Draws s₀ m → ∀ (f g : Unit → CM (Bool × List Str)) (s : CState) (k : Nat), s.ps = drawn s₀ k →
            (∀ u (s' : CState) (k' : Nat), s'.ps = drawn s₀ k' → f u s' = g u s') → (m >>= f) s = (m >>= g) s := by
          intro m hm f g s k hk hfg
          rw [CM.bind_apply, CM.bind_apply]
          obtain ⟨k', hk'⟩ := hm s k hk
          cases hms : m s with
          | mk x s' =>
            rw [hms] at hk'
            cases x with
            | ok u => exact hfg u s' k' hk'
            | err e => rfl
            | panic => rfl
            | blocked => rfl
        refine hd _ (draws_println _) _ _ s k hk fun _ s k hk => ?_
        refine hd _ (draws_printAliases _ _) _ _ s k hk fun _ s k hk => ?_
        refine hd _ (draws_printPasswords _ _ _ _ _) _ _ s k hk fun _ s k hk => ?_
        rw [CM.bind_apply, CM.bind_apply, ih s k hk]
    · rw [g1]
      cases hx : Passwords.list E s₀ y name with
      | ok r => exact absurd (g1.trans hx) (g2 r)
      | err e => rfl
      | panic => rfl

/-- Worlds that differ in the file only. -/
def SameButFile (s s' : PState) : Prop := ∃ disk, s' = { s with world := { s.world with disk } }

theorem removeSitesLoop_reorder (secret : Bytes) : ∀ (l : List Str),
    Passwords.removeSitesLoop (E.reorder o) secret l = Passwords.removeSitesLoop E secret l
  | [] => rfl
  | x :: l => by
    rw [Passwords.removeSitesLoop, Passwords.removeSitesLoop, removeSitesLoop_reorder secret l]
    rfl

theorem removeSites_reorder (l : List Str) (s : PState) :
    (Passwords.removeSites (E.reorder o) l s).1 = (Passwords.removeSites E l s).1 ∧
    SameButFile (Passwords.removeSites E l s).2 (Passwords.removeSites (E.reorder o) l s).2 := by
  unfold Passwords.removeSites
  split
  · exact ⟨rfl, s.world.disk, rfl⟩
  · simp only [M.bind_apply, M.get_apply, M.lift_apply, removeSitesLoop_reorder]
    cases okOr s.hmacSecret .passwordsLocked with
    | err e => exact ⟨rfl, s.world.disk, rfl⟩
    | panic => exact ⟨rfl, s.world.disk, rfl⟩
    | ok secret =>
      simp only
      cases hx : Passwords.onWorld (Passwords.removeSitesLoop E secret l) s with
      | mk r s' =>
        cases r with
        | err e => exact ⟨rfl, s'.world.disk, rfl⟩
        | panic => exact ⟨rfl, s'.world.disk, rfl⟩
        | ok u =>
          simp only [Passwords.onWorld, Storage.flush, FileIO.flush]
          have hfs : (E.reorder o).fs = E.fs := rfl
          rw [hfs]
          cases E.fs s'.world.fpos <;> exact ⟨rfl, _, rfl⟩

namespace Props

/-- **C51.** In every reachable unlocked state in which no two passwords listed for a site have the same sort text, the
result and the text shown by `list` are the same for every iteration order of the hash map; so is the state of the
program apart from the order of the entries in the file. -/
theorem C51_order_irrelevant (C : CEnv) (hE : C.env.Lawful) (hS : Secure C.env U) (o : Nat → Data → Data)
    (ho : ∀ n d, (o n d).Perm d) (b : Bool) (cs : CState) (hs : Reachable C.env U cs.ps) (hu : cs.ps.key.isSome = true)
    (d n : Str) (showValues recovery verbose : Bool)
    (hties : ∀ y l, U.site y → ask C.env cs.ps (.list y n) = .ok (.passwords l) →
      ∀ x ∈ l, ∀ z ∈ l, sortText x = sortText z → x = z) (r r' : COut Unit) (s s' : CState)
    (h : processCommand C b (.list d n showValues recovery verbose) cs = (r, s))
    (h' : processCommand { C with env := C.env.reorder o } b (.list d n showValues recovery verbose) cs = (r', s')) :
    r' = r ∧ ∃ disk, s' = { s with ps := { s.ps with world := { s.ps.world with disk } } } := by
  obtain ⟨A, pos, p, V, hop⟩ := reach_open hE hS hs hu
  obtain ⟨m, rows, h1, h2, h3, h4, h5⟩ := hop.list_run hE hS d n
  have h : Cli.list C.env d n showValues recovery verbose cs = (r, s) := h
  have h' : Cli.list (C.env.reorder o) d n showValues recovery verbose cs = (r', s') := h'
  rw [h5 cs showValues recovery verbose rfl] at h
  have hloop := listLoop_reorder hE ho (s₀ := cs.ps) n showValues recovery verbose (candidateSites m)
    (listedSites (candidateSites m)) (fun y hy l hl => hties y l (h4 y hy).1 (by simp only [ask, run, hl]; rfl)) cs
    cs.ps.world.rpos rfl
  have hlist : Cli.list (C.env.reorder o) d n showValues recovery verbose cs =
      (listLoop C.env n showValues recovery verbose (candidateSites m) (listedSites (candidateSites m)) >>=
        listEnd (C.env.reorder o)) cs := by
    unfold Cli.list
    have hun : ensureUnlocked (C.env.reorder o) cs = (.ok (), cs) := C48_already _ cs hu hop.initialized
    rw [CM.bind_apply, hun]
    simp only
    have hq : ∃ m', (query fun s => Passwords.listSites (C.env.reorder o) s d) cs = (.ok m', cs) ∧ m'.Perm m := by
      have hm : Passwords.listSites C.env cs.ps d = .ok m := by
        simp only [ask, run] at h1
        cases hl : Passwords.listSites C.env cs.ps d with
        | ok l' => rw [hl] at h1; cases h1; rfl
        | err e => rw [hl] at h1; cases h1
        | panic => rw [hl] at h1; cases h1
      rcases listSites_reorder hE ho cs.ps d with ⟨l, l', g1, g2, g3⟩ | ⟨g1, g2⟩
      · rw [hm] at g2
        cases g2
        refine ⟨l, ?_, g3⟩
        show (convert (Passwords.listSites (C.env.reorder o) cs.ps d), cs) = _
        rw [g1]; rfl
      · rw [g1] at g2
        exact absurd hm (g2 m)
    obtain ⟨m', hq, hp⟩ := hq
    rw [CM.bind_apply, hq]
    simp only [candidateSites_perm h2 hp]
    rw [CM.bind_apply, CM.bind_apply, hloop]
    rfl
  rw [hlist] at h'
  rw [CM.bind_apply] at h h'
  cases hx : listLoop C.env n showValues recovery verbose (candidateSites m) (listedSites (candidateSites m)) cs with
  | mk x s₁ =>
    rw [hx] at h h'
    cases x with
    | err e => cases h; cases h'; exact ⟨rfl, s.ps.world.disk, rfl⟩
    | panic => cases h; cases h'; exact ⟨rfl, s.ps.world.disk, rfl⟩
    | blocked => cases h; cases h'; exact ⟨rfl, s.ps.world.disk, rfl⟩
    | ok x =>
      simp only [listEnd] at h h'
      rw [CM.bind_apply] at h h'
      have e1 : call (Passwords.removeSites C.env x.2) s₁ = (convert (Passwords.removeSites C.env x.2 s₁.ps).1,
        { s₁ with ps := (Passwords.removeSites C.env x.2 s₁.ps).2 }) := rfl
      have e2 : call (Passwords.removeSites (C.env.reorder o) x.2) s₁ =
        (convert (Passwords.removeSites (C.env.reorder o) x.2 s₁.ps).1,
          { s₁ with ps := (Passwords.removeSites (C.env.reorder o) x.2 s₁.ps).2 }) := rfl
      obtain ⟨g1, disk, g2⟩ := removeSites_reorder (E := C.env) (o := o) x.2 s₁.ps
      rw [e1] at h
      rw [e2, g1, g2] at h'
      cases hy : (Passwords.removeSites C.env x.2 s₁.ps).1 with
      | err e => rw [hy] at h h'; cases h; cases h'; exact ⟨rfl, disk, rfl⟩
      | panic => rw [hy] at h h'; cases h; cases h'; exact ⟨rfl, disk, rfl⟩
      | ok u =>
        rw [hy] at h h'
        simp only [convert] at h h'
        by_cases hf : x.1 = true
        · rw [if_pos hf] at h h'
          cases h; cases h'
          exact ⟨rfl, disk, rfl⟩
        · rw [if_neg hf] at h h'
          cases h; cases h'
          exact ⟨rfl, disk, rfl⟩

/-- C51: the restriction is needed.  The passwords of a site come in the iteration order (the reversed one here), and
those with the same sort text are shown in this order (see `C61_list_text`): of two passwords with the same sort text,
`x` is shown first with one order and `z` with the other. -/
theorem C51_ties (C : CEnv) (s : PState) (y n : Str) (x z : Password)
    (h : ask C.env s (.list y n) = .ok (.passwords [x, z])) (ht : sortText x = sortText z) :
    ask (C.env.reorder fun k d => (C.env.order k d).reverse) s (.list y n) = .ok (.passwords [z, x]) ∧
    (∀ sorted, Sorted sorted → (∀ k, sorted.filter (fun x => sortText x = k) = [x, z].filter fun x => sortText x = k) →
      sorted.Perm [x, z] → sorted = [x, z]) ∧
    (∀ sorted, Sorted sorted → (∀ k, sorted.filter (fun x => sortText x = k) = [z, x].filter fun x => sortText x = k) →
      sorted.Perm [z, x] → sorted = [z, x]) := by
  have hstable : ∀ (a b : Password) (sorted : List Password), sortText a = sortText b →
      (∀ k, sorted.filter (fun x => sortText x = k) = [a, b].filter fun x => sortText x = k) → sorted.Perm [a, b] →
      sorted = [a, b] := by
    intro a b sorted hab h hp
    have h := h (sortText a)
    rw [List.filter_eq_self.mpr, List.filter_eq_self.mpr] at h
    · exact h
    · intro w hw
      simp only [List.mem_cons, List.not_mem_nil, or_false] at hw
      rcases hw with rfl | rfl <;> simp [hab]
    · intro w hw
      have hw := hp.mem_iff.mp hw
      simp only [List.mem_cons, List.not_mem_nil, or_false] at hw
      rcases hw with rfl | rfl <;> simp [hab]
  refine ⟨?_, fun l _ => hstable x z l ht, fun l _ => hstable z x l ht.symm⟩
  have hl : Passwords.list C.env s y n = .ok [x, z] := by
    simp only [ask, run] at h
    cases hl : Passwords.list C.env s y n with
    | ok l => rw [hl] at h; cases h; rfl
    | err e => rw [hl] at h; cases h
    | panic => rw [hl] at h; cases h
  have := list_reverse C.env s y n hl
  simp only [ask, run, this]
  rfl

/-- The hypotheses of C51 can be met. -/
example : Reachable Toy.env Toy.univ Toy.two ∧ Toy.two.key.isSome = true ∧ ∀ y l, Toy.univ.site y →
    ask Toy.env Toy.two (.list y (c!"*")) = .ok (.passwords l) → ∀ x ∈ l, ∀ z ∈ l, sortText x = sortText z → x = z := by
  refine ⟨Toy.two_reachable, Toy.two_unlocked, fun y l hy hl x hx z hz _ => ?_⟩
  obtain ⟨-, A, pos, ho⟩ := Toy.two_effect
  obtain ⟨l', h1, -, h3⟩ := ho.list Toy.env_lawful Toy.secure (c!"*") hy
  rw [hl] at h1
  cases h1
  have : ∀ x ∈ l, x = Vault.record ⟨c!"a", c!"u", []⟩ ⟨.stored (c!"x"), []⟩ := by
    intro x hx
    obtain ⟨id, e, e1, rfl, -, -⟩ := (h3 x).mp hx
    simp only [Vault.link, Vault.put, Vault.know, Vault.empty, update, if_true] at e1
    split at e1
    · rename_i he
      cases e1
      rw [he]
    · cases e1
  rw [this x hx, this z hz]

/-- Two passwords with the same sort text. -/
example : ∃ x z, ask Toy.env Toy.tied (.list (c!"a") (c!"*")) = .ok (.passwords [x, z]) ∧ sortText x = sortText z ∧
    entryTitle x ≠ entryTitle z := by
  obtain ⟨A, pos, ho⟩ := Toy.tied_open
  obtain ⟨l, h1, h2, h3⟩ := ho.list Toy.env_lawful Toy.secure (c!"*") Toy.site_a
  let x := Vault.record ⟨c!"a", c!"u v", c!"w"⟩ ⟨.stored (c!"x"), []⟩
  let z := Vault.record ⟨c!"a", c!"u", c!"v w"⟩ ⟨.stored (c!"y"), []⟩
  have hl : ∀ y, y ∈ l ↔ y ∈ [x, z] := by
    intro y
    rw [h3]
    simp only [List.mem_cons, List.not_mem_nil, or_false]
    constructor
    · rintro ⟨id, e, e1, rfl, -, -⟩
      simp only [Vault.put, know_passwords, update] at e1
      split at e1
      · rename_i he
        cases e1
        rw [he]; exact .inr rfl
      · split at e1
        · rename_i he
          cases e1
          rw [he]; exact .inl rfl
        · cases e1
    · rintro (rfl | rfl)
      · exact ⟨_, _, rfl, rfl, rfl, rfl⟩
      · exact ⟨_, _, rfl, rfl, rfl, rfl⟩
  have hp : l.Perm [x, z] := (List.perm_ext_iff_of_nodup h2 (by decide)).mpr hl
  rw [h1]
  have hcases : l = [x, z] ∨ l = [z, x] := by
    match l, hp.length_eq with
    | [a, b], _ =>
      have ha := (hl a).mp (by simp)
      have hb := (hl b).mp (by simp)
      have hab : a ≠ b := by simpa using h2
      simp only [List.mem_cons, List.not_mem_nil, or_false] at ha hb
      rcases ha with rfl | rfl <;> rcases hb with rfl | rfl <;> simp at hab ⊢
  rcases hcases with h | h
  · exact ⟨x, z, by rw [h], by decide, by decide⟩
  · exact ⟨z, x, by rw [h], by decide, by decide⟩

end Props
end
end Pfp
