import Verif.Proofs.Locality
import Verif.Props.Touched

/-!
# C112: results depend only on the entries looked at
-/

namespace Pfp.Props
open Spec Cli Proofs.Locality

variable {E : Env}

theorem near_of {u v : PState} (h : Beside u v) : NearP (AgreeOn u v) u v :=
  ⟨⟨h.random, h.writes, fun _ h => h⟩, h.key, h.hmacSecret, h.primaryPassword⟩

theorem beside_of {K : Str → Prop} {u v : PState} (h : NearP K u v) : Beside u v :=
  ⟨h.key, h.hmacSecret, h.primaryPassword, h.world.rpos, h.world.fpos⟩

/-- **C112.** Whatever is in two storages, whoever wrote it: if they agree on the entries which an operation looks at, then the operation
has the same result on both; and they still agree on all the entries on which they agreed before. -/
theorem C112_result (E : Env) (u v : PState) (op : Op) (hb : Beside u v) (hk : ∀ k, Needs E u op k → AgreeOn u v k)
    (h1 : op ≠ .reload) (h2 : ∀ a b, op ≠ .setAlias a b) (h3 : ∀ a q, op ≠ .list a q) (h4 : ∀ q, op ≠ .listSites q) :
    ask E u op = ask E v op ∧ Beside (after E u op) (after E v op) ∧
    ∀ k, AgreeOn u v k → AgreeOn (after E u op) (after E v op) k := by
  obtain ⟨g1, g2⟩ := run_both (near_of hb) op hk h1 h2 h3 h4
  exact ⟨g1, beside_of g2, g2.world.data⟩

/-- **C112.** So has setting an alias, unless an entry of a password of the site makes the program crash (`C56`). -/
theorem C112_alias (hE : E.Lawful) (u v : PState) (a b : Str) (hb : Beside u v)
    (hk : ∀ k, Needs E u (.setAlias a b) k → AgreeOn u v k) (hu : ask E u (.setAlias a b) ≠ .panic)
    (hv : ask E v (.setAlias a b) ≠ .panic) :
    ask E u (.setAlias a b) = ask E v (.setAlias a b) ∧ Beside (after E u (.setAlias a b)) (after E v (.setAlias a b)) ∧
    ∀ k, AgreeOn u v k → AgreeOn (after E u (.setAlias a b)) (after E v (.setAlias a b)) k := by
  obtain ⟨g1, g2⟩ := setAlias_both hE (near_of hb) a b hk hu hv
  exact ⟨g1, beside_of g2, g2.world.data⟩

/-- **C112.** Listings have the same items. -/
theorem C112_lists (hE : E.Lawful) (u v : PState) (op : Op) (hop : (∃ a q, op = .list a q) ∨ ∃ q, op = .listSites q) (hb : Beside u v)
    (hk : ∀ k, Needs E u op k → AgreeOn u v k) (hd : Distinct u.world) (hd' : Distinct v.world) :
    SameUpToOrder (ask E u op) (ask E v op) := by
  rcases hop with ⟨a, q, rfl⟩ | ⟨q, rfl⟩
  · exact list_both hE (near_of hb) hd hd' a q hk
  · exact listSites_both hE (near_of hb) hd hd' q hk

/-! ## The program -/

/-- The same but for the storage. -/
def NearC (K : Str → Prop) (s t : CState) : Prop := NearP K s.ps t.ps ∧ t = { s with ps := t.ps }

theorem unlockLoop_both {K : Str → Prop} (h1 : K (c!"salt")) (h2 : K (c!"hmac-secret")) : ∀ (l : List Str) (s t : CState), NearC K s t →
    (unlockLoop E l s).1 = (unlockLoop E l t).1 ∧ NearC K (unlockLoop E l s).2 (unlockLoop E l t).2 := by
  intro l
  induction l with
  | nil =>
    intro s t hn
    obtain ⟨hn, ht⟩ := hn
    cases hk : s.ps.key with
    | some k =>
      rw [unlockLoop_unlocked (s := s) (by rw [hk]; rfl), unlockLoop_unlocked (s := t) (by rw [← hn.key, hk]; rfl)]
      exact ⟨rfl, hn, ht⟩
    | none =>
      rw [unlockLoop_nil hk, unlockLoop_nil (hn.key ▸ hk)]
      rw [ht]
      exact ⟨rfl, hn, rfl⟩
  | cons line l ih =>
    intro s t hn
    obtain ⟨hn, ht⟩ := hn
    cases hk : s.ps.key with
    | some k =>
      rw [unlockLoop_unlocked (s := s) (by rw [hk]; rfl), unlockLoop_unlocked (s := t) (by rw [← hn.key, hk]; rfl)]
      exact ⟨rfl, hn, ht⟩
    | none =>
      rw [unlockLoop_cons hk, unlockLoop_cons (hn.key ▸ hk)]
      split
      · exact ih _ _ ⟨hn, by rw [ht]⟩
      · have := unlock_both (E := E) hn h1 h2 (trim line)
        revert this
        rcases Passwords.unlock E (trim line) s.ps with ⟨r, u⟩
        rcases Passwords.unlock E (trim line) t.ps with ⟨r', v⟩
        rintro ⟨g1, g2⟩
        dsimp only at g1 g2
        subst g1
        cases r with
        | ok x => exact ih _ _ ⟨g2, by rw [ht]⟩
        | err e => exact ih _ _ ⟨g2, by rw [ht]⟩
        | panic => exact ⟨rfl, g2, by rw [ht]⟩

theorem ensure_both {K : Str → Prop} (h1 : K (c!"salt")) (h2 : K (c!"hmac-secret")) {s t : CState} (hn : NearC K s t) :
    (ensureUnlocked E s).1 = (ensureUnlocked E t).1 ∧ NearC K (ensureUnlocked E s).2 (ensureUnlocked E t).2 := by
  have hi := initialized_eq hn.1 h1 h2
  cases hs : Passwords.initialized s.ps with
  | false =>
    rw [ensureUnlocked_not hs, ensureUnlocked_not (hi ▸ hs)]
    exact ⟨rfl, hn⟩
  | true =>
    rw [ensureUnlocked_eq hs, ensureUnlocked_eq (hi ▸ hs), hn.2]
    exact unlockLoop_both h1 h2 s.secrets _ _ ⟨hn.1, rfl⟩

def BothC (K : Str → Prop) {α : Type} (x y : COut α × CState) : Prop := x.1 = y.1 ∧ NearC K x.2 y.2

def ParC (K : Str → Prop) {α : Type} (m : CM α) : Prop := ∀ s t, NearC K s t → BothC K (m s) (m t)

theorem parC_bindC {K : Str → Prop} {α β : Type} {m : CM α} {f : α → CM β} {s t : CState} (hm : BothC K (m s) (m t))
    (hf : ∀ a, (m s).1 = .ok a → BothC K (f a (m s).2) (f a (m t).2)) : BothC K ((m >>= f) s) ((m >>= f) t) := by
  rw [CM.bind_apply, CM.bind_apply]
  revert hm hf
  rcases m s with ⟨r, x⟩
  rcases m t with ⟨r', y⟩
  rintro ⟨h1, h2⟩ hf
  dsimp only at h1 h2
  subst h1
  cases r with
  | ok a => exact hf a rfl
  | err e => exact ⟨rfl, h2⟩
  | panic => exact ⟨rfl, h2⟩
  | blocked => exact ⟨rfl, h2⟩

theorem parC_print {K : Str → Prop} (x : Str) : ParC K (print x) := by
  rintro s t ⟨h1, h2⟩
  refine ⟨rfl, h1, ?_⟩
  show ({ t with out := t.out ++ x } : CState) = _
  rw [h2]
  rfl

theorem parC_fail {K : Str → Prop} {α : Type} (e : CErr) : ParC K (CM.fail e : CM α) := fun _ _ h => ⟨rfl, h⟩

theorem parC_bind {K : Str → Prop} {α β : Type} {m : CM α} {f : α → CM β} (hm : ParC K m) (hf : ∀ a, ParC K (f a)) :
    ParC K (m >>= f) := fun s t h => parC_bindC (hm s t h) fun a _ => hf a _ _ (hm s t h).2

theorem query_both {K : Str → Prop} {α β : Type} {q : PState → Res α} {g : α → CM β} {s t : CState} (hn : NearC K s t)
    (hq : q s.ps = q t.ps) (hg : ∀ a, ParC K (g a)) : BothC K ((query q >>= g) s) ((query q >>= g) t) :=
  parC_bindC (m := query q) ⟨by show convert (q s.ps) = convert (q t.ps); rw [hq], hn⟩ fun a _ => hg a _ _ hn

/-- A command that only asks a question, after unlocking. -/
theorem command_both {K : Str → Prop} (C : CEnv) (b : Bool) (c : Command) (op : Op) (hc : questionOf c = some op) (h1 : K (c!"salt"))
    (h2 : K (c!"hmac-secret")) {s t : CState} (hn : NearC K s t)
    (hK : (ensureUnlocked C.env s).1 = .ok () → ∀ k, Needs C.env (ensureUnlocked C.env s).2.ps op k → K k) :
    BothC K (processCommand C b c s) (processCommand C b c t) := by
  have he := ensure_both (E := C.env) h1 h2 hn
  cases c with
  | «show» a n r qr =>
    cases hc
    refine parC_bindC (m := ensureUnlocked C.env) he fun _ hok => ?_
    refine query_both he.2 (get_both he.2.1 (hK hok)) fun v => parC_bind (parC_print _) fun _ => ?_
    split
    · split
      · exact parC_print _
      · exact parC_fail _
    · exact parC_print _
  | notes a n r set =>
    cases set with
    | true => cases hc
    | false =>
      cases hc
      refine parC_bindC (m := ensureUnlocked C.env) he fun _ hok => ?_
      refine query_both he.2 (getNotes_both he.2.1 (hK hok)) fun v => ?_
      simp only [Bool.false_eq_true, if_false]
      split
      · exact parC_bind (parC_print _) fun _ _ _ h => ⟨rfl, h⟩
      · exact parC_bind (parC_print _) fun _ _ _ h => ⟨rfl, h⟩
  | «alias» a target rm =>
    cases target with
    | some x => cases hc
    | none =>
      cases rm with
      | true => cases hc
      | false =>
        cases hc
        refine parC_bindC (m := ensureUnlocked C.env) he fun _ hok => ?_
        exact query_both he.2 (getAlias_both he.2.1 (hK hok)) fun v => parC_print _
  | _ => cases hc

/-- **C112** (the program).  A run that shows a password, its notes or an alias, on two storage files, whoever wrote them, that agree on the
salt, the encrypted secret and the entries which the question asked looks at once one of the lines entered has unlocked the storage: it
ends in the same way, and writes the same to standard output and standard error.  So an entry that is damaged, altered, added or missing
makes no difference to what is shown from others. -/
theorem C112_run (C : CEnv) (argv : List Str) (prompted : List Prompted) (m : Machine) (files : Str → Option Bytes) (args : Args) (op : Op)
    (hp : parseArgs argv = some args) (hc : questionOf args.command = some op) (before before' : Data)
    (hl : FileIO.load (m.files (args.storage.getD m.defaultPath)) = .ok before)
    (hl' : FileIO.load (files (args.storage.getD m.defaultPath)) = .ok before')
    (hsalt : before.get? (c!"salt") = before'.get? (c!"salt"))
    (hsecret : before.get? (c!"hmac-secret") = before'.get? (c!"hmac-secret"))
    (hk : ∀ line ∈ m.state.secrets, Accepted C.env (startedWith m (args.storage.getD m.defaultPath) before) line → ∀ k,
      Needs C.env (after C.env (startedWith m (args.storage.getD m.defaultPath) before) (.unlock (trim line))) op k →
      before.get? k = before'.get? k) :
    (Cli.main C argv prompted m).1 = (Cli.main C argv prompted { m with files }).1 ∧
    (Cli.main C argv prompted m).2.state.out = (Cli.main C argv prompted { m with files }).2.state.out ∧
    (Cli.main C argv prompted m).2.state.errors = (Cli.main C argv prompted { m with files }).2.state.errors := by
  have hset : ∀ y, args.command ≠ .setPrimary y := by
    intro y h; rw [h] at hc; cases hc
  have hsh : args.command ≠ .shell := by
    intro h; rw [h] at hc; cases hc
  have hproc : ∀ C' : CEnv, ∀ b ev, process C' b ev args.command = processCommand C' b args.command := by
    intro C' b ev
    cases hcc : args.command with
    | shell => exact absurd hcc hsh
    | _ => rfl
  let path := args.storage.getD m.defaultPath
  let C' : CEnv := { C with storagePath := path }
  let s : CState := { m.state with ps := startedWith m path before }
  let t : CState := { m.state with ps := startedWith { m with files } path before' }
  let K : Str → Prop := fun k => before.get? k = before'.get? k
  have hn : NearC K s t := ⟨⟨⟨rfl, rfl, fun _ h => h⟩, rfl, rfl, rfl⟩, rfl⟩
  have hb : BothC K (processCommand C' args.stdinPasswords args.command s) (processCommand C' args.stdinPasswords args.command t) := by
    refine command_both C' args.stdinPasswords args.command op hc hsalt hsecret hn fun hok => ?_
    rcases C48_by_a_line C.env s hok with h | ⟨line, hline, ha, h⟩
    · have := (C48_no_effect C.env s).2.2.2 hok
      rw [h] at this
      cases this.2
    · intro k hk'
      rw [show (ensureUnlocked C'.env s).2.ps = _ from h] at hk'
      exact hk line hline ha k hk'
  have hm : Cli.main C argv prompted m = mainEnd C args prompted m (processCommand C' args.stdinPasswords args.command s).1
      (processCommand C' args.stdinPasswords args.command s).2 := by
    simp only [Cli.main, hp]
    rw [mainInner_eq _ _ _ _ _ hset, hl]
    dsimp only
    rw [hproc]
    rfl
  have hm' : Cli.main C argv prompted { m with files } = mainEnd C args prompted { m with files }
      (processCommand C' args.stdinPasswords args.command t).1 (processCommand C' args.stdinPasswords args.command t).2 := by
    simp only [Cli.main, hp]
    rw [mainInner_eq _ _ _ _ _ hset, hl']
    dsimp only
    rw [hproc]
    rfl
  rw [hm, hm']
  revert hb
  rcases processCommand C' args.stdinPasswords args.command s with ⟨r, s'⟩
  rcases processCommand C' args.stdinPasswords args.command t with ⟨r', t'⟩
  rintro ⟨h1, -, h2⟩
  dsimp only at h1 h2
  subst h1
  rw [h2]
  cases r <;> simp [mainEnd, hsh, Machine.write]

/-! ## Examples -/

/-- The hypotheses of `C112_result` and `C112_lists` are met by a storage and the one after another site has got an alias. -/
example : let v : PState := { Toy.one with world := { Toy.two.world with rpos := Toy.one.world.rpos, fpos := Toy.one.world.fpos } }
    Beside Toy.one v ∧ (∀ k, Needs Toy.env Toy.one (.unlock (c!"secret1")) k → AgreeOn Toy.one v k) ∧
    (∀ k, Needs Toy.env Toy.one (.get (c!"a") (c!"u") []) k → AgreeOn Toy.one v k) ∧
    ¬(∀ k, AgreeOn Toy.one v k) ∧ ask Toy.env Toy.one (.get (c!"a") (c!"u") []) = ask Toy.env v (.get (c!"a") (c!"u") []) := by
  intro v
  have hb : Beside Toy.one v := ⟨rfl, rfl, rfl, rfl, rfl⟩
  have h : ∀ k, Needs Toy.env Toy.one (.get (c!"a") (c!"u") []) k → AgreeOn Toy.one v k := by
    rintro k ⟨h, hh, rfl | rfl⟩
    · obtain ⟨s, hs⟩ : ∃ s, Toy.one.hmacSecret = some s := ⟨h, hh⟩
      revert hh
      generalize hx : Toy.one.hmacSecret = x
      rintro rfl
      have : h = Toy.one.hmacSecret.getD [] := by rw [hx]; rfl
      subst this
      show Toy.one.world.data.get? _ = Toy.two.world.data.get? _
      decide +kernel
    · have : h = Toy.one.hmacSecret.getD [] := by rw [hh]; rfl
      subst this
      show Toy.one.world.data.get? _ = Toy.two.world.data.get? _
      decide +kernel
  refine ⟨hb, ?_, h, ?_, (C112_result Toy.env Toy.one v _ hb h (by simp) (by simp) (by simp) (by simp)).1⟩
  · rintro k (rfl | rfl)
    · show Toy.one.world.data.get? _ = Toy.two.world.data.get? _
      decide +kernel
    · show Toy.one.world.data.get? _ = Toy.two.world.data.get? _
      decide +kernel
  · intro hall
    have := hall (siteName Toy.env.prims (Toy.one.hmacSecret.getD []) (c!"b"))
    revert this
    show ¬(Toy.one.world.data.get? _ = Toy.two.world.data.get? _)
    decide +kernel

theorem junk_added (before : Data) (hl : FileIO.load ((touchedMachine [c!"secret1"]).files (touchedMachine [c!"secret1"]).defaultPath) = .ok before)
    (hj : before.get? (c!"junk") = none) :
    FileIO.load (some (FileIO.contents ((c!"junk", c!"x") :: before))) = .ok ((c!"junk", c!"x") :: before).reverse ∧
    before.get? (c!"salt") = Data.get? ((c!"junk", c!"x") :: before).reverse (c!"salt") ∧
    before.get? (c!"hmac-secret") = Data.get? ((c!"junk", c!"x") :: before).reverse (c!"hmac-secret") ∧
    ∀ k, k ≠ c!"junk" → before.get? k = Data.get? ((c!"junk", c!"x") :: before).reverse k := by
  have hnd : (((c!"junk", c!"x") :: before).map (·.1)).Nodup := by
    rw [List.map_cons, List.nodup_cons]
    refine ⟨?_, load_nodup hl⟩
    rw [Data.lookup_eq_none] at hj
    simp only [List.mem_map, not_exists, not_and]
    exact fun e he h => hj e he h
  have hg : ∀ k, k ≠ c!"junk" → before.get? k = Data.get? ((c!"junk", c!"x") :: before).reverse k := by
    intro k hk
    rw [← Data.get?_perm (List.reverse_perm ((c!"junk", c!"x") :: before)).symm hnd k]
    simp [Data.get?, List.lookup, beq_eq_false_iff_ne.mpr hk]
  exact ⟨FileIO.load_contents _ hnd, hg _ (by decide), hg _ (by decide), hg⟩

/-- The hypotheses of `C112_run` are met by a file into which somebody has put something. -/
example : ∃ args before before', parseArgs [c!"show", c!"a", c!"u"] = some args ∧
    questionOf args.command = some (.get (c!"a") (c!"u") (c!"1")) ∧
    FileIO.load ((touchedMachine [c!"secret1"]).files (args.storage.getD (touchedMachine [c!"secret1"]).defaultPath)) = .ok before ∧
    (∃ file, FileIO.load (some file) = .ok before') ∧ before ≠ before' ∧ before.get? (c!"salt") = before'.get? (c!"salt") ∧
    before.get? (c!"hmac-secret") = before'.get? (c!"hmac-secret") ∧
    (∀ u k, Needs Toy.env u (.get (c!"a") (c!"u") (c!"1")) k → before.get? k = before'.get? k) ∧
    (Cli.main Toy.cenv [c!"show", c!"a", c!"u"] [] (touchedMachine [c!"secret1"])).1 = .success := by
  cases hl : FileIO.load Toy.one.world.disk with
  | ok before =>
    have hj : before.get? (c!"junk") = none := by
      have h : (match FileIO.load Toy.one.world.disk with | .ok d => d.get? (c!"junk") | _ => none) = none := by decide +kernel
      rw [hl] at h
      exact h
    obtain ⟨h1, h2, h3, h4⟩ := junk_added before hl hj
    refine ⟨⟨none, false, false, .«show» (c!"a") (c!"u") (c!"1") false, none⟩, before, _, by decide +kernel, rfl, hl, ⟨_, h1⟩, ?_, h2,
      h3, ?_, by decide +kernel⟩
    · intro h
      have := congrArg List.length h
      simp at this
    · rintro u k ⟨h, -, rfl | rfl⟩ <;> exact h4 _ (by simp [siteName, passwordName])
  | _ =>
    have h : (match FileIO.load Toy.one.world.disk with | .ok _ => true | _ => false) = true := by decide +kernel
    rw [hl] at h
    cases h

/-- The hypotheses of `C112_alias` and `C112_lists` are met by a storage into which somebody has put something. -/
example : let v : PState := { Toy.one with world := { Toy.one.world with data := Toy.one.world.data.insert (c!"junk") (c!"x") } }
    Beside Toy.one v ∧ (∀ k, Needs Toy.env Toy.one (.setAlias (c!"b") (c!"a")) k → AgreeOn Toy.one v k) ∧
    (∀ k, Needs Toy.env Toy.one (.list (c!"a") (c!"*")) k → AgreeOn Toy.one v k) ∧
    (∀ k, Needs Toy.env Toy.one (.listSites (c!"*")) k → AgreeOn Toy.one v k) ∧ Distinct Toy.one.world ∧ Distinct v.world ∧
    ask Toy.env Toy.one (.setAlias (c!"b") (c!"a")) = .ok .unit ∧ ask Toy.env v (.setAlias (c!"b") (c!"a")) = .ok .unit := by
  intro v
  have hg : ∀ k, k ≠ c!"junk" → AgreeOn Toy.one v k := by
    intro k hk
    show Toy.one.world.data.get? k = (Toy.one.world.data.insert (c!"junk") (c!"x")).get? k
    rw [Data.get?_insert, if_neg hk]
  have hd : Distinct Toy.one.world := distinct_reach Toy.env_lawful Toy.secure (SoundReachable.reachable Toy.one_sound)
  refine ⟨⟨rfl, rfl, rfl, rfl, rfl⟩, ?_, ?_, ?_, hd, Data.insert_nodup _ _ hd, by decide +kernel, by decide +kernel⟩
  · rintro k ⟨h, -, rfl | ⟨rest, rfl⟩⟩ <;> exact hg _ (by simp [siteName])
  · rintro k ⟨h, -, rfl | ⟨rest, rfl⟩⟩ <;> exact hg _ (by simp [siteName])
  · rintro k ⟨rest, rfl, -⟩; exact hg _ (by simp)

end Pfp.Props
