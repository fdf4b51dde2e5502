import Verif.Props.Locality
import Verif.Props.Runs

/-!
# C114: passwords are shown from a damaged file
-/

namespace Pfp.Props
open Spec Cli Proofs.Locality

variable {U : Universe}

/-- The same state with another storage file. -/
def withFile (s : PState) (file : Option Bytes) : PState := { s with world := { s.world with disk := file } }

/-- **C114 (runs).** A run that shows a password, its notes or an alias, on two storage files, whoever wrote them, that agree on the salt,
the encrypted secret and the entries which the question looks at after unlocking with the first line accepted: it has the same result and
output. -/
theorem C114_question (C : CEnv) (x : Run) (op : Op) (hc : questionOf x.command = some op) (s : PState) (file : Option Bytes)
    (data data' : Data) (hl : FileIO.load s.world.disk = .ok data) (hl' : FileIO.load file = .ok data')
    (hsalt : data.get? (c!"salt") = data'.get? (c!"salt"))
    (hsecret : data.get? (c!"hmac-secret") = data'.get? (c!"hmac-secret"))
    (hk : ∀ bad line rest, x.secrets = bad ++ line :: rest → (∀ l ∈ bad, Refused C.env (openWith s.world data) l) →
      Accepted C.env (openWith s.world data) line → ∀ k,
      Needs C.env (after C.env (openWith s.world data) (.unlock (trim line))) op k → data.get? k = data'.get? k) :
    (x.result C (withFile s file)).1 = (x.result C s).1 ∧
    (x.result C (withFile s file)).2.out = (x.result C s).2.out ∧
    (x.result C (withFile s file)).2.errors = (x.result C s).2.errors := by
  have hset : ∀ y, x.command ≠ .setPrimary y := by
    intro y h; rw [h] at hc; cases hc
  have hproc : process C x.stdinPasswords x.events x.command = processCommand C x.stdinPasswords x.command := by
    cases hcc : x.command with
    | shell => rw [hcc] at hc; cases hc
    | _ => rfl
  let u : CState := { x.start s with ps := openWith s.world data }
  let v : CState := { x.start s with ps := openWith (withFile s file).world data' }
  let K : Str → Prop := fun k => data.get? k = data'.get? k
  have hn : NearC K u v := ⟨⟨⟨rfl, rfl, fun _ h => h⟩, rfl, rfl, rfl⟩, rfl⟩
  have hb : BothC K (processCommand C x.stdinPasswords x.command u) (processCommand C x.stdinPasswords x.command v) := by
    refine command_both C x.stdinPasswords x.command op hc hsalt hsecret hn fun hok => ?_
    obtain ⟨bad, good, rest, g1, g2, g3, g4⟩ := C48_lines_left C.env u rfl hok
    intro k hk'
    rw [g4] at hk'
    exact hk bad good rest g1 g2 g3 k hk'
  have hs : x.result C s = processCommand C x.stdinPasswords x.command u := by
    show mainInner C _ _ _ _ = _
    rw [mainInner_eq _ _ _ _ _ hset, hproc]
    simp only [Run.start, hl]
    rfl
  have ht : x.result C (withFile s file) = processCommand C x.stdinPasswords x.command v := by
    show mainInner C _ _ _ _ = _
    rw [mainInner_eq _ _ _ _ _ hset, hproc]
    simp only [Run.start, withFile, hl']
    rfl
  rw [hs, ht]
  obtain ⟨h1, -, h2⟩ := hb
  exact ⟨h1.symm, by rw [h2], by rw [h2]⟩

/-- With a storage kept as it is, the primary password is the first line accepted. -/
theorem kept_first {p a : Str} {i : PasswordId} {sec : Secret} (C : CEnv) (hE : C.env.Lawful) (hS : Secure C.env U) (ha : U.site a) {n r : Str}
    (hi : i.name = n) (hir : i.revision = revisionOf r) {s : PState} (h : Kept C.env U p a i sec s) {data : Data}
    (hd : FileIO.load s.world.disk = .ok data) (bad : List Str) (good : Str) (rest : List Str) (hp : trim good = p)
    (h6 : 6 ≤ (utf8 p).length) (hlines : LinesWithin U bad) (hbad : ∀ l ∈ bad, trim l ≠ p) (bad' : List Str) (line : Str) (rest' : List Str)
    (he : bad ++ good :: rest = bad' ++ line :: rest') (hr' : ∀ l ∈ bad', Refused C.env (openWith s.world data) l)
    (ha' : Accepted C.env (openWith s.world data) line) : trim line = p := by
  obtain ⟨-, A, hrep, hK⟩ := kept_load hE hS ha hi hir h hd
  obtain ⟨V, hm, hg⟩ := hK.1
  have hmem := hrep.mem
  rw [hm] at hmem
  obtain ⟨pos, R, -⟩ := hmem
  have hu := unlock_eq hE hS R
  have hacc : Accepted C.env (openWith s.world data) good := by
    refine ⟨by rw [hp]; exact h6, ?_⟩
    rw [hp, ask, run, hu p R.primary, if_pos rfl]; rfl
  have excl : ∀ l, Refused C.env (openWith s.world data) l → ¬Accepted C.env (openWith s.world data) l := by
    rintro l (h | ⟨e, h⟩) ⟨h1, h2⟩
    · exact absurd h (Nat.not_lt.mpr h1)
    · rw [h] at h2; cases h2
  have href : ∀ l ∈ bad, Refused C.env (openWith s.world data) l := by
    intro l hl
    by_cases h6' : (utf8 (trim l)).length < 6
    · exact .inl h6'
    · refine .inr ⟨.decryptionFailure, ?_⟩
      rw [ask, run, hu _ (hlines l hl (Nat.le_of_not_lt h6')), if_neg (hbad l hl)]; rfl
  rcases List.append_eq_append_iff.mp he with ⟨c, h1, h2⟩ | ⟨c, h1, h2⟩
  · cases c with
    | nil => cases h2; exact hp
    | cons x c =>
      cases h2
      exact absurd hacc (excl _ (hr' _ (by rw [h1]; simp)))
  · cases c with
    | nil => cases h2; exact hp
    | cons x c =>
      cases h2
      exact absurd ha' (excl _ (href _ (by rw [h1]; simp)))

/-- **C114 (stored).** A password entered is shown by a later run of the program, with other runs in between as in `C65_stored`, from a file
that somebody has damaged, or replaced, afterwards: as long as it can still be read and its salt, its encrypted secret and the entries of
the site and of this password are as the program left them.  What has happened to all other entries does not matter. -/
theorem C114_stored (C : CEnv) (hE : C.env.Lawful) (hS : Secure C.env U) (hstar : ∀ t, C.env.wild (c!"*") t = true)
    (s : PState) (hs : SoundReachable C.env U s) (a n r v : Str) (ha : U.site a) (hn : U.name n) (hr : U.revision r)
    (hok : ask C.env s (.setStored a n r v) = .ok .unit) (xs : List Run) (hxs : ∀ x ∈ xs, x.Within U)
    (hleave : RunsLeave C a n r xs (after C.env s (.setStored a n r v))) (data data' : Data) (file : Option Bytes)
    (hdata : FileIO.load (runPrograms C xs (after C.env s (.setStored a n r v))).world.disk = .ok data)
    (hfile : FileIO.load file = .ok data') (hsalt : data.get? (c!"salt") = data'.get? (c!"salt"))
    (hsecret : data.get? (c!"hmac-secret") = data'.get? (c!"hmac-secret")) :
    ∃ p, s.primaryPassword = some p ∧
    ((∀ k, Needs C.env (after C.env (openWith (runPrograms C xs (after C.env s (.setStored a n r v))).world data) (.unlock p))
      (.get a n r) k → data.get? k = data'.get? k) →
    ∀ (b : Bool) (bad : List Str) (good : Str) (rest : List Str), trim good = p → 6 ≤ (utf8 p).length →
    LinesWithin U bad → (∀ l ∈ bad, trim l ≠ p) → ∀ (events : List ShellEvent) (garbled : Bool) (confirms : List Bool)
    (answers : List (Option Str)),
    let res := (⟨b, .«show» a n r false, events, bad ++ good :: rest, garbled, confirms, answers⟩ : Run).result C
      (withFile (runPrograms C xs (after C.env s (.setStored a n r v))) file)
    res.1 = .ok () ∧
    res.2.out = (List.replicate (bad.length + 1) (c!"Your primary password: ")).flatten ++
      (c!"Password retrieved." ++ v ++ c!"\n") ∧
    res.2.errors = bad.map fun l => .error (if (utf8 (trim l)).length < 6 then .primaryTooShort else .lib .decryptionFailure)) := by
  obtain ⟨p, i, h1, h2, h3, hk⟩ := kept_stored hE hS hs ha hn hr hok
  refine ⟨p, h1, fun hneeds => ?_⟩
  have hk' := kept_runs C hE hS hstar ha h2 h3 xs _ hxs hk hleave
  intro b bad good rest hp h6 hl hbad ev ga co an
  obtain ⟨q1, -, q3, q4⟩ := kept_show C hE hS ha hn hr h2 h3 hk' (v := v) rfl hdata b bad good rest hp h6 hl hbad ev ga co an
  obtain ⟨g1, g2, g3⟩ := C114_question C ⟨b, .«show» a n r false, ev, bad ++ good :: rest, ga, co, an⟩ _ rfl _ file data data' hdata hfile
    hsalt hsecret fun bad' line rest' he hr' ha' k hneed => hneeds k (by
      rw [← kept_first C hE hS ha h2 h3 hk' hdata bad good rest hp h6 hl hbad bad' line rest' he hr' ha']; exact hneed)
  exact ⟨g1.trans q1, g2.trans q3, g3.trans q4⟩

/-- **C114 (generated).** The same for generated passwords. -/
theorem C114_generated (C : CEnv) (hE : C.env.Lawful) (hS : Secure C.env U) (hstar : ∀ t, C.env.wild (c!"*") t = true)
    (s : PState) (hs : SoundReachable C.env U s) (a n r : Str) (len : UInt64) (cs : CharacterSet) (ha : U.site a)
    (hn : U.name n) (hr : U.revision r) (hsound : Op.Sound (.setGenerated a n r len cs))
    (hok : ask C.env s (.setGenerated a n r len cs) = .ok .unit) (xs : List Run) (hxs : ∀ x ∈ xs, x.Within U)
    (hleave : RunsLeave C a n r xs (after C.env s (.setGenerated a n r len cs))) (data data' : Data) (file : Option Bytes)
    (hdata : FileIO.load (runPrograms C xs (after C.env s (.setGenerated a n r len cs))).world.disk = .ok data)
    (hfile : FileIO.load file = .ok data') (hsalt : data.get? (c!"salt") = data'.get? (c!"salt"))
    (hsecret : data.get? (c!"hmac-secret") = data'.get? (c!"hmac-secret")) :
    ∃ p v, s.primaryPassword = some p ∧
    Crypto.derivePassword C.env.prims p (saltText ⟨siteMeant C.env s a, n, revisionOf r⟩) len.toNat cs = .ok v ∧
    ((∀ k, Needs C.env (after C.env (openWith (runPrograms C xs (after C.env s (.setGenerated a n r len cs))).world data) (.unlock p))
      (.get a n r) k → data.get? k = data'.get? k) →
    ∀ (b : Bool) (bad : List Str) (good : Str) (rest : List Str), trim good = p → 6 ≤ (utf8 p).length →
    LinesWithin U bad → (∀ l ∈ bad, trim l ≠ p) → ∀ (events : List ShellEvent) (garbled : Bool) (confirms : List Bool)
    (answers : List (Option Str)),
    let res := (⟨b, .«show» a n r false, events, bad ++ good :: rest, garbled, confirms, answers⟩ : Run).result C
      (withFile (runPrograms C xs (after C.env s (.setGenerated a n r len cs))) file)
    res.1 = .ok () ∧
    res.2.out = (List.replicate (bad.length + 1) (c!"Your primary password: ")).flatten ++
      (c!"Password retrieved." ++ v ++ c!"\n") ∧
    res.2.errors = bad.map fun l => .error (if (utf8 (trim l)).length < 6 then .primaryTooShort else .lib .decryptionFailure)) := by
  obtain ⟨p, v, h1, hv, hshow⟩ := C65_generated C hE hS hstar s hs a n r len cs ha hn hr hsound hok xs hxs hleave data hdata
  refine ⟨p, v, h1, hv, fun hneeds => ?_⟩
  obtain ⟨p', h1', hk⟩ := kept_generated hE hS hs ha hn hr hsound hok
  rw [h1] at h1'
  cases h1'
  have hk' := kept_runs C hE hS hstar ha rfl rfl xs _ hxs hk hleave
  intro b bad good rest hp h6 hl hbad ev ga co an
  obtain ⟨q1, -, q3, q4⟩ := hshow b bad good rest hp h6 hl hbad ev ga co an
  obtain ⟨g1, g2, g3⟩ := C114_question C ⟨b, .«show» a n r false, ev, bad ++ good :: rest, ga, co, an⟩ _ rfl _ file data data' hdata hfile
    hsalt hsecret fun bad' line rest' he hr' ha' k hneed => hneeds k (by
      rw [← kept_first C hE hS ha rfl rfl hk' hdata bad good rest hp h6 hl hbad bad' line rest' he hr' ha']; exact hneed)
  exact ⟨g1.trans q1, g2.trans q3, g3.trans q4⟩

/-! ## An example: the hypotheses are met -/

/-- By a file from which nothing is missing and into which somebody has put something. -/
example : ask Toy.env Toy.fresh (.setStored (c!"a") (c!"u") [] (c!"x")) = .ok .unit ∧ Toy.fresh.primaryPassword = some (c!"secret1") ∧
    ∃ data data' file, FileIO.load (runPrograms Toy.cenv [] Toy.one).world.disk = .ok data ∧ FileIO.load (some file) = .ok data' ∧
    data ≠ data' ∧ data.get? (c!"salt") = data'.get? (c!"salt") ∧ data.get? (c!"hmac-secret") = data'.get? (c!"hmac-secret") ∧
    (∀ u k, Needs Toy.env u (.get (c!"a") (c!"u") []) k → data.get? k = data'.get? k) ∧
    RunsLeave Toy.cenv (c!"a") (c!"u") [] [] Toy.one := by
  refine ⟨Toy.one_ok, by decide +kernel, ?_⟩
  cases hl : FileIO.load Toy.one.world.disk with
  | ok before =>
    have hj : before.get? (c!"junk") = none := by
      have h : (match FileIO.load Toy.one.world.disk with | .ok d => d.get? (c!"junk") | _ => none) = none := by decide +kernel
      rw [hl] at h
      exact h
    obtain ⟨h1, h2, h3, h4⟩ := junk_added before hl hj
    refine ⟨before, _, _, hl, h1, ?_, h2, h3, ?_, trivial⟩
    · intro h
      have := congrArg List.length h
      simp at this
    · rintro u k ⟨h, -, rfl | rfl⟩ <;> exact h4 _ (by simp [siteName, passwordName])
  | _ =>
    have h : (match FileIO.load Toy.one.world.disk with | .ok _ => true | _ => false) = true := by decide +kernel
    rw [hl] at h
    cases h

/-- The entries looked at do matter: the password is shown from the file as it is, and not if its entry has been removed. -/
example :
    let data := match FileIO.load Toy.one.world.disk with | .ok d => d | _ => []
    let damaged := data.filter fun e => e.1 ≠ passwordName Toy.env.prims (Toy.one.hmacSecret.getD []) (c!"a") (c!"u") []
    let x : Run := ⟨false, .«show» (c!"a") (c!"u") [] false, [], [c!"secret1"], false, [], []⟩
    damaged.length + 1 = data.length ∧ (match (x.result Toy.cenv Toy.one).1 with | .ok () => true | _ => false) = true ∧
    (match (x.result Toy.cenv (withFile Toy.one (some (FileIO.contents damaged)))).1 with
      | .err (.lib .keyMissing) => true | _ => false) = true := by
  decide +kernel

end Pfp.Props
