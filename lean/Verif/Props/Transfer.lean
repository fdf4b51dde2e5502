import Verif.Props.CliList
import Verif.Props.Prompt

/-!
# Moving passwords between storages with recovery codes: C62
-/

namespace Pfp.Props
open Spec Crypto RecoveryCodes Pfp.Cli

variable {E E' : Env} {U U' : Universe}

/-- Overflow checks do not change the codes of passwords short enough. -/
theorem generate_checks {P : Prims} (hP : P.Lawful) {oc oc' : Bool} {nonce salt key c : Bytes} {password : Str}
    (hsize : oc = oc' ∨ (utf8 password).length ≤ 256 * 14 - 45)
    (h : generate P oc nonce password salt key = .ok c) : generate P oc' nonce password salt key = .ok c := by
  rcases hsize with rfl | hsize
  · exact h
  · obtain ⟨hn, hs, hk, ho⟩ := of_generate hP h
    obtain ⟨bs, e, h1, h2, h3, h4, h5, h6, h7⟩ := generate_ok hP (password := password) hn hs hk ho
    obtain ⟨bs', e', h1', h2', h3', h4', h5', h6', h7'⟩ := generate_ok hP (oc := oc') (password := password) hn hs hk
      (.inr (by omega))
    have hb : bs = bs' := by
      rw [← chunks_flatten 14 (by omega) bs h2, h1, ← h1', chunks_flatten 14 (by omega) bs' h2']
    subst hb
    rw [h4] at h4'
    cases h4'
    rw [h5] at h
    rw [h5', ← h]

/-- Where a code given out by the library comes from. -/
theorem Open.code_generated {s : PState} {A : AState} {pos : Origin} {p : Str} {V : Vault} (ho : Open E U s A pos p V)
    {z : StoredPassword} {c : Bytes} (hc : ask E s (.getRecoveryCode z) = .ok (.code c)) :
    ∃ nonce salt key, generate E.prims E.overflowChecks nonce z.password salt key = .ok c ∧
      getEncryptionKey E.prims p salt = .ok key := by
  refine ⟨FileIO.randBytes E s.world.rpos 12, saltAt E pos, keyFor E.prims p (saltAt E pos), ?_, getEncryptionKey_eq _ _ _⟩
  have h1 : Storage.getSalt s.world = .ok (saltAt E pos) := RepStore.getSalt_eq (w := s.world) ho.store
  have h2 : okOr s.key .passwordsLocked = .ok (keyFor E.prims p (saltAt E pos)) := by
    rw [ho.session.1]; rfl
  have h3 : (Passwords.getRecoveryCode E z s).1 = generate E.prims E.overflowChecks (FileIO.randBytes E s.world.rpos 12)
      z.password (saltAt E pos) (keyFor E.prims p (saltAt E pos)) := by
    unfold Passwords.getRecoveryCode
    simp only [M.bind_apply, M.get_apply, M.lift_apply, h1, h2]
    rfl
  rw [← h3]
  change (Passwords.getRecoveryCode E z s).1.map Out.code = _ at hc
  cases hg : (Passwords.getRecoveryCode E z s).1 with
  | ok x => rw [hg] at hc; cases hc; rfl
  | err e => rw [hg] at hc; cases hc
  | panic => rw [hg] at hc; cases hc

/-- **C62 (codes exist).** In every reachable unlocked state a recovery code is given out for every password of at most
256 lines, and beyond that in builds without overflow checks. -/
theorem C62_code_exists (hE : E.Lawful) (hS : Secure E U) (s : PState) (hs : Reachable E U s) (hu : s.key.isSome = true)
    (z : StoredPassword) (hsize : E.overflowChecks = true → (utf8 z.password).length ≤ 256 * 14 - 45) :
    ∃ c, ask E s (.getRecoveryCode z) = .ok (.code c) := by
  obtain ⟨A, pos, p, V, ho⟩ := reach_open hE hS hs hu
  obtain ⟨c, hc⟩ := ho.getRecoveryCode hE z hsize s.world.rpos
  refine ⟨c, ?_⟩
  have : drawn s s.world.rpos = s := rfl
  rw [this] at hc
  simp only [ask, run, hc, Res.map_ok]

/-- **C62 (decoding elsewhere).** A code given out for a non-empty password not ending in a NUL character decodes to
this password wherever the same primary password is in use: in any state of any other storage, with any random numbers,
file system and hash order, however the code is laid out. -/
theorem C62_decodes_elsewhere (hE : E.Lawful) (hS : Secure E U) (s : PState) (hs : Reachable E U s)
    (hu : s.key.isSome = true) (z : StoredPassword) (c : Bytes) (hc : ask E s (.getRecoveryCode z) = .ok (.code c))
    (hne : z.password ≠ []) (hlast : z.password.getLast? ≠ some (Char.ofNat 0))
    (hprims : E'.prims = E.prims)
    (hchecks : E.overflowChecks = E'.overflowChecks ∨ (utf8 z.password).length ≤ 256 * 14 - 45)
    (s' : PState) (hsame : s'.primaryPassword = s.primaryPassword) (text : Str)
    (htext : significant (utf8 text) = significant c) :
    Passwords.decodeRecoveryCode E' s' text = .ok z.password := by
  obtain ⟨A, pos, p, V, ho⟩ := reach_open hE hS hs hu
  obtain ⟨nonce, salt, key, hg, hk⟩ := Open.code_generated ho hc
  have hg' := generate_checks hE.prims hchecks hg
  unfold Passwords.decodeRecoveryCode
  rw [hsame, ho.session.2.2, hprims]
  show decode _ _ _ _ = _
  rw [C12_layout_ignored _ _ _ _ _ htext]
  exact C19_trailing_nuls_lost E.prims hE.prims _ nonce salt key c z.password p 0 hk hne hlast (by simpa using hg')

/-- **C62 (restoring).** The code entered in any number of pieces and in any layout at the prompt of
`add-stored --recovery`, in any other storage with the same primary password: the command stores exactly the password
the code was given out for. -/
theorem C62_restored (hE : E.Lawful) (hS : Secure E U) (s : PState) (hs : Reachable E U s) (hu : s.key.isSome = true)
    (z : StoredPassword) (c : Bytes) (hc : ask E s (.getRecoveryCode z) = .ok (.code c))
    (hne : z.password ≠ []) (hlast : z.password.getLast? ≠ some (Char.ofNat 0))
    (C' : CEnv) (hE' : C'.env.Lawful) (hS' : Secure C'.env U') (hprims : C'.env.prims = E.prims)
    (hchecks : E.overflowChecks = C'.env.overflowChecks ∨ (utf8 z.password).length ≤ 256 * 14 - 45)
    (s' : CState) (hs' : Reachable C'.env U' s'.ps) (hu' : s'.ps.key.isSome = true)
    (hsame : s'.ps.primaryPassword = s.primaryPassword)
    (d n r : Str) (hd : U'.site d) (hn : U'.name n) (hr : U'.revision r) (b y : Bool)
    (hallowed : y = true ∨ ask C'.env s'.ps (.has d n r) = .ok (.bool false) ∨
      (ask C'.env s'.ps (.has d n r) = .ok (.bool true) ∧ s'.confirms.head? = some true))
    (pieces : List Str) (more : List (Option Str)) (hpieces : ∀ l ∈ pieces, l ≠ [])
    (hcode : significant (utf8 pieces.flatten) = significant c) (hans : s'.answers = pieces.map some ++ more) :
    (processCommand C' b (.addStored d n r true y) s').2.ps = after C'.env s'.ps (.setStored d n r z.password) ∧
    ((processCommand C' b (.addStored d n r true y) s').1 = .ok () ↔
      ask C'.env s'.ps (.setStored d n r z.password) = .ok .unit) ∧
    (C'.env.fs s'.ps.world.fpos = .ok → (processCommand C' b (.addStored d n r true y) s').1 = .ok ()) ∧
    ((processCommand C' b (.addStored d n r true y) s').1 = .ok () →
      ask C'.env (processCommand C' b (.addStored d n r true y) s').2.ps (.get d n r) = .ok (.text z.password)) := by
  obtain ⟨A, pos, p, V, ho⟩ := reach_open hE hS hs hu
  obtain ⟨nonce, salt, key, hg, hk⟩ := Open.code_generated ho hc
  have hg' := generate_checks hE.prims hchecks hg
  rw [← hprims] at hg' hk
  obtain ⟨A', pos', p', V', ho'⟩ := reach_open hE' hS' hs' hu'
  have key : (processCommand C' b (.addStored d n r true y) s').2.ps = after C'.env s'.ps (.setStored d n r z.password) ∧
      ((processCommand C' b (.addStored d n r true y) s').1 = .ok () ↔
        ask C'.env s'.ps (.setStored d n r z.password) = .ok .unit) := by
    show (addStored C'.env b d n r true y s').2.ps = _ ∧ ((addStored C'.env b d n r true y s').1 = _ ↔ _)
    unfold addStored
    rw [CM.bind_ok (C48_already C'.env s' hu' ho'.initialized)]
    obtain ⟨cf, ou, hm⟩ := mayOverwrite_yes (E := C'.env) (d := d) (n := n) (r := r) hallowed
    rw [CM.bind_ok hm]
    simp only [if_true]
    obtain ⟨left, -, hl⟩ := C52_pieces (primary := p) hE'.prims { s' with confirms := cf, out := ou } (by
      show s'.ps.primaryPassword = _
      rw [hsame, ho.session.2.2]) hg' hk hne hlast pieces more hpieces hcode hans
    rw [CM.bind_ok hl, CM.bind_apply]
    unfold call
    simp only [ask, after, run]
    cases hr : Passwords.setStored C'.env d n r z.password s'.ps with
    | mk x ps => cases x <;> simp [convert, Res.map, println, print]
  have hch := ho'.setStored hE' hS' (x := d) (n := n) (r := r) z.password ⟨hd, hn, hr⟩
  refine ⟨key.1, key.2, fun hw => key.2.mpr (hch.ok hw).1, fun hok => ?_⟩
  rw [key.1]
  obtain ⟨wr, -, -, pos'', ho''⟩ := hch
  exact (C20_stored hE' hS' s'.ps hs' d n r z.password hd hn hr (key.2.mp hok) [] (by simp) trivial).1 ho''.key

/-! The lines of a code as printed. -/

/-- No line is empty; the flag says whether a line begins here. -/
def Gapless : Bool → Str → Prop
  | first, [] => first = false
  | first, c :: t => if c = '\n' then first = false ∧ Gapless true t else Gapless false t

theorem gapless_append : ∀ (l t : Str) (first : Bool), '\n' ∉ l → Gapless first (l ++ '\n' :: t) →
    (first = true → l ≠ []) ∧ Gapless true t
  | [], t, first, _, h => by
    rw [List.nil_append, Gapless, if_pos rfl] at h
    exact ⟨fun hf => by simp [hf] at h, h.2⟩
  | c :: l, t, first, hn, h => by
    rw [List.cons_append, Gapless, if_neg fun he => hn (by simp [he])] at h
    exact ⟨fun _ => by simp, (gapless_append l t false (fun hm => hn (by simp [hm])) h).2⟩

theorem gapless_lines : ∀ (lines : List Str), (∀ l ∈ lines, '\n' ∉ l) → Gapless true (join ['\n'] lines) →
    ∀ l ∈ lines, l ≠ []
  | [], _, _ => by simp
  | [l], _, hg => by
    intro x hx he
    simp only [List.mem_singleton] at hx
    subst hx; subst he
    simp [join, Gapless] at hg
  | l :: l' :: rest, hn, hg => by
    rw [join, List.append_assoc] at hg
    obtain ⟨h1, h2⟩ := gapless_append l _ true (hn l (by simp)) hg
    intro x hx
    rcases List.mem_cons.mp hx with rfl | hx
    · exact h1 rfl
    · exact gapless_lines (l' :: rest) (fun y hy => hn y (by simp [hy])) h2 x hx

theorem gapless_layout : ∀ (w : Bytes) (n : Nat), w ≠ [] → (∀ c ∈ w, c ∈ codeAlphabet) →
    ∀ first, Gapless first ((layoutFrom n w).map byteChar)
  | [], _, h, _, _ => absurd rfl h
  | [c], n, _, hc, first => by
    have : ∀ c ∈ codeAlphabet, byteChar c ≠ '\n' := by decide
    rw [layoutFrom, List.map_cons, Gapless, if_neg (this c (hc c (by simp)))]
    rfl
  | c :: c' :: w, n, _, hc, first => by
    have h0 : ∀ c ∈ codeAlphabet, byteChar c ≠ '\n' := by decide
    have ih := gapless_layout (c' :: w) (n + 1) (by simp) fun x hx => hc x (by simp [hx])
    rw [layoutFrom, List.map_cons, List.map_append, Gapless, if_neg (h0 c (hc c (by simp)))]
    unfold separatorAfter
    split
    · exact ⟨rfl, ih true⟩
    · split
      · exact ih false
      · split
        · exact ih false
        · exact ih false

/-- Line breaks are not significant. -/
theorem significant_join : ∀ lines : List Str,
    significant (utf8 (join ['\n'] lines)) = significant (utf8 lines.flatten)
  | [] => rfl
  | [l] => by simp [join]
  | l :: l' :: rest => by
    have ih := significant_join (l' :: rest)
    show significant (utf8 (l ++ ['\n'] ++ join ['\n'] (l' :: rest))) = _
    rw [utf8_append, utf8_append, significant_append, significant_append, ih, List.flatten_cons (l := l), utf8_append,
      significant_append, show significant (utf8 ['\n']) = [] by decide, List.append_nil]

theorem layout_ascii : ∀ (w : Bytes) (n : Nat), (∀ c ∈ w, c ∈ codeAlphabet) → ∀ b ∈ layoutFrom n w, b.toNat < 128
  | [], _, _, b, hb => by simp [layoutFrom] at hb
  | [c], n, hc, b, hb => by
    have : ∀ c ∈ codeAlphabet, c.toNat < 128 := by decide
    simp only [layoutFrom, List.mem_singleton] at hb
    exact this b (hc b (by simp [hb]))
  | c :: c' :: w, n, hc, b, hb => by
    have h0 : ∀ c ∈ codeAlphabet, c.toNat < 128 := by decide
    rw [layoutFrom, List.mem_cons, List.mem_append] at hb
    rcases hb with rfl | hb | hb
    · exact h0 _ (hc _ (by simp))
    · have : ∀ b ∈ separatorAfter n, b.toNat < 128 := by
        unfold separatorAfter
        split
        · decide
        · split
          · decide
          · split <;> decide
      exact this b hb
    · exact layout_ascii (c' :: w) (n + 1) (fun x hx => hc x (by simp [hx])) b hb

/-- **C62 (line by line).** The lines of a code given out, entered one after the other as they are printed, are what
`C62_restored` asks for: none is empty, and together they have the significant characters of the code. -/
theorem C62_lines (hE : E.Lawful) (hS : Secure E U) (s : PState) (hs : Reachable E U s) (hu : s.key.isSome = true)
    (z : StoredPassword) (c : Bytes) (hc : ask E s (.getRecoveryCode z) = .ok (.code c)) (lines : List Str)
    (hlines : c.map byteChar = join ['\n'] lines) (hn : ∀ l ∈ lines, '\n' ∉ l) :
    (∀ l ∈ lines, l ≠ []) ∧ significant (utf8 lines.flatten) = significant c := by
  obtain ⟨A, pos, p, V, ho⟩ := reach_open hE hS hs hu
  obtain ⟨nonce, salt, key, hg, hk⟩ := Open.code_generated ho hc
  obtain ⟨h1, h2⟩ := C13_code_shape E.prims hE.prims _ _ _ _ _ _ hg
  have ha : ∀ b ∈ significant c, b ∈ codeAlphabet := fun b hb => significant_mem hb
  have hne := code_ne_nil hE.prims hg
  have hascii : utf8 (c.map byteChar) = c := by
    refine utf8_ascii fun b hb => ?_
    rw [h1] at hb
    exact layout_ascii _ 1 ha b hb
  constructor
  · refine gapless_lines lines hn ?_
    rw [← hlines, h1]
    exact gapless_layout _ 1 hne ha true
  · rw [← significant_join, ← hlines, hascii]

/-- The hypotheses are met: the code of the password in one storage, entered line by line under another name. -/
example : ∃ c, ask Toy.env Toy.two (.getRecoveryCode ⟨⟨c!"a", c!"u", []⟩, c!"x", []⟩) = .ok (.code c) ∧
    Toy.one.primaryPassword = Toy.two.primaryPassword ∧ Toy.one.key.isSome = true ∧
    ask Toy.env Toy.one (.has (c!"a") (c!"v") []) = .ok (.bool false) ∧
    ∃ lines, c.map byteChar = join ['\n'] lines ∧ ∀ l ∈ lines, '\n' ∉ l := by
  obtain ⟨c, hc⟩ := C62_code_exists Toy.env_lawful Toy.secure Toy.two Toy.two_reachable Toy.two_unlocked
    ⟨⟨c!"a", c!"u", []⟩, c!"x", []⟩ (by decide)
  refine ⟨c, hc, ?_, Toy.one_unlocked, Toy.one_has_not, ?_⟩
  · obtain ⟨_, _, ho⟩ := Toy.one_open
    obtain ⟨_, _, _, ho'⟩ := Toy.two_effect
    rw [ho.session.2.2, ho'.session.2.2]
  · exact ⟨splitOn '\n' (c.map byteChar), (join_splitOn _ _).symm, not_mem_splitOn _ _⟩

end Pfp.Props
