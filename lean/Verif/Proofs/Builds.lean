import Verif.Spec.Builds
import Verif.Proofs.Listing
import Verif.Proofs.Prompt
import Verif.Proofs.Unwritten

/-! # Builds with and without overflow checks: recovery codes -/

namespace Pfp.RecoveryCodes
open Pfp Spec Crypto

/-- The same result, or the first one is a crash. -/
def Near {α : Type} (r r' : Res α) : Prop := r = r' ∨ r = .panic

variable {α β : Type}

theorem Near.refl (r : Res α) : Near r r := .inl rfl

theorem Near.bind {r r' : Res α} {f f' : α → Res β} (h : Near r r') (hf : ∀ a, Near (f a) (f' a)) :
    Near (r >>= f) (r' >>= f') := by
  rcases h with rfl | rfl
  · cases r with
    | ok a => exact hf a
    | err e => exact .inl rfl
    | panic => exact .inl rfl
  · exact .inr rfl

theorem usizeSub_near (a b : Nat) : Near (usizeSub true a b) (usizeSub false a b) := by
  unfold usizeSub
  split
  · exact .inl rfl
  · exact .inr rfl

theorem virtualByte_small {blocks i : Nat} (h1 : 1 ≤ blocks) (h2 : i ≤ 255) : virtualByte true blocks i = virtualByte false blocks i := by
  unfold virtualByte usizeSub
  rw [if_pos h1, if_pos h1, if_pos h2, if_pos h2]

theorem virtualByte_near (blocks i : Nat) : Near (virtualByte true blocks i) (virtualByte false blocks i) := by
  unfold virtualByte
  refine (usizeSub_near _ _).bind fun last => ?_
  split
  · exact (usizeSub_near _ _).bind fun _ => .refl _
  · exact .refl _

theorem addChecksums_near (blocks : Nat) : ∀ (pos : Nat) (output input : Bytes),
    Near (addChecksums true blocks pos output input) (addChecksums false blocks pos output input)
  | _, _, [] => .refl _
  | pos, output, byte :: input => by
    unfold addChecksums
    dsimp only
    split
    · exact (virtualByte_near _ _).bind fun v => addChecksums_near blocks _ _ input
    · exact addChecksums_near blocks _ _ input

theorem addChecksums_eq {blocks : Nat} (h1 : 1 ≤ blocks) : ∀ (pos : Nat) (output input : Bytes),
    pos + input.length ≤ 256 * 14 → addChecksums true blocks pos output input = addChecksums false blocks pos output input
  | _, _, [], _ => rfl
  | pos, output, byte :: input, h => by
    unfold addChecksums
    simp only [List.length_cons] at h
    dsimp only
    split
    · rw [virtualByte_small h1 (by show pos / 14 ≤ 255; omega)]
      congr 1
      funext v
      exact addChecksums_eq h1 _ _ input (by omega)
    · exact addChecksums_eq h1 _ _ input (by omega)

/-- Generating codes. -/
theorem generate_near (P : Prims) (nonce : Bytes) (password : Str) (salt key : Bytes) :
    Near (generate P true nonce password salt key) (generate P false nonce password salt key) := by
  unfold generate
  split
  · exact .refl _
  · refine (Near.refl _).bind fun encrypted => (Near.refl _).bind fun x => ?_
    obtain ⟨n, c⟩ := x
    refine (Near.refl _).bind fun nn => ?_
    split
    · exact .refl _
    · refine (Near.refl _).bind fun ct => ?_
      split
      · exact .refl _
      · exact (addChecksums_near _ _ _ _).bind fun _ => .refl _

theorem generate_same (P : Prims) (nonce : Bytes) (password : Str) (salt key : Bytes) (h : ¬LongCode password) :
    generate P true nonce password salt key = generate P false nonce password salt key := by
  unfold LongCode at h
  unfold generate
  split
  · rfl
  · rename_i hs
    dsimp only
    congr 1
    funext encrypted
    congr 1
    funext x
    obtain ⟨n, c⟩ := x
    dsimp only
    congr 1
    funext nn
    split
    · rfl
    · rename_i hn
      congr 1
      funext ct
      split
      · rfl
      · rename_i hc
        have hlen : (VERSION :: (salt ++ nn ++ ct)).length = 45 + (utf8 password).length + fillBytes (utf8 password).length := by
          have e1 : salt.length = 16 := Decidable.byContradiction hs
          have e2 : nn.length = 12 := Decidable.byContradiction hn
          have e3 : ct.length = (utf8 password).length + fillBytes (utf8 password).length + 16 := Decidable.byContradiction hc
          simp only [List.length_cons, List.length_append]
          omega
        have hfill := fillBytes_spec (utf8 password).length
        rw [addChecksums_eq]
        · rw [hlen]
          show 1 ≤ _ / 14
          omega
        · rw [hlen]
          omega

theorem validateRows_near : ∀ (i : Nat) (seen : Bool) (rows : List Bytes),
    Near (validateRows true i seen rows) (validateRows false i seen rows)
  | _, _, [] => .refl _
  | _, true, _ :: _ => .refl _
  | i, false, chunk :: rest => by
    unfold validateRows
    cases chunk[BLOCK_SIZE]? with
    | none => exact .refl _
    | some checksum =>
      dsimp only
      refine (usizeSub_near _ _).bind fun v => ?_
      split
      · exact validateRows_near _ _ rest
      · split
        · exact .refl _
        · exact validateRows_near _ _ rest

theorem validate_near (code : Bytes) : Near (validate true code) (validate false code) := by
  unfold validate
  refine (Near.refl _).bind fun decoded => (validateRows_near _ _ _).bind fun x => ?_
  exact .refl _

theorem stripZeros_near (l : Bytes) : ∀ n, Near (stripZeros true l n) (stripZeros false l n)
  | 0 => .inr rfl
  | n + 1 => by
    unfold stripZeros
    cases l[n]? with
    | none => exact .refl _
    | some byte =>
      dsimp only
      split
      · exact .refl _
      · exact stripZeros_near l n

/-- Decoding codes. -/
theorem decode_near (P : Prims) (code : Bytes) (primary : Str) :
    Near (decode P true code primary) (decode P false code primary) := by
  unfold decode
  refine (validate_near code).bind fun decoded => ?_
  dsimp only
  split
  · exact .refl _
  · split
    · exact .refl _
    · exact (Near.refl _).bind fun key => (Near.refl _).bind fun d => (stripZeros_near _ _).bind fun _ => .refl _

end Pfp.RecoveryCodes

namespace Pfp.Cli
open Pfp Spec Storage RecoveryCodes

/-! # Operations that do not look at it -/

variable {E : Env} {a : Bool}

theorem collect_build {γ : Type} (w : World) (f : Json → Option γ) (sel : Str → Bool) (k : Bytes) :
    ∀ l, Storage.collect (build a E) w f sel k l = Storage.collect E w f sel k l
  | [] => rfl
  | x :: l => by
    unfold Storage.collect
    rw [collect_build w f sel k l]
    rfl

theorem first_build {γ : Type} (w : World) (f : Json → Option γ) (sel : Str → Bool) (k : Bytes) :
    ∀ l, Storage.first (build a E) w f sel k l = Storage.first E w f sel k l
  | [] => rfl
  | x :: l => by
    unfold Storage.first
    rw [first_build w f sel k l]
    rfl

theorem removeSitesLoop_build (h : Bytes) : ∀ l, Passwords.removeSitesLoop (build a E) h l = Passwords.removeSitesLoop E h l
  | [] => rfl
  | x :: l => by
    unfold Passwords.removeSitesLoop
    rw [removeSitesLoop_build h l]
    rfl

theorem removeSites_build (l : List Str) : Passwords.removeSites (build a E) l = Passwords.removeSites E l := by
  unfold Passwords.removeSites
  simp only [removeSitesLoop_build]
  rfl

theorem setAlias_build (x y : Str) : Passwords.setAlias (build a E) x y = Passwords.setAlias E x y := by
  have : ∀ w site h k, Storage.firstPassword (build a E) w site h k = Storage.firstPassword E w site h k :=
    fun w site h k => first_build ..
  unfold Passwords.setAlias
  simp only [this]
  rfl

theorem list_build (s : PState) (x n : Str) : Passwords.list (build a E) s x n = Passwords.list E s x n := by
  have : ∀ w site h k, Storage.listPasswords (build a E) w site h k = Storage.listPasswords E w site h k :=
    fun w site h k => collect_build ..
  unfold Passwords.list
  simp only [this]
  rfl

theorem listSites_build (s : PState) (x : Str) : Passwords.listSites (build a E) s x = Passwords.listSites E s x := by
  have : ∀ w k, Storage.listSites (build a E) w k = Storage.listSites E w k := fun w k => collect_build ..
  unfold Passwords.listSites
  simp only [this]

theorem unlockLoop_build : ∀ l, unlockLoop (build a E) l = unlockLoop E l
  | [] => rfl
  | x :: l => by
    unfold unlockLoop
    rw [unlockLoop_build l]
    rfl

theorem ensure_build : ensureUnlocked (build a E) = ensureUnlocked E := by
  unfold ensureUnlocked
  simp only [unlockLoop_build]

/-- All operations but one. -/
theorem run_build (op : Op) (h : ∀ x, op ≠ .getRecoveryCode x) : run (build a E) op = run E op := by
  cases op with
  | getRecoveryCode x => exact absurd rfl (h x)
  | setAlias x y => funext s; unfold run; dsimp only; rw [setAlias_build]
  | removeSites l => funext s; unfold run; dsimp only; rw [removeSites_build]
  | list x n => funext s; unfold run; dsimp only; rw [list_build]
  | listSites x => funext s; unfold run; dsimp only; rw [listSites_build]
  | _ => rfl

theorem getRecoveryCode_build (x : StoredPassword) (s : PState) :
    Passwords.getRecoveryCode (build true E) x s = Passwords.getRecoveryCode (build false E) x s ∨
    ((Passwords.getRecoveryCode (build true E) x s).1 = .panic ∧ LongCode x.password) := by
  unfold Passwords.getRecoveryCode
  simp only [M.bind_apply, M.get_apply, M.lift_apply]
  cases Storage.getSalt s.world with
  | err e => exact .inl rfl
  | panic => exact .inl rfl
  | ok salt =>
    dsimp only
    cases okOr s.key Err.passwordsLocked with
    | err e => exact .inl rfl
    | panic => exact .inl rfl
    | ok k =>
      have h1 := generate_near E.prims (FileIO.randBytes E s.world.rpos 12) x.password salt k
      have h2 := generate_same E.prims (FileIO.randBytes E s.world.rpos 12) x.password salt k
      show (_ : Res Bytes × PState) = _ ∨ _
      by_cases hl : LongCode x.password
      · rcases h1 with h1 | h1
        · left
          show (generate E.prims true (FileIO.randBytes E s.world.rpos 12) x.password salt k, _) =
            (generate E.prims false (FileIO.randBytes E s.world.rpos 12) x.password salt k, _)
          rw [h1]
        · exact .inr ⟨h1, hl⟩
      · left
        show (generate E.prims true (FileIO.randBytes E s.world.rpos 12) x.password salt k, _) =
          (generate E.prims false (FileIO.randBytes E s.world.rpos 12) x.password salt k, _)
        rw [h2 hl]

end Pfp.Cli

namespace Pfp.Cli
open Pfp Spec Storage RecoveryCodes

variable {E : Env} {α β : Type} {t : PState} {B : Prop}

/-! # The command `list` -/

/-- The same, or the first one crashes and there is a reason; started with the storage `t` of which only the position in the
random stream may be different. -/
def Alike (t : PState) (B : Prop) (m m' : CM α) : Prop :=
  ∀ (s : CState) k, s.ps = drawn t k → m s = m' s ∨ ((m s).1 = .panic ∧ B)

theorem Alike.refl (m : CM α) : Alike t B m m := fun _ _ _ => .inl rfl

theorem Alike.of_eq {m m' : CM α} (h : m = m') : Alike t B m m' := fun _ _ _ => .inl (by rw [h])

theorem Alike.bind {m m' : CM α} {f f' : α → CM β} (h : Alike t B m m') (hd : Draws t m) (hf : ∀ a, Alike t B (f a) (f' a)) :
    Alike t B (m >>= f) (m' >>= f') := by
  intro s k hs
  obtain ⟨k', hk⟩ := hd s k hs
  rw [CM.bind_apply, CM.bind_apply]
  rcases h s k hs with h | ⟨h1, h2⟩
  · rw [← h]
    cases hm : m s with
    | mk r s' =>
      rw [hm] at hk
      cases r with
      | ok a => exact hf a s' k' hk
      | err e => exact .inl rfl
      | panic => exact .inl rfl
      | blocked => exact .inl rfl
  · right
    cases hm : m s with
    | mk r s' =>
      rw [hm] at h1
      dsimp only at h1
      subst h1
      exact ⟨rfl, h2⟩

theorem Alike.ite {c : Prop} [Decidable c] {m m' n n' : CM α} (h : c → Alike t B m m') (h' : Alike t B n n') :
    Alike t B (if c then m else n) (if c then m' else n') := by
  split
  · exact h ‹_›
  · exact h'

theorem printRecovery_alike (p : Password) (hB : ∀ z, p = .stored z → LongCode z.password → B) :
    Alike t B (printRecovery (build true E) p) (printRecovery (build false E) p) := by
  cases p with
  | generated p => exact .refl _
  | stored p =>
    refine (Alike.refl _).bind (draws_println _) fun _ => Alike.bind ?_ ?_ fun _ => .refl _
    · intro s k hs
      show (convert (Passwords.getRecoveryCode (build true E) p s.ps).1,
          ({ s with ps := (Passwords.getRecoveryCode (build true E) p s.ps).2 } : CState)) =
          (convert (Passwords.getRecoveryCode (build false E) p s.ps).1,
          ({ s with ps := (Passwords.getRecoveryCode (build false E) p s.ps).2 } : CState)) ∨
        (convert (Passwords.getRecoveryCode (build true E) p s.ps).1 = .panic ∧ B)
      rcases getRecoveryCode_build (E := E) p s.ps with h | ⟨h1, h2⟩
      · left
        rw [h]
      · right
        rw [h1]
        exact ⟨rfl, hB p rfl h2⟩
    · intro s k h
      obtain ⟨k', h'⟩ := getRecoveryCode_drawn (build true E) p s.ps
      refine ⟨k', ?_⟩
      show (Passwords.getRecoveryCode (build true E) p s.ps).2 = _
      rw [h', h]; rfl

theorem printPasswords_alike (site : Str) (a b c : Bool) : ∀ l : List Password,
    (∀ z, b = true → .stored z ∈ l → LongCode z.password → B) →
    Alike t B (printPasswords (build true E) site a b c l) (printPasswords (build false E) site a b c l)
  | [], _ => .refl _
  | p :: rest, hB => by
    rw [printPasswords_cons, printPasswords_cons]
    refine (Alike.refl _).bind (draws_println _) fun _ => (Alike.of_eq rfl).bind (draws_ite (draws_printValue _ _) (draws_pure _))
      fun _ => Alike.bind (Alike.ite (fun hb => printRecovery_alike p fun z hz h => hB z hb (by simp [hz]) h) (.refl _))
        (draws_ite (draws_printRecovery _) (draws_pure _)) fun _ => (Alike.refl _).bind
        (draws_ite (draws_printDetails _) (draws_pure _)) fun _ => printPasswords_alike site a b c rest fun z hb hz h =>
          hB z hb (List.mem_cons_of_mem _ hz) h

theorem listLoop_alike (name : Str) (a b c : Bool) (cands : List Site)
    (hB : ∀ site l z, b = true → Passwords.list E t site name = .ok l → .stored z ∈ l → LongCode z.password → B) : ∀ l,
    Alike t B (listLoop (build true E) name a b c cands l) (listLoop (build false E) name a b c cands l)
  | [] => .refl _
  | site :: rest => by
    rw [listLoop_cons, listLoop_cons]
    have ih := listLoop_alike name a b c cands hB rest
    intro s k hs
    have hq : ∀ x, (query fun s => Passwords.list (build x E) s site name) s = (convert (Passwords.list E t site name), s) := by
      intro x
      show (convert (Passwords.list (build x E) s.ps site name), s) = _
      rw [hs, list_drawn, list_build]
    rw [CM.bind_apply, CM.bind_apply, hq, hq]
    cases hl : Passwords.list E t site name with
    | err e => exact .inl rfl
    | panic => exact .inl rfl
    | ok l =>
      show (if l = [] then _ else _ : CM (Bool × List Str)) s = _ ∨ ((if l = [] then _ else _ : CM (Bool × List Str)) s).1 = _ ∧ _
      refine Alike.ite (fun _ => ih.bind (draws_listLoop _ _ _ _ _ _) fun _ => .refl _) ?_ s k hs
      refine (Alike.refl _).bind (draws_println _) fun _ => (Alike.refl _).bind (draws_printAliases _ _) fun _ =>
        Alike.bind ?_ (draws_printPasswords _ _ _ _ _) fun _ => ih.bind (draws_listLoop _ _ _ _ _ _) fun _ => .refl _
      refine printPasswords_alike site a b c _ fun z hb hz h => hB site l z hb hl ?_ h
      unfold sortPasswords sortByKey at hz
      exact List.mem_mergeSort.mp hz

theorem list_alike (domain name : Str) (a b c : Bool) (s : CState)
    (hB : ∀ site l z, b = true → Passwords.list E (ensureUnlocked E s).2.ps site name = .ok l → .stored z ∈ l →
      LongCode z.password → B) :
    list (build true E) domain name a b c s = list (build false E) domain name a b c s ∨
    ((list (build true E) domain name a b c s).1 = .panic ∧ B) := by
  unfold list
  rw [CM.bind_apply, CM.bind_apply, ensure_build (E := E) (a := true), ensure_build (E := E) (a := false)]
  cases hen : ensureUnlocked E s with
  | mk r s' =>
    cases r with
    | err e => exact .inl rfl
    | panic => exact .inl rfl
    | blocked => exact .inl rfl
    | ok u =>
      have hB' : ∀ site l z, b = true → Passwords.list E s'.ps site name = .ok l → .stored z ∈ l → LongCode z.password → B := by
        rw [hen] at hB; exact hB
      have h : Alike s'.ps B (do
          let matching ← query fun s => Passwords.listSites (build true E) s domain
          let candidates := candidateSites matching
          let (found, empty) ← listLoop (build true E) name a b c candidates (listedSites candidates)
          call (Passwords.removeSites (build true E) empty)
          if found then pure () else println (c!"No matching passwords found.")) (do
          let matching ← query fun s => Passwords.listSites (build false E) s domain
          let candidates := candidateSites matching
          let (found, empty) ← listLoop (build false E) name a b c candidates (listedSites candidates)
          call (Passwords.removeSites (build false E) empty)
          if found then pure () else println (c!"No matching passwords found.")) := by
        refine Alike.bind (.of_eq ?_) (draws_query _) fun matching => (listLoop_alike name a b c _ hB' _).bind
          (draws_listLoop _ _ _ _ _ _) fun x => ?_
        · simp only [listSites_build]
        · refine .of_eq ?_
          simp only [removeSites_build]
      exact h s' s'.ps.world.rpos rfl

/-! # The prompt for recovery codes -/

theorem decode_reason {P : Prims} (hP : P.Lawful) {code entered : Bytes} {primary : Str}
    (h : decode P true code primary = .panic) (hs : (significant code).Sublist (significant entered)) :
    ZeroOrLong P primary entered :=
  ⟨code, hs, (Props.C18_no_panic P hP true code primary h).2⟩

theorem zeroOrLong_mono {P : Prims} {primary : Str} {a b : Bytes} (h : ZeroOrLong P primary a)
    (hs : (significant a).Sublist (significant b)) : ZeroOrLong P primary b := by
  obtain ⟨code, h1, h2⟩ := h
  exact ⟨code, h1.trans hs, h2⟩

theorem recoveryLoop_build (hP : E.prims.Lawful) : ∀ (answers : List (Option Str)) (acc : Bytes) (s : CState),
    recoveryLoop (build true E) acc answers s = recoveryLoop (build false E) acc answers s ∨
    ((recoveryLoop (build true E) acc answers s).1 = .panic ∧
      ∃ p, s.ps.primaryPassword = some p ∧ ZeroOrLong E.prims p (acc ++ allAnswers answers))
  | [], acc, s => .inl rfl
  | none :: rest, acc, s => by
    have := recoveryLoop_build hP rest acc { s with answers := rest, out := s.out ++ RECOVERY_PROMPT }
    exact this
  | some line :: rest, acc, s => by
    by_cases hline : line = []
    · subst hline; exact .inl rfl
    cases hp : s.ps.primaryPassword with
    | none =>
      left
      rw [recoveryLoop, recoveryLoop]
      simp only [if_neg hline, hp, okOr]
    | some p =>
      have hall : acc ++ allAnswers (some line :: rest) = acc ++ utf8 line ++ allAnswers rest := by
        simp [allAnswers]
      have hsub : (significant (acc ++ utf8 line)).Sublist (significant (acc ++ allAnswers (some line :: rest))) := by
        rw [hall, significant_append (acc ++ utf8 line)]
        exact List.sublist_append_left _ _
      rcases decode_near E.prims (acc ++ utf8 line) p with hd | hd
      · cases hr : decode E.prims false (acc ++ utf8 line) p with
        | ok v =>
          left
          rw [recoveryLoop_ok (E := build true E) hline hp (hd.trans hr), recoveryLoop_ok (E := build false E) hline hp hr]
        | panic => exact absurd (Props.C18_no_panic E.prims hP false _ _ hr).1 (by simp)
        | err e =>
          have hr' : decode E.prims true (acc ++ utf8 line) p = .err e := hd.trans hr
          have hcont : ∀ (acc' : Bytes) (s' : CState), s'.ps = s.ps →
              (significant acc').Sublist (significant (acc ++ utf8 line)) →
              recoveryLoop (build true E) acc' rest s' = recoveryLoop (build false E) acc' rest s' ∨
              ((recoveryLoop (build true E) acc' rest s').1 = .panic ∧
                ∃ p', some p = some p' ∧ ZeroOrLong E.prims p' (acc ++ allAnswers (some line :: rest))) := by
            intro acc' s' hs' hsub'
            rcases recoveryLoop_build hP rest acc' s' with h | ⟨h1, p', h2, h3⟩
            · exact .inl h
            · refine .inr ⟨h1, p', by rw [← h2, hs', hp], zeroOrLong_mono h3 ?_⟩
              rw [hall, significant_append acc', significant_append (acc ++ utf8 line)]
              exact hsub'.append (List.Sublist.refl _)
          rcases decode_reports hP hr with he | he
          · left
            rw [recoveryLoop_error (E := build true E) hline hp hr' he, recoveryLoop_error (E := build false E) hline hp hr he]
          · rcases validate_reports he with rfl | ⟨k, rfl, hk⟩ | ⟨k, rfl, hk⟩
            · rw [recoveryLoop_incomplete (E := build true E) hline hp hr', recoveryLoop_incomplete (E := build false E) hline hp hr]
              exact hcont _ _ rfl (List.Sublist.refl _)
            · rw [recoveryLoop_mismatch (E := build true E) hP hline hp hr', recoveryLoop_mismatch (E := build false E) hP hline hp hr]
              refine hcont _ _ rfl ?_
              rw [significant_of_alphabet fun c h => significant_mem (List.mem_of_mem_take h)]
              exact List.take_sublist _ _
            · rw [recoveryLoop_extra (E := build true E) hP hline hp hr', recoveryLoop_extra (E := build false E) hP hline hp hr]
              match s.confirms with
              | [] => exact .inl rfl
              | false :: l => exact .inl rfl
              | true :: l =>
                rcases decode_near E.prims ((significant (acc ++ utf8 line)).take (24 * k)) p with hx | hx
                · left
                  show (convert (decode E.prims true _ p), _) = (convert (decode E.prims false _ p), _)
                  rw [hx]
                · right
                  refine ⟨?_, p, rfl, decode_reason hP hx ?_⟩
                  · show convert (decode E.prims true _ p) = _
                    rw [hx]; rfl
                  · refine List.Sublist.trans ?_ hsub
                    rw [significant_of_alphabet fun c h => significant_mem (List.mem_of_mem_take h)]
                    exact List.take_sublist _ _
      · right
        refine ⟨?_, p, rfl, decode_reason hP hd hsub⟩
        rw [recoveryLoop]
        simp only [if_neg hline, hp, okOr]
        show (match decode E.prims true (acc ++ utf8 line) p with | _ => _ : COut Str × CState).1 = _
        simp only [hd]

end Pfp.Cli
