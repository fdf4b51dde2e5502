import Verif.Spec.Primary

/-!
# Lemmas about which way the primary password takes
-/

namespace Pfp.Proofs.Primary

open Cli Spec

variable {α β : Type} {f g : Str → Str} {E : Env} {h : Nat → Nat → Nat → Bytes → Bytes → Nat → Bytes}

/-! ## The library -/

/-- The computations do the same with another primary password in memory. -/
def Comm (f : Str → Str) (m m' : M PState α) : Prop := ∀ u, m' (recast f u) = ((m u).1, recast f (m u).2)

theorem comm_bind {m m' : M PState α} {k k' : α → M PState β} (hm : Comm f m m') (hk : ∀ a, Comm f (k a) (k' a)) :
    Comm f (m >>= k) (m' >>= k') := by
  intro u
  show M.bind m' k' (recast f u) = ((M.bind m k u).1, recast f (M.bind m k u).2)
  unfold M.bind
  rw [hm u]
  rcases m u with ⟨r, v⟩
  cases r with
  | ok a => exact hk a v
  | err e => rfl
  | panic => rfl

theorem comm_lift (r : Res α) : Comm f (M.lift r) (M.lift r) := fun _ => rfl

theorem comm_pure (a : α) : Comm f (pure a : M PState α) (pure a) := fun _ => rfl

theorem comm_world (m : M World α) : Comm f (Passwords.onWorld m) (Passwords.onWorld m) := fun _ => rfl

theorem comm_get {k k' : PState → M PState β} (hk : ∀ u, Comm f (k u) (k' (recast f u))) :
    Comm f (M.get >>= k) (M.get >>= k') := fun u => hk u u

theorem key_eq (hh : Follows E h f) (p : Str) (salt : Bytes) :
    getEncryptionKey (withScrypt E h).prims p salt = getEncryptionKey E.prims (f p) salt := by
  unfold getEncryptionKey Crypto.deriveKey Crypto.deriveBits
  dsimp only
  rw [show (withScrypt E h).prims.scrypt = h 15 8 1 from rfl, hh]
  rfl

theorem derive_eq (hh : Follows E h f) (p salt : Str) (n : Nat) (cs : CharacterSet) :
    Crypto.derivePassword (withScrypt E h).prims p salt n cs = Crypto.derivePassword E.prims (f p) salt n cs := by
  unfold Crypto.derivePassword Crypto.deriveBits
  rw [show (withScrypt E h).prims.scrypt = h 15 8 1 from rfl, hh]
  rfl

theorem decode_eq (hh : Follows E h f) (b : Bool) (code : Bytes) (p : Str) :
    RecoveryCodes.decode (withScrypt E h).prims b code p = RecoveryCodes.decode E.prims b code (f p) := by
  unfold RecoveryCodes.decode
  simp only [key_eq hh]
  rfl

theorem reset_comm (hh : Follows E h f) (p : Str) : Comm f (Passwords.reset (withScrypt E h) p) (Passwords.reset E (f p)) := by
  unfold Passwords.reset
  refine comm_bind (comm_world _) fun salt => ?_
  rw [key_eq hh]
  exact comm_bind (comm_lift _) fun key => comm_bind (comm_world _) fun secret => comm_bind (comm_world _) fun _ =>
    comm_bind (comm_world _) fun _ => fun _ => rfl

theorem unlock_comm (hh : Follows E h f) (p : Str) : Comm f (Passwords.unlock (withScrypt E h) p) (Passwords.unlock E (f p)) := by
  unfold Passwords.unlock
  refine comm_get fun u => comm_bind (comm_lift _) fun salt => ?_
  rw [key_eq hh]
  exact comm_bind (comm_lift _) fun key => comm_bind (comm_lift _) fun secret => fun _ => rfl

theorem collect_eq (w : World) (j : Json → Option α) (t : Str → Bool) (k : Bytes) (l : List Str) :
    Storage.collect (withScrypt E h) w j t k l = Storage.collect E w j t k l := by
  induction l with
  | nil => rfl
  | cons a l ih => unfold Storage.collect; rw [ih]; rfl

theorem first_eq (w : World) (j : Json → Option α) (t : Str → Bool) (k : Bytes) (l : List Str) :
    Storage.first (withScrypt E h) w j t k l = Storage.first E w j t k l := by
  induction l with
  | nil => rfl
  | cons a l ih => unfold Storage.first; rw [ih]; rfl

theorem firstPassword_eq (w : World) (a : Str) (k l : Bytes) :
    Storage.firstPassword (withScrypt E h) w a k l = Storage.firstPassword E w a k l := first_eq _ _ _ _ _

theorem list_eq (u : PState) (a n : Str) : Passwords.list E (recast f u) a n = Passwords.list (withScrypt E h) u a n := by
  unfold Passwords.list Storage.listPasswords
  simp only [collect_eq]
  rfl

theorem listSites_eq (u : PState) (a : Str) : Passwords.listSites E (recast f u) a = Passwords.listSites (withScrypt E h) u a := by
  unfold Passwords.listSites Storage.listSites
  simp only [collect_eq]
  rfl

theorem setAlias_comm (a b : Str) : Comm f (Passwords.setAlias (withScrypt E h) a b) (Passwords.setAlias E a b) := by
  unfold Passwords.setAlias
  simp only [firstPassword_eq]
  refine comm_get fun u => comm_bind (comm_lift _) fun k => ?_
  refine comm_bind (comm_lift _) fun t => comm_bind (comm_lift _) fun first => ?_
  split
  · exact comm_lift _
  · exact comm_bind (comm_world _) fun _ => comm_world _

theorem removeAlias_comm (a : Str) : Comm f (Passwords.removeAlias (withScrypt E h) a) (Passwords.removeAlias E a) := by
  unfold Passwords.removeAlias
  exact comm_get fun u => comm_bind (comm_lift _) fun k => comm_bind (comm_world _) fun _ => comm_world _

theorem removeSitesLoop_eq (k : Bytes) (l : List Str) :
    Passwords.removeSitesLoop (withScrypt E h) k l = Passwords.removeSitesLoop E k l := by
  induction l with
  | nil => rfl
  | cons a l ih => unfold Passwords.removeSitesLoop; rw [ih]; rfl

theorem removeSites_comm (l : List Str) : Comm f (Passwords.removeSites (withScrypt E h) l) (Passwords.removeSites E l) := by
  unfold Passwords.removeSites
  split
  · exact comm_pure _
  · refine comm_get fun u => comm_bind (comm_lift _) fun k => ?_
    rw [removeSitesLoop_eq]
    exact comm_bind (comm_world _) fun _ => comm_world _

theorem setGenerated_comm (a n r : Str) (len : UInt64) (cs : CharacterSet) :
    Comm f (Passwords.setGenerated (withScrypt E h) a n r len cs) (Passwords.setGenerated E a n r len cs) := by
  unfold Passwords.setGenerated
  exact comm_get fun u => comm_bind (comm_lift _) fun k => comm_bind (comm_lift _) fun _ => comm_bind (comm_world _) fun _ =>
    comm_bind (comm_world _) fun _ => comm_world _

theorem setStored_comm (a n r v : Str) :
    Comm f (Passwords.setStored (withScrypt E h) a n r v) (Passwords.setStored E a n r v) := by
  unfold Passwords.setStored
  exact comm_get fun u => comm_bind (comm_lift _) fun k => comm_bind (comm_lift _) fun _ => comm_bind (comm_world _) fun _ =>
    comm_bind (comm_world _) fun _ => comm_world _

theorem setNotes_comm (a n r v : Str) :
    Comm f (Passwords.setNotes (withScrypt E h) a n r v) (Passwords.setNotes E a n r v) := by
  unfold Passwords.setNotes
  exact comm_get fun u => comm_bind (comm_lift _) fun k => comm_bind (comm_lift _) fun _ => comm_bind (comm_lift _) fun _ =>
    comm_bind (comm_world _) fun _ => comm_world _

theorem remove_comm (a n r : Str) : Comm f (Passwords.remove (withScrypt E h) a n r) (Passwords.remove E a n r) := by
  unfold Passwords.remove
  exact comm_get fun u => comm_bind (comm_lift _) fun k => comm_bind (comm_lift _) fun _ => comm_bind (comm_world _) fun _ =>
    comm_world _

theorem getRecoveryCode_comm (q : StoredPassword) :
    Comm f (Passwords.getRecoveryCode (withScrypt E h) q) (Passwords.getRecoveryCode E q) := by
  unfold Passwords.getRecoveryCode
  exact comm_get fun u => comm_bind (comm_lift _) fun k => comm_bind (comm_lift _) fun _ => comm_bind (comm_world _) fun _ =>
    comm_lift _

theorem reload_comm : Comm f reload reload := by
  intro u
  unfold reload
  show _ = ((match FileIO.load u.world.disk with
    | .ok data => (.ok (), Passwords.new { u.world with data, epoch := u.world.epoch + 1 })
    | .err e => (.err e, u)
    | .panic => (.panic, u) : Res Unit × PState).1, _)
  show (match FileIO.load u.world.disk with
    | .ok data => (.ok (), Passwords.new { u.world with data, epoch := u.world.epoch + 1 })
    | .err e => (.err e, recast f u)
    | .panic => (.panic, recast f u) : Res Unit × PState) = _
  cases FileIO.load u.world.disk <;> rfl

theorem get_eq (hh : Follows E h f) (u : PState) (a n r : Str) :
    Passwords.get E (recast f u) a n r = Passwords.get (withScrypt E h) u a n r := by
  unfold Passwords.get
  simp only [derive_eq hh]
  show (Passwords.secrets u).bind _ = (Passwords.secrets u).bind _
  rcases Passwords.secrets u with ⟨k⟩ | e | _
  · show (okOr (u.primaryPassword.map f) _).bind _ = (okOr u.primaryPassword _).bind _
    cases u.primaryPassword <;> rfl
  · rfl
  · rfl

theorem decodeRecoveryCode_eq (hh : Follows E h f) (u : PState) (code : Str) :
    Passwords.decodeRecoveryCode E (recast f u) code = Passwords.decodeRecoveryCode (withScrypt E h) u code := by
  unfold Passwords.decodeRecoveryCode
  simp only [decode_eq hh]
  show (okOr (u.primaryPassword.map f) _).bind _ = (okOr u.primaryPassword _).bind _
  cases u.primaryPassword <;> rfl

theorem comm_run {m m' : M PState α} (hm : Comm f m m') (k : α → Out) (u : PState) :
    ((m' (recast f u)).1.map k, (m' (recast f u)).2) = ((m u).1.map k, recast f (m u).2) := by
  rw [hm u]

theorem run_recast (hh : Follows E h f) (op : Op) (u : PState) :
    run E (recastOp f op) (recast f u) = ((run (withScrypt E h) op u).1, recast f (run (withScrypt E h) op u).2) := by
  cases op with
  | reset p => exact comm_run (reset_comm hh p) (fun _ => .unit) u
  | unlock p => exact comm_run (unlock_comm hh p) (fun _ => .unit) u
  | lock => rfl
  | reload => exact comm_run reload_comm (fun _ => .unit) u
  | setAlias a b => exact comm_run (setAlias_comm a b) (fun _ => .unit) u
  | removeAlias a => exact comm_run (removeAlias_comm a) (fun _ => .unit) u
  | removeSites l => exact comm_run (removeSites_comm l) (fun _ => .unit) u
  | setGenerated a n r len cs => exact comm_run (setGenerated_comm a n r len cs) (fun _ => .unit) u
  | setStored a n r v => exact comm_run (setStored_comm a n r v) (fun _ => .unit) u
  | setNotes a n r t => exact comm_run (setNotes_comm a n r t) (fun _ => .unit) u
  | remove a n r => exact comm_run (remove_comm a n r) (fun _ => .unit) u
  | initialized => rfl
  | unlocked => rfl
  | getAlias a => rfl
  | has a n r => rfl
  | get a n r =>
    show ((Passwords.get E (recast f u) a n r).map _, _) = _
    rw [get_eq hh]
    rfl
  | getNotes a n r => rfl
  | list a p =>
    show ((Passwords.list E (recast f u) a p).map _, _) = _
    rw [list_eq (h := h)]
    rfl
  | listSites p =>
    show ((Passwords.listSites E (recast f u) p).map _, _) = _
    rw [listSites_eq (h := h)]
    rfl
  | getRecoveryCode p => exact comm_run (getRecoveryCode_comm p) .code u

/-! ## The terminal -/

open Terminal

/-- The state with another primary password in memory and other lines typed. -/
def turn (f g : Str → Str) (s : TState) : TState :=
  { ps := recast f s.ps, input := s.input.map g, trace := s.trace.map (retyped g), moments := s.moments.map (recast f) }

theorem turn_log (s : TState) (e : Event) (he : retyped g e = e) : (turn f g s).log e = turn f g (s.log e) := by
  simp [turn, TState.log, he]

theorem turn_take (s : TState) (k : Kind) (line : Str) (rest : List Str) :
    (turn f g s).take k (g line) (rest.map g) = turn f g (s.take k line rest) := by
  simp [turn, TState.take, retyped]

theorem turn_put (s : TState) (u : PState) : { turn f g s with ps := recast f u } = turn f g { s with ps := u } := rfl

theorem grow_trans {a b c : List Event} (h : ∃ x, b = a ++ x) (h' : ∃ x, c = b ++ x) : ∃ x, c = a ++ x := by
  obtain ⟨x, rfl⟩ := h
  obtain ⟨y, rfl⟩ := h'
  exact ⟨x ++ y, by simp⟩

theorem only_left {a b : List Event} (h : OnlyAtPrompts g (a ++ b)) : OnlyAtPrompts g a := fun x k l y e =>
  h x k l (y ++ b) (by rw [e]; simp)

/-- A line read at some other prompt is not one that is replaced. -/
theorem only_read {s : TState} {k : Kind} {line : Str} {rest : List Str} (h : OnlyAtPrompts g (s.take k line rest).trace)
    (hk : k ≠ .secret) : g line = line := by
  refine Classical.byContradiction fun hne => ?_
  exact hk (h s.trace k line [] rfl hne).1

theorem only_secret {s : TState} {x line : Str} {rest : List Str}
    (h : OnlyAtPrompts g ((s.log (.out .direct x)).take .secret line rest).trace) (hx : x ∉ primaryPrompts) : g line = line := by
  refine Classical.byContradiction fun hne => ?_
  obtain ⟨-, e, y, hy, he⟩ := h (s.trace ++ [.out .direct x]) .secret line [] rfl hne
  have := (List.append_inj' he rfl).2
  simp only [List.cons.injEq, and_true] at this
  injection this with _ hxy
  exact hx (hxy ▸ hy)

/-- Something is only ever added to what is seen, and with other lines typed and another primary password in memory the computation
`m'` does what `m` does. -/
def Sim (f g : Str → Str) (m m' : TM α) : Prop :=
  ∀ s, (∃ more, (m s).2.trace = s.trace ++ more) ∧
    (OnlyAtPrompts g (m s).2.trace → m' (turn f g s) = ((m s).1, turn f g (m s).2))

/-- The result, changed. -/
def changed (j : α → α) : COut α → COut α
  | .ok a => .ok (j a)
  | r => r

theorem sim_bind_with {m m' : TM α} {j : α → α} {k k' : α → TM β} (hm : ∀ s, (∃ more, (m s).2.trace = s.trace ++ more) ∧
    (OnlyAtPrompts g (m s).2.trace → m' (turn f g s) = (changed j (m s).1, turn f g (m s).2))) (hk : ∀ a, Sim f g (k a) (k' (j a))) :
    Sim f g (m >>= k) (m' >>= k') := by
  intro s
  show (∃ more, (TM.bind m k s).2.trace = _) ∧ (OnlyAtPrompts g (TM.bind m k s).2.trace →
    TM.bind m' k' (turn f g s) = ((TM.bind m k s).1, turn f g (TM.bind m k s).2))
  unfold TM.bind
  obtain ⟨⟨more, h1⟩, h2⟩ := hm s
  revert h1 h2
  rcases m s with ⟨out, s'⟩
  intro h2 h1
  cases out with
  | ok a =>
    obtain ⟨⟨more', h3⟩, h4⟩ := hk a s'
    dsimp only at h1 h2 ⊢
    refine ⟨⟨more ++ more', by rw [h3, h1, List.append_assoc]⟩, fun ho => ?_⟩
    rw [h2 (by rw [h3] at ho; exact only_left ho)]
    exact h4 ho
  | err e => exact ⟨⟨more, h1⟩, fun ho => by rw [h2 ho]; rfl⟩
  | panic => exact ⟨⟨more, h1⟩, fun ho => by rw [h2 ho]; rfl⟩
  | blocked => exact ⟨⟨more, h1⟩, fun ho => by rw [h2 ho]; rfl⟩

theorem sim_bind {m m' : TM α} {k k' : α → TM β} (hm : Sim f g m m') (hk : ∀ a, Sim f g (k a) (k' a)) :
    Sim f g (m >>= k) (m' >>= k') := by
  refine sim_bind_with (j := id) (fun s => ⟨(hm s).1, fun ho => ?_⟩) hk
  rw [(hm s).2 ho]
  cases (m s).1 <;> rfl

theorem sim_pure (a : α) : Sim f g (pure a : TM α) (pure a) := fun _ => ⟨⟨[], by simp [pure]⟩, fun _ => rfl⟩

theorem sim_fail (e : CErr) : Sim f g (TM.fail e : TM α) (TM.fail e) := fun _ => ⟨⟨[], by simp [TM.fail]⟩, fun _ => rfl⟩

theorem sim_event (e : Event) (he : retyped g e = e) (r : COut α) : Sim f g (fun s => (r, s.log e)) (fun s => (r, s.log e)) :=
  fun s => ⟨⟨[e], rfl⟩, fun _ => congrArg (Prod.mk r) (turn_log s e he)⟩

theorem sim_print (x : Str) : Sim f g (Terminal.print x) (Terminal.print x) := sim_event _ rfl _
theorem sim_println (x : Str) : Sim f g (Terminal.println x) (Terminal.println x) := sim_event _ rfl _
theorem sim_write (x : Str) : Sim f g (Terminal.write x) (Terminal.write x) := sim_event _ rfl _
theorem sim_flush : Sim f g Terminal.flush Terminal.flush := sim_event _ rfl _

theorem sim_ite {c : Prop} [Decidable c] {m m' k k' : TM α} (h1 : c → Sim f g m m') (h2 : ¬c → Sim f g k k') :
    Sim f g (if c then m else k) (if c then m' else k') := by
  split
  · exact h1 ‹_›
  · exact h2 ‹_›

theorem sim_query {q q' : PState → Res α} (hq : ∀ u, q' (recast f u) = q u) : Sim f g (Terminal.query q) (Terminal.query q') := by
  intro s
  refine ⟨⟨[], by simp [Terminal.query]⟩, fun _ => ?_⟩
  show (convert (q' (recast f s.ps)), _) = _
  rw [hq]
  rfl

theorem sim_call {m m' : M PState α} (hm : Comm f m m') : Sim f g (Terminal.call m) (Terminal.call m') := by
  intro s
  refine ⟨⟨[], by simp [Terminal.call]⟩, fun _ => ?_⟩
  unfold Terminal.call
  rw [show (turn f g s).ps = recast f s.ps from rfl, hm]
  rfl

theorem sim_secret {x : Str} (hx : x ∉ primaryPrompts) : Sim f g (Terminal.promptSecretText x) (Terminal.promptSecretText x) := by
  intro s
  unfold Terminal.promptSecretText
  dsimp only
  rw [turn_log s _ rfl]
  cases hi : s.input with
  | nil =>
    have h1 : (s.log (.out .direct x)).input = [] := hi
    have h2 : (turn f g (s.log (.out .direct x))).input = [] := by simp [turn, h1]
    rw [h1, h2]
    exact ⟨⟨[.out .direct x], rfl⟩, fun _ => rfl⟩
  | cons line rest =>
    have h1 : (s.log (.out .direct x)).input = line :: rest := hi
    have h2 : (turn f g (s.log (.out .direct x))).input = g line :: rest.map g := by simp [turn, h1]
    rw [h1, h2]
    refine ⟨⟨[.out .direct x, .read .secret line], by simp [TState.log, TState.take]⟩, fun ho => ?_⟩
    dsimp only
    rw [turn_take, only_secret ho hx]

/-- A password is read, maybe one that is replaced. -/
theorem prompt_turn (hr : Retyped f g) (x : Str) (b : Bool) (s : TState) :
    (∃ more, (Terminal.promptPassword x b s).2.trace = s.trace ++ more) ∧
    (OnlyAtPrompts g (Terminal.promptPassword x b s).2.trace → Terminal.promptPassword x b (turn f g s) =
      (changed (if x ∈ primaryPrompts then f else id) (Terminal.promptPassword x b s).1, turn f g (Terminal.promptPassword x b s).2)) := by
  unfold Terminal.promptPassword
  dsimp only
  rw [turn_log s _ rfl]
  cases hi : s.input with
  | nil =>
    have h1 : (s.log (.out .direct x)).input = [] := hi
    have h2 : (turn f g (s.log (.out .direct x))).input = [] := by simp [turn, h1]
    rw [h1, h2]
    cases b with
    | false => exact ⟨⟨[.out .direct x], rfl⟩, fun _ => rfl⟩
    | true =>
      refine ⟨⟨[.out .direct x], rfl⟩, fun _ => ?_⟩
      have : trim [] = [] := rfl
      simp only [if_true, changed, this]
      split <;> simp [hr.empty]
  | cons line rest =>
    have h1 : (s.log (.out .direct x)).input = line :: rest := hi
    have h2 : (turn f g (s.log (.out .direct x))).input = g line :: rest.map g := by simp [turn, h1]
    rw [h1, h2]
    refine ⟨⟨[.out .direct x, .read .secret line], by simp [TState.log, TState.take]⟩, fun ho => ?_⟩
    dsimp only
    rw [turn_take]
    simp only [changed]
    split
    · rw [hr.trimmed]
    · rename_i hx
      rw [only_secret ho hx]
      rfl

theorem sim_password (hr : Retyped f g) {x : Str} (hx : x ∉ primaryPrompts) (b : Bool) :
    Sim f g (Terminal.promptPassword x b) (Terminal.promptPassword x b) := by
  intro s
  have := prompt_turn hr x b s
  rw [if_neg hx] at this
  refine ⟨this.1, fun ho => ?_⟩
  rw [this.2 ho]
  cases (Terminal.promptPassword x b s).1 <;> rfl

theorem sim_confirmLoop (T : Dialog) (q : Str) : ∀ (l : List Str) (s : TState),
    (∃ more, (Terminal.confirmLoop T q l s).2.trace = s.trace ++ more) ∧
    (OnlyAtPrompts g (Terminal.confirmLoop T q l s).2.trace → Terminal.confirmLoop T q (l.map g) (turn f g s) =
      ((Terminal.confirmLoop T q l s).1, turn f g (Terminal.confirmLoop T q l s).2))
  | [], s => ⟨⟨[], by simp [Terminal.confirmLoop, TM.block]⟩, fun _ => rfl⟩
  | line :: rest, s => by
    rw [List.map_cons]
    unfold Terminal.confirmLoop
    dsimp only
    rw [turn_take]
    cases hy : T.reply q line with
    | some b =>
      refine ⟨⟨[.read (.yesNo q) line], rfl⟩, fun ho => ?_⟩
      rw [only_read ho (by simp), hy]
    | none =>
      obtain ⟨⟨more, h1⟩, h2⟩ := sim_confirmLoop T q rest ((s.take (.yesNo q) line rest).log (.again q))
      dsimp only
      refine ⟨⟨.read (.yesNo q) line :: .again q :: more, by rw [h1]; simp [TState.take, TState.log]⟩, fun ho => ?_⟩
      have : g line = line := by
        rw [h1] at ho
        exact only_read (s := s) (k := .yesNo q) (rest := rest) (only_left (only_left ho)) (by simp)
      rw [this, hy]
      dsimp only
      rw [turn_log _ _ rfl]
      exact h2 ho

theorem sim_confirm (T : Dialog) (q : Str) : Sim f g (Terminal.confirm T q) (Terminal.confirm T q) := by
  intro s
  obtain ⟨⟨more, h1⟩, h2⟩ := sim_confirmLoop (f := f) (g := g) T q s.input (s.log (.out .asked q))
  refine ⟨⟨.out .asked q :: more, ?_⟩, fun ho => ?_⟩
  · show (Terminal.confirmLoop T q s.input (s.log (.out .asked q))).2.trace = _
    rw [h1]
    simp [TState.log]
  · rw [← turn_log _ _ rfl] at h2
    exact h2 ho

theorem sim_unlockLoop (hh : Follows E h f) (hr : Retyped f g) : ∀ (l : List Str) (s : TState),
    (∃ more, (Terminal.unlockLoop (withScrypt E h) l s).2.trace = s.trace ++ more) ∧
    (OnlyAtPrompts g (Terminal.unlockLoop (withScrypt E h) l s).2.trace → Terminal.unlockLoop E (l.map g) (turn f g s) =
      ((Terminal.unlockLoop (withScrypt E h) l s).1, turn f g (Terminal.unlockLoop (withScrypt E h) l s).2))
  | [], s => by
    rw [List.map_nil]
    unfold Terminal.unlockLoop
    rw [show Passwords.unlocked (turn f g s).ps = Passwords.unlocked s.ps from rfl]
    split
    · exact ⟨⟨[], by simp⟩, fun _ => rfl⟩
    · exact ⟨⟨[.out .direct PRIMARY_PROMPT], rfl⟩, fun _ => by rw [turn_log _ _ rfl]⟩
  | line :: rest, s => by
    rw [List.map_cons]
    unfold Terminal.unlockLoop
    rw [show Passwords.unlocked (turn f g s).ps = Passwords.unlocked s.ps from rfl]
    split
    · exact ⟨⟨[], by simp⟩, fun _ => rfl⟩
    · dsimp only
      rw [turn_log _ _ rfl, turn_take, hr.trimmed]
      have ht : ((s.log (.out .direct PRIMARY_PROMPT)).take .secret line rest).trace =
        s.trace ++ [.out .direct PRIMARY_PROMPT, .read .secret line] := by simp [TState.log, TState.take]
      generalize (s.log (.out .direct PRIMARY_PROMPT)).take .secret line rest = s' at ht
      by_cases hs : (utf8 (trim line)).length < 6
      · rw [if_pos hs, if_pos ((hr.short _).mpr hs)]
        obtain ⟨⟨more, h1⟩, h2⟩ := sim_unlockLoop hh hr rest (s'.log (.err (.error .primaryTooShort)))
        refine ⟨grow_trans ⟨_, ht⟩ (grow_trans ⟨_, rfl⟩ ⟨_, h1⟩), fun ho => ?_⟩
        rw [turn_log _ _ rfl]
        exact h2 ho
      · rw [if_neg hs, if_neg (fun e => hs ((hr.short _).mp e))]
        rw [show (turn f g s').ps = recast f s'.ps from rfl, unlock_comm hh]
        rcases Passwords.unlock (withScrypt E h) (trim line) s'.ps with ⟨r, u⟩
        cases r with
        | panic => exact ⟨⟨_, ht⟩, fun _ => rfl⟩
        | err e =>
          obtain ⟨⟨more, h1⟩, h2⟩ := sim_unlockLoop hh hr rest ({ s' with ps := u }.log (.err (.error (.lib e))))
          dsimp only
          refine ⟨grow_trans ⟨_, ht⟩ (grow_trans ⟨_, rfl⟩ ⟨_, h1⟩), fun ho => ?_⟩
          rw [turn_put, turn_log _ _ rfl]
          exact h2 ho
        | ok _ =>
          obtain ⟨⟨more, h1⟩, h2⟩ := sim_unlockLoop hh hr rest { s' with ps := u }
          dsimp only
          refine ⟨grow_trans ⟨_, ht⟩ ⟨_, h1⟩, fun ho => ?_⟩
          rw [turn_put]
          exact h2 ho

theorem sim_unlock (hh : Follows E h f) (hr : Retyped f g) :
    Sim f g (Terminal.ensureUnlocked (withScrypt E h)) (Terminal.ensureUnlocked E) := by
  intro s
  unfold Terminal.ensureUnlocked
  rw [show Passwords.initialized (turn f g s).ps = Passwords.initialized s.ps from rfl]
  split
  · exact ⟨⟨[], by simp⟩, fun _ => rfl⟩
  · exact sim_unlockLoop hh hr s.input s

theorem confirm_grows (T : Dialog) (q : Str) (s : TState) : ∃ more, (Terminal.confirm T q s).2.trace = s.trace ++ more :=
  (sim_confirm (f := id) (g := id) T q s).1

theorem recoveryLoop_first (T : Dialog) (E : Env) (typed : Str) (rest : List Str)
    (ih : ∀ (a : Bytes) (s : TState), ∃ more, (Terminal.recoveryLoop T E a rest s).2.trace = s.trace ++ more) (a : Bytes) (s : TState) :
    ∃ more, (Terminal.recoveryLoop T E a (typed :: rest) s).2.trace =
      ((s.log (.out .asked RECOVERY_PROMPT)).take .code typed rest).trace ++ more := by
  unfold Terminal.recoveryLoop
  dsimp only
  generalize (s.log (.out .asked RECOVERY_PROMPT)).take .code typed rest = s'
  split
  · exact ih a s'
  · split
    · exact ⟨[], by simp⟩
    · split
      · split
        · exact ⟨[], by simp⟩
        · exact ⟨[], by simp⟩
        · split
          · exact ⟨[], by simp⟩
          · rename_i acc _
            have := confirm_grows T (extraQuestion acc) s'
            revert this
            generalize Terminal.confirm T (extraQuestion acc) s' = z
            intro this
            split <;> exact this
        · split
          · exact ⟨[], by simp⟩
          · exact grow_trans ⟨_, rfl⟩ (ih _ (s'.log _))
        · exact grow_trans ⟨_, rfl⟩ (ih _ (s'.log _))
        · exact ⟨[], by simp⟩
      · exact ⟨[], by simp⟩
      · exact ⟨[], by simp⟩

theorem recoveryLoop_grows (T : Dialog) (E : Env) : ∀ (l : List Str) (a : Bytes) (s : TState),
    ∃ more, (Terminal.recoveryLoop T E a l s).2.trace = s.trace ++ more
  | [], a, s => ⟨[.out .asked RECOVERY_PROMPT], rfl⟩
  | typed :: rest, a, s => grow_trans ⟨[.out .asked RECOVERY_PROMPT, .read .code typed], by simp [TState.log, TState.take]⟩
      (recoveryLoop_first T E typed rest (recoveryLoop_grows T E rest) a s)

theorem recoveryLoop_turn (T : Dialog) (hh : Follows E h f) : ∀ (l : List Str) (a : Bytes) (s : TState),
    OnlyAtPrompts g (Terminal.recoveryLoop T (withScrypt E h) a l s).2.trace →
      Terminal.recoveryLoop T E a (l.map g) (turn f g s) = ((Terminal.recoveryLoop T (withScrypt E h) a l s).1,
        turn f g (Terminal.recoveryLoop T (withScrypt E h) a l s).2)
  | [], a, s, _ => by
    rw [List.map_nil]
    unfold Terminal.recoveryLoop
    rw [turn_log _ _ rfl]
  | typed :: rest, a, s, ho => by
    have hg : g typed = typed := by
      obtain ⟨more, hm⟩ : ∃ more, (Terminal.recoveryLoop T (withScrypt E h) a (typed :: rest) s).2.trace =
          ((s.log (.out .asked RECOVERY_PROMPT)).take .code typed rest).trace ++ more :=
        recoveryLoop_first T (withScrypt E h) typed rest (recoveryLoop_grows T _ rest) a s
      rw [hm] at ho
      exact only_read (only_left ho) (by simp)
    have ht := turn_take (f := f) (g := g) (s.log (.out .asked RECOVERY_PROMPT)) .code typed rest
    rw [hg] at ht
    rw [List.map_cons, hg]
    revert ho
    unfold Terminal.recoveryLoop
    dsimp only
    rw [turn_log _ _ rfl, ht]
    generalize (s.log (.out .asked RECOVERY_PROMPT)).take .code typed rest = s'
    rw [show (turn f g s').ps.primaryPassword = s'.ps.primaryPassword.map f from rfl,
      show (withScrypt E h).overflowChecks = E.overflowChecks from rfl]
    cases T.answer typed with
    | none => exact recoveryLoop_turn T hh rest a s'
    | some line =>
      dsimp only
      split
      · exact fun _ => rfl
      · cases s'.ps.primaryPassword with
        | none => exact fun _ => rfl
        | some p =>
          simp only [Option.map_some, okOr, decode_eq hh]
          cases hd : RecoveryCodes.decode E.prims E.overflowChecks (a ++ utf8 line) (f p) with
          | ok v => exact fun _ => rfl
          | panic => exact fun _ => rfl
          | err e =>
            cases e
            case recoveryCodeExtraData n =>
              dsimp only
              cases firstLines (RecoveryCodes.formatCode (a ++ utf8 line) true) n with
              | none => exact fun _ => rfl
              | some acc =>
                dsimp only
                have hc := (sim_confirm (f := f) (g := g) T (extraQuestion acc) s').2
                revert hc
                rcases Terminal.confirm T (extraQuestion acc) s' with ⟨out, s''⟩
                intro hc
                rcases out with ⟨_ | _⟩ | e | _ | _ <;> intro ho <;> rw [hc ho]
            case recoveryCodeChecksumMismatch n =>
              dsimp only
              cases firstLines (RecoveryCodes.formatCode (a ++ utf8 line) true) n with
              | none => exact fun _ => rfl
              | some acc =>
                dsimp only
                rw [turn_log _ _ rfl]
                exact recoveryLoop_turn T hh rest _ _
            case recoveryCodeIncomplete =>
              dsimp only
              rw [turn_log _ _ rfl]
              exact recoveryLoop_turn T hh rest _ _
            all_goals exact fun _ => rfl

theorem sim_recovery (T : Dialog) (hh : Follows E h f) :
    Sim f g (Terminal.promptRecoveryCode T (withScrypt E h)) (Terminal.promptRecoveryCode T E) := fun s =>
  ⟨recoveryLoop_grows T _ s.input [] s, recoveryLoop_turn T hh s.input [] s⟩

/-! ## Commands -/

theorem sim_setPrimary (C : CEnv) (hh : Follows C.env h f) (hr : Retyped f g) (b : Bool) :
    Sim f g (Terminal.setPrimary { C with env := withScrypt C.env h } b) (Terminal.setPrimary C b) := by
  unfold Terminal.setPrimary
  have h1 := fun s => prompt_turn hr (c!"New primary password: ") b s
  have h2 := fun s => prompt_turn hr (c!"Repeat primary password: ") b s
  rw [if_pos (by decide)] at h1 h2
  refine sim_bind_with h1 fun p => ?_
  by_cases hp : (utf8 p).length < 6
  · rw [if_pos hp, if_pos ((hr.short _).mpr hp)]
    exact sim_fail _
  · rw [if_neg hp, if_neg (fun e => hp ((hr.short _).mp e))]
    refine sim_bind_with h2 fun p' => ?_
    by_cases he : p = p'
    · subst he
      simp only [ne_eq, not_true, if_false]
      exact sim_bind (sim_call (reset_comm hh p)) fun _ => sim_println _
    · rw [if_pos he, if_pos (fun e => he (hr.injective _ _ e))]
      exact sim_fail _

theorem sim_mayOverwrite (T : Dialog) (d n r : Str) (b : Bool) :
    Sim f g (Terminal.mayOverwrite T (withScrypt E h) d n r b) (Terminal.mayOverwrite T E d n r b) := by
  intro s
  unfold Terminal.mayOverwrite
  rw [show Passwords.has E (turn f g s).ps d n r = Passwords.has (withScrypt E h) s.ps d n r from rfl]
  split
  · exact ⟨⟨[], by simp⟩, fun _ => rfl⟩
  · split
    · exact sim_confirm T _ s
    · exact ⟨⟨[], by simp⟩, fun _ => rfl⟩
    · exact ⟨⟨[], by simp⟩, fun _ => rfl⟩

theorem sim_printPasswords (hh : Follows E h f) (y : Str) (a b d : Bool) : ∀ l : List Password,
    Sim f g (Terminal.printPasswords (withScrypt E h) y a b d l) (Terminal.printPasswords E y a b d l)
  | [] => sim_pure ()
  | x :: l => by
    have hd : Sim f g (Terminal.printDetails x) (Terminal.printDetails x) := by
      have h1 : Sim f g (match x with
          | .generated p => Terminal.printParameters p
          | .stored _ => pure ()) (match x with
          | .generated p => Terminal.printParameters p
          | .stored _ => pure ()) := by
        cases x with
        | stored z => exact sim_pure ()
        | generated z => exact sim_bind (sim_println _) fun _ => sim_println _
      exact sim_ite (fun _ => sim_bind (sim_bind (sim_print _) fun _ => sim_bind sim_flush fun _ => sim_bind (sim_write _) fun _ =>
        sim_println _) fun _ => h1) fun _ => h1
    have ih := sim_printPasswords hh y a b d l
    have hv : Sim f g (Terminal.printValue (withScrypt E h) y x) (Terminal.printValue E y x) :=
      sim_bind (sim_print _) fun _ => sim_bind sim_flush fun _ => sim_bind (sim_query fun u => get_eq hh u _ _ _) fun _ =>
        sim_bind (sim_write _) fun _ => sim_println _
    have hc : Sim f g (Terminal.printRecovery (withScrypt E h) x) (Terminal.printRecovery E x) := by
      cases x with
      | generated z => exact sim_pure ()
      | stored z => exact sim_bind (sim_println _) fun _ => sim_bind (sim_call (getRecoveryCode_comm z)) fun _ => sim_print _
    have h3 := sim_ite (c := d = true) (fun _ => sim_bind hd fun _ => ih) fun _ => ih
    have h2 := sim_ite (c := b = true) (fun _ => sim_bind hc fun _ => h3) fun _ => h3
    have h1 := sim_ite (c := a = true) (fun _ => sim_bind hv fun _ => h2) fun _ => h2
    exact sim_bind (sim_println _) fun _ => h1

theorem sim_listLoop (hh : Follows E h f) (n : Str) (a b d : Bool) (m : List Site) : ∀ l : List Str,
    Sim f g (Terminal.listLoop (withScrypt E h) n a b d m l) (Terminal.listLoop E n a b d m l)
  | [] => sim_pure _
  | y :: l => by
    have ih := sim_listLoop hh n a b d m l
    unfold Terminal.listLoop
    refine sim_bind (sim_query fun u => list_eq u _ _) fun found => sim_ite (fun _ => sim_bind ih fun _ => sim_pure _) fun _ => ?_
    have h1 := sim_bind (sim_printPasswords (g := g) hh y a b d (sortPasswords found)) fun _ => sim_bind ih fun z =>
      (sim_pure (true, z.2) : Sim f g (pure (true, z.2) : TM (Bool × List Str)) (pure (true, z.2)))
    exact sim_bind (sim_println _) fun _ => sim_ite (fun _ => sim_bind (sim_println _) fun _ => h1) fun _ => h1

theorem sim_command (T : Dialog) (C : CEnv) (hh : Follows C.env h f) (hr : Retyped f g) (b : Bool) (c : Command) :
    Sim f g (Terminal.processCommand T { C with env := withScrypt C.env h } b c) (Terminal.processCommand T C b c) := by
  have hu := sim_unlock (E := C.env) hh hr
  cases c with
  | setPrimary y => exact sim_setPrimary C hh hr b
  | add d n r len l u di sy y =>
    refine sim_bind hu fun _ => sim_ite (fun _ => sim_fail _) fun _ => sim_bind (sim_mayOverwrite T d n r y) fun allow =>
      sim_ite (fun _ => ?_) fun _ => sim_pure ()
    exact sim_bind (sim_call (setGenerated_comm _ _ _ _ _)) fun _ => sim_println _
  | addStored d n r rec y =>
    refine sim_bind hu fun _ => sim_bind (sim_mayOverwrite T d n r y) fun allow => sim_ite (fun _ => ?_) fun _ => sim_pure ()
    have h1 : ∀ v, Sim f g (do
        Terminal.call (Passwords.setStored (withScrypt C.env h) d n r v)
        Terminal.println (c!"Password added.")) (do
        Terminal.call (Passwords.setStored C.env d n r v)
        Terminal.println (c!"Password added.")) := fun v =>
      sim_bind (sim_call (setStored_comm _ _ _ _)) fun _ => sim_println _
    exact sim_ite (fun _ => sim_bind (sim_recovery T hh) h1) fun _ => sim_bind (sim_password hr (by decide) b) h1
  | remove d n r => exact sim_bind hu fun _ => sim_bind (sim_call (remove_comm _ _ _)) fun _ => sim_println _
  | «show» d n r q =>
    refine sim_bind hu fun _ => sim_bind (sim_query fun u => get_eq hh u _ _ _) fun v => sim_bind (sim_write _) fun _ =>
      sim_ite (fun _ => ?_) fun _ => sim_bind (sim_write _) fun _ => sim_write _
    show Sim f g (match C.qr v with
      | some q => Terminal.write (renderQr q)
      | none => TM.fail .qrCode) (match C.qr v with
      | some q => Terminal.write (renderQr q)
      | none => TM.fail .qrCode)
    cases C.qr v with
    | some q => exact sim_write _
    | none => exact sim_fail _
  | notes d n r set =>
    have h1 : Sim f g (if set = true then do
        let notes ← Terminal.promptSecretText (c!"Please enter new notes to be stored:")
        Terminal.call (Passwords.setNotes (withScrypt C.env h) d n r notes)
        if notes = [] then Terminal.println (c!"Notes removed.") else Terminal.println (c!"Notes stored.")
      else pure ()) (if set = true then do
        let notes ← Terminal.promptSecretText (c!"Please enter new notes to be stored:")
        Terminal.call (Passwords.setNotes C.env d n r notes)
        if notes = [] then Terminal.println (c!"Notes removed.") else Terminal.println (c!"Notes stored.")
      else pure ()) :=
      sim_ite (fun _ => sim_bind (sim_secret (by decide)) fun x => sim_bind (sim_call (setNotes_comm _ _ _ _)) fun _ =>
        sim_ite (fun _ => sim_println _) fun _ => sim_println _) fun _ => sim_pure ()
    refine sim_bind hu fun _ => sim_bind (sim_query fun _ => rfl) fun v => sim_ite (fun _ => sim_bind (sim_println _) fun _ => h1) fun _ => ?_
    exact sim_bind (sim_bind (sim_write _) fun _ => sim_bind (sim_write _) fun _ => sim_write _) fun _ => h1
  | list d n x y z =>
    refine sim_bind hu fun _ => sim_bind (sim_query fun u => listSites_eq u _) fun l => sim_bind (sim_listLoop hh _ _ _ _ _ _) fun r =>
      sim_bind (sim_call (removeSites_comm _)) fun _ => sim_ite (fun _ => sim_pure ()) fun _ => sim_println _
  | «alias» d t rem =>
    refine sim_bind hu fun _ => ?_
    cases t with
    | some t => exact sim_bind (sim_call (setAlias_comm _ _)) fun _ => sim_println _
    | none =>
      refine sim_ite (fun _ => sim_bind (sim_call (removeAlias_comm _)) fun _ => sim_println _) fun _ => ?_
      exact sim_bind (sim_query fun _ => rfl) fun _ => sim_println _
  | shell => exact sim_pure ()

theorem sim_shellLine (T : Dialog) (C : CEnv) (hh : Follows C.env h f) (hr : Retyped f g) (b : Bool) (e : ShellEvent) :
    Sim f g (Terminal.shellLine T { C with env := withScrypt C.env h } b e) (Terminal.shellLine T C b e) := by
  have hcmd : ∀ c, Sim f g (fun s => match Terminal.processCommand T { C with env := withScrypt C.env h } b c s with
        | (.err e, s') => (.ok (), s'.log (.err (.error e)))
        | (.ok _, s') => (.ok (), s'.log .flush)
        | r => r) (fun s => match Terminal.processCommand T C b c s with
        | (.err e, s') => (.ok (), s'.log (.err (.error e)))
        | (.ok _, s') => (.ok (), s'.log .flush)
        | r => r) := by
    intro c s
    have hs := sim_command T C hh hr b c s
    dsimp only
    revert hs
    rcases Terminal.processCommand T { C with env := withScrypt C.env h } b c s with ⟨out, s'⟩
    rintro ⟨h1, h2⟩
    cases out with
    | ok a => exact ⟨grow_trans h1 ⟨_, rfl⟩, fun ho => by rw [h2 (only_left ho)]; dsimp only; rw [turn_log _ _ rfl]⟩
    | err e => exact ⟨grow_trans h1 ⟨_, rfl⟩, fun ho => by rw [h2 (only_left ho)]; dsimp only; rw [turn_log _ _ rfl]⟩
    | panic => exact ⟨h1, fun ho => by rw [h2 ho]⟩
    | blocked => exact ⟨h1, fun ho => by rw [h2 ho]⟩
  cases e with
  | noCommand => exact sim_event _ rfl _
  | exit => exact sim_pure ()
  | lock =>
    intro s
    refine ⟨⟨_, rfl⟩, fun _ => ?_⟩
    have := turn_log (f := f) (g := g) { s with ps := Passwords.lock s.ps } (.out .buffered (c!"Passwords locked.\n")) rfl
    exact congrArg (Prod.mk (COut.ok ())) this
  | command c =>
    cases c with
    | shell => exact sim_event _ rfl _
    | setPrimary y => exact sim_event _ rfl _
    | add _ _ _ _ _ _ _ _ _ => exact hcmd _
    | addStored _ _ _ _ _ => exact hcmd _
    | remove _ _ _ => exact hcmd _
    | «show» _ _ _ _ => exact hcmd _
    | notes _ _ _ _ => exact hcmd _
    | list _ _ _ _ _ => exact hcmd _
    | «alias» _ _ _ => exact hcmd _

theorem sim_shellLoop (T : Dialog) (C : CEnv) (hh : Follows C.env h f) (hr : Retyped f g) (b : Bool) : ∀ n : Nat,
    Sim f g (Terminal.shellLoop T { C with env := withScrypt C.env h } b n) (Terminal.shellLoop T C b n)
  | 0 => sim_pure ()
  | n + 1 => by
    intro s
    unfold Terminal.shellLoop
    cases hi : s.input with
    | nil =>
      have h2 : (turn f g s).input = [] := by simp [turn, hi]
      rw [h2]
      exact ⟨⟨[], by simp⟩, fun _ => rfl⟩
    | cons line rest =>
      have h2 : (turn f g s).input = g line :: rest.map g := by simp [turn, hi]
      rw [h2]
      dsimp only
      rw [turn_take]
      have hg : OnlyAtPrompts g (s.take .command line rest).trace → g line = line := fun ho => only_read ho (by simp)
      have ht : ∃ more, (s.take .command line rest).trace = s.trace ++ more := ⟨_, rfl⟩
      generalize s.take .command line rest = s' at hg ht
      by_cases he : readLine line = .exit
      · rw [if_pos he]
        exact ⟨ht, fun ho => by rw [hg ho, if_pos he]⟩
      · rw [if_neg he]
        have hs := sim_shellLine T C hh hr b (readLine line) s'
        revert hs
        rcases Terminal.shellLine T { C with env := withScrypt C.env h } b (readLine line) s' with ⟨out, s''⟩
        rintro ⟨⟨more, h1⟩, h3⟩
        dsimp only at h1 h3
        have hback : OnlyAtPrompts g s''.trace → g line = line := fun ho => hg (by rw [h1] at ho; exact only_left ho)
        cases out with
        | ok a =>
          obtain ⟨⟨more', h4⟩, h5⟩ := sim_shellLoop T C hh hr b n s''
          dsimp only
          refine ⟨grow_trans ht (grow_trans ⟨_, h1⟩ ⟨_, h4⟩), fun ho => ?_⟩
          have ho' : OnlyAtPrompts g s''.trace := by rw [h4] at ho; exact only_left ho
          rw [hback ho', if_neg he, h3 ho']
          exact h5 ho
        | err e => exact ⟨grow_trans ht ⟨_, h1⟩, fun ho => by rw [hback ho, if_neg he, h3 ho]⟩
        | panic => exact ⟨grow_trans ht ⟨_, h1⟩, fun ho => by rw [hback ho, if_neg he, h3 ho]⟩
        | blocked => exact ⟨grow_trans ht ⟨_, h1⟩, fun ho => by rw [hback ho, if_neg he, h3 ho]⟩

theorem sim_shell (T : Dialog) (C : CEnv) (hh : Follows C.env h f) (hr : Retyped f g) (b : Bool) (x : Str) :
    Sim f g (fun s => Terminal.shellLoop T { C with env := withScrypt C.env h } b s.input.length ((s.log (.out .buffered x)).log .flush))
      (fun s => Terminal.shellLoop T C b s.input.length ((s.log (.out .buffered x)).log .flush)) := by
  intro s
  have := sim_shellLoop T C hh hr b s.input.length ((s.log (.out .buffered x)).log .flush)
  refine ⟨grow_trans ⟨[_, _], by simp only [TState.log, List.append_assoc]; rfl⟩ this.1, fun ho => ?_⟩
  have h2 := this.2 ho
  rw [← turn_log _ _ rfl, ← turn_log _ _ rfl] at h2
  have h3 : (turn f g s).input.length = s.input.length := by simp [turn]
  dsimp only
  rw [h3]
  exact h2

theorem sim_process (T : Dialog) (C : CEnv) (hh : Follows C.env h f) (hr : Retyped f g) (b : Bool) (c : Command) :
    Sim f g (Terminal.process T { C with env := withScrypt C.env h } b c) (Terminal.process T C b c) := by
  cases c with
  | shell =>
    exact sim_shell T C hh hr b _
  | setPrimary y => exact sim_command T C hh hr b (.setPrimary y)
  | add a1 a2 a3 a4 a5 a6 a7 a8 a9 => exact sim_command T C hh hr b (.add a1 a2 a3 a4 a5 a6 a7 a8 a9)
  | addStored a1 a2 a3 a4 a5 => exact sim_command T C hh hr b (.addStored a1 a2 a3 a4 a5)
  | remove a1 a2 a3 => exact sim_command T C hh hr b (.remove a1 a2 a3)
  | «show» a1 a2 a3 a4 => exact sim_command T C hh hr b (.«show» a1 a2 a3 a4)
  | notes a1 a2 a3 a4 => exact sim_command T C hh hr b (.notes a1 a2 a3 a4)
  | list a1 a2 a3 a4 a5 => exact sim_command T C hh hr b (.list a1 a2 a3 a4 a5)
  | «alias» a1 a2 a3 => exact sim_command T C hh hr b (.alias a1 a2 a3)

/-! ## The program -/

theorem sim_opened (T : Dialog) (C : CEnv) (hh : Follows C.env h f) (hr : Retyped f g) (b : Bool) (c : Command) (w : World) (data : Data)
    (s : TState) :
    (∃ more, (Terminal.process T { C with env := withScrypt C.env h } b c { s with ps := openWith w data }).2.trace = s.trace ++ more) ∧
    (OnlyAtPrompts g (Terminal.process T { C with env := withScrypt C.env h } b c { s with ps := openWith w data }).2.trace →
      Terminal.process T C b c { turn f g s with ps := openWith w data } =
        ((Terminal.process T { C with env := withScrypt C.env h } b c { s with ps := openWith w data }).1,
          turn f g (Terminal.process T { C with env := withScrypt C.env h } b c { s with ps := openWith w data }).2)) :=
  sim_process T C hh hr b c { s with ps := openWith w data }

theorem sim_mainInner (T : Dialog) (C : CEnv) (hh : Follows C.env h f) (hr : Retyped f g) (b : Bool) (c : Command) :
    Sim f g (Terminal.mainInner T { C with env := withScrypt C.env h } b c) (Terminal.mainInner T C b c) := by
  intro s
  have hopen := fun c w data s => sim_opened T C hh hr b c w data s
  have hplain : ∀ c, (∃ more, (match FileIO.load s.ps.world.disk with
      | .ok data => Terminal.process T { C with env := withScrypt C.env h } b c { s with ps := openWith s.ps.world data }
      | .err e => (.err (.lib e), s)
      | .panic => (.panic, s)).2.trace = s.trace ++ more) ∧ (OnlyAtPrompts g (match FileIO.load s.ps.world.disk with
      | .ok data => Terminal.process T { C with env := withScrypt C.env h } b c { s with ps := openWith s.ps.world data }
      | .err e => (.err (.lib e), s)
      | .panic => (.panic, s)).2.trace → (match FileIO.load s.ps.world.disk with
      | .ok data => Terminal.process T C b c { turn f g s with ps := openWith s.ps.world data }
      | .err e => (.err (.lib e), turn f g s)
      | .panic => (.panic, turn f g s)) = ((match FileIO.load s.ps.world.disk with
      | .ok data => Terminal.process T { C with env := withScrypt C.env h } b c { s with ps := openWith s.ps.world data }
      | .err e => (.err (.lib e), s)
      | .panic => (.panic, s)).1, turn f g (match FileIO.load s.ps.world.disk with
      | .ok data => Terminal.process T { C with env := withScrypt C.env h } b c { s with ps := openWith s.ps.world data }
      | .err e => (.err (.lib e), s)
      | .panic => (.panic, s)).2)) := by
    intro c
    cases FileIO.load s.ps.world.disk with
    | ok data => exact hopen c _ data s
    | err e => exact ⟨⟨[], by simp⟩, fun _ => rfl⟩
    | panic => exact ⟨⟨[], by simp⟩, fun _ => rfl⟩
  cases c with
  | setPrimary y =>
    unfold Terminal.mainInner
    dsimp only
    rw [show (turn f g s).ps.world = s.ps.world from rfl]
    cases FileIO.load s.ps.world.disk with
    | panic => exact ⟨⟨[], by simp⟩, fun _ => rfl⟩
    | err e => exact hopen _ _ _ s
    | ok data =>
      dsimp only
      split
      · exact hopen _ _ _ s
      · have hc := sim_confirm (f := f) (g := g) T RESET_QUESTION s
        revert hc
        rcases Terminal.confirm T RESET_QUESTION s with ⟨out, s'⟩
        rintro ⟨h1, h2⟩
        dsimp only at h1 h2
        rcases out with ⟨_ | _⟩ | e | _ | _
        · exact ⟨h1, fun ho => by rw [h2 ho]⟩
        · obtain ⟨⟨more, h3⟩, h4⟩ := hopen (.setPrimary y) s.ps.world data s'
          dsimp only
          refine ⟨grow_trans h1 ⟨_, h3⟩, fun ho => ?_⟩
          rw [h2 (by rw [h3] at ho; exact only_left ho)]
          exact h4 ho
        · exact ⟨h1, fun ho => by rw [h2 ho]⟩
        · exact ⟨h1, fun ho => by rw [h2 ho]⟩
        · exact ⟨h1, fun ho => by rw [h2 ho]⟩
  | shell => exact hplain .shell
  | add a1 a2 a3 a4 a5 a6 a7 a8 a9 => exact hplain (.add a1 a2 a3 a4 a5 a6 a7 a8 a9)
  | addStored a1 a2 a3 a4 a5 => exact hplain (.addStored a1 a2 a3 a4 a5)
  | remove a1 a2 a3 => exact hplain (.remove a1 a2 a3)
  | «show» a1 a2 a3 a4 => exact hplain (.«show» a1 a2 a3 a4)
  | notes a1 a2 a3 a4 => exact hplain (.notes a1 a2 a3 a4)
  | list a1 a2 a3 a4 a5 => exact hplain (.list a1 a2 a3 a4 a5)
  | «alias» a1 a2 a3 => exact hplain (.alias a1 a2 a3)

theorem commandsRead_retyped (l : List Event) (h : OnlyAtPrompts g l) : commandsRead (l.map (retyped g)) = commandsRead l := by
  have : ∀ a b : List Event, OnlyAtPrompts g (a ++ b) → commandsRead (b.map (retyped g)) = commandsRead b := by
    intro a b
    induction b generalizing a with
    | nil => exact fun _ => rfl
    | cons e b ih =>
      intro ho
      have ih := ih (a ++ [e]) (by simpa using ho)
      cases e with
      | read k line =>
        cases k with
        | command =>
          have : g line = line := Classical.byContradiction fun hne => by
            have := (ho a .command line b rfl hne).1
            cases this
          simp [retyped, commandsRead, ih, this]
        | secret => simpa [retyped, commandsRead] using ih
        | yesNo q => simpa [retyped, commandsRead] using ih
        | code => simpa [retyped, commandsRead] using ih
        | wait => simpa [retyped, commandsRead] using ih
      | out way text => simpa [retyped, commandsRead] using ih
      | flush => simpa [retyped, commandsRead] using ih
      | err m => simpa [retyped, commandsRead] using ih
      | again q => simpa [retyped, commandsRead] using ih
  exact this [] l h

theorem waitEnd_turn (b : Bool) (s : TState) : Terminal.waitEnd b (turn f g s) = turn f g (Terminal.waitEnd b s) := by
  unfold Terminal.waitEnd
  cases b with
  | false => rfl
  | true =>
    rw [if_pos rfl, if_pos rfl]
    dsimp only
    rw [turn_log _ _ rfl, turn_log _ _ rfl]
    cases hi : s.input with
    | nil =>
      have h1 : ((s.log .flush).log (.out .direct (c!"\nWaiting...\n"))).input = [] := hi
      have h2 : (turn f g ((s.log .flush).log (.out .direct (c!"\nWaiting...\n")))).input = [] := by simp [turn, h1]
      rw [h1, h2]
    | cons line rest =>
      have h1 : ((s.log .flush).log (.out .direct (c!"\nWaiting...\n"))).input = line :: rest := hi
      have h2 : (turn f g ((s.log .flush).log (.out .direct (c!"\nWaiting...\n")))).input = g line :: rest.map g := by simp [turn, h1]
      rw [h1, h2]
      exact turn_take _ _ _ _

theorem waitEnd_grows (b : Bool) (s : TState) : ∃ more, (Terminal.waitEnd b s).trace = s.trace ++ more := by
  unfold Terminal.waitEnd
  split
  · dsimp only
    split
    · exact ⟨[_, _], by simp only [TState.log, List.append_assoc]; rfl⟩
    · exact ⟨[_, _, _], by simp only [TState.log, TState.take, List.append_assoc]; rfl⟩
  · exact ⟨[], by simp⟩

/-- The run, with another primary password in memory and other lines typed. -/
def turnRan (f g : Str → Str) (r : Ran) : Ran :=
  { r with ps := recast f r.ps, trace := r.trace.map (retyped g), input := r.input.map g, moments := r.moments.map (recast f) }

theorem mainEnd_turn (C : CEnv) (E : Env) (a : Args) (m : Machine) (out : COut Unit) (s : TState)
    (ho : OnlyAtPrompts g (Terminal.mainEnd { C with env := E } a m out s).trace) :
    OnlyAtPrompts g s.trace ∧
      Terminal.mainEnd C a m out (turn f g s) = turnRan f g (Terminal.mainEnd { C with env := E } a m out s) := by
  have hs : OnlyAtPrompts g s.trace := by
    revert ho
    unfold Terminal.mainEnd
    cases out with
    | ok _ =>
      obtain ⟨more, hm⟩ := waitEnd_grows a.wait s
      dsimp only
      rw [hm]
      exact only_left
    | err e =>
      obtain ⟨more, hm⟩ := waitEnd_grows a.wait (s.log (.err (.error e)))
      dsimp only
      rw [hm]
      exact fun h => only_left (only_left h)
    | panic => exact id
    | blocked => exact id
  refine ⟨hs, ?_⟩
  unfold Terminal.mainEnd
  have hw : (turn f g s).ps.world = s.ps.world := rfl
  have hc : commandsRead (turn f g s).trace = commandsRead s.trace := commandsRead_retyped _ hs
  cases out with
  | ok _ =>
    dsimp only
    rw [hw, hc, waitEnd_turn]
    rfl
  | err e =>
    dsimp only
    rw [hw, turn_log _ _ rfl, waitEnd_turn]
    rfl
  | panic => rfl
  | blocked => rfl

end Pfp.Proofs.Primary
