import Verif.Proofs.SoundReach
import Verif.Proofs.Prompt
import Verif.Spec.Listing

/-!
# The `list` command
-/

namespace Pfp.Cli
open Spec

/-! ### The order of strings -/

theorem bytesLe_iff : ∀ a b : Bytes, bytesLe a b = true ↔ a ≤ b
  | [], b => by simp [bytesLe]
  | _ :: _, [] => by simp [bytesLe]
  | a :: s, b :: t => by
    rw [bytesLe, List.cons_le_cons_iff]
    by_cases h1 : a < b
    · simp [h1]
    · rw [if_neg h1]
      by_cases h2 : b < a
      · rw [if_pos h2]
        have : a ≠ b := fun h => h1 (h ▸ h2)
        simp [h1, this]
      · rw [if_neg h2, bytesLe_iff s t]
        have : a = b := UInt8.le_antisymm (UInt8.not_lt.mp h2) (UInt8.not_lt.mp h1)
        simp [this]

theorem strLe_iff (s t : Str) : strLe s t = true ↔ utf8 s ≤ utf8 t := bytesLe_iff _ _

theorem strLe_trans (s t u : Str) (h1 : strLe s t = true) (h2 : strLe t u = true) : strLe s u = true := by
  rw [strLe_iff] at *
  exact List.le_trans h1 h2

theorem strLe_total (s t : Str) : (strLe s t || strLe t s) = true := by
  rw [Bool.or_eq_true, strLe_iff, strLe_iff]
  exact List.le_total _ _

theorem strLe_antisymm {s t : Str} (h1 : strLe s t = true) (h2 : strLe t s = true) : s = t := by
  rw [strLe_iff] at *
  exact utf8_injective (List.le_antisymm h1 h2)

/-! ### Sorting and removing duplicates -/

variable {α : Type} {key : α → Str}

theorem pairwise_sortByKey (l : List α) : (sortByKey key l).Pairwise fun a b => strLe (key a) (key b) = true :=
  List.pairwise_mergeSort (le := fun a b => strLe (key a) (key b)) (fun _ _ _ => strLe_trans _ _ _)
    (fun _ _ => strLe_total _ _) l

/-- The sort is stable. -/
theorem filter_sortByKey (l : List α) (k : Str) :
    (sortByKey key l).filter (fun a => key a = k) = l.filter fun a => key a = k := by
  have h1 : (l.filter fun a => key a = k).Sublist (sortByKey key l) := by
    refine List.sublist_mergeSort (le := fun a b => strLe (key a) (key b)) (fun _ _ _ => strLe_trans _ _ _)
      (fun _ _ => strLe_total _ _) ?_ List.filter_sublist
    refine List.Pairwise.imp_of_mem (R := fun _ _ => True) ?_ (List.pairwise_of_forall fun _ _ => trivial)
    intro a b ha hb _
    have ha := (List.mem_filter.mp ha).2
    have hb := (List.mem_filter.mp hb).2
    rw [of_decide_eq_true ha, of_decide_eq_true hb]
    exact (strLe_iff _ _).mpr (List.le_refl _)
  have h2 := h1.filter fun a => decide (key a = k)
  rw [List.filter_filter] at h2
  simp only [Bool.and_self] at h2
  exact (h2.eq_of_length ((List.mergeSort_perm l _).filter _).length_eq.symm).symm

/-- In a sorted list removing duplicates keeps the first element with each key. -/
theorem mem_dedupLoop_iff {l : List α} : ∀ {last : Str}, l.Pairwise (fun a b => strLe (key a) (key b) = true) →
    (∀ a ∈ l, strLe last (key a) = true) → ∀ x, x ∈ dedupLoop key last l ↔
      key x ≠ last ∧ (l.filter fun a => key a = key x).head? = some x := by
  induction l with
  | nil => intro last _ _ x; simp [dedupLoop]
  | cons a l ih =>
    intro last h1 h2 x
    obtain ⟨h3, h4⟩ := List.pairwise_cons.mp h1
    rw [dedupLoop]
    by_cases ha : key a = last
    · rw [if_pos ha, ih h4 fun b hb => h2 b (List.mem_cons_of_mem _ hb)]
      by_cases hx : key x = last
      · simp [hx]
      · have : key a ≠ key x := by rw [ha]; exact fun h => hx h.symm
        simp [this]
    · rw [if_neg ha, List.mem_cons, ih h4 h3]
      by_cases hx : key a = key x
      · simp only [hx, decide_true, List.filter_cons_of_pos, List.head?_cons, Option.some.injEq]
        constructor
        · rintro (h | h)
          · exact ⟨by rw [h]; exact ha, h.symm⟩
          · exact absurd rfl h.1
        · rintro ⟨_, h⟩
          exact Or.inl h.symm
      · have hne : x ≠ a := fun h => hx (by rw [h])
        have hne' : key x ≠ key a := fun h => hx h.symm
        simp only [hne, hne', false_or, ne_eq, not_false_eq_true, true_and, hx, decide_false, Bool.false_eq_true,
          List.filter_cons_of_neg]
        constructor
        · intro h
          refine ⟨fun hl => ?_, h⟩
          have hm : x ∈ l := (List.mem_filter.mp (List.mem_of_mem_head? h)).1
          have := strLe_antisymm (h2 a (by simp)) (by rw [← hl]; exact h3 x hm)
          exact ha this.symm
        · exact fun h => h.2

theorem mem_dedupByKey_iff {l : List α} (h : l.Pairwise fun a b => strLe (key a) (key b) = true) (x : α) :
    x ∈ dedupByKey key l ↔ (l.filter fun a => key a = key x).head? = some x := by
  cases l with
  | nil => simp [dedupByKey]
  | cons a l =>
    obtain ⟨h3, h4⟩ := List.pairwise_cons.mp h
    rw [dedupByKey, List.mem_cons, mem_dedupLoop_iff h4 h3]
    by_cases hx : key a = key x
    · simp only [hx, decide_true, List.filter_cons_of_pos, List.head?_cons, Option.some.injEq]
      constructor
      · rintro (h | h)
        · exact h.symm
        · exact absurd rfl h.1
      · exact fun h => Or.inl h.symm
    · have hne : x ≠ a := fun h => hx (by rw [h])
      have hne' : key x ≠ key a := fun h => hx h.symm
      simp [hne, hne', hx]

theorem dedupLoop_ascending {l : List α} : ∀ {last : Str}, l.Pairwise (fun a b => strLe (key a) (key b) = true) →
    (∀ a ∈ l, strLe last (key a) = true) →
    (dedupLoop key last l).Pairwise (fun a b => utf8 (key a) < utf8 (key b)) ∧
      ∀ a ∈ dedupLoop key last l, utf8 last < utf8 (key a) := by
  have hlt : ∀ {s t : Str}, strLe s t = true → t ≠ s → utf8 s < utf8 t := by
    intro s t h1 h2
    rw [← List.not_le]
    exact fun h => h2 (strLe_antisymm ((strLe_iff _ _).mpr h) h1)
  induction l with
  | nil => intro last _ _; simp [dedupLoop]
  | cons a l ih =>
    intro last h1 h2
    obtain ⟨h3, h4⟩ := List.pairwise_cons.mp h1
    rw [dedupLoop]
    by_cases ha : key a = last
    · rw [if_pos ha]
      exact ih h4 fun b hb => h2 b (List.mem_cons_of_mem _ hb)
    · rw [if_neg ha]
      obtain ⟨g1, g2⟩ := ih h4 h3
      have g3 := hlt (h2 a (by simp)) ha
      refine ⟨List.pairwise_cons.mpr ⟨g2, g1⟩, fun b hb => ?_⟩
      rcases List.mem_cons.mp hb with rfl | hb
      · exact g3
      · exact List.lt_trans g3 (g2 b hb)

theorem dedupByKey_ascending {l : List α} (h : l.Pairwise fun a b => strLe (key a) (key b) = true) :
    (dedupByKey key l).Pairwise fun a b => utf8 (key a) < utf8 (key b) := by
  cases l with
  | nil => exact List.Pairwise.nil
  | cons a l =>
    obtain ⟨h3, h4⟩ := List.pairwise_cons.mp h
    obtain ⟨g1, g2⟩ := dedupLoop_ascending h4 h3
    exact List.pairwise_cons.mpr ⟨g2, g1⟩

/-! ### The sites shown -/

theorem candidates_ascending (m : List Site) :
    (candidateSites m).Pairwise fun x y => utf8 x.name < utf8 y.name := dedupByKey_ascending (pairwise_sortByKey _)

/-- The targets of aliases. -/
def additionsOf (m : List Site) : List Site :=
  m.filterMap fun site => site.alias.map fun a => (⟨a, none⟩ : Site)

theorem mem_additionsOf {m : List Site} {x : Site} : x ∈ additionsOf m ↔ x.alias = none ∧ ∃ z ∈ m, z.alias = some x.name := by
  unfold additionsOf
  rw [List.mem_filterMap]
  constructor
  · rintro ⟨z, hz, h⟩
    cases ha : z.alias with
    | none => rw [ha] at h; cases h
    | some t => rw [ha] at h; cases h; exact ⟨rfl, z, hz, ha⟩
  · rintro ⟨h, z, hz, ha⟩
    refine ⟨z, hz, ?_⟩
    obtain ⟨n, a⟩ := x
    cases h
    rw [ha]; rfl

theorem mem_candidates_iff {m : List Site} (hm : (m.map Site.name).Nodup) (x : Site) : x ∈ candidateSites m ↔
    x ∈ m ∨ (x.alias = none ∧ (∃ z ∈ m, z.alias = some x.name) ∧ ∀ z ∈ m, z.name ≠ x.name) := by
  unfold candidateSites
  simp only
  rw [mem_dedupByKey_iff (pairwise_sortByKey _), filter_sortByKey, List.filter_append, List.head?_append]
  by_cases h : ∃ z ∈ m, z.name = x.name
  · obtain ⟨z, hz, hn⟩ := h
    have hf : (m.filter fun a => a.name = x.name).head? = some z := by
      cases hl : m.filter fun a => a.name = x.name with
      | nil =>
        have : z ∈ m.filter fun a => a.name = x.name := List.mem_filter.mpr ⟨hz, decide_eq_true hn⟩
        rw [hl] at this; cases this
      | cons y l =>
        have hy : y ∈ m.filter fun a => a.name = x.name := by rw [hl]; simp
        obtain ⟨hy, hyn⟩ := List.mem_filter.mp hy
        have := List.inj_on_of_nodup_map hm hy hz ((of_decide_eq_true hyn).trans hn.symm)
        rw [this]; rfl
    rw [hf]
    simp only [Option.some_or, Option.some.injEq]
    constructor
    · rintro rfl; exact Or.inl hz
    · rintro (h | h)
      · exact List.inj_on_of_nodup_map hm hz h hn
      · exact absurd hn (h.2.2 z hz)
  · have hf : m.filter (fun a => a.name = x.name) = [] := by
      rw [List.filter_eq_nil_iff]
      intro z hz hn
      exact h ⟨z, hz, of_decide_eq_true hn⟩
    rw [hf]
    simp only [List.head?_nil, Option.none_or]
    constructor
    · intro hx
      obtain ⟨h1, -⟩ := List.mem_filter.mp (List.mem_of_mem_head? hx)
      obtain ⟨h2, h3⟩ := mem_additionsOf.mp h1
      exact Or.inr ⟨h2, h3, fun z hz hn => h ⟨z, hz, hn⟩⟩
    · rintro (h' | ⟨h1, h2, h3⟩)
      · exact absurd ⟨x, h', rfl⟩ h
      · have hx : x ∈ (additionsOf m).filter fun a => a.name = x.name :=
          List.mem_filter.mpr ⟨mem_additionsOf.mpr ⟨h1, h2⟩, decide_eq_true rfl⟩
        show ((additionsOf m).filter fun a => a.name = x.name).head? = some x
        cases hl : (additionsOf m).filter fun a => a.name = x.name with
        | nil => rw [hl] at hx; cases hx
        | cons y l =>
          have hy : y ∈ (additionsOf m).filter fun a => a.name = x.name := by rw [hl]; simp
          obtain ⟨hy, hyn⟩ := List.mem_filter.mp hy
          have hya := (mem_additionsOf.mp hy).1
          replace hyn := of_decide_eq_true hyn
          obtain ⟨n, a⟩ := x
          obtain ⟨n', a'⟩ := y
          simp only at h1 hya hyn
          subst h1; subst hya; subst hyn
          rfl

theorem listed_ascending (m : List Site) : Ascending (listedSites (candidateSites m)) := by
  unfold Ascending listedSites
  rw [List.map_map, List.pairwise_map]
  exact (candidates_ascending m).filter _

theorem mem_listed_iff {m : List Site} (hm : (m.map Site.name).Nodup) (y : Str) :
    y ∈ listedSites (candidateSites m) ↔ Heading m y := by
  unfold listedSites Heading
  rw [List.mem_map]
  constructor
  · rintro ⟨x, hx, rfl⟩
    obtain ⟨hx, ha⟩ := List.mem_filter.mp hx
    obtain ⟨n, a⟩ := x
    simp only [Option.isNone_iff_eq_none] at ha
    subst ha
    rcases (mem_candidates_iff hm _).mp hx with h | ⟨-, h⟩
    · exact Or.inl h
    · exact Or.inr h
  · intro h
    refine ⟨⟨y, none⟩, List.mem_filter.mpr ⟨(mem_candidates_iff hm _).mpr ?_, rfl⟩, rfl⟩
    rcases h with h | h
    · exact Or.inl h
    · exact Or.inr ⟨rfl, h⟩

theorem aliasesOf_ascending (m : List Site) (y : Str) : Ascending (aliasesOf (candidateSites m) y) := by
  unfold Ascending aliasesOf
  rw [List.map_map, List.pairwise_map]
  exact (candidates_ascending m).filter _

theorem mem_aliasesOf {m : List Site} (hm : (m.map Site.name).Nodup) (x y : Str) :
    x ∈ aliasesOf (candidateSites m) y ↔ ⟨x, some y⟩ ∈ m := by
  unfold aliasesOf
  rw [List.mem_map]
  constructor
  · rintro ⟨z, hz, rfl⟩
    obtain ⟨hz, ha⟩ := List.mem_filter.mp hz
    obtain ⟨n, a⟩ := z
    have ha := of_decide_eq_true ha
    simp only at ha
    subst ha
    rcases (mem_candidates_iff hm _).mp hz with h | ⟨h, -⟩
    · exact h
    · cases h
  · exact fun h => ⟨⟨x, some y⟩, List.mem_filter.mpr ⟨(mem_candidates_iff hm _).mpr (Or.inl h), by simp⟩, rfl⟩

theorem sortPasswords_perm (l : List Password) : (sortPasswords l).Perm l := List.mergeSort_perm l _

theorem sortPasswords_stable (l : List Password) (k : Str) :
    (sortPasswords l).filter (fun x => sortText x = k) = l.filter fun x => sortText x = k := by
  have := filter_sortByKey (key := fun p : Password => p.id.name ++ c!" " ++ p.id.revision) l k
  have e : (fun x : Password => decide (sortText x = k)) = fun x => decide (x.id.name ++ c!" " ++ x.id.revision = k) := by
    funext x
    rw [Bool.eq_iff_iff, decide_eq_true_iff, decide_eq_true_iff]
    simp [sortText]
  rw [e]
  exact this

theorem sortPasswords_sorted (l : List Password) : Sorted (sortPasswords l) := by
  refine (pairwise_sortByKey (key := fun p : Password => p.id.name ++ c!" " ++ p.id.revision) l).imp ?_
  intro a b h
  have h := (strLe_iff _ _).mp h
  simpa [sortText] using h

end Pfp.Cli

namespace Pfp.Cli
open Spec
variable {E : Env}

/-! ### Effects of the command -/

/-- All that happens to the storage is that random bytes are drawn. -/
def Draws {α : Type} (s₀ : PState) (m : CM α) : Prop := ∀ s k, s.ps = drawn s₀ k → ∃ k', (m s).2.ps = drawn s₀ k'

theorem draws_pure {α : Type} {s₀ : PState} (a : α) : Draws s₀ (pure a : CM α) := fun _ k h => ⟨k, h⟩

theorem draws_print {s₀ : PState} (t : Str) : Draws s₀ (print t) := fun _ k h => ⟨k, h⟩

theorem draws_println {s₀ : PState} (t : Str) : Draws s₀ (println t) := draws_print _

theorem draws_query {α : Type} {s₀ : PState} (f : PState → Res α) : Draws s₀ (query f) := fun _ k h => ⟨k, h⟩

theorem draws_bind {α β : Type} {s₀ : PState} {m : CM α} {f : α → CM β} (h1 : Draws s₀ m) (h2 : ∀ a, Draws s₀ (f a)) :
    Draws s₀ (m >>= f) := by
  intro s k h
  obtain ⟨k', h'⟩ := h1 s k h
  rw [CM.bind_apply]
  cases hm : m s with
  | mk r s' =>
    rw [hm] at h'
    cases r with
    | ok a => exact h2 a s' k' h'
    | err e => exact ⟨k', h'⟩
    | panic => exact ⟨k', h'⟩
    | blocked => exact ⟨k', h'⟩

theorem draws_ite {α : Type} {s₀ : PState} {c : Prop} [Decidable c] {a b : CM α} (h1 : Draws s₀ a) (h2 : Draws s₀ b) :
    Draws s₀ (if c then a else b) := by
  split
  · exact h1
  · exact h2

theorem getRecoveryCode_drawn (E : Env) (z : StoredPassword) (s : PState) :
    ∃ k, (Passwords.getRecoveryCode E z s).2 = drawn s k := by
  unfold Passwords.getRecoveryCode
  simp only [M.bind_apply, M.get_apply, M.lift_apply]
  cases Storage.getSalt s.world with
  | err e => exact ⟨s.world.rpos, rfl⟩
  | panic => exact ⟨s.world.rpos, rfl⟩
  | ok salt =>
    simp only
    cases okOr s.key .passwordsLocked with
    | err e => exact ⟨s.world.rpos, rfl⟩
    | panic => exact ⟨s.world.rpos, rfl⟩
    | ok key => exact ⟨s.world.rpos + 12, rfl⟩

theorem draws_printValue {s₀ : PState} (site : Str) (p : Password) : Draws s₀ (printValue E site p) :=
  draws_bind (draws_print _) fun _ => draws_bind (draws_query _) fun _ => draws_println _

theorem draws_printRecovery {s₀ : PState} (p : Password) : Draws s₀ (printRecovery E p) := by
  cases p with
  | generated p => exact draws_pure _
  | stored p =>
    refine draws_bind (draws_println _) fun _ => draws_bind ?_ fun _ => draws_print _
    intro s k h
    obtain ⟨k', h'⟩ := getRecoveryCode_drawn E p s.ps
    refine ⟨k', ?_⟩
    show (Passwords.getRecoveryCode E p s.ps).2 = _
    rw [h', h]; rfl

theorem draws_printDetails {s₀ : PState} (p : Password) : Draws s₀ (printDetails p) := by
  unfold printDetails
  dsimp only
  have h : Draws s₀ (match p with
    | .generated p => printParameters p
    | .stored _ => pure ()) := by
    cases p with
    | generated p => exact draws_bind (draws_println _) fun _ => draws_println _
    | stored p => exact draws_pure _
  exact draws_ite (draws_bind (draws_println _) fun _ => h) h

theorem printPasswords_cons (E : Env) (site : Str) (a b c : Bool) (p : Password) (rest : List Password) :
    printPasswords E site a b c (p :: rest) = println (passwordLine p) >>= fun _ =>
      (if a then printValue E site p else pure ()) >>= fun _ => (if b then printRecovery E p else pure ()) >>= fun _ =>
      (if c then printDetails p else pure ()) >>= fun _ => printPasswords E site a b c rest := by
  rw [printPasswords]
  cases a <;> cases b <;> cases c <;> rfl

theorem draws_printPasswords {s₀ : PState} (site : Str) (a b c : Bool) :
    ∀ l, Draws s₀ (printPasswords E site a b c l)
  | [] => draws_pure _
  | p :: rest => by
    rw [printPasswords_cons]
    exact draws_bind (draws_println _) fun _ => draws_bind (draws_ite (draws_printValue _ _) (draws_pure _)) fun _ =>
      draws_bind (draws_ite (draws_printRecovery _) (draws_pure _)) fun _ =>
      draws_bind (draws_ite (draws_printDetails _) (draws_pure _)) fun _ => draws_printPasswords site a b c rest

/-- The lines with the aliases of a site. -/
def printAliases (verbose : Bool) (aliases : List Str) : CM Unit :=
  if verbose = true ∧ aliases ≠ [] then println (c!"    Aliases: " ++ join (c!",\n             ") aliases) else pure ()

theorem listLoop_cons (E : Env) (name : Str) (a b c : Bool) (cands : List Site) (site : Str) (rest : List Str) :
    listLoop E name a b c cands (site :: rest) = (query fun s => Passwords.list E s site name) >>= fun list =>
      if list = [] then listLoop E name a b c cands rest >>= fun r =>
        pure (r.1, if name = c!"*" then site :: r.2 else r.2)
      else println (c!"Passwords for " ++ site ++ c!":") >>= fun _ => printAliases c (aliasesOf cands site) >>= fun _ =>
        printPasswords E site a b c (sortPasswords list) >>= fun _ => listLoop E name a b c cands rest >>= fun r =>
        pure (true, r.2) := by
  rw [listLoop]
  refine congrArg _ (funext fun list => ?_)
  split
  · rfl
  · refine congrArg _ (funext fun _ => ?_)
    unfold printAliases
    split <;> rfl

theorem draws_printAliases {s₀ : PState} (c : Bool) (l : List Str) : Draws s₀ (printAliases c l) :=
  draws_ite (draws_println _) (draws_pure _)

theorem draws_listLoop {s₀ : PState} (name : Str) (a b c : Bool) (cands : List Site) :
    ∀ l, Draws s₀ (listLoop E name a b c cands l)
  | [] => draws_pure _
  | site :: rest => by
    rw [listLoop_cons]
    have ih := draws_listLoop (s₀ := s₀) name a b c cands rest
    exact draws_bind (draws_query _) fun _ => draws_ite (draws_bind ih fun _ => draws_pure _)
      (draws_bind (draws_println _) fun _ => draws_bind (draws_printAliases _ _) fun _ =>
        draws_bind (draws_printPasswords _ _ _ _ _) fun _ => draws_bind ih fun _ => draws_pure _)

theorem collect_drawn {α : Type} (E : Env) (w : World) (k : Nat) (f : Json → Option α) (sel : Str → Bool) (key : Bytes) :
    ∀ l, Storage.collect E { w with rpos := k } f sel key l = Storage.collect E w f sel key l
  | [] => rfl
  | x :: l => by
    rw [Storage.collect, Storage.collect, collect_drawn E w k f sel key l]
    rfl

theorem list_drawn (E : Env) (s : PState) (k : Nat) (y q : Str) : Passwords.list E (drawn s k) y q = Passwords.list E s y q := by
  unfold Passwords.list Storage.listPasswords
  have h : ∀ h' x key, Storage.collect E (drawn s k).world Serde.passwordFromJson (Storage.sitePrefix E x h').isPrefixOf key
      (FileIO.keys E (drawn s k).world) = Storage.collect E s.world Serde.passwordFromJson
        (Storage.sitePrefix E x h').isPrefixOf key (FileIO.keys E s.world) :=
    fun h' x key => collect_drawn E s.world k _ _ _ _
  simp only [h]
  rfl

theorem listSites_drawn (E : Env) (s : PState) (k : Nat) (q : Str) : Passwords.listSites E (drawn s k) q = Passwords.listSites E s q := by
  unfold Passwords.listSites Storage.listSites
  have h : ∀ key, Storage.collect E (drawn s k).world Serde.siteFromJson Storage.isSiteKey key
      (FileIO.keys E (drawn s k).world) = Storage.collect E s.world Serde.siteFromJson Storage.isSiteKey key
        (FileIO.keys E s.world) :=
    fun key => collect_drawn E s.world k _ _ _ _
  simp only [h]
  rfl

/-- Which sites the loop finds to be empty. -/
theorem listLoop_empty {s₀ : PState} (name : Str) (a b c : Bool) (cands : List Site) (rows : Str → List Password) :
    ∀ (l : List Str) (s : CState) (k : Nat) (r : Bool × List Str), s.ps = drawn s₀ k →
      (∀ y ∈ l, Passwords.list E s₀ y name = .ok (rows y)) → (listLoop E name a b c cands l s).1 = .ok r →
      r.2 = (if name = c!"*" then l.filter fun y => rows y = [] else []) ∧ (r.1 = true ↔ ∃ y ∈ l, rows y ≠ [])
  | [], s, k, r, _, _, h => by
    rw [listLoop] at h
    cases h; simp
  | site :: rest, s, k, r, hs, hl, h => by
    rw [listLoop_cons] at h
    have hq : (query fun s => Passwords.list E s site name) s = (.ok (rows site), s) := by
      show (convert (Passwords.list E s.ps site name), s) = _
      rw [hs]
      rw [list_drawn, hl site (by simp)]; rfl
    rw [CM.bind_apply, hq] at h
    simp only at h
    have hrest : ∀ y ∈ rest, Passwords.list E s₀ y name = .ok (rows y) := fun y hy => hl y (List.mem_cons_of_mem _ hy)
    by_cases he : rows site = []
    · rw [if_pos he] at h
      obtain ⟨r', s', h1, h2⟩ := CM.bind_ok_inv h
      obtain ⟨g1, g2⟩ := listLoop_empty name a b c cands rows rest s k r' hs hrest (by rw [h1])
      cases h2
      simp only [g1, g2]
      by_cases hn : name = c!"*" <;> simp [hn, he]
    · rw [if_neg he] at h
      obtain ⟨u, s1, h1, h⟩ := CM.bind_ok_inv h
      obtain ⟨k1, hk1⟩ := draws_println (s₀ := s₀) (c!"Passwords for " ++ site ++ c!":") s k hs
      rw [h1] at hk1
      obtain ⟨u, s2, h2, h⟩ := CM.bind_ok_inv h
      obtain ⟨k2, hk2⟩ := draws_printAliases (s₀ := s₀) c (aliasesOf cands site) s1 k1 hk1
      rw [h2] at hk2
      obtain ⟨u, s3, h3, h⟩ := CM.bind_ok_inv h
      obtain ⟨k3, hk3⟩ := draws_printPasswords (E := E) (s₀ := s₀) site a b c (sortPasswords (rows site)) s2 k2 hk2
      rw [h3] at hk3
      obtain ⟨r', s4, h4, h⟩ := CM.bind_ok_inv h
      obtain ⟨g1, g2⟩ := listLoop_empty name a b c cands rows rest s3 k3 r' hk3 hrest (by rw [h4])
      cases h
      simp only [g1]
      by_cases hn : name = c!"*" <;> simp [hn, he]

end Pfp.Cli

namespace Pfp.Cli
open Spec
variable {E : Env}

/-! ### The text shown -/

theorem splitOn_ne_nil {α : Type} [DecidableEq α] (sep : α) (l : List α) : splitOn sep l ≠ [] := by
  cases l with
  | nil => simp [splitOn]
  | cons c l =>
    rw [splitOn]
    split
    · simp
    · split <;> simp

theorem join_splitOn {α : Type} [DecidableEq α] (sep : α) (l : List α) : join [sep] (splitOn sep l) = l := by
  induction l with
  | nil => rfl
  | cons c l ih =>
    rw [splitOn]
    cases hs : splitOn sep l with
    | nil => exact absurd hs (splitOn_ne_nil _ _)
    | cons x xs =>
      rw [hs] at ih
      split
      · rename_i h
        rw [join, ih, h]; rfl
      · cases xs with
        | nil => rw [join] at ih ⊢; rw [ih]
        | cons y ys =>
          rw [join] at ih ⊢
          rw [← ih]; rfl

theorem not_mem_splitOn {α : Type} [DecidableEq α] (sep : α) (l : List α) : ∀ x ∈ splitOn sep l, sep ∉ x := by
  induction l with
  | nil => simp [splitOn]
  | cons c l ih =>
    rw [splitOn]
    cases hs : splitOn sep l with
    | nil => exact absurd hs (splitOn_ne_nil _ _)
    | cons x xs =>
      rw [hs] at ih
      split
      · intro y hy
        rcases List.mem_cons.mp hy with rfl | hy
        · simp
        · exact ih y hy
      · rename_i h
        intro y hy
        rcases List.mem_cons.mp hy with rfl | hy
        · have := ih x (by simp)
          simp only [List.mem_cons, not_or]
          exact ⟨fun e => h e.symm, this⟩
        · exact ih y (List.mem_cons_of_mem _ hy)

theorem map_join {α β : Type} (f : α → β) (sep : List α) : ∀ l : List (List α),
    (join sep l).map f = join (sep.map f) (l.map fun x => x.map f)
  | [] => rfl
  | [x] => rfl
  | x :: y :: rest => by
    rw [join, List.map_append, List.map_append, map_join f sep (y :: rest)]
    rfl

/-- The state with more output and random bytes drawn. -/
def shown (s₀ : PState) (s : CState) (k : Nat) (t : Str) : CState := { s with ps := drawn s₀ k, out := s.out ++ t }

theorem shown_shown (s₀ : PState) (s : CState) (k k' : Nat) (t t' : Str) :
    shown s₀ (shown s₀ s k t) k' t' = shown s₀ s k' (t ++ t') := by
  simp [shown, List.append_assoc]

theorem println_shown (s₀ : PState) (s : CState) (k : Nat) (t u : Str) :
    println u (shown s₀ s k t) = (.ok (), shown s₀ s k (t ++ (u ++ ['\n']))) := by
  simp [shown, println, print, List.append_assoc]

theorem print_shown (s₀ : PState) (s : CState) (k : Nat) (t u : Str) :
    print u (shown s₀ s k t) = (.ok (), shown s₀ s k (t ++ u)) := by
  simp [shown, print, List.append_assoc]

theorem passwordLine_eq (p : Password) : passwordLine p ++ ['\n'] = entryTitle p := by
  unfold passwordLine entryTitle
  cases p <;> (simp only []; split <;> simp_all)

theorem charset_text (cs : CharacterSet) :
    join (c!" ") ((if cs.contains .lower then [c!"abc"] else []) ++ (if cs.contains .upper then [c!"ABC"] else []) ++
    (if cs.contains .digit then [c!"789"] else []) ++ (if cs.contains .symbol then [c!"+^;"] else [])) = charsetText cs := rfl

/-- The parameters of a password, if it is generated. -/
def printKind : Password → CM Unit
  | .generated p => printParameters p
  | .stored _ => pure ()

theorem printDetails_eq (p : Password) : printDetails p =
    (if p.notes ≠ [] then println (c!"        Notes: " ++ p.notes) else pure ()) >>= fun _ => printKind p := by
  have h : printDetails p =
      if p.notes ≠ [] then println (c!"        Notes: " ++ p.notes) >>= fun _ => printKind p else printKind p := by
    cases p <;> rfl
  rw [h]
  by_cases hn : p.notes ≠ []
  · rw [if_pos hn, if_pos hn]
  · rw [if_neg hn, if_neg hn]; rfl

theorem printDetails_shown (s₀ : PState) (s : CState) (k : Nat) (t : Str) (p : Password) :
    printDetails p (shown s₀ s k t) = (.ok (), shown s₀ s k (t ++ indented (detailLines p))) := by
  have hnotes : ∀ t, (if p.notes ≠ [] then println (c!"        Notes: " ++ p.notes) else pure ()) (shown s₀ s k t) =
      (.ok (), shown s₀ s k (t ++ indented (if p.notes = [] then [] else [c!"Notes: " ++ p.notes]))) := by
    intro t
    by_cases hn : p.notes = []
    · simp [hn, indented]
    · rw [if_pos hn, println_shown]
      simp [hn, indented]
  rw [printDetails_eq, CM.bind_apply, hnotes]
  simp only
  cases p with
  | stored p => simp only [printKind, CM.pure_apply, detailLines, List.append_nil]
  | generated p =>
    simp only [printKind, printParameters, CM.bind_apply, println_shown, charset_text]
    simp [detailLines, indented, List.append_assoc]

/-- The passwords listed can be shown. -/
structure Showable (E : Env) (s₀ : PState) (y : Str) (a b : Bool) (x : Password) : Prop where
  value : a = true → ∃ v, Passwords.get E s₀ y x.id.name x.id.revision = .ok v
  code : b = true → ∀ z, x = .stored z → ∀ k, ∃ c, Passwords.getRecoveryCode E z (drawn s₀ k) = (.ok c, drawn s₀ (k + 12))

theorem printValue_shown {s₀ : PState} {y v : Str} {x : Password} (h : Passwords.get E s₀ y x.id.name x.id.revision = .ok v)
    (s : CState) (k : Nat) (t : Str) :
    printValue E y x (shown s₀ s k t) = (.ok (), shown s₀ s k (t ++ indented [v])) := by
  unfold printValue
  rw [CM.bind_apply, print_shown]
  simp only
  rw [CM.bind_apply]
  have hq : ∀ t, (query fun s => Passwords.get E s y x.id.name x.id.revision) (shown s₀ s k t) = (.ok v, shown s₀ s k t) := by
    intro t
    have : (query fun s => Passwords.get E s y x.id.name x.id.revision) (shown s₀ s k t) =
      (convert (Passwords.get E s₀ y x.id.name x.id.revision), shown s₀ s k t) := rfl
    rw [this, h]; rfl
  rw [hq]
  simp only
  rw [println_shown]
  simp [indented, List.append_assoc]

theorem printRecovery_shown {s₀ : PState} {z : StoredPassword} {c : Bytes} {k k' : Nat}
    (h : Passwords.getRecoveryCode E z (drawn s₀ k) = (.ok c, drawn s₀ k')) (s : CState) (t : Str) :
    printRecovery E (.stored z) (shown s₀ s k t) =
      (.ok (), shown s₀ s k' (t ++ indented (c!"Recovery code:" :: (splitOn 10 c).map fun l => l.map byteChar))) := by
  unfold printRecovery
  simp only
  rw [CM.bind_apply, println_shown]
  simp only
  rw [CM.bind_apply]
  have hc : ∀ t, call (Passwords.getRecoveryCode E z) (shown s₀ s k t) = (.ok c, shown s₀ s k' t) := by
    intro t
    have : call (Passwords.getRecoveryCode E z) (shown s₀ s k t) =
      match Passwords.getRecoveryCode E z (drawn s₀ k) with
      | (r, ps) => (convert r, { shown s₀ s k t with ps }) := rfl
    rw [this, h]; rfl
  rw [hc]
  simp only
  rw [print_shown]
  simp [indented, List.append_assoc, List.flatMap_map]

theorem printPasswords_shown {s₀ : PState} {y : Str} {a b c : Bool} : ∀ {l : List Password},
    (∀ x ∈ l, Showable E s₀ y a b x) → ∀ (s : CState) (k : Nat) (t : Str), ∃ (entries : List (Password × List Str)) (k' : Nat),
      entries.map Prod.fst = l ∧
      (∀ e ∈ entries, EntryLines E s₀ y a b c e.1 e.2) ∧
      printPasswords E y a b c l (shown s₀ s k t) =
        (.ok (), shown s₀ s k' (t ++ entries.flatMap fun e => entryTitle e.1 ++ indented e.2))
  | [], _, s, k, t => ⟨[], k, rfl, by simp, by simp [printPasswords]⟩
  | x :: l, hl, s, k, t => by
    rw [printPasswords_cons, CM.bind_apply, println_shown, passwordLine_eq]
    simp only
    have hx := hl x (by simp)
    obtain ⟨value, hv1, hv2, hv3⟩ : ∃ value, (a = false → value = []) ∧
        (a = true → ∃ v, ask E s₀ (.get y x.id.name x.id.revision) = .ok (.text v) ∧ value = [v]) ∧
        ∀ t, (if a = true then printValue E y x else pure ()) (shown s₀ s k t) =
          (.ok (), shown s₀ s k (t ++ indented value)) := by
      cases a with
      | false => exact ⟨[], fun _ => rfl, by simp, fun t => by simp [indented]⟩
      | true =>
        obtain ⟨v, hv⟩ := hx.value rfl
        refine ⟨[v], by simp, fun _ => ⟨v, ?_, rfl⟩, fun t => ?_⟩
        · simp only [ask, run, hv]; rfl
        · rw [if_pos rfl, printValue_shown hv]
    obtain ⟨code, k1, hc1, hc2, hc3⟩ : ∃ code k', (b = false → code = []) ∧
        (b = true → match (generalizing := false) x with
          | .generated _ => code = []
          | .stored z => ∃ k c lines, ask E (drawn s₀ k) (.getRecoveryCode z) = .ok (.code c) ∧
            c.map byteChar = join ['\n'] lines ∧ (∀ line ∈ lines, '\n' ∉ line) ∧ code = c!"Recovery code:" :: lines) ∧
        ∀ t, (if b = true then printRecovery E x else pure ()) (shown s₀ s k t) =
          (.ok (), shown s₀ s k' (t ++ indented code)) := by
      cases b with
      | false => exact ⟨[], k, fun _ => rfl, by simp, fun t => by simp [indented]⟩
      | true =>
        cases x with
        | generated g => exact ⟨[], k, by simp, fun _ => rfl, fun t => by simp [indented, printRecovery]⟩
        | stored z =>
          obtain ⟨c, hc⟩ := hx.code rfl z rfl k
          refine ⟨c!"Recovery code:" :: (splitOn 10 c).map fun l => l.map byteChar, k + 12, by simp, fun _ =>
            ⟨k, c, (splitOn 10 c).map fun l => l.map byteChar, ?_, ?_, ?_, rfl⟩, fun t => ?_⟩
          · simp only [ask, run, hc]; rfl
          · have := map_join byteChar [10] (splitOn 10 c)
            rw [join_splitOn] at this
            exact this
          · intro line hline
            obtain ⟨l', hl', rfl⟩ := List.mem_map.mp hline
            intro hm
            obtain ⟨b, hb, he⟩ := List.mem_map.mp hm
            have : b = 10 := byteChar_injective (he.trans (by decide))
            exact not_mem_splitOn 10 c l' hl' (this ▸ hb)
          · rw [if_pos rfl, printRecovery_shown hc]
    have hd : ∀ t, (if c = true then printDetails x else pure ()) (shown s₀ s k1 t) =
        (.ok (), shown s₀ s k1 (t ++ indented (if c then detailLines x else []))) := by
      intro t
      cases c with
      | false => simp [indented]
      | true => rw [if_pos rfl, printDetails_shown]; rfl
    rw [CM.bind_apply, hv3]
    simp only
    rw [CM.bind_apply, hc3]
    simp only
    rw [CM.bind_apply, hd]
    simp only
    obtain ⟨entries, k', g1, g2, g3⟩ := printPasswords_shown (c := c) (fun x hx => hl x (List.mem_cons_of_mem _ hx)) s k1
      (t ++ entryTitle x ++ indented value ++ indented code ++ indented (if c then detailLines x else []))
    rw [g3]
    refine ⟨(x, value ++ code ++ if c then detailLines x else []) :: entries, k', by simp [g1], ?_, ?_⟩
    · intro e he
      rcases List.mem_cons.mp he with rfl | he
      · exact ⟨value, code, rfl, hv1, hv2, hc1, hc2⟩
      · exact g2 e he
    · simp [indented, List.append_assoc]

theorem printAliases_shown (s₀ : PState) (s : CState) (k : Nat) (t : Str) (c : Bool) (l : List Str) :
    printAliases c l (shown s₀ s k t) = (.ok (), shown s₀ s k (t ++
      if c = true ∧ l ≠ [] then c!"    Aliases: " ++ join (c!",\n             ") l ++ c!"\n" else [])) := by
  unfold printAliases
  split
  · rw [println_shown]
  · simp

theorem listLoop_shown {s₀ : PState} {name : Str} {a b c : Bool} {cands : List Site} {rows : Str → List Password} :
    ∀ {l : List Str}, (∀ y ∈ l, Passwords.list E s₀ y name = .ok (rows y)) →
      (∀ y ∈ l, ∀ x ∈ rows y, Showable E s₀ y a b x) → ∀ (s : CState) (k : Nat) (t : Str),
      ∃ (blocks : List (Str × Str)) (k' : Nat), blocks.map Prod.fst = l.filter (fun y => rows y ≠ []) ∧
        (∀ e ∈ blocks, SiteText E s₀ a b c e.1 (aliasesOf cands e.1) (sortPasswords (rows e.1)) e.2) ∧
        listLoop E name a b c cands l (shown s₀ s k t) =
          (.ok (!blocks.isEmpty, if name = c!"*" then l.filter fun y => rows y = [] else []),
            shown s₀ s k' (t ++ blocks.flatMap Prod.snd))
  | [], _, _, s, k, t => ⟨[], k, rfl, by simp, by simp [listLoop]⟩
  | site :: rest, hl, hx, s, k, t => by
    rw [listLoop_cons]
    have hq : (query fun s => Passwords.list E s site name) (shown s₀ s k t) = (.ok (rows site), shown s₀ s k t) := by
      show (convert (Passwords.list E (drawn s₀ k) site name), _) = _
      rw [list_drawn, hl site (by simp)]; rfl
    rw [CM.bind_apply, hq]
    simp only
    have ih := listLoop_shown (cands := cands) (c := c) (fun y hy => hl y (List.mem_cons_of_mem _ hy))
      (fun y hy => hx y (List.mem_cons_of_mem _ hy)) s
    by_cases he : rows site = []
    · rw [if_pos he]
      obtain ⟨blocks, k', g1, g2, g3⟩ := ih k t
      refine ⟨blocks, k', by simpa [he] using g1, g2, ?_⟩
      rw [CM.bind_apply, g3]
      simp only [CM.pure_apply]
      by_cases hn : name = c!"*" <;> simp [hn, he]
    · rw [if_neg he, CM.bind_apply, println_shown]
      simp only
      rw [CM.bind_apply, printAliases_shown]
      simp only
      obtain ⟨entries, k1, h1, h2, h3⟩ := printPasswords_shown (c := c) (l := sortPasswords (rows site))
        (fun x h => hx site (by simp) x ((sortPasswords_perm _).mem_iff.mp h)) s k
        (t ++ (c!"Passwords for " ++ site ++ c!":" ++ ['\n']) ++
          (if c = true ∧ aliasesOf cands site ≠ [] then
            c!"    Aliases: " ++ join (c!",\n             ") (aliasesOf cands site) ++ c!"\n" else []))
      rw [CM.bind_apply, h3]
      simp only
      obtain ⟨blocks, k', g1, g2, g3⟩ := ih k1 (t ++ (c!"Passwords for " ++ site ++ c!":" ++ ['\n']) ++
          (if c = true ∧ aliasesOf cands site ≠ [] then
            c!"    Aliases: " ++ join (c!",\n             ") (aliasesOf cands site) ++ c!"\n" else []) ++
          entries.flatMap fun e => entryTitle e.1 ++ indented e.2)
      rw [CM.bind_apply, g3]
      simp only [CM.pure_apply]
      obtain ⟨B, hB, hBe⟩ : ∃ B, SiteText E s₀ a b c site (aliasesOf cands site) (sortPasswords (rows site)) B ∧
          B = c!"Passwords for " ++ site ++ c!":\n" ++ (if c = true ∧ aliasesOf cands site ≠ [] then
            c!"    Aliases: " ++ join (c!",\n             ") (aliasesOf cands site) ++ c!"\n" else []) ++
          entries.flatMap fun e => entryTitle e.1 ++ indented e.2 := ⟨_, ⟨entries, h1, h2, rfl⟩, rfl⟩
      refine ⟨(site, B) :: blocks, k', by simp [he, g1], ?_, ?_⟩
      · intro e hm
        rcases List.mem_cons.mp hm with rfl | hm
        · exact hB
        · exact g2 e hm
      · subst hBe
        by_cases hn : name = c!"*" <;> simp [hn, he, List.append_assoc]

end Pfp.Cli
