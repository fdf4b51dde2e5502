import Verif.Proofs.Effects
import Verif.Spec.Order

/-!
# Sequences of operations on passwords as functions of the single entries
-/

namespace Pfp.Proofs.Order

open Spec

variable {E : Env} {U : Universe}

/-- What becomes of an entry by an operation on it. -/
def effect (e : Option Entry) : Op → Option Entry
  | .setStored _ _ _ v => some ⟨.stored v, []⟩
  | .setGenerated _ _ _ len cs => some ⟨.generated len cs, []⟩
  | .setNotes _ _ _ t => e.map fun e => { e with notes := t }
  | .remove _ _ _ => none
  | _ => e

/-- The entry of an operation. -/
def ident (ρ : Str → Str) (op : Op) : Option PasswordId := op.entry.map fun x => ⟨ρ x.1, x.2.1, revisionOf x.2.2⟩

/-- The site made known. -/
def knows (ρ : Str → Str) : Op → Option Str
  | .setStored a _ _ _ => some (ρ a)
  | .setGenerated a _ _ _ _ => some (ρ a)
  | _ => none

/-- Two tables differ by some known sites, and by the entries as told. -/
structure Differ (known : Str → Prop) (f : PasswordId → Option Entry) (V V' : Vault) : Prop where
  passwords : ∀ i, V'.passwords i = f i
  fresh : ∀ x, V.sites x = none → known x → V'.sites x = some none
  same : ∀ x, V.sites x ≠ none ∨ ¬known x → V'.sites x = V.sites x

theorem Differ.resolve {known : Str → Prop} {f : PasswordId → Option Entry} {V V' : Vault} (h : Differ known f V V') (a : Str) :
    V'.resolve a = V.resolve a := by
  unfold Vault.resolve
  by_cases hx : V.sites (canonical a) = none ∧ known (canonical a)
  · rw [h.fresh _ hx.1 hx.2, hx.1]
  · rw [h.same]
    by_cases h1 : V.sites (canonical a) = none
    · exact .inr fun h2 => hx ⟨h1, h2⟩
    · exact .inl h1

theorem Differ.unique {known known' : Str → Prop} {f f' : PasswordId → Option Entry} {V V' W : Vault} (h : Differ known f V V')
    (h' : Differ known' f' V W) (hk : ∀ x, V.sites x = none → (known x ↔ known' x)) (hf : ∀ i, f i = f' i) : V' = W := by
  have h1 : V'.sites = W.sites := by
    funext x
    by_cases hx : V.sites x = none
    · by_cases hkx : known x
      · rw [h.fresh x hx hkx, h'.fresh x hx ((hk x hx).mp hkx)]
      · rw [h.same x (.inr hkx), h'.same x (.inr fun h2 => hkx ((hk x hx).mpr h2))]
    · rw [h.same x (.inl hx), h'.same x (.inl hx)]
  have h2 : V'.passwords = W.passwords := by funext i; rw [h.passwords, h'.passwords, hf]
  cases V'; cases W; cases h1; cases h2; rfl

theorem differ_put (V : Vault) (a n r : Str) (e : Entry) (f : PasswordId → Option Entry)
    (hf : ∀ i, f i = if i = V.idOf a n r then some e else V.passwords i) :
    Differ (fun x => V.resolve a = x) f V ((V.know (V.resolve a)).put (V.idOf a n r) e) := by
  refine ⟨fun i => ?_, fun x hx hk => ?_, fun x hx => ?_⟩
  · rw [hf]
    show (if i = V.idOf a n r then some e else (V.know (V.resolve a)).passwords i) = _
    rw [know_passwords]
  · show (V.know (V.resolve a)).sites x = some none
    subst hk
    unfold Vault.know
    rw [if_pos hx]
    exact if_pos rfl
  · show (V.know (V.resolve a)).sites x = _
    unfold Vault.know
    split
    · rename_i h
      refine if_neg fun e => ?_
      subst e
      exact hx.elim (fun h' => h' h) fun h' => h' rfl
    · rfl

theorem differ_same (V : Vault) (W : Vault) (known : Str → Prop) (f : PasswordId → Option Entry) (hs : W.sites = V.sites)
    (hf : ∀ i, W.passwords i = f i) (hk : ∀ x, ¬known x) : Differ known f V W :=
  ⟨hf, fun x _ h => absurd h (hk x), fun x _ => by rw [hs]⟩

/-- One operation. -/
theorem one (hE : E.Lawful) (hS : Secure E U) {s : PState} {A : AState} {pos : Origin} {p : Str} {V : Vault}
    (ho : Open E U s A pos p V) {op : Op} (hop : op.Within U) (he : op.entry ≠ none) :
    ∃ A' pos' V', Open E U (after E s op) A' pos' p V' ∧
      Differ (fun x => knows V.resolve op = some x)
        (fun i => if ident V.resolve op = some i then effect (V.passwords i) op else V.passwords i) V V' := by
  have hiff : ∀ {a n r : Str} {i : PasswordId}, (some (V.idOf a n r) = some i) = (i = V.idOf a n r) := fun {a n r i} =>
    propext ⟨fun h => (Option.some.inj h).symm, fun h => by rw [h]⟩
  cases op with
  | setGenerated a n r len cs =>
    obtain ⟨wr, _, _, pos', ho'⟩ := ho.setGenerated hE hS len cs hop
    have := differ_put V a n r ⟨.generated len cs, []⟩ _ fun _ => rfl
    refine ⟨_, pos', _, ho', ?_, fun x hx hk => this.fresh x hx (Option.some.inj hk), fun x hx => this.same x ?_⟩
    · intro i
      rw [this.passwords]
      show _ = if some (V.idOf a n r) = some i then _ else _
      simp only [hiff]
      rfl
    · exact hx.imp_right fun h h' => h (congrArg some h')
  | setStored a n r v =>
    obtain ⟨wr, _, _, pos', ho'⟩ := ho.setStored hE hS v hop
    have := differ_put V a n r ⟨.stored v, []⟩ _ fun _ => rfl
    refine ⟨_, pos', _, ho', ?_, fun x hx hk => this.fresh x hx (Option.some.inj hk), fun x hx => this.same x ?_⟩
    · intro i
      rw [this.passwords]
      show _ = if some (V.idOf a n r) = some i then _ else _
      simp only [hiff]
      rfl
    · exact hx.imp_right fun h h' => h (congrArg some h')
  | setNotes a n r t =>
    cases hV : V.passwords (V.idOf a n r) with
    | none =>
      have hm := ho.setNotes_missing hE hS t hop hV
      have : after E s (.setNotes a n r t) = s := setNotes_careful E a n r t s _ (map_err_iff.mp hm) (by simp [WriteError])
      refine ⟨A, pos, V, by rw [this]; exact ho, differ_same _ _ _ _ rfl (fun i => ?_) fun x h => by cases h⟩
      show _ = if some (V.idOf a n r) = some i then (V.passwords i).map _ else _
      split
      · rename_i h
        rw [← Option.some.inj h, hV]
        rfl
      · rfl
    | some e =>
      obtain ⟨wr, _, _, pos', ho'⟩ := ho.setNotes hE hS t hop hV
      refine ⟨_, pos', _, ho', differ_same _ _ _ _ rfl (fun i => ?_) fun x h => by cases h⟩
      show (if i = V.idOf a n r then _ else _) = if some (V.idOf a n r) = some i then (V.passwords i).map _ else _
      simp only [hiff]
      split
      · rename_i h
        rw [h, hV]
        rfl
      · rfl
  | remove a n r =>
    cases hV : V.passwords (V.idOf a n r) with
    | none =>
      have hm := ho.remove_missing hE hS hop hV
      have : after E s (.remove a n r) = s := remove_passwords_careful E a n r s _ (map_err_iff.mp hm) (by simp [WriteError])
      refine ⟨A, pos, V, by rw [this]; exact ho, differ_same _ _ _ _ rfl (fun i => ?_) fun x h => by cases h⟩
      show _ = if some (V.idOf a n r) = some i then none else _
      split
      · rename_i h
        rw [← Option.some.inj h, hV]
      · rfl
    | some e =>
      obtain ⟨wr, _, _, pos', ho'⟩ := ho.remove hE hS hop hV
      refine ⟨_, pos', _, ho', differ_same _ _ _ _ rfl (fun i => ?_) fun x h => by cases h⟩
      show (if i = V.idOf a n r then _ else _) = if some (V.idOf a n r) = some i then none else _
      simp only [hiff]
  | _ => exact absurd rfl he

/-- Any number of operations. -/
theorem many (hE : E.Lawful) (hS : Secure E U) (ops : List Op) : ∀ {s : PState} {A : AState} {pos : Origin} {p : Str} {V : Vault},
    Open E U s A pos p V → (∀ op ∈ ops, op.Within U ∧ op.entry ≠ none) →
    ∃ A' pos' V', Open E U (ops.foldl (after E) s) A' pos' p V' ∧
      Differ (fun x => ∃ op ∈ ops, knows V.resolve op = some x)
        (fun i => (ops.filter fun op => ident V.resolve op = some i).foldl effect (V.passwords i)) V V' := by
  induction ops with
  | nil =>
    exact fun ho _ => ⟨_, _, _, ho, differ_same _ _ _ _ rfl (fun i => rfl) fun x h => by obtain ⟨_, h, _⟩ := h; cases h⟩
  | cons op ops ih =>
    intro s A pos p V ho hops
    obtain ⟨A1, pos1, V1, ho1, h1⟩ := one hE hS ho (hops op (by simp)).1 (hops op (by simp)).2
    obtain ⟨A2, pos2, V2, ho2, h2⟩ := ih ho1 fun x hx => hops x (List.mem_cons_of_mem _ hx)
    have hr : V1.resolve = V.resolve := funext h1.resolve
    rw [hr] at h2
    refine ⟨A2, pos2, V2, ho2, fun i => ?_, fun x hx hk => ?_, fun x hx => ?_⟩
    · rw [h2.passwords, h1.passwords, List.filter_cons]
      by_cases h : ident V.resolve op = some i
      · rw [if_pos h, if_pos (by simpa using h), List.foldl_cons]
      · rw [if_neg h, if_neg (by simpa using h)]
    · obtain ⟨y, hy, hk⟩ := hk
      by_cases h : knows V.resolve op = some x
      · rw [h2.same x (.inl (by rw [h1.fresh x hx h]; simp)), h1.fresh x hx h]
      · refine h2.fresh x (by rw [h1.same x (.inr h)]; exact hx) ?_
        rcases List.mem_cons.mp hy with rfl | hy
        · exact absurd hk h
        · exact ⟨y, hy, hk⟩
    · have h3 : V1.sites x = V.sites x := h1.same x (hx.imp_right fun h h' => h ⟨op, by simp, h'⟩)
      rw [h2.same x (hx.imp (fun h => by rw [h3]; exact h) fun h h' => ?_), h3]
      obtain ⟨y, hy, hk⟩ := h'
      exact h ⟨y, List.mem_cons_of_mem _ hy, hk⟩

/-- Equal tables give the same answers. -/
theorem alike (hE : E.Lawful) (hS : Secure E U) {s t : PState} {A A' : AState} {pos pos' : Origin} {p : Str} {V : Vault}
    (ho : Open E U s A pos p V) (ho' : Open E U t A' pos' p V) : Alike E U s t where
  getAlias a ha := (sameAlias hE hS ho' ho ha fun _ => Iff.rfl)
  has a n r ha hn hr := (sameAnswers hE hS ho' ho ha hn hr rfl rfl).1
  get a n r ha hn hr := (sameAnswers hE hS ho' ho ha hn hr rfl rfl).2.1
  getNotes a n r ha hn hr := (sameAnswers hE hS ho' ho ha hn hr rfl rfl).2.2
  list a q ha := by
    obtain ⟨l, h1, h2, h3⟩ := ho.list hE hS q ha
    obtain ⟨l', h1', h2', h3'⟩ := ho'.list hE hS q ha
    exact ⟨l, l', h1, h1', (List.perm_ext_iff_of_nodup h2 h2').mpr fun x => (h3 x).trans (h3' x).symm⟩
  listSites q := by
    obtain ⟨l, h1, h2, h3⟩ := ho.listSites hE hS q
    obtain ⟨l', h1', h2', h3'⟩ := ho'.listSites hE hS q
    exact ⟨l, l', h1, h1', (List.perm_ext_iff_of_nodup h2 h2').mpr fun x => (h3 x).trans (h3' x).symm⟩

theorem entryOf_eq (hE : E.Lawful) (hS : Secure E U) {s : PState} {A : AState} {pos : Origin} {p : Str} {V : Vault}
    (ho : Open E U s A pos p V) {op : Op} (hop : op.Within U) : entryOf E s op = ident V.resolve op := by
  cases op <;> first | rfl | (unfold entryOf ident; simp only [Op.entry, Option.map_some]; rw [ho.siteMeant_eq hE hS hop.1])

end Pfp.Proofs.Order
