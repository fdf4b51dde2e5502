import Verif.Spec.Records
import Verif.Proofs.JsonText
import Verif.Proofs.Serde

/-!
# Reading records
-/

namespace Pfp.Serde

open Spec

theorem valuesOf_eq_nil {k : Str} {l : List (JKey × Json)} : valuesOf k l = [] ↔ Absent l k := by
  simp [valuesOf, Absent, List.filter_eq_nil_iff]

theorem valuesOf_cons (k : Str) (m : JKey × Json) (l : List (JKey × Json)) :
    valuesOf k (m :: l) = if m.1.str = k then m.2 :: valuesOf k l else valuesOf k l := by
  unfold valuesOf
  by_cases h : m.1.str = k <;> simp [h]

theorem valuesOf_append (k : Str) (l l' : List (JKey × Json)) :
    valuesOf k (l ++ l') = valuesOf k l ++ valuesOf k l' := by
  simp [valuesOf]

theorem valuesOf_eq_one {k : Str} {v : Json} : ∀ {l : List (JKey × Json)}, valuesOf k l = [v] ↔ Once l k v
  | [] => by
    simp [valuesOf, Once]
  | m :: l => by
    rw [valuesOf_cons]
    by_cases h : m.1.str = k
    · rw [if_pos h]
      constructor
      · intro h'
        rw [List.cons_eq_cons] at h'
        obtain ⟨rfl, h'⟩ := h'
        exact ⟨[], m.1, l, rfl, h, by simpa [Absent] using valuesOf_eq_nil.mp h'⟩
      · rintro ⟨before, key, rest, he, hk, ho⟩
        cases before with
        | nil =>
          rw [List.nil_append, List.cons_eq_cons] at he
          obtain ⟨rfl, rfl⟩ := he
          rw [valuesOf_eq_nil.mpr (by simpa [Absent] using ho)]
        | cons x xs =>
          rw [List.cons_append, List.cons_eq_cons] at he
          obtain ⟨rfl, rfl⟩ := he
          exact absurd h (ho m (by simp))
    · rw [if_neg h, valuesOf_eq_one]
      constructor
      · rintro ⟨before, key, rest, rfl, hk, ho⟩
        refine ⟨m :: before, key, rest, rfl, hk, ?_⟩
        intro x hx
        rcases List.mem_cons.mp hx with rfl | hx
        · exact h
        · exact ho x hx
      · rintro ⟨before, key, rest, he, hk, ho⟩
        cases before with
        | nil =>
          rw [List.nil_append, List.cons_eq_cons] at he
          obtain ⟨rfl, rfl⟩ := he
          exact absurd hk h
        | cons x xs =>
          rw [List.cons_append, List.cons_eq_cons] at he
          obtain ⟨rfl, rfl⟩ := he
          exact ⟨xs, key, rest, rfl, hk, fun x hx => ho x (List.mem_cons_of_mem _ hx)⟩

theorem required_iff {k : Str} {v : Json} {l : List (JKey × Json)} : required k l = some v ↔ Once l k v := by
  rw [← valuesOf_eq_one]
  unfold required
  split <;> simp_all

theorem optional_none {k : Str} {l : List (JKey × Json)} : optional k l = some none ↔ Absent l k := by
  rw [← valuesOf_eq_nil]
  unfold optional
  split <;> simp_all

theorem optional_some {k : Str} {v : Json} {l : List (JKey × Json)} : optional k l = some (some v) ↔ Once l k v := by
  rw [← valuesOf_eq_one]
  unfold optional
  split <;> simp_all

theorem asStr_iff {v : Json} {s : Str} : asStr v = some s ↔ v = .str s := by
  cases v <;> simp [asStr]

theorem asBool_iff {v : Json} {b : Bool} : asBool v = some b ↔ v = .bool b := by
  cases v <;> simp [asBool]

theorem asUsize_iff {v : Json} {n : UInt64} : asUsize v = some n ↔ v = .num (.uint n.toNat) := by
  constructor
  · intro h
    cases v with
    | num x =>
      cases x with
      | uint m =>
        simp only [asUsize] at h
        split at h
        · rename_i hm
          simp only [Option.some.injEq] at h
          subst h
          simp only [Json.num.injEq, JNum.uint.injEq]
          rw [UInt64.toNat_ofNat']
          exact (Nat.mod_eq_of_lt hm).symm
        · simp at h
      | other => simp [asUsize] at h
    | _ => simp [asUsize] at h
  · rintro rfl
    exact asUsize_toNat n

theorem requiredStr_iff {k s : Str} {l : List (JKey × Json)} : (required k l >>= asStr) = some s ↔ Once l k (.str s) := by
  rw [← required_iff]
  cases required k l with
  | none => simp
  | some v => simp [asStr_iff]

theorem valuesOf_without {k : Str} {ks : List Str} (h : k ∉ ks) (l : List (JKey × Json)) :
    valuesOf k (without ks l) = valuesOf k l := by
  unfold valuesOf without
  rw [List.filter_filter]
  congr 1
  apply List.filter_congr
  intro m _
  by_cases hm : m.1.str = k
  · simp [hm, h]
  · simp [hm]

theorem once_without {k : Str} {ks : List Str} {v : Json} (h : k ∉ ks) (l : List (JKey × Json)) :
    Once (without ks l) k v ↔ Once l k v := by
  rw [← valuesOf_eq_one, ← valuesOf_eq_one, valuesOf_without h]

theorem absent_without {k : Str} {ks : List Str} (h : k ∉ ks) (l : List (JKey × Json)) :
    Absent (without ks l) k ↔ Absent l k := by
  rw [← valuesOf_eq_nil, ← valuesOf_eq_nil, valuesOf_without h]

theorem mem_without {ks : List Str} {l : List (JKey × Json)} {m : JKey × Json} :
    m ∈ without ks l ↔ m ∈ l ∧ m.1.str ∉ ks := by
  simp [without]

theorem flag_without {k : Str} {ks : List Str} {b : Bool} (h : k ∉ ks) (l : List (JKey × Json)) :
    Flag (without ks l) k b ↔ Flag l k b := by
  unfold Flag
  simp only [mem_without]
  constructor
  · rintro ⟨h1, h2⟩
    refine ⟨fun m hm hk => h1 m ⟨hm, hk ▸ h⟩ hk, h2.trans ⟨?_, ?_⟩⟩
    · rintro ⟨m, hm, h3⟩; exact ⟨m, hm.1, h3⟩
    · rintro ⟨m, hm, h3⟩; exact ⟨m, ⟨hm, h3.1 ▸ h⟩, h3⟩
  · rintro ⟨h1, h2⟩
    refine ⟨fun m hm hk => h1 m hm.1 hk, h2.trans ⟨?_, ?_⟩⟩
    · rintro ⟨m, hm, h3⟩; exact ⟨m, ⟨hm, h3.1 ▸ h⟩, h3⟩
    · rintro ⟨m, hm, h3⟩; exact ⟨m, hm.1, h3⟩

theorem notes_iff {l : List (JKey × Json)} {notes : Str} : notesFromMembers l = some notes ↔ NotesMember l notes := by
  unfold notesFromMembers
  constructor
  · intro h
    cases ho : optional (c!"notes") l with
    | none => simp [ho] at h
    | some o =>
      cases o with
      | none =>
        simp only [ho, Option.bind_eq_bind, Option.bind_some, Option.some.injEq] at h
        subst h
        exact .absent (optional_none.mp ho)
      | some v =>
        simp only [ho, Option.bind_eq_bind, Option.bind_some] at h
        rw [asStr_iff] at h
        subst h
        exact .given (optional_some.mp ho)
  · rintro (h | h)
    · rw [optional_none.mpr h]; rfl
    · rw [optional_some.mpr h]; rfl

theorem notes_without {ks : List Str} (h : c!"notes" ∉ ks) (l : List (JKey × Json)) (notes : Str) :
    NotesMember (without ks l) notes ↔ NotesMember l notes := by
  constructor
  · rintro (h' | h')
    · exact .absent ((absent_without h l).mp h')
    · exact .given ((once_without h l).mp h')
  · rintro (h' | h')
    · exact .absent ((absent_without h l).mpr h')
    · exact .given ((once_without h l).mpr h')

theorem id_iff {l : List (JKey × Json)} {i : PasswordId} : idFromMembers l = some i ↔ IdMembers l i := by
  constructor
  · intro h
    unfold idFromMembers at h
    simp only [Option.bind_eq_bind, Option.bind_eq_some_iff, Option.some.injEq] at h
    obtain ⟨s, ⟨_, h1, h1'⟩, n, ⟨_, h2, h2'⟩, r, ⟨_, h3, h3'⟩, rfl⟩ := h
    rw [asStr_iff] at h1' h2' h3'
    subst h1' h2' h3'
    exact ⟨required_iff.mp h1, required_iff.mp h2, required_iff.mp h3⟩
  · rintro ⟨h1, h2, h3⟩
    unfold idFromMembers
    rw [requiredStr_iff.mpr h1, requiredStr_iff.mpr h2, requiredStr_iff.mpr h3]
    rfl

theorem id_without {ks : List Str} (h1 : c!"site" ∉ ks) (h2 : c!"name" ∉ ks) (h3 : c!"revision" ∉ ks)
    (l : List (JKey × Json)) (i : PasswordId) : IdMembers (without ks l) i ↔ IdMembers l i := by
  constructor
  · rintro ⟨a, b, c⟩
    exact ⟨(once_without h1 l).mp a, (once_without h2 l).mp b, (once_without h3 l).mp c⟩
  · rintro ⟨a, b, c⟩
    exact ⟨(once_without h1 l).mpr a, (once_without h2 l).mpr b, (once_without h3 l).mpr c⟩

/-! ## Character sets -/

/-- As `Flag`, starting from `a`. -/
def FlagFrom (a : Bool) (l : List (JKey × Json)) (k : Str) (b : Bool) : Prop :=
  (∀ m ∈ l, m.1.str = k → ∃ x, m.2 = .bool x) ∧ (b = true ↔ a = true ∨ ∃ m ∈ l, m.1.str = k ∧ m.2 = .bool true)

theorem flagFrom_false {l : List (JKey × Json)} {k : Str} {b : Bool} : FlagFrom false l k b ↔ Flag l k b := by
  simp [FlagFrom, Flag]

theorem flagFrom_nil {a b : Bool} {k : Str} : FlagFrom a [] k b ↔ b = a := by
  cases a <;> cases b <;> simp [FlagFrom]

theorem flagFrom_skip {a b : Bool} {k : Str} {m : JKey × Json} {l : List (JKey × Json)} (h : m.1.str ≠ k) :
    FlagFrom a (m :: l) k b ↔ FlagFrom a l k b := by
  simp [FlagFrom, h]

theorem flagFrom_take {a b x : Bool} {k : Str} {key : JKey} {l : List (JKey × Json)} (h : key.str = k) :
    FlagFrom a ((key, .bool x) :: l) k b ↔ FlagFrom (a || x) l k b := by
  cases x <;> simp [FlagFrom, h]

theorem flagFrom_bool {a b : Bool} {k : Str} {m : JKey × Json} {l : List (JKey × Json)} (h : m.1.str = k)
    (hf : FlagFrom a (m :: l) k b) : ∃ x, m.2 = .bool x := hf.1 m (by simp) h

theorem charset_iff {cs : CharacterSet} : ∀ {r : CharacterSet} {l : List (JKey × Json)},
    charsetFromMembers r l = some cs ↔ (∀ m ∈ l, m.1.borrowed = true) ∧ FlagFrom r.lower l (c!"lower") cs.lower ∧
      FlagFrom r.upper l (c!"upper") cs.upper ∧ FlagFrom r.digit l (c!"number") cs.digit ∧
      FlagFrom r.symbol l (c!"symbol") cs.symbol
  | r, [] => by
    simp only [charsetFromMembers, Option.some.injEq, flagFrom_nil]
    constructor
    · rintro rfl; simp
    · rintro ⟨_, h1, h2, h3, h4⟩
      cases r; cases cs; simp_all
  | r, (k, v) :: l => by
    rw [charsetFromMembers]
    by_cases hb : k.borrowed = false
    · rw [if_pos hb]
      simp only [reduceCtorEq, false_iff]
      rintro ⟨h, _⟩
      rw [h (k, v) (by simp)] at hb
      cases hb
    · rw [if_neg hb]
      rw [Bool.not_eq_false] at hb
      by_cases h1 : k.str = c!"lower"
      · rw [if_pos h1]
        rw [flagFrom_skip (k := c!"upper") (by rw [h1]; decide), flagFrom_skip (k := c!"number") (by rw [h1]; decide),
          flagFrom_skip (k := c!"symbol") (by rw [h1]; decide)]
        cases v with
        | bool x =>
          rw [flagFrom_take h1]
          have := charset_iff (cs := cs) (r := if x then r.insert .lower else r) (l := l)
          simp only [asBool, Option.bind_eq_bind, Option.bind_some, this, List.forall_mem_cons, hb, true_and]
          cases x <;> simp [CharacterSet.insert]
        | _ =>
          simp only [asBool, Option.bind_eq_bind, Option.bind_none, reduceCtorEq, false_iff]
          rintro ⟨_, hf, _⟩
          obtain ⟨x, hx⟩ := flagFrom_bool (m := (k, _)) h1 hf
          cases hx
      · rw [if_neg h1, flagFrom_skip (k := c!"lower") h1]
        by_cases h2 : k.str = c!"upper"
        · rw [if_pos h2]
          rw [flagFrom_skip (k := c!"number") (by rw [h2]; decide), flagFrom_skip (k := c!"symbol") (by rw [h2]; decide)]
          cases v with
          | bool x =>
            rw [flagFrom_take h2]
            have := charset_iff (cs := cs) (r := if x then r.insert .upper else r) (l := l)
            simp only [asBool, Option.bind_eq_bind, Option.bind_some, this, List.forall_mem_cons, hb, true_and]
            cases x <;> simp [CharacterSet.insert]
          | _ =>
            simp only [asBool, Option.bind_eq_bind, Option.bind_none, reduceCtorEq, false_iff]
            rintro ⟨_, _, hf, _⟩
            obtain ⟨x, hx⟩ := flagFrom_bool (m := (k, _)) h2 hf
            cases hx
        · rw [if_neg h2, flagFrom_skip (k := c!"upper") h2]
          by_cases h3 : k.str = c!"number"
          · rw [if_pos h3]
            rw [flagFrom_skip (k := c!"symbol") (by rw [h3]; decide)]
            cases v with
            | bool x =>
              rw [flagFrom_take h3]
              have := charset_iff (cs := cs) (r := if x then r.insert .digit else r) (l := l)
              simp only [asBool, Option.bind_eq_bind, Option.bind_some, this, List.forall_mem_cons, hb, true_and]
              cases x <;> simp [CharacterSet.insert]
            | _ =>
              simp only [asBool, Option.bind_eq_bind, Option.bind_none, reduceCtorEq, false_iff]
              rintro ⟨_, _, _, hf, _⟩
              obtain ⟨x, hx⟩ := flagFrom_bool (m := (k, _)) h3 hf
              cases hx
          · rw [if_neg h3, flagFrom_skip (k := c!"number") h3]
            by_cases h4 : k.str = c!"symbol"
            · rw [if_pos h4]
              cases v with
              | bool x =>
                rw [flagFrom_take h4]
                have := charset_iff (cs := cs) (r := if x then r.insert .symbol else r) (l := l)
                simp only [asBool, Option.bind_eq_bind, Option.bind_some, this, List.forall_mem_cons, hb, true_and]
                cases x <;> simp [CharacterSet.insert]
              | _ =>
                simp only [asBool, Option.bind_eq_bind, Option.bind_none, reduceCtorEq, false_iff]
                rintro ⟨_, _, _, _, hf⟩
                obtain ⟨x, hx⟩ := flagFrom_bool (m := (k, _)) h4 hf
                cases hx
            · rw [if_neg h4, flagFrom_skip (k := c!"symbol") h4, charset_iff]
              simp [hb]

/-! ## Records -/

theorem generated_iff {l : List (JKey × Json)} {p : GeneratedPassword} : generatedFromMembers l = some p ↔
    IdMembers l p.id ∧ Once l (c!"length") (.num (.uint p.length.toNat)) ∧ NotesMember l p.notes ∧
      Flag l (c!"lower") p.charset.lower ∧ Flag l (c!"upper") p.charset.upper ∧ Flag l (c!"number") p.charset.digit ∧
      Flag l (c!"symbol") p.charset.symbol ∧
      ∀ m ∈ l, m.1.str ∉ [c!"site", c!"name", c!"revision", c!"length", c!"notes"] → m.1.borrowed = true := by
  have hch : ∀ cs : CharacterSet, charsetFromMembers .empty (without [c!"site", c!"name", c!"revision"]
      (without [c!"length", c!"notes"] l)) = some cs ↔ _ := fun cs => charset_iff
  have hb : (∀ m ∈ without [c!"site", c!"name", c!"revision"] (without [c!"length", c!"notes"] l), m.1.borrowed = true) ↔
      ∀ m ∈ l, m.1.str ∉ [c!"site", c!"name", c!"revision", c!"length", c!"notes"] → m.1.borrowed = true := by
    constructor
    · intro h m hm hn
      refine h m (mem_without.mpr ⟨mem_without.mpr ⟨hm, ?_⟩, ?_⟩)
      · intro h'; exact hn (by simp only [List.mem_cons, List.not_mem_nil, or_false] at h' ⊢; tauto)
      · intro h'; exact hn (by simp only [List.mem_cons, List.not_mem_nil, or_false] at h' ⊢; tauto)
    · intro h m hm
      rw [mem_without, mem_without] at hm
      refine h m hm.1.1 ?_
      intro h'
      have h1 := hm.1.2
      have h2 := hm.2
      simp only [List.mem_cons, List.not_mem_nil, or_false] at h' h1 h2
      tauto
  constructor
  · intro h
    unfold generatedFromMembers at h
    simp only [Option.bind_eq_bind, Option.bind_eq_some_iff, Option.some.injEq] at h
    obtain ⟨n, ⟨_, h1, h1'⟩, notes, h2, i, h3, cs, h4, rfl⟩ := h
    rw [asUsize_iff] at h1'
    subst h1'
    rw [hch, hb] at h4
    obtain ⟨hbo, f1, f2, f3, f4⟩ := h4
    simp only [CharacterSet.empty, flagFrom_false] at f1 f2 f3 f4
    rw [flag_without (by decide), flag_without (by decide)] at f1 f2 f3 f4
    rw [id_iff, id_without (by decide) (by decide) (by decide)] at h3
    exact ⟨h3, required_iff.mp h1, notes_iff.mp h2, f1, f2, f3, f4, hbo⟩
  · rintro ⟨h3, h1, h2, f1, f2, f3, f4, hbo⟩
    unfold generatedFromMembers
    have e4 := (hch p.charset).mpr ⟨hb.mpr hbo, by
      simp only [CharacterSet.empty, flagFrom_false]
      rw [flag_without (by decide), flag_without (by decide), flag_without (by decide), flag_without (by decide),
        flag_without (by decide), flag_without (by decide), flag_without (by decide), flag_without (by decide)]
      exact ⟨f1, f2, f3, f4⟩⟩
    have e3 := id_iff.mpr ((id_without (ks := [c!"length", c!"notes"]) (by decide) (by decide) (by decide) l p.id).mpr h3)
    simp only [required_iff.mpr h1, Option.bind_eq_bind, Option.bind_some, asUsize_toNat, notes_iff.mpr h2, e3, e4]

theorem stored_iff {l : List (JKey × Json)} {p : StoredPassword} : storedFromMembers l = some p ↔
    IdMembers l p.id ∧ Once l (c!"password") (.str p.password) ∧ NotesMember l p.notes := by
  constructor
  · intro h
    unfold storedFromMembers at h
    simp only [Option.bind_eq_bind, Option.bind_eq_some_iff, Option.some.injEq] at h
    obtain ⟨n, ⟨_, h1, h1'⟩, notes, h2, i, h3, rfl⟩ := h
    rw [asStr_iff] at h1'
    subst h1'
    rw [id_iff, id_without (by decide) (by decide) (by decide)] at h3
    exact ⟨h3, required_iff.mp h1, notes_iff.mp h2⟩
  · rintro ⟨h3, h1, h2⟩
    unfold storedFromMembers
    have e3 := id_iff.mpr ((id_without (ks := [c!"password", c!"notes"]) (by decide) (by decide) (by decide) l p.id).mpr h3)
    simp only [required_iff.mpr h1, Option.bind_eq_bind, Option.bind_some, asStr, notes_iff.mpr h2, e3]

theorem password_iff {j : Json} {p : Password} : passwordFromJson j = some p ↔ PasswordRecord j p := by
  have hid : ∀ (l : List (JKey × Json)) (i : PasswordId), IdMembers (without [c!"type"] l) i ↔ IdMembers l i :=
    fun l i => id_without (by decide) (by decide) (by decide) l i
  constructor
  · intro h
    cases j with
    | obj l =>
      simp only [passwordFromJson, Option.bind_eq_bind, Option.bind_eq_some_iff] at h
      obtain ⟨tag, ⟨_, ht, ht'⟩, h⟩ := h
      rw [asStr_iff] at ht'
      subst ht'
      rw [required_iff] at ht
      split at h
      · rename_i htag
        subst htag
        rw [Option.map_eq_some_iff] at h
        obtain ⟨g, hg, rfl⟩ := h
        obtain ⟨h3, h1, h2, f1, f2, f3, f4, hbo⟩ := generated_iff.mp hg
        refine .generated ht ((hid l _).mp h3) ((once_without (by decide) l).mp h1) ((notes_without (by decide) l _).mp h2)
          ((flag_without (by decide) l).mp f1) ((flag_without (by decide) l).mp f2) ((flag_without (by decide) l).mp f3)
          ((flag_without (by decide) l).mp f4) ?_
        intro m hm hn
        rw [List.mem_cons, not_or] at hn
        exact hbo m (mem_without.mpr ⟨hm, by simpa using hn.1⟩) hn.2
      · split at h
        · rename_i _ htag
          subst htag
          rw [Option.map_eq_some_iff] at h
          obtain ⟨g, hg, rfl⟩ := h
          obtain ⟨h3, h1, h2⟩ := stored_iff.mp hg
          exact .stored ht ((hid l _).mp h3) ((once_without (by decide) l).mp h1) ((notes_without (by decide) l _).mp h2)
        · simp at h
    | _ => simp [passwordFromJson] at h
  · intro h
    cases h with
    | @generated l g ht hi hl hn f1 f2 f3 f4 hk =>
      have hg : generatedFromMembers (without [c!"type"] l) = some g := by
        refine generated_iff.mpr ⟨(hid l _).mpr hi, (once_without (by decide) l).mpr hl,
          (notes_without (by decide) l _).mpr hn, (flag_without (by decide) l).mpr f1, (flag_without (by decide) l).mpr f2,
          (flag_without (by decide) l).mpr f3, (flag_without (by decide) l).mpr f4, ?_⟩
        intro m hm hn
        rw [mem_without] at hm
        exact hk m hm.1 (by rw [List.mem_cons, not_or]; exact ⟨by simpa using hm.2, hn⟩)
      simp only [passwordFromJson, required_iff.mpr ht, Option.bind_eq_bind, Option.bind_some, asStr, if_true, hg,
        Option.map_some]
    | @stored l g ht hi hp hn =>
      have hg : storedFromMembers (without [c!"type"] l) = some g :=
        stored_iff.mpr ⟨(hid l _).mpr hi, (once_without (by decide) l).mpr hp, (notes_without (by decide) l _).mpr hn⟩
      simp only [passwordFromJson, required_iff.mpr ht, Option.bind_eq_bind, Option.bind_some, asStr, if_true, hg,
        Option.map_some]
      rw [if_neg (by decide)]

theorem without_eq_nil {ks : List Str} {l : List (JKey × Json)} : without ks l = [] ↔ ∀ m ∈ l, m.1.str ∈ ks := by
  simp [without, List.filter_eq_nil_iff]

theorem site_iff {j : Json} {x : Site} : siteFromJson j = some x ↔ SiteRecord j x := by
  constructor
  · intro h
    unfold siteFromJson at h
    split at h
    · rename_i l
      split at h
      · simp at h
      · rename_i hw
        rw [ne_eq, Decidable.not_not, without_eq_nil] at hw
        have ho : ∀ m ∈ l, m.1.str = c!"site" ∨ m.1.str = c!"alias" := by simpa using hw
        simp only [Option.bind_eq_bind, Option.bind_eq_some_iff] at h
        obtain ⟨name, ⟨_, h1, h1'⟩, o, h2, h⟩ := h
        rw [asStr_iff] at h1'
        subst h1'
        rw [required_iff] at h1
        cases o with
        | none =>
          simp only [Option.some.injEq] at h
          subst h
          exact .plain h1 (.inl (optional_none.mp h2)) ho
        | some v =>
          simp only [Option.bind_eq_some_iff, Option.some.injEq] at h
          obtain ⟨a, ha, rfl⟩ := h
          rw [optional_some] at h2
          cases v <;> simp only [asOptStr, Option.some.injEq, reduceCtorEq] at ha
          · subst ha; exact .plain h1 (.inr h2) ho
          · subst ha; exact .aliased h1 h2 ho
    · rename_i n a
      simp only [Option.bind_eq_bind, Option.bind_eq_some_iff, Option.some.injEq] at h
      obtain ⟨name, h1, al, h2, rfl⟩ := h
      rw [asStr_iff] at h1
      subst h1
      cases a <;> simp only [asOptStr, Option.some.injEq, reduceCtorEq] at h2
      · subst h2; exact .plainArray
      · subst h2; exact .aliasArray
    · simp at h
  · intro h
    cases h with
    | @plain l name h ha ho =>
      have hw : without [c!"site", c!"alias"] l = [] := without_eq_nil.mpr (by simpa using ho)
      simp only [siteFromJson, hw, ne_eq, not_true, if_false, required_iff.mpr h, Option.bind_eq_bind, Option.bind_some, asStr]
      rcases ha with ha | ha
      · rw [optional_none.mpr ha]; rfl
      · rw [optional_some.mpr ha]; rfl
    | @aliased l name target h ha ho =>
      have hw : without [c!"site", c!"alias"] l = [] := without_eq_nil.mpr (by simpa using ho)
      simp only [siteFromJson, hw, ne_eq, not_true, if_false, required_iff.mpr h, Option.bind_eq_bind, Option.bind_some, asStr]
      rw [optional_some.mpr ha]; rfl
    | plainArray => rfl
    | aliasArray => rfl

theorem fromSlice_iff {α : Type} {f : Json → Option α} {b : Bytes} {a : α} :
    fromSlice f b = some a ↔ ∃ text j, b = utf8 text ∧ JsonText j text ∧ f j = some a := by
  unfold fromSlice
  simp only [Option.bind_eq_bind, Option.bind_eq_some_iff]
  constructor
  · rintro ⟨s, hs, v, hv, ha⟩
    exact ⟨s, v, (utf8_of_fromUtf8 _ _ hs).symm, (Json.parse_iff _ _).mp hv, ha⟩
  · rintro ⟨s, v, rfl, hv, ha⟩
    exact ⟨s, fromUtf8_utf8 s, v, (Json.parse_iff _ _).mpr hv, ha⟩

end Pfp.Serde
