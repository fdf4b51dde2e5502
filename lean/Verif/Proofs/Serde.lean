import Verif.Model.StorageIO
import Verif.Proofs.JsonExtend

/-!
# Records and the storage file: serialization followed by deserialization
-/

namespace Pfp

namespace Serde
open Json

/-- Records are objects of texts, booleans and numbers. -/
def Scalar (v : Json) : Prop :=
  (∃ s, v = .str s) ∨ (∃ b, v = .bool b) ∨ (∃ n, v = .num (.uint n) ∧ n < 2 ^ 64)

theorem reads_scalar {v : Json} (h : Scalar v) (depth : Nat) : Reads depth (print v) v := by
  rcases h with ⟨s, rfl⟩ | ⟨b, rfl⟩ | ⟨n, rfl, hn⟩
  · rw [print]; exact reads_str depth s
  · exact reads_bool depth b
  · exact reads_uint depth n hn

/-- Reading a printed object of scalars back. -/
theorem fromSlice_toVec_obj {α : Type} (f : Json → Option α) (l : List (JKey × Json)) (h : ∀ m ∈ l, Scalar m.2) :
    fromSlice f (toVec (.obj l)) = f (.obj (l.map fun m => (readKey m.1.str, m.2))) := by
  unfold fromSlice toVec
  rw [fromUtf8_utf8]
  simp only [bind, Option.bind]
  rw [parse_of_reads (reads_print_obj 126 l fun m hm => reads_scalar (h m hm) 127)]

theorem fromSlice_toVec_str {α : Type} (f : Json → Option α) (s : Str) :
    fromSlice f (toVec (.str s)) = f (.str s) := by
  unfold fromSlice toVec
  rw [fromUtf8_utf8]
  simp only [bind, Option.bind]
  rw [parse_of_reads (v := .str s)]
  rw [print]
  exact reads_str 128 s

theorem scalar_str (s : Str) : Scalar (.str s) := .inl ⟨s, rfl⟩
theorem scalar_bool (b : Bool) : Scalar (.bool b) := .inr (.inl ⟨b, rfl⟩)

theorem site_roundtrip (s : Site) : fromSlice siteFromJson (toVec (siteToJson s)) = some s := by
  obtain ⟨name, alias⟩ := s
  cases alias with
  | none =>
    rw [siteToJson, fromSlice_toVec_obj _ _ (by simp [member, scalar_str])]
    rfl
  | some a =>
    rw [siteToJson, fromSlice_toVec_obj _ _ (by simp [member, scalar_str])]
    rfl

theorem asUsize_toNat (n : UInt64) : asUsize (.num (.uint n.toNat)) = some n := by
  simp only [asUsize]
  rw [if_pos n.toNat_lt, UInt64.ofNat_toNat]

theorem generated_read (site name revision notes : Str) (a b c d : Bool) (l : Json) :
    passwordFromJson (.obj (List.map (fun m => (readKey m.1.str, m.2)) (member (c!"type") (.str (c!"generated2")) ::
      (idMembers ⟨site, name, revision⟩ ++ member (c!"length") l ::
        (charsetMembers ⟨a, b, c, d⟩ ++ notesMembers notes))))) =
    ((asUsize l).bind fun length => some ({ id := ⟨site, name, revision⟩, length, charset := ⟨a, b, c, d⟩, notes } :
      GeneratedPassword)).map Password.generated := by
  by_cases hn : notes = []
  · subst hn; cases a <;> cases b <;> cases c <;> cases d <;> rfl
  · simp only [notesMembers, if_neg hn]
    cases a <;> cases b <;> cases c <;> cases d <;> rfl

theorem passwordToJson_scalar (p : Password) (l : List (JKey × Json)) (h : passwordToJson p = .obj l) :
    ∀ m ∈ l, Scalar m.2 := by
  cases p with
  | generated p =>
    obtain ⟨⟨site, name, revision⟩, length, ⟨a, b, c, d⟩, notes⟩ := p
    have hs : Scalar (.num (.uint length.toNat)) := .inr (.inr ⟨_, rfl, length.toNat_lt⟩)
    simp only [passwordToJson, Json.obj.injEq] at h
    subst h
    intro m hm
    simp only [notesMembers, idMembers, charsetMembers, member] at hm
    split at hm <;> simp at hm <;> (rcases hm with h | h | h | h | h | h | h | h | h) <;>
      (try rcases h with h | h) <;> (try subst h) <;> simp [scalar_str, scalar_bool, hs]
  | stored p =>
    obtain ⟨⟨site, name, revision⟩, password, notes⟩ := p
    simp only [passwordToJson, Json.obj.injEq] at h
    subst h
    intro m hm
    simp only [notesMembers, idMembers, member] at hm
    split at hm <;> simp at hm <;> (rcases hm with h | h | h | h | h) <;>
      (try rcases h with h | h) <;> (try subst h) <;> simp [scalar_str]

theorem password_roundtrip (p : Password) : fromSlice passwordFromJson (toVec (passwordToJson p)) = some p := by
  have hs := passwordToJson_scalar p
  cases p with
  | generated p =>
    obtain ⟨⟨site, name, revision⟩, length, ⟨a, b, c, d⟩, notes⟩ := p
    rw [passwordToJson] at hs ⊢
    rw [fromSlice_toVec_obj _ _ (hs _ rfl), generated_read, asUsize_toNat]; rfl
  | stored p =>
    obtain ⟨⟨site, name, revision⟩, password, notes⟩ := p
    rw [passwordToJson] at hs ⊢
    rw [fromSlice_toVec_obj _ _ (hs _ rfl)]
    by_cases hn : notes = []
    · subst hn; rfl
    · simp only [notesMembers, if_neg hn]; rfl

end Serde

/-! ## Maps -/

namespace Data

theorem lookup_eq_none {d : Data} {k : Str} : d.get? k = none ↔ ∀ e ∈ d, e.1 ≠ k := by
  unfold get?
  induction d with
  | nil => simp
  | cons e d ih =>
    obtain ⟨k', v⟩ := e
    rw [List.lookup_cons]
    by_cases h : k = k'
    · subst h; simp
    · have : (k == k') = false := by simpa using h
      rw [this]
      simp only [ih, List.mem_cons, forall_eq_or_imp]
      exact ⟨fun h' => ⟨fun h'' => h h''.symm, h'⟩, fun h' => h'.2⟩

theorem mem_of_get? {d : Data} {k v : Str} (h : d.get? k = some v) : (k, v) ∈ d := by
  unfold get? at h
  induction d with
  | nil => simp at h
  | cons e d ih =>
    obtain ⟨k', v'⟩ := e
    rw [List.lookup_cons] at h
    by_cases hk : k = k'
    · subst hk; simp at h; subst h; simp
    · have : (k == k') = false := by simpa using hk
      rw [this] at h
      exact List.mem_cons_of_mem _ (ih h)

theorem get?_of_mem {d : Data} {k v : Str} (hd : (d.map (·.1)).Nodup) (h : (k, v) ∈ d) : d.get? k = some v := by
  unfold get?
  induction d with
  | nil => simp at h
  | cons e d ih =>
    obtain ⟨k', v'⟩ := e
    rw [List.lookup_cons]
    simp only [List.map_cons, List.nodup_cons, List.mem_map, not_exists, not_and] at hd
    rcases List.mem_cons.mp h with h | h
    · simp only [Prod.mk.injEq] at h; simp [h.1, h.2]
    · have hk : k ≠ k' := fun hk => hd.1 (k, v) h hk
      have : (k == k') = false := by simpa using hk
      rw [this]
      exact ih hd.2 h

theorem get?_iff {d : Data} {k v : Str} (hd : (d.map (·.1)).Nodup) : d.get? k = some v ↔ (k, v) ∈ d :=
  ⟨mem_of_get?, get?_of_mem hd⟩

/-- Two maps with the same entries look the same. -/
theorem get?_perm {d d' : Data} (h : d.Perm d') (hd : (d.map (·.1)).Nodup) (k : Str) : d.get? k = d'.get? k := by
  have hd' : (d'.map (·.1)).Nodup := (h.map _).nodup_iff.mp hd
  cases hk : d'.get? k with
  | none =>
    rw [lookup_eq_none] at hk ⊢
    exact fun e he => hk e (h.mem_iff.mp he)
  | some v =>
    rw [get?_iff hd'] at hk
    rw [get?_iff hd]
    exact h.mem_iff.mpr hk

theorem erase_of_not_mem {d : Data} {k : Str} (h : ∀ e ∈ d, e.1 ≠ k) : d.erase k = d := by
  unfold erase
  exact List.filter_eq_self.mpr fun e he => by simpa using h e he

theorem erase_nodup {d : Data} (k : Str) (hd : (d.map (·.1)).Nodup) : ((d.erase k).map (·.1)).Nodup :=
  hd.sublist (List.filter_sublist.map _)

theorem insert_nodup {d : Data} (k v : Str) (hd : (d.map (·.1)).Nodup) : ((d.insert k v).map (·.1)).Nodup := by
  unfold insert
  simp only [List.map_cons, List.nodup_cons]
  refine ⟨?_, erase_nodup k hd⟩
  simp [erase]

theorem get?_erase (d : Data) (k k' : Str) : (d.erase k).get? k' = if k' = k then none else d.get? k' := by
  unfold get? erase
  induction d with
  | nil => simp
  | cons e d ih =>
    obtain ⟨a, b⟩ := e
    by_cases ha : a = k
    · subst ha
      simp only [List.filter_cons, ne_eq, not_true_eq_false, decide_false, List.lookup_cons]
      by_cases hk : k' = a
      · subst hk; rw [if_pos rfl] at ih ⊢; simpa using ih
      · rw [if_neg hk] at ih ⊢
        have : (k' == a) = false := by simpa using hk
        rw [this]; simpa using ih
    · simp only [List.filter_cons, ne_eq, ha, not_false_eq_true, decide_true, if_true, List.lookup_cons]
      by_cases hk : k' = a
      · subst hk; simp [ha]
      · have : (k' == a) = false := by simpa using hk
        rw [this]; exact ih

theorem get?_insert (d : Data) (k v k' : Str) : (d.insert k v).get? k' = if k' = k then some v else d.get? k' := by
  unfold insert
  rw [get?, List.lookup_cons]
  by_cases h : k' = k
  · subst h; simp
  · have : (k' == k) = false := by simpa using h
    rw [this, if_neg h]
    exact (get?_erase d k k').trans (by rw [if_neg h])

end Data

/-! ## The storage file -/

namespace FileIO
open Json

/-- The printed file reads as an object. -/
theorem reads_file (entries : Data) : Reads 128 (print (toJson entries))
    (.obj [(readKey (c!"application"), .str (c!"pfp")), (readKey (c!"format"), .num (.uint 3)),
      (readKey (c!"data"), .obj (entries.map fun e => (readKey e.1, .str e.2)))]) := by
  have hdata := reads_print_obj 125 (entries.map fun e => Serde.member e.1 (.str e.2)) (by
    intro m hm
    obtain ⟨e, _, rfl⟩ := List.mem_map.mp hm
    rw [Serde.member, print]
    exact reads_str 126 e.2)
  rw [List.map_map] at hdata
  have := reads_obj 126 [(c!"application", print (.str (c!"pfp")), .str (c!"pfp")),
    (c!"format", print (.num (.uint 3)), .num (.uint 3)),
    (c!"data", print (.obj (entries.map fun e => Serde.member e.1 (.str e.2))),
      .obj (entries.map ((fun m => (readKey m.1.str, m.2)) ∘ fun e => Serde.member e.1 (.str e.2))))] (by
    intro m hm
    simp only [List.mem_cons, List.not_mem_nil, or_false] at hm
    rcases hm with rfl | rfl | rfl
    · exact Serde.reads_scalar (Serde.scalar_str _) _
    · exact reads_uint _ 3 (by omega)
    · exact hdata)
  rw [toJson, print]
  exact this

theorem dataFromMembers_eq : ∀ (entries acc : Data), ((entries.reverse ++ acc).map (·.1)).Nodup →
    dataFromMembers acc (entries.map fun e => (readKey e.1, .str e.2)) = some (entries.reverse ++ acc)
  | [], acc, _ => rfl
  | e :: entries, acc, h => by
    rw [List.reverse_cons, List.append_assoc, List.singleton_append] at h ⊢
    rw [List.map_cons, dataFromMembers]
    have hacc : ∀ e' ∈ acc, e'.1 ≠ e.1 := by
      rw [List.map_append, List.nodup_append] at h
      have := h.2.1
      simp only [List.map_cons, List.nodup_cons, List.mem_map, not_exists, not_and] at this
      exact fun e' he' => this.1 e' he'
    have hi : Data.insert acc e.1 e.2 = e :: acc := by
      unfold Data.insert
      rw [Data.erase_of_not_mem hacc]
    simp only [Serde.asStr, bind, Option.bind, readKey]
    rw [hi]
    exact dataFromMembers_eq entries (e :: acc) h

/-- Loading the contents written for entries with distinct keys. -/
theorem load_contents (entries : Data) (h : (entries.map (·.1)).Nodup) :
    load (some (contents entries)) = .ok entries.reverse := by
  have hd := dataFromMembers_eq entries [] (by
    rw [List.append_nil]
    exact ((List.reverse_perm entries).map _).nodup_iff.mpr h)
  rw [List.append_nil] at hd
  unfold load contents
  simp only [fromUtf8_utf8]
  rw [parse_of_reads (reads_file entries)]
  have : fromJson (.obj [(readKey (c!"application"), .str (c!"pfp")), (readKey (c!"format"), .num (.uint 3)),
      (readKey (c!"data"), .obj (entries.map fun e => (readKey e.1, .str e.2)))]) =
      dataFromMembers [] (entries.map fun e => (readKey e.1, .str e.2)) := rfl
  simp only [bind, Option.bind]
  rw [this, hd]
  rfl

/-- A proper prefix of the contents does not load. -/
theorem load_prefix (entries : Data) (n : Nat) (h : n < (contents entries).length) :
    load (some ((contents entries).take n)) = .err .fileReadFailure ∨
    load (some ((contents entries).take n)) = .err .invalidJson := by
  unfold load
  simp only
  cases hu : fromUtf8 ((contents entries).take n) with
  | none => left; rfl
  | some p =>
    right
    have hp := utf8_of_fromUtf8 _ _ hu
    have hpre : utf8 p <+: contents entries := by rw [hp]; exact List.take_prefix n _
    obtain ⟨t, ht⟩ := prefix_of_utf8_prefix hpre
    have hne : t ≠ [] := by
      intro h0
      subst h0
      rw [List.append_nil] at ht
      have := congrArg List.length hp
      rw [ht] at this
      unfold contents at h this
      rw [List.length_take] at this
      omega
    have hr := reads_file entries
    rw [← ht] at hr
    have := parse_prefix hne ⟨printMembers _ ++ ['}'], by rw [ht, toJson, print]⟩ hr
    simp only [this, bind, Option.bind]
    rfl

end FileIO
end Pfp
