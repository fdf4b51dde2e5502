import Verif.Model.Calls
import Verif.Proofs.JsonText
import Verif.Props.Simultaneous

/-!
# Several processes reading and writing the storage file in portions: C97
-/

namespace Pfp.Props
open Spec Calls

/-! ## Where the bytes come from -/

/-- What has been written is among `allowed`, at each position. -/
structure Comes (allowed : Nat → UInt8 → Prop) (d : Drive) : Prop where
  file : ∀ f, d.file = some f → ∀ k b, f[k]? = some b → allowed k b
  writing : ∀ i w n, d.handle i = some (.writing w n) → ∀ k b, w[k]? = some b → allowed k b
  reading : ∀ i g, d.handle i = some (.reading g) → ∀ k b, g[k]? = some b → allowed k b

theorem patch_length (f : Bytes) (n : Nat) (w : Bytes) : (patch f n w).length = max f.length (n + w.length) := by
  unfold patch
  simp only [List.length_append, List.length_take, List.length_replicate, List.length_drop]
  omega

theorem patch_get (f : Bytes) (n : Nat) (w : Bytes) (k : Nat) (b : UInt8) (h : (patch f n w)[k]? = some b) :
    f[k]? = some b ∨ b = 0 ∨ n ≤ k ∧ w[k - n]? = some b := by
  unfold patch at h
  rw [List.append_assoc, List.append_assoc, List.getElem?_append] at h
  split at h
  · left
    rw [List.getElem?_take] at h
    split at h
    · exact h
    · cases h
  · rename_i h1
    rw [List.length_take] at h1 h
    rw [List.getElem?_append] at h
    split at h
    · right; left
      rename_i h2
      rw [List.getElem?_replicate] at h
      split at h
      · exact (Option.some.inj h).symm
      · cases h
    · rename_i h2
      rw [List.length_replicate] at h2 h
      rw [List.getElem?_append] at h
      split at h
      · right; right
        refine ⟨by omega, ?_⟩
        rwa [show k - n = k - min n f.length - (n - f.length) by omega]
      · left
        rename_i h3
        rw [List.getElem?_drop] at h
        rwa [show k = n + w.length + (k - min n f.length - (n - f.length) - w.length) by omega]

theorem portion_get (w : Bytes) (n m k : Nat) (b : UInt8) (hk : n ≤ k) (h : ((w.drop n).take m)[k - n]? = some b) : w[k]? = some b := by
  rw [List.getElem?_take] at h
  split at h
  · rwa [List.getElem?_drop, show n + (k - n) = k by omega] at h
  · cases h

theorem put_handle (d : Drive) (i j : Nat) (h : Option Handle) : (d.put i h).handle j = if j = i then h else d.handle j := rfl
theorem put_file (d : Drive) (i : Nat) (h : Option Handle) : (d.put i h).file = d.file := rfl

theorem Comes.put {allowed : Nat → UInt8 → Prop} {d : Drive} (hd : Comes allowed d) (i : Nat) (h : Option Handle)
    (hw : ∀ w n, h = some (.writing w n) → ∀ k b, w[k]? = some b → allowed k b)
    (hr : ∀ g, h = some (.reading g) → ∀ k b, g[k]? = some b → allowed k b) : Comes allowed (d.put i h) := by
  refine ⟨hd.file, fun j w n hj => ?_, fun j g hj => ?_⟩
  · rw [put_handle] at hj
    split at hj
    · exact hw w n hj
    · exact hd.writing j w n hj
  · rw [put_handle] at hj
    split at hj
    · exact hr g hj
    · exact hd.reading j g hj

theorem Comes.effect {allowed : Nat → UInt8 → Prop} (h0 : ∀ k, allowed k 0) {d : Drive} (hd : Comes allowed d) (c : Call)
    (hc : ∀ i w, c = .create i w → ∀ k b, w[k]? = some b → allowed k b) : Comes allowed (effect d c) := by
  cases c with
  | create i w =>
    refine Comes.put (d := { d with file := some [] }) ⟨fun f hf k b hb => ?_, hd.writing, hd.reading⟩ i _ ?_ ?_
    · cases hf
      simp at hb
    · rintro w n ⟨⟩ k b hb
      exact hc i w rfl k b hb
    · rintro g ⟨⟩
  | write i n =>
    show Comes allowed (d.write i n)
    unfold Drive.write
    split
    · rename_i w o f hh hf
      split
      · exact hd
      · refine Comes.put (d := { d with file := some (patch f o ((w.drop o).take n)) }) ⟨fun g hg k b hb => ?_, hd.writing, hd.reading⟩ i _ ?_ ?_
        · cases hg
          rcases patch_get _ _ _ _ _ hb with h | rfl | ⟨h1, h2⟩
          · exact hd.file f hf k b h
          · exact h0 k
          · exact hd.writing i w o hh k b (portion_get w o n k b h1 h2)
        · rintro w' n' h k b hb
          cases h
          exact hd.writing i w o hh k b hb
        · rintro g ⟨⟩
    · exact hd
  | access i =>
    show Comes allowed (if d.file.isSome then d.put i (some (.reading [])) else d)
    split
    · refine hd.put i _ ?_ ?_
      · rintro w n ⟨⟩
      · rintro g ⟨⟩ k b hb
        simp at hb
    · exact hd
  | read i n =>
    show Comes allowed (d.read i n)
    unfold Drive.read
    split
    · rename_i g f hh hf
      refine hd.put i _ ?_ ?_
      · rintro w n ⟨⟩
      · intro g' hg k b hb
        cases hg
        rw [List.getElem?_append] at hb
        split at hb
        · exact hd.reading i g hh k b hb
        · exact hd.file f hf k b (portion_get f g.length n k b (by omega) hb)
    · exact hd
  | close i => exact hd.put i none (by rintro w n ⟨⟩) (by rintro g ⟨⟩)

theorem Comes.effects {allowed : Nat → UInt8 → Prop} (h0 : ∀ k, allowed k 0) (calls : List Call) {d : Drive} (hd : Comes allowed d)
    (hc : ∀ i w, Call.create i w ∈ calls → ∀ k b, w[k]? = some b → allowed k b) : Comes allowed (effects d calls) := by
  induction calls generalizing d with
  | nil => exact hd
  | cons c calls ih =>
    exact ih (hd.effect h0 c fun i w h => hc i w (by rw [h]; exact List.mem_cons_self)) fun i w h => hc i w (List.mem_cons_of_mem _ h)

/-- Where the byte at a position can come from: from the file as it was, from what some process writes, at the same position, or
from nothing having been written there. -/
def From (before : Option Bytes) (calls : List Call) (k : Nat) (b : UInt8) : Prop :=
  (∃ f, before = some f ∧ f[k]? = some b) ∨ (∃ i w, Call.create i w ∈ calls ∧ w[k]? = some b) ∨ b = 0

/-- **C97 (bytes).** However the calls of the processes follow one another: each byte of the file, and each byte that a process
reads, is the one that was there before or that a process means to write, at the same position, or it is zero. -/
theorem C97_bytes (before : Option Bytes) (calls : List Call) :
    let d := effects ⟨before, fun _ => none⟩ calls
    (∀ f, d.file = some f → ∀ k b, f[k]? = some b → From before calls k b) ∧
    (∀ i bytes, d.Loaded i bytes → ∀ k b, bytes[k]? = some b → From before calls k b) := by
  have h : Comes (From before calls) (effects ⟨before, fun _ => none⟩ calls) := by
    refine Comes.effects (fun k => .inr (.inr rfl)) calls ⟨fun f hf k b hb => .inl ⟨f, hf, hb⟩, ?_, ?_⟩
      fun i w hw k b hb => .inr (.inl ⟨i, w, hw, hb⟩)
    · rintro i w n ⟨⟩
    · rintro i g ⟨⟩
  exact ⟨h.file, fun i bytes hl => h.reading i bytes hl.1⟩

/-! ## One at a time -/

/-- The call changes the file. -/
def Call.Changes : Call → Bool
  | .create _ _ => true
  | .write _ _ => true
  | _ => false

/-- The number of the process. -/
def Call.process : Call → Nat
  | .create i _ => i
  | .write i _ => i
  | .access i => i
  | .read i _ => i
  | .close i => i

theorem step_other (d : Drive) (c : Call) (i : Nat) (h : Call.process c ≠ i) : (effect d c).handle i = d.handle i := by
  have hne : ∀ {j : Nat}, j ≠ i → i ≠ j := fun h e => h e.symm
  cases c with
  | create j w => exact if_neg (hne h)
  | write j n =>
    show (d.write j n).handle i = _
    unfold Drive.write
    split
    · split
      · rfl
      · exact if_neg (hne h)
    · rfl
  | access j =>
    show (if d.file.isSome then d.put j (some (.reading [])) else d).handle i = _
    split
    · exact if_neg (hne h)
    · rfl
  | read j n =>
    show (d.read j n).handle i = _
    unfold Drive.read
    split
    · exact if_neg (hne h)
    · rfl
  | close j => exact if_neg (hne h)

theorem step_file (d : Drive) (c : Call) (h : Call.Changes c = false) : (effect d c).file = d.file := by
  cases c with
  | create j w => cases h
  | write j n => cases h
  | access j =>
    show (if d.file.isSome then d.put j (some (.reading [])) else d).file = _
    split <;> rfl
  | read j n =>
    show (d.read j n).file = _
    unfold Drive.read
    split <;> rfl
  | close j => rfl

theorem patch_end (w : Bytes) (n m : Nat) (hn : n ≤ w.length) :
    patch (w.take n) n ((w.drop n).take m) = w.take (n + ((w.drop n).take m).length) := by
  unfold patch
  rw [List.take_take, Nat.min_self, List.length_take, Nat.min_eq_left hn, Nat.sub_self, List.replicate_zero, List.append_nil,
    List.drop_of_length_le (l := w.take n) (by rw [List.length_take]; omega), List.append_nil, List.take_add]
  congr 1
  rw [List.take_eq_take_iff, List.length_take, List.length_drop]
  omega

/-- Process `i` is writing `w`, and the file is what it has written. -/
def Alone (i : Nat) (w : Bytes) (d : Drive) : Prop :=
  ∃ n ≤ w.length, d.handle i = some (.writing w n) ∧ d.file = some (w.take n)

theorem alone_step {i : Nat} {w : Bytes} {d : Drive} (h : Alone i w d) (c : Call)
    (hc : Call.Changes c = false ∧ Call.process c ≠ i ∨ ∃ n, c = .write i n) : Alone i w (effect d c) := by
  obtain ⟨n, hn, hh, hf⟩ := h
  rcases hc with ⟨h1, h2⟩ | ⟨m, rfl⟩
  · exact ⟨n, hn, (step_other d c i h2).trans hh, (step_file d c h1).trans hf⟩
  · show Alone i w (d.write i m)
    unfold Drive.write
    rw [hh, hf]
    dsimp only
    split
    · exact ⟨n, hn, hh, hf⟩
    · refine ⟨n + ((w.drop n).take m).length, by rw [List.length_take, List.length_drop]; omega, if_pos rfl, ?_⟩
      rw [put_file]
      exact congrArg some (patch_end w n m hn)

/-- **C97 (alone).** If no other process changes the file between creating and closing it, then the file is what has been written
so far at all times, and the contents in the end; in how many portions they are written does not matter. -/
theorem C97_alone (d : Drive) (i : Nat) (w : Bytes) (calls : List Call)
    (hc : ∀ c ∈ calls, Call.Changes c = false ∧ Call.process c ≠ i ∨ ∃ n, c = .write i n) :
    let e := effects d (.create i w :: calls)
    (∃ n, e.file = some (w.take n)) ∧ (∀ contents, e.Written i contents → contents = w ∧ e.file = some w) := by
  have h : Alone i w (effects d (.create i w :: calls)) := by
    have h0 : Alone i w (effect d (.create i w)) := ⟨0, Nat.zero_le _, if_pos rfl, rfl⟩
    show Alone i w (effects (effect d (.create i w)) calls)
    generalize effect d (.create i w) = e at h0
    induction calls generalizing e with
    | nil => exact h0
    | cons c calls ih =>
      exact ih (fun c h => hc c (List.mem_cons_of_mem _ h)) (effect e c) (alone_step h0 c (hc c List.mem_cons_self))
  obtain ⟨n, hn, hh, hf⟩ := h
  refine ⟨⟨n, hf⟩, fun contents hw => ?_⟩
  rw [Drive.Written, hh] at hw
  cases hw
  rw [List.take_length] at hf
  exact ⟨rfl, hf⟩

/-- **C97 (reading alone).** If no process changes the file between opening and reaching the end of it, then what is read is the
file, whatever the portions are. -/
theorem C97_read_alone (d : Drive) (i : Nat) (f : Bytes) (hf : d.file = some f) (calls : List Call)
    (hc : ∀ c ∈ calls, Call.Changes c = false ∧ (Call.process c ≠ i ∨ ∃ n, c = .read i n)) (bytes : Bytes)
    (hl : (effects d (.access i :: calls)).Loaded i bytes) : bytes = f := by
  have h : ∀ (calls : List Call) (e : Drive), (∀ c ∈ calls, Call.Changes c = false ∧ (Call.process c ≠ i ∨ ∃ n, c = .read i n)) →
      e.file = some f → (∃ n, e.handle i = some (.reading (f.take n))) →
      (effects e calls).file = some f ∧ ∃ n, (effects e calls).handle i = some (.reading (f.take n)) := by
    intro calls
    induction calls with
    | nil => exact fun e _ hf hr => ⟨hf, hr⟩
    | cons c calls ih =>
      intro e hc hf hr
      obtain ⟨h1, h2⟩ := hc c List.mem_cons_self
      refine ih (effect e c) (fun c h => hc c (List.mem_cons_of_mem _ h)) ((step_file e c h1).trans hf) ?_
      obtain ⟨n, hr⟩ := hr
      rcases h2 with h2 | ⟨m, rfl⟩
      · exact ⟨n, (step_other e c i h2).trans hr⟩
      · show ∃ n, (e.read i m).handle i = _
        unfold Drive.read
        rw [hr, hf]
        dsimp only
        refine ⟨min n f.length + m, ?_⟩
        rw [put_handle, if_pos rfl, List.length_take, List.take_add]
        rcases Nat.le_total n f.length with hn | hn
        · rw [Nat.min_eq_left hn]
        · rw [Nat.min_eq_right hn, List.take_of_length_le hn, List.take_length]
  obtain ⟨h1, n, h2⟩ := h calls (effect d (.access i)) hc
    (by rw [step_file d (.access i) rfl]; exact hf)
    ⟨0, by
      show (if d.file.isSome then d.put i (some (.reading [])) else d).handle i = _
      rw [hf, Option.isSome_some, if_pos rfl, put_handle, if_pos rfl, List.take_zero]⟩
  obtain ⟨hl1, file, hl2, hl3⟩ := hl
  have h3 := h2.symm.trans hl1
  cases h3
  have h4 := h1.symm.trans hl2
  cases h4
  rw [List.length_take] at hl3
  exact List.take_of_length_le (by omega)

/-- **C97 (in one go).** A write that takes everything is the write of C83 (`overwrite`). -/
theorem C97_whole (d : Drive) (i n : Nat) (w f : Bytes) (hw : w ≠ []) (hn : w.length ≤ n) (hh : d.handle i = some (.writing w 0))
    (hf : d.file = some f) : (effect d (.write i n)).file = some (overwrite w (some f)) ∧ (effect d (.write i n)).Written i w := by
  show (d.write i n).file = _ ∧ (d.write i n).Written i w
  unfold Drive.write
  rw [hh, hf]
  dsimp only
  rw [List.drop_zero, List.take_of_length_le hn, if_neg hw, Nat.zero_add]
  refine ⟨?_, if_pos rfl⟩
  rw [put_file]
  simp [patch, overwrite]

/-! ## Everybody writing the same -/

theorem patch_old (f : Bytes) (n : Nat) (w : Bytes) (k : Nat) (hk : k < f.length) (h : k < n ∨ n + w.length ≤ k) :
    (patch f n w)[k]? = f[k]? := by
  unfold patch
  rw [List.append_assoc, List.append_assoc, List.getElem?_append, List.length_take]
  split
  · rw [List.getElem?_take, if_pos (by omega)]
  · rw [List.getElem?_append, List.length_replicate, if_neg (by omega), List.getElem?_append, if_neg (by omega), List.getElem?_drop]
    congr 1
    omega

theorem patch_new (f : Bytes) (n : Nat) (w : Bytes) (k : Nat) (h1 : n ≤ k) (h2 : k < n + w.length) :
    (patch f n w)[k]? = w[k - n]? := by
  unfold patch
  rw [List.append_assoc, List.append_assoc, List.getElem?_append, List.length_take, if_neg (by omega),
    List.getElem?_append, List.length_replicate, if_neg (by omega), List.getElem?_append, if_pos (by omega)]
  congr 1
  omega

/-- All processes are writing `w`, and `i` has written as much of it as the file has in any case. -/
structure AllSame (i : Nat) (w : Bytes) (d : Drive) : Prop where
  same : ∀ j v n, d.handle j = some (.writing v n) → v = w ∧ n ≤ w.length
  mine : ∃ n f, d.handle i = some (.writing w n) ∧ d.file = some f ∧ f.length ≤ w.length ∧ n ≤ f.length ∧
    ∀ k < n, f[k]? = w[k]?

theorem portion_length (w : Bytes) (o n : Nat) (h : o ≤ w.length) : o + ((w.drop o).take n).length ≤ w.length := by
  rw [List.length_take, List.length_drop]; omega

theorem portion_at (w : Bytes) (o n k : Nat) (h1 : o ≤ k) (h2 : k < o + ((w.drop o).take n).length) :
    ((w.drop o).take n)[k - o]? = w[k]? := by
  rw [List.length_take] at h2
  rw [List.getElem?_take, if_pos (by omega), List.getElem?_drop, show o + (k - o) = k by omega]

theorem AllSame.write {i : Nat} {w : Bytes} {d : Drive} (h : AllSame i w d) (j m : Nat) : AllSame i w (d.write j m) := by
  unfold Drive.write
  split
  · rename_i v o f hh hf
    split
    · exact h
    · obtain ⟨rfl, ho⟩ := h.same j _ _ hh
      obtain ⟨n, f', h1, h2, h3, h4, h5⟩ := h.mine
      rw [hf] at h2
      cases h2
      have hp := portion_length v o m ho
      refine ⟨fun j' v' n' hj => ?_, ?_⟩
      · rw [put_handle] at hj
        split at hj
        · cases hj
          exact ⟨rfl, hp⟩
        · exact h.same j' v' n' hj
      · have hget : ∀ k, k < n ∨ j = i ∧ k < o + ((v.drop o).take m).length → (n = o ∨ j ≠ i) →
            (patch f o ((v.drop o).take m))[k]? = v[k]? := by
          intro k hk hno
          by_cases hko : o ≤ k ∧ k < o + ((v.drop o).take m).length
          · rw [patch_new _ _ _ _ hko.1 hko.2, portion_at v o m k hko.1 hko.2]
          · have : k < n := by
              rcases hk with hk | ⟨rfl, hk⟩
              · exact hk
              · rcases hno with rfl | hno
                · omega
                · exact absurd rfl hno
            rw [patch_old _ _ _ _ (by omega) (by omega)]
            exact h5 k this
        by_cases hji : j = i
        · subst hji
          rw [hh] at h1
          cases h1
          exact ⟨_, _, if_pos rfl, rfl, by rw [patch_length]; omega, by rw [patch_length]; omega,
            fun k hk => hget k (.inr ⟨rfl, hk⟩) (.inl rfl)⟩
        · exact ⟨n, _, (if_neg (fun e => hji e.symm)).trans h1, rfl, by rw [patch_length]; omega, by rw [patch_length]; omega,
            fun k hk => hget k (.inl hk) (.inr hji)⟩
  · exact h

theorem AllSame.effect {i : Nat} {w : Bytes} {d : Drive} (h : AllSame i w d) (c : Call)
    (hc : (∀ j v, c ≠ .create j v) ∧ (Call.process c = i → ∃ n, c = .write i n)) : AllSame i w (Calls.effect d c) := by
  by_cases hw : ∃ j n, c = .write j n
  · obtain ⟨j, n, rfl⟩ := hw
    exact h.write j n
  · have hch : Call.Changes c = false := by
      cases c with
      | create j v => exact absurd rfl (hc.1 j v)
      | write j n => exact absurd ⟨j, n, rfl⟩ hw
      | _ => rfl
    have hi : Call.process c ≠ i := fun e => by
      obtain ⟨n, rfl⟩ := hc.2 e
      exact hw ⟨i, n, rfl⟩
    refine ⟨fun j v n hj => ?_, ?_⟩
    · by_cases hp : Call.process c = j
      · subst hp
        refine h.same (Call.process c) v n ?_
        cases c with
        | create j v => cases hch
        | write j n => cases hch
        | access j =>
          replace hj : (if d.file.isSome then d.put j (some (.reading [])) else d).handle j = some (.writing v n) := hj
          split at hj
          · rw [put_handle, if_pos rfl] at hj; cases hj
          · exact hj
        | read j m =>
          replace hj : (d.read j m).handle j = some (.writing v n) := hj
          unfold Drive.read at hj
          split at hj
          · rw [put_handle, if_pos rfl] at hj; cases hj
          · exact hj
        | close j =>
          replace hj : (d.put j none).handle j = some (.writing v n) := hj
          rw [put_handle, if_pos rfl] at hj; cases hj
      · exact h.same j v n ((step_other d c j hp).symm.trans hj)
    · obtain ⟨n, f, h1, h2, h3⟩ := h.mine
      exact ⟨n, f, (step_other d c i hi).trans h1, (step_file d c hch).trans h2, h3⟩

/-- **C97 (the same contents).** Processes that write the same contents do no harm to one another: as soon as the process that
has created the file last is done, the file has these contents, and it keeps them. -/
theorem C97_same (d : Drive) (i : Nat) (w : Bytes) (hd : ∀ j v n, d.handle j = some (.writing v n) → v = w ∧ n ≤ w.length)
    (calls : List Call) (hc : ∀ c ∈ calls, (∀ j v, c ≠ .create j v) ∧ (Call.process c = i → ∃ n, c = .write i n))
    (hw : (effects d (.create i w :: calls)).Written i w) : (effects d (.create i w :: calls)).file = some w := by
  have h : AllSame i w (effects d (.create i w :: calls)) := by
    have h0 : AllSame i w (effect d (.create i w)) := by
      refine ⟨fun j v n hj => ?_, 0, [], if_pos rfl, rfl, Nat.zero_le _, Nat.le_refl _, fun k hk => by omega⟩
      replace hj : (({ d with file := some [] } : Drive).put i (some (.writing w 0))).handle j = some (.writing v n) := hj
      rw [put_handle] at hj
      split at hj
      · cases hj
        exact ⟨rfl, Nat.zero_le _⟩
      · exact hd j v n hj
    show AllSame i w (effects (effect d (.create i w)) calls)
    generalize effect d (.create i w) = e at h0
    clear hw
    induction calls generalizing e with
    | nil => exact h0
    | cons c calls ih =>
      exact ih (fun c h => hc c (List.mem_cons_of_mem _ h)) (effect e c) (h0.effect c (hc c List.mem_cons_self))
  obtain ⟨n, f, h1, h2, h3, h4, h5⟩ := h.mine
  rw [Drive.Written, h1] at hw
  cases hw
  rw [h2]
  congr 1
  apply List.ext_getElem?
  intro k
  by_cases hk : k < w.length
  · exact h5 k hk
  · rw [List.getElem?_eq_none (by omega), List.getElem?_eq_none (by omega)]

/-! ## Holes -/

/-- The text has no NUL character. -/
def NoNul (t : Str) : Prop := '\x00' ∉ t

theorem NoNul.append {s t : Str} (hs : NoNul s) (ht : NoNul t) : NoNul (s ++ t) := by
  intro h
  rcases List.mem_append.mp h with h | h
  · exact hs h
  · exact ht h

theorem noNul_ws {w : Str} (h : WhiteSpace w) : NoNul w := by
  intro hc
  rcases h _ hc with h | h | h | h <;> revert h <;> decide

theorem noNul_digits {w : Str} (h : Digits w) : NoNul w := by
  intro hc
  exact absurd (h.2 _ hc).1 (by decide)

theorem noNul_hex : ∀ v < 16, Nat.digitChar v ≠ '\x00' ∧ (Nat.digitChar v).toUpper ≠ '\x00' := by decide

theorem noNul_hexDigit {v : Nat} {c : Char} (h : HexDigit v c) : c ≠ '\x00' := by
  obtain ⟨hv, rfl | rfl⟩ := h
  · exact (noNul_hex v hv).1
  · exact (noNul_hex v hv).2

theorem noNul_unit {n : Nat} {t : Str} (h : UnitText n t) : NoNul t := by
  cases h with
  | mk ha hb hc hd =>
    intro h
    simp only [List.mem_cons, List.not_mem_nil, or_false] at h
    rcases h with h | h | h | h | h | h
    · revert h; decide
    · revert h; decide
    · exact noNul_hexDigit ha h.symm
    · exact noNul_hexDigit hb h.symm
    · exact noNul_hexDigit hc h.symm
    · exact noNul_hexDigit hd h.symm

theorem noNul_char {c : Char} {t : Str} (h : CharText c t) : NoNul t := by
  cases h with
  | plain h hq hb =>
    intro hc
    rw [List.mem_singleton] at hc
    subst hc
    revert h
    decide
  | @short e h =>
    intro hc
    simp only [List.mem_cons, List.not_mem_nil, or_false, Prod.mk.injEq] at h hc
    rcases hc with hc | hc
    · revert hc; decide
    · subst hc
      rcases h with h | h | h | h | h | h | h | h <;> exact absurd h.2 (by decide)
  | unit h => exact noNul_unit h
  | pair hh hl h ht ht' => exact (noNul_unit ht).append (noNul_unit ht')

theorem noNul_chars {s t : Str} (h : CharsText s t) : NoNul t := by
  induction h with
  | nil => intro h; cases h
  | cons h _ ih => exact (noNul_char h).append ih

theorem noNul_string {s t : Str} (h : StringText s t) : NoNul t := by
  obtain ⟨t', h, rfl⟩ := h
  exact (NoNul.append (by unfold NoNul; decide) (noNul_chars h)).append (by unfold NoNul; decide)

theorem noNul_nat (n : Nat) : NoNul (toString n).toList := by
  rw [← Json.natDigits_eq]
  intro h
  have := Json.natDigits_digits n _ h
  revert this
  decide

theorem noNul_number {x : JNum} {t : Str} (h : NumberText x t) : NoNul t := by
  cases h with
  | integer h => exact noNul_nat _
  | other hs hf he h =>
    refine ((NoNul.append ?_ (noNul_nat _)).append ?_).append ?_
    · rcases hs with rfl | rfl <;> (unfold NoNul; decide)
    · rcases hf with rfl | ⟨ds, hd, rfl⟩
      · intro h; cases h
      · exact NoNul.append (s := ['.']) (by unfold NoNul; decide) (noNul_digits hd)
    · rcases he with rfl | ⟨e, sign, ds, h1, h2, h3, rfl⟩
      · intro h; cases h
      · refine NoNul.append (s := [e]) ?_ (NoNul.append ?_ (noNul_digits h3))
        · rcases h1 with rfl | rfl <;> (unfold NoNul; decide)
        · rcases h2 with rfl | rfl | rfl <;> (unfold NoNul; decide)

mutual
theorem noNul_value {n : Nat} {v : Json} {t : Str} : ValueText n v t → NoNul t
  | .null => by unfold NoNul; decide
  | .true => by unfold NoNul; decide
  | .false => by unfold NoNul; decide
  | .num h => noNul_number h
  | .str h => noNul_string h
  | .arr0 hw => (NoNul.append (by unfold NoNul; decide) (noNul_ws hw)).append (by unfold NoNul; decide)
  | .arr h => (NoNul.append (by unfold NoNul; decide) (noNul_elements h)).append (by unfold NoNul; decide)
  | .obj0 hw => (NoNul.append (by unfold NoNul; decide) (noNul_ws hw)).append (by unfold NoNul; decide)
  | .obj h => (NoNul.append (by unfold NoNul; decide) (noNul_members h)).append (by unfold NoNul; decide)
theorem noNul_elements {n : Nat} {l : List Json} {t : Str} : ElementsText n l t → NoNul t
  | .last hw h hw' => ((noNul_ws hw).append (noNul_value h)).append (noNul_ws hw')
  | .more hw h hw' hl => ((((noNul_ws hw).append (noNul_value h)).append (noNul_ws hw')).append (by unfold NoNul; decide)).append
      (noNul_elements hl)
theorem noNul_members {n : Nat} {l : List (JKey × Json)} {t : Str} : MembersText n l t → NoNul t
  | .last hw hk hw' hw'' h hw''' => ((((((noNul_ws hw).append (noNul_string hk)).append (noNul_ws hw')).append
      (by unfold NoNul; decide)).append (noNul_ws hw'')).append (noNul_value h)).append (noNul_ws hw''')
  | .more hw hk hw' hw'' h hw''' hl => ((((((((noNul_ws hw).append (noNul_string hk)).append (noNul_ws hw')).append
      (by unfold NoNul; decide)).append (noNul_ws hw'')).append (noNul_value h)).append (noNul_ws hw''')).append
      (by unfold NoNul; decide)).append (noNul_members hl)
end

theorem ofNat_ne_zero {n : Nat} (h1 : 128 ≤ n) (h2 : n < 256) : (0 : UInt8) ≠ UInt8.ofNat n := by
  intro h
  have h3 : (UInt8.ofNat n).toNat = n := by simp [UInt8.toNat_ofNat']; omega
  rw [← h] at h3
  simp at h3
  omega

theorem zero_utf8Char {c : Char} (h : 0 ∈ utf8Char c) : c = '\x00' := by
  have hlt := Json.scalar_lt c
  unfold utf8Char at h
  simp only at h
  split at h
  · rename_i hn
    rw [List.mem_singleton] at h
    have h3 : (UInt8.ofNat c.toNat).toNat = c.toNat := by simp [UInt8.toNat_ofNat']; omega
    rw [← h] at h3
    exact Json.char_of_toNat (by simpa using h3.symm)
  all_goals
    exfalso
    split at h <;>
    first
    | (simp only [List.mem_cons, List.not_mem_nil, or_false] at h
       rcases h with h | h <;> exact ofNat_ne_zero (by omega) (by omega) h)
    | (split at h
       · simp only [List.mem_cons, List.not_mem_nil, or_false] at h
         rcases h with h | h | h <;> exact ofNat_ne_zero (by omega) (by omega) h
       · simp only [List.mem_cons, List.not_mem_nil, or_false] at h
         rcases h with h | h | h | h <;> exact ofNat_ne_zero (by omega) (by omega) h)

/-- **C97 (holes).** A file with a zero byte anywhere cannot be loaded.  So a file that has been written in portions, with a part
that nobody has written, is never taken for a storage. -/
theorem C97_hole (bytes : Bytes) (h : 0 ∈ bytes) : Unreadable (some bytes) := by
  unfold Unreadable FileIO.load
  simp only
  cases hu : fromUtf8 bytes with
  | none => left; rfl
  | some t =>
    right
    have ht := utf8_of_fromUtf8 _ _ hu
    have hnul : '\x00' ∈ t := by
      rw [← ht] at h
      obtain ⟨c, hc, h0⟩ := List.mem_flatMap.mp h
      rwa [← zero_utf8Char h0]
    cases hp : Json.parse t with
    | none => simp only [hp, bind, Option.bind]; rfl
    | some v =>
      obtain ⟨w, s, w', hw, hv, hw', rfl⟩ := (Json.parse_iff t v).mp hp
      exact absurd hnul (((noNul_ws hw).append (noNul_value hv)).append (noNul_ws hw'))

/-- **C97 (what can be loaded).** However the calls follow one another: if what a process has read can be loaded, each byte of it
was in the file before or is written by a process, at the same position. -/
theorem C97_loaded (before : Option Bytes) (calls : List Call) (i : Nat) (bytes : Bytes)
    (h : (effects ⟨before, fun _ => none⟩ calls).Loaded i bytes) (data : Data) (hl : FileIO.load (some bytes) = .ok data)
    (k : Nat) (b : UInt8) (hk : bytes[k]? = some b) :
    (∃ f, before = some f ∧ f[k]? = some b) ∨ ∃ j w, Call.create j w ∈ calls ∧ w[k]? = some b := by
  rcases (C97_bytes before calls).2 i bytes h k b hk with h1 | h1 | rfl
  · exact .inl h1
  · exact .inr h1
  · rcases C97_hole bytes (List.mem_of_getElem? hk) with h2 | h2 <;> rw [h2] at hl <;> cases hl

/-! ## Mixtures -/

/-- Two processes write in two portions each, the second of them between the portions of the first. -/
def crossing (w v : Bytes) (n : Nat) : List Call :=
  [.create 0 w, .create 1 v, .write 0 n, .write 1 n, .write 1 v.length, .write 0 w.length]

theorem crossing_file (d : Drive) (a b a' b' : Bytes) (ha : a.length = a'.length) (hne : a ≠ []) (hb : b ≠ []) (hb' : b' ≠ [])
    (hl : b'.length ≤ b.length) :
    let e := effects d (crossing (a ++ b) (a' ++ b') a.length)
    e.file = some (a' ++ b) ∧ e.Written 0 (a ++ b) ∧ e.Written 1 (a' ++ b') := by
  have hne' : a' ≠ [] := by
    rintro rfl
    exact hne (List.length_eq_zero_iff.mp ha)
  have hp : patch [] 0 a = a := by simp [patch]
  have hp1 : patch a 0 a' = a' := by simp [patch, ha]
  have hp2 : patch a' a.length b' = a' ++ b' := by simp [patch, ha]
  have hp3 : patch (a' ++ b') a.length b = a' ++ b := by
    simp [patch, ha, List.drop_eq_nil_of_le, hl]
  have ht : List.take (a.length + b.length) b = b := List.take_of_length_le (by omega)
  have ht' : List.take (a'.length + b'.length) b' = b' := List.take_of_length_le (by omega)
  intro e
  have he : e = ⟨some (a' ++ b), fun j => if j = 0 then some (.writing (a ++ b) (a ++ b).length)
      else if j = 1 then some (.writing (a' ++ b') (a' ++ b').length) else d.handle j⟩ := by
    simp only [e, effects, crossing, List.foldl_cons, List.foldl_nil, effect, Drive.write, Drive.put]
    simp [hne, hne', hb, hb', ha, ht', hp, hp1]
    rw [← ha, hp2, ht, hp3]
    refine ⟨rfl, funext fun j => ?_⟩
    by_cases h0 : j = 0
    · simp [h0, ha]
    · by_cases h1 : j = 1
      · simp [h1, ha]
      · simp [h0, h1]
  rw [he]
  exact ⟨rfl, rfl, rfl⟩

theorem printMembers_append : ∀ (xs ys : List (JKey × Json)), xs ≠ [] → ys ≠ [] →
    Json.printMembers (xs ++ ys) = Json.printMembers xs ++ ',' :: Json.printMembers ys
  | [], _, h, _ => absurd rfl h
  | [(k, v)], [], _, h => absurd rfl h
  | [(k, v)], y :: ys, _, _ => by simp [Json.printMembers]
  | (k, v) :: x :: xs, ys, _, h => by
    have := printMembers_append (x :: xs) ys (by simp) h
    simp only [List.cons_append] at this ⊢
    simp [Json.printMembers, this]

/-- How the file begins, up to the entries. -/
def opening : Str := c!"{\"application\":\"pfp\",\"format\":3,\"data\":{"

/-- The entries. -/
def middle (es : Data) : Str := Json.printMembers (es.map fun e => Serde.member e.1 (.str e.2))

theorem contents_middle (es : Data) : FileIO.contents es = utf8 (opening ++ middle es ++ c!"}}") := by
  unfold FileIO.contents
  congr 1
  have h1 : Json.printStr (c!"application") = c!"\"application\"" := by decide +kernel
  have h2 : Json.printStr (c!"pfp") = c!"\"pfp\"" := by decide +kernel
  have h3 : Json.printStr (c!"format") = c!"\"format\"" := by decide +kernel
  have h4 : Json.printStr (c!"data") = c!"\"data\"" := by decide +kernel
  have h5 : Json.natDigits 3 = c!"3" := by decide +kernel
  simp only [FileIO.toJson, Serde.member, Json.print, Json.printMembers, opening, middle, h1, h2, h3, h4, h5, List.append_assoc,
    List.cons_append, List.nil_append]

theorem contents_append (xs ys : Data) (hx : xs ≠ []) (hy : ys ≠ []) :
    FileIO.contents (xs ++ ys) = utf8 (opening ++ middle xs) ++ utf8 (',' :: (middle ys ++ c!"}}")) := by
  rw [contents_middle, ← utf8_append]
  congr 1
  unfold middle
  rw [List.map_append, printMembers_append _ _ (by simpa using hx) (by simpa using hy)]
  simp

/-- **C97 (mixtures).** Processes that write in portions at the same time can both succeed and leave a file that can be loaded but
is what neither of them has written: the entries in the first part are those of one, the entries in the second part those of the
other. -/
theorem C97_mixture (d : Drive) (xs ys xs' ys' : Data) (hx : xs ≠ []) (hy : ys ≠ []) (hx' : xs' ≠ []) (hy' : ys' ≠ [])
    (hl : (FileIO.contents xs).length = (FileIO.contents xs').length)
    (hl' : (FileIO.contents ys').length ≤ (FileIO.contents ys).length) :
    ∃ calls, let e := effects d calls
      e.Written 0 (FileIO.contents (xs ++ ys)) ∧ e.Written 1 (FileIO.contents (xs' ++ ys')) ∧
      e.file = some (FileIO.contents (xs' ++ ys)) := by
  rw [contents_middle, contents_middle] at hl hl'
  rw [contents_append xs ys hx hy, contents_append xs' ys' hx' hy', contents_append xs' ys hx' hy]
  have hu : ∀ (c : Char) (t : Str), utf8 (c :: t) ≠ [] := by
    intro c t h
    have h1 : utf8 [c] ++ utf8 t = [] := by rw [← utf8_append]; exact h
    have h2 := (List.append_eq_nil_iff.mp h1).1
    exact absurd (congrArg fromUtf8 h2) (by rw [fromUtf8_utf8]; intro h; cases h)
  have h := crossing_file d (utf8 (opening ++ middle xs)) (utf8 (',' :: (middle ys ++ c!"}}"))) (utf8 (opening ++ middle xs'))
    (utf8 (',' :: (middle ys' ++ c!"}}")))
    (by
      rw [utf8_append, utf8_append (opening ++ middle xs'), List.length_append, List.length_append] at hl
      omega)
    (hu '{' _) (hu _ _) (hu _ _)
    (by
      rw [utf8_append, utf8_append (opening ++ middle ys), utf8_append opening, utf8_append opening] at hl'
      simp only [List.length_append] at hl'
      rw [show ∀ t : Str, ',' :: (t ++ c!"}}") = [','] ++ t ++ c!"}}" from fun t => rfl,
        show ∀ t : Str, ',' :: (t ++ c!"}}") = [','] ++ t ++ c!"}}" from fun t => rfl]
      simp only [utf8_append, List.length_append]
      omega)
  exact ⟨_, h.2.1, h.2.2, h.1⟩

/-- **C97 (neither change).** In particular, of two processes that change different entries of a storage, each to values of the same
length, both can succeed, though afterwards the file is exactly what it was before. -/
theorem C97_neither (d : Drive) (xs ys xs' ys' : Data) (hx : xs ≠ []) (hy : ys ≠ []) (hx' : xs' ≠ []) (hy' : ys' ≠ [])
    (hl : (FileIO.contents xs').length = (FileIO.contents xs).length)
    (hl' : (FileIO.contents ys').length = (FileIO.contents ys).length) (hd : d.file = some (FileIO.contents (xs ++ ys))) :
    ∃ calls, let e := effects d calls
      e.Written 0 (FileIO.contents (xs' ++ ys)) ∧ e.Written 1 (FileIO.contents (xs ++ ys')) ∧ e.file = d.file := by
  obtain ⟨calls, h⟩ := C97_mixture d xs' ys xs ys' hx' hy hx hy' hl (le_of_eq hl')
  rw [hd]
  exact ⟨calls, h⟩

/-! ## Examples -/

/-- Two processes, one writing in two portions, and one reading in between: it reads what cannot be loaded. -/
example : let e := effects ⟨none, fun _ => none⟩ [.create 0 (b!"{}"), .write 0 1, .access 1, .read 1 10, .write 0 1, .close 0]
    e.file = some (b!"{}") ∧ e.handle 1 = some (.reading (b!"{")) ∧ ¬ e.Loaded 1 (b!"{") := by
  refine ⟨rfl, rfl, ?_⟩
  rintro ⟨-, f, hf, hl⟩
  cases hf
  revert hl
  decide

/-- A hole: the file is made empty between two portions of another process. -/
example : (effects ⟨none, fun _ => none⟩ [.create 0 (b!"{}"), .write 0 1, .create 1 (b!"[]"), .write 0 1]).file =
    some [0, 125] := rfl

/-- The hypotheses of `C97_neither` are met. -/
example : ∃ calls, let e := effects ⟨some (FileIO.contents [(c!"a", c!"1"), (c!"b", c!"1")]), fun _ => none⟩ calls
    e.Written 0 (FileIO.contents [(c!"a", c!"2"), (c!"b", c!"1")]) ∧ e.Written 1 (FileIO.contents [(c!"a", c!"1"), (c!"b", c!"2")]) ∧
    e.file = some (FileIO.contents [(c!"a", c!"1"), (c!"b", c!"1")]) :=
  C97_neither _ [(c!"a", c!"1")] [(c!"b", c!"1")] [(c!"a", c!"2")] [(c!"b", c!"2")] (by simp) (by simp) (by simp) (by simp)
    (by decide) (by decide) rfl

/-- Processes that write the same. -/
example : (effects ⟨none, fun _ => none⟩ [.create 1 (b!"{}"), .write 1 1, .create 0 (b!"{}"), .write 1 1, .write 0 2]).file =
    some (b!"{}") :=
  C97_same (effects ⟨none, fun _ => none⟩ [.create 1 (b!"{}"), .write 1 1]) 0 (b!"{}")
    (by
      intro j v n h
      replace h : (if j = 1 then some (Handle.writing (b!"{}") 1) else if j = 1 then some (Handle.writing (b!"{}") 0) else none) =
        some (Handle.writing v n) := h
      split at h
      · cases h; exact ⟨rfl, by decide⟩
      · cases h)
    [.write 1 1, .write 0 2]
    (by
      intro c hc
      simp only [List.mem_cons, List.not_mem_nil, or_false] at hc
      rcases hc with rfl | rfl
      · exact ⟨by intros; simp, fun h => by cases h⟩
      · exact ⟨by intros; simp, fun _ => ⟨2, rfl⟩⟩)
    rfl

end Pfp.Props
