import Verif.Proofs.Sizes
import Verif.Props.Secrecy

/-!
# What the file tells about passwords and notes without the primary password: C82
-/

namespace Pfp.Props
open Spec

variable {E : Env} {U : Universe}

/-- C82: take two histories that differ only in the values and notes stored, each of equal size, with the same random bytes.
If the file can be read after the one, so it can after the other; and without the key the two files look alike: the entries
have the same names in the same order and are the same, or encryptions, with the key of the storage and the same nonce, of
texts of the same size. -/
theorem C82_file (hE : E.Lawful) (hS : Secure E U) (hO : OrderByKeys E) {s s' : PState} (h : Even E U s s') {d : Data}
    (hd : FileIO.load s.world.disk = .ok d) :
    ∃ d', FileIO.load s'.world.disk = .ok d' ∧ StoragesAlike E.prims U d d' := by
  rcases (even_mir hE hS hO h).file.load hE.prims with ⟨d1, d', h1, h2, h3⟩ | ⟨h1, -⟩
  · rw [hd] at h1
    cases h1
    exact ⟨d', h2, h3.looks⟩
  · exact absurd hd (h1 d)

/-- C82: the files have the same number of bytes, also when a write has stopped half way. -/
theorem C82_length (hE : E.Lawful) (hS : Secure E U) (hO : OrderByKeys E) {s s' : PState} (h : Even E U s s') :
    s'.world.disk.map List.length = s.world.disk.map List.length :=
  (even_mir hE hS hO h).file.size hE.prims

/-- C82: the number of random bytes drawn and of writes is the same. -/
theorem C82_effort (hE : E.Lawful) (hS : Secure E U) (hO : OrderByKeys E) {s s' : PState} (h : Even E U s s') :
    s'.world.rpos = s.world.rpos ∧ s'.world.fpos = s.world.fpos :=
  ⟨(even_mir hE hS hO h).rpos, (even_mir hE hS hO h).fpos⟩

/-- C82: a further change has the same outcome in both. -/
theorem C82_outcome (hE : E.Lawful) (hS : Secure E U) (hO : OrderByKeys E) {s s' : PState} (h : Even E U s s') {op op' : Op}
    (he : EvenOp op op') (hop : op.Within U) (hc : op.changes = true) : ask E s' op' = ask E s op :=
  (mir_step hE hS hO (even_mir hE hS hO h) he hop fun p hp => by rw [hp] at hc; cases hc).2 hc

/-- C82, in particular: storing one value or another of the same size. -/
theorem C82_value (hE : E.Lawful) (hS : Secure E U) (hO : OrderByKeys E) {s : PState} (h : Reachable E U s) {a n r v v' : Str}
    (ha : U.site a) (hn : U.name n) (hr : U.revision r) (hv : jsonSize v' = jsonSize v) {d : Data}
    (hd : FileIO.load (after E s (.setStored a n r v)).world.disk = .ok d) :
    ∃ d', FileIO.load (after E s (.setStored a n r v')).world.disk = .ok d' ∧ StoragesAlike E.prims U d d' :=
  C82_file hE hS hO (.step (.same h) (.value a n r v v' hv) ⟨ha, hn, hr⟩ fun p hp => by cases hp) hd

/-! ## Examples: the hypotheses are met -/

theorem toy_orderByKeys : OrderByKeys Toy.env := by
  intro n d d' h
  show (List.reverse d').map _ = (List.reverse d).map _
  rw [List.map_reverse, List.map_reverse, h]

/-- The same entry with another value of the same size. -/
def evenOne : PState := after Toy.env Toy.fresh (.setStored (c!"a") (c!"u") [] (c!"y"))

theorem even_one : Even Toy.env tidyUniv Toy.one evenOne :=
  .step (.same tidy_fresh) (.value (c!"a") (c!"u") [] (c!"x") (c!"y") (by decide)) tidy_args fun p hp => by cases hp

/-- The file can be read, so there is another one that looks alike. -/
example : ∃ d d', FileIO.load Toy.one.world.disk = .ok d ∧ FileIO.load evenOne.world.disk = .ok d' ∧
    StoragesAlike Toy.env.prims tidyUniv d d' := by
  have : ∃ data, FileIO.load Toy.one.world.disk = .ok data := by
    have hd : Distinct Toy.fresh.world := (reset_written Toy.env_lawful Toy.start _ Toy.reset_ok).2.2
    obtain ⟨d, h, -⟩ := C35_written Toy.env_lawful Toy.fresh hd (.setStored (c!"a") (c!"u") [] (c!"x")) (.inl rfl) Toy.one_ok
    exact ⟨d, h⟩
  obtain ⟨d, h1⟩ := this
  obtain ⟨d', h2, h3⟩ := C82_file Toy.env_lawful tidy_secure toy_orderByKeys even_one h1
  exact ⟨d, d', h1, h2, h3⟩

/-- Notes may be different as well. -/
example : Even Toy.env tidyUniv (after Toy.env Toy.one (.setNotes (c!"a") (c!"u") [] (c!"one\n")))
    (after Toy.env evenOne (.setNotes (c!"a") (c!"u") [] (c!"other"))) :=
  .step even_one (.notes _ _ _ _ _ (by decide)) tidy_args fun p hp => by cases hp

end Pfp.Props
