import Verif.Proofs.QrFits
import Verif.Proofs.QrPatterns
import Verif.Props.CliText
import Verif.Props.Commands

/-!
# The QR code shows the password: C95
-/

namespace Pfp.Props

open Spec Pfp.Cli
open Pfp.Proofs.Qr

/-- **C95.** Whatever the text, a device reading the QR code drawn for it gets the bytes of the text. -/
theorem C95_read (text : Str) (q : QrCode) (h : Qr.encodeText text = some q) :
    Spec.Qr.readModules q.size q.dark = some (utf8 text) := read_text text q h

/-! ## From the terminal -/

theorem bitsAt_congr (size : Nat) (dark dark' : Nat → Nat → Bool) (h : ∀ x < size, ∀ y < size, dark x y = dark' x y)
    (places : List (Nat × Nat)) (hp : ∀ p ∈ places, p.1 < size ∧ p.2 < size) :
    Spec.Qr.bitsAt dark places = Spec.Qr.bitsAt dark' places := by
  unfold Spec.Qr.bitsAt
  apply List.map_congr_left
  intro p hm
  exact h _ (hp p hm).1 _ (hp p hm).2

theorem versionPlaces_bound (size : Nat) (hs : 21 ≤ size) (p : Nat × Nat) (hp : p ∈ Spec.Qr.versionPlaces size) :
    p.1 < size ∧ p.2 < size := by
  unfold Spec.Qr.versionPlaces at hp
  simp only [List.mem_flatMap, List.mem_range, List.mem_map] at hp
  obtain ⟨i, hi, j, hj, rfl⟩ := hp
  dsimp only
  omega

/-- Only the modules within the size matter. -/
theorem readModules_congr (size : Nat) (dark dark' : Nat → Nat → Bool) (h : ∀ x < size, ∀ y < size, dark x y = dark' x y) :
    Spec.Qr.readModules size dark = Spec.Qr.readModules size dark' := by
  unfold Spec.Qr.readModules
  cases hv : Spec.Qr.findVersion size with
  | none => rfl
  | some version =>
    have hs : size = Spec.Qr.side version := by
      have := List.find?_some hv
      simpa using this
    have hm := List.mem_of_find?_eq_some hv
    have h1 : 1 ≤ version := by
      obtain ⟨i, -, rfl⟩ := List.mem_map.mp hm
      omega
    have h21 : 21 ≤ size := by rw [hs]; unfold Spec.Qr.side; omega
    have b1 := bitsAt_congr size dark dark' h Spec.Qr.formatPlaces (by
      intro p hp
      have : ∀ p ∈ Spec.Qr.formatPlaces, p.1 < 21 ∧ p.2 < 21 := by decide
      have := this p hp
      omega)
    have b2 := bitsAt_congr size dark dark' h (Spec.Qr.formatPlaces' size) (by
      intro p hp
      unfold Spec.Qr.formatPlaces' at hp
      simp only [List.mem_append, List.mem_map, List.mem_range] at hp
      rcases hp with ⟨i, hi, rfl⟩ | ⟨i, hi, rfl⟩ <;> dsimp only <;> omega)
    have b3 := bitsAt_congr size dark dark' h (Spec.Qr.versionPlaces size) (versionPlaces_bound size h21)
    have b4 := bitsAt_congr size dark dark' h ((Spec.Qr.versionPlaces size).map Prod.swap) (by
      intro p hp
      obtain ⟨p', hp', rfl⟩ := List.mem_map.mp hp
      exact (versionPlaces_bound size h21 p' hp').symm)
    have hf : Spec.Qr.readFormat size dark = Spec.Qr.readFormat size dark' := by
      unfold Spec.Qr.readFormat
      rw [b1, b2]
    have hr : Spec.Qr.versionRight version dark = Spec.Qr.versionRight version dark' := by
      unfold Spec.Qr.versionRight
      rw [← hs, b3, b4]
    have hc : ∀ mask, Spec.Qr.codewords version mask dark = Spec.Qr.codewords version mask dark' := by
      intro mask
      unfold Spec.Qr.codewords
      congr 1
      apply List.map_congr_left
      intro p hp
      unfold Spec.Qr.dataModules at hp
      obtain ⟨hx, hy⟩ := mem_path version p.1 p.2 (List.mem_filter.mp hp).1
      rw [← hs] at hx hy
      rw [h _ hx _ hy]
    simp only [hf, Option.bind_eq_bind, Option.bind_some, hr, hc]

theorem lines_append (l rest : Str) (hl : '\n' ∉ l) : Spec.Qr.lines (l ++ '\n' :: rest) = l :: Spec.Qr.lines rest := by
  induction l with
  | nil => rfl
  | cons c l ih =>
    have h1 : c ≠ '\n' := fun h => hl (h ▸ List.mem_cons_self)
    have h2 : '\n' ∉ l := fun h => hl (List.mem_cons_of_mem _ h)
    have : Spec.Qr.lines (c :: (l ++ '\n' :: rest)) = match Spec.Qr.lines (l ++ '\n' :: rest) with
        | [] => [[c]]
        | x :: xs => (c :: x) :: xs := by
      show (if c = '\n' then _ else _) = _
      rw [if_neg h1]
      rfl
    rw [List.cons_append, this, ih h2]

theorem lines_all (ls : List Str) (h : ∀ l ∈ ls, '\n' ∉ l) : Spec.Qr.lines ((ls.map fun l => l ++ ['\n']).flatten) = ls := by
  induction ls with
  | nil => rfl
  | cons l ls ih =>
    rw [List.map_cons, List.flatten_cons, List.append_assoc]
    have := lines_append l (ls.map fun l => l ++ ['\n']).flatten (h l List.mem_cons_self)
    rw [ih fun l hl => h l (List.mem_cons_of_mem _ hl)] at this
    exact this

theorem blocks_seen (a b : Bool) :
    blocks ((if a then 1 else 0) + (if b then 2 else 0)) ≠ '\n' ∧
      Spec.Qr.upper (blocks ((if a then 1 else 0) + (if b then 2 else 0))) = a ∧
      Spec.Qr.lower (blocks ((if a then 1 else 0) + (if b then 2 else 0))) = b := by
  cases a <;> cases b <;> decide

/-- What is read from the printed text is what is read from the modules. -/
theorem readText_render (q : QrCode) (hq : 0 < q.size) :
    Spec.Qr.readText (renderQr q) = Spec.Qr.readModules q.size q.dark := by
  have hlines : Spec.Qr.lines (renderQr q) = (List.range ((q.size + 1) / 2)).map fun i => qrLine q (2 * i) := by
    have := lines_all ((List.range ((q.size + 1) / 2)).map fun i => qrLine q (2 * i)) (by
      intro l hl
      obtain ⟨i, -, rfl⟩ := List.mem_map.mp hl
      intro h
      unfold qrLine at h
      obtain ⟨x, -, h⟩ := List.mem_map.mp h
      exact (blocks_seen _ _).1 h)
    rw [List.map_map] at this
    exact this
  unfold Spec.Qr.readText
  rw [hlines]
  have hlen : (((List.range ((q.size + 1) / 2)).map fun i => qrLine q (2 * i)).headD []).length = q.size := by
    obtain ⟨n, hn⟩ : ∃ n, (q.size + 1) / 2 = n + 1 := ⟨(q.size + 1) / 2 - 1, by omega⟩
    rw [hn, List.range_succ_eq_map]
    simp [qrLine]
  rw [hlen]
  apply readModules_congr
  intro x hx y hy
  unfold Spec.Qr.seen
  have hrow : ((List.range ((q.size + 1) / 2)).map fun i => qrLine q (2 * i)).getD (y / 2) [] = qrLine q (2 * (y / 2)) := by
    rw [List.getD_eq_getElem?_getD, List.getElem?_map, List.getElem?_range (by omega)]
    rfl
  have hchar : (qrLine q (2 * (y / 2))).getD x ' ' = blocks ((if q.getModule x (2 * (y / 2)) then 1 else 0) +
      (if q.getModule x (2 * (y / 2) + 1) then 2 else 0)) := by
    unfold qrLine
    rw [List.getD_eq_getElem?_getD, List.getElem?_map, List.getElem?_range hx]
    rfl
  rw [hrow, hchar]
  obtain ⟨-, h1, h2⟩ := blocks_seen (q.getModule x (2 * (y / 2))) (q.getModule x (2 * (y / 2) + 1))
  have hmod : ∀ z, z = y → q.getModule x z = q.dark x y := by
    rintro z rfl
    unfold QrCode.getModule
    simp [hx, hy]
  by_cases h0 : y % 2 = 0
  · rw [if_pos h0]
    exact h1.trans (hmod _ (by omega))
  · rw [if_neg h0]
    exact h2.trans (hmod _ (by omega))

theorem size_pos (text : Str) (q : QrCode) (h : Qr.encodeText text = some q) : 0 < q.size := by
  rcases Nat.eq_zero_or_pos q.size with h0 | h0
  · have := C95_read text q h
    rw [h0] at this
    have hn : Spec.Qr.findVersion 0 = none := by decide
    unfold Spec.Qr.readModules at this
    rw [hn] at this
    cases this
  · exact h0

/-- **C95.** The same holds of the text printed for the code. -/
theorem C95_read_text (text : Str) (q : QrCode) (h : Qr.encodeText text = some q) :
    Spec.Qr.readText (renderQr q) = some (utf8 text) := by
  rw [readText_render q (size_pos text q h)]
  exact C95_read text q h

/-- **C95.** Different passwords have different codes. -/
theorem C95_different (text text' : Str) (q q' : QrCode) (h : Qr.encodeText text = some q) (h' : Qr.encodeText text' = some q')
    (he : renderQr q = renderQr q') : text = text' := by
  have h1 := C95_read_text text q h
  rw [he, C95_read_text text' q' h'] at h1
  exact (utf8_injective (Option.some.inj h1)).symm

/-! ## Which code -/

/-- **C95.** The code has all the patterns by which it is recognized. -/
theorem C95_patterns (text : Str) (q : QrCode) (h : Qr.encodeText text = some q) :
    ∃ version, q.size = Spec.Qr.side version ∧ 1 ≤ version ∧ version ≤ 40 ∧ Spec.Qr.Patterns version q.dark := by
  unfold Qr.encodeText at h
  dsimp only at h
  cases hf : Qr.findVersion (Qr.makeSegments text) .low Qr.VERSIONS with
  | none => rw [hf] at h; cases h
  | some r =>
    obtain ⟨version, used⟩ := r
    rw [hf] at h
    dsimp only at h
    obtain ⟨h1, h40⟩ := (mem_VERSIONS version).mp (findVersion_some _ _ _ _ _ hf).1
    generalize Qr.boost version used .low [.medium, .quartile, .high] = ecl at h
    generalize Qr.packBytes _ = data at h
    obtain rfl := Option.some.inj h
    unfold Qr.encodeCodewords
    dsimp only
    generalize Qr.bestMask _ _ _ _ = mask
    exact ⟨version, drawn_size _ _ _, h1, h40, patterns version ecl data mask h1 h40⟩

/-- **C95.** There is a code exactly for the texts that fit into one of the forty versions. -/
theorem C95_exists (text : Str) : (Qr.encodeText text).isSome = true ↔ ∃ version, 1 ≤ version ∧ version ≤ 40 ∧ Spec.Qr.Fits version .L text := by
  rw [Option.isSome_iff_ne_none, ne_eq, encodeText_none]
  constructor
  · intro h
    by_contra hn
    exact h fun version h1 h40 hf => hn ⟨version, h1, h40, hf⟩
  · rintro ⟨version, h1, h40, hf⟩ h
    exact h version h1 h40 hf

theorem versions_sorted : Qr.VERSIONS.Pairwise (· < ·) := by decide

/-- The order of the levels. -/
def atLeast : Spec.Qr.Level → Spec.Qr.Level → Prop
  | .H, _ => True
  | .Q, l => l ≠ .H
  | .M, l => l = .M ∨ l = .L
  | .L, l => l = .L

/-- **C95.** The code is the smallest possible, and has the highest error correction level that is possible without enlarging it. -/
theorem C95_smallest (text : Str) (q : QrCode) (h : Qr.encodeText text = some q) :
    ∃ version level mask, q.size = Spec.Qr.side version ∧ Spec.Qr.readFormat q.size q.dark = some (level, mask) ∧
      1 ≤ version ∧ version ≤ 40 ∧ Spec.Qr.Fits version level text ∧
      (∀ v, 1 ≤ v → v ≤ 40 → Spec.Qr.Fits v .L text → version ≤ v) ∧
      (∀ l, Spec.Qr.Fits version l text → atLeast level l) := by
  unfold Qr.encodeText at h
  dsimp only at h
  cases hf : Qr.findVersion (Qr.makeSegments text) .low Qr.VERSIONS with
  | none => rw [hf] at h; cases h
  | some r =>
    obtain ⟨version, used⟩ := r
    rw [hf] at h
    dsimp only at h
    obtain ⟨hv, ht, hu⟩ := findVersion_some _ _ _ _ _ hf
    obtain ⟨h1, h40⟩ := (mem_VERSIONS version).mp hv
    have hfits := boost_fits version used .low [.medium, .quartile, .high] hu
    have hbest : ∀ e, used ≤ Qr.numDataCodewords version e * 8 →
        atLeast (levelOf (Qr.boost version used .low [.medium, .quartile, .high])) (levelOf e) := by
      intro e he
      simp only [Qr.boost]
      cases e <;> (repeat' split) <;> first | (exfalso; omega) | simp [levelOf, atLeast]
    generalize hecl : Qr.boost version used .low [.medium, .quartile, .high] = ecl at h hfits hbest
    generalize Qr.packBytes _ = data at h
    obtain rfl := Option.some.inj h
    unfold Qr.encodeCodewords
    dsimp only
    have hm : Qr.bestMask (Qr.drawn version ecl data) ecl none (List.range 8) < 8 :=
      bestMask_lt _ _ _ _ (fun m h => List.mem_range.mp h) (by simp)
    generalize Qr.bestMask _ _ _ _ = mask at hm
    refine ⟨version, levelOf ecl, mask, drawn_size _ _ _, ?_, h1, h40, ?_, ?_, ?_⟩
    · rw [drawn_size]
      exact read_format version ecl _ mask h1 h40 hm (drawn_size _ _ _)
    · exact (fits_iff version ecl text h1 h40).mpr ⟨used, ht, hfits⟩
    · intro v v1 v40 hfv
      obtain ⟨n, hn, hle⟩ := (fits_iff v .low text v1 v40).mp hfv
      exact findVersion_least _ _ _ versions_sorted _ _ hf v n ((mem_VERSIONS v).mpr ⟨v1, v40⟩) hn hle
    · intro l hl
      obtain ⟨e, rfl⟩ : ∃ e, levelOf e = l := by
        cases l
        · exact ⟨.low, rfl⟩
        · exact ⟨.medium, rfl⟩
        · exact ⟨.quartile, rfl⟩
        · exact ⟨.high, rfl⟩
      obtain ⟨n, hn, hle⟩ := (fits_iff version e text h1 h40).mp hl
      rw [ht] at hn
      cases hn
      exact hbest e hle

theorem capacities : ∀ i ∈ List.range 40, Spec.Qr.dataCodewords (i + 1) .L ≤ 2956 ∧
    (i + 1 ≤ 26 → Spec.Qr.dataCodewords (i + 1) .L ≤ 1370) ∧ (i + 1 ≤ 9 → Spec.Qr.dataCodewords (i + 1) .L ≤ 232) := by
  decide

theorem thirds (n : Nat) : [0, 4, 7].getD (n % 3) 0 = (if n % 3 = 0 then 0 else if n % 3 = 1 then 4 else 7) := by
  have : n % 3 < 3 := Nat.mod_lt _ (by omega)
  generalize n % 3 = k at this
  match k with
  | 0 => rfl
  | 1 => rfl
  | 2 => rfl
  | k + 3 => omega

/-- Up to 7089 digits, 4296 of the 45 characters, or 2953 bytes. -/
def Drawable (text : Str) : Prop :=
  if Spec.Qr.Numeric text then text.length ≤ 7089
  else if Spec.Qr.Alphanumeric text then text.length ≤ 4296
  else (utf8 text).length ≤ 2953

instance (text : Str) : Decidable (Drawable text) := by unfold Drawable; infer_instance

/-- **C95.** There is a code exactly for the texts up to these lengths. -/
theorem C95_capacity (text : Str) : (Qr.encodeText text).isSome = true ↔ Drawable text := by
  rw [C95_exists]
  unfold Drawable
  by_cases h0 : text = []
  · subst h0
    have : Spec.Qr.Numeric [] := by decide
    rw [if_pos this]
    simp only [List.length_nil, Nat.zero_le, iff_true]
    exact ⟨1, by omega, by omega, .inl rfl⟩
  · have hcap := fun v (h1 : 1 ≤ v) (h40 : v ≤ 40) => by
      have := capacities (v - 1) (by simp; omega)
      rw [show v - 1 + 1 = v by omega] at this
      exact this
    have hcap40 : Spec.Qr.dataCodewords 40 .L = 2956 := by decide
    have hc : ∀ a b c, Spec.Qr.countBits 40 a b c = c := fun a b c => rfl
    unfold Spec.Qr.Fits
    simp only [h0, false_or]
    by_cases hn : Spec.Qr.Numeric text
    · simp only [hn, if_true]
      generalize text.length = n
      constructor
      · rintro ⟨v, h1, h40, hlt, hle⟩
        have := hcap v h1 h40
        rw [thirds] at hle
        unfold Spec.Qr.countBits at hle hlt
        split at hle <;> [skip; split at hle] <;> split at hle <;> first | omega | (split at hle <;> omega)
      · intro h
        refine ⟨40, by omega, by omega, ?_, ?_⟩
        · rw [hc]
          omega
        · rw [hc, thirds, hcap40]
          split <;> [skip; split] <;> omega
    · simp only [hn, if_false]
      by_cases ha : Spec.Qr.Alphanumeric text
      · simp only [ha, if_true]
        generalize text.length = n
        constructor
        · rintro ⟨v, h1, h40, hlt, hle⟩
          have := hcap v h1 h40
          unfold Spec.Qr.countBits at hle
          split at hle <;> [skip; split at hle] <;> omega
        · intro h
          refine ⟨40, by omega, by omega, ?_, ?_⟩
          · rw [hc]
            omega
          · rw [hc, hcap40]
            omega
      · simp only [ha, if_false]
        generalize (utf8 text).length = n
        constructor
        · rintro ⟨v, h1, h40, hlt, hle⟩
          have := hcap v h1 h40
          unfold Spec.Qr.countBits at hle
          split at hle <;> [skip; split at hle] <;> omega
        · intro h
          refine ⟨40, by omega, by omega, ?_, ?_⟩
          · rw [hc]
            omega
          · rw [hc, hcap40]
            omega

/-! ## The command -/

theorem utf8_length_ge (s : Str) : s.length ≤ (utf8 s).length := by
  induction s with
  | nil => simp
  | cons c s ih =>
    have h1 : utf8 (c :: s) = utf8 [c] ++ utf8 s := by simp [utf8]
    have h2 := utf8_length_pos (s := [c]) (by simp)
    rw [h1, List.length_append, List.length_cons]
    omega

/-- Each password of up to 2953 bytes has a code. -/
theorem drawable_short (text : Str) (h : (utf8 text).length ≤ 2953) : Drawable text := by
  have := utf8_length_ge text
  unfold Drawable
  split
  · omega
  · split <;> omega

/-- **C95.** With the storage unlocked, `show --qrcode` prints a code from which the password of the entry is read or, exactly if
the password is longer than the largest code allows, fails without printing any part of it. -/
theorem C95_show (C : CEnv) (hC : C.qr = Qr.encodeText) (b : Bool) (d n r : Str) (s : CState) (hk : s.ps.key.isSome = true)
    (hi : Passwords.initialized s.ps = true) (v : Str) (hv : ask C.env s.ps (.get d n r) = .ok (.text v)) :
    (Drawable v → ∃ picture, processCommand C b (.«show» d n r true) s =
        (.ok (), { s with out := s.out ++ c!"Password retrieved." ++ picture }) ∧ Spec.Qr.readText picture = some (utf8 v)) ∧
    (¬ Drawable v → processCommand C b (.«show» d n r true) s =
        (.err .qrCode, { s with out := s.out ++ c!"Password retrieved." })) := by
  obtain ⟨-, h2, h3, -⟩ := C64_show C b d n r s hk hi
  refine ⟨fun h => ?_, fun h => ?_⟩
  · obtain ⟨q, hq⟩ := Option.isSome_iff_exists.mp ((C95_capacity v).mpr h)
    exact ⟨_, h2 v q hv (by rw [hC, hq]), C95_read_text v q hq⟩
  · refine h3 v hv ?_
    rw [hC]
    rw [← C95_capacity, Bool.not_eq_true, Option.isSome_eq_false_iff] at h
    simpa using h

/-- **C95.** What is on the screen is not the picture: its first line begins behind the text "Password retrieved.", so that the
lines do not have the same length and there is nothing where the finder pattern of the corner should be.  The picture has to be
put together before it can be read. -/
theorem C95_displaced (text : Str) (q : QrCode) (h : Qr.encodeText text = some q) :
    Spec.Qr.readText (c!"Password retrieved." ++ renderQr q) = none ∧
    ∀ version, ¬ Spec.Qr.Patterns version (Spec.Qr.seen (Spec.Qr.lines (c!"Password retrieved." ++ renderQr q))) := by
  obtain ⟨version, hs, h1, h40, -⟩ := C95_patterns text q h
  obtain ⟨n, hn⟩ : ∃ n, (q.size + 1) / 2 = n + 1 := ⟨(q.size + 1) / 2 - 1, by rw [hs]; unfold Spec.Qr.side; omega⟩
  have hfirst : ∃ rest, Spec.Qr.lines (c!"Password retrieved." ++ renderQr q) = (c!"Password retrieved." ++ qrLine q 0) :: rest := by
    have hr : ∃ rest, renderQr q = qrLine q 0 ++ '\n' :: rest := by
      unfold renderQr
      rw [hn, List.range_succ_eq_map, List.map_cons, List.flatten_cons]
      exact ⟨_, by rw [List.append_assoc]; rfl⟩
    obtain ⟨rest, hr⟩ := hr
    rw [hr, ← List.append_assoc]
    refine ⟨_, lines_append _ rest ?_⟩
    rw [List.mem_append, not_or]
    refine ⟨by decide, fun hm => ?_⟩
    unfold qrLine at hm
    obtain ⟨x, -, hm⟩ := List.mem_map.mp hm
    exact (blocks_seen _ _).1 hm
  obtain ⟨rest, hfirst⟩ := hfirst
  rw [hfirst]
  refine ⟨?_, fun version hp => ?_⟩
  · unfold Spec.Qr.readText
    have hlen : (((Spec.Qr.lines (c!"Password retrieved." ++ renderQr q)).headD []).length) = 19 + Spec.Qr.side version := by
      rw [hfirst, ← hs]
      simp [qrLine]
      omega
    have hv : Spec.Qr.findVersion (19 + Spec.Qr.side version) = none := by
      unfold Spec.Qr.findVersion
      rw [List.find?_eq_none]
      intro v hv
      unfold Spec.Qr.side
      simp only [beq_iff_eq]
      omega
    rw [hlen]
    unfold Spec.Qr.readModules
    rw [hv]
    rfl
  · have := hp.topLeft 0 (by omega) 0 (by omega)
    revert this
    show ¬ (false = true)
    decide

/-! ## Examples -/

/-- The texts of the three kinds, and a text that is too long. -/
example : Drawable (c!"1234") ∧ Spec.Qr.Numeric (c!"1234") ∧ Drawable (c!"ABC$") ∧ ¬ Spec.Qr.Numeric (c!"ABC$") ∧
    Spec.Qr.Alphanumeric (c!"ABC$") ∧ Drawable (c!"pässword") ∧ ¬ Spec.Qr.Alphanumeric (c!"pässword") := by decide

example : ∃ text, ¬ Drawable text := by
  refine ⟨List.replicate 7090 '1', ?_⟩
  have : Spec.Qr.Numeric (List.replicate 7090 '1') := by
    unfold Spec.Qr.Numeric
    intro c hc
    rw [List.eq_of_mem_replicate hc]
    decide
  unfold Drawable
  rw [if_pos this, List.length_replicate]
  omega

/-- There are codes. -/
example : ∃ q, Qr.encodeText (c!"asdf") = some q :=
  Option.isSome_iff_exists.mp ((C95_capacity _).mpr (drawable_short _ (by decide)))

/-- The first version has room for 17 bytes on the lowest level and for 14 on the next one. -/
example : Spec.Qr.Fits 1 .L (c!"abcdefghijklmnopq") ∧ ¬ Spec.Qr.Fits 1 .L (c!"abcdefghijklmnopqr") ∧
    ¬ Spec.Qr.Fits 1 .M (c!"abcdefghijklmno") ∧ Spec.Qr.Fits 1 .M (c!"abcdefghijklmn") := by
  unfold Spec.Qr.Fits
  decide

/-- The password of the example is read from the picture that is printed. -/
example : ∃ picture, (processCommand { Toy.cenv with qr := Qr.encodeText } true (.«show» (c!"a") (c!"u") [] true) Toy.unlocked).2.out =
    c!"Password retrieved." ++ picture ∧ Spec.Qr.readText picture = some (b!"x") := by
  obtain ⟨picture, h, hr⟩ := (C95_show { Toy.cenv with qr := Qr.encodeText } rfl true _ _ _ Toy.unlocked Toy.one_unlocked
    Toy.unlocked_initialized _ toy_get).1 (drawable_short _ (by decide))
  exact ⟨picture, by rw [h]; rfl, hr⟩

end Pfp.Props
