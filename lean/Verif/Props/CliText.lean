import Verif.Proofs.Cli
import Verif.Proofs.Json

/-!
# The command line application, texts: C55, C57
-/

namespace Pfp.Props
open Spec Pfp.Cli

/-! ## C57 -/

/-- `text` is a decimal number with value `n`: one or more digits, possibly after a plus sign. -/
def Numeral (text : Str) (n : Nat) : Prop :=
  ∃ digits : Str, (text = digits ∨ text = '+' :: digits) ∧ digits ≠ [] ∧ (∀ c ∈ digits, '0' ≤ c ∧ c ≤ '9') ∧
    n = digits.foldl (fun v c => v * 10 + (c.toNat - 48)) 0

private def plusStripped (text : Str) : Str :=
  match text with
  | '+' :: ds => ds
  | ds => ds

theorem parseUsize_iff (text : Str) (n : Nat) : parseUsize text = some n ↔ Numeral text n ∧ n < 2 ^ 64 := by
  have hd : ∀ ds : Str, (ds.all Json.isDigit = true) ↔ ∀ c ∈ ds, '0' ≤ c ∧ c ≤ '9' := by
    intro ds
    simp [List.all_eq_true, Json.isDigit]
  have key : ∀ ds : Str, (if ds = [] ∨ ¬(ds.all Json.isDigit = true) then none
      else if Json.digitsVal ds < 2 ^ 64 then some (Json.digitsVal ds) else none) = some n ↔
        (ds ≠ [] ∧ (∀ c ∈ ds, '0' ≤ c ∧ c ≤ '9') ∧ n = ds.foldl (fun v c => v * 10 + (c.toNat - 48)) 0) ∧ n < 2 ^ 64 := by
    intro ds
    have hv : Json.digitsVal ds = ds.foldl (fun v c => v * 10 + (c.toNat - 48)) 0 := rfl
    by_cases h1 : ds = []
    · simp [h1]
    by_cases h2 : ds.all Json.isDigit = true
    · rw [if_neg (by simp [h1, h2]), ← hv]
      by_cases h3 : Json.digitsVal ds < 2 ^ 64
      · rw [if_pos h3]
        constructor
        · intro h; cases h; exact ⟨⟨h1, (hd ds).mp h2, rfl⟩, h3⟩
        · rintro ⟨⟨-, -, rfl⟩, -⟩; rfl
      · rw [if_neg h3]
        constructor
        · intro h; cases h
        · rintro ⟨⟨-, -, rfl⟩, h⟩; exact absurd h h3
    · rw [if_pos (Or.inr h2)]
      constructor
      · intro h; cases h
      · rintro ⟨⟨-, h, -⟩, -⟩; exact absurd ((hd ds).mpr h) h2
  unfold parseUsize
  by_cases hplus : ∃ ds, text = '+' :: ds
  · obtain ⟨ds, rfl⟩ := hplus
    simp only
    rw [key ds]
    constructor
    · rintro ⟨⟨h1, h2, h3⟩, h4⟩; exact ⟨⟨ds, Or.inr rfl, h1, h2, h3⟩, h4⟩
    · rintro ⟨⟨ds', h, h1, h2, h3⟩, h4⟩
      rcases h with h | h
      · subst h; exact absurd (h2 '+' (by simp)) (by decide)
      · cases h; exact ⟨⟨h1, h2, h3⟩, h4⟩
  · have hm : plusStripped text = text := by
      unfold plusStripped
      split
      · exact absurd ⟨_, rfl⟩ hplus
      · rfl
    have := key (plusStripped text)
    refine Iff.trans this ?_
    rw [hm]
    constructor
    · rintro ⟨⟨h1, h2, h3⟩, h4⟩; exact ⟨⟨text, Or.inl rfl, h1, h2, h3⟩, h4⟩
    · rintro ⟨⟨ds', h, h1, h2, h3⟩, h4⟩
      rcases h with h | h
      · subst h; exact ⟨⟨h1, h2, h3⟩, h4⟩
      · exact absurd ⟨ds', h⟩ hplus

/-- C57: the text given as length is accepted exactly if it is a decimal number between 4 and 24, and that number is the
length; without the option the length is 16. -/
theorem C57_length (arg : Str) (n : Nat) :
    (lengthArgument (some arg) = some n ↔ Numeral arg n ∧ 4 ≤ n ∧ n ≤ 24) ∧ lengthArgument none = some 16 := by
  refine ⟨?_, rfl⟩
  unfold lengthArgument validateLength
  simp only
  constructor
  · intro h
    cases hp : parseUsize arg with
    | none => rw [hp] at h; simp at h
    | some m =>
      rw [hp] at h
      simp only [decide_eq_true_eq] at h
      split at h
      · cases h
        rename_i h'
        exact ⟨((parseUsize_iff arg n).mp hp).1, h'⟩
      · cases h
  · rintro ⟨h1, h2⟩
    have hp := (parseUsize_iff arg n).mpr ⟨h1, by omega⟩
    rw [hp]
    simp [h2]

example : lengthArgument (some (c!"+024")) = some 24 ∧ lengthArgument (some (c!"25")) = none ∧
    lengthArgument (some (c!"4 ")) = none ∧ lengthArgument (some (c!"18446744073709551620")) = none := by decide

/-! ## C55 -/

/-- The modules shown by a character: the upper and the lower one. -/
def shows (c : Char) (upper lower : Bool) : Prop :=
  c = match upper, lower with
    | false, false => ' '
    | true, false => '▀'
    | false, true => '▄'
    | true, true => '█'

theorem qrLine_length (q : QrCode) (y : Nat) : (qrLine q y).length = q.size := by simp [qrLine]

theorem renderQr_get (q : QrCode) : ∀ (n k i : Nat) (f : Nat → Str), (∀ j, (f j).length = q.size + 1) → i < n → k < q.size + 1 →
    (((List.range n).map f).flatten)[i * (q.size + 1) + k]? = (f i)[k]?
  | 0, k, i, f, _, hi, _ => by omega
  | n + 1, k, i, f, hf, hi, hk => by
    rw [List.range_succ_eq_map, List.map_cons, List.flatten_cons, List.map_map]
    cases i with
    | zero =>
      rw [Nat.zero_mul, Nat.zero_add, List.getElem?_append_left (by rw [hf]; exact hk)]
    | succ i =>
      rw [List.getElem?_append_right (by rw [hf, Nat.succ_mul]; omega), hf]
      have : (i + 1) * (q.size + 1) + k - (q.size + 1) = i * (q.size + 1) + k := by rw [Nat.succ_mul]; omega
      rw [this]
      exact renderQr_get q n k i (f ∘ Nat.succ) (fun j => hf _) (by omega) hk

/-- C55: in the text for a code with `size` columns, row `i` of the text shows the rows `2 * i` and `2 * i + 1` of the
code, column by column, and ends with a line feed; a missing last row counts as light. -/
theorem C55_modules (q : QrCode) (i : Nat) (hi : 2 * i < q.size) :
    (∀ x, x < q.size → ∃ c, (renderQr q)[i * (q.size + 1) + x]? = some c ∧
      shows c (q.dark x (2 * i)) (decide (2 * i + 1 < q.size) && q.dark x (2 * i + 1))) ∧
    (renderQr q)[i * (q.size + 1) + q.size]? = some '\n' ∧
    (renderQr q).length = (q.size + 1) / 2 * (q.size + 1) := by
  have hf : ∀ j, (qrLine q (2 * j) ++ ['\n']).length = q.size + 1 := fun j => by simp [qrLine_length]
  refine ⟨fun x hx => ?_, ?_, ?_⟩
  · unfold renderQr
    rw [renderQr_get q _ x i _ hf (by omega) (by omega)]
    rw [List.getElem?_append_left (by rw [qrLine_length]; exact hx)]
    refine ⟨_, by simp [qrLine, hx]; rfl, ?_⟩
    unfold shows QrCode.getModule
    simp only [hx, hi, true_and, decide_true, Bool.true_and]
    cases q.dark x (2 * i) <;> cases (decide (2 * i + 1 < q.size) && q.dark x (2 * i + 1)) <;> rfl
  · unfold renderQr
    rw [renderQr_get q _ q.size i _ hf (by omega) (by omega)]
    rw [List.getElem?_append_right (by rw [qrLine_length]), qrLine_length, Nat.sub_self]
    rfl
  · unfold renderQr
    rw [List.length_flatten, List.map_map]
    have : (List.length ∘ fun j => qrLine q (2 * j) ++ ['\n']) = fun _ => q.size + 1 := funext hf
    rw [this]
    simp [List.map_const']

theorem shows_inj {c : Char} {u l u' l' : Bool} (h : shows c u l) (h' : shows c u' l') : u = u' ∧ l = l' := by
  subst h
  revert h'
  unfold shows
  cases u <;> cases l <;> cases u' <;> cases l' <;> decide

theorem shows_ne {c : Char} {u l : Bool} (h : shows c u l) : c ≠ '\n' := by
  subst h
  cases u <;> cases l <;> decide

/-- C55: the text determines the size of the code and every module. -/
theorem C55_determines (q q' : QrCode) (h : renderQr q = renderQr q') :
    q.size = q'.size ∧ ∀ x y, x < q.size → y < q.size → q.dark x y = q'.dark x y := by
  have zero : ∀ q : QrCode, q.size = 0 → renderQr q = [] := by
    intro q h0
    unfold renderQr
    rw [h0]
    rfl
  have pos : ∀ q : QrCode, 0 < q.size → (renderQr q)[q.size]? = some '\n' ∧
      ∀ x, x < q.size → ∃ c, (renderQr q)[x]? = some c ∧ c ≠ '\n' := by
    intro q hq
    obtain ⟨h1, h2, -⟩ := C55_modules q 0 (by omega)
    refine ⟨by simpa using h2, fun x hx => ?_⟩
    obtain ⟨c, hc, hs⟩ := h1 x hx
    exact ⟨c, by simpa using hc, shows_ne hs⟩
  have le : ∀ q q' : QrCode, renderQr q = renderQr q' → 0 < q.size → 0 < q'.size → ¬q.size < q'.size := by
    intro q q' h hq hq' hlt
    obtain ⟨c, hc, hne⟩ := (pos q' hq').2 q.size hlt
    rw [← h, (pos q hq).1] at hc
    cases hc
    exact hne rfl
  have hsize : q.size = q'.size := by
    rcases Nat.eq_zero_or_pos q.size with h0 | h0
    · rcases Nat.eq_zero_or_pos q'.size with h1 | h1
      · rw [h0, h1]
      · have := (pos q' h1).1
        rw [← h, zero q h0] at this
        cases this
    · rcases Nat.eq_zero_or_pos q'.size with h1 | h1
      · have := (pos q h0).1
        rw [h, zero q' h1] at this
        cases this
      · have a := le q q' h h0 h1
        have b := le q' q h.symm h1 h0
        omega
  refine ⟨hsize, fun x y hx hy => ?_⟩
  have hi : 2 * (y / 2) < q.size := by omega
  obtain ⟨c, hc, hs⟩ := (C55_modules q (y / 2) hi).1 x hx
  obtain ⟨c', hc', hs'⟩ := (C55_modules q' (y / 2) (hsize ▸ hi)).1 x (hsize ▸ hx)
  rw [h, hsize, hc'] at hc
  cases hc
  obtain ⟨hu, hl⟩ := shows_inj hs hs'
  rcases Nat.mod_two_eq_zero_or_one y with hm | hm
  · have : 2 * (y / 2) = y := by omega
    rw [this] at hu
    exact hu
  · have : 2 * (y / 2) + 1 = y := by omega
    rw [this, ← hsize] at hl
    simpa [hy] using hl

example : renderQr ⟨3, fun x y => x = y⟩ = c!"▀▄ \n  ▀\n" := by decide

end Pfp.Props
