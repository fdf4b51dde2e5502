import Verif.Proofs.Cli
import Verif.Props.Recovery

/-!
# The recovery code prompt
-/

namespace Pfp.Cli
open Spec Crypto RecoveryCodes

/-! ## The first lines of a formatted code -/

theorem splitOn_of_not_mem {α : Type} [DecidableEq α] {sep : α} {l : List α} (h : sep ∉ l) : splitOn sep l = [l] := by
  induction l with
  | nil => rfl
  | cons c l ih =>
    rw [splitOn, if_neg (by intro e; exact h (by simp [e])), ih (fun hm => h (by simp [hm]))]

theorem splitOn_append {α : Type} [DecidableEq α] {sep : α} {a b : List α} (h : sep ∉ a) :
    splitOn sep (a ++ sep :: b) = a :: splitOn sep b := by
  induction a with
  | nil => rw [List.nil_append, splitOn, if_pos rfl]
  | cons c a ih =>
    rw [List.cons_append, splitOn, if_neg (by intro e; exact h (by simp [e])), ih (fun hm => h (by simp [hm]))]

theorem separatorAfter_add (n : Nat) : separatorAfter (n + 24) = separatorAfter n := by
  unfold separatorAfter
  have h1 : (n + 24) % 24 = n % 24 := by omega
  have h2 : (n + 24) % 12 = n % 12 := by omega
  have h3 : (n + 24) % 4 = n % 4 := by omega
  rw [h1, h2, h3]

theorem layoutFrom_add (l : Bytes) : ∀ n, layoutFrom (n + 24) l = layoutFrom n l := by
  induction l with
  | nil => intro n; rfl
  | cons c l ih =>
    intro n
    cases l with
    | nil => rfl
    | cons d l => rw [layoutFrom, layoutFrom, separatorAfter_add, show n + 24 + 1 = n + 1 + 24 by omega, ih (n + 1)]

theorem layoutFrom_append (a : Bytes) : ∀ (n : Nat) (b : Bytes), a ≠ [] → b ≠ [] →
    layoutFrom n (a ++ b) = layoutFrom n a ++ (separatorAfter (n + a.length - 1) ++ layoutFrom (n + a.length) b) := by
  induction a with
  | nil => intro n b h; exact absurd rfl h
  | cons c a ih =>
    intro n b _ hb
    cases a with
    | nil =>
      cases b with
      | nil => exact absurd rfl hb
      | cons d b => rfl
    | cons d a =>
      have := ih (n + 1) b (by simp) hb
      rw [List.cons_append] at this
      rw [List.cons_append, List.cons_append, layoutFrom, this, layoutFrom]
      simp only [List.cons_append, List.append_assoc, List.length_cons]
      rw [show n + 1 + (a.length + 1) = n + (a.length + 1 + 1) by omega]

theorem layout_append {a b : Bytes} (ha : a.length = 24) (hb : b ≠ []) : layout (a ++ b) = layout a ++ 10 :: layout b := by
  have hne : a ≠ [] := by intro h; simp [h] at ha
  unfold layout
  rw [layoutFrom_append a 1 b hne hb, ha, show 1 + 24 = 1 + 24 from rfl, layoutFrom_add b 1]
  rfl

theorem newline_notin_layoutFrom (l : Bytes) (hl : ∀ c ∈ l, c ∈ codeAlphabet) : ∀ n, 0 < n → n + l.length ≤ 25 →
    10 ∉ layoutFrom n l := by
  have hno : (10 : UInt8) ∉ codeAlphabet := by decide
  induction l with
  | nil => intro n _ _; simp [layoutFrom]
  | cons c l ih =>
    intro n hn h
    have hc : (10 : UInt8) ≠ c := fun e => hno (e ▸ hl c (by simp))
    cases l with
    | nil => simpa [layoutFrom] using hc
    | cons d l =>
      simp only [List.length_cons] at h
      have := ih (fun c hc => hl c (by simp [hc])) (n + 1) (by omega) (by simp only [List.length_cons]; omega)
      rw [layoutFrom]
      simp only [List.mem_cons, List.mem_append, not_or]
      refine ⟨hc, ?_, this⟩
      unfold separatorAfter
      rw [if_neg (by omega)]
      split
      · decide
      · split <;> decide

theorem newline_notin_layout {l : Bytes} (hl : ∀ c ∈ l, c ∈ codeAlphabet) (h : l.length ≤ 24) : 10 ∉ layout l :=
  newline_notin_layoutFrom l hl 1 (by omega) (by omega)

theorem firstLines_aux (k : Nat) : ∀ l : Bytes, (∀ c ∈ l, c ∈ codeAlphabet) → 24 * k ≤ l.length →
    k ≤ (splitOn 10 (layout l)).length ∧ join [10] ((splitOn 10 (layout l)).take k) = layout (l.take (24 * k)) := by
  induction k with
  | zero => intro l _ _; exact ⟨Nat.zero_le _, rfl⟩
  | succ k ih =>
    intro l hl hk
    obtain ⟨a, b, rfl, ha⟩ : ∃ a b, l = a ++ b ∧ a.length = 24 :=
      ⟨l.take 24, l.drop 24, (List.take_append_drop _ _).symm, by rw [List.length_take]; omega⟩
    have hal : ∀ c ∈ a, c ∈ codeAlphabet := fun c hc => hl c (by simp [hc])
    have hbl : ∀ c ∈ b, c ∈ codeAlphabet := fun c hc => hl c (by simp [hc])
    rw [List.length_append, ha] at hk
    have htake : (a ++ b).take (24 * (k + 1)) = a ++ b.take (24 * k) := by
      rw [List.take_append, ha, List.take_of_length_le (by omega)]
      congr 2
    rw [htake]
    cases hb : b with
    | nil =>
      subst hb
      have : k = 0 := by simp only [List.length_nil] at hk; omega
      subst this
      rw [List.append_nil, splitOn_of_not_mem (newline_notin_layout hal (by omega))]
      exact ⟨by simp, by simp [join]⟩
    | cons c b' =>
      rw [← hb]
      have hne : b ≠ [] := by rw [hb]; simp
      obtain ⟨h1, h2⟩ := ih b hbl (by omega)
      rw [layout_append ha hne, splitOn_append (newline_notin_layout hal (by omega))]
      refine ⟨by simp only [List.length_cons]; omega, ?_⟩
      rw [List.take_succ_cons]
      cases k with
      | zero => simp [join]
      | succ k =>
        have hne' : b.take (24 * (k + 1)) ≠ [] := by
          intro e
          have := congrArg List.length e
          rw [List.length_take, List.length_nil] at this
          omega
        rw [layout_append ha hne', ← h2]
        cases hs : (splitOn 10 (layout b)).take (k + 1) with
        | nil =>
          have := congrArg List.length hs
          rw [List.length_take, List.length_nil] at this
          omega
        | cons x xs => simp [join]

/-- The lines kept by the prompt are the characters of the complete lines. -/
theorem firstLines_layout {l : Bytes} {k : Nat} (hl : ∀ c ∈ l, c ∈ codeAlphabet) (hk : 24 * k ≤ l.length) :
    firstLines (layout l) k = some (layout (l.take (24 * k))) := by
  obtain ⟨h1, h2⟩ := firstLines_aux k l hl hk
  unfold firstLines
  rw [if_pos h1, h2]

theorem firstLines_format {code : Bytes} {k : Nat} (hk : 24 * k ≤ (significant code).length) :
    firstLines (formatCode code true) k = some (layout ((significant code).take (24 * k))) := by
  rw [formatCode_true]
  exact firstLines_layout (fun _ => significant_mem) hk

theorem significant_take {t : Bytes} {k : Nat} : significant (layout ((significant t).take k)) = (significant t).take k :=
  significant_layout _ fun _ h => significant_mem (List.mem_of_mem_take h)

/-! ## Which line is reported -/

theorem validateRows_bounds {oc : Bool} (rs : List Bytes) : ∀ i s, (∀ r ∈ rs, r.length = 15) →
    (∀ e, validateRows oc i s rs = .err e → ∃ j, e = .recoveryCodeChecksumMismatch j ∧ i ≤ j ∧ j < i + rs.length) ∧
    (∀ b j, validateRows oc i s rs = .ok (b, some j) → j < i + rs.length) := by
  induction rs with
  | nil => intro i s _; cases s <;> simp [validateRows]
  | cons r rs ih =>
    intro i s hr
    cases s with
    | true =>
      rw [validateRows_true]
      refine ⟨by simp, fun b j h => ?_⟩
      simp at h
      simp only [List.length_cons]
      omega
    | false =>
      by_cases hi : oc = false ∨ i ≤ 255
      · obtain ⟨v, b, rfl, hb⟩ := exists_lineNumber r (hr r (by simp))
        rw [validateRows_cons hi v b hb]
        have ih' := fun s => ih (i + 1) s (fun r hr' => hr r (by simp [hr']))
        have key : ∀ s, (∀ e, validateRows oc (i + 1) s rs = .err e →
            ∃ j, e = .recoveryCodeChecksumMismatch j ∧ i ≤ j ∧ j < i + (row v b :: rs).length) ∧
            (∀ b' j, validateRows oc (i + 1) s rs = .ok (b', some j) → j < i + (row v b :: rs).length) := by
          intro s
          obtain ⟨h1, h2⟩ := ih' s
          simp only [List.length_cons]
          refine ⟨fun e he => ?_, fun b' j hj => ?_⟩
          · obtain ⟨j, g1, g2, g3⟩ := h1 e he
            exact ⟨j, g1, by omega, by omega⟩
          · have := h2 b' j hj
            omega
        split
        · exact key _
        · split
          · exact key _
          · refine ⟨fun e he => ?_, by simp⟩
            cases he
            exact ⟨i, rfl, Nat.le_refl _, by simp⟩
      · rw [not_or] at hi
        have ho : oc = true := by simpa using hi.1
        subst ho
        rw [validateRows_panic (by omega)]
        simp

theorem validate_reports {oc : Bool} {code : Bytes} {e : Err} (h : validate oc code = .err e) :
    e = .recoveryCodeIncomplete ∨ (∃ j, e = .recoveryCodeChecksumMismatch j ∧ 24 * j < (significant code).length) ∨
    ∃ j, e = .recoveryCodeExtraData j ∧ 24 * j ≤ (significant code).length := by
  obtain ⟨rs, x, tail, hr, ht, he, hs, hl⟩ := exists_rows code
  obtain ⟨hv, _⟩ := validate_of_rows (oc := oc) hr ht x he hs
  obtain ⟨h1, h2⟩ := validateRows_bounds (oc := oc) rs 0 false hr
  rw [hv] at h
  unfold conclude at h
  cases hval : validateRows oc 0 false rs with
  | panic => rw [hval] at h; cases h
  | err e' =>
    rw [hval] at h
    cases h
    obtain ⟨j, g1, -, g2⟩ := h1 _ hval
    exact .inr (.inl ⟨j, g1, by omega⟩)
  | ok y =>
    obtain ⟨sl, er⟩ := y
    rw [hval] at h
    simp only [Res.bind_ok] at h
    split at h
    · cases h; exact .inl rfl
    · split at h
      · cases h
        refine .inr (.inr ⟨_, rfl, ?_⟩)
        cases er with
        | none => simp only; omega
        | some j => have := h2 _ _ hval; simp only; omega
      · cases h

/-- Errors about the text come from the validation of its lines. -/
theorem decode_after_validate {P : Prims} (hP : P.Lawful) {oc : Bool} {code d : Bytes} {primary : Str} {e : Err}
    (hv : validate oc code = .ok d) (h : decode P oc code primary = .err e) :
    e = .recoveryCodeWrongVersion ∨ e = .recoveryCodeInsufficientData ∨ e = .decryptionFailure ∨ e = .invalidUtf8 := by
  by_cases hver : dropChecksums 0 d ≠ [] ∧ (dropChecksums 0 d).head? ≠ some VERSION
  · unfold decode at h
    rw [hv] at h
    simp only [Res.bind_ok] at h
    rw [if_pos hver] at h
    cases h; simp
  · by_cases hlen : (dropChecksums 0 d).length < 45
    · unfold decode at h
      rw [hv] at h
      simp only [Res.bind_ok] at h
      rw [if_neg hver, if_pos (by exact hlen)] at h
      cases h; simp
    · obtain ⟨salt, nonce, ct, hd, hs, hn, hc⟩ : ∃ salt nonce ct : Bytes, dropChecksums 0 d =
          VERSION :: (salt ++ nonce ++ ct) ∧ salt.length = 16 ∧ nonce.length = 12 ∧ 16 ≤ ct.length := by
        generalize dropChecksums 0 d = w at hver hlen
        match w with
        | [] => simp at hlen
        | v :: w =>
          have hvv : v = VERSION := by
            by_cases e : v = VERSION
            · exact e
            · exact absurd ⟨by simp, by simpa using e⟩ hver
          simp only [List.length_cons] at hlen
          refine ⟨w.take 16, (w.drop 16).take 12, (w.drop 16).drop 12, ?_, by simp; omega, by simp; omega, by
            simp; omega⟩
          rw [hvv, List.append_assoc, List.take_append_drop, List.take_append_drop]
      rw [decode_eq hP hv hd hs hn hc] at h
      cases hg : P.gcmDecrypt (P.scrypt (utf8 primary) (utf8 (salt.map byteChar)) 32) nonce ct with
      | none => rw [hg] at h; cases h; simp
      | some l =>
        rw [hg] at h
        simp only [okOr_some, Res.bind_ok] at h
        cases hst : stripZeros oc l l.length with
        | err e' =>
          exfalso
          have : ∀ n, stripZeros oc l n ≠ .err e' := by
            intro n
            induction n with
            | zero => rw [stripZeros]; cases oc <;> simp
            | succ n ih =>
              rw [stripZeros]
              split
              · split
                · simp
                · exact ih
              · simp
          exact this _ hst
        | ok n =>
          rw [hst] at h
          simp only [Res.bind_ok] at h
          cases hf : fromUtf8 (l.take n) with
          | none => rw [hf] at h; cases h; simp
          | some t => rw [hf] at h; cases h
        | panic => rw [hst] at h; cases h

theorem decode_reports {P : Prims} (hP : P.Lawful) {oc : Bool} {code : Bytes} {primary : Str} {e : Err}
    (h : decode P oc code primary = .err e) :
    (e = .recoveryCodeWrongVersion ∨ e = .recoveryCodeInsufficientData ∨ e = .decryptionFailure ∨ e = .invalidUtf8) ∨
    validate oc code = .err e := by
  cases hv : validate oc code with
  | ok d => exact .inl (decode_after_validate hP hv h)
  | err e' => unfold decode at h; rw [hv] at h; cases h; exact .inr rfl
  | panic => unfold decode at h; rw [hv] at h; cases h

theorem decode_line {P : Prims} (hP : P.Lawful) {oc : Bool} {code : Bytes} {primary : Str} {j : Nat}
    (h : decode P oc code primary = .err (.recoveryCodeExtraData j) ∨
      decode P oc code primary = .err (.recoveryCodeChecksumMismatch j)) : 24 * j ≤ (significant code).length := by
  rcases h with h | h
  · rcases decode_reports hP h with h' | h'
    · simp at h'
    · rcases validate_reports h' with h' | ⟨k, h', hk⟩ | ⟨k, h', hk⟩
      · cases h'
      · cases h'
      · cases h'; exact hk
  · rcases decode_reports hP h with h' | h'
    · simp at h'
    · rcases validate_reports h' with h' | ⟨k, h', hk⟩ | ⟨k, h', hk⟩
      · cases h'
      · cases h'; exact Nat.le_of_lt hk
      · cases h'

/-! ## One answer -/

/-- Only the significant characters of the text accepted so far matter. -/
theorem recoveryLoop_congr {E : Env} {a b : Bytes} (h : significant a = significant b) :
    ∀ answers, recoveryLoop E a answers = recoveryLoop E b answers
  | [] => rfl
  | none :: rest => by
    funext s
    show recoveryLoop E a rest _ = recoveryLoop E b rest _
    rw [recoveryLoop_congr h rest]
  | some line :: rest => by
    have hs : significant (a ++ utf8 line) = significant (b ++ utf8 line) := by
      rw [significant_append, significant_append, h]
    funext s
    unfold recoveryLoop
    simp only [formatCode_true, hs, Props.C12_layout_ignored _ _ _ _ _ hs]

variable {E : Env} {acc : Bytes} {line : Str} {rest : List (Option Str)} {s : CState} {primary : Str}

theorem recoveryLoop_abort : recoveryLoop E acc (some [] :: rest) s = (.err .aborted, { s with answers := rest, out := s.out ++ RECOVERY_PROMPT }) := rfl

theorem recoveryLoop_ok (hline : line ≠ []) (hp : s.ps.primaryPassword = some primary) {v : Str}
    (h : decode E.prims E.overflowChecks (acc ++ utf8 line) primary = .ok v) :
    recoveryLoop E acc (some line :: rest) s = (.ok v, { s with answers := rest, out := s.out ++ RECOVERY_PROMPT }) := by
  rw [recoveryLoop]
  simp only [if_neg hline, hp, okOr, h]

theorem recoveryLoop_incomplete (hline : line ≠ []) (hp : s.ps.primaryPassword = some primary)
    (h : decode E.prims E.overflowChecks (acc ++ utf8 line) primary = .err .recoveryCodeIncomplete) :
    recoveryLoop E acc (some line :: rest) s =
      recoveryLoop E (acc ++ utf8 line) rest { s with answers := rest, out := s.out ++ RECOVERY_PROMPT, errors := s.errors ++ [.incomplete] } := by
  have hc : significant (formatCode (acc ++ utf8 line) true) = significant (acc ++ utf8 line) := by
    rw [formatCode_true, significant_layout _ fun _ => significant_mem]
  rw [recoveryLoop]
  simp only [if_neg hline, hp, okOr, h]
  rw [recoveryLoop_congr hc]

theorem recoveryLoop_mismatch (hP : E.prims.Lawful) (hline : line ≠ []) (hp : s.ps.primaryPassword = some primary) {k : Nat}
    (h : decode E.prims E.overflowChecks (acc ++ utf8 line) primary = .err (.recoveryCodeChecksumMismatch k)) :
    recoveryLoop E acc (some line :: rest) s =
      recoveryLoop E ((significant (acc ++ utf8 line)).take (24 * k)) rest { s with
        answers := rest, out := s.out ++ RECOVERY_PROMPT, errors := s.errors ++ [.typo (layout ((significant (acc ++ utf8 line)).take (24 * k)))] } := by
  have hc : significant (layout ((significant (acc ++ utf8 line)).take (24 * k))) =
      significant ((significant (acc ++ utf8 line)).take (24 * k)) := by
    rw [significant_take, significant_of_alphabet fun _ h => significant_mem (List.mem_of_mem_take h)]
  rw [recoveryLoop]
  simp only [if_neg hline, hp, okOr, h]
  rw [firstLines_format (decode_line hP (.inr h))]
  simp only
  rw [recoveryLoop_congr hc]

theorem recoveryLoop_extra (hP : E.prims.Lawful) (hline : line ≠ []) (hp : s.ps.primaryPassword = some primary) {k : Nat}
    (h : decode E.prims E.overflowChecks (acc ++ utf8 line) primary = .err (.recoveryCodeExtraData k)) :
    recoveryLoop E acc (some line :: rest) s =
      match s.confirms with
      | true :: l => (convert (decode E.prims E.overflowChecks ((significant (acc ++ utf8 line)).take (24 * k)) primary),
          { s with answers := rest, confirms := l, out := s.out ++ RECOVERY_PROMPT ++ extraQuestion (layout ((significant (acc ++ utf8 line)).take (24 * k))) })
      | false :: l => (.err .aborted, { s with
          answers := rest, confirms := l, out := s.out ++ RECOVERY_PROMPT ++ extraQuestion (layout ((significant (acc ++ utf8 line)).take (24 * k))) })
      | [] => (.blocked, { s with
          answers := rest, out := s.out ++ RECOVERY_PROMPT ++ extraQuestion (layout ((significant (acc ++ utf8 line)).take (24 * k))) }) := by
  have hc : significant (layout ((significant (acc ++ utf8 line)).take (24 * k))) =
      significant ((significant (acc ++ utf8 line)).take (24 * k)) := by
    rw [significant_take, significant_of_alphabet fun _ h => significant_mem (List.mem_of_mem_take h)]
  rw [recoveryLoop]
  simp only [if_neg hline, hp, okOr, h]
  rw [firstLines_format (decode_line hP (.inl h))]
  simp only [Props.C12_layout_ignored _ _ _ _ _ hc]
  unfold confirm
  dsimp only
  cases s.confirms with
  | nil => rfl
  | cons x l => cases x <;> rfl

theorem recoveryLoop_error (hline : line ≠ []) (hp : s.ps.primaryPassword = some primary) {e : Err}
    (h : decode E.prims E.overflowChecks (acc ++ utf8 line) primary = .err e)
    (he : e = .recoveryCodeWrongVersion ∨ e = .recoveryCodeInsufficientData ∨ e = .decryptionFailure ∨ e = .invalidUtf8) :
    recoveryLoop E acc (some line :: rest) s = (.err (.lib e), { s with answers := rest, out := s.out ++ RECOVERY_PROMPT }) := by
  rw [recoveryLoop]
  simp only [if_neg hline, hp, okOr, h]
  rcases he with rfl | rfl | rfl | rfl <;> rfl

end Pfp.Cli
