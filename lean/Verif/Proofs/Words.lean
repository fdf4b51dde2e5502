import Verif.Spec.CommandLine

/-!
# Lemmas about word splitting
-/

namespace Pfp.Cli
open Spec

theorem inDouble_append {d d' q q' : Str} (h : InDouble d q) (h' : InDouble d' q') :
    InDouble (d ++ d') (q ++ q') := by
  induction h with
  | nil => exact h'
  | char h1 h2 _ ih => exact .char h1 h2 ih
  | special h1 _ ih => exact .special h1 ih
  | other h1 _ ih => exact .other h1 ih

theorem typedWord_append {t w t' w' : Str} (h : TypedWord t w) (h' : TypedWord t' w') :
    TypedWord (t ++ t') (w ++ w') := by
  induction h with
  | last h => exact .cons h h'
  | cons h _ ih => rw [List.append_assoc, List.append_assoc]; exact .cons h ih

/-- The beginning of a word, possibly empty. -/
def Begun (t w : Str) : Prop := TypedWord t w ∨ (t = [] ∧ w = [])

theorem begun_piece {t w p v : Str} (h : Begun t w) (hp : Piece p v) : TypedWord (t ++ p) (w ++ v) := by
  rcases h with h | ⟨rfl, rfl⟩
  · exact typedWord_append h (.last hp)
  · exact .last hp

/-- What has been read of the current word. -/
def ReadSoFar : SplitState → Str → Prop
  | .gap, u => u = []
  | .word f, u => TypedWord u f
  | .escape f, u => ∃ t, u = t ++ c!"\\" ∧ Begun t f
  | .single f, u => ∃ t f₀ q, u = t ++ '\'' :: q ∧ f = f₀ ++ q ∧ Begun t f₀ ∧ '\'' ∉ q
  | .double f, u => ∃ t f₀ d q, u = t ++ '"' :: d ∧ f = f₀ ++ q ∧ Begun t f₀ ∧ InDouble d q
  | .doubleEscape f, u => ∃ t f₀ d q, u = t ++ '"' :: (d ++ c!"\\") ∧ f = f₀ ++ q ∧ Begun t f₀ ∧ InDouble d q

theorem readSoFar_next {t f : Str} (h : Begun t f) {c : Char} (hc : isWhitespace c ≠ true) :
    ReadSoFar (splitState f c) (t ++ [c]) := by
  unfold splitState
  split
  · rename_i h1; subst h1; exact ⟨t, rfl, h⟩
  split
  · rename_i h1; subst h1; exact ⟨t, f, [], rfl, by simp, h, by simp⟩
  split
  · rename_i h1; subst h1; exact ⟨t, f, [], [], rfl, by simp, h, .nil⟩
  · rename_i h1 h2 h3
    exact begun_piece h (.char hc h1 h2 h3)

theorem typedLine_of_split : ∀ (s : Str) (st : SplitState) (u : Str) (ws : List Str), ReadSoFar st u →
    splitLoop st s = some ws → TypedLine (u ++ s) ws
  | [], st, u, ws, hr, h => by
    cases st with
    | gap => cases h; cases (show u = [] from hr); exact .nil
    | word f => cases h; rw [List.append_nil]; exact .last hr
    | escape f =>
      cases h
      obtain ⟨t, rfl, hb⟩ := hr
      rw [List.append_nil]
      exact .lastBackslash hb
    | single f => cases h
    | double f => cases h
    | doubleEscape f => cases h
  | c :: s, st, u, ws, hr, h => by
    have ih := typedLine_of_split s
    have step : ∀ st', splitLoop st' s = some ws → ReadSoFar st' (u ++ [c]) → TypedLine (u ++ c :: s) ws := by
      intro st' h' hr'
      have := ih st' (u ++ [c]) ws hr' h'
      rwa [List.append_assoc] at this
    have done : ∀ (f : Str) (h : consWord f (splitLoop .gap s) = some ws),
        ∃ ws', ws = f :: ws' ∧ TypedLine s ws' := by
      intro f h
      cases hg : splitLoop .gap s with
      | none => rw [hg] at h; cases h
      | some ws' =>
        rw [hg] at h
        cases h
        exact ⟨ws', rfl, ih .gap [] ws' rfl hg⟩
    cases st with
    | gap =>
      cases (show u = [] from hr)
      rw [splitLoop] at h
      split at h
      · rename_i hc
        exact .blank hc (ih .gap [] ws rfl h)
      · rename_i hc
        exact step _ h (readSoFar_next (Or.inr ⟨rfl, rfl⟩) hc)
    | word f =>
      rw [splitLoop] at h
      split at h
      · rename_i hc
        obtain ⟨ws', rfl, ht⟩ := done f h
        exact .word hr hc ht
      · rename_i hc
        exact step _ h (readSoFar_next (Or.inl hr) hc)
    | escape f =>
      obtain ⟨t, rfl, hb⟩ := hr
      rw [splitLoop] at h
      split at h
      · rename_i hc
        subst hc
        obtain ⟨ws', rfl, ht⟩ := done _ h
        have := TypedLine.backslash hb ht
        simpa using this
      · rename_i hc
        refine step _ h ?_
        have := begun_piece hb (Piece.escaped hc)
        simpa [ReadSoFar] using this
    | single f =>
      obtain ⟨t, f₀, q, rfl, rfl, hb, hq⟩ := hr
      rw [splitLoop] at h
      split at h
      · rename_i hc
        subst hc
        refine step _ h ?_
        have := begun_piece hb (Piece.single hq)
        simpa [ReadSoFar] using this
      · rename_i hc
        refine step _ h ⟨t, f₀, q ++ [c], by simp, by simp, hb, ?_⟩
        simp only [List.mem_append, List.mem_singleton, not_or]
        exact ⟨hq, fun e => hc e.symm⟩
    | double f =>
      obtain ⟨t, f₀, d, q, rfl, rfl, hb, hq⟩ := hr
      rw [splitLoop] at h
      split at h
      · rename_i hc
        subst hc
        refine step _ h ?_
        have := begun_piece hb (Piece.double hq)
        simpa [ReadSoFar] using this
      split at h
      · rename_i hc
        subst hc
        exact step _ h ⟨t, f₀, d, q, by simp, rfl, hb, hq⟩
      · rename_i h1 h2
        exact step _ h ⟨t, f₀, d ++ [c], q ++ [c], by simp, by simp, hb, inDouble_append hq (.char h1 h2 .nil)⟩
    | doubleEscape f =>
      obtain ⟨t, f₀, d, q, rfl, rfl, hb, hq⟩ := hr
      rw [splitLoop] at h
      split at h
      · cases h
      split at h
      · rename_i hn hc
        exact step _ h ⟨t, f₀, d ++ ['\\', c], q ++ [c], by simp, by simp, hb, inDouble_append hq (.special hc .nil)⟩
      · rename_i hn hc
        exact step _ h ⟨t, f₀, d ++ ['\\', c], q ++ ['\\', c], by simp, by simp, hb,
          inDouble_append hq (.other (by simp only [not_or] at hc ⊢; exact ⟨hc.1, hc.2.1, hc.2.2.1, hc.2.2.2, hn⟩) .nil)⟩

/-! ### Completeness -/

theorem split_single : ∀ (w f s : Str), '\'' ∉ w →
    splitLoop (.single f) (w ++ '\'' :: s) = splitLoop (.word (f ++ w)) s
  | [], f, s, _ => by simp [splitLoop]
  | c :: w, f, s, h => by
    rw [List.mem_cons, not_or] at h
    rw [List.cons_append, splitLoop, if_neg (fun e => h.1 e.symm), split_single w _ s h.2]
    simp

theorem split_double {d q : Str} (h : InDouble d q) : ∀ (f s : Str),
    splitLoop (.double f) (d ++ '"' :: s) = splitLoop (.word (f ++ q)) s := by
  induction h with
  | nil => intro f s; simp [splitLoop]
  | char h1 h2 _ ih =>
    intro f s
    rw [List.cons_append, splitLoop, if_neg h1, if_neg h2, ih]
    simp
  | @special c h1 t w _ ih =>
    intro f s
    have hn : c ≠ '\n' := by rcases h1 with rfl | rfl | rfl | rfl <;> decide
    rw [List.cons_append, List.cons_append, splitLoop, if_neg (by decide), if_pos rfl, splitLoop, if_neg hn, if_pos h1, ih]
    simp
  | @other c h1 t w _ ih =>
    intro f s
    simp only [not_or] at h1
    rw [List.cons_append, List.cons_append, splitLoop, if_neg (by decide), if_pos rfl, splitLoop, if_neg h1.2.2.2.2,
      if_neg (by simp only [not_or]; exact ⟨h1.1, h1.2.1, h1.2.2.1, h1.2.2.2.1⟩), ih]
    simp

/-- A piece of a word is read as such. -/
theorem split_piece {p w : Str} (h : Piece p w) : ∃ c p', p = c :: p' ∧ isWhitespace c ≠ true ∧
    ∀ f s, splitLoop (splitState f c) (p' ++ s) = splitLoop (.word (f ++ w)) s := by
  cases h with
  | @char c h1 h2 h3 h4 =>
    refine ⟨c, [], rfl, h1, fun f s => ?_⟩
    rw [splitState, if_neg h2, if_neg h3, if_neg h4, List.nil_append]
  | @escaped c h1 =>
    refine ⟨'\\', [c], rfl, by decide, fun f s => ?_⟩
    rw [splitState, if_pos rfl, List.singleton_append, splitLoop, if_neg h1]
  | single h1 =>
    refine ⟨'\'', w ++ c!"'", by simp, by decide, fun f s => ?_⟩
    rw [splitState, if_neg (by decide), if_pos rfl, List.append_assoc, List.singleton_append, split_single w f s h1]
  | @double t _ h1 =>
    refine ⟨'"', t ++ c!"\"", by simp, by decide, fun f s => ?_⟩
    rw [splitState, if_neg (by decide), if_neg (by decide), if_pos rfl, List.append_assoc, List.singleton_append,
      split_double h1]

theorem split_word {t w : Str} (h : TypedWord t w) : ∀ f s,
    splitLoop (.word f) (t ++ s) = splitLoop (.word (f ++ w)) s := by
  induction h with
  | last h =>
    intro f s
    obtain ⟨c, p', rfl, hc, hp⟩ := split_piece h
    rw [List.cons_append, splitLoop, if_neg hc, hp]
  | cons h _ ih =>
    intro f s
    obtain ⟨c, p', rfl, hc, hp⟩ := split_piece h
    rw [List.append_assoc, List.cons_append, splitLoop, if_neg hc, hp, ih, List.append_assoc]

theorem split_gap {t w : Str} (h : TypedWord t w) (s : Str) : splitLoop .gap (t ++ s) = splitLoop (.word w) s := by
  cases h with
  | last h =>
    obtain ⟨c, p', rfl, hc, hp⟩ := split_piece h
    rw [List.cons_append, splitLoop, if_neg hc, hp, List.nil_append]
  | cons h h' =>
    obtain ⟨c, p', rfl, hc, hp⟩ := split_piece h
    rw [List.append_assoc, List.cons_append, splitLoop, if_neg hc, hp, split_word h', List.nil_append]

theorem split_begun {t w : Str} (h : Begun t w) (s : Str) :
    splitLoop .gap (t ++ '\\' :: s) = splitLoop (.escape w) s := by
  rcases h with h | ⟨rfl, rfl⟩
  · rw [split_gap h, splitLoop, if_neg (by decide), splitState, if_pos rfl]
  · rw [List.nil_append, splitLoop, if_neg (by decide), splitState, if_pos rfl]

theorem split_of_typedLine {t : Str} {ws : List Str} (h : TypedLine t ws) : splitLoop .gap t = some ws := by
  induction h with
  | nil => rfl
  | blank h _ ih => rw [splitLoop, if_pos (show isWhitespace _ = true from h), ih]
  | last h =>
    have := split_gap h []
    rw [List.append_nil] at this
    rw [this, splitLoop]
  | word h hc _ ih => rw [split_gap h, splitLoop, if_pos (show isWhitespace _ = true from hc), ih]; rfl
  | lastBackslash h => rw [split_begun h, splitLoop]
  | backslash h _ ih =>
    rw [List.append_assoc]
    show splitLoop .gap (_ ++ '\\' :: '\n' :: _) = _
    rw [split_begun h, splitLoop, if_pos rfl]
    exact congrArg (consWord _) ih

theorem split_iff (t : Str) (ws : List Str) : splitWords t = some ws ↔ TypedLine t ws :=
  ⟨typedLine_of_split t .gap [] ws rfl, split_of_typedLine⟩

/-! ### Quoting -/

theorem split_quoted_loop : ∀ (w f s : Str),
    splitLoop (.single f) (w.flatMap (fun c => if c = '\'' then c!"'\\''" else [c]) ++ '\'' :: s) =
      splitLoop (.word (f ++ w)) s
  | [], f, s => by simp [splitLoop]
  | c :: w, f, s => by
    rw [List.flatMap_cons, List.append_assoc]
    by_cases hc : c = '\''
    · subst hc
      simp only [if_true, List.cons_append, List.nil_append]
      rw [splitLoop, if_pos rfl, splitLoop, if_neg (by decide), splitState, if_pos rfl, splitLoop, if_neg (by decide),
        splitLoop, if_neg (by decide), splitState, if_neg (by decide), if_pos rfl, split_quoted_loop w]
      simp
    · rw [if_neg hc, List.singleton_append, splitLoop, if_neg hc, split_quoted_loop w]
      simp

theorem split_quoted (w s : Str) : splitLoop .gap (quotedWord w ++ s) = splitLoop (.word w) s := by
  unfold quotedWord
  rw [List.append_assoc, List.append_assoc, List.singleton_append, List.singleton_append, splitLoop,
    if_neg (by decide), splitState, if_neg (by decide), if_pos rfl, split_quoted_loop, List.nil_append]

theorem split_quotedLine : ∀ ws : List Str, splitWords (quotedLine ws) = some ws
  | [] => rfl
  | [w] => by
    unfold splitWords
    have := split_quoted w []
    rw [List.append_nil] at this
    rw [quotedLine, this, splitLoop]
  | w :: v :: ws => by
    have ih := split_quotedLine (v :: ws)
    unfold splitWords at ih ⊢
    rw [quotedLine, List.append_assoc, split_quoted, List.singleton_append, splitLoop, if_pos (by decide), ih]
    · rfl
    · simp

end Pfp.Cli
