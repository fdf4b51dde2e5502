import Verif.Proofs.Json

/-!
# JSON: appending text after a complete value does not change what is read
-/

namespace Pfp.Json

theorem skipWs_append {s : Str} {c : Char} {s' : Str} (t : Str) (h : skipWs s = c :: s') :
    skipWs (s ++ t) = c :: (s' ++ t) := by
  induction s with
  | nil => simp [skipWs] at h
  | cons d s ih =>
    rw [List.cons_append, skipWs]
    rw [skipWs] at h
    split
    · rename_i hw; rw [if_pos hw] at h; exact ih h
    · rename_i hw; rw [if_neg hw] at h
      simp only [List.cons.injEq] at h
      rw [h.1, h.2]

/-- Shorthand for the property proved by induction. -/
theorem map_append {s : Str} {f : Str × Bool × Str → Str × Bool × Str} {t : Str}
    {r : Str} {e : Bool} {rest : Str}
    (ih : ∀ (r : Str) (e : Bool) (rest t : Str), parseStrBody s = some (r, e, rest) →
      parseStrBody (s ++ t) = some (r, e, rest ++ t))
    (hf : ∀ r e rest, (f (r, e, rest ++ t)) = ((f (r, e, rest)).1, (f (r, e, rest)).2.1, (f (r, e, rest)).2.2 ++ t))
    (h : (parseStrBody s).map f = some (r, e, rest)) :
    (parseStrBody (s ++ t)).map f = some (r, e, rest ++ t) := by
  cases hp : parseStrBody s with
  | none => simp [hp] at h
  | some x =>
    obtain ⟨r', e', rest'⟩ := x
    rw [ih r' e' rest' t hp]
    simp only [hp, Option.map_some, Option.some.injEq] at h ⊢
    rw [hf, h]

theorem parseStrBody_u (a b c d : Char) (s : Str) : parseStrBody ('\\' :: 'u' :: a :: b :: c :: d :: s) =
    (hex4 a b c d).bind fun n =>
      if 0xDC00 ≤ n ∧ n ≤ 0xDFFF then none
      else if 0xD800 ≤ n ∧ n ≤ 0xDBFF then
        match s with
        | '\\' :: 'u' :: a' :: b' :: c' :: d' :: s => (hex4 a' b' c' d').bind fun m =>
          if 0xDC00 ≤ m ∧ m ≤ 0xDFFF then
            (parseStrBody s).map fun x =>
              (Char.ofNat (0x10000 + (n - 0xD800) * 0x400 + (m - 0xDC00)) :: x.1, true, x.2.2)
          else none
        | _ => none
      else (parseStrBody s).map fun x => (Char.ofNat n :: x.1, true, x.2.2) := by
  rw [parseStrBody.eq_def]
  simp only [bind]
  congr 1
  funext n
  split
  · rfl
  · split
    · split
      · congr 1
        funext m
        split
        · cases parseStrBody _ <;> rfl
        · rfl
      · rename_i hne
        split
        · exact absurd rfl (hne _ _ _ _ _)
        · rfl
    · cases parseStrBody s <;> rfl

theorem parseStrBody_append (s : Str) : ∀ (r : Str) (e : Bool) (rest t : Str), parseStrBody s = some (r, e, rest) →
    parseStrBody (s ++ t) = some (r, e, rest ++ t) := by
  induction s using parseStrBody.induct with
  | case1 => intro r e rest t h; simp [parseStrBody] at h
  | case2 s =>
    intro r e rest t h
    rw [List.cons_append]
    rw [parseStrBody_quote] at h ⊢
    simp only [Option.some.injEq, Prod.mk.injEq] at h ⊢
    exact ⟨h.1, h.2.1, by rw [h.2.2]⟩
  | case3 a b c d s ih1 ih2 =>
    intro r e rest t h
    simp only [List.cons_append]
    rw [parseStrBody_u] at h ⊢
    cases hn : hex4 a b c d with
    | none => simp [hn] at h
    | some n =>
      simp only [hn, Option.bind_some] at h ⊢
      split at h
      · simp at h
      · rename_i h1
        rw [if_neg h1]
        split at h
        · rename_i h2
          rw [if_pos h2]
          split at h
          · rename_i a' b' c' d' s'
            simp only [List.cons_append]
            cases hm : hex4 a' b' c' d' with
            | none => simp [hm] at h
            | some m =>
              simp only [hm, Option.bind_some] at h ⊢
              split at h
              · rename_i h3
                rw [if_pos h3]
                exact map_append ih1 (fun _ _ _ => rfl) h
              · simp at h
          · simp at h
        · rename_i h2
          rw [if_neg h2]
          exact map_append ih2 (fun _ _ _ => rfl) h
  | case4 e s hs ih =>
    intro r e' rest t h
    simp only [List.cons_append]
    by_cases he : e = 'u'
    · exfalso
      subst he
      rw [parseStrBody.eq_def] at h
      split at h
      · simp at h
      · rename_i h'; simp at h'
      · rename_i h'
        simp only [List.cons.injEq, true_and] at h'
        exact hs _ _ _ _ _ rfl h'
      · rename_i h'
        simp only [List.cons.injEq, true_and] at h'
        rw [← h'.1] at h
        simp [simpleEscape] at h
      · rename_i h'
        simp only [List.cons.injEq] at h'
        rw [← h'.1] at h
        simp at h
    · rw [parseStrBody_escape _ _ he] at h ⊢
      cases hc : simpleEscape e with
      | none => simp [hc] at h
      | some c =>
        simp only [hc, Option.bind_some] at h ⊢
        exact map_append ih (fun _ _ _ => rfl) h
  | case5 c s h1 h2 h3 h4 =>
    intro r e rest t h
    exfalso
    rw [parseStrBody.eq_def] at h
    split at h
    · simp at h
    · rename_i h'; simp only [List.cons.injEq] at h'; exact h1 h'.1
    · rename_i h'; simp only [List.cons.injEq] at h'; exact h2 _ _ _ _ _ h'.1 h'.2
    · rename_i h'; simp only [List.cons.injEq] at h'; exact h3 _ _ h'.1 h'.2
    · rename_i h'; simp only [List.cons.injEq] at h'
      rw [← h'.1, if_pos h4] at h
      simp at h
  | case6 c s h1 h2 h3 h4 ih =>
    intro r e rest t h
    have hn : needsEscape c = false := by
      simp only [not_or] at h4
      simp [needsEscape, h4.1, Nat.not_lt.mp h4.2]
      exact h1
    rw [List.cons_append]
    rw [parseStrBody_plain _ _ hn] at h ⊢
    exact map_append ih (fun _ _ _ => rfl) h

theorem takeDigits_ext {s ds rest : Str} (t : Str) (h : takeDigits s = (ds, rest)) (hr : rest ≠ []) :
    takeDigits (s ++ t) = (ds, rest ++ t) := by
  induction s generalizing ds with
  | nil =>
    simp only [takeDigits, List.takeWhile_nil, List.dropWhile_nil, Prod.mk.injEq] at h
    exact absurd h.2.symm hr
  | cons c s ih =>
    simp only [takeDigits, Prod.mk.injEq] at h ih ⊢
    by_cases hc : isDigit c = true
    · simp only [List.cons_append, List.takeWhile_cons, List.dropWhile_cons, hc, if_true] at h ⊢
      obtain ⟨h1, h2⟩ := ih (ds := s.takeWhile isDigit) ⟨rfl, h.2⟩
      exact ⟨by rw [h1, h.1], h2⟩
    · simp only [List.cons_append, List.takeWhile_cons, List.dropWhile_cons, hc] at h ⊢
      exact ⟨h.1, by rw [← h.2]; simp⟩

theorem parseFraction_ext {s rest : Str} {b : Bool} (t : Str) (h : parseFraction s = some (b, rest)) (hr : rest ≠ []) :
    parseFraction (s ++ t) = some (b, rest ++ t) := by
  cases s with
  | nil => simp [parseFraction] at h; exact absurd h.2 hr
  | cons c s =>
    by_cases hc : c = '.'
    · subst hc
      simp only [parseFraction, List.cons_append] at h ⊢
      split at h
      · simp at h
      · rename_i hd
        simp only [Option.some.injEq, Prod.mk.injEq] at h
        have := takeDigits_ext t (ds := (takeDigits s).1) (rest := rest) (by rw [← h.2]) hr
        rw [this, if_neg hd, ← h.1]
    · unfold parseFraction at h ⊢
      simp only [List.cons_append]
      split at h
      · rename_i h'; simp only [List.cons.injEq] at h'; exact absurd h'.1 hc
      · simp only [Option.some.injEq, Prod.mk.injEq] at h
        split
        · rename_i h'; simp only [List.cons.injEq] at h'; exact absurd h'.1 hc
        · rw [← h.1, ← h.2]; simp

theorem parseExponent_ext {s rest : Str} {b : Bool} (t : Str) (h : parseExponent s = some (b, rest)) (hr : rest ≠ []) :
    parseExponent (s ++ t) = some (b, rest ++ t) := by
  cases s with
  | nil => simp [parseExponent] at h; exact absurd h.2 hr
  | cons c s =>
    simp only [parseExponent, List.cons_append] at h ⊢
    by_cases hc : c = 'e' ∨ c = 'E'
    · rw [if_pos hc] at h ⊢
      have key : ∀ u u' : Str, u' = u ++ t →
          (if (takeDigits u).1 = [] then none else some (true, (takeDigits u).2)) = some (b, rest) →
          (if (takeDigits u').1 = [] then none else some (true, (takeDigits u').2)) = some (b, rest ++ t) := by
        intro u u' hu h
        subst hu
        split at h
        · simp at h
        · rename_i hd
          simp only [Option.some.injEq, Prod.mk.injEq] at h
          have := takeDigits_ext t (ds := (takeDigits u).1) (rest := rest) (by rw [← h.2]) hr
          rw [this, if_neg hd, ← h.1]
      refine key _ _ ?_ h
      cases s with
      | nil => simp [takeDigits] at h
      | cons d s =>
        by_cases h1 : d = '+'
        · subst h1; rfl
        · by_cases h2 : d = '-'
          · subst h2; rfl
          · simp [h1, h2]
    · rw [if_neg hc] at h ⊢
      simp only [Option.some.injEq, Prod.mk.injEq] at h
      rw [← h.1, ← h.2]; simp

theorem parseNumber_ext {s rest : Str} {neg : Bool} {n : JNum} (t : Str) (h : parseNumber neg s = some (n, rest))
    (hr : rest ≠ []) : parseNumber neg (s ++ t) = some (n, rest ++ t) := by
  unfold parseNumber at h ⊢
  cases hd : takeDigits s with
  | mk ds s' =>
    rw [hd] at h
    simp only at h
    split at h
    · simp at h
    · simp at h
    · rename_i ds h1 h2
      simp only [bind, Option.bind] at h
      cases hf : parseFraction s' with
      | none => simp [hf] at h
      | some x =>
        obtain ⟨frac, s''⟩ := x
        simp only [hf] at h
        cases he : parseExponent s'' with
        | none => simp [he] at h
        | some y =>
          obtain ⟨exp, s'''⟩ := y
          simp only [he] at h
          have hrest : s''' = rest := by
            split at h <;> simp only [Option.some.injEq, Prod.mk.injEq] at h <;> exact h.2
          subst hrest
          have hs'' : s'' ≠ [] := by
            intro h0; subst h0; simp [parseExponent] at he; exact hr he.2
          have hs' : s' ≠ [] := by
            intro h0; subst h0; simp [parseFraction] at hf; exact hs'' hf.2
          rw [takeDigits_ext t hd hs']
          simp only [bind, Option.bind, parseFraction_ext t hf hs'', parseExponent_ext t he hr]
          split at h <;> rename_i hc <;> simp only [Option.some.injEq, Prod.mk.injEq] at h <;>
            simp only [hc, if_true, ← h.1] <;> rfl

theorem expect_append : ∀ {p s rest : Str} (t : Str), expect p s = some rest → expect p (s ++ t) = some (rest ++ t)
  | [], s, rest, t, h => by simp only [expect, Option.some.injEq] at h ⊢; rw [h]
  | _ :: _, [], rest, t, h => by simp [expect] at h
  | c :: p, d :: s, rest, t, h => by
    simp only [List.cons_append, expect] at h ⊢
    split at h
    · rename_i hc; rw [if_pos hc]; exact expect_append t h
    · simp at h

/-- Adding fuel and text after a complete value changes nothing.  (A number may only be followed by text that is
already separated from it.) -/
theorem extend (t : Str) : ∀ fuel,
    (∀ depth s v rest fuel', fuel ≤ fuel' → parseValue fuel depth s = some (v, rest) →
      (rest ≠ [] ∨ ∀ n, v ≠ .num n) → parseValue fuel' depth (s ++ t) = some (v, rest ++ t)) ∧
    (∀ depth s l rest fuel', fuel ≤ fuel' → parseElems fuel depth s = some (l, rest) →
      parseElems fuel' depth (s ++ t) = some (l, rest ++ t)) ∧
    (∀ depth s l rest fuel', fuel ≤ fuel' → parseMembers fuel depth s = some (l, rest) →
      parseMembers fuel' depth (s ++ t) = some (l, rest ++ t))
  | 0 => by
    refine ⟨?_, ?_, ?_⟩ <;> intro depth s v rest fuel' _ h
    · simp [parseValue] at h
    · simp [parseElems] at h
    · simp [parseMembers] at h
  | fuel + 1 => by
    obtain ⟨ihv, ihe, ihm⟩ := extend t fuel
    refine ⟨?_, ?_, ?_⟩
    · intro depth s v rest fuel' hf h hn
      obtain ⟨fuel', rfl⟩ : ∃ f, fuel' = f + 1 := ⟨fuel' - 1, by omega⟩
      rw [parseValue] at h ⊢
      split at h
      · simp at h
      · rename_i s' hs
        rw [skipWs_append t hs]
        simp only
        cases hp : parseStrBody s' with
        | none => simp [hp] at h
        | some x =>
          obtain ⟨r, e, rest'⟩ := x
          rw [parseStrBody_append s' r e rest' t hp]
          simp only [hp, Option.map_some, Option.some.injEq, Prod.mk.injEq] at h ⊢
          exact ⟨h.1, by rw [h.2]⟩
      · rename_i s' hs
        rw [skipWs_append t hs]
        simp only
        split at h
        · simp at h
        · rename_i hd
          rw [if_neg hd]
          split at h
          · rename_i s'' hs'
            rw [skipWs_append t hs']
            simp only [Option.some.injEq, Prod.mk.injEq] at h ⊢
            exact ⟨h.1, by rw [h.2]⟩
          · rename_i hne
            cases hp : parseElems fuel (depth - 1) (skipWs s') with
            | none => simp [hp] at h
            | some x =>
              obtain ⟨l, rest'⟩ := x
              have h2 := ihe (depth - 1) _ l rest' fuel' (by omega) hp
              simp only [hp, Option.map_some, Option.some.injEq, Prod.mk.injEq] at h
              cases hs'' : skipWs s' with
              | nil =>
                rw [hs''] at hp
                cases fuel with
                | zero => simp [parseElems] at hp
                | succ fuel =>
                  cases fuel with
                  | zero => simp [parseElems, parseValue] at hp
                  | succ fuel => simp [parseElems, parseValue, skipWs] at hp
              | cons c u =>
                rw [hs''] at h2 hne
                rw [skipWs_append t hs'']
                rw [List.cons_append] at h2
                split
                · rename_i h'
                  simp only [List.cons.injEq] at h'
                  exact absurd (by rw [h'.1]) (hne u)
                · rw [h2]
                  simp only [Option.map_some, Option.some.injEq, Prod.mk.injEq]
                  exact ⟨h.1, by rw [h.2]⟩
      · rename_i s' hs
        rw [skipWs_append t hs]
        simp only
        split at h
        · simp at h
        · rename_i hd
          rw [if_neg hd]
          split at h
          · rename_i s'' hs'
            rw [skipWs_append t hs']
            simp only [Option.some.injEq, Prod.mk.injEq] at h ⊢
            exact ⟨h.1, by rw [h.2]⟩
          · rename_i hne
            cases hp : parseMembers fuel (depth - 1) (skipWs s') with
            | none => simp [hp] at h
            | some x =>
              obtain ⟨l, rest'⟩ := x
              have h2 := ihm (depth - 1) _ l rest' fuel' (by omega) hp
              simp only [hp, Option.map_some, Option.some.injEq, Prod.mk.injEq] at h
              cases hs'' : skipWs s' with
              | nil =>
                rw [hs''] at hp
                cases fuel with
                | zero => simp [parseMembers] at hp
                | succ fuel => simp [parseMembers, skipWs] at hp
              | cons c u =>
                rw [hs''] at h2 hne
                rw [skipWs_append t hs'']
                rw [List.cons_append] at h2
                split
                · rename_i h'
                  simp only [List.cons.injEq] at h'
                  exact absurd (by rw [h'.1]) (hne u)
                · rw [h2]
                  simp only [Option.map_some, Option.some.injEq, Prod.mk.injEq]
                  exact ⟨h.1, by rw [h.2]⟩
      · rename_i c s' h1 h2 h3 hs
        have key : ∀ (p : Str) (w : Json), (expect p s').map (fun rest => (w, rest)) = some (v, rest) →
            (expect p (s' ++ t)).map (fun rest => (w, rest)) = some (v, rest ++ t) := by
          intro p w h
          cases he : expect p s' with
          | none => simp [he] at h
          | some r =>
            rw [expect_append t he]
            simp only [he, Option.map_some, Option.some.injEq, Prod.mk.injEq] at h ⊢
            exact ⟨h.1, by rw [h.2]⟩
        have keyn : ∀ (b : Bool) (u : Str), (parseNumber b u).map (fun x => (Json.num x.1, x.2)) = some (v, rest) →
            (parseNumber b (u ++ t)).map (fun x => (Json.num x.1, x.2)) = some (v, rest ++ t) := by
          intro b u h
          cases he : parseNumber b u with
          | none => simp [he] at h
          | some r =>
            obtain ⟨n, r⟩ := r
            simp only [he, Option.map_some, Option.some.injEq, Prod.mk.injEq] at h
            have hr : r ≠ [] := by
              rcases hn with hn | hn
              · rw [h.2]; exact hn
              · exact absurd h.1.symm (hn n)
            rw [parseNumber_ext t he hr]
            simp only [Option.map_some, Option.some.injEq, Prod.mk.injEq]
            exact ⟨h.1, by rw [h.2]⟩
        rw [skipWs_append t hs]
        simp only
        by_cases c1 : c = 'n'
        · simp only [c1, if_true] at h ⊢; exact key _ _ h
        · by_cases c2 : c = 't'
          · simp only [c2] at h ⊢; exact key _ _ h
          · by_cases c3 : c = 'f'
            · simp only [c3] at h ⊢; exact key _ _ h
            · by_cases c4 : c = '-'
              · simp only [c4] at h ⊢; exact keyn _ _ h
              · simp only [c1, c2, c3, c4, if_false] at h ⊢
                split at h
                · rename_i c5
                  rw [if_pos c5]
                  exact keyn _ _ h
                · simp at h
    · intro depth s l rest fuel' hf h
      obtain ⟨fuel', rfl⟩ : ∃ f, fuel' = f + 1 := ⟨fuel' - 1, by omega⟩
      rw [parseElems] at h ⊢
      simp only [bind, Option.bind] at h ⊢
      cases hv : parseValue fuel depth s with
      | none => simp [hv] at h
      | some x =>
        obtain ⟨v, s'⟩ := x
        simp only [hv] at h
        have hs' : s' ≠ [] := by
          intro h0; subst h0; simp [skipWs] at h
        rw [ihv depth s v s' fuel' (by omega) hv (.inl hs')]
        simp only
        split at h
        · rename_i u hu
          rw [skipWs_append t hu]
          simp only
          cases hp : parseElems fuel depth u with
          | none => simp [hp] at h
          | some y =>
            obtain ⟨l', rest'⟩ := y
            rw [ihe depth u l' rest' fuel' (by omega) hp]
            simp only [hp, Option.some.injEq, Prod.mk.injEq] at h ⊢
            exact ⟨h.1, by rw [h.2]⟩
        · rename_i u hu
          rw [skipWs_append t hu]
          simp only [Option.some.injEq, Prod.mk.injEq] at h ⊢
          exact ⟨h.1, by rw [h.2]⟩
        · simp at h
    · intro depth s l rest fuel' hf h
      obtain ⟨fuel', rfl⟩ : ∃ f, fuel' = f + 1 := ⟨fuel' - 1, by omega⟩
      rw [parseMembers] at h ⊢
      split at h
      · rename_i s1 hs1
        rw [skipWs_append t hs1]
        simp only [bind, Option.bind] at h ⊢
        cases hk : parseStrBody s1 with
        | none => simp [hk] at h
        | some x =>
          obtain ⟨k, e, s2⟩ := x
          rw [parseStrBody_append s1 k e s2 t hk]
          simp only [hk] at h ⊢
          split at h
          · rename_i s3 hs3
            rw [skipWs_append t hs3]
            simp only
            cases hv : parseValue fuel depth s3 with
            | none => simp [hv] at h
            | some x =>
              obtain ⟨v, s'⟩ := x
              simp only [hv] at h
              have hs' : s' ≠ [] := by
                intro h0; subst h0; simp [skipWs] at h
              rw [ihv depth s3 v s' fuel' (by omega) hv (.inl hs')]
              simp only
              split at h
              · rename_i u hu
                rw [skipWs_append t hu]
                simp only
                cases hp : parseMembers fuel depth u with
                | none => simp [hp] at h
                | some y =>
                  obtain ⟨l', rest'⟩ := y
                  rw [ihm depth u l' rest' fuel' (by omega) hp]
                  simp only [hp, Option.some.injEq, Prod.mk.injEq] at h ⊢
                  exact ⟨h.1, by rw [h.2]⟩
              · rename_i u hu
                rw [skipWs_append t hu]
                simp only [Option.some.injEq, Prod.mk.injEq] at h ⊢
                exact ⟨h.1, by rw [h.2]⟩
              · simp at h
          · simp at h
      · simp at h

/-- An object text is read only once it is complete: no proper prefix of a text that reads as one object to its
very end is itself a JSON document. -/
theorem parse_prefix {p t : Str} {v : Json} (ht : t ≠ []) (hb : ∃ s, p ++ t = '{' :: s)
    (h : Reads 128 (p ++ t) v) : parse p = none := by
  cases hp : parse p with
  | none => rfl
  | some w =>
    exfalso
    unfold parse at hp
    simp only [bind, Option.bind] at hp
    cases hv : parseValue (2 * p.length + 2) 128 p with
    | none => simp [hv] at hp
    | some x =>
      obtain ⟨u, rest⟩ := x
      have hobj : ∀ n, u ≠ .num n := by
        intro n hu
        cases p with
        | nil => simp [parseValue, skipWs] at hv
        | cons c p =>
          obtain ⟨s, hs⟩ := hb
          simp only [List.cons_append, List.cons.injEq] at hs
          rw [hs.1, parseValue, skipWs_of_not_ws (by decide)] at hv
          simp only at hv
          rw [if_neg (by omega)] at hv
          split at hv
          · simp only [Option.some.injEq, Prod.mk.injEq] at hv
            rw [hu] at hv
            exact absurd hv.1 (by simp)
          · cases hm : parseMembers (2 * (List.length ('{' :: p)) + 1) (128 - 1) (skipWs p) with
            | none => simp only [List.length_cons] at hm hv; simp [hm] at hv
            | some y =>
              simp only [List.length_cons] at hm hv
              simp only [hm, Option.map_some, Option.some.injEq, Prod.mk.injEq] at hv
              rw [hu] at hv
              exact absurd hv.1 (by simp)
      have h1 := (extend t _).1 128 p u rest (2 * (p ++ t).length + 2) (by simp; omega) hv (.inr hobj)
      have h2 := h.2 (2 * (p ++ t).length + 2) [] (by omega) rfl
      rw [List.append_nil] at h2
      rw [h1] at h2
      simp only [Option.some.injEq, Prod.mk.injEq, List.append_eq_nil_iff] at h2
      exact ht h2.2.2

end Pfp.Json
