import Verif.Spec.Terminal

/-!
# Relating the model of the terminal to the one with separate inputs
-/

namespace Pfp.Proofs.Term

open Cli Terminal Spec

section Lists

@[simp] theorem linesRead_append (a b : List Event) : linesRead (a ++ b) = linesRead a ++ linesRead b := by
  induction a with
  | nil => rfl
  | cons e a ih => cases e <;> simp [linesRead, ih]

@[simp] theorem secretsRead_append (a b : List Event) : secretsRead (a ++ b) = secretsRead a ++ secretsRead b := by
  induction a with
  | nil => rfl
  | cons e a ih =>
    cases e with
    | read k l => cases k <;> simp [secretsRead, ih]
    | _ => simp [secretsRead, ih]

@[simp] theorem commandsRead_append (a b : List Event) : commandsRead (a ++ b) = commandsRead a ++ commandsRead b := by
  induction a with
  | nil => rfl
  | cons e a ih =>
    cases e with
    | read k l => cases k <;> simp [commandsRead, ih]
    | _ => simp [commandsRead, ih]

@[simp] theorem answersRead_append (T : Dialog) (a b : List Event) :
    answersRead T (a ++ b) = answersRead T a ++ answersRead T b := by
  induction a with
  | nil => rfl
  | cons e a ih =>
    cases e with
    | read k l => cases k <;> simp [answersRead, ih]
    | _ => simp [answersRead, ih]

@[simp] theorem confirmsRead_append (T : Dialog) (a b : List Event) :
    confirmsRead T (a ++ b) = confirmsRead T a ++ confirmsRead T b := by
  induction a with
  | nil => rfl
  | cons e a ih =>
    cases e with
    | read k l =>
      cases k with
      | yesNo q =>
        simp only [List.cons_append, confirmsRead]
        cases T.reply q l <;> simp [ih]
      | _ => simp [confirmsRead, ih]
    | _ => simp [confirmsRead, ih]

@[simp] theorem written_append (a b : List Event) : written (a ++ b) = written a ++ written b := by
  induction a with
  | nil => rfl
  | cons e a ih => cases e <;> simp [written, ih]

@[simp] theorem reported_append (a b : List Event) : reported (a ++ b) = reported a ++ reported b := by
  induction a with
  | nil => rfl
  | cons e a ih => cases e <;> simp [reported, ih]

end Lists

variable {α β : Type}

/-- The line of this kind is read at a prompt asking for it (the shell's prompt is up to a dependency). -/
def Prompted (trace : List Event) : Prop :=
  ∀ tr₁ k line tr₂, trace = tr₁ ++ .read k line :: tr₂ → k ≠ .command → ∃ tr₀ e, tr₁ = tr₀ ++ [e] ∧ Asks k e

/-- One run: `out` and `s'` result from `s`, and `n` does the same with separate inputs. -/
def Match (T : Dialog) (s : TState) (out : COut α) (s' : TState) (n : CM α) (new : List Event) : Prop :=
  s'.trace = s.trace ++ new ∧ s.input = linesRead new ++ s'.input ∧ commandsRead new = [] ∧ Prompted new ∧
  ∀ S Q A o e, (s'.input = [] → S = [] ∧ Q = [] ∧ A = []) →
    n (sorted s.ps (secretsRead new ++ S) (confirmsRead T new ++ Q) (answersRead T new ++ A) o e) =
      (out, sorted s'.ps S Q A (o ++ written new) (e ++ reported new))

/-- Each run of `m` is matched by one of `n`. -/
def SimT (T : Dialog) (m : TM α) (n : CM α) : Prop := ∀ s, ∃ new, Match T s (m s).1 (m s).2 n new

theorem prompted_nil : Prompted [] := by
  intro tr₁ k line tr₂ h
  simp at h

theorem prompted_single {e : Event} (h : ∀ k l, e ≠ .read k l) : Prompted [e] := by
  intro tr₁ k line tr₂ heq _
  cases tr₁ with
  | nil => simp at heq; exact absurd heq.1 (h k line)
  | cons a t => simp at heq

theorem prompted_append {a b : List Event} (ha : Prompted a) (hb : Prompted b) : Prompted (a ++ b) := by
  intro tr₁ k line tr₂ heq hk
  rcases List.append_eq_append_iff.mp heq with ⟨c, hc, hd⟩ | ⟨c, hc, hd⟩
  · obtain ⟨tr₀, e, h1, h2⟩ := hb c k line tr₂ hd hk
    exact ⟨a ++ tr₀, e, by rw [hc, h1, List.append_assoc], h2⟩
  · cases c with
    | nil =>
      simp only [List.nil_append] at hd
      obtain ⟨tr₀, e, h1, h2⟩ := hb [] k line tr₂ (by simpa using hd.symm) hk
      simp at h1
    | cons x c =>
      simp only [List.cons_append, List.cons.injEq] at hd
      obtain ⟨rfl, rfl⟩ := hd
      exact ha tr₁ k line c hc hk

theorem prompted_read {k : Kind} {e : Event} {l : Str} (he : Asks k e) (h : ∀ k l, e ≠ .read k l) :
    Prompted [e, .read k l] := by
  intro tr₁ k' line tr₂ heq _
  match tr₁, heq with
  | [], heq => simp at heq; exact absurd heq.1 (h k' line)
  | [a], heq =>
    simp only [List.cons_append, List.nil_append, List.cons.injEq, Event.read.injEq] at heq
    obtain ⟨rfl, ⟨rfl, rfl⟩, _⟩ := heq
    exact ⟨[], _, rfl, he⟩
  | a :: b :: t, heq => simp at heq

theorem match_refl {T : Dialog} {s : TState} {out : COut α} {n : CM α}
    (h : ∀ S Q A o e, n (sorted s.ps S Q A o e) = (out, sorted s.ps S Q A o e)) : Match T s out s n [] := by
  refine ⟨by simp, by simp [linesRead], rfl, prompted_nil, ?_⟩
  intro S Q A o e _
  simpa [secretsRead, confirmsRead, answersRead, written, reported] using h S Q A o e

/-- Without further lines there are no further inputs. -/
theorem rest_nil {T : Dialog} {s₁ s₂ : TState} {new₂ : List Event} {S : List Str} {Q : List Bool} {A : List (Option Str)}
    (b2 : s₁.input = linesRead new₂ ++ s₂.input) (hcond : s₂.input = [] → S = [] ∧ Q = [] ∧ A = []) :
    s₁.input = [] → secretsRead new₂ ++ S = [] ∧ confirmsRead T new₂ ++ Q = [] ∧ answersRead T new₂ ++ A = [] := by
  intro h0
  rw [b2] at h0
  obtain ⟨hl, hi⟩ := List.append_eq_nil_iff.mp h0
  obtain ⟨rfl, rfl, rfl⟩ := hcond hi
  have key : ∀ t : List Event, linesRead t = [] → secretsRead t = [] ∧ confirmsRead T t = [] ∧ answersRead T t = [] := by
    intro t
    induction t with
    | nil => intro _; exact ⟨rfl, rfl, rfl⟩
    | cons x t ih => cases x <;> simp_all [linesRead, secretsRead, confirmsRead, answersRead]
  simpa using key new₂ hl

/-- Two runs, one after the other. -/
theorem match_trans {T : Dialog} {s s₁ s₂ : TState} {out₁ : COut α} {out₂ : COut β} {n₁ : CM α} {n₂ n : CM β}
    {new₁ new₂ : List Event} (h₁ : Match T s out₁ s₁ n₁ new₁) (h₂ : Match T s₁ out₂ s₂ n₂ new₂)
    (h : ∀ S Q A o e c', n₁ (sorted s.ps (secretsRead new₁ ++ S) (confirmsRead T new₁ ++ Q) (answersRead T new₁ ++ A) o e) =
        (out₁, c') →
      n (sorted s.ps (secretsRead new₁ ++ S) (confirmsRead T new₁ ++ Q) (answersRead T new₁ ++ A) o e) = n₂ c') :
    Match T s out₂ s₂ n (new₁ ++ new₂) := by
  obtain ⟨a1, b1, c1, p1, d1⟩ := h₁
  obtain ⟨a2, b2, c2, p2, d2⟩ := h₂
  refine ⟨by rw [a2, a1, List.append_assoc], by rw [b1, b2]; simp, by simp [c1, c2], prompted_append p1 p2, ?_⟩
  intro S Q A o e hcond
  have hc := rest_nil (T := T) b2 hcond
  have e1 := d1 (secretsRead new₂ ++ S) (confirmsRead T new₂ ++ Q) (answersRead T new₂ ++ A) o e hc
  have e2 := d2 S Q A (o ++ written new₁) (e ++ reported new₁) hcond
  rw [secretsRead_append, confirmsRead_append, answersRead_append, List.append_assoc, List.append_assoc, List.append_assoc,
    h _ _ _ _ _ _ e1, e2]
  simp

/-- The same run of a computation equal to the first. -/
theorem match_of {T : Dialog} {s s' : TState} {out : COut α} {n n' : CM α} {new : List Event}
    (h : Match T s out s' n new) (hn : ∀ S Q A o e, n' (sorted s.ps S Q A o e) = n (sorted s.ps S Q A o e)) :
    Match T s out s' n' new := by
  obtain ⟨a, b, c, p, d⟩ := h
  exact ⟨a, b, c, p, fun S Q A o e hc => by rw [hn, d S Q A o e hc]⟩

/-- The first run fails. -/
theorem match_stop {T : Dialog} {s s' : TState} {out : COut α} {out' : COut β} {n : CM α} {n' : CM β} {new : List Event}
    (h : Match T s out s' n new) (hn : ∀ S Q A o e c',
      n (sorted s.ps (secretsRead new ++ S) (confirmsRead T new ++ Q) (answersRead T new ++ A) o e) = (out, c') →
      n' (sorted s.ps (secretsRead new ++ S) (confirmsRead T new ++ Q) (answersRead T new ++ A) o e) = (out', c')) :
    Match T s out' s' n' new := by
  obtain ⟨a, b, c, p, d⟩ := h
  exact ⟨a, b, c, p, fun S Q A o e hc => hn _ _ _ _ _ _ (d S Q A o e hc)⟩

theorem sim_pure {T : Dialog} (a : α) : SimT T (pure a) (pure a) := fun _ =>
  ⟨[], match_refl fun _ _ _ _ _ => rfl⟩

theorem sim_fail {T : Dialog} (e : CErr) : SimT (α := α) T (TM.fail e) (CM.fail e) := fun _ =>
  ⟨[], match_refl fun _ _ _ _ _ => rfl⟩

theorem sim_bind {T : Dialog} {m : TM α} {n : CM α} {f : α → TM β} {g : α → CM β} (h : SimT T m n)
    (hf : ∀ a, SimT T (f a) (g a)) : SimT T (m >>= f) (n >>= g) := by
  intro s
  obtain ⟨new, hm⟩ := h s
  have hb : (m >>= f) s = match m s with
    | (.ok a, s') => f a s'
    | (.err e, s') => (.err e, s')
    | (.panic, s') => (.panic, s')
    | (.blocked, s') => (.blocked, s') := rfl
  rw [hb]
  revert hm
  rcases m s with ⟨out, s'⟩
  intro hm
  cases out with
  | ok a =>
    obtain ⟨new₂, h₂⟩ := hf a s'
    exact ⟨new ++ new₂, match_trans hm h₂ fun _ _ _ _ _ c' hc => by rw [CM.bind_apply, hc]⟩
  | err e => exact ⟨new, match_stop hm fun _ _ _ _ _ c' hc => by rw [CM.bind_apply, hc]⟩
  | panic => exact ⟨new, match_stop hm fun _ _ _ _ _ c' hc => by rw [CM.bind_apply, hc]⟩
  | blocked => exact ⟨new, match_stop hm fun _ _ _ _ _ c' hc => by rw [CM.bind_apply, hc]⟩

theorem sim_query {T : Dialog} (f : PState → Res α) : SimT T (Terminal.query f) (Cli.query f) := fun _ =>
  ⟨[], match_refl fun _ _ _ _ _ => rfl⟩

theorem sim_call {T : Dialog} (m : M PState α) : SimT T (Terminal.call m) (Cli.call m) := by
  intro s
  refine ⟨[], ?_, ?_, rfl, prompted_nil, ?_⟩
  · simp [Terminal.call]
  · simp [Terminal.call, linesRead]
  · intro S Q A o e _
    simp [Terminal.call, Cli.call, sorted, secretsRead, confirmsRead, answersRead, written, reported]

/-- Something that is not a line read. -/
theorem match_log {T : Dialog} {s : TState} {ev : Event} {out : COut α} {n : CM α} (hr : ∀ k l, ev ≠ .read k l)
    (h : ∀ S Q A o e, n (sorted s.ps S Q A o e) = (out, sorted s.ps S Q A (o ++ written [ev]) (e ++ reported [ev]))) :
    Match T s out (s.log ev) n [ev] := by
  have hl : linesRead [ev] = [] ∧ secretsRead [ev] = [] ∧ confirmsRead T [ev] = [] ∧ answersRead T [ev] = [] ∧
      commandsRead [ev] = [] := by
    cases ev with
    | read k l => exact absurd rfl (hr k l)
    | _ => exact ⟨rfl, rfl, rfl, rfl, rfl⟩
  refine ⟨rfl, by rw [hl.1]; rfl, hl.2.2.2.2, prompted_single hr, ?_⟩
  intro S Q A o e _
  rw [hl.2.1, hl.2.2.1, hl.2.2.2.1]
  exact h S Q A o e

theorem sim_print {T : Dialog} (text : Str) : SimT T (Terminal.print text) (Cli.print text) := by
  intro s
  refine ⟨[.out .buffered text], match_log (by simp) ?_⟩
  intro S Q A o e
  simp [Terminal.print, Cli.print, sorted, written, reported]

theorem sim_write {T : Dialog} (text : Str) : SimT T (Terminal.write text) (Cli.print text) := by
  intro s
  refine ⟨[.out .direct text], match_log (by simp) ?_⟩
  intro S Q A o e
  simp [Cli.print, Terminal.write, sorted, written, reported]

theorem sim_flush {T : Dialog} : SimT T Terminal.flush (pure ()) := by
  intro s
  refine ⟨[.flush], match_log (by simp) ?_⟩
  intro S Q A o e
  show (_, _) = (_, _)
  simp [Terminal.flush, written, reported]

/-- The same computation with separate inputs. -/
theorem sim_of {T : Dialog} {m : TM α} {n n' : CM α} (h : SimT T m n) (hn : ∀ c, n' c = n c) : SimT T m n' := fun s => by
  obtain ⟨new, h⟩ := h s
  exact ⟨new, match_of h fun S Q A o e => hn _⟩

theorem cli_print_append (a b : Str) (c : CState) : Cli.print (a ++ b) c = (Cli.print a >>= fun _ => Cli.print b) c := by
  rw [CM.bind_apply]
  simp [Cli.print]

theorem sim_println {T : Dialog} (text : Str) : SimT T (Terminal.println text) (Cli.println text) := sim_print _

theorem sim_ite {T : Dialog} {p : Prop} [Decidable p] {m m' : TM α} {n n' : CM α} (h : p → SimT T m n)
    (h' : ¬ p → SimT T m' n') : SimT T (if p then m else m') (if p then n else n') := by
  by_cases hp : p
  · rw [if_pos hp, if_pos hp]; exact h hp
  · rw [if_neg hp, if_neg hp]; exact h' hp

/-! ## Prompts -/

theorem sim_promptSecretText {T : Dialog} (prompt : Str) (hp : Asks .secret (.out .direct prompt)) :
    SimT T (Terminal.promptSecretText prompt) (Cli.promptSecretText prompt) := by
  intro s
  cases hs : s.input with
  | nil =>
    refine ⟨[.out .direct prompt], ?_⟩
    have : Terminal.promptSecretText prompt s = (.ok [], s.log (.out .direct prompt)) := by
      simp [Terminal.promptSecretText, TState.log, hs]
    rw [this]
    refine ⟨rfl, by simp [linesRead, TState.log], rfl, prompted_single (by simp), ?_⟩
    intro S Q A o e hc
    obtain ⟨rfl, rfl, rfl⟩ := hc hs
    simp [Cli.promptSecretText, sorted, secretsRead, confirmsRead, answersRead, written, reported, TState.log]
  | cons line rest =>
    refine ⟨[.out .direct prompt, .read .secret line], ?_⟩
    have : Terminal.promptSecretText prompt s = (.ok line, (s.log (.out .direct prompt)).take .secret line rest) := by
      simp [Terminal.promptSecretText, TState.log, hs]
    rw [this]
    refine ⟨by simp [TState.log, TState.take], by simp [linesRead, TState.take, hs], rfl, prompted_read hp (by simp), ?_⟩
    intro S Q A o e hc
    simp [Cli.promptSecretText, sorted, secretsRead, confirmsRead, answersRead, written, reported, TState.log, TState.take]

theorem sim_promptPassword {T : Dialog} (prompt : Str) (b : Bool) (hp : Asks .secret (.out .direct prompt)) :
    SimT T (Terminal.promptPassword prompt b) (Cli.promptPassword prompt b) := by
  intro s
  cases hs : s.input with
  | nil =>
    refine ⟨[.out .direct prompt], ?_⟩
    cases b with
    | true =>
      have : Terminal.promptPassword prompt true s = (.ok (trim []), s.log (.out .direct prompt)) := by
        simp [Terminal.promptPassword, TState.log, hs]
      rw [this]
      refine ⟨rfl, by simp [linesRead, TState.log], rfl, prompted_single (by simp), ?_⟩
      intro S Q A o e hc
      obtain ⟨rfl, rfl, rfl⟩ := hc hs
      simp [Cli.promptPassword, Cli.promptSecretText, CM.bind_apply, sorted, secretsRead, confirmsRead, answersRead, written,
        reported, TState.log]
    | false =>
      have : Terminal.promptPassword prompt false s = (.blocked, s.log (.out .direct prompt)) := by
        simp [Terminal.promptPassword, TState.log, hs]
      rw [this]
      refine ⟨rfl, by simp [linesRead, TState.log], rfl, prompted_single (by simp), ?_⟩
      intro S Q A o e hc
      obtain ⟨rfl, rfl, rfl⟩ := hc hs
      simp [Cli.promptPassword, Cli.print, CM.bind_apply, sorted, secretsRead, confirmsRead, answersRead, written,
        reported, TState.log]
  | cons line rest =>
    refine ⟨[.out .direct prompt, .read .secret line], ?_⟩
    have : Terminal.promptPassword prompt b s = (.ok (trim line), (s.log (.out .direct prompt)).take .secret line rest) := by
      simp [Terminal.promptPassword, TState.log, hs]
    rw [this]
    refine ⟨by simp [TState.log, TState.take], by simp [linesRead, TState.take, hs], rfl, prompted_read hp (by simp), ?_⟩
    intro S Q A o e hc
    simp [Cli.promptPassword, Cli.promptSecretText, CM.bind_apply, sorted, secretsRead, confirmsRead, answersRead, written,
      reported, TState.log, TState.take]

/-- The answers to a question, `asked` being the event asking. -/
theorem match_confirmLoop (T : Dialog) (q : Str) : ∀ (input : List Str) (s : TState) (asked : Event),
    s.input = input → (asked = .out .asked q ∨ asked = .again q) → ∃ new,
      (Terminal.confirmLoop T q input (s.log asked)).2.trace = s.trace ++ asked :: new ∧
      s.input = linesRead new ++ (Terminal.confirmLoop T q input (s.log asked)).2.input ∧
      commandsRead new = [] ∧ Prompted (asked :: new) ∧ secretsRead new = [] ∧ answersRead T new = [] ∧
      written new = [] ∧ reported new = [] ∧ (Terminal.confirmLoop T q input (s.log asked)).2.ps = s.ps ∧
      ((Terminal.confirmLoop T q input (s.log asked)).1 = .blocked ∧ confirmsRead T new = [] ∧
          (Terminal.confirmLoop T q input (s.log asked)).2.input = [] ∨
        ∃ b, (Terminal.confirmLoop T q input (s.log asked)).1 = .ok b ∧ confirmsRead T new = [b]) := by
  intro input
  induction input with
  | nil =>
    intro s asked hs ha
    refine ⟨[], rfl, by simp [linesRead, Terminal.confirmLoop, TM.block, TState.log], rfl, ?_, rfl, rfl, rfl, rfl, rfl,
      .inl ⟨rfl, rfl, hs⟩⟩
    exact prompted_single (by rcases ha with rfl | rfl <;> simp)
  | cons line rest ih =>
    intro s asked hs ha
    have hask : Asks (.yesNo q) asked := by rcases ha with rfl | rfl <;> rfl
    have hnr : ∀ k l, asked ≠ .read k l := by rcases ha with rfl | rfl <;> simp
    cases hr : T.reply q line with
    | some b =>
      have : Terminal.confirmLoop T q (line :: rest) (s.log asked) = (.ok b, (s.log asked).take (.yesNo q) line rest) := by
        simp [Terminal.confirmLoop, hr]
      rw [this]
      exact ⟨[.read (.yesNo q) line], by simp [TState.log, TState.take], by simp [linesRead, TState.take, hs], rfl,
        prompted_read hask hnr, rfl, rfl, rfl, rfl, rfl, .inr ⟨b, rfl, by simp [confirmsRead, hr]⟩⟩
    | none =>
      have : Terminal.confirmLoop T q (line :: rest) (s.log asked) =
          Terminal.confirmLoop T q rest (((s.log asked).take (.yesNo q) line rest).log (.again q)) := by
        simp [Terminal.confirmLoop, hr]
      rw [this]
      obtain ⟨new, h1, h2, h3, h4, h5, h6, h7, h8, h9, h10⟩ :=
        ih ((s.log asked).take (.yesNo q) line rest) (.again q) rfl (.inr rfl)
      refine ⟨.read (.yesNo q) line :: .again q :: new, ?_, ?_, ?_, ?_, ?_, ?_, ?_, ?_, ?_, ?_⟩
      · rw [h1]; simp [TState.log, TState.take]
      · rw [hs]
        have : rest = linesRead new ++ _ := h2
        simp only [linesRead, List.cons_append, List.cons.injEq, true_and]
        exact this
      · simpa [commandsRead] using h3
      · exact prompted_append (prompted_read (l := line) hask hnr) h4
      · simpa [secretsRead] using h5
      · simpa [answersRead] using h6
      · simpa [written] using h7
      · simpa [reported] using h8
      · rw [h9]; rfl
      · simpa [confirmsRead, hr] using h10

theorem sim_confirm {T : Dialog} (q : Str) : SimT T (Terminal.confirm T q) (Cli.confirm q) := by
  intro s
  obtain ⟨new, h1, h2, h3, h4, h5, h6, h7, h8, h9, h10⟩ := match_confirmLoop T q s.input s (.out .asked q) rfl (.inl rfl)
  replace h1 : (Terminal.confirm T q s).2.trace = _ := h1
  replace h2 : s.input = linesRead new ++ (Terminal.confirm T q s).2.input := h2
  replace h9 : (Terminal.confirm T q s).2.ps = _ := h9
  replace h10 : (Terminal.confirm T q s).1 = .blocked ∧ confirmsRead T new = [] ∧ (Terminal.confirm T q s).2.input = [] ∨
    ∃ b, (Terminal.confirm T q s).1 = .ok b ∧ confirmsRead T new = [b] := h10
  refine ⟨.out .asked q :: new, h1, h2, h3, h4, ?_⟩
  intro S Q A o e hc
  rcases h10 with ⟨hb, hq, hi⟩ | ⟨b, hb, hq⟩
  · obtain ⟨rfl, rfl, rfl⟩ := hc hi
    rw [hb, h9]
    simp [Cli.confirm, sorted, secretsRead, confirmsRead, answersRead, written, reported, h5, h6, h7, h8, hq]
  · rw [hb, h9]
    simp [Cli.confirm, sorted, secretsRead, confirmsRead, answersRead, written, reported, h5, h6, h7, h8, hq]

theorem match_taken (T : Dialog) (s : TState) (way : Way) (prompt line : Str) (rest : List Str) (k : Kind) (hs : s.input = line :: rest)
    (hk : k ≠ .command) (hp : Asks k (.out way prompt)) {out : COut α} {n : CM α}
    (h : ∀ S Q A o e, n (sorted s.ps (secretsRead [.read k line] ++ S) (confirmsRead T [.read k line] ++ Q)
      (answersRead T [.read k line] ++ A) o e) = (out, sorted s.ps S Q A (o ++ prompt) e)) :
    Match T s out ((s.log (.out way prompt)).take k line rest) n [.out way prompt, .read k line] := by
  refine ⟨by simp [TState.log, TState.take], by simp [linesRead, TState.take, hs], ?_, prompted_read hp (by simp), ?_⟩
  · cases k <;> first | rfl | exact absurd rfl hk
  · intro S Q A o e _
    have := h S Q A o e
    have h2 : written [.out way prompt, .read k line] = prompt := by simp [written]
    have h3 : reported [.out way prompt, .read k line] = [] := by simp [reported]
    rw [h2, h3, List.append_nil]
    exact this

theorem match_unlockLoop (T : Dialog) (E : Env) : ∀ (input : List Str) (s : TState), s.input = input → ∃ new,
    Match T s (Terminal.unlockLoop E input s).1 (Terminal.unlockLoop E input s).2
      (fun c => Cli.unlockLoop E c.secrets c) new := by
  intro input
  induction input with
  | nil =>
    intro s hs
    by_cases hu : Passwords.unlocked s.ps = true
    · refine ⟨[], ?_⟩
      have : Terminal.unlockLoop E [] s = (.ok (), s) := by simp [Terminal.unlockLoop, hu]
      rw [this]
      refine match_refl fun S Q A o e => ?_
      cases S <;> simp [Cli.unlockLoop, CM.bind_apply, sorted, hu]
    · refine ⟨[.out .direct PRIMARY_PROMPT], ?_⟩
      have : Terminal.unlockLoop E [] s = (.blocked, s.log (.out .direct PRIMARY_PROMPT)) := by simp [Terminal.unlockLoop, hu]
      rw [this]
      refine ⟨rfl, by simp [linesRead, TState.log], rfl, prompted_single (by simp), ?_⟩
      intro S Q A o e hc
      obtain ⟨rfl, rfl, rfl⟩ := hc hs
      simp [Cli.unlockLoop, CM.bind_apply, sorted, hu, Cli.print, secretsRead, confirmsRead, answersRead, written, reported,
        TState.log]
  | cons line rest ih =>
    intro s hs
    by_cases hu : Passwords.unlocked s.ps = true
    · refine ⟨[], ?_⟩
      have : Terminal.unlockLoop E (line :: rest) s = (.ok (), s) := by simp [Terminal.unlockLoop, hu]
      rw [this]
      refine match_refl fun S Q A o e => ?_
      cases S <;> simp [Cli.unlockLoop, CM.bind_apply, sorted, hu]
    · have hp : Asks .secret (.out .direct PRIMARY_PROMPT) := by simp [Asks, PRIMARY_PROMPT]
      by_cases hshort : (utf8 (trim line)).length < 6
      · have : Terminal.unlockLoop E (line :: rest) s = Terminal.unlockLoop E rest
            (((s.log (.out .direct PRIMARY_PROMPT)).take .secret line rest).log (.err (.error .primaryTooShort))) := by
          simp [Terminal.unlockLoop, hu, hshort]
        rw [this]
        obtain ⟨new₂, h₂⟩ := ih
          (((s.log (.out .direct PRIMARY_PROMPT)).take .secret line rest).log (.err (.error .primaryTooShort))) rfl
        have h₁ : Match T s (.ok ()) ((s.log (.out .direct PRIMARY_PROMPT)).take .secret line rest)
            (fun c => (.ok (), { c with secrets := c.secrets.tail, out := c.out ++ PRIMARY_PROMPT }))
            [.out .direct PRIMARY_PROMPT, .read .secret line] :=
          match_taken T s .direct PRIMARY_PROMPT line rest .secret hs (by simp) hp fun S Q A o e => by
            simp [sorted, secretsRead, confirmsRead, answersRead]
        have h₁' : Match T ((s.log (.out .direct PRIMARY_PROMPT)).take .secret line rest) (.ok ())
            (((s.log (.out .direct PRIMARY_PROMPT)).take .secret line rest).log (.err (.error .primaryTooShort)))
            (Cli.report (.error .primaryTooShort)) [.err (.error .primaryTooShort)] :=
          match_log (by simp) fun S Q A o e => by simp [Cli.report, sorted, written, reported]
        refine ⟨_, match_trans h₁ (n₂ := fun c => Cli.unlockLoop E c.secrets
          { c with errors := c.errors ++ [.error .primaryTooShort] })
          (match_trans h₁' h₂ ?_) ?_⟩
        · intro S Q A o e c' hc
          simp only [Cli.report, Prod.mk.injEq, true_and] at hc
          subst hc
          rfl
        · intro S Q A o e c' hc
          simp only [Prod.mk.injEq, true_and] at hc
          subst hc
          simp [Cli.unlockLoop, CM.bind_apply, sorted, hu, Cli.print, hshort, secretsRead]
          rfl
      · obtain ⟨ps', hps⟩ : ∃ ps', (Passwords.unlock E (trim line) s.ps).2 = ps' := ⟨_, rfl⟩
        have h₁ : Match T s (.ok ()) ((s.log (.out .direct PRIMARY_PROMPT)).take .secret line rest)
            (fun c => (.ok (), { c with secrets := c.secrets.tail, out := c.out ++ PRIMARY_PROMPT }))
            [.out .direct PRIMARY_PROMPT, .read .secret line] :=
          match_taken T s .direct PRIMARY_PROMPT line rest .secret hs (by simp) hp fun S Q A o e => by
            simp [sorted, secretsRead, confirmsRead, answersRead]
        generalize hs1 : (s.log (.out .direct PRIMARY_PROMPT)).take .secret line rest = s1 at h₁
        have hs1ps : s1.ps = s.ps := by subst hs1; rfl
        have hs1in : s1.input = rest := by subst hs1; rfl
        have hstep : Terminal.unlockLoop E (line :: rest) s =
            match Passwords.unlock E (trim line) s1.ps with
            | (.panic, ps) => (.panic, { s1 with ps })
            | (.err e, ps) => Terminal.unlockLoop E rest ({ s1 with ps }.log (.err (.error (.lib e))))
            | (.ok _, ps) => Terminal.unlockLoop E rest { s1 with ps } := by
          subst hs1
          simp only [Terminal.unlockLoop, hu, hshort]
          rfl
        have hcli : ∀ S Q A o e, Cli.unlockLoop E (line :: S) (sorted s.ps (line :: S) Q A o e) =
            match Passwords.unlock E (trim line) s.ps with
            | (.panic, ps) => (.panic, sorted ps S Q A (o ++ PRIMARY_PROMPT) e)
            | (.err er, ps) => Cli.unlockLoop E S (sorted ps S Q A (o ++ PRIMARY_PROMPT) (e ++ [.error (.lib er)]))
            | (.ok _, ps) => Cli.unlockLoop E S (sorted ps S Q A (o ++ PRIMARY_PROMPT) e) := by
          intro S Q A o e
          simp only [Cli.unlockLoop, CM.bind_apply, CM.get_apply, sorted, hu, hshort]
          rfl
        rw [hstep, hs1ps]
        revert hcli
        rcases hr : Passwords.unlock E (trim line) s.ps with ⟨r, ps⟩
        cases r with
        | ok a =>
          intro hcli
          obtain ⟨new₂, h₂⟩ := ih { s1 with ps } hs1in
          have h₁' : Match T s1 (.ok ()) { s1 with ps } (fun c => (.ok (), { c with ps })) [] :=
            ⟨by simp, by simp [linesRead], rfl, prompted_nil, fun S Q A o e _ => by
              simp [sorted, secretsRead, confirmsRead, answersRead, written, reported]⟩
          refine ⟨_, match_trans h₁ (match_trans h₁' h₂ (n := fun c => Cli.unlockLoop E c.secrets { c with ps }) ?_) ?_⟩
          · intro S Q A o e c' hc
            simp only [Prod.mk.injEq, true_and] at hc
            subst hc
            rfl
          · intro S Q A o e c' hc
            simp only [Prod.mk.injEq, true_and] at hc
            subst hc
            exact hcli S _ _ o e
        | err er =>
          intro hcli
          obtain ⟨new₂, h₂⟩ := ih ({ s1 with ps }.log (.err (.error (.lib er)))) hs1in
          have h₁' : Match T s1 (.ok ()) ({ s1 with ps }.log (.err (.error (.lib er))))
              (fun c => (.ok (), { c with ps, errors := c.errors ++ [.error (.lib er)] })) [.err (.error (.lib er))] :=
            ⟨rfl, by simp [linesRead, TState.log], rfl, prompted_single (by simp), fun S Q A o e _ => by
              simp [sorted, secretsRead, confirmsRead, answersRead, written, reported, TState.log]⟩
          refine ⟨_, match_trans h₁ (match_trans h₁' h₂
            (n := fun c => Cli.unlockLoop E c.secrets { c with ps, errors := c.errors ++ [.error (.lib er)] }) ?_) ?_⟩
          · intro S Q A o e c' hc
            simp only [Prod.mk.injEq, true_and] at hc
            subst hc
            rfl
          · intro S Q A o e c' hc
            simp only [Prod.mk.injEq, true_and] at hc
            subst hc
            exact hcli S _ _ o e
        | panic =>
          intro hcli
          have h₁' : Match T s1 (.panic : COut Unit) { s1 with ps } (fun c => (.panic, { c with ps })) [] :=
            ⟨by simp, by simp [linesRead], rfl, prompted_nil, fun S Q A o e _ => by
              simp [sorted, secretsRead, confirmsRead, answersRead, written, reported]⟩
          refine ⟨_, match_trans h₁ h₁' ?_⟩
          intro S Q A o e c' hc
          simp only [Prod.mk.injEq, true_and] at hc
          subst hc
          exact hcli S _ _ o e

theorem sim_ensureUnlocked {T : Dialog} (E : Env) : SimT T (Terminal.ensureUnlocked E) (Cli.ensureUnlocked E) := by
  intro s
  by_cases hi : Passwords.initialized s.ps = false
  · refine ⟨[], ?_⟩
    have : Terminal.ensureUnlocked E s = (.err (.lib .storageNotInitialized), s) := by simp [Terminal.ensureUnlocked, hi]
    rw [this]
    exact match_refl fun S Q A o e => by simp [Cli.ensureUnlocked, CM.bind_apply, sorted, hi]
  · obtain ⟨new, h⟩ := match_unlockLoop T E s.input s rfl
    have : Terminal.ensureUnlocked E s = Terminal.unlockLoop E s.input s := by simp [Terminal.ensureUnlocked, hi]
    rw [this]
    exact ⟨new, match_of h fun S Q A o e => by simp [Cli.ensureUnlocked, CM.bind_apply, sorted, hi]⟩

/-! ## Recovery codes -/

/-- `Cli.recoveryLoop` after a line has been read. -/
def cliRest (E : Env) (accepted : Bytes) (line : Str) : CM Str := fun s =>
    if line = [] then (.err .aborted, s)
    else
      match okOr s.ps.primaryPassword .passwordsLocked with
      | .ok primaryPassword =>
        match RecoveryCodes.decode E.prims E.overflowChecks (accepted ++ utf8 line) primaryPassword with
        | .ok value => (.ok value, s)
        | .panic => (.panic, s)
        | .err (.recoveryCodeExtraData n) =>
          match firstLines (RecoveryCodes.formatCode (accepted ++ utf8 line) true) n with
          | none => (.panic, s)
          | some accepted =>
            match Cli.confirm (extraQuestion accepted) s with
            | (.ok true, s) => (convert (RecoveryCodes.decode E.prims E.overflowChecks accepted primaryPassword), s)
            | (.ok false, s) => (.err .aborted, s)
            | (_, s) => (.blocked, s)
        | .err (.recoveryCodeChecksumMismatch n) =>
          match firstLines (RecoveryCodes.formatCode (accepted ++ utf8 line) true) n with
          | none => (.panic, s)
          | some accepted => Cli.recoveryLoop E accepted s.answers { s with errors := s.errors ++ [.typo accepted] }
        | .err .recoveryCodeIncomplete =>
          Cli.recoveryLoop E (RecoveryCodes.formatCode (accepted ++ utf8 line) true) s.answers
            { s with errors := s.errors ++ [.incomplete] }
        | .err e => (.err (.lib e), s)
      | .err e => (.err (.lib e), s)
      | .panic => (.panic, s)

theorem cli_recoveryLoop_some (E : Env) (accepted : Bytes) (line : Str) (rest : List (Option Str)) (s : CState) :
    Cli.recoveryLoop E accepted (some line :: rest) s =
      cliRest E accepted line { s with answers := rest, out := s.out ++ RECOVERY_PROMPT } := rfl

/-- `Terminal.recoveryLoop` after a line has been read. -/
def termRest (T : Dialog) (E : Env) (accepted : Bytes) (line : Str) : TM Str := fun s =>
    if line = [] then (.err .aborted, s)
    else
      match okOr s.ps.primaryPassword .passwordsLocked with
      | .ok primaryPassword =>
        match RecoveryCodes.decode E.prims E.overflowChecks (accepted ++ utf8 line) primaryPassword with
        | .ok value => (.ok value, s)
        | .panic => (.panic, s)
        | .err (.recoveryCodeExtraData n) =>
          match firstLines (RecoveryCodes.formatCode (accepted ++ utf8 line) true) n with
          | none => (.panic, s)
          | some accepted =>
            match Terminal.confirm T (extraQuestion accepted) s with
            | (.ok true, s) => (convert (RecoveryCodes.decode E.prims E.overflowChecks accepted primaryPassword), s)
            | (.ok false, s) => (.err .aborted, s)
            | (_, s) => (.blocked, s)
        | .err (.recoveryCodeChecksumMismatch n) =>
          match firstLines (RecoveryCodes.formatCode (accepted ++ utf8 line) true) n with
          | none => (.panic, s)
          | some accepted => Terminal.recoveryLoop T E accepted s.input (s.log (.err (.typo accepted)))
        | .err .recoveryCodeIncomplete =>
          Terminal.recoveryLoop T E (RecoveryCodes.formatCode (accepted ++ utf8 line) true) s.input
            (s.log (.err .incomplete))
        | .err e => (.err (.lib e), s)
      | .err e => (.err (.lib e), s)
      | .panic => (.panic, s)

theorem term_recoveryLoop_some (T : Dialog) (E : Env) (accepted : Bytes) (typed line : Str) (rest : List Str) (s : TState)
    (h : T.answer typed = some line) :
    Terminal.recoveryLoop T E accepted (typed :: rest) s =
      termRest T E accepted line ((s.log (.out .asked RECOVERY_PROMPT)).take .code typed rest) := by
  simp only [Terminal.recoveryLoop, h]
  rfl

theorem match_termRest (T : Dialog) (E : Env) (accepted : Bytes) (line : Str) (s : TState)
    (ih : ∀ (accepted : Bytes) (s' : TState), s'.input = s.input → ∃ new,
      Match T s' (Terminal.recoveryLoop T E accepted s'.input s').1 (Terminal.recoveryLoop T E accepted s'.input s').2
        (fun c => Cli.recoveryLoop E accepted c.answers c) new) :
    ∃ new, Match T s (termRest T E accepted line s).1 (termRest T E accepted line s).2 (cliRest E accepted line) new := by
  by_cases hl : line = []
  · have : termRest T E accepted line s = (.err .aborted, s) := by simp [termRest, hl]
    rw [this]
    exact ⟨[], match_refl fun S Q A o e => by simp [cliRest, hl]⟩
  · rcases hp : okOr s.ps.primaryPassword .passwordsLocked with pp | er | _
    · have hterm : termRest T E accepted line s = _ := if_neg hl
      rw [hp] at hterm
      dsimp only at hterm
      have hcli : ∀ S Q A o e, cliRest E accepted line (sorted s.ps S Q A o e) = _ := fun S Q A o e => if_neg hl
      have hp' : ∀ S Q A o e, okOr (sorted s.ps S Q A o e).ps.primaryPassword .passwordsLocked = .ok pp := fun _ _ _ _ _ => hp
      simp only [hp'] at hcli
      rcases hd : RecoveryCodes.decode E.prims E.overflowChecks (accepted ++ utf8 line) pp with v | er | _
      · rw [hd] at hterm
        simp only [hd] at hcli
        rw [hterm]
        exact ⟨[], match_refl hcli⟩
      · rw [hd] at hterm
        simp only [hd] at hcli
        cases er with
        | recoveryCodeExtraData n =>
          dsimp only at hterm hcli
          rcases hf : firstLines (RecoveryCodes.formatCode (accepted ++ utf8 line) true) n with _ | acc
          · rw [hf] at hterm
            simp only [hf] at hcli
            rw [hterm]
            exact ⟨[], match_refl hcli⟩
          · rw [hf] at hterm
            simp only [hf] at hcli
            dsimp only at hterm
            obtain ⟨new, hc⟩ := sim_confirm (T := T) (extraQuestion acc) s
            rw [hterm]
            revert hc
            rcases Terminal.confirm T (extraQuestion acc) s with ⟨out, s'⟩
            intro hc
            refine ⟨new, ?_⟩
            rcases out with (_ | _) | er | _ | _
            all_goals
              exact match_stop hc fun S Q A o e c' h => by
                rw [hcli]
                rw [h]
        | recoveryCodeChecksumMismatch n =>
          dsimp only at hterm hcli
          rcases hf : firstLines (RecoveryCodes.formatCode (accepted ++ utf8 line) true) n with _ | acc
          · rw [hf] at hterm
            simp only [hf] at hcli
            rw [hterm]
            exact ⟨[], match_refl hcli⟩
          · rw [hf] at hterm
            simp only [hf] at hcli
            dsimp only at hterm
            obtain ⟨new, h⟩ := ih acc (s.log (.err (.typo acc))) rfl
            have h₁ : Match T s (.ok ()) (s.log (.err (.typo acc))) (Cli.report (.typo acc)) [.err (.typo acc)] :=
              match_log (by simp) fun S Q A o e => by simp [Cli.report, sorted, written, reported]
            rw [hterm]
            refine ⟨_, match_trans h₁ h ?_⟩
            intro S Q A o e c' hc
            simp only [Cli.report, Prod.mk.injEq, true_and] at hc
            subst hc
            rw [hcli]
        | recoveryCodeIncomplete =>
          dsimp only at hterm hcli
          obtain ⟨new, h⟩ := ih (RecoveryCodes.formatCode (accepted ++ utf8 line) true) (s.log (.err .incomplete)) rfl
          have h₁ : Match T s (.ok ()) (s.log (.err .incomplete)) (Cli.report .incomplete) [.err .incomplete] :=
            match_log (by simp) fun S Q A o e => by simp [Cli.report, sorted, written, reported]
          rw [hterm]
          refine ⟨_, match_trans h₁ h ?_⟩
          intro S Q A o e c' hc
          simp only [Cli.report, Prod.mk.injEq, true_and] at hc
          subst hc
          rw [hcli]
        | _ =>
          dsimp only at hterm hcli
          rw [hterm]
          exact ⟨[], match_refl hcli⟩
      · rw [hd] at hterm
        simp only [hd] at hcli
        rw [hterm]
        exact ⟨[], match_refl hcli⟩
    · have : termRest T E accepted line s = (.err (.lib er), s) := by simp [termRest, hl, hp]
      rw [this]
      exact ⟨[], match_refl fun S Q A o e => by simp [cliRest, hl, sorted, hp]⟩
    · have : termRest T E accepted line s = (.panic, s) := by simp [termRest, hl, hp]
      rw [this]
      exact ⟨[], match_refl fun S Q A o e => by simp [cliRest, hl, sorted, hp]⟩

theorem match_recoveryLoop (T : Dialog) (E : Env) : ∀ (input : List Str) (accepted : Bytes) (s : TState), s.input = input →
    ∃ new, Match T s (Terminal.recoveryLoop T E accepted s.input s).1 (Terminal.recoveryLoop T E accepted s.input s).2
      (fun c => Cli.recoveryLoop E accepted c.answers c) new := by
  intro input
  induction input with
  | nil =>
    intro accepted s hs
    refine ⟨[.out .asked RECOVERY_PROMPT], ?_⟩
    rw [hs]
    have : Terminal.recoveryLoop T E accepted [] s = (.blocked, s.log (.out .asked RECOVERY_PROMPT)) := by
      simp [Terminal.recoveryLoop]
    rw [this]
    refine ⟨rfl, by simp [linesRead, TState.log], rfl, prompted_single (by simp), ?_⟩
    intro S Q A o e hc
    obtain ⟨rfl, rfl, rfl⟩ := hc hs
    simp [Cli.recoveryLoop, sorted, secretsRead, confirmsRead, answersRead, written, reported, TState.log]
  | cons typed rest ih =>
    intro accepted s hs
    have h₁ : Match T s (.ok ()) ((s.log (.out .asked RECOVERY_PROMPT)).take .code typed rest)
        (fun c => (.ok (), { c with answers := c.answers.tail, out := c.out ++ RECOVERY_PROMPT }))
        [.out .asked RECOVERY_PROMPT, .read .code typed] :=
      match_taken T s .asked RECOVERY_PROMPT typed rest .code hs (by simp) rfl fun S Q A o e => by
        simp [sorted, secretsRead, confirmsRead, answersRead]
    rw [hs]
    cases ha : T.answer typed with
    | none =>
      have : Terminal.recoveryLoop T E accepted (typed :: rest) s =
          Terminal.recoveryLoop T E accepted rest ((s.log (.out .asked RECOVERY_PROMPT)).take .code typed rest) := by
        simp [Terminal.recoveryLoop, ha]
      rw [this]
      obtain ⟨new, h⟩ := ih accepted ((s.log (.out .asked RECOVERY_PROMPT)).take .code typed rest) rfl
      refine ⟨_, match_trans h₁ h ?_⟩
      intro S Q A o e c' hc
      simp only [Prod.mk.injEq, true_and] at hc
      subst hc
      simp only [sorted, answersRead, ha, List.cons_append, List.nil_append, Cli.recoveryLoop, List.tail_cons]
    | some line =>
      rw [term_recoveryLoop_some T E accepted typed line rest s ha]
      obtain ⟨new, h⟩ := match_termRest T E accepted line ((s.log (.out .asked RECOVERY_PROMPT)).take .code typed rest)
        (fun accepted s' hs' => ih accepted s' hs')
      refine ⟨_, match_trans h₁ h ?_⟩
      intro S Q A o e c' hc
      simp only [Prod.mk.injEq, true_and] at hc
      subst hc
      simp only [sorted, answersRead, ha, List.cons_append, List.nil_append, cli_recoveryLoop_some, List.tail_cons]

theorem sim_promptRecoveryCode {T : Dialog} (E : Env) :
    SimT T (Terminal.promptRecoveryCode T E) (Cli.promptRecoveryCode E) := by
  intro s
  obtain ⟨new, h⟩ := match_recoveryLoop T E s.input [] s rfl
  exact ⟨new, match_of h fun S Q A o e => rfl⟩

/-! ## Commands -/

theorem sim_setPrimary {T : Dialog} (C : CEnv) (b : Bool) : SimT T (Terminal.setPrimary C b) (Cli.setPrimary C b) := by
  refine sim_bind (sim_promptPassword _ b (by simp [Asks])) fun p => sim_ite (fun _ => sim_fail _) fun _ => ?_
  refine sim_bind (sim_promptPassword _ b (by simp [Asks])) fun p' => sim_ite (fun _ => sim_fail _) fun _ => ?_
  exact sim_bind (sim_call _) fun _ => sim_println _

theorem sim_mayOverwrite {T : Dialog} (E : Env) (domain name revision : Str) (yes : Bool) :
    SimT T (Terminal.mayOverwrite T E domain name revision yes) (Cli.mayOverwrite E domain name revision yes) := by
  intro s
  cases yes with
  | true => exact ⟨[], match_refl fun S Q A o e => rfl⟩
  | false =>
    have hterm : Terminal.mayOverwrite T E domain name revision false s =
      match (Passwords.has E s.ps domain name revision).unwrapOr false with
      | .ok true => Terminal.confirm T OVERWRITE_QUESTION s
      | .ok false => (.ok true, s)
      | _ => (.panic, s) := rfl
    have hcli : ∀ S Q A o e, Cli.mayOverwrite E domain name revision false (sorted s.ps S Q A o e) =
      (match (Passwords.has E s.ps domain name revision).unwrapOr false with
      | .ok true => Cli.confirm OVERWRITE_QUESTION
      | .ok false => pure true
      | _ => CM.crash) (sorted s.ps S Q A o e) := by
      intro S Q A o e
      rfl
    rw [hterm]
    revert hcli
    rcases (Passwords.has E s.ps domain name revision).unwrapOr false with (_ | _) | er | _
    · intro hcli; exact ⟨[], match_refl hcli⟩
    · intro hcli
      obtain ⟨new, h⟩ := sim_confirm (T := T) OVERWRITE_QUESTION s
      exact ⟨new, match_of h hcli⟩
    · intro hcli; exact ⟨[], match_refl hcli⟩
    · intro hcli; exact ⟨[], match_refl hcli⟩

theorem sim_add {T : Dialog} (E : Env) (domain name revision : Str) (length : UInt64) (cs : CharacterSet) (yes : Bool) :
    SimT T (Terminal.add T E domain name revision length cs yes) (Cli.add E domain name revision length cs yes) := by
  refine sim_bind (sim_ensureUnlocked E) fun _ => sim_ite (fun _ => sim_fail _) fun _ => ?_
  refine sim_bind (sim_mayOverwrite E domain name revision yes) fun _ => sim_ite (fun _ => ?_) fun _ => sim_pure _
  exact sim_bind (sim_call _) fun _ => sim_println _

theorem sim_addStored {T : Dialog} (E : Env) (b : Bool) (domain name revision : Str) (recovery yes : Bool) :
    SimT T (Terminal.addStored T E b domain name revision recovery yes)
      (Cli.addStored E b domain name revision recovery yes) := by
  refine sim_bind (sim_ensureUnlocked E) fun _ => ?_
  refine sim_bind (sim_mayOverwrite E domain name revision yes) fun _ => sim_ite (fun _ => ?_) fun _ => sim_pure _
  refine sim_ite (fun _ => sim_bind (sim_promptRecoveryCode E) fun _ => ?_)
    fun _ => sim_bind (sim_promptPassword _ b (by simp [Asks])) fun _ => ?_
  all_goals exact sim_bind (sim_call _) fun _ => sim_println _

theorem sim_remove {T : Dialog} (E : Env) (domain name revision : Str) :
    SimT T (Terminal.remove E domain name revision) (Cli.remove E domain name revision) :=
  sim_bind (sim_ensureUnlocked E) fun _ => sim_bind (sim_call _) fun _ => sim_println _

theorem sim_show {T : Dialog} (C : CEnv) (domain name revision : Str) (qrcode : Bool) :
    SimT T (Terminal.show C domain name revision qrcode) (Cli.show C domain name revision qrcode) := by
  refine sim_bind (sim_ensureUnlocked C.env) fun _ => sim_bind (sim_query _) fun password => sim_bind (sim_write _) fun _ => ?_
  refine sim_ite (fun _ => ?_) fun _ => sim_of (sim_bind (sim_write _) fun _ => sim_write _) fun c => cli_print_append _ _ c
  cases C.qr password with
  | some q => exact sim_write _
  | none => exact sim_fail _

theorem sim_notes {T : Dialog} (E : Env) (domain name revision : Str) (set : Bool) :
    SimT T (Terminal.notes E domain name revision set) (Cli.notes E domain name revision set) := by
  refine sim_bind (sim_ensureUnlocked E) fun _ => sim_bind (sim_query _) fun notes => ?_
  have hset : SimT T (if set = true then do
        let notes ← Terminal.promptSecretText (c!"Please enter new notes to be stored:")
        Terminal.call (Passwords.setNotes E domain name revision notes)
        if notes = [] then Terminal.println (c!"Notes removed.") else Terminal.println (c!"Notes stored.")
      else pure ())
      (if set = true then do
        let notes ← Cli.promptSecretText (c!"Please enter new notes to be stored:")
        Cli.call (Passwords.setNotes E domain name revision notes)
        if notes = [] then Cli.println (c!"Notes removed.") else Cli.println (c!"Notes stored.")
      else pure ()) := by
    refine sim_ite (fun _ => ?_) fun _ => sim_pure _
    refine sim_bind (sim_promptSecretText _ (by simp [Asks])) fun _ => sim_bind (sim_call _) fun _ => ?_
    exact sim_ite (fun _ => sim_println _) fun _ => sim_println _
  have hnotes : SimT T (Terminal.writeNotes notes) (Cli.println (c!"Notes for this password: " ++ notes)) :=
    sim_of (sim_bind (sim_write _) fun _ => sim_bind (sim_write _) fun _ => sim_write _) fun c => by
      simp [Cli.println, Cli.print, CM.bind_apply]
  exact sim_ite (fun _ => sim_bind (sim_println _) fun _ => hset) fun _ => sim_bind hnotes fun _ => hset

theorem sim_alias {T : Dialog} (E : Env) (domain : Str) (target : Option Str) (remove : Bool) :
    SimT T (Terminal.alias E domain target remove) (Cli.alias E domain target remove) := by
  refine sim_bind (sim_ensureUnlocked E) fun _ => ?_
  cases target with
  | some t => exact sim_bind (sim_call _) fun _ => sim_println _
  | none =>
    refine sim_ite (fun _ => ?_) fun _ => ?_
    · exact sim_bind (sim_call _) fun _ => sim_println _
    · exact sim_bind (sim_query _) fun _ => sim_println _

theorem sim_printPasswords {T : Dialog} (E : Env) (site : Str) (showValues recovery verbose : Bool) (l : List Password) :
    SimT T (Terminal.printPasswords E site showValues recovery verbose l)
      (Cli.printPasswords E site showValues recovery verbose l) := by
  induction l with
  | nil => exact sim_pure _
  | cons p rest ih =>
    have hvalue : SimT T (Terminal.printValue E site p) (Cli.printValue E site p) :=
      sim_bind (sim_print _) fun _ => sim_of (sim_bind sim_flush fun _ => sim_bind (sim_query _) fun value =>
        sim_of (n' := Cli.println value) (sim_bind (sim_write value) fun _ => sim_println []) fun c => cli_print_append value ['\n'] c)
        fun c => rfl
    have hrec : SimT T (Terminal.printRecovery E p) (Cli.printRecovery E p) := by
      cases p with
      | stored p => exact sim_bind (sim_println _) fun _ => sim_bind (sim_call _) fun _ => sim_print _
      | generated p => exact sim_pure _
    have hdet' : ∀ p : Password, SimT T
        (match p with
        | .generated p => Terminal.printParameters p
        | .stored _ => pure ())
        (match p with
        | .generated p => Cli.printParameters p
        | .stored _ => pure ()) := by
      intro p
      cases p with
      | stored p => exact sim_pure _
      | generated p => exact sim_bind (sim_println _) fun _ => sim_println _
    have hnotes : SimT T (Terminal.printNotes p.notes) (Cli.println (c!"        Notes: " ++ p.notes)) :=
      sim_of (sim_bind (sim_print _) fun _ => sim_bind sim_flush fun _ => sim_bind (sim_write _) fun _ => sim_println []) fun c => by
        simp [Cli.println, Cli.print, CM.bind_apply]
    have hdet : SimT T (Terminal.printDetails p) (Cli.printDetails p) :=
      sim_ite (fun _ => sim_bind hnotes fun _ => hdet' p) fun _ => hdet' p
    have hv : SimT T (if verbose = true then do Terminal.printDetails p; Terminal.printPasswords E site showValues recovery verbose rest
          else do pure (); Terminal.printPasswords E site showValues recovery verbose rest)
        (if verbose = true then do Cli.printDetails p; Cli.printPasswords E site showValues recovery verbose rest
          else do pure (); Cli.printPasswords E site showValues recovery verbose rest) :=
      sim_ite (fun _ => sim_bind hdet fun _ => ih) fun _ => ih
    refine sim_bind (sim_println _) fun _ => ?_
    refine sim_ite (fun _ => sim_bind hvalue fun _ => ?_) fun _ => ?_
    all_goals
      exact sim_ite (fun _ => sim_bind hrec fun _ => hv) fun _ => hv

theorem sim_listLoop {T : Dialog} (E : Env) (name : Str) (showValues recovery verbose : Bool) (candidates : List Site)
    (l : List Str) : SimT T (Terminal.listLoop E name showValues recovery verbose candidates l)
      (Cli.listLoop E name showValues recovery verbose candidates l) := by
  induction l with
  | nil => exact sim_pure _
  | cons site rest ih =>
    refine sim_bind (sim_query _) fun list => sim_ite (fun _ => ?_) fun _ => ?_
    · exact sim_bind ih fun ⟨found, empty⟩ => sim_pure _
    · refine sim_bind (sim_println _) fun _ => ?_
      refine sim_ite (fun _ => sim_bind (sim_println _) fun _ => ?_) fun _ => ?_
      all_goals
        first
        | exact sim_bind (sim_printPasswords E site showValues recovery verbose _) fun _ =>
            sim_bind ih fun ⟨_, empty⟩ => sim_pure _
        | exact sim_bind ih fun ⟨_, empty⟩ => sim_pure _

theorem sim_list {T : Dialog} (E : Env) (domain name : Str) (showValues recovery verbose : Bool) :
    SimT T (Terminal.list E domain name showValues recovery verbose) (Cli.list E domain name showValues recovery verbose) := by
  refine sim_bind (sim_ensureUnlocked E) fun _ => sim_bind (sim_query _) fun matching => ?_
  refine sim_bind (sim_listLoop E name showValues recovery verbose _ _) fun ⟨found, empty⟩ => ?_
  exact sim_bind (sim_call _) fun _ => sim_ite (fun _ => sim_pure _) fun _ => sim_println _

theorem sim_processCommand {T : Dialog} (C : CEnv) (b : Bool) (c : Command) :
    SimT T (Terminal.processCommand T C b c) (Cli.processCommand C b c) := by
  cases c with
  | setPrimary _ => exact sim_setPrimary C b
  | add d n r l c1 c2 c3 c4 y => exact sim_add C.env d n r l _ y
  | addStored d n r rec y => exact sim_addStored C.env b d n r rec y
  | remove d n r => exact sim_remove C.env d n r
  | «show» d n r q => exact sim_show C d n r q
  | notes d n r set => exact sim_notes C.env d n r set
  | list d n v rec w => exact sim_list C.env d n v rec w
  | alias d t rm => exact sim_alias C.env d t rm
  | shell => exact sim_pure _

/-! ## The shell -/

/-- A line of the shell with separate inputs. -/
def cliLine (C : CEnv) (b : Bool) : ShellEvent → CM Unit
  | .noCommand => Cli.report .notUnderstood
  | .exit => pure ()
  | .lock => fun s => (.ok (), { s with ps := Passwords.lock s.ps, out := s.out ++ c!"Passwords locked.\n" })
  | .command .shell => Cli.report .noShell
  | .command (.setPrimary _) => Cli.report .noSetPrimary
  | .command c => fun s =>
    match Cli.processCommand C b c s with
    | (.err e, s') => (.ok (), { s' with errors := s'.errors ++ [.error e] })
    | r => r

theorem cli_shellLoop_cons (C : CEnv) (b : Bool) (ev : ShellEvent) (hev : ev ≠ .exit) (rest : List ShellEvent) (c : CState) :
    Cli.shellLoop C b (ev :: rest) c = match cliLine C b ev c with
      | (.ok _, c') => Cli.shellLoop C b rest c'
      | (.err e, c') => (.err e, c')
      | (.panic, c') => (.panic, c')
      | (.blocked, c') => (.blocked, c') := by
  cases ev with
  | exit => exact absurd rfl hev
  | command cmd =>
    have key : ∀ r : COut Unit × CState,
        (match r with
        | (.ok _, s') => Cli.shellLoop C b rest s'
        | (.err e, s') => Cli.shellLoop C b rest { s' with errors := s'.errors ++ [.error e] }
        | (.panic, s') => (.panic, s')
        | (.blocked, s') => (.blocked, s')) =
        (match (match r with
          | (.err e, s') => (.ok (), { s' with errors := s'.errors ++ [.error e] })
          | r => r : COut Unit × CState) with
        | (.ok _, c') => Cli.shellLoop C b rest c'
        | (.err e, c') => (.err e, c')
        | (.panic, c') => (.panic, c')
        | (.blocked, c') => (.blocked, c')) := by
      rintro ⟨_ | _ | _ | _, s'⟩ <;> rfl
    cases cmd <;> first
      | rfl
      | exact key _
  | _ => rfl

theorem match_processLine {T : Dialog} (C : CEnv) (b : Bool) (c : Command) (s : TState) : ∃ new,
    Match T s
      (match Terminal.processCommand T C b c s with
        | (.err e, s') => ((.ok (), s'.log (.err (.error e))) : COut Unit × TState)
        | (.ok _, s') => (.ok (), s'.log .flush)
        | r => r).1
      (match Terminal.processCommand T C b c s with
        | (.err e, s') => ((.ok (), s'.log (.err (.error e))) : COut Unit × TState)
        | (.ok _, s') => (.ok (), s'.log .flush)
        | r => r).2
      (fun c' => match Cli.processCommand C b c c' with
        | (.err e, s') => (.ok (), { s' with errors := s'.errors ++ [.error e] })
        | r => r) new := by
  obtain ⟨new, h⟩ := sim_processCommand (T := T) C b c s
  revert h
  rcases Terminal.processCommand T C b c s with ⟨out, s'⟩
  intro h
  cases out with
  | err e =>
    have h₂ : Match T s' (.ok ()) (s'.log (.err (.error e))) (Cli.report (.error e)) [.err (.error e)] :=
      match_log (by simp) fun S Q A o e => by simp [Cli.report, sorted, written, reported]
    refine ⟨_, match_trans h h₂ ?_⟩
    intro S Q A o er c' hc
    rw [hc]
    rfl
  | ok a =>
    have h₂ : Match T s' (.ok ()) (s'.log .flush) (pure ()) [.flush] :=
      match_log (by simp) fun S Q A o e => by
        show (_, _) = (_, _)
        simp [written, reported]
    refine ⟨_, match_trans h h₂ ?_⟩
    intro S Q A o er c' hc
    rw [hc]
    rfl
  | panic => exact ⟨new, match_stop h fun _ _ _ _ _ c' hc => by rw [hc]⟩
  | blocked => exact ⟨new, match_stop h fun _ _ _ _ _ c' hc => by rw [hc]⟩

theorem sim_shellLine {T : Dialog} (C : CEnv) (b : Bool) (ev : ShellEvent) :
    SimT T (Terminal.shellLine T C b ev) (cliLine C b ev) := by
  have hrep : ∀ m : Message, SimT T (fun s => (.ok (), s.log (.err m))) (Cli.report m) := fun m s =>
    ⟨[.err m], match_log (by simp) fun S Q A o e => by simp [Cli.report, sorted, written, reported]⟩
  cases ev with
  | noCommand => exact hrep _
  | exit => exact sim_pure _
  | lock =>
    intro s
    refine ⟨[.out .buffered (c!"Passwords locked.\n")], rfl, ?_, rfl, prompted_single (by simp), ?_⟩
    · simp [Terminal.shellLine, linesRead, TState.log]
    · intro S Q A o e _
      simp [Terminal.shellLine, cliLine, sorted, secretsRead, confirmsRead, answersRead, written, reported, TState.log]
  | command c =>
    cases c with
    | shell => exact hrep _
    | setPrimary y => exact hrep _
    | _ => exact fun s => match_processLine C b _ s

/-- A run of the shell. -/
theorem match_shellLoop (T : Dialog) (C : CEnv) (b : Bool) : ∀ (n : Nat) (s : TState), s.input.length ≤ n → ∃ new,
    (Terminal.shellLoop T C b n s).2.trace = s.trace ++ new ∧
    s.input = linesRead new ++ (Terminal.shellLoop T C b n s).2.input ∧ Prompted new ∧
    linesEntered ((commandsRead new).map .line) = commandsRead new ∧
    ∀ S Q A o e, ((Terminal.shellLoop T C b n s).2.input = [] → S = [] ∧ Q = [] ∧ A = []) →
      Cli.shellLoop C b ((commandsRead new).map readLine)
        (sorted s.ps (secretsRead new ++ S) (confirmsRead T new ++ Q) (answersRead T new ++ A) o e) =
        ((Terminal.shellLoop T C b n s).1,
          sorted (Terminal.shellLoop T C b n s).2.ps S Q A (o ++ written new) (e ++ reported new)) := by
  intro n
  induction n with
  | zero =>
    intro s hn
    refine ⟨[], (List.append_nil _).symm, rfl, prompted_nil, rfl, ?_⟩
    intro S Q A o e _
    simp only [secretsRead, confirmsRead, answersRead, commandsRead, written, reported, List.nil_append, List.append_nil]
    rfl
  | succ n ih =>
    intro s hn
    cases hs : s.input with
    | nil =>
      have : Terminal.shellLoop T C b (n + 1) s = (.ok (), s) := by simp [Terminal.shellLoop, hs]
      rw [this]
      refine ⟨[], by simp, by simp [linesRead, hs], prompted_nil, rfl, ?_⟩
      intro S Q A o e _
      simp only [secretsRead, confirmsRead, answersRead, commandsRead, written, reported, List.nil_append, List.append_nil]
      rfl
    | cons line rest =>
      have hread : Prompted [.read .command line] := by
        intro tr₁ k l tr₂ heq hk
        cases tr₁ with
        | nil => simp at heq; exact absurd heq.1.1.symm hk
        | cons a t => simp at heq
      by_cases hx : readLine line = .exit
      · have : Terminal.shellLoop T C b (n + 1) s = (.ok (), s.take .command line rest) := by
          simp [Terminal.shellLoop, hs, hx]
        rw [this]
        refine ⟨[.read .command line], by simp [TState.take], by simp [linesRead, TState.take], hread, ?_, ?_⟩
        · simp [commandsRead, linesEntered, hx]
        · intro S Q A o e _
          simp only [secretsRead, confirmsRead, answersRead, commandsRead, written, reported, List.nil_append,
            List.append_nil, List.map_cons, hx]
          rfl
      · obtain ⟨new₁, h₁⟩ := sim_shellLine (T := T) C b (readLine line) (s.take .command line rest)
        have hstep : Terminal.shellLoop T C b (n + 1) s =
            match Terminal.shellLine T C b (readLine line) (s.take .command line rest) with
            | (.ok _, s) => Terminal.shellLoop T C b n s
            | r => r := by
          simp only [Terminal.shellLoop, hs]
          exact if_neg hx
        rw [hstep]
        revert h₁
        rcases Terminal.shellLine T C b (readLine line) (s.take .command line rest) with ⟨out, s₁⟩
        rintro ⟨a1, b1, c1, p1, d1⟩
        dsimp only at a1 b1 d1
        have hstop : ∀ out', out' = out → (∀ u, out' ≠ .ok u) → ∃ new,
            s₁.trace = s.trace ++ new ∧ line :: rest = linesRead new ++ s₁.input ∧ Prompted new ∧
            linesEntered ((commandsRead new).map .line) = commandsRead new ∧
            ∀ S Q A o e, (s₁.input = [] → S = [] ∧ Q = [] ∧ A = []) →
              Cli.shellLoop C b ((commandsRead new).map readLine)
                (sorted s.ps (secretsRead new ++ S) (confirmsRead T new ++ Q) (answersRead T new ++ A) o e) =
                (out', sorted s₁.ps S Q A (o ++ written new) (e ++ reported new)) := by
          rintro out' rfl hne
          refine ⟨.read .command line :: new₁, ?_, ?_, prompted_append hread p1, ?_, ?_⟩
          · rw [a1]; simp [TState.take]
          · have : rest = _ := b1
            rw [this]; rfl
          · simp [commandsRead, c1, linesEntered, hx]
          · intro S Q A o e hcond
            have e1 := d1 S Q A o e hcond
            simp only [commandsRead, c1, List.map_cons, List.map_nil, secretsRead, confirmsRead, answersRead, written, reported]
            rw [cli_shellLoop_cons C b _ hx]
            replace e1 : cliLine C b (readLine line)
              (sorted s.ps (secretsRead new₁ ++ S) (confirmsRead T new₁ ++ Q) (answersRead T new₁ ++ A) o e) = _ := e1
            rw [e1]
            cases out' with
            | ok u => exact absurd rfl (hne u)
            | _ => rfl
        cases out with
        | ok u =>
          have hlen : s₁.input.length ≤ n := by
            have : rest = linesRead new₁ ++ s₁.input := b1
            have h2 : rest.length = (linesRead new₁).length + s₁.input.length := by rw [this, List.length_append]
            rw [hs, List.length_cons] at hn
            omega
          obtain ⟨new₂, a2, b2, p2, l2, d2⟩ := ih s₁ hlen
          refine ⟨.read .command line :: (new₁ ++ new₂), ?_, ?_, ?_, ?_, ?_⟩
          · rw [a2, a1]; simp [TState.take]
          · have : rest = linesRead new₁ ++ s₁.input := b1
            rw [this, b2]
            simp [linesRead]
          · exact prompted_append hread (prompted_append p1 p2)
          · simp [commandsRead, c1, linesEntered, hx, l2]
          · intro S Q A o e hcond
            have e1 := d1 (secretsRead new₂ ++ S) (confirmsRead T new₂ ++ Q) (answersRead T new₂ ++ A) o e
              (rest_nil b2 hcond)
            have e2 := d2 S Q A (o ++ written new₁) (e ++ reported new₁) hcond
            simp only [commandsRead, commandsRead_append, c1, List.nil_append, List.map_cons, secretsRead, confirmsRead,
              answersRead, written, reported, secretsRead_append, confirmsRead_append, answersRead_append, List.append_assoc,
              written_append, reported_append]
            rw [cli_shellLoop_cons C b _ hx]
            replace e1 : cliLine C b (readLine line) (sorted s.ps (secretsRead new₁ ++ (secretsRead new₂ ++ S))
              (confirmsRead T new₁ ++ (confirmsRead T new₂ ++ Q)) (answersRead T new₁ ++ (answersRead T new₂ ++ A)) o e) = _ := e1
            rw [e1]
            dsimp only
            rw [e2]
            simp
        | err er => exact hstop _ rfl (by simp)
        | panic => exact hstop _ rfl (by simp)
        | blocked => exact hstop _ rfl (by simp)

/-! ## The program -/

/-- One run, with the lines of the shell. -/
def Whole (T : Dialog) (s : TState) (out : COut Unit) (s' : TState) (n : List ShellEvent → CM Unit) (new : List Event) : Prop :=
  s'.trace = s.trace ++ new ∧ s.input = linesRead new ++ s'.input ∧ Prompted new ∧
  linesEntered ((commandsRead new).map .line) = commandsRead new ∧
  ∀ S Q A o e, (s'.input = [] → S = [] ∧ Q = [] ∧ A = []) →
    n ((commandsRead new).map readLine)
        (sorted s.ps (secretsRead new ++ S) (confirmsRead T new ++ Q) (answersRead T new ++ A) o e) =
      (out, sorted s'.ps S Q A (o ++ written new) (e ++ reported new))

theorem whole_after {T : Dialog} {s s₁ s₂ : TState} {out₁ : COut α} {out₂ : COut Unit} {n₁ : CM α}
    {n₂ n : List ShellEvent → CM Unit} {new₁ new₂ : List Event} (h₁ : Match T s out₁ s₁ n₁ new₁)
    (h₂ : Whole T s₁ out₂ s₂ n₂ new₂)
    (h : ∀ ev S Q A o e c', n₁ (sorted s.ps (secretsRead new₁ ++ S) (confirmsRead T new₁ ++ Q) (answersRead T new₁ ++ A) o e) =
        (out₁, c') →
      n ev (sorted s.ps (secretsRead new₁ ++ S) (confirmsRead T new₁ ++ Q) (answersRead T new₁ ++ A) o e) = n₂ ev c') :
    Whole T s out₂ s₂ n (new₁ ++ new₂) := by
  obtain ⟨a1, b1, c1, p1, d1⟩ := h₁
  obtain ⟨a2, b2, p2, l2, d2⟩ := h₂
  refine ⟨by rw [a2, a1, List.append_assoc], by rw [b1, b2]; simp, prompted_append p1 p2, by simp [c1, l2], ?_⟩
  intro S Q A o e hcond
  have e1 := d1 (secretsRead new₂ ++ S) (confirmsRead T new₂ ++ Q) (answersRead T new₂ ++ A) o e (rest_nil b2 hcond)
  have e2 := d2 S Q A (o ++ written new₁) (e ++ reported new₁) hcond
  rw [secretsRead_append, confirmsRead_append, answersRead_append, List.append_assoc, List.append_assoc, List.append_assoc,
    h _ _ _ _ _ _ _ e1, commandsRead_append, c1, List.nil_append, e2]
  simp

theorem whole_of_match {T : Dialog} {s s' : TState} {out : COut α} {out' : COut Unit} {n₁ : CM α}
    {n : List ShellEvent → CM Unit} {new : List Event} (h : Match T s out s' n₁ new)
    (hn : ∀ ev S Q A o e c', n₁ (sorted s.ps (secretsRead new ++ S) (confirmsRead T new ++ Q) (answersRead T new ++ A) o e) =
        (out, c') →
      n ev (sorted s.ps (secretsRead new ++ S) (confirmsRead T new ++ Q) (answersRead T new ++ A) o e) = (out', c')) :
    Whole T s out' s' n new := by
  obtain ⟨a, b, c, p, d⟩ := h
  exact ⟨a, b, p, by simp [c, linesEntered], fun S Q A o e hc => hn _ _ _ _ _ _ _ (d S Q A o e hc)⟩

theorem whole_process (T : Dialog) (C : CEnv) (b : Bool) (c : Command) (s : TState) : ∃ new,
    Whole T s (Terminal.process T C b c s).1 (Terminal.process T C b c s).2 (fun ev => Cli.process C b ev c) new := by
  cases c with
  | shell =>
    have h₁ := fun (t : Str) => match_log (T := T) (s := s) (ev := .out .buffered t) (out := .ok ()) (n := Cli.print t) (by simp)
      fun S Q A o e => by simp [Cli.print, sorted, written, reported]
    have h₂ := fun s : TState => match_log (T := T) (s := s) (ev := .flush) (out := .ok ()) (n := (pure () : CM Unit)) (by simp)
      fun S Q A o e => by
        show (_, _) = (_, _)
        simp [written, reported]
    obtain ⟨new, h⟩ := match_shellLoop T C b s.input.length ((s.log (.out .buffered
      (c!"Enter a command or type 'help' for a list of commands. Enter 'help <command>' for detailed information on a command.\n"))).log
      .flush) (Nat.le_refl _)
    refine ⟨_, whole_after (match_trans (h₁ _) (h₂ _) (n := Cli.print
      (c!"Enter a command or type 'help' for a list of commands. Enter 'help <command>' for detailed information on a command.\n")) ?_)
      (n₂ := Cli.shellLoop C b) h ?_⟩
    · intro S Q A o e c' hc
      rw [hc]
      rfl
    · intro ev S Q A o e c' hc
      simp only [Cli.print, Prod.mk.injEq, true_and] at hc
      subst hc
      rfl
  | _ =>
    obtain ⟨new, h⟩ := sim_processCommand (T := T) C b _ s
    exact ⟨new, whole_of_match h fun ev S Q A o e c' hc => hc⟩

/-- A new `Passwords` instance. -/
theorem match_open (T : Dialog) (s : TState) (ps : PState) :
    Match T s (.ok ()) { s with ps } (fun c => (.ok (), { c with ps })) [] :=
  ⟨by simp, by simp [linesRead], rfl, prompted_nil, fun S Q A o e _ => by
    simp [sorted, secretsRead, confirmsRead, answersRead, written, reported]⟩

theorem whole_open (T : Dialog) (C : CEnv) (b : Bool) (c : Command) (s : TState) (ps : PState) : ∃ new,
    Whole T s (Terminal.process T C b c { s with ps }).1 (Terminal.process T C b c { s with ps }).2
      (fun ev st => Cli.process C b ev c { st with ps }) new := by
  obtain ⟨new, h⟩ := whole_process T C b c { s with ps }
  refine ⟨_, whole_after (match_open T s ps) h ?_⟩
  intro ev S Q A o e c' hc
  simp only [Prod.mk.injEq, true_and] at hc
  subst hc
  rfl

theorem whole_mainInner (T : Dialog) (C : CEnv) (b : Bool) (c : Command) (s : TState) : ∃ new,
    Whole T s (Terminal.mainInner T C b c s).1 (Terminal.mainInner T C b c s).2 (fun ev => Cli.mainInner C b ev c) new := by
  have hother : ∀ c : Command, (∀ y, c ≠ .setPrimary y) → ∃ new,
      Whole T s
        (match FileIO.load s.ps.world.disk with
          | .ok data => Terminal.process T C b c { s with ps := openWith s.ps.world data }
          | .err e => (.err (.lib e), s)
          | .panic => (.panic, s)).1
        (match FileIO.load s.ps.world.disk with
          | .ok data => Terminal.process T C b c { s with ps := openWith s.ps.world data }
          | .err e => (.err (.lib e), s)
          | .panic => (.panic, s)).2
        (fun ev st => match FileIO.load st.ps.world.disk with
          | .ok data => Cli.process C b ev c { st with ps := openWith st.ps.world data }
          | .err e => (.err (.lib e), st)
          | .panic => (.panic, st)) new := by
    intro c _
    have hps : ∀ S Q A o e, (sorted s.ps S Q A o e).ps.world = s.ps.world := fun _ _ _ _ _ => rfl
    rcases hl : FileIO.load s.ps.world.disk with data | er | _
    · obtain ⟨new, h⟩ := whole_open T C b c s (openWith s.ps.world data)
      refine ⟨new, h.1, h.2.1, h.2.2.1, h.2.2.2.1, ?_⟩
      intro S Q A o e hc
      simp only [hps, hl]
      exact h.2.2.2.2 S Q A o e hc
    · refine ⟨[], whole_of_match (α := Unit) (n₁ := CM.fail (.lib er)) (match_refl fun S Q A o e => rfl) ?_⟩
      intro ev S Q A o e c' hc
      simp only [hps, hl]
      exact hc
    · refine ⟨[], whole_of_match (α := Unit) (n₁ := CM.crash) (match_refl fun S Q A o e => rfl) ?_⟩
      intro ev S Q A o e c' hc
      simp only [hps, hl]
      exact hc
  cases c with
  | setPrimary yes =>
    have hps : ∀ S Q A o e, (sorted s.ps S Q A o e).ps.world = s.ps.world := fun _ _ _ _ _ => rfl
    rcases hl : FileIO.load s.ps.world.disk with data | er | _
    · cases yes with
      | true =>
        have : Terminal.mainInner T C b (.setPrimary true) s =
            Terminal.process T C b (.setPrimary true) { s with ps := openWith s.ps.world data } := by
          simp [Terminal.mainInner, hl]
        rw [this]
        obtain ⟨new, h⟩ := whole_open T C b (.setPrimary true) s (openWith s.ps.world data)
        refine ⟨new, h.1, h.2.1, h.2.2.1, h.2.2.2.1, ?_⟩
        intro S Q A o e hc
        simp only [Cli.mainInner, hps, hl]
        exact h.2.2.2.2 S Q A o e hc
      | false =>
        have hterm : Terminal.mainInner T C b (.setPrimary false) s =
            match Terminal.confirm T RESET_QUESTION s with
            | (.ok true, s') => Terminal.process T C b (.setPrimary false) { s' with ps := openWith s.ps.world data }
            | (.ok false, s) => (.ok (), s)
            | (_, s) => (.blocked, s) := by
          simp only [Terminal.mainInner, hl]
          rfl
        have hcli : ∀ ev S Q A o e, Cli.mainInner C b ev (.setPrimary false) (sorted s.ps S Q A o e) =
            match Cli.confirm RESET_QUESTION (sorted s.ps S Q A o e) with
            | (.ok true, s') => Cli.process C b ev (.setPrimary false) { s' with ps := openWith s.ps.world data }
            | (.ok false, s) => (.ok (), s)
            | (_, s) => (.blocked, s) := by
          intro ev S Q A o e
          simp only [Cli.mainInner, hps, hl]
          rfl
        rw [hterm]
        obtain ⟨new, h⟩ := sim_confirm (T := T) RESET_QUESTION s
        revert h
        rcases Terminal.confirm T RESET_QUESTION s with ⟨out, s'⟩
        intro h
        rcases out with (_ | _) | er | _ | _
        · exact ⟨new, whole_of_match h fun ev S Q A o e c' hc => by rw [hcli, hc]⟩
        · obtain ⟨new₂, h₂⟩ := whole_open T C b (.setPrimary false) s' (openWith s.ps.world data)
          exact ⟨_, whole_after h h₂ fun ev S Q A o e c' hc => by rw [hcli, hc]⟩
        · exact ⟨new, whole_of_match h fun ev S Q A o e c' hc => by rw [hcli, hc]⟩
        · exact ⟨new, whole_of_match h fun ev S Q A o e c' hc => by rw [hcli, hc]⟩
        · exact ⟨new, whole_of_match h fun ev S Q A o e c' hc => by rw [hcli, hc]⟩
    · have : Terminal.mainInner T C b (.setPrimary yes) s =
          Terminal.process T C b (.setPrimary yes) { s with ps := openWith s.ps.world [] } := by
        simp [Terminal.mainInner, hl]
      rw [this]
      obtain ⟨new, h⟩ := whole_open T C b (.setPrimary yes) s (openWith s.ps.world [])
      refine ⟨new, h.1, h.2.1, h.2.2.1, h.2.2.2.1, ?_⟩
      intro S Q A o e hc
      simp only [Cli.mainInner, hps, hl]
      exact h.2.2.2.2 S Q A o e hc
    · have : Terminal.mainInner T C b (.setPrimary yes) s = (.panic, s) := by simp [Terminal.mainInner, hl]
      rw [this]
      refine ⟨[], whole_of_match (α := Unit) (n₁ := CM.crash) (match_refl fun S Q A o e => rfl) ?_⟩
      intro ev S Q A o e c' hc
      simp only [Cli.mainInner, hps, hl]
      exact hc
  | _ => exact hother _ (by simp)

theorem filterMap_line (l : List Str) : (l.map Cli.Prompted.line).filterMap Cli.Prompted.event = l.map readLine := by
  induction l with
  | nil => rfl
  | cons a l ih => simp [Cli.Prompted.event, ih]

/-- Waiting at the end. -/
theorem waitEnd_spec (T : Dialog) (wait : Bool) (s : TState) : ∃ new,
    (waitEnd wait s).trace = s.trace ++ new ∧ s.input = linesRead new ++ (waitEnd wait s).input ∧ Prompted new ∧
      (waitEnd wait s).ps = s.ps ∧ commandsRead new = [] ∧ secretsRead new = [] ∧ confirmsRead T new = [] ∧
      answersRead T new = [] ∧ written new = waitText wait ∧ reported new = [] := by
  cases wait with
  | false => exact ⟨[], by simp [waitEnd], by simp [waitEnd, linesRead], prompted_nil, rfl, rfl, rfl, rfl, rfl, rfl, rfl⟩
  | true =>
    cases hs : s.input with
    | nil =>
      have : waitEnd true s = (s.log .flush).log (.out .direct (c!"\nWaiting...\n")) := by simp [waitEnd, TState.log, hs]
      rw [this]
      exact ⟨[.flush] ++ [.out .direct (c!"\nWaiting...\n")], by simp [TState.log], by simp [linesRead, TState.log, hs],
        prompted_append (prompted_single (by simp)) (prompted_single (by simp)), rfl, rfl, rfl, rfl, rfl, rfl, rfl⟩
    | cons line rest =>
      have : waitEnd true s = ((s.log .flush).log (.out .direct (c!"\nWaiting...\n"))).take .wait line rest := by
        simp [waitEnd, TState.log, hs]
      rw [this]
      exact ⟨[.flush] ++ [.out .direct (c!"\nWaiting...\n"), .read .wait line], by simp [TState.log, TState.take],
        by simp [linesRead, TState.take], prompted_append (prompted_single (by simp)) (prompted_read (k := .wait) (e := .out .direct (c!"\nWaiting...\n")) rfl (by simp)), rfl, rfl, rfl,
        rfl, rfl, rfl, rfl⟩

end Pfp.Proofs.Term
