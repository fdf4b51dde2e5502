import Verif.Proofs.Traces
import Verif.Props.Session
import Verif.Props.Published
import Verif.Props.Generic

/-!
# C109: an operation changes only the entries it concerns, and what is removed leaves no trace
-/

namespace Pfp.Props

open Spec Proofs.Traces

variable {E : Env} {U : Universe}

/-- **C109** (any storage).  Whatever is in the storage, whoever wrote it, and whether or not the operation succeeds: the entries which
the operation does not concern stay as they are, to the last character of the ciphertext. -/
theorem C109_others (E : Env) (u : PState) (op : Op) (k : Str) (hk : ¬Touches E u op k) (hn : ∀ a n r t, op ≠ .setNotes a n r t) :
    (after E u op).world.data.get? k = u.world.data.get? k := spares_run u op k hk hn

/-- **C109.** In a storage that nobody has tampered with this holds of notes, too. -/
theorem C109_reachable (hE : E.Lawful) (hS : Secure E U) (u : PState) (hu : Reachable E U u) (op : Op) (hop : op.Within U) (k : Str)
    (hk : ¬Touches E u op k) : (after E u op).world.data.get? k = u.world.data.get? k := by
  by_cases hn : ∃ a n r t, op = .setNotes a n r t
  · obtain ⟨a, n, r, t, rfl⟩ := hn
    refine spares_resolved (a := a) (f := fun h key site => do
      let password ← M.lift (Storage.getPassword E u.world (.new site n r) h key)
      Passwords.onWorld (Storage.setPassword E (password.setNotes t) h key)
      Passwords.onWorld (Storage.flush E)) fun h key hs hh => ?_
    obtain ⟨A, pos, p, V, ho⟩ := reach_open hE hS hu (show u.key.isSome = true by
      unfold Passwords.secrets at hs
      cases hkey : u.key with
      | none => rw [hh, hkey] at hs; cases hs
      | some x => rfl)
    have hs' := secrets_eq ho.session
    rw [hs] at hs'
    cases hs'
    rw [ho.siteMeant_eq hE hS hop.1, M.bind_apply, M.lift_apply, RepVault.new_eq,
      ho.store.vault.get_password hE.prims (keyFor_length hE.prims _ _) (hS.collisionFree _ ho.store.origin)
        (ho.store.vault.idOf_in hop.1 hop.2.1 hop.2.2)]
    cases V.passwords (V.idOf a n r) with
    | none => rfl
    | some e =>
      dsimp only
      refine spares_onWorld (P := fun x => x = passwordName E.prims (secretAt E pos) (siteMeant E u a) n r) u k ?_
        (fun hk' => hk ⟨_, hh, hk'⟩) fun v => flushed v k
      refine spares_set _ _ _ ?_
      rw [passwordName_eq, ho.siteMeant_eq hE hS hop.1, RepVault.new_eq, record_setNotes, RepVault.record_id]
  · exact spares_run u op k hk fun a n r t e => hn ⟨a, n, r, t, e⟩

/-- **C109** (any number of operations).  An entry that is different at the end has been concerned by one of the operations. -/
theorem C109_history (hE : E.Lawful) (hS : Secure E U) (ops : List Op) (u : PState) (hu : Reachable E U u)
    (hops : ∀ op ∈ ops, op.Within U ∧ ∀ p, op ≠ .reset p) (k : Str)
    (hk : (ops.foldl (after E) u).world.data.get? k ≠ u.world.data.get? k) :
    ∃ before op later, ops = before ++ op :: later ∧ Touches E (before.foldl (after E) u) op k := by
  induction ops generalizing u with
  | nil => exact absurd rfl hk
  | cons op ops ih =>
    by_cases ht : Touches E u op k
    · exact ⟨[], op, ops, rfl, ht⟩
    · have hsame := C109_reachable hE hS u hu op (hops op (by simp)).1 k ht
      have hr : Reachable E U (after E u op) := .step hu op (hops op (by simp)).1 fun p e => absurd e ((hops op (by simp)).2 p)
      obtain ⟨before, op', later, h1, h2⟩ := ih (after E u op) hr (fun x hx => hops x (List.mem_cons_of_mem _ hx)) (by
        rw [hsame]
        exact hk)
      exact ⟨op :: before, op', later, by rw [h1]; rfl, h2⟩

/-- Operations about one password leave the meaning of its site and the entry of the site, if there is one. -/
theorem about_step (hE : E.Lawful) (hS : Secure E U) {u : PState} (hu : Reachable E U u) (hk : u.key.isSome = true) {a n r : Str}
    (ha : U.site a) {op : Op} (hop : op.Within U) (hab : About a n r op) :
    siteMeant E (after E u op) a = siteMeant E u a ∧
    ∀ h, u.hmacSecret = some h → ∀ v, u.world.data.get? (siteName E.prims h (siteMeant E u a)) = some v →
      (after E u op).world.data.get? (siteName E.prims h (siteMeant E u a)) = some v := by
  obtain ⟨A, pos, p, V, ho⟩ := reach_open hE hS hu hk
  have hno : ∀ {k : Str}, ¬Touches E u op k → (after E u op).world.data.get? k = u.world.data.get? k :=
    fun h => C109_reachable hE hS u hu op hop _ h
  have hne : ∀ h site, siteName E.prims h site ≠ passwordName E.prims h site n r := fun h site e => by
    rw [passwordName_eq] at e
    exact Storage.siteKey_ne_passwordKey E _ _ _ e
  have hm := ho.siteMeant_eq hE hS ha
  have hput : ∀ e : Entry, Open.Changes E U u A p op ((V.know (V.resolve a)).put (V.idOf a n r) e) →
      siteMeant E (after E u op) a = siteMeant E u a := by
    rintro e ⟨_, _, _, pos', ho'⟩
    rw [ho'.siteMeant_eq hE hS ha, resolve_put, resolve_know, hm]
  have hkeep : ∀ h, u.hmacSecret = some h → ∀ v, u.world.data.get? (siteName E.prims h (siteMeant E u a)) = some v →
      ∃ x, Storage.get E u.world Serde.siteFromJson (Storage.siteKey E (siteMeant E u a) (secretAt E pos))
        (keyFor E.prims p (saltAt E pos)) = .ok x := by
    intro h hh v hv
    rw [ho.session.2.1] at hh
    cases hh
    have hs := ho.store.vault.resolve_in ha
    rw [hm] at hv ⊢
    rw [ho.store.vault.get_site hE.prims (keyFor_length hE.prims _ _) (hS.collisionFree _ ho.store.origin) hs]
    cases hV : V.sites (V.resolve a) with
    | some t => exact ⟨_, rfl⟩
    | none =>
      rw [siteName_eq, ho.store.vault.site_out (hS.collisionFree _ ho.store.origin) hs hV] at hv
      cases hv
  have hsec : ∀ h key, Passwords.secrets u = .ok (h, key) → h = secretAt E pos ∧ key = keyFor E.prims p (saltAt E pos) := by
    intro h key hs
    rw [secrets_eq ho.session] at hs
    cases hs
    exact ⟨rfl, rfl⟩
  have hmiss : ∀ {m : M PState Unit}, Careful m → (m u).1.map (fun _ => Out.unit) = .err .keyMissing → (m u).2 = u :=
    fun hc h => hc u _ (map_err_iff.mp h) (by intro hw; exact hw)
  cases op with
  | setStored a' n' r' v =>
    obtain ⟨rfl, rfl, rfl⟩ := hab
    refine ⟨hput _ (ho.setStored hE hS v hop), fun h hh x hx => ?_⟩
    obtain ⟨y, hy⟩ := hkeep h hh x hx
    rw [← hx]
    refine spares_resolved (a := a') (f := fun h key site => do
      Passwords.onWorld (Storage.ensureSiteData E site h key)
      Passwords.onWorld (Storage.setStored E (.new site n' r' v) h key)
      Passwords.onWorld (Storage.flush E)) fun h' key hs hh' => ?_
    rw [hh] at hh'
    cases hh'
    obtain ⟨rfl, rfl⟩ := hsec _ _ hs
    refine spares_put_known (r := r') (n := n') hy (hne _ _) ?_
    exact spares_set _ _ _ (passwordName_eq _ _ n' r').symm
  | setGenerated a' n' r' len cs =>
    obtain ⟨rfl, rfl, rfl⟩ := hab
    refine ⟨hput _ (ho.setGenerated hE hS len cs hop), fun h hh x hx => ?_⟩
    obtain ⟨y, hy⟩ := hkeep h hh x hx
    rw [← hx]
    refine spares_resolved (a := a') (f := fun h key site => do
      Passwords.onWorld (Storage.ensureSiteData E site h key)
      Passwords.onWorld (Storage.setGenerated E (.new site n' r' len cs) h key)
      Passwords.onWorld (Storage.flush E)) fun h' key hs hh' => ?_
    rw [hh] at hh'
    cases hh'
    obtain ⟨rfl, rfl⟩ := hsec _ _ hs
    refine spares_put_known (r := r') (n := n') hy (hne _ _) ?_
    exact spares_set _ _ _ (passwordName_eq _ _ n' r').symm
  | setNotes a' n' r' t =>
    obtain ⟨rfl, rfl, rfl⟩ := hab
    refine ⟨?_, fun h hh x hx => ?_⟩
    · cases hV : V.passwords (V.idOf a' n' r') with
      | none =>
        have := hmiss (setNotes_careful E a' n' r' t) (ho.setNotes_missing hE hS t hop hV)
        rw [show after E u (.setNotes a' n' r' t) = u from this]
      | some e =>
        obtain ⟨_, _, _, pos', ho'⟩ := ho.setNotes hE hS t hop hV
        rw [ho'.siteMeant_eq hE hS ha, resolve_put, hm]
    · rw [hno ?_, hx]
      rintro ⟨h', hh', e⟩
      rw [hh] at hh'
      cases hh'
      exact hne _ _ e
  | remove a' n' r' =>
    obtain ⟨rfl, rfl, rfl⟩ := hab
    refine ⟨?_, fun h hh x hx => ?_⟩
    · cases hV : V.passwords (V.idOf a' n' r') with
      | none =>
        have := hmiss (remove_passwords_careful E a' n' r') (ho.remove_missing hE hS hop hV)
        rw [show after E u (.remove a' n' r') = u from this]
      | some e =>
        obtain ⟨_, _, _, pos', ho'⟩ := ho.remove hE hS hop hV
        rw [ho'.siteMeant_eq hE hS ha, resolve_delete, hm]
    · rw [hno ?_, hx]
      rintro ⟨h', hh', e⟩
      rw [hh] at hh'
      cases hh'
      exact hne _ _ e
  | getAlias => exact ⟨rfl, fun _ _ _ h => h⟩
  | has => exact ⟨rfl, fun _ _ _ h => h⟩
  | get => exact ⟨rfl, fun _ _ _ h => h⟩
  | getNotes => exact ⟨rfl, fun _ _ _ h => h⟩
  | list => exact ⟨rfl, fun _ _ _ h => h⟩
  | listSites => exact ⟨rfl, fun _ _ _ h => h⟩
  | _ => exact hab.elim

theorem about_always {a n r : Str} {op : Op} (h : About a n r op) : op.always = false := by
  cases op <;> first | rfl | exact h.elim

theorem nodup_of_map {α β : Type} {f : α → β} : ∀ {l : List α}, (l.map f).Nodup → l.Nodup
  | [], _ => .nil
  | x :: l, h => by
    rw [List.map_cons, List.nodup_cons] at h
    exact List.nodup_cons.mpr ⟨fun hx => h.1 (List.mem_map_of_mem hx), nodup_of_map h.2⟩

/-- Operations about one password concern its entry and the one of its site only. -/
theorem about_touches {u : PState} {a n r : Str} {op : Op} (h : About a n r op) {k : Str} (ht : Touches E u op k) :
    ∃ h, u.hmacSecret = some h ∧ (k = siteName E.prims h (siteMeant E u a) ∨ k = passwordName E.prims h (siteMeant E u a) n r) := by
  cases op with
  | setStored a' n' r' v => obtain ⟨rfl, rfl, rfl⟩ := h; exact ht
  | setGenerated a' n' r' len cs => obtain ⟨rfl, rfl, rfl⟩ := h; exact ht
  | setNotes a' n' r' t =>
    obtain ⟨rfl, rfl, rfl⟩ := h
    obtain ⟨h, h1, h2⟩ := ht
    exact ⟨h, h1, .inr h2⟩
  | remove a' n' r' =>
    obtain ⟨rfl, rfl, rfl⟩ := h
    obtain ⟨h, h1, h2⟩ := ht
    exact ⟨h, h1, .inr h2⟩
  | _ => first | exact ht.elim | exact h.elim

/-- There is no entry if the program says so. -/
theorem no_entry (hE : E.Lawful) (hS : Secure E U) {u : PState} (hu : Reachable E U u) {a n r : Str} (hw : U.site a ∧ U.name n ∧ U.revision r)
    (hno : ask E u (.has a n r) = .ok (.bool false)) {h : Bytes} (hh : u.hmacSecret = some h) :
    u.world.data.get? (passwordName E.prims h (siteMeant E u a) n r) = none := by
  obtain ⟨A, pos, p, V, ho⟩ := open_of_ok' hE hS hu rfl (by simp) hno
  rw [ho.session.2.1] at hh
  cases hh
  rw [ho.ask_has hE hS hw.1 hw.2.1 hw.2.2] at hno
  rw [passwordName_eq, ho.siteMeant_eq hE hS hw.1, RepVault.new_eq]
  refine ho.store.vault.password_out (hS.collisionFree _ ho.store.origin) (ho.store.vault.idOf_in hw.1 hw.2.1 hw.2.2) ?_
  cases hV : V.passwords (V.idOf a n r) with
  | none => rfl
  | some e => rw [hV] at hno; cases hno

theorem about_all (hE : E.Lawful) (hS : Secure E U) {a n r : Str} (ha : U.site a) {h : Bytes} (ops : List Op) :
    ∀ u : PState, Reachable E U u → u.key.isSome = true → u.hmacSecret = some h → (∀ op ∈ ops, op.Within U ∧ About a n r op) →
      Reachable E U (ops.foldl (after E) u) ∧ (ops.foldl (after E) u).hmacSecret = some h ∧
      siteMeant E (ops.foldl (after E) u) a = siteMeant E u a ∧
      (∀ v, u.world.data.get? (siteName E.prims h (siteMeant E u a)) = some v →
        (ops.foldl (after E) u).world.data.get? (siteName E.prims h (siteMeant E u a)) = some v) ∧
      ∀ k, k ≠ siteName E.prims h (siteMeant E u a) → k ≠ passwordName E.prims h (siteMeant E u a) n r →
        (ops.foldl (after E) u).world.data.get? k = u.world.data.get? k := by
  induction ops with
  | nil => exact fun u hu _ hh _ => ⟨hu, hh, rfl, fun _ hv => hv, fun _ _ _ => rfl⟩
  | cons op ops ih =>
    intro u hu hk hh hops
    obtain ⟨hop, hab⟩ := hops op (by simp)
    obtain ⟨s1, s2, -⟩ := run_sameSession E op (about_always hab) u
    obtain ⟨g1, g2⟩ := about_step hE hS hu hk ha hop hab
    have hr : Reachable E U (after E u op) := .step hu op hop fun p e => by rw [e] at hab; exact hab.elim
    obtain ⟨i1, i2, i3, i4, i5⟩ := ih (after E u op) hr (by rw [s1]; exact hk) (by rw [s2]; exact hh)
      fun x hx => hops x (List.mem_cons_of_mem _ hx)
    rw [g1] at i3 i4 i5
    refine ⟨i1, i2, i3, fun v hv => i4 v (g2 h hh v hv), fun k h1 h2 => (i5 k h1 h2).trans ?_⟩
    refine C109_reachable hE hS u hu op hop k fun ht => ?_
    obtain ⟨h', hh', e⟩ := about_touches hab ht
    rw [hh] at hh'
    cases hh'
    exact e.elim h1 h2

/-- **C109** (no trace).  A password that did not exist is added, with notes, changed, looked up and removed, in whatever order, and in
the end it does not exist.  Then the storage has exactly the entries it had before, with the same values; except that there may be an
entry for its site if there was none. -/
theorem C109_gone (hE : E.Lawful) (hS : Secure E U) (u : PState) (hu : Reachable E U u) (a n r : Str)
    (hw : U.site a ∧ U.name n ∧ U.revision r) (ops : List Op) (hops : ∀ op ∈ ops, op.Within U ∧ About a n r op)
    (hbefore : ask E u (.has a n r) = .ok (.bool false)) (hafter : ask E (ops.foldl (after E) u) (.has a n r) = .ok (.bool false)) :
    ∃ h, u.hmacSecret = some h ∧ ∀ k, k ≠ siteName E.prims h (siteMeant E u a) ∨ (u.world.data.get? k).isSome = true →
      (ops.foldl (after E) u).world.data.get? k = u.world.data.get? k := by
  obtain ⟨A, pos, p, V, ho⟩ := open_of_ok' hE hS hu rfl (by simp) hbefore
  have hh := ho.session.2.1
  have hk : u.key.isSome = true := by rw [ho.session.1]; rfl
  obtain ⟨g1, g2, g3, g4, g5⟩ := about_all hE hS hw.1 ops u hu hk hh hops
  refine ⟨_, hh, fun k hcase => ?_⟩
  by_cases h1 : k = siteName E.prims (secretAt E pos) (siteMeant E u a)
  · subst h1
    rcases hcase with hcase | hcase
    · exact absurd rfl hcase
    · obtain ⟨v, hv⟩ := Option.isSome_iff_exists.mp hcase
      rw [g4 v hv, hv]
  · by_cases h2 : k = passwordName E.prims (secretAt E pos) (siteMeant E u a) n r
    · subst h2
      rw [no_entry hE hS hu hw hbefore hh]
      have := no_entry hE hS g1 hw hafter g2
      rwa [g3] at this
    · exact g5 k h1 h2

theorem remove_last (hE : E.Lawful) (hS : Secure E U) {u : PState} (hu : Reachable E U u) {a n r : Str}
    (hw : U.site a ∧ U.name n ∧ U.revision r) {ops : List Op} (hops : ∀ op ∈ ops, op.Within U ∧ About a n r op)
    (hbefore : ask E u (.has a n r) = .ok (.bool false))
    (hlast : ask E (ops.foldl (after E) u) (.remove a n r) = .ok .unit) :
    Reachable E U (ops.foldl (after E) u) ∧
    ask E ((ops ++ [Op.remove a n r]).foldl (after E) u) (.has a n r) = .ok (.bool false) ∧
    ∀ op ∈ ops ++ [Op.remove a n r], op.Within U ∧ About a n r op := by
  obtain ⟨A, pos, p, V, ho⟩ := open_of_ok' hE hS hu rfl (by simp) hbefore
  have hk : u.key.isSome = true := by rw [ho.session.1]; rfl
  have hr := (about_all hE hS hw.1 ops u hu hk ho.session.2.1 hops).1
  refine ⟨hr, ?_, fun op hop => ?_⟩
  · rw [List.foldl_append]
    exact (C23_removed hE hS _ hr a n r hw.1 hw.2.1 hw.2.2 hlast).1
  · rcases List.mem_append.mp hop with h | h
    · exact hops op h
    · obtain rfl := List.mem_singleton.mp h
      exact ⟨hw, rfl, rfl, rfl⟩

/-- **C109** (the file).  When a password that did not exist has been added, and then removed with success, the file written then
contains exactly what the storage contained before; except that there may be an entry for its site if there was none. -/
theorem C109_file (hE : E.Lawful) (hS : Secure E U) (u : PState) (hu : Reachable E U u) (a n r : Str)
    (hw : U.site a ∧ U.name n ∧ U.revision r) (ops : List Op) (hops : ∀ op ∈ ops, op.Within U ∧ About a n r op)
    (hbefore : ask E u (.has a n r) = .ok (.bool false))
    (hlast : ask E (ops.foldl (after E) u) (.remove a n r) = .ok .unit) :
    ∃ h d, u.hmacSecret = some h ∧ FileIO.load ((ops ++ [Op.remove a n r]).foldl (after E) u).world.disk = .ok d ∧
      (∀ k, k ≠ siteName E.prims h (siteMeant E u a) ∨ (u.world.data.get? k).isSome = true → d.get? k = u.world.data.get? k) ∧
      ((u.world.data.get? (siteName E.prims h (siteMeant E u a))).isSome = true → d.Perm u.world.data) := by
  obtain ⟨hr, hgone, hall⟩ := remove_last hE hS hu hw hops hbefore hlast
  obtain ⟨h, hh, hsame⟩ := C109_gone hE hS u hu a n r hw _ hall hbefore hgone
  obtain ⟨d, hd, hp⟩ := C35_written hE _ (distinct_reach hE hS hr) (.remove a n r) (.inl rfl) hlast
  have hfin : (ops ++ [Op.remove a n r]).foldl (after E) u = after E (ops.foldl (after E) u) (.remove a n r) := by
    rw [List.foldl_append]; rfl
  rw [hfin] at hsame ⊢
  have hdist : (d.map (·.1)).Nodup := (hp.map _).nodup_iff.mpr (changes_written E _ _ rfl _ hlast |>.2.2 (distinct_reach hE hS hr))
  refine ⟨h, d, hh, hd, fun k hk => ?_, fun hs => ?_⟩
  · rw [Data.get?_perm hp hdist]
    exact hsame k hk
  · refine (List.perm_ext_iff_of_nodup (nodup_of_map hdist) (nodup_of_map (distinct_reach hE hS hu))).mpr fun ⟨k, v⟩ => ?_
    rw [← Data.get?_iff hdist, ← Data.get?_iff (distinct_reach hE hS hu), Data.get?_perm hp hdist, hsame k ?_]
    by_cases e : k = siteName E.prims h (siteMeant E u a)
    · exact .inr (e ▸ hs)
    · exact .inl e

theorem erased (k : Str) (w : World) : (FileIO.remove k w).2.data.get? k = none := by
  unfold FileIO.remove
  split
  · exact (Data.get?_erase _ _ _).trans (if_pos rfl)
  · rename_i hc
    cases hg : w.data.get? k with
    | none => rfl
    | some x => exact absurd (by rw [Data.contains, hg]; rfl) hc

/-- A site that has been removed has no entry. -/
theorem site_removed {v : PState} {h : Bytes} (hh : v.hmacSecret = some h) (s : Str) :
    (after E v (.removeSites [s])).world.data.get? (siteName E.prims h s) = none := by
  show (Passwords.removeSites E [s] v).2.world.data.get? _ = none
  unfold Passwords.removeSites Passwords.removeSitesLoop Passwords.removeSitesLoop
  rw [if_neg (by simp), M.bind_apply, M.get_apply]
  dsimp only
  rw [hh, M.bind_apply, M.lift_apply]
  dsimp only [okOr]
  rw [M.bind_apply]
  generalize hm : Passwords.onWorld _ v = q
  have hq : q.2.world.data.get? (siteName E.prims h s) = none := by
    rw [← hm]
    have := erased (siteName E.prims h s) v.world
    unfold Passwords.onWorld
    rw [M.bind_apply]
    unfold Storage.removeSite Storage.remove
    rw [← siteName_eq]
    generalize FileIO.remove (siteName E.prims h s) v.world = z at this
    obtain ⟨z1, z2⟩ := z
    cases z1 <;> exact this
  obtain ⟨q1, q2⟩ := q
  cases q1 with
  | ok x => exact (flushed q2 _).trans hq
  | err e => exact hq
  | panic => exact hq

/-- **C109** (the site).  If there was no entry for the site, then there is nothing left when that has been removed as well, as the
command `list` offers to do. -/
theorem C109_site (hE : E.Lawful) (hS : Secure E U) (u : PState) (hu : Reachable E U u) (a n r : Str)
    (hw : U.site a ∧ U.name n ∧ U.revision r) (ops : List Op) (hops : ∀ op ∈ ops, op.Within U ∧ About a n r op)
    (hbefore : ask E u (.has a n r) = .ok (.bool false)) (hafter : ask E (ops.foldl (after E) u) (.has a n r) = .ok (.bool false))
    (hsite : ∀ h, u.hmacSecret = some h → u.world.data.get? (siteName E.prims h (siteMeant E u a)) = none) (k : Str) :
    (after E (ops.foldl (after E) u) (.removeSites [siteMeant E u a])).world.data.get? k = u.world.data.get? k := by
  obtain ⟨h, hh, hsame⟩ := C109_gone hE hS u hu a n r hw ops hops hbefore hafter
  obtain ⟨A, pos, p, V, ho⟩ := open_of_ok' hE hS hu rfl (by simp) hbefore
  have hk : u.key.isSome = true := by rw [ho.session.1]; rfl
  have hh' := (about_all hE hS hw.1 ops u hu hk hh hops).2.1
  by_cases e : k = siteName E.prims h (siteMeant E u a)
  · rw [e, site_removed hh', hsite h hh]
  · refine (C109_others E _ _ k ?_ (by simp)).trans (hsame k (.inl e))
    rintro ⟨h', e', site, hs, ht⟩
    rw [hh'] at e'
    cases e'
    rw [List.mem_singleton.mp hs] at ht
    exact e ht

theorem alias_erased {site : Str} {h key : Bytes} {w : World} (hok : (Storage.removeAlias E site h key w).1 = .ok ()) :
    (Storage.removeAlias E site h key w).2.data.get? (siteName E.prims h site) = none := by
  unfold Storage.removeAlias at hok ⊢
  rw [M.bind_apply, M.get_apply] at hok ⊢
  dsimp only at hok ⊢
  rw [M.bind_apply, M.lift_apply] at hok ⊢
  generalize (Storage.get E w Serde.siteFromJson (Storage.siteKey E site h) key).mapErr .noSuchAlias = g at hok ⊢
  cases g with
  | err e => cases hok
  | panic => cases hok
  | ok x =>
    dsimp only at hok ⊢
    split at hok
    · cases hok
    · rename_i hn
      rw [if_neg hn, siteName_eq]
      exact erased _ w

/-- An alias that has been removed has no entry. -/
theorem alias_removed {v : PState} (hok : ask E v (.removeAlias a) = .ok .unit) {h : Bytes} (hh : v.hmacSecret = some h) :
    (after E v (.removeAlias a)).world.data.get? (siteName E.prims h (canonical a)) = none := by
  have hok' : (Passwords.removeAlias E a v).1 = .ok () := by
    have : (Passwords.removeAlias E a v).1.map (fun _ => Out.unit) = .ok .unit := hok
    cases hq : (Passwords.removeAlias E a v).1 with
    | ok x => rfl
    | err e => rw [hq] at this; cases this
    | panic => rw [hq] at this; cases this
  show (Passwords.removeAlias E a v).2.world.data.get? _ = none
  unfold Passwords.removeAlias at hok' ⊢
  rw [M.bind_apply, M.get_apply] at hok' ⊢
  dsimp only at hok' ⊢
  rw [M.bind_apply, M.lift_apply] at hok' ⊢
  cases hs : Passwords.secrets v with
  | err e => rw [hs] at hok'; cases hok'
  | panic => rw [hs] at hok'; cases hok'
  | ok x =>
    obtain ⟨h', key⟩ := x
    have e := secrets_ok hs
    rw [hh] at e
    cases e
    rw [hs] at hok'
    dsimp only at hok' ⊢
    rw [M.bind_apply] at hok' ⊢
    have hgone := alias_erased (E := E) (site := Storage.normalizeSite a) (h := h') (key := key) (w := v.world)
    unfold Passwords.onWorld at hok' ⊢
    rw [show canonical a = Storage.normalizeSite a from (RepVault.normalizeSite_eq a).symm]
    generalize Storage.removeAlias E (Storage.normalizeSite a) h' key v.world = z at hok' hgone ⊢
    obtain ⟨z1, z2⟩ := z
    cases z1 with
    | err e => cases hok'
    | panic => cases hok'
    | ok x => exact (flushed { v with world := z2 } _).trans (hgone rfl)

/-- **C109** (an alias).  Whatever is in the storage: an alias that is set for a site without an entry, and then removed, leaves
nothing. -/
theorem C109_alias (E : Env) (u : PState) (a b : Str)
    (hsite : ∀ h, u.hmacSecret = some h → u.world.data.get? (siteName E.prims h (canonical a)) = none)
    (hok : ask E (after E u (.setAlias a b)) (.removeAlias a) = .ok .unit) (k : Str) :
    (after E (after E u (.setAlias a b)) (.removeAlias a)).world.data.get? k = u.world.data.get? k := by
  have hsec : (after E u (.setAlias a b)).hmacSecret = u.hmacSecret := (run_sameSession E (.setAlias a b) rfl u).2.1
  cases hh : u.hmacSecret with
  | none =>
    refine (C109_others E _ _ k ?_ (by simp)).trans (C109_others E _ _ k ?_ (by simp)) <;> rintro ⟨h, e, -⟩
    · rw [hsec, hh] at e; cases e
    · rw [hh] at e; cases e
  | some h =>
    by_cases e : k = siteName E.prims h (canonical a)
    · rw [e, alias_removed hok (hsec.trans hh), hsite h hh]
    · refine (C109_others E _ _ k ?_ (by simp)).trans (C109_others E _ _ k ?_ (by simp)) <;> rintro ⟨h', e', hk⟩
      · rw [hsec, hh] at e'; cases e'; exact e hk
      · rw [hh] at e'; cases e'; exact e hk

/-! ## Examples -/

section Examples

/-- A password is added to a site that has one, gets notes, is replaced, looked up and removed. -/
def comeAndGone : List Op :=
  [.setStored (c!"a") (c!"v") [] (c!"y"), .setNotes (c!"a") (c!"v") [] (c!"n"), .setGenerated (c!"a") (c!"v") [] 8 ⟨true, false, false, false⟩,
    .get (c!"a") (c!"v") []]

theorem comeAndGone_about : ∀ op ∈ comeAndGone, op.Within Toy.univ ∧ About (c!"a") (c!"v") [] op := by
  have hv : Toy.univ.name (c!"v") := by show _ ∈ Toy.names; decide
  intro op hop
  simp only [comeAndGone, List.mem_cons, List.not_mem_nil, or_false] at hop
  rcases hop with rfl | rfl | rfl | rfl <;> refine ⟨?_, ?_⟩ <;> first | exact ⟨Toy.site_a, hv, Toy.revision_nil⟩ | exact ⟨rfl, rfl, rfl⟩ | trivial

/-- The file has then the entries from before. -/
example : ask Toy.env (comeAndGone.foldl (after Toy.env) Toy.one) (.has (c!"a") (c!"v") []) = .ok (.bool true) ∧
    ∃ d, FileIO.load ((comeAndGone ++ [Op.remove (c!"a") (c!"v") []]).foldl (after Toy.env) Toy.one).world.disk = .ok d ∧
      d.Perm Toy.one.world.data := by
  refine ⟨by decide +kernel, ?_⟩
  obtain ⟨h, d, hh, hd, -, hp⟩ := C109_file Toy.env_lawful Toy.secure Toy.one Toy.one_reachable (c!"a") (c!"v") []
    ⟨Toy.site_a, by show _ ∈ Toy.names; decide, Toy.revision_nil⟩ comeAndGone comeAndGone_about (by decide +kernel) (by decide +kernel)
  refine ⟨d, hd, hp ?_⟩
  have : Toy.one.hmacSecret = some (FileIO.randBytes Toy.env 16 32) := by decide +kernel
  rw [this] at hh
  cases hh
  decide +kernel

/-- An alias leaves nothing, either. -/
example : (∀ h, Toy.one.hmacSecret = some h → Toy.one.world.data.get? (siteName Toy.env.prims h (canonical (c!"b"))) = none) ∧
    ask Toy.env (after Toy.env Toy.one (.setAlias (c!"b") (c!"a"))) (.getAlias (c!"b")) = .ok (.text (c!"a")) ∧
    ask Toy.env (after Toy.env Toy.one (.setAlias (c!"b") (c!"a"))) (.removeAlias (c!"b")) = .ok .unit := by
  refine ⟨fun h e => ?_, by decide +kernel, by decide +kernel⟩
  have hh : Toy.one.hmacSecret = some (FileIO.randBytes Toy.env 16 32) := by decide +kernel
  rw [hh] at e
  cases e
  decide +kernel

/-- An operation that concerns something does change it. -/
example : ∃ k, Touches Toy.env Toy.one (.setStored (c!"a") (c!"v") [] (c!"y")) k ∧
    (after Toy.env Toy.one (.setStored (c!"a") (c!"v") [] (c!"y"))).world.data.get? k ≠ Toy.one.world.data.get? k :=
  ⟨passwordName Toy.env.prims (FileIO.randBytes Toy.env 16 32) (siteMeant Toy.env Toy.one (c!"a")) (c!"v") [],
    ⟨FileIO.randBytes Toy.env 16 32, by decide +kernel, .inr rfl⟩, by decide +kernel⟩

/-- A new site leaves its entry, until that is removed. -/
example : ∃ h, Toy.one.hmacSecret = some h ∧ Toy.one.world.data.get? (siteName Toy.env.prims h (c!"b")) = none ∧
    siteMeant Toy.env Toy.one (c!"b") = c!"b" ∧
    (([Op.setStored (c!"b") (c!"v") [] (c!"y"), .remove (c!"b") (c!"v") []].foldl (after Toy.env) Toy.one).world.data.get?
      (siteName Toy.env.prims h (c!"b"))).isSome = true ∧
    ∀ k, (after Toy.env ([Op.setStored (c!"b") (c!"v") [] (c!"y"), .remove (c!"b") (c!"v") []].foldl (after Toy.env) Toy.one)
      (.removeSites [c!"b"])).world.data.get? k = Toy.one.world.data.get? k := by
  have hb : siteMeant Toy.env Toy.one (c!"b") = c!"b" := by decide +kernel
  have hv : Toy.univ.name (c!"v") := by show _ ∈ Toy.names; decide
  have hh : Toy.one.hmacSecret = some (FileIO.randBytes Toy.env 16 32) := by decide +kernel
  have hn : Toy.one.world.data.get? (siteName Toy.env.prims (FileIO.randBytes Toy.env 16 32) (c!"b")) = none := by decide +kernel
  refine ⟨_, hh, hn, hb, by decide +kernel, fun k => ?_⟩
  have := C109_site Toy.env_lawful Toy.secure Toy.one Toy.one_reachable (c!"b") (c!"v") [] ⟨Toy.site_b, hv, Toy.revision_nil⟩
    [.setStored (c!"b") (c!"v") [] (c!"y"), .remove (c!"b") (c!"v") []] (by
      intro op hop
      simp only [List.mem_cons, List.not_mem_nil, or_false] at hop
      rcases hop with rfl | rfl <;> exact ⟨⟨Toy.site_b, hv, Toy.revision_nil⟩, rfl, rfl, rfl⟩)
    (by decide +kernel) (by decide +kernel) (by
      intro h e
      rw [hh] at e
      cases e
      rw [hb]
      exact hn) k
  rwa [hb] at this

end Examples

end Pfp.Props
