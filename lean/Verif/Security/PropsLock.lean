import Verif.Security.LockTree

/-! # Properties C31 and C54: device locks -/

namespace Verif.Security.Lock

/-- Two users; a second user object equal to the first; an anonymous user. -/
def exUsers : Users
  | 0 => ⟨"alice", "a", []⟩
  | 1 => ⟨"bob", "b", []⟩
  | 2 => ⟨"alice", "a", []⟩
  | _ => ⟨"", "", []⟩

/-- Device 0 with sub-devices 1 and 3; device 1 has the sub-device 2. -/
def exTree : Devs := .dev 0 (.dev 1 (.dev 2 .nil .nil) (.dev 3 .nil .nil)) .nil

theorem exNodup : (ids exTree).Nodup := by decide

/-! ## C31 -/

/-- **C31.** Once a device is locked by a named user, only calls by users equal to that one and `forceUnlock` can
change its lock: whatever other users call, on this device or any other, successfully or not. -/
theorem C31_exclusive (us : Users) (t : Devs) (before after : List Op) (id a : Nat)
    (hl : (exec us t before).1 id = some (some a))
    (ho : ∀ op ∈ after, ∃ u, op.caller = some u ∧ ∀ b, u = some b → us b ≠ us a) :
    (exec us t (before ++ after)).1 id = some (some a) := by
  induction after using list_snoc_induction with
  | nil => rw [List.append_nil]; exact hl
  | snoc after op ih =>
    have ih := ih (fun o h => ho o (by simp [h]))
    obtain ⟨u, h1, h2⟩ := ho op (by simp)
    rw [← List.append_assoc]
    unfold exec at ih ⊢
    rw [runTrace_snoc]
    dsimp only
    generalize (runTrace (step us t) init (before ++ after)).1 = s at ih ⊢
    cases op with
    | lock x v =>
      cases h1
      simp only [step]
      split
      · exact ih
      · exact run_keeps us u id a h2 _ _ _ _ _ _ ih
    | unlock x v =>
      cases h1
      simp only [step]
      split
      · exact ih
      · exact run_keeps us u id a h2 _ _ _ _ _ _ ih
    | forceUnlock x => cases h1

example : (exec exUsers exTree [.lock 1 (some 0)]).1 1 = some (some 0) ∧ exUsers 1 ≠ exUsers 0 ∧
    (exec exUsers exTree [.lock 1 (some 0), .unlock 1 (some 1), .lock 0 (some 1), .unlock 0 none]).1 1 = some (some 0) := by
  decide

theorem step_lock {us : Users} {t : Devs} (hn : (ids t).Nodup) {par : Option Nat} {id : Nat} {ks : Devs}
    (hat : At t none par id ks) (s : St) (u : Caller) :
    ((step us t s (.lock id u)).2 = .ok ↔ ∀ x ∈ id :: ids ks, CanLock us s u x) ∧
    ((step us t s (.lock id u)).2 = .ok → (step us t s (.lock id u)).1 = paint s (id :: ids ks) (some (norm us u))) ∧
    ((step us t s (.lock id u)).2 ≠ .noDevice) := by
  have f := at_facts hat hn (by simp)
  have key := run_lock_exact us u _ par (fun _ => true) 1 s f.nodup
  rw [chosen_single] at key
  simp only [step, f.found]
  have ho : ∀ fl : Fail, out fl = .ok ↔ fl = none := by
    intro fl
    cases fl with
    | none => simp [out]
    | some p => obtain ⟨i, e⟩ := p; simp [out]
  refine ⟨by rw [ho]; exact key.1, fun h => key.2 ((ho _).mp h), ?_⟩
  cases (run us u (.dev id ks .nil) .lock par (fun _ => true) 1 s).2 with
  | none => simp [out]
  | some p => obtain ⟨i, e⟩ := p; simp [out]

theorem step_unlock {us : Users} {t : Devs} (hn : (ids t).Nodup) {par : Option Nat} {id : Nat} {ks : Devs}
    (hat : At t none par id ks) (s : St) (u : Caller) :
    ((step us t s (.unlock id u)).2 = .ok ↔
      (∀ p, par = some p → s p = none) ∧ ∀ x ∈ id :: ids ks, CanUnlock s u x) ∧
    ((step us t s (.unlock id u)).2 = .ok → (step us t s (.unlock id u)).1 = paint s (id :: ids ks) none) ∧
    ((step us t s (.unlock id u)).2 ≠ .noDevice) := by
  have f := at_facts hat hn (by simp)
  have key := run_unlock_exact us u _ par (fun _ => true) 1 s f.nodup (by rw [ids_single]; exact f.parent)
  rw [chosen_single] at key
  simp only [step, f.found]
  have ho : ∀ fl : Fail, out fl = .ok ↔ fl = none := by
    intro fl
    cases fl with
    | none => simp [out]
    | some p => obtain ⟨i, e⟩ := p; simp [out]
  have hp : parentLocked s par = false ↔ ∀ p, par = some p → s p = none := by
    cases par with
    | none => simp [parentLocked]
    | some p => simp [parentLocked, isLocked]
  refine ⟨?_, fun h => key.2 ((ho _).mp h), ?_⟩
  · rw [ho, key.1, ← hp]; simp
  · cases (run us u (.dev id ks .nil) .unlock par (fun _ => true) 1 s).2 with
    | none => simp [out]
    | some p => obtain ⟨i, e⟩ := p; simp [out]

/-- **C31.** In every reachable state, locking or unlocking a device that another named user holds fails. -/
theorem C31_refused (us : Users) (t : Devs) (hn : (ids t).Nodup) (ops : List Op) (par : Option Nat) (id : Nat) (ks : Devs)
    (hat : At t none par id ks) (a : Nat) (hl : (exec us t ops).1 id = some (some a)) (u : Caller)
    (hu : ∀ b, u = some b → us b ≠ us a) :
    (∃ e, (step us t (exec us t ops).1 (.lock id u)).2 = .error e) ∧
    ∃ e, (step us t (exec us t ops).1 (.unlock id u)).2 = .error e := by
  have herr : ∀ o : Out, o ≠ .ok → o ≠ .noDevice → ∃ e, o = .error e := by
    intro o h1 h2
    cases o with
    | ok => exact absurd rfl h1
    | noDevice => exact absurd rfl h2
    | error e => exact ⟨e, rfl⟩
  obtain ⟨l1, -, l3⟩ := step_lock (us := us) hn hat (exec us t ops).1 u
  obtain ⟨k1, -, k3⟩ := step_unlock (us := us) hn hat (exec us t ops).1 u
  constructor
  · refine herr _ (fun h => ?_) l3
    have := l1.mp h id (by simp)
    unfold CanLock holder at this
    rw [hl] at this
    simp only [Option.map_some, Option.some.injEq, reduceCtorEq, false_or] at this
    unfold who at this
    cases u with
    | none => exact nomatch this
    | some b =>
      dsimp only at this
      split at this
      · exact nomatch this
      · exact hu b rfl (Option.some.inj this).symm
  · refine herr _ (fun h => ?_) k3
    have := (k1.mp h).2 id (by simp)
    unfold CanUnlock at this
    rw [hl] at this
    rcases this with h | h | ⟨b, h1, h2⟩
    · exact nomatch h
    · exact nomatch h
    · exact hu b h1 (by cases h2; rfl)

example : At exTree none (some 0) 1 (.dev 2 .nil .nil) := .kid _ _ _ (.here _ _ _ _)

/-- **C31.** A device without sub-devices, whose parent device is not locked: the user object that locked it can
unlock it, and anybody can unlock it when it was locked anonymously. -/
theorem C31_owner (us : Users) (t : Devs) (hn : (ids t).Nodup) (s : St) (par : Option Nat) (id : Nat)
    (hat : At t none par id .nil) (hp : ∀ p, par = some p → s p = none) (u v : Caller)
    (hl : (step us t s (.lock id u)).2 = .ok) :
    (step us t (step us t s (.lock id u)).1 (.unlock id u)).2 = .ok ∧
    (who us u = none → (step us t (step us t s (.lock id u)).1 (.unlock id v)).2 = .ok) := by
  have h1 := (step_lock (us := us) hn hat s u).2.1 hl
  have f := at_facts hat hn (by simp)
  have hp' : ∀ p, par = some p → paint s [id] (some (norm us u)) p = none := by
    intro p h
    have := f.parent p h
    simp only [ids] at this
    simp only [paint]
    rw [if_neg this]
    exact hp p h
  rw [h1]
  simp only [ids]
  constructor
  · rw [(step_unlock (us := us) hn hat _ u).1]
    refine ⟨hp', ?_⟩
    intro x hx
    simp only [ids, List.mem_singleton] at hx
    subst hx
    simp only [CanUnlock, paint, List.mem_singleton, if_true]
    unfold norm
    cases u with
    | none => simp
    | some a =>
      dsimp only
      split
      · simp
      · exact .inr (.inr ⟨a, rfl, rfl⟩)
  · intro hw
    rw [(step_unlock (us := us) hn hat _ v).1]
    refine ⟨hp', ?_⟩
    intro x hx
    simp only [ids, List.mem_singleton] at hx
    subst hx
    rw [← norm_who] at hw
    have hno : norm us u = none := by simpa using hw
    simp [CanUnlock, paint, hno]

example : At exTree none (some 0) 3 .nil := .kid _ _ _ (.next _ _ _ (.here _ _ _ _))
example : (exec exUsers exTree [.lock 3 (some 0), .unlock 3 (some 0), .lock 3 (some 9), .unlock 3 (some 1)]).2.map (·.2) =
    [.ok, .ok, .ok, .ok] := by decide

/-- **C31, violated.** `lock` compares users by content, `unlock` by object. A second object for the same user is
refused to unlock, but may lock again, which takes the lock away from the first object. -/
theorem C31_violation_equalUsers :
    (exec exUsers exTree [.lock 3 (some 0), .unlock 3 (some 2), .lock 3 (some 2), .unlock 3 (some 0)]).2.map (·.2) =
      [.ok, .error .accessDenied, .ok, .error .accessDenied] ∧ exUsers 0 = exUsers 2 := by decide

/-! ## C54 -/

/-- **C54.** `lock` succeeds exactly when the device and everything below it is free or held by an equal user; it
then holds all of them for the caller and changes no other device. -/
theorem C54_lock (us : Users) (t : Devs) (hn : (ids t).Nodup) (s : St) (par : Option Nat) (id : Nat) (ks : Devs)
    (hat : At t none par id ks) (u : Caller) :
    ((step us t s (.lock id u)).2 = .ok ↔ ∀ x ∈ id :: ids ks, CanLock us s u x) ∧
    ((step us t s (.lock id u)).2 = .ok → ∀ x, holder us (step us t s (.lock id u)).1 x =
      if x ∈ id :: ids ks then some (who us u) else holder us s x) := by
  obtain ⟨h1, h2, -⟩ := step_lock (us := us) hn hat s u
  refine ⟨h1, fun h x => ?_⟩
  rw [h2 h]
  unfold holder paint
  split
  · rw [← norm_who]; rfl
  · rfl

/-- **C54.** `unlock` succeeds exactly when the parent device is not locked and the device and everything below it
is free, held by nobody in particular, or held by the very user object; it then frees all of them and changes no
other device. -/
theorem C54_unlock (us : Users) (t : Devs) (hn : (ids t).Nodup) (s : St) (par : Option Nat) (id : Nat) (ks : Devs)
    (hat : At t none par id ks) (u : Caller) :
    ((step us t s (.unlock id u)).2 = .ok ↔
      (∀ p, par = some p → s p = none) ∧ ∀ x ∈ id :: ids ks, CanUnlock s u x) ∧
    ((step us t s (.unlock id u)).2 = .ok → ∀ x, (step us t s (.unlock id u)).1 x =
      if x ∈ id :: ids ks then none else s x) := by
  obtain ⟨h1, h2, -⟩ := step_unlock (us := us) hn hat s u
  refine ⟨h1, fun h x => ?_⟩
  rw [h2 h]
  rfl

/-- **C54.** `forceUnlock` succeeds exactly when the parent device is not locked; it then frees the device and
everything below it and changes no other device; otherwise it changes nothing. -/
theorem C54_force (us : Users) (t : Devs) (hn : (ids t).Nodup) (s : St) (par : Option Nat) (id : Nat) (ks : Devs)
    (hat : At t none par id ks) :
    ((∀ p, par = some p → s p = none) → (step us t s (.forceUnlock id)).2 = .ok ∧
      ∀ x, (step us t s (.forceUnlock id)).1 x = if x ∈ id :: ids ks then none else s x) ∧
    (¬ (∀ p, par = some p → s p = none) → step us t s (.forceUnlock id) = (s, .error .deviceLocked)) := by
  have f := at_facts hat hn (by simp)
  have hp : parentLocked s par = false ↔ ∀ p, par = some p → s p = none := by
    cases par with
    | none => simp [parentLocked]
    | some p => simp [parentLocked, isLocked]
  simp only [step, f.found]
  constructor
  · intro h
    rw [force_exact _ par s f.nodup (by rw [ids_single]; exact f.parent) (hp.mpr h), ids_single]
    exact ⟨rfl, fun x => rfl⟩
  · intro h
    rw [← hp, Bool.not_eq_false] at h
    rw [force, forceUnlockInternal, if_pos h]

/-- **C54.** A device whose parent device is locked can neither be unlocked nor force-unlocked, by anybody; the
attempt changes nothing. -/
theorem C54_parentLocked (us : Users) (t : Devs) (hn : (ids t).Nodup) (s : St) (p id : Nat) (ks : Devs)
    (hat : At t none (some p) id ks) (hl : s p ≠ none) (u : Caller) :
    step us t s (.unlock id u) = (s, .error .deviceLocked) ∧
    step us t s (.forceUnlock id) = (s, .error .deviceLocked) := by
  refine ⟨?_, (C54_force us t hn s (some p) id ks hat).2 (fun h => hl (h p rfl))⟩
  have f := at_facts hat hn (by simp)
  have hp : parentLocked s (some p) = true := by
    simp only [parentLocked, isLocked]
    cases h : s p with
    | none => exact absurd h hl
    | some _ => rfl
  simp only [step, f.found]
  rw [run, if_neg (by simp)]
  dsimp only
  rw [unlockInternal, if_pos hp]
  rfl

/-- **C54.** After every history of `lock`, `unlock` and `forceUnlock` calls, failed ones included: when a device
is locked, its sub-devices are locked by the same user. -/
theorem C54_covered (us : Users) (t : Devs) (hn : (ids t).Nodup) (ops : List Op) : Covered us (exec us t ops).1 t :=
  covered_exec hn ops

example : (exec exUsers exTree [.lock 0 (some 0), .unlock 1 (some 0), .unlock 0 (some 1), .lock 2 (some 2),
      .unlock 0 (some 0), .forceUnlock 1]).2.map (·.2) =
    [.ok, .error .deviceLocked, .error .accessDenied, .ok, .error .accessDenied, .ok] := by decide

/-- **C54** (partial). A `lock` that fails changes nothing, provided that no device below was locked by the caller
before. Missing: the violation below. -/
theorem C54_lockFails_partial (us : Users) (t : Devs) (hn : (ids t).Nodup) (ops : List Op) (par : Option Nat) (id : Nat)
    (ks : Devs) (hat : At t none par id ks) (u : Caller)
    (hfree : ∀ x ∈ id :: ids ks, holder us (exec us t ops).1 x ≠ some (who us u)) (e : Err)
    (hf : (step us t (exec us t ops).1 (.lock id u)).2 = .error e) :
    (step us t (exec us t ops).1 (.lock id u)).1 = (exec us t ops).1 := by
  have f := at_facts hat hn (by simp)
  have hcov := covered_exec (us := us) hn ops
  generalize (exec us t ops).1 = s at *
  simp only [step, f.found] at hf ⊢
  cases hr : run us u (.dev id ks .nil) .lock par (fun _ => true) 1 s with
  | mk s' fl =>
    rw [hr] at hf
    cases fl with
    | none => simp [out] at hf
    | some q =>
      obtain ⟨i, e'⟩ := q
      obtain ⟨g1, g2⟩ := run_lock_fail us u _ par 1 s f.nodup (by rw [ids_single]; exact f.parent) (by
        intro x hx
        rw [ids_single] at hx
        by_cases h : s x = none
        · exact .inl h
        · right
          rintro (h' | h')
          · unfold holder at h'; simp at h'; exact h h'
          · exact hfree x hx h') (by
        intro e he hne
        have := hcov e (f.edge e he) (by unfold holder; simpa using hne)
        intro h2
        unfold holder at this
        rw [h2] at this
        have h3 := this.symm
        simp at h3
        exact hne h3) s' i e' hr
      have hi : i = 0 := by
        rw [run, if_neg (by simp)] at hr
        dsimp only at hr
        split at hr
        · simp only [Prod.mk.injEq, Option.some.injEq] at hr; exact hr.2.1.symm
        · split at hr
          · simp only [Prod.mk.injEq, Option.some.injEq] at hr; exact hr.2.1.symm
          · rw [run_nil] at hr; simp [Fail.next] at hr
      subst hi
      show s' = s
      rw [g1]
      funext x
      simp [paint, chosen]

example : (exec exUsers exTree [.lock 3 (some 1), .lock 0 (some 0)]).2.map (·.2) = [.ok, .error .deviceLocked] ∧
    (exec exUsers exTree [.lock 3 (some 1), .lock 0 (some 0)]).1 1 = none := by decide

theorem tops_sub {f : Devs} {x : Nat} (h : x ∈ tops f) : x ∈ ids f := by
  induction f with
  | nil => simp [tops] at h
  | dev id kids next ihk ihn =>
    simp only [tops, ids, List.mem_cons, List.mem_append] at h ⊢
    rcases h with h | h
    · exact .inl h
    · exact .inr (.inr (ihn h))

theorem nodup_dev {id : Nat} {kids next : Devs} (hn : (ids (.dev id kids next)).Nodup) :
    id ∉ ids kids ∧ id ∉ ids next ∧ (ids kids).Nodup ∧ (ids next).Nodup ∧ ∀ x ∈ ids kids, x ∉ ids next := by
  simp only [ids, List.nodup_cons, List.mem_append, not_or] at hn
  obtain ⟨⟨h1, h2⟩, h3⟩ := hn
  rw [List.nodup_append] at h3
  exact ⟨h1, h2, h3.1, h3.2.1, fun x hx hy => h3.2.2 x hx x hy rfl⟩

/-- Locking siblings keeps the holders of those that are locked. -/
theorem run_lock_tops (us : Users) (u : Caller) (f : Devs) : ∀ par sel n s, (ids f).Nodup → ∀ c ∈ tops f, s c ≠ none →
    holder us (run us u f .lock par sel n s).1 c = holder us s c := by
  induction f with
  | nil => intro par sel n s _ c hc; simp [tops] at hc
  | dev id kids next ihk ihn =>
    intro par sel n s hn c hc hl
    obtain ⟨n1, n2, n3, n4, n5⟩ := nodup_dev hn
    have hcong : ∀ s' : St, s' c = s c → holder us s' c = holder us s c := fun s' h => by unfold holder; rw [h]
    simp only [tops, List.mem_cons] at hc
    have hk : c ∉ ids kids := by
      rcases hc with rfl | hc
      · exact n1
      · exact fun h => n5 c h (tops_sub hc)
    cases n with
    | zero => rw [run_zero]
    | succ n =>
      by_cases hsel : sel id = true
      · rcases run_lock us u id kids next par sel n s hsel with ⟨s1, i, e, h1, h2⟩ | ⟨s1, h1, h2⟩
        · rw [h2]
          refine hcong _ ?_
          rw [run_frame _ _ _ _ _ _ _ _ _ hk]
          have := run_frame us u kids .lock (some id) (fun _ => true) kids.length s c hk
          rw [h1] at this
          exact this
        · have hs1 : s1 c = s c := by
            have := run_frame us u kids .lock (some id) (fun _ => true) kids.length s c hk
            rw [h1] at this
            exact this
          rcases h2 with ⟨-, e, h2⟩ | ⟨h3, h2⟩
          · rw [h2]; exact hcong _ hs1
          · rw [h2]
            dsimp only
            rcases hc with rfl | hc
            · have h4 := run_frame us u next .lock par sel n (s1.set c (some (norm us u))) c n2
              unfold holder
              rw [h4, set_eq]
              unfold CanLock holder at h3
              rw [hs1] at h3
              rcases h3 with h3 | h3
              · simp at h3; exact absurd h3 hl
              · rw [h3, ← norm_who]; rfl
            · have hne : c ≠ id := fun h => n2 (h ▸ tops_sub hc)
              have h4 : s1.set id (some (norm us u)) c = s c := by rw [set_ne hne, hs1]
              rw [ihn par sel n _ n4 c hc (by rw [h4]; exact hl)]
              exact hcong _ h4
      · rw [run_skip _ _ _ _ _ _ _ _ _ _ (by simpa using hsel)]
        dsimp only
        rcases hc with rfl | hc
        · exact hcong _ (run_frame us u next .lock par sel n s c n2)
        · exact ihn par sel n s n4 c hc hl

/-- Siblings that are not selected are not touched. -/
theorem run_unselected (us : Users) (u : Caller) (f : Devs) : ∀ call par sel n s, (ids f).Nodup → ∀ c ∈ tops f,
    sel c = false → (run us u f call par sel n s).1 c = s c := by
  induction f with
  | nil => intro call par sel n s _ c hc; simp [tops] at hc
  | dev id kids next ihk ihn =>
    intro call par sel n s hn c hc hl
    obtain ⟨n1, n2, n3, n4, n5⟩ := nodup_dev hn
    simp only [tops, List.mem_cons] at hc
    have hk : c ∉ ids kids := by
      rcases hc with rfl | hc
      · exact n1
      · exact fun h => n5 c h (tops_sub hc)
    cases n with
    | zero => rw [run_zero]
    | succ n =>
      by_cases hsel : sel id = true
      · have hne : c ≠ id := fun h => by rw [h, hsel] at hl; cases hl
        have hc : c ∈ tops next := by
          rcases hc with h | h
          · exact absurd h hne
          · exact h
        have hfr : ∀ call sel n s, (run us u kids call (some id) sel n s).1 c = s c :=
          fun call sel n s => run_frame us u kids call (some id) sel n s c hk
        cases call with
        | lock =>
          rcases run_lock us u id kids next par sel n s hsel with ⟨s1, i, e, h1, h2⟩ | ⟨s1, h1, h2⟩
          · rw [h2]
            dsimp only
            have := hfr .lock (fun _ => true) kids.length s
            rw [h1] at this
            rw [hfr]; exact this
          · have hs1 := hfr .lock (fun _ => true) kids.length s
            rw [h1] at hs1
            rcases h2 with ⟨-, e, h2⟩ | ⟨h3, h2⟩
            · rw [h2]; exact hs1
            · rw [h2]
              dsimp only
              rw [ihn .lock par sel n _ n4 c hc hl, set_ne hne]; exact hs1
        | unlock =>
          rcases run_unlock us u id kids next par sel n s hsel with ⟨-, e, h2⟩ | ⟨-, -, ⟨s2, i, e, h1, h2⟩ | ⟨s2, h1, h2⟩⟩
          · rw [h2]
          · rw [h2]
            dsimp only
            have := hfr .unlock (fun _ => true) kids.length (s.set id none)
            rw [h1, set_ne hne] at this
            rw [hfr]; exact this
          · rw [h2]
            dsimp only
            have := hfr .unlock (fun _ => true) kids.length (s.set id none)
            rw [h1, set_ne hne] at this
            rw [ihn .unlock par sel n _ n4 c hc hl]; exact this
      · rw [run_skip _ _ _ _ _ _ _ _ _ _ (by simpa using hsel)]
        dsimp only
        rcases hc with rfl | hc
        · exact run_frame us u next call par sel n s c n2
        · exact ihn call par sel n s n4 c hc hl

/-- **C54.** `lock` never takes a lock away from the device or from a device directly below it, whether it succeeds
or fails. (The violation concerns devices further below.) -/
theorem C54_lockKeeps (us : Users) (t : Devs) (hn : (ids t).Nodup) (s : St) (par : Option Nat) (id : Nat) (ks : Devs)
    (hat : At t none par id ks) (u : Caller) (c : Nat) (hc : c ∈ id :: tops ks) (hl : s c ≠ none) :
    holder us (step us t s (.lock id u)).1 c = holder us s c := by
  have f := at_facts hat hn (by simp)
  obtain ⟨n1, -, n3, -, -⟩ := nodup_dev f.nodup
  simp only [step, f.found]
  simp only [List.mem_cons] at hc
  rcases hc with rfl | hc
  · exact run_lock_tops us u _ par _ 1 s f.nodup c (by simp [tops]) hl
  · have key := run_lock_tops us u ks (some id) (fun _ => true) ks.length s n3 c hc hl
    rcases run_lock us u id ks .nil par (fun _ => true) 0 s rfl with ⟨s1, i, e, h1, h2⟩ | ⟨s1, h1, h2⟩
    · rw [h1] at key
      rw [h2]
      dsimp only
      rw [← key]
      unfold holder
      rw [run_unselected us u ks .unlock (some id) _ i s1 n3 c hc (by
        cases h : s c with
        | none => exact absurd h hl
        | some x => simp [isLocked, h])]
    · rw [h1] at key
      rcases h2 with ⟨-, e, h2⟩ | ⟨h3, h2⟩
      · rw [h2]; exact key
      · rw [h2, run_nil]
        dsimp only
        rw [← key]
        unfold holder
        rw [set_ne (show c ≠ id from fun h => n1 (h ▸ tops_sub hc))]

example : tops (.dev 1 (.dev 2 .nil .nil) (.dev 3 .nil .nil)) = [1, 3] ∧
    (exec exUsers exTree [.lock 1 (some 0), .lock 3 (some 1), .lock 0 (some 0)]).2.map (·.2) =
      [.ok, .ok, .error .deviceLocked] ∧
    (exec exUsers exTree [.lock 1 (some 0), .lock 3 (some 1), .lock 0 (some 0)]).1 1 = some (some 0) := by decide

/-- **C54, violated.** A `lock` that fails can unlock a device the caller had locked before: the caller holds
device 2, another user holds device 3, and locking device 0 fails; device 2 is then free. -/
theorem C54_violation_lostLock :
    (exec exUsers exTree [.lock 2 (some 0), .lock 3 (some 1), .lock 0 (some 0)]).2.map (·.2) =
      [.ok, .ok, .error .deviceLocked] ∧
    (exec exUsers exTree [.lock 2 (some 0), .lock 3 (some 1)]).1 2 = some (some 0) ∧
    (exec exUsers exTree [.lock 2 (some 0), .lock 3 (some 1), .lock 0 (some 0)]).1 2 = none := by decide

/-- **C54, violated.** An `unlock` that fails can leave the device itself unlocked, while its sub-devices stay
locked: an equal user object has locked device 3 again in between. -/
theorem C54_violation_halfUnlocked :
    (exec exUsers exTree [.lock 0 (some 0), .lock 3 (some 2), .unlock 0 (some 0)]).2.map (·.2) =
      [.ok, .ok, .error .accessDenied] ∧
    (exec exUsers exTree [.lock 0 (some 0), .lock 3 (some 2), .unlock 0 (some 0)]).1 0 = none ∧
    (exec exUsers exTree [.lock 0 (some 0), .lock 3 (some 2), .unlock 0 (some 0)]).1 1 = some (some 0) := by decide

/-- **C54, violated.** An `unlock` that fails can turn an anonymous lock into one of the caller: device 1 was
locked by nobody in particular; the caller's failed `unlock` of device 0 leaves it locked by the caller. -/
theorem C54_violation_newOwner :
    (exec exUsers exTree [.lock 1 none, .lock 3 (some 1), .unlock 0 (some 0)]).2.map (·.2) =
      [.ok, .ok, .error .accessDenied] ∧
    (exec exUsers exTree [.lock 1 none, .lock 3 (some 1)]).1 1 = some none ∧
    (exec exUsers exTree [.lock 1 none, .lock 3 (some 1), .unlock 0 (some 0)]).1 1 = some (some 0) := by decide

end Verif.Security.Lock
