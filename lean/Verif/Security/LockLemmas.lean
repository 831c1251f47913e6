import Verif.Security.LockSpec

/-! # Lemmas about device locks -/

namespace Verif.Security.Lock

theorem norm_who (us : Users) (u : Caller) : (norm us u).map us = who us u := by
  unfold norm who isAnonymous
  cases u with
  | none => rfl
  | some a =>
    dsimp only
    by_cases h : (us a).name = "" ∧ (us a).hash = ""
    · rw [if_pos h, if_pos (by simp [h.1, h.2])]; rfl
    · rw [if_neg h, if_neg (by simpa using h)]; rfl

theorem same_iff (us : Users) (a b : Option Nat) : same us a b = true ↔ a.map us = b.map us := by
  cases a <;> cases b <;> simp [same]

theorem lock_ok {us : Users} {l l' : Lock} {u : Caller} (h : l.lock us u = .ok l') : l' = some (norm us u) := by
  unfold Lock.lock at h
  cases l with
  | none => cases h; rfl
  | some x =>
    dsimp only at h
    split at h
    · cases h; rfl
    · cases h

theorem lock_iff {us : Users} {s : St} {x : Nat} {u : Caller} :
    (∃ l', (s x).lock us u = .ok l') ↔ CanLock us s u x := by
  unfold CanLock holder Lock.lock
  cases s x with
  | none => simp
  | some h =>
    simp only [Option.map_some, Option.some.injEq, reduceCtorEq, false_or]
    rw [← norm_who, ← same_iff]
    by_cases hs : same us h (norm us u) = true <;> simp [hs]

theorem unlock_ok {l l' : Lock} {u : Caller} (h : l.unlock u = .ok l') : l' = none := by
  unfold Lock.unlock at h
  split at h
  · split at h <;> cases h; rfl
  · cases h; rfl

theorem unlock_iff {s : St} {x : Nat} {u : Caller} : (∃ l', (s x).unlock u = .ok l') ↔ CanUnlock s u x := by
  unfold CanUnlock Lock.unlock
  cases s x with
  | none => simp
  | some h =>
    cases h with
    | none => simp
    | some a =>
      cases u with
      | none => simp
      | some b => by_cases e : a = b <;> simp [e]

theorem lockInternal_cases (us : Users) (s : St) (id : Nat) (u : Caller) :
    (CanLock us s u id ∧ lockInternal us s id u = .ok (s.set id (some (norm us u)))) ∨
    (¬ CanLock us s u id ∧ ∃ e, lockInternal us s id u = .error e) := by
  unfold lockInternal
  cases h : (s id).lock us u with
  | ok l => exact .inl ⟨lock_iff.mp ⟨l, h⟩, by rw [lock_ok h]⟩
  | error e => exact .inr ⟨fun hc => (by obtain ⟨l, hl⟩ := lock_iff.mpr hc; rw [hl] at h; cases h), e, rfl⟩

theorem unlockInternal_cases (s : St) (par : Option Nat) (id : Nat) (u : Caller) :
    (parentLocked s par = false ∧ CanUnlock s u id ∧ unlockInternal s par id u = .ok (s.set id none)) ∨
    (¬ (parentLocked s par = false ∧ CanUnlock s u id) ∧ ∃ e, unlockInternal s par id u = .error e) := by
  unfold unlockInternal
  cases hp : parentLocked s par with
  | true => exact .inr ⟨by simp, _, rfl⟩
  | false =>
    rw [if_neg (by simp)]
    cases h : (s id).unlock u with
    | ok l => exact .inl ⟨rfl, unlock_iff.mp ⟨l, h⟩, by rw [unlock_ok h]⟩
    | error e =>
      exact .inr ⟨fun hc => (by obtain ⟨l, hl⟩ := unlock_iff.mpr hc.2; rw [hl] at h; cases h), e, rfl⟩

theorem fail_next_none (f : Fail) : Fail.next f = none ↔ f = none := by
  cases f with
  | none => simp [Fail.next]
  | some p => obtain ⟨i, e⟩ := p; simp [Fail.next]

theorem set_ne {s : St} {id x : Nat} {l : Lock} (h : x ≠ id) : s.set id l x = s x := by simp [St.set, h]
theorem set_eq {s : St} {id : Nat} {l : Lock} : s.set id l id = l := by simp [St.set]

/-! ## Equations of `run` -/

section
variable (us : Users) (u : Caller) (id : Nat) (kids next : Devs) (par : Option Nat) (sel : Nat → Bool) (n : Nat) (s : St)

theorem run_nil (c : Call) : run us u .nil c par sel n s = (s, none) := by cases n <;> rfl

theorem run_zero (f : Devs) (c : Call) : run us u f c par sel 0 s = (s, none) := by
  cases f <;> simp [run]

theorem run_skip (c : Call) (h : sel id = false) : run us u (.dev id kids next) c par sel (n + 1) s =
    ((run us u next c par sel n s).1, Fail.next (run us u next c par sel n s).2) := by
  rw [run.eq_def]
  simp [h]

/-- `lock` of the first device. -/
theorem run_lock (h : sel id = true) :
    (∃ s1 i e, run us u kids .lock (some id) (fun _ => true) kids.length s = (s1, some (i, e)) ∧
      run us u (.dev id kids next) .lock par sel (n + 1) s =
        ((run us u kids .unlock (some id) (fun x => !isLocked s x) i s1).1,
          some (0, revertErr e (run us u kids .unlock (some id) (fun x => !isLocked s x) i s1).2))) ∨
    (∃ s1, run us u kids .lock (some id) (fun _ => true) kids.length s = (s1, none) ∧
      ((¬ CanLock us s1 u id ∧ ∃ e, run us u (.dev id kids next) .lock par sel (n + 1) s = (s1, some (0, e))) ∨
       (CanLock us s1 u id ∧ run us u (.dev id kids next) .lock par sel (n + 1) s =
        ((run us u next .lock par sel n (s1.set id (some (norm us u)))).1,
          Fail.next (run us u next .lock par sel n (s1.set id (some (norm us u)))).2)))) := by
  rw [run, if_neg (by simp [h])]
  dsimp only
  cases hk : run us u kids .lock (some id) (fun _ => true) kids.length s with
  | mk s1 f =>
    cases f with
    | some p =>
      obtain ⟨i, e⟩ := p
      exact .inl ⟨s1, i, e, rfl, rfl⟩
    | none =>
      refine .inr ⟨s1, rfl, ?_⟩
      dsimp only
      rcases lockInternal_cases us s1 id u with ⟨h1, h2⟩ | ⟨h1, e, h2⟩
      · rw [h2]; exact .inr ⟨h1, rfl⟩
      · rw [h2]; exact .inl ⟨h1, e, rfl⟩

/-- `unlock` of the first device. -/
theorem run_unlock (h : sel id = true) :
    (¬ (parentLocked s par = false ∧ CanUnlock s u id) ∧
      ∃ e, run us u (.dev id kids next) .unlock par sel (n + 1) s = (s, some (0, e))) ∨
    (parentLocked s par = false ∧ CanUnlock s u id ∧
      ((∃ s2 i e, run us u kids .unlock (some id) (fun _ => true) kids.length (s.set id none) = (s2, some (i, e)) ∧
        run us u (.dev id kids next) .unlock par sel (n + 1) s =
          ((run us u kids .lock (some id) (fun x => isLocked (s.set id none) x) i s2).1,
            some (0, revertErr e (run us u kids .lock (some id) (fun x => isLocked (s.set id none) x) i s2).2))) ∨
       (∃ s2, run us u kids .unlock (some id) (fun _ => true) kids.length (s.set id none) = (s2, none) ∧
        run us u (.dev id kids next) .unlock par sel (n + 1) s =
          ((run us u next .unlock par sel n s2).1, Fail.next (run us u next .unlock par sel n s2).2)))) := by
  rw [run, if_neg (by simp [h])]
  dsimp only
  rcases unlockInternal_cases s par id u with ⟨h1, h2, h3⟩ | ⟨h1, e, h3⟩
  · rw [h3]
    refine .inr ⟨h1, h2, ?_⟩
    dsimp only
    cases hk : run us u kids .unlock (some id) (fun _ => true) kids.length (s.set id none) with
    | mk s2 f =>
      cases f with
      | some p =>
        obtain ⟨i, e⟩ := p
        exact .inl ⟨s2, i, e, rfl, rfl⟩
      | none => exact .inr ⟨s2, rfl, rfl⟩
  · rw [h3]; exact .inl ⟨h1, e, rfl⟩
end

/-! ## Devices outside are not touched -/

theorem run_frame (us : Users) (u : Caller) (f : Devs) : ∀ c par sel n s x, x ∉ ids f →
    (run us u f c par sel n s).1 x = s x := by
  induction f with
  | nil => intro c par sel n s x _; rw [run_nil]
  | dev id kids next ihk ihn =>
    intro c par sel n s x hx
    simp only [ids, List.mem_cons, List.mem_append, not_or] at hx
    obtain ⟨h1, h2, h3⟩ := hx
    cases n with
    | zero => rw [run_zero]
    | succ n =>
      cases hs : sel id with
      | false => rw [run_skip us u id kids next par sel n s c hs]; exact ihn _ _ _ _ _ _ h3
      | true =>
        cases c with
        | lock =>
          rcases run_lock us u id kids next par sel n s hs with ⟨s1, i, e, k1, k2⟩ | ⟨s1, k1, ⟨-, e, k2⟩ | ⟨-, k2⟩⟩
          · rw [k2]
            dsimp only
            rw [ihk _ _ _ _ _ _ h2]
            have := ihk .lock (some id) (fun _ => true) kids.length s x h2
            rw [k1] at this
            exact this
          · rw [k2]
            have := ihk .lock (some id) (fun _ => true) kids.length s x h2
            rw [k1] at this
            exact this
          · rw [k2]
            dsimp only
            rw [ihn _ _ _ _ _ _ h3, set_ne h1]
            have := ihk .lock (some id) (fun _ => true) kids.length s x h2
            rw [k1] at this
            exact this
        | unlock =>
          rcases run_unlock us u id kids next par sel n s hs with ⟨-, e, k2⟩ | ⟨-, -, ⟨s2, i, e, k1, k2⟩ | ⟨s2, k1, k2⟩⟩
          · rw [k2]
          · rw [k2]
            dsimp only
            rw [ihk _ _ _ _ _ _ h2]
            have := ihk .unlock (some id) (fun _ => true) kids.length (s.set id none) x h2
            rw [k1, set_ne h1] at this
            exact this
          · rw [k2]
            dsimp only
            rw [ihn _ _ _ _ _ _ h3]
            have := ihk .unlock (some id) (fun _ => true) kids.length (s.set id none) x h2
            rw [k1, set_ne h1] at this
            exact this

/-! ## A lock is out of reach of other users -/

theorem run_keeps (us : Users) (u : Caller) (x a : Nat) (hu : ∀ b, u = some b → us b ≠ us a) (f : Devs) :
    ∀ c par sel n s, s x = some (some a) → (run us u f c par sel n s).1 x = some (some a) := by
  have hlock : ∀ s : St, s x = some (some a) → ∀ id, CanLock us s u id → s.set id (some (norm us u)) x = some (some a) := by
    intro s hs id hc
    by_cases e : x = id
    · subst e
      exfalso
      unfold CanLock holder at hc
      rw [hs] at hc
      simp only [Option.map_some, Option.some.injEq, reduceCtorEq, false_or] at hc
      unfold who at hc
      cases u with
      | none => exact nomatch hc
      | some b =>
        dsimp only at hc
        split at hc
        · exact nomatch hc
        · exact hu b rfl (Option.some.inj hc).symm
    · rw [set_ne e]; exact hs
  have hunlock : ∀ s : St, s x = some (some a) → ∀ id, CanUnlock s u id → s.set id none x = some (some a) := by
    intro s hs id hc
    by_cases e : x = id
    · subst e
      exfalso
      unfold CanUnlock at hc
      rw [hs] at hc
      rcases hc with h | h | ⟨b, h1, h2⟩
      · exact nomatch h
      · exact nomatch h
      · exact hu b h1 (by cases h2; rfl)
    · rw [set_ne e]; exact hs
  induction f with
  | nil => intro c par sel n s h; rw [run_nil]; exact h
  | dev id kids next ihk ihn =>
    intro c par sel n s hx
    cases n with
    | zero => rw [run_zero]; exact hx
    | succ n =>
      cases hs : sel id with
      | false => rw [run_skip us u id kids next par sel n s c hs]; exact ihn _ _ _ _ _ hx
      | true =>
        cases c with
        | lock =>
          have hk := ihk .lock (some id) (fun _ => true) kids.length s hx
          rcases run_lock us u id kids next par sel n s hs with ⟨s1, i, e, k1, k2⟩ | ⟨s1, k1, ⟨-, e, k2⟩ | ⟨hc, k2⟩⟩
          · rw [k2]; rw [k1] at hk; exact ihk _ _ _ _ _ hk
          · rw [k2]; rw [k1] at hk; exact hk
          · rw [k2]; rw [k1] at hk; exact ihn _ _ _ _ _ (hlock s1 hk id hc)
        | unlock =>
          rcases run_unlock us u id kids next par sel n s hs with ⟨-, e, k2⟩ | ⟨-, hc, ⟨s2, i, e, k1, k2⟩ | ⟨s2, k1, k2⟩⟩
          · rw [k2]; exact hx
          · have hk := ihk .unlock (some id) (fun _ => true) kids.length (s.set id none) (hunlock s hx id hc)
            rw [k1] at hk
            rw [k2]; exact ihk _ _ _ _ _ hk
          · have hk := ihk .unlock (some id) (fun _ => true) kids.length (s.set id none) (hunlock s hx id hc)
            rw [k1] at hk
            rw [k2]; exact ihn _ _ _ _ _ hk

/-! ## Exact outcome -/

/-- The devices visited: the first `n` siblings that are selected, with all below them. -/
def chosen (sel : Nat → Bool) : Nat → Devs → List Nat
  | 0, _ => []
  | _, .nil => []
  | n + 1, .dev id kids next => (if sel id then id :: ids kids else []) ++ chosen sel n next

theorem chosen_sub (sel : Nat → Bool) (f : Devs) : ∀ n x, x ∈ chosen sel n f → x ∈ ids f := by
  induction f with
  | nil => intro n x h; cases n <;> simp [chosen] at h
  | dev id kids next ihk ihn =>
    intro n x h
    cases n with
    | zero => simp [chosen] at h
    | succ n =>
      simp only [chosen, List.mem_append, ids, List.mem_cons] at h ⊢
      rcases h with h | h
      · split at h
        · simp only [List.mem_cons] at h
          rcases h with h | h
          · exact .inl h
          · exact .inr (.inl h)
        · simp at h
      · exact .inr (.inr (ihn n x h))

theorem chosen_all (f : Devs) : ∀ n, f.length ≤ n → chosen (fun _ => true) n f = ids f := by
  induction f with
  | nil => intro n _; cases n <;> simp [chosen, ids]
  | dev id kids next ihk ihn =>
    intro n h
    cases n with
    | zero => simp [Devs.length] at h
    | succ n =>
      simp only [Devs.length, Nat.add_le_add_iff_right] at h
      simp [chosen, ids, ihn n h]

def paint (s : St) (xs : List Nat) (l : Lock) : St := fun x => if x ∈ xs then l else s x

theorem paint_congr {us : Users} {u : Caller} {s s' : St} {x : Nat} (h : s' x = s x) :
    CanLock us s' u x ↔ CanLock us s u x := by unfold CanLock holder; rw [h]

theorem unlock_congr {u : Caller} {s s' : St} {x : Nat} (h : s' x = s x) : CanUnlock s' u x ↔ CanUnlock s u x := by
  unfold CanUnlock; rw [h]

theorem run_lock_exact (us : Users) (u : Caller) (f : Devs) : ∀ par sel n s, (ids f).Nodup →
    ((run us u f .lock par sel n s).2 = none ↔ ∀ x ∈ chosen sel n f, CanLock us s u x) ∧
    ((run us u f .lock par sel n s).2 = none →
      (run us u f .lock par sel n s).1 = paint s (chosen sel n f) (some (norm us u))) := by
  induction f with
  | nil => intro par sel n s _; rw [run_nil]; cases n <;> simp [chosen] <;> rfl
  | dev id kids next ihk ihn =>
    intro par sel n s hn
    simp only [ids, List.nodup_cons, List.mem_append, not_or] at hn
    obtain ⟨⟨hn1, hn2⟩, hn3⟩ := hn
    rw [List.nodup_append] at hn3
    obtain ⟨hn3, hn4, hn5⟩ := hn3
    cases n with
    | zero => rw [run_zero]; simp [chosen]; rfl
    | succ n =>
      cases hs : sel id with
      | false =>
        rw [run_skip us u id kids next par sel n s _ hs]
        simp only [chosen, hs, Bool.false_eq_true, if_false, List.nil_append, fail_next_none]
        exact ihn par sel n s hn4
      | true =>
        have hk := ihk (some id) (fun _ => true) kids.length s hn3
        rw [chosen_all kids _ (Nat.le_refl _)] at hk
        simp only [chosen, hs, if_true]
        rcases run_lock us u id kids next par sel n s hs with ⟨s1, i, e, k1, k2⟩ | ⟨s1, k1, ⟨hc, e, k2⟩ | ⟨hc, k2⟩⟩
        · rw [k2]
          rw [k1] at hk
          refine ⟨⟨fun h => (nomatch h), fun h => ?_⟩, fun h => (nomatch h)⟩
          have := hk.1.mpr (fun x hx => h x (by simp [hx]))
          exact nomatch this
        · rw [k2]
          rw [k1] at hk
          refine ⟨⟨fun h => (nomatch h), fun h => ?_⟩, fun h => (nomatch h)⟩
          exfalso
          apply hc
          have h2 := hk.2 rfl
          dsimp only at h2
          rw [h2]
          refine (paint_congr ?_).mpr (h id (by simp))
          simp [paint, hn1]
        · rw [k1] at hk
          have h1 := hk.1.mp rfl
          have h2 := hk.2 rfl
          dsimp only at h2
          subst h2
          rw [k2]
          simp only [fail_next_none]
          have hid : CanLock us s u id := (paint_congr (by simp [paint, hn1])).mp hc
          have hnx := ihn par sel n ((paint s (ids kids) (some (norm us u))).set id (some (norm us u))) hn4
          have hsame : ∀ x ∈ ids next, ((paint s (ids kids) (some (norm us u))).set id (some (norm us u))) x = s x := by
            intro x hx
            rw [set_ne (by rintro rfl; exact hn2 hx)]
            simp only [paint]
            rw [if_neg]
            intro hxk
            exact hn5 x hxk x hx rfl
          constructor
          · rw [hnx.1]
            constructor
            · intro h x hx
              simp only [List.mem_append, List.mem_cons] at hx
              rcases hx with (rfl | hx) | hx
              · exact hid
              · exact h1 x hx
              · exact (paint_congr (hsame x (chosen_sub _ _ _ _ hx))).mp (h x hx)
            · intro h x hx
              exact (paint_congr (hsame x (chosen_sub _ _ _ _ hx))).mpr (h x (by simp [hx]))
          · intro h
            rw [hnx.2 h]
            funext x
            simp only [paint, List.mem_append, List.mem_cons, St.set]
            by_cases hx1 : x ∈ chosen sel n next
            · simp [hx1]
            · by_cases hx2 : x = id
              · simp [hx1, hx2]
              · by_cases hx3 : x ∈ ids kids <;> simp [hx1, hx2, hx3]

theorem run_unlock_exact (us : Users) (u : Caller) (f : Devs) : ∀ par sel n s, (ids f).Nodup →
    (∀ p, par = some p → p ∉ ids f) →
    ((run us u f .unlock par sel n s).2 = none ↔ chosen sel n f = [] ∨
      (parentLocked s par = false ∧ ∀ x ∈ chosen sel n f, CanUnlock s u x)) ∧
    ((run us u f .unlock par sel n s).2 = none → (run us u f .unlock par sel n s).1 = paint s (chosen sel n f) none) := by
  induction f with
  | nil => intro par sel n s _ _; rw [run_nil]; cases n <;> simp [chosen] <;> rfl
  | dev id kids next ihk ihn =>
    intro par sel n s hn hp
    simp only [ids, List.nodup_cons, List.mem_append, not_or] at hn
    obtain ⟨⟨hn1, hn2⟩, hn3⟩ := hn
    rw [List.nodup_append] at hn3
    obtain ⟨hn3, hn4, hn5⟩ := hn3
    have hpn : ∀ p, par = some p → p ∉ ids next := fun p h hh => hp p h (by simp [ids, hh])
    cases n with
    | zero => rw [run_zero]; simp [chosen]; rfl
    | succ n =>
      cases hs : sel id with
      | false =>
        rw [run_skip us u id kids next par sel n s _ hs]
        simp only [chosen, hs, Bool.false_eq_true, if_false, List.nil_append, fail_next_none]
        exact ihn par sel n s hn4 hpn
      | true =>
        have hk := ihk (some id) (fun _ => true) kids.length (s.set id none) hn3 (by rintro p h; cases h; exact hn1)
        rw [chosen_all kids _ (Nat.le_refl _)] at hk
        have hpl : parentLocked (s.set id none) (some id) = false := by simp [parentLocked, isLocked, set_eq]
        have hsk : ∀ x ∈ ids kids, (s.set id none) x = s x := fun x hx => set_ne (by rintro rfl; exact hn1 hx)
        simp only [chosen, hs, if_true, List.cons_append, reduceCtorEq, false_or]
        rcases run_unlock us u id kids next par sel n s hs with ⟨hc, e, k2⟩ | ⟨hp1, hc, ⟨s2, i, e, k1, k2⟩ | ⟨s2, k1, k2⟩⟩
        · rw [k2]
          refine ⟨⟨fun h => (nomatch h), fun h => ?_⟩, fun h => (nomatch h)⟩
          exact absurd ⟨h.1, h.2 id (by simp)⟩ hc
        · rw [k2]
          rw [k1] at hk
          refine ⟨⟨fun h => (nomatch h), fun h => ?_⟩, fun h => (nomatch h)⟩
          have := hk.1.mpr (.inr ⟨hpl, fun x hx => (unlock_congr (hsk x hx)).mpr (h.2 x (by simp [hx]))⟩)
          exact nomatch this
        · rw [k1] at hk
          have h1 : ∀ x ∈ ids kids, CanUnlock s u x := by
            intro x hx
            rcases hk.1.mp rfl with h | h
            · rw [h] at hx; cases hx
            · exact (unlock_congr (hsk x hx)).mp (h.2 x hx)
          have h2 := hk.2 rfl
          dsimp only at h2
          subst h2
          rw [k2]
          simp only [fail_next_none]
          have hnx := ihn par sel n (paint (s.set id none) (ids kids) none) hn4 hpn
          have hsame : ∀ x ∈ ids next, (paint (s.set id none) (ids kids) none) x = s x := by
            intro x hx
            simp only [paint]
            rw [if_neg (fun hxk => hn5 x hxk x hx rfl)]
            exact set_ne (by rintro rfl; exact hn2 hx)
          have hpar : parentLocked (paint (s.set id none) (ids kids) none) par = parentLocked s par := by
            cases par with
            | none => rfl
            | some p =>
              have := hp p rfl
              simp only [ids, List.mem_cons, List.mem_append, not_or] at this
              simp [parentLocked, isLocked, paint, this.2.1, set_ne this.1]
          constructor
          · rw [hnx.1, hpar]
            constructor
            · intro h
              refine ⟨hp1, fun x hx => ?_⟩
              simp only [List.mem_cons, List.mem_append] at hx
              rcases hx with rfl | hx | hx
              · exact hc
              · exact h1 x hx
              · rcases h with h | h
                · rw [h] at hx; cases hx
                · exact (unlock_congr (hsame x (chosen_sub _ _ _ _ hx))).mp (h.2 x hx)
            · intro h
              exact .inr ⟨hp1, fun x hx => (unlock_congr (hsame x (chosen_sub _ _ _ _ hx))).mpr (h.2 x (by simp [hx]))⟩
          · intro h
            rw [hnx.2 h]
            funext x
            simp only [paint, List.mem_append, List.mem_cons, St.set]
            by_cases hx1 : x ∈ chosen sel n next
            · simp [hx1]
            · by_cases hx2 : x = id
              · simp [hx1, hx2]
              · by_cases hx3 : x ∈ ids kids <;> simp [hx1, hx2, hx3]

end Verif.Security.Lock
