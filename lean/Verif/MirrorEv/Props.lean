import Verif.MirrorEv.Spec

/-! # C109: descriptor events reach the connections of mirrored signals -/

namespace Verif.MirrorEv.Props
open Spec

/-- Connections know what the signal knows. -/
def J (v : Nat) (w : W) : Prop := ∀ t ∈ (w v).told, t.val = (w v).val ∧ t.dom = (w v).dom

def ownVal (v : Nat) : Op → Option Desc
  | .event u e => if u = v then e.val else none
  | _ => none

def ownDom (v : Nat) : Op → Option Desc
  | .event u e => if u = v then e.dom else none
  | _ => none

theorem set_eq (w : W) (v : Nat) (x : Sig) : (w.set v x) v = x := if_pos rfl
theorem set_ne (w : W) {u v : Nat} (x : Sig) (h : u ≠ v) : (w.set v x) u = w u := if_neg h

theorem applyVal_told (s : Sig) (e : Event) : (s.applyVal e).1.told = s.told ∧ (s.applyVal e).1.dom = s.dom ∧
    (s.applyVal e).1.mirDomain = s.mirDomain ∧ (s.applyVal e).1.domain = s.domain ∧
    (s.applyVal e).1.val = e.val.getD s.val ∧ ((s.applyVal e).2 = false → (s.applyVal e).1 = s) := by
  unfold Sig.applyVal
  cases e.val with
  | none => simp
  | some x =>
    simp only []
    by_cases h : x = s.val
    · rw [if_pos h]; simp [h]
    · rw [if_neg h]; simp

/-- An event of another signal. -/
theorem trigger_other {w : W} {u v : Nat} {e : Event} (h : u ≠ v)
    (hd : (w u).mirDomain = some v → ∀ y, e.dom = some (some y) → (w v).val = some y) : (trigger w u e).1 v = w v := by
  obtain ⟨-, -, hm, -, -, -⟩ := applyVal_told (w u) e
  unfold trigger
  cases hdom : e.dom with
  | none => exact set_ne w _ (Ne.symm h)
  | some y =>
    simp only [set_eq]
    split
    · exact set_ne w _ (Ne.symm h)
    · rw [hm]
      cases hdd : (w u).mirDomain with
      | none =>
        simp only []
        rw [set_ne _ _ (Ne.symm h), set_ne _ _ (Ne.symm h)]
      | some d =>
        simp only []
        by_cases hdv : d = v
        · subst hdv
          rw [set_eq, set_ne _ _ (Ne.symm h), set_ne _ _ (Ne.symm h)]
          unfold forDomain Sig.applyVal
          cases y with
          | none => rfl
          | some z =>
            have := hd hdd z hdom
            simp [this]
        · rw [set_ne _ _ (Ne.symm hdv), set_ne _ _ (Ne.symm h), set_ne _ _ (Ne.symm h)]

/-- An event of the signal itself. -/
theorem trigger_self {w : W} {v : Nat} {e : Event} (h : (w v).mirDomain ≠ some v) :
    ((trigger w v e).1 v).told = (w v).told ∧ ((trigger w v e).1 v).val = e.val.getD (w v).val ∧
    ((trigger w v e).1 v).dom = e.dom.getD (w v).dom ∧ ((trigger w v e).2 = false → (trigger w v e).1 v = w v) := by
  obtain ⟨h1, h2, h3, -, h5, h6⟩ := applyVal_told (w v) e
  unfold trigger
  cases hdom : e.dom with
  | none =>
    simp only [set_eq]
    exact ⟨h1, h5, h2, h6⟩
  | some y =>
    simp only [set_eq]
    split
    · next hy =>
      simp only [set_eq]
      exact ⟨h1, h5, by rw [hy]; rfl, h6⟩
    · rw [h3]
      cases hdd : (w v).mirDomain with
      | none => simp only [set_eq]; exact ⟨h1, h5, rfl, by simp⟩
      | some d =>
        have : v ≠ d := by rintro rfl; exact h hdd
        simp only []
        rw [set_ne _ _ this, set_eq]
        exact ⟨h1, h5, rfl, by simp⟩

/-- Learning at another signal. -/
theorem learn_other {w : W} {u v : Nat} {cv cd : Desc} (h : u ≠ v)
    (hd : DomainOf w u v → (w u).val = none → (w u).dom = none → (w v).val = cd) : learn w u cv cd v = w v := by
  unfold learn
  split
  · next hv =>
    simp only [set_eq]
    split
    · next hdm =>
      cases hm : (w u).mirDomain with
      | some d =>
        simp only []
        by_cases e : d = v
        · subst e
          rw [set_eq, set_ne _ _ (Ne.symm h), set_ne _ _ (Ne.symm h), ← hd (.inl hm) hv hdm]
        · rw [set_ne _ _ (Ne.symm e), set_ne _ _ (Ne.symm h), set_ne _ _ (Ne.symm h)]
      | none =>
        simp only []
        cases hc : (w u).domain with
        | none => simp only []; rw [set_ne _ _ (Ne.symm h), set_ne _ _ (Ne.symm h)]
        | some d =>
          simp only []
          by_cases e : d = v
          · subst e
            rw [set_eq, set_ne _ _ (Ne.symm h), set_ne _ _ (Ne.symm h), ← hd (.inr hc) hv hdm]
          · rw [set_ne _ _ (Ne.symm e), set_ne _ _ (Ne.symm h), set_ne _ _ (Ne.symm h)]
    · rw [set_ne _ _ (Ne.symm h)]
  · rfl

/-- Learning at the signal itself. -/
theorem learn_self {w : W} {v : Nat} {cv cd : Desc} (h : ¬ DomainOf w v v) :
    (learn w v cv cd v).told = (w v).told ∧ ((w v).val ≠ none → learn w v cv cd v = w v) ∧
    ((w v).dom ≠ none → (learn w v cv cd v).dom = (w v).dom) := by
  unfold learn
  split
  · next hv =>
    simp only [set_eq]
    split
    · next hdm =>
      cases hm : (w v).mirDomain with
      | some d =>
        have e : v ≠ d := by rintro rfl; exact h (.inl hm)
        simp only []
        rw [set_ne _ _ e, set_eq]
        exact ⟨rfl, fun h => absurd hv h, fun h => absurd hdm h⟩
      | none =>
        simp only []
        cases hc : (w v).domain with
        | none => dsimp only; rw [set_eq]; exact ⟨rfl, fun h => absurd hv h, fun h => absurd hdm h⟩
        | some d =>
          have e : v ≠ d := by rintro rfl; exact h (.inr hc)
          simp only []
          rw [set_ne _ _ e, set_eq]
          exact ⟨rfl, fun h => absurd hv h, fun h => absurd hdm h⟩
    · rw [set_eq]; exact ⟨rfl, fun h => absurd hv h, fun _ => rfl⟩
  · next hv => exact ⟨rfl, fun _ => rfl, fun _ => rfl⟩

/-- One step: the connections go on knowing what the signal knows; the signal takes what is announced and forgets nothing. -/
theorem step_ok {v : Nat} {w : W} {o : Op} (hr : Rule v w o) (j : J v w) :
    J v (step w o) ∧
    (∀ x, ownVal v o = some (some x) → (step w o v).val = some x) ∧ (ownVal v o = none → ∀ x, (w v).val = some x → (step w o v).val = some x) ∧
    (∀ x, ownDom v o = some (some x) → (step w o v).dom = some x) ∧ (ownDom v o = none → ∀ x, (w v).dom = some x → (step w o v).dom = some x) := by
  cases o with
  | event u e =>
    by_cases hu : u = v
    · subst hu
      obtain ⟨h1, h2, h3, h4⟩ := trigger_self (w := w) (v := u) (e := e) fun h => hr.2.2 rfl (.inl h)
      have hval : (step w (.event u e) u).val = e.val.getD (w u).val := by
        show (event w u e u).val = _
        unfold event
        dsimp only
        split
        · rw [set_eq]; exact h2
        · exact h2
      have hdom : (step w (.event u e) u).dom = e.dom.getD (w u).dom := by
        show (event w u e u).dom = _
        unfold event
        dsimp only
        split
        · rw [set_eq]; exact h3
        · exact h3
      refine ⟨?_, ?_, ?_, ?_, ?_⟩
      · intro t ht
        rw [hval, hdom]
        have ht' : t ∈ (event w u e u).told := ht
        unfold event at ht'
        dsimp only at ht'
        split at ht'
        · rw [set_eq] at ht'
          obtain ⟨s, hs, rfl⟩ := List.mem_map.mp ht'
          rw [h1] at hs
          have := j s hs
          unfold Told.apply
          rw [this.1, this.2]
          exact ⟨rfl, rfl⟩
        · next hn =>
          have h5 := h4 (by simpa using hn)
          rw [h1] at ht'
          rw [h5] at h2 h3
          rw [← h2, ← h3]
          exact j t ht'
      · intro x hx; simp only [ownVal, if_true] at hx; rw [hval, hx]; rfl
      · intro hx x h; simp only [ownVal, if_true] at hx; rw [hval, hx]; exact h
      · intro x hx; simp only [ownDom, if_true] at hx; rw [hdom, hx]; rfl
      · intro hx x h; simp only [ownDom, if_true] at hx; rw [hdom, hx]; exact h
    · have hsame : step w (.event u e) v = w v := by
        have := trigger_other (e := e) hu fun h y hy => hr.2.1 hu (.inl h) y hy
        show event w u e v = w v
        unfold event
        dsimp only
        split
        · rw [set_ne _ _ (Ne.symm hu)]; exact this
        · exact this
      refine ⟨?_, ?_, ?_, ?_, ?_⟩
      · unfold J; rw [hsame]; exact j
      · intro x hx; simp only [ownVal] at hx; rw [if_neg hu] at hx; cases hx
      · intro _ x h; rw [hsame]; exact h
      · intro x hx; simp only [ownDom] at hx; rw [if_neg hu] at hx; cases hx
      · intro _ x h; rw [hsame]; exact h
  | connect u cv cd =>
    by_cases hu : u = v
    · subst hu
      have h0 := hr.1 rfl
      obtain ⟨h1, h2, h3⟩ := learn_self (w := w) (v := u) (cv := cv) (cd := cd) h0.2
      have hs : step w (.connect u cv cd) u =
          { learn w u cv cd u with told := (learn w u cv cd u).told ++ [⟨(learn w u cv cd u).val, (learn w u cv cd u).dom⟩] } := by
        show connect w u cv cd u = _
        unfold connect
        exact set_eq _ _ _
      refine ⟨?_, (by intro x hx; cases hx), ?_, (by intro x hx; cases hx), ?_⟩
      · intro t ht
        rw [hs] at ht ⊢
        rcases List.mem_append.mp ht with h | h
        · rw [h1] at h
          rcases h0.1 with e | e
          · rw [e] at h; cases h
          · have h5 := h2 e
            show t.val = (learn w u cv cd u).val ∧ t.dom = (learn w u cv cd u).dom
            rw [h5]
            exact j t h
        · rw [List.mem_singleton.mp h]; exact ⟨rfl, rfl⟩
      · intro _ x hx
        rw [hs]
        show (learn w u cv cd u).val = some x
        rw [h2 (by rw [hx]; simp)]
        exact hx
      · intro _ x hx
        rw [hs]
        show (learn w u cv cd u).dom = some x
        rw [h3 (by rw [hx]; simp)]
        exact hx
    · have hsame : step w (.connect u cv cd) v = w v := by
        have := learn_other (cv := cv) (cd := cd) hu (hr.2 hu)
        show connect w u cv cd v = w v
        unfold connect
        dsimp only
        rw [set_ne _ _ (Ne.symm hu)]
        exact this
      refine ⟨?_, (by intro x hx; cases hx), ?_, (by intro x hx; cases hx), ?_⟩
      · unfold J; rw [hsame]; exact j
      · intro _ x h; rw [hsame]; exact h
      · intro _ x h; rw [hsame]; exact h
  | disconnect u k =>
    have hs : ∀ z : Nat, (step w (.disconnect u k) z).val = (w z).val ∧ (step w (.disconnect u k) z).dom = (w z).dom ∧
        ∀ t ∈ (step w (.disconnect u k) z).told, t ∈ (w z).told := by
      intro z
      show ((w.set u _) z).val = _ ∧ ((w.set u _) z).dom = _ ∧ ∀ t ∈ ((w.set u _) z).told, _
      by_cases e : z = u
      · subst e; rw [set_eq]; exact ⟨rfl, rfl, fun t ht => List.mem_of_mem_eraseIdx ht⟩
      · rw [set_ne _ _ e]; exact ⟨rfl, rfl, fun t ht => ht⟩
    refine ⟨?_, (by intro x hx; cases hx), ?_, (by intro x hx; cases hx), ?_⟩
    · intro t ht
      rw [(hs v).1, (hs v).2.1]
      exact j t ((hs v).2.2 t ht)
    · intro _ x h; rw [(hs v).1]; exact h
    · intro _ x h; rw [(hs v).2.1]; exact h

theorem announced_cons (v : Nat) (o : Op) (os : List Op) : announced v (o :: os) = (announced v os).or (ownVal v o) := by
  show (match announced v os with | some x => some x | none => _) = _
  cases announced v os with
  | some x => rfl
  | none => cases o <;> rfl

theorem announcedDomain_cons (v : Nat) (o : Op) (os : List Op) : announcedDomain v (o :: os) = (announcedDomain v os).or (ownDom v o) := by
  show (match announcedDomain v os with | some x => some x | none => _) = _
  cases announcedDomain v os with
  | some x => rfl
  | none => cases o <;> rfl

theorem own_ne {v : Nat} {w : W} {o : Op} (hr : Rule v w o) : ownVal v o ≠ some none ∧ ownDom v o ≠ some none := by
  cases o with
  | event u e =>
    simp only [ownVal, ownDom]
    by_cases h : u = v
    · rw [if_pos h, if_pos h]; exact hr.1 h
    · rw [if_neg h, if_neg h]; simp
  | _ => exact ⟨by simp [ownVal], by simp [ownDom]⟩

theorem run_ok (v : Nat) : ∀ (os : List Op) (w : W), Ruled v w os → J v w →
    J v (run w os) ∧
    (∀ x, announced v os = some (some x) → (run w os v).val = some x) ∧
    (announced v os = none → ∀ x, (w v).val = some x → (run w os v).val = some x) ∧
    (∀ x, announcedDomain v os = some (some x) → (run w os v).dom = some x) ∧
    (announcedDomain v os = none → ∀ x, (w v).dom = some x → (run w os v).dom = some x) := by
  intro os
  induction os with
  | nil => intro w _ j; exact ⟨j, by simp [announced], fun _ _ h => h, by simp [announcedDomain], fun _ _ h => h⟩
  | cons o os ih =>
    intro w hr j
    obtain ⟨s1, s2, s3, s4, s5⟩ := step_ok hr.1 j
    obtain ⟨r1, r2, r3, r4, r5⟩ := ih _ hr.2 s1
    rw [announced_cons, announcedDomain_cons]
    refine ⟨r1, ?_, ?_, ?_, ?_⟩
    · intro x hx
      cases ha : announced v os with
      | some y => rw [ha] at hx r2; exact r2 x hx
      | none => rw [ha] at hx; exact r3 ha x (s2 x hx)
    · intro hx x h
      cases ha : announced v os with
      | some y => rw [ha] at hx; cases hx
      | none => rw [ha] at hx; exact r3 ha x (s3 hx x h)
    · intro x hx
      cases ha : announcedDomain v os with
      | some y => rw [ha] at hx r4; exact r4 x hx
      | none => rw [ha] at hx; exact r5 ha x (s4 x hx)
    · intro hx x h
      cases ha : announcedDomain v os with
      | some y => rw [ha] at hx; cases hx
      | none => rw [ha] at hx; exact r5 ha x (s5 hx x h)

/-- After any history that keeps the rules for a signal, every connection of the signal knows the descriptors that the server
announced last. Missing are histories in which a value signal speaks before its domain signal, descriptors that go missing, and a connection that brings in a descriptor from the configuration. -/
theorem C109_informed_partial (v : Nat) (w : W) (f : Fresh w) (os : List Op) (h : Ruled v w os) : Informed v os (run w os) := by
  obtain ⟨r1, r2, _, r4, _⟩ := run_ok v os w h (by intro t ht; rw [f v] at ht; cases ht)
  exact ⟨fun x hx t ht => (r1 t ht).1.trans (r2 x hx), fun y hy t ht => (r1 t ht).2.trans (r4 y hy)⟩

/-- A value signal (0) and its domain signal (1). -/
def pair : W := fun v => if v = 0 then { mirDomain := some 1, domain := some 1 } else {}

theorem pair_fresh : Fresh pair := by
  intro v; unfold pair; split <;> rfl

/-- The domain signal speaks first. -/
def tidy : List Op :=
  [.connect 1 (some 5) none, .connect 0 (some 3) (some 5), .event 1 ⟨some (some 6), none⟩, .event 0 ⟨none, some (some 6)⟩,
   .event 0 ⟨some (some 4), none⟩, .connect 0 none none]

instance (w : W) (u d : Nat) : Decidable (DomainOf w u d) := by unfold DomainOf; exact inferInstance
instance (e : Option Desc) (p : Desc) : Decidable (∀ y, e = some (some y) → p = some y) :=
  match e with
  | none => .isTrue (by simp)
  | some none => .isTrue (by simp)
  | some (some y) => decidable_of_iff (p = some y) (by simp)
instance (v : Nat) (w : W) (o : Op) : Decidable (Rule v w o) := by
  cases o <;> unfold Rule <;> exact inferInstance
instance decRuled (v : Nat) : (w : W) → (os : List Op) → Decidable (Ruled v w os)
  | _, [] => .isTrue trivial
  | w, o :: os => @instDecidableAnd _ _ inferInstance (decRuled v (step w o) os)

example : Informed 0 tidy (run pair tidy) := C109_informed_partial 0 pair pair_fresh tidy (by decide +kernel)
example : Informed 1 tidy (run pair tidy) := C109_informed_partial 1 pair pair_fresh tidy (by decide +kernel)
example : (run pair tidy 0).told = [⟨some 4, some 6⟩, ⟨some 4, some 6⟩] ∧ (run pair tidy 1).told = [⟨some 6, none⟩] := by decide +kernel

/-- The value signal speaks before its domain signal: the connection of the domain signal is never told the descriptor that the server
announced for it. -/
theorem C109_violation_value_first :
    let os : List Op := [.connect 1 (some 5) none, .event 1 ⟨some (some 5), none⟩, .event 0 ⟨none, some (some 6)⟩, .event 1 ⟨some (some 6), none⟩]
    announced 1 os = some (some 6) ∧ (run pair os 1).told = [⟨some 5, none⟩] ∧ ¬ Informed 1 os (run pair os) := by
  refine ⟨by decide +kernel, by decide +kernel, fun h => ?_⟩
  have := h.1 6 (by decide +kernel) ⟨some 5, none⟩ (by decide +kernel)
  revert this; decide

/-- The second connection brings in the descriptor of the configuration: the first one is never told. -/
theorem C109_violation_second_connection :
    let os : List Op := [.connect 0 none none, .connect 0 (some 3) none, .event 0 ⟨some (some 3), none⟩]
    announced 0 os = some (some 3) ∧ (run pair os 0).told = [⟨none, none⟩, ⟨some 3, none⟩] ∧ ¬ Informed 0 os (run pair os) := by
  refine ⟨by decide +kernel, by decide +kernel, fun h => ?_⟩
  have := h.1 3 (by decide +kernel) ⟨none, none⟩ (by decide +kernel)
  revert this; decide

/-- The descriptor of the domain goes missing: the value signal knows, the domain signal does not. -/
theorem C109_violation_missing :
    let os : List Op := [.event 0 ⟨none, some (some 6)⟩, .event 0 ⟨none, some none⟩]
    (run pair os 0).dom = none ∧ (run pair os 1).val = some 6 := by
  decide +kernel

end Verif.MirrorEv.Props
