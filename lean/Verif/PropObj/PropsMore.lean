import Verif.PropObj.PropsOrder
import Verif.PropObj.PropsNested

/-! # Redundant calls, unmatched ends, clearing everything -/

namespace Verif.PropObj

variable {V : Type} [DecidableEq V]

/-- **C39** Setting a property to the value it has already changes nothing, raises no event and runs no handler, whatever the
handlers would do. -/
theorem C39_silent (env : Env V) (fuel : Nat) (o : Obj V) (hd : (o.locals.map (·.1)).Nodup) (n : Name) (p : PropDef V) (v w : V)
    (hf : o.frozen = false) (hc : o.count = 0) (hs : o.stack = []) (hp : HasProp env o n p) (hro : p.readOnly = false)
    (hsens : Sensible env.lt p) (ha : Accepts env.lt p v w) (hr : read env o n = some w) :
    step env (fuel + 1) o (.set n v) = some (o, .ok, []) := by
  have hl := (lookup_iff (env := env) hd n p).mpr hp
  have hpr := (process_iff hsens v w).mpr ha
  have hst : AList.get o.stack n = none := by rw [hs]; rfl
  have hcur : current o n p = w := by
    unfold read at hr
    rw [hl, hst] at hr
    exact Option.some.inj hr
  unfold step
  dsimp only
  rw [call, callStep, hf, hc]
  simp only [Bool.false_eq_true, if_false, Nat.lt_irrefl, decide_false, gt_iff_lt, hl, hro, Bool.not_false, Bool.true_and, hpr]
  unfold writeWith callWrite
  rw [register_fresh hst]
  dsimp only
  rw [isBase_fresh, unregister_fresh hst]
  simp [redundant, shouldWrite, hcur, applyWrite]

/-- **C39** Clearing a property without a stored value changes nothing, raises no event and runs no handler. -/
theorem C39_clear_silent (env : Env V) (fuel : Nat) (o : Obj V) (hd : (o.locals.map (·.1)).Nodup) (n : Name) (p : PropDef V)
    (hf : o.frozen = false) (hc : o.count = 0) (hp : HasProp env o n p) (hro : p.readOnly = false)
    (hr : AList.get o.values n = none) :
    step env (fuel + 1) o (.clear n) = some (o, .ignored, []) := by
  have hl := (lookup_iff (env := env) hd n p).mpr hp
  unfold step
  dsimp only
  rw [call, callStep, hf, hc]
  simp [hl, hro, hr]

/-- **C42** `endUpdate` without `beginUpdate` fails and changes nothing. -/
theorem C42_unmatched (env : Env V) (fuel : Nat) (o : Obj V) (hc : o.count = 0) :
    step env fuel o .endUpdate = some (o, .err .invalidState, []) := by
  unfold step endUpdate
  rw [if_pos hc]

theorem clearLoop_quiet {env : Env V} (hq : Quiet env) (fuel : Nat) : ∀ (l : List (Name × PropDef V)) (o : Obj V),
    o.frozen = false → o.count = 0 → o.stack = [] → (∀ n p, (n, p) ∈ l → lookup env o n = some p) →
    ∃ vals ev, clearLoop env (fuel + 1) o l = some ({ o with values := vals }, .ok, ev) ∧
      (∀ n p, (n, p) ∈ l → p.readOnly = false → (AList.get o.locals n).isSome → AList.get vals n = none) ∧
      (∀ n, (∀ p, (n, p) ∈ l → p.readOnly = true ∨ (AList.get o.locals n).isNone) → AList.get vals n = AList.get o.values n) ∧
      (∀ n, AList.get o.values n = none → AList.get vals n = none) := by
  intro l
  induction l with
  | nil => intro o _ _ _ _; exact ⟨o.values, [], rfl, by simp, by simp, fun _ h => h⟩
  | cons e l ih =>
    intro o hf hc hs hl
    obtain ⟨n, p⟩ := e
    by_cases hskip : p.readOnly = true ∨ (AList.get o.locals n).isNone
    · obtain ⟨vals, ev, h1, h2, h3, h4⟩ := ih o hf hc hs fun m q hm => hl m q (by simp [hm])
      have h0 : clearLoop env (fuel + 1) o ((n, p) :: l) = clearLoop env (fuel + 1) o l := by
        rw [clearLoop]
        rcases hskip with h | h
        · rw [if_pos h]
        · by_cases h' : p.readOnly = true
          · rw [if_pos h']
          · rw [if_neg h', if_pos h]
      refine ⟨vals, ev, by rw [h0, h1], ?_, ?_, h4⟩
      · intro m q hm hq1 hq2
        rcases List.mem_cons.mp hm with h | h
        · injection h with ha hb
          subst ha; subst hb
          rcases hskip with h | h
          · rw [hq1] at h; cases h
          · cases hg : AList.get o.locals m <;> rw [hg] at h hq2 <;> simp_all
        · exact h2 m q h hq1 hq2
      · intro m hm
        exact h3 m fun q hq' => hm q (by simp [hq'])
    · have hro : p.readOnly = false := by
        cases h : p.readOnly
        · rfl
        · exact absurd (Or.inl h) hskip
      have hloc : ¬ (AList.get o.locals n).isNone := fun h => hskip (Or.inr h)
      have hst : AList.get o.stack n = none := by rw [hs]; rfl
      have hln := hl n p (by simp)
      have hcall : ∃ vals r ev, call env (fuel + 1) o (publicCall o n none) = some ({ o with values := vals }, r, ev) ∧
          (r = .ok ∨ r = .ignored) ∧ ∀ m, AList.get vals m = if m = n then none else AList.get o.values m := by
        unfold publicCall
        have hb : decide (o.count > 0) = false := by rw [hc]; rfl
        have := clear_quiet hq fuel hst hf false false
        rw [hb]
        rw [this, hln]
        dsimp only
        rw [hro]
        simp only [Bool.not_false, Bool.true_and, Bool.false_eq_true, if_false]
        by_cases hg : (AList.get o.values n).isNone = true
        · rw [if_pos hg]
          refine ⟨o.values, .ignored, [], rfl, Or.inr rfl, fun m => ?_⟩
          split
          · rename_i h; subst h; simpa using hg
          · rfl
        · rw [if_neg hg]
          refine ⟨_, _, _, rfl, Or.inl rfl, fun m => ?_⟩
          rw [AList.get_del]
      obtain ⟨v1, r1, e1, hc1, hr1, hv1⟩ := hcall
      obtain ⟨vals, ev, h1, h2, h3, h4⟩ := ih { o with values := v1 } hf hc hs fun m q hm => by
        rw [lookup_congr env (o := o) (o' := { o with values := v1 }) rfl]; exact hl m q (by simp [hm])
      have h0 : clearLoop env (fuel + 1) o ((n, p) :: l) = some ({ o with values := vals }, .ok, e1 ++ ev) := by
        rw [clearLoop, if_neg (by rw [hro]; simp), if_neg hloc, hc1]
        rcases hr1 with h | h <;> subst h <;> dsimp only <;> rw [h1] <;> rfl
      refine ⟨vals, _, h0, ?_, ?_, ?_⟩
      · intro m q hm hq1 hq2
        rcases List.mem_cons.mp hm with h | h
        · injection h with ha hb
          subst ha
          exact h4 m (by dsimp only; rw [hv1, if_pos rfl])
        · exact h2 m q h hq1 hq2
      · intro m hm
        have hne : m ≠ n := by
          intro h
          subst h
          rcases hm p (by simp) with h | h
          · rw [hro] at h; cases h
          · exact hloc h
        rw [h3 m fun q hq' => hm q (by simp [hq'])]
        dsimp only
        rw [hv1, if_neg hne]
      · intro m hm
        refine h4 m ?_
        dsimp only
        rw [hv1]
        split
        · rfl
        · exact hm

/-- **C39** Without handlers `clearPropertyValues` succeeds, returns every local property that is not read-only to its default,
and leaves everything else as it is. Missing: the properties of the class, which it ought to clear too
(`C39_violation_clearAll`). -/
theorem C39_clearAll_partial (env : Env V) (hq : Quiet env) (fuel : Nat) (o : Obj V) (hd : (o.locals.map (·.1)).Nodup)
    (hf : o.frozen = false) (hc : o.count = 0) (hs : o.stack = []) :
    ∃ o' ev, step env (fuel + 1) o .clearAll = some (o', .ok, ev) ∧ (∀ n p, HasProp env o' n p ↔ HasProp env o n p) ∧
      (∀ n p, (n, p) ∈ o.locals → p.readOnly = false → read env o' n = some p.dflt) ∧
      (∀ n, (∀ p, (n, p) ∈ o.locals → p.readOnly = true) → read env o' n = read env o n) := by
  obtain ⟨hnd, hmem⟩ := C43_once env o hd
  obtain ⟨vals, ev, h1, h2, h3, -⟩ := clearLoop_quiet hq fuel (getAll env o) o hf hc hs fun n p hm =>
    (lookup_iff hd n p).mpr ((hmem n p).mp hm)
  refine ⟨{ o with values := vals }, ev, ?_, fun n p => Iff.rfl, ?_, ?_⟩
  · unfold step
    dsimp only
    rw [if_neg (by rw [hf]; simp), h1]
  · intro n p hp hro
    have hl := (lookup_iff (env := env) hd n p).mpr (Or.inl hp)
    have hg := (get_some_iff _ hd n p).mpr hp
    unfold read
    rw [lookup_congr env (o := o) (o' := { o with values := vals }) rfl, hl]
    dsimp only
    rw [hs]
    unfold current
    dsimp only
    rw [h2 n p ((hmem n p).mpr (Or.inl hp)) hro (by rw [hg]; rfl)]
    rfl
  · intro n hn
    have := h3 n fun p hm => by
      rcases (hmem n p).mp hm with h | h
      · exact Or.inl (hn p h)
      · exact Or.inr (by rw [(get_none_iff _ _).mpr h.1]; rfl)
    unfold read
    rw [lookup_congr env (o := o) (o' := { o with values := vals }) rfl]
    cases lookup env o n with
    | none => rfl
    | some p =>
      dsimp only
      unfold current
      dsimp only
      rw [this]

/-- An object with a set local property, a set read-only one, a set class property. -/
def mixedObj : Obj Nat where
  locals := [(0, { dflt := 2 }), (1, { dflt := 3, readOnly := true })]
  values := [(0, 5), (1, 6), (7, 4)]

example : (step quietEnv 3 mixedObj .clearAll).map (fun r => (r.1.values, r.2.1, r.2.2.length)) =
    some ([(1, 6), (7, 4)], .ok, 1) := by decide

example : step quietEnv 3 mixedObj (.set 0 5) = some (mixedObj, .ok, []) :=
  C39_silent quietEnv 2 mixedObj (by decide) 0 { dflt := 2 } 5 5 rfl rfl rfl (Or.inl (by simp [mixedObj])) rfl
    (by simp [Sensible, quietEnv])
    ⟨5, 5, rfl, rfl, rfl, rfl, by simp [Limited, InRange, AboveMin, BelowMax]⟩ rfl

/-- A handler of the class raises an exception for 5. -/
def classThrowEnv : Env Nat where
  lt := fun a b => decide (a < b)
  cls := [(7, { dflt := 0 })]
  onClass := fun _ a _ _ _ => if a = 5 then [.fail] else []

/-- **C44 (violation)** The same with a handler of the class: it leaves the value in the update stack. -/
theorem C44_violation_residue_class :
    (run classThrowEnv 10 {} [.set 7 5]).map (fun r => (read classThrowEnv r.1 7, AList.get r.1.values 7, r.2)) =
      some (some 5, none, [.err .handler]) ∧
    (run classThrowEnv 10 {} [.set 7 5, .set 7 5]).map (fun r => (read classThrowEnv r.1 7, AList.get r.1.values 7, r.2)) =
      some (some 5, none, [.err .handler, .ok]) := by
  decide

end Verif.PropObj
