import Verif.PropObj.PropsBatch

/-! # C44: writes by handlers -/

namespace Verif.PropObj

variable {V : Type} [DecidableEq V] {env : Env V}

/-! ## Nothing is left in the update stack -/

def Pos (s : AList Name (Item V)) : Prop := ∀ n it, AList.get s n = some it → 1 ≤ it.level

def Same (s t : AList Name (Item V)) : Prop := ∀ n, (AList.get t n).map Item.level = (AList.get s n).map Item.level

theorem Same.refl (s : AList Name (Item V)) : Same s s := fun _ => rfl

theorem Same.trans {a b c : AList Name (Item V)} (h : Same a b) (h' : Same b c) : Same a c := fun n => (h' n).trans (h n)

theorem Same.pos {s t : AList Name (Item V)} (h : Same s t) (hp : Pos s) : Pos t := by
  intro n it e
  have := h n
  rw [e] at this
  obtain ⟨it', e', el⟩ := Option.map_eq_some_iff.mp this.symm
  have := hp n it' e'
  omega

theorem register_level {s t : AList Name (Item V)} {n : Name} {v : Option V} (h : register s n v = some t) :
    ∃ it, AList.get t n = some it ∧ it.value = v ∧ it.pushed = true ∧ it.level = ((AList.get s n).map Item.level).getD 0 + 1 := by
  unfold register at h
  split at h
  · rename_i e
    cases h; rw [e, AList.get_put, if_pos rfl]; exact ⟨_, rfl, rfl, rfl, rfl⟩
  · rename_i it e
    split at h
    · cases h
    · cases h; rw [e, AList.get_put, if_pos rfl]; exact ⟨_, rfl, rfl, rfl, rfl⟩

/-- Registering, anything that keeps the levels, and unregistering keep the levels. -/
theorem Same.around {s t u : AList Name (Item V)} {n : Name} {v : Option V} (hp : Pos s) (h : register s n v = some t) (h' : Same t u) :
    Same s (unregister u n).1 := by
  intro m
  by_cases hm : m = n
  · subst hm
    obtain ⟨it, e1, -, -, e2⟩ := register_level h
    have h3 := h' m
    rw [e1] at h3
    obtain ⟨it', e3, e4⟩ := Option.map_eq_some_iff.mp h3
    have e5 : it'.level = ((AList.get s m).map Item.level).getD 0 + 1 := e4.trans e2
    unfold unregister
    rw [e3]
    dsimp only
    cases e : AList.get s m with
    | none =>
      rw [e] at e5
      rw [if_pos (by simp [e5])]
      simp [AList.get_del]
    | some x =>
      rw [e] at e5
      have hx := hp m x e
      simp only [Option.map_some, Option.getD_some] at e5
      rw [if_neg (by omega)]
      simp only [AList.get_put, if_true, Option.map_some, Option.some.injEq]
      omega
  · rw [unregister_other _ _ _ hm, h' m, register_other h m hm]

theorem Same.registered {s t : AList Name (Item V)} {n : Name} {v : Option V} (hp : Pos s) (h : register s n v = some t) : Pos t := by
  intro m it e
  by_cases hm : m = n
  · subst hm
    obtain ⟨it', e1, -, -, e2⟩ := register_level h
    rw [e1] at e; cases e; omega
  · rw [register_other h m hm] at e; exact hp m it e

/-- The calls keep the levels. -/
def Keeps (rec : Obj V → Call V → Ret V) : Prop := ∀ o c o' r ev, Pos o.stack → rec o c = some (o', r, ev) → Same o.stack o'.stack

theorem same_runActs {rec : Obj V → Call V → Ret V} (hk : Keeps rec) : ∀ (l : List (Act V)) (o : Obj V) (a : V) o' a' f ev,
    Pos o.stack → runActs rec o a l = some (o', a', f, ev) → Same o.stack o'.stack ∧ ((∀ x ∈ l, x.Calm) → f = false) := by
  intro l
  induction l with
  | nil =>
    intro o a o' a' f ev _ h
    simp only [runActs, Option.some.injEq, Prod.mk.injEq] at h
    obtain ⟨rfl, -, rfl, -⟩ := h
    exact ⟨.refl _, fun _ => rfl⟩
  | cons x l ih =>
    intro o a o' a' f ev hp h
    have tail : ∀ {o1 a1 ev1}, Same o.stack o1.stack →
        (runActs rec o1 a1 l).map (fun r => (r.1, r.2.1, r.2.2.1, ev1 ++ r.2.2.2)) = some (o', a', f, ev) →
        Same o.stack o'.stack ∧ ((∀ y ∈ x :: l, y.Calm) → f = false) := by
      intro o1 a1 ev1 hs h
      obtain ⟨⟨o2, a2, f2, ev2⟩, h4, h5⟩ := Option.map_eq_some_iff.mp h
      simp only [Prod.mk.injEq] at h5
      obtain ⟨rfl, rfl, rfl, rfl⟩ := h5
      have key := ih _ _ _ _ _ _ (hs.pos hp) h4
      exact ⟨hs.trans key.1, fun hc => key.2 (fun y hy => hc y (List.mem_cons_of_mem _ hy))⟩
    cases x with
    | setArgs v =>
      rw [runActs] at h
      have key := ih _ _ _ _ _ _ hp h
      exact ⟨key.1, fun hc => key.2 (fun y hy => hc y (List.mem_cons_of_mem _ hy))⟩
    | fail =>
      simp only [runActs, Option.some.injEq, Prod.mk.injEq] at h
      obtain ⟨rfl, -, rfl, -⟩ := h
      exact ⟨.refl _, fun hc => (hc _ List.mem_cons_self).elim⟩
    | write n v strict =>
      rw [runActs] at h
      split at h
      · cases h
      · rename_i o1 e ev1 h1
        have hs := hk _ _ _ _ _ hp h1
        split at h
        · rename_i hst
          simp only [Option.some.injEq, Prod.mk.injEq] at h
          obtain ⟨rfl, -, rfl, -⟩ := h
          refine ⟨hs, fun hc => ?_⟩
          have : strict = false := hc _ List.mem_cons_self
          rw [this] at hst; cases hst
        · exact tail hs h
      · rename_i h1
        exact tail (hk _ _ _ _ _ hp h1) h
    | clear n strict =>
      rw [runActs] at h
      split at h
      · cases h
      · rename_i o1 e ev1 h1
        have hs := hk _ _ _ _ _ hp h1
        split at h
        · rename_i hst
          simp only [Option.some.injEq, Prod.mk.injEq] at h
          obtain ⟨rfl, -, rfl, -⟩ := h
          refine ⟨hs, fun hc => ?_⟩
          have : strict = false := hc _ List.mem_cons_self
          rw [this] at hst; cases hst
        · exact tail hs h
      · rename_i h1
        exact tail (hk _ _ _ _ _ hp h1) h

theorem same_runHandlers (hcalm : Calm env) {rec : Obj V → Call V → Ret V} (hk : Keeps rec) {o : Obj V} {n : Name} {a old : V} {ic upd : Bool}
    {o' a' t f ev} (hp : Pos o.stack) (h : runHandlers env rec o n a old ic upd = some (o', a', t, f, ev)) :
    Same o.stack o'.stack ∧ t = false := by
  unfold runHandlers at h
  have hc0 : ∀ x ∈ (if (AList.get o.locals n).isSome = true then [] else env.onClass n a old ic upd), x.Calm := by
    intro x hx
    split at hx
    · cases hx
    · exact hcalm.1 _ _ _ _ _ x hx
  split at h
  · cases h
  · rename_i h1
    have := (same_runActs hk _ _ _ _ _ _ _ hp h1).2 hc0
    cases this
  · rename_i o1 a1 ev1 h1
    have s1 := (same_runActs hk _ _ _ _ _ _ _ hp h1).1
    split at h
    · cases h
    · rename_i o2 a2 f2 ev2 h2
      have s2 := (same_runActs hk _ _ _ _ _ _ _ (s1.pos hp) h2).1
      split at h
      · cases h
      · rename_i o3 a3 f3 ev3 h3
        have s3 := same_runActs hk _ _ _ _ _ _ _ ((s1.trans s2).pos hp) h3
        simp only [Option.some.injEq, Prod.mk.injEq] at h
        obtain ⟨rfl, -, rfl, -⟩ := h
        exact ⟨(s1.trans s2).trans s3.1, s3.2 (hcalm.2 _ _ _ _ _)⟩

theorem finish_stack (o : Obj V) (n : Name) (p : PropDef V) (nv : Option V) (a : V) (f : Bool) :
    (finish env o n p nv a f).1.stack = (unregister o.stack n).1 := by
  have hw : ∀ (o : Obj V) (q : PropDef V) (w : V), (writeLocal o n q w).stack = o.stack := by
    intro o q w; unfold writeLocal; split <;> rfl
  have hpl : ∀ (o : Obj V) (w : V), (setPlain env o n w).1.stack = o.stack := by
    intro o w
    unfold setPlain
    split
    · rfl
    · split
      · rfl
      · split
        · rfl
        · split
          · exact hw _ _ _
          · rfl
  unfold finish
  dsimp only
  split
  · rfl
  · split
    · split
      · rfl
      · split
        · rfl
        · have := hpl { o with stack := (unregister o.stack n).1 } a
          split <;> (rename_i e; rw [e] at this; exact this)
    · rfl

theorem same_callWrite (hcalm : Calm env) {rec : Obj V → Call V → Ret V} (hk : Keeps rec) {o : Obj V} {n : Name} {p : PropDef V} {nv : Option V}
    {upd : Bool} {o' w ev} (hp : Pos o.stack) (h : callWrite env rec o n p nv upd = some (o', w, ev)) : Same o.stack o'.stack := by
  unfold callWrite at h
  split at h
  · simp only [Option.some.injEq, Prod.mk.injEq] at h
    rw [← h.1]; exact .refl _
  · rename_i s hreg
    split at h
    · simp only [Option.some.injEq, Prod.mk.injEq] at h
      rw [← h.1]; exact Same.around hp hreg (.refl s)
    · split at h
      · cases h
      · rename_i h1
        have := (same_runHandlers hcalm hk (Same.registered hp hreg) h1).2
        cases this
      · rename_i o1 a f ev1 h1
        have hs := (same_runHandlers hcalm hk (Same.registered hp hreg) h1).1
        simp only [Option.some.injEq, Prod.mk.injEq] at h
        rw [← h.1, finish_stack]
        exact Same.around hp hreg hs

theorem same_writeWith (hcalm : Calm env) {rec : Obj V → Call V → Ret V} (hk : Keeps rec) {o : Obj V} {n : Name} {p : PropDef V} {nv : Option V}
    {upd : Bool} {o' r ev} (hp : Pos o.stack) (h : writeWith env rec o n p nv upd = some (o', r, ev)) : Same o.stack o'.stack := by
  unfold writeWith at h
  split at h
  · cases h
  · rename_i o1 w ev1 h1
    have hs := same_callWrite hcalm hk hp h1
    unfold applyWrite at h
    split at h
    · simp only [Option.some.injEq, Prod.mk.injEq] at h; rw [← h.1]; exact hs
    · simp only [Option.some.injEq, Prod.mk.injEq] at h; rw [← h.1]; exact hs
    · simp only [Option.some.injEq, Prod.mk.injEq] at h
      rw [← h.1]
      split
      · unfold writeLocal; split <;> exact hs
      · exact hs
    · split at h
      · cases h
      · simp only [Option.some.injEq, Prod.mk.injEq] at h; rw [← h.1]; exact hs

theorem keeps_call (hcalm : Calm env) (fuel : Nat) : Keeps (call env fuel) := by
  induction fuel with
  | zero => intro o c o' r ev _ h; simp [call] at h
  | succ k ih =>
    intro o c o' r ev hp h
    rw [call] at h
    unfold callStep at h
    split at h
    · cases h; exact .refl _
    · split at h
      · cases h; exact .refl _
      · split at h
        · cases h; exact .refl _
        · split at h
          · cases h; exact .refl _
          · split at h
            · split at h
              · cases h; exact .refl _
              · exact same_writeWith hcalm ih hp h
            · split at h
              · cases h; exact .refl _
              · exact same_writeWith hcalm ih hp h

theorem same_apply (hcalm : Calm env) (fuel : Nat) : ∀ (l : List (Action V)) (o o' : Obj V) r ap ev, Pos o.stack →
    apply env fuel o l = some (o', r, ap, ev) → Same o.stack o'.stack := by
  intro l
  induction l with
  | nil =>
    intro o o' r ap ev _ h
    simp only [apply, Option.some.injEq, Prod.mk.injEq] at h
    rw [← h.1]; exact .refl _
  | cons a l ih =>
    intro o o' r ap ev hp h
    rw [apply] at h
    split at h
    · cases h
    · rename_i h1
      simp only [Option.some.injEq, Prod.mk.injEq] at h
      rw [← h.1]; exact keeps_call hcalm fuel _ _ _ _ _ hp h1
    all_goals
      rename_i h1
      have hs := keeps_call hcalm fuel _ _ _ _ _ hp h1
      obtain ⟨⟨o2, r2, ap2, ev2⟩, h4, h5⟩ := Option.map_eq_some_iff.mp h
      simp only [Prod.mk.injEq] at h5
      rw [← h5.1]
      exact hs.trans (ih _ _ _ _ _ (hs.pos hp) h4)

theorem same_clearLoop (hcalm : Calm env) (fuel : Nat) : ∀ (l : List (Name × PropDef V)) (o o' : Obj V) r ev, Pos o.stack →
    clearLoop env fuel o l = some (o', r, ev) → Same o.stack o'.stack := by
  intro l
  induction l with
  | nil =>
    intro o o' r ev _ h
    simp only [clearLoop, Option.some.injEq, Prod.mk.injEq] at h
    rw [← h.1]; exact .refl _
  | cons a l ih =>
    intro o o' r ev hp h
    rw [clearLoop] at h
    split at h
    · exact ih _ _ _ _ hp h
    · split at h
      · exact ih _ _ _ _ hp h
      · split at h
        · cases h
        · rename_i h1
          simp only [Option.some.injEq, Prod.mk.injEq] at h
          rw [← h.1]; exact keeps_call hcalm fuel _ _ _ _ _ hp h1
        · rename_i h1
          have hs := keeps_call hcalm fuel _ _ _ _ _ hp h1
          obtain ⟨⟨o2, r2, ev2⟩, h4, h5⟩ := Option.map_eq_some_iff.mp h
          simp only [Prod.mk.injEq] at h5
          rw [← h5.1]
          exact hs.trans (ih _ _ _ _ (hs.pos hp) h4)

theorem same_step (hcalm : Calm env) (fuel : Nat) {o o' : Obj V} {op : Op V} {r ev} (hp : Pos o.stack)
    (h : step env fuel o op = some (o', r, ev)) : Same o.stack o'.stack := by
  cases op with
  | set n v => exact keeps_call hcalm fuel _ _ _ _ _ hp h
  | setProtected n v => exact keeps_call hcalm fuel _ _ _ _ _ hp h
  | clear n => exact keeps_call hcalm fuel _ _ _ _ _ hp h
  | clearProtected n => exact keeps_call hcalm fuel _ _ _ _ _ hp h
  | clearAll =>
    rw [step] at h
    split at h
    · cases h; exact .refl _
    · exact same_clearLoop hcalm fuel _ _ _ _ _ hp h
  | endUpdate =>
    rw [step, endUpdate] at h
    split at h
    · cases h; exact .refl _
    · split at h
      · cases h; exact .refl _
      · split at h
        · cases h
        · rename_i h1
          simp only [Option.some.injEq, Prod.mk.injEq] at h
          rw [← h.1]; exact same_apply hcalm fuel _ { o with count := 0, pending := [] } _ _ _ _ hp h1
        · rename_i h1
          simp only [Option.some.injEq, Prod.mk.injEq] at h
          rw [← h.1]; exact same_apply hcalm fuel _ { o with count := 0, pending := [] } _ _ _ _ hp h1
  | addProperty n p =>
    rw [step] at h
    split at h
    · cases h; exact .refl _
    · split at h <;> (cases h; exact .refl _)
  | removeProperty n =>
    rw [step] at h
    split at h
    · cases h; exact .refl _
    · split at h <;> (cases h; exact .refl _)
  | setOrder l => rw [step] at h; split at h <;> (cases h; exact .refl _)
  | beginUpdate => rw [step] at h; split at h <;> (cases h; exact .refl _)
  | freeze => rw [step] at h; split at h <;> (cases h; exact .refl _)

/-- **C44** Whatever the handlers write, when a call returns nothing is left of the writes it has led to: after every history
each property reads as the value stored, or the default. Missing: exceptions from handlers of the class or of the whole object,
for which it fails (`C44_violation_residue`). -/
theorem C44_unwound_partial (env : Env V) (hcalm : Calm env) (fuel : Nat) (ops : List (Op V)) (o : Obj V) (rs : List Res)
    (h : run env fuel {} ops = some (o, rs)) (n : Name) (p : PropDef V) (hp : HasProp env o n p) :
    (∀ v, AList.get o.values n = some v → read env o n = some v) ∧ (AList.get o.values n = none → read env o n = some p.dflt) := by
  have hstack : ∀ (ops : List (Op V)) (o o' : Obj V) rs, o.stack = [] → run env fuel o ops = some (o', rs) → o'.stack = [] := by
    intro ops
    induction ops with
    | nil => intro o o' rs hs h; simp only [run, Option.some.injEq, Prod.mk.injEq] at h; rw [← h.1]; exact hs
    | cons op ops ih =>
      intro o o' rs hs h
      rw [run] at h
      split at h
      · cases h
      · rename_i o1 r1 ev1 h1
        obtain ⟨⟨o2, rs2⟩, h4, h5⟩ := Option.map_eq_some_iff.mp h
        simp only [Prod.mk.injEq] at h5
        rw [← h5.1]
        refine ih _ _ _ ?_ h4
        have hp : Pos o.stack := by intro n it e; rw [hs] at e; cases e
        have := same_step hcalm fuel hp h1
        refine AList.get_eq_none_of_nil fun k => ?_
        have hk := this k
        rw [hs] at hk
        simpa using hk
  have hs := hstack ops {} o rs rfl h
  have hn : Distinct o := run_inv (P := Distinct) (ok := fun _ => True) (fun _ _ _ _ _ hd _ h => distinct_step hd h) ops {} o rs
    (fun _ _ => trivial) List.nodup_nil h
  have hl := (lookup_iff (env := env) hn n p).mpr hp
  unfold read
  rw [hl, hs]
  constructor
  · intro v hv; simp [current, hv]
  · intro hv; simp [current, hv]

/-! ## Handlers that write the property again -/

section Chain

variable {n : Name} {h : V → Option V} {p : PropDef V}

/-- The write of `w` to `n` gets as far as the handlers. -/
def Starts (o : Obj V) (n : Name) (p : PropDef V) (w : V) : Prop :=
  match AList.get o.stack n with
  | none => current o n p ≠ w
  | some it => it.value ≠ some w

/-- The stack after a write of `n`. -/
structure Unwound (s t : AList Name (Item V)) (n : Name) : Prop where
  other : ∀ k, k ≠ n → AList.get t k = AList.get s k
  none : AList.get s n = none → AList.get t n = none
  some : ∀ it, AList.get s n = some it → ∃ x, AList.get t n = some ⟨x, it.level, false⟩

theorem register_starts {o : Obj V} {w : V} (hst : Starts o n p w) (hpos : Pos o.stack) :
    ∃ s, register o.stack n (some w) = some s ∧ (isBase s n && redundant o n p (some w)) = false ∧
      AList.get s n = some ⟨some w, ((AList.get o.stack n).map Item.level).getD 0 + 1, true⟩ ∧
      ∀ k, k ≠ n → AList.get s k = AList.get o.stack k := by
  unfold Starts at hst
  cases e : AList.get o.stack n with
  | none =>
    rw [e] at hst
    refine ⟨AList.put o.stack n ⟨some w, 1, true⟩, by rw [register, e], ?_, by rw [AList.get_put, if_pos rfl]; rfl, fun k hk => by rw [AList.get_put, if_neg hk]⟩
    have : redundant o n p (some w) = false := by simp [redundant, shouldWrite, hst]
    rw [this, Bool.and_false]
  | some it =>
    rw [e] at hst
    dsimp only at hst
    refine ⟨AList.put o.stack n ⟨some w, it.level + 1, true⟩, by rw [register, e]; simp only [if_neg hst], ?_, by rw [AList.get_put, if_pos rfl]; rfl,
      fun k hk => by rw [AList.get_put, if_neg hk]⟩
    have hl := hpos n it e
    have : isBase (AList.put o.stack n ⟨some w, it.level + 1, true⟩) n = false := by
      unfold isBase
      rw [AList.get_put, if_pos rfl]
      simp only [decide_eq_false_iff_not]
      omega
    rw [this, Bool.false_and]

theorem unregister_unwound {s u : AList Name (Item V)} (hpos : Pos s) {x : Option V} {b : Bool}
    (hu : AList.get u n = some ⟨x, ((AList.get s n).map Item.level).getD 0 + 1, b⟩) (ho : ∀ k, k ≠ n → AList.get u k = AList.get s k) :
    Unwound s (unregister u n).1 n ∧ (unregister u n).2 = b := by
  unfold unregister
  rw [hu]
  cases e : AList.get s n with
  | none =>
    simp only [Option.map_none, Option.getD_none, Nat.zero_add, Nat.sub_self, if_true, and_true]
    refine ⟨fun k hk => by rw [AList.get_del, if_neg hk, ho k hk], fun _ => by rw [AList.get_del, if_pos rfl], fun it e' => by rw [e] at e'; cases e'⟩
  | some it =>
    have hl := hpos n it e
    simp only [Option.map_some, Option.getD_some, Nat.add_sub_cancel]
    rw [if_neg (by omega)]
    refine ⟨⟨fun k hk => by rw [AList.get_put, if_neg hk, ho k hk], (fun e' => by rw [e] at e'; cases e'), fun it' e' => ?_⟩, rfl⟩
    rw [e] at e'; cases e'
    exact ⟨x, by rw [AList.get_put, if_pos rfl]⟩

theorem runHandlers_rewrites (hr : Rewrites env n h) (rec : Obj V → Call V → Ret V) (o : Obj V) (w old : V) (c u : Bool) :
    runHandlers env rec o n w old c u = match h w with
      | none => some (o, w, false, false, [])
      | some v => (rec o (publicCall o n (some v))).map (fun r => (r.1, w, false, false, r.2.2)) := by
  unfold runHandlers
  have hcl : (if (AList.get o.locals n).isSome = true then [] else env.onClass n w old c u) = [] := by
    rw [(hr w old c u).1, ite_self]
  rw [hcl]
  simp only [runActs, (hr _ _ _ _).2.1, (hr _ _ _ _).2.2]
  cases h w with
  | none => rfl
  | some v =>
    simp only [runActs]
    cases e : rec o (publicCall o n (some v)) with
    | none => rfl
    | some x =>
      obtain ⟨o1, r, ev⟩ := x
      cases r <;> simp

theorem call_starts (hr : Rewrites env n h) {o : Obj V} {v w : V} (hpos : Pos o.stack) (hf : o.frozen = false)
    (hp : lookup env o n = some p) (hro : p.readOnly = false) (hw : process env p v = .ok w) (hst : Starts o n p w) (fuel : Nat) :
    ∃ s, AList.get s n = some ⟨some w, ((AList.get o.stack n).map Item.level).getD 0 + 1, true⟩ ∧
      (∀ k, k ≠ n → AList.get s k = AList.get o.stack k) ∧
      call env (fuel + 1) o ⟨n, some v, false, false, false⟩ =
        match runHandlers env (call env fuel) { o with stack := s } n w (current o n p) false false with
        | none => none
        | some (o1, _, true, _, ev) => applyWrite o1 n p (some w) false ev (.err .handler)
        | some (o1, a, false, failed, ev) =>
          applyWrite (finish env o1 n p (some w) a failed).1 n p (some w) false ev (finish env o1 n p (some w) a failed).2 := by
  obtain ⟨s, h1, h2, h3, h4⟩ := register_starts hst hpos
  refine ⟨s, h3, h4, ?_⟩
  rw [call, callStep, if_neg (by rw [hf]; simp)]
  dsimp only
  rw [if_neg (by simp), hp]
  dsimp only
  rw [if_neg (by rw [hro]; simp), hw]
  dsimp only
  rw [writeWith, callWrite, h1]
  dsimp only
  rw [h2, if_neg (by simp)]
  simp only [Option.getD_some, Option.isNone_some]
  rcases runHandlers env (call env fuel) { o with stack := s } n w (current o n p) false false with _ | ⟨o1, a, t, f, ev⟩
  · rfl
  · cases t <;> rfl

theorem finish_rest {o : Obj V} {t : AList Name (Item V)} {w : V} {b : Bool} (ht : unregister o.stack n = (t, b)) :
    finish env o n p (some w) w false = ({ o with stack := t }, if b then .done (some w) else .ignored) := by
  unfold finish
  rw [ht]
  cases b <;> simp

/-- A write whose handler changes nothing. -/
theorem call_rest {o : Obj V} {s : AList Name (Item V)} {w : V} (hpos : Pos o.stack)
    (hs : AList.get s n = some ⟨some w, ((AList.get o.stack n).map Item.level).getD 0 + 1, true⟩)
    (ho : ∀ k, k ≠ n → AList.get s k = AList.get o.stack k) :
    ∃ t, Unwound o.stack t n ∧
      applyWrite (finish env { o with stack := s } n p (some w) w false).1 n p (some w) false []
        (finish env { o with stack := s } n p (some w) w false).2 =
      some ({ o with values := (writeLocal o n p w).values, stack := t }, .ok, [.changed n (some w)]) := by
  obtain ⟨h1, h2⟩ := unregister_unwound hpos hs ho
  refine ⟨_, h1, ?_⟩
  rw [finish_rest (o := { o with stack := s }) (t := (unregister s n).1) (b := true) (by rw [← h2])]
  simp only [if_true, applyWrite]
  unfold writeLocal
  have : shouldWrite { o with stack := (unregister s n).1 } n p w = shouldWrite o n p w := rfl
  rw [this]
  split <;> rfl

theorem call_settles (hr : Rewrites env n h) (hs : Sensible env.lt p) (hro : p.readOnly = false) {w z : V} {m : Nat}
    (hz : Settles env.lt p h w z m) : ∀ (o : Obj V) (fuel : Nat) (v : V), m + 2 ≤ fuel → process env p v = .ok w → Pos o.stack →
    o.frozen = false → o.count = 0 → lookup env o n = some p → Starts o n p w →
    ∃ t, Unwound o.stack t n ∧ call env fuel o ⟨n, some v, false, false, false⟩ =
      some ({ o with values := (writeLocal o n p z).values, stack := t }, .ok, [.changed n (some z)]) := by
  induction hz with
  | still w hw =>
    intro o fuel v hfu hv hpos hf hc hl hst
    obtain ⟨fuel, rfl⟩ : ∃ k, fuel = k + 1 := ⟨fuel - 1, by omega⟩
    obtain ⟨s, h1, h2, h3⟩ := call_starts hr hpos hf hl hro hv hst fuel
    rw [h3, runHandlers_rewrites hr, hw]
    exact call_rest hpos h1 h2
  | refused w v' hw href =>
    intro o fuel v hfu hv hpos hf hc hl hst
    obtain ⟨fuel, rfl⟩ : ∃ k, fuel = k + 2 := ⟨fuel - 2, by omega⟩
    obtain ⟨s, h1, h2, h3⟩ := call_starts hr hpos hf hl hro hv hst (fuel + 1)
    have hpr : ∃ e, process env p v' = .error e := by
      cases e : process env p v' with
      | error e' => exact ⟨e', rfl⟩
      | ok x => exact absurd ((process_iff hs v' x).mp e) (href x)
    obtain ⟨e, hpr⟩ := hpr
    have hin : call env (fuel + 1) { o with stack := s } (publicCall { o with stack := s } n (some v')) = some ({ o with stack := s }, .err e, []) := by
      rw [call, callStep, if_neg (by rw [hf]; simp), publicCall]
      dsimp only
      rw [if_neg (by rw [hc]; simp)]
      have : lookup env { o with stack := s } n = some p := hl
      rw [this]
      dsimp only
      rw [if_neg (by rw [hro]; simp), hpr]
    rw [h3, runHandlers_rewrites hr, hw]
    dsimp only
    rw [hin]
    exact call_rest hpos h1 h2
  | same w v' hw hsame =>
    intro o fuel v hfu hv hpos hf hc hl hst
    obtain ⟨fuel, rfl⟩ : ∃ k, fuel = k + 2 := ⟨fuel - 2, by omega⟩
    obtain ⟨s, h1, h2, h3⟩ := call_starts hr hpos hf hl hro hv hst (fuel + 1)
    have hpr := (process_iff hs v' w).mpr hsame
    have hin : call env (fuel + 1) { o with stack := s } (publicCall { o with stack := s } n (some v')) = some ({ o with stack := s }, .ok, []) := by
      rw [call, callStep, if_neg (by rw [hf]; simp), publicCall]
      dsimp only
      rw [if_neg (by rw [hc]; simp)]
      have : lookup env { o with stack := s } n = some p := hl
      rw [this]
      dsimp only
      rw [if_neg (by rw [hro]; simp), hpr]
      dsimp only
      rw [writeWith, callWrite, register]
      dsimp only
      rw [h1]
      simp [applyWrite]
    rw [h3, runHandlers_rewrites hr, hw]
    dsimp only
    rw [hin]
    exact call_rest hpos h1 h2
  | next w v' w' z m hw hacc hne hz ih =>
    intro o fuel v hfu hv hpos hf hc hl hst
    obtain ⟨fuel, rfl⟩ : ∃ k, fuel = k + 1 := ⟨fuel - 1, by omega⟩
    obtain ⟨s, h1, h2, h3⟩ := call_starts hr hpos hf hl hro hv hst fuel
    have hpr := (process_iff hs v' w').mpr hacc
    have hposs : Pos s := by
      intro k it e
      by_cases hk : k = n
      · subst hk; rw [h1] at e; cases e; simp
      · rw [h2 k hk] at e; exact hpos k it e
    have hst' : Starts { o with stack := s } n p w' := by
      unfold Starts
      dsimp only
      rw [h1]
      simp only [ne_eq, Option.some.injEq]
      exact fun e => hne e.symm
    obtain ⟨t, ht, hin⟩ := ih { o with stack := s } fuel v' (by omega) hpr hposs hf hc hl hst'
    have hpc : publicCall { o with stack := s } n (some v') = ⟨n, some v', false, false, false⟩ := by
      unfold publicCall; dsimp only; rw [hc]; rfl
    obtain ⟨x, hx⟩ := ht.some _ h1
    have ho : ∀ k, k ≠ n → AList.get t k = AList.get o.stack k := fun k hk => (ht.other k hk).trans (h2 k hk)
    obtain ⟨hun, hb⟩ := unregister_unwound hpos hx ho
    refine ⟨_, hun, ?_⟩
    rw [h3, runHandlers_rewrites hr, hw]
    dsimp only
    rw [hpc, hin]
    simp only [Option.map_some]
    rw [finish_rest (t := (unregister t n).1) (b := false) (by rw [← hb])]
    simp only [Bool.false_eq_true, if_false, applyWrite]
    have hwl : (writeLocal { o with stack := s } n p z).values = (writeLocal o n p z).values := by
      unfold writeLocal
      have : shouldWrite { o with stack := s } n p z = shouldWrite o n p z := rfl
      rw [this]
      split <;> rfl
    rw [hwl]

theorem call_restless (hr : Rewrites env n h) (hs : Sensible env.lt p) (hro : p.readOnly = false) : ∀ (fuel : Nat) (o : Obj V) (v w : V),
    (∀ z m, ¬ Settles env.lt p h w z m) → process env p v = .ok w → Pos o.stack → o.frozen = false → o.count = 0 →
    lookup env o n = some p → Starts o n p w → call env fuel o ⟨n, some v, false, false, false⟩ = none := by
  intro fuel
  induction fuel with
  | zero => intro o v w _ _ _ _ _ _ _; rfl
  | succ fuel ih =>
    intro o v w hnz hv hpos hf hc hl hst
    obtain ⟨s, h1, h2, h3⟩ := call_starts hr hpos hf hl hro hv hst fuel
    rw [h3, runHandlers_rewrites hr]
    cases hw : h w with
    | none => exact absurd (.still w hw) (hnz w 0)
    | some v' =>
      cases e : process env p v' with
      | error e' =>
        refine absurd (.refused w v' hw fun w' hw' => ?_) (hnz w 0)
        rw [(process_iff hs v' w').mpr hw'] at e; cases e
      | ok w' =>
        have hacc := (process_iff hs v' w').mp e
        by_cases hne : w' = w
        · subst hne; exact absurd (.same w' v' hw hacc) (hnz w' 0)
        · have hposs : Pos s := by
            intro k it e
            by_cases hk : k = n
            · subst hk; rw [h1] at e; cases e; simp
            · rw [h2 k hk] at e; exact hpos k it e
          have hst' : Starts { o with stack := s } n p w' := by
            unfold Starts
            dsimp only
            rw [h1]
            simp only [ne_eq, Option.some.injEq]
            exact fun e => hne e.symm
          have hpc : publicCall { o with stack := s } n (some v') = ⟨n, some v', false, false, false⟩ := by
            unfold publicCall; dsimp only; rw [hc]; rfl
          dsimp only
          rw [hpc, ih { o with stack := s } v' w' (fun z m hz => hnz z (m + 1) (.next w v' w' z m hw hacc hne hz)) e hposs hf hc hl hst']
          rfl

/-- **C44** When the handler of a property writes the property again and these writes come to rest, the call succeeds, the
property has the innermost value, nothing else has changed, and one event tells the value. Missing: handlers that write several
properties, or that raise exceptions, for which it fails (`C44_violation_lost`). -/
theorem C44_innermost_partial (env : Env V) (n : Name) (h : V → Option V) (hr : Rewrites env n h) (p : PropDef V) (hs : Sensible env.lt p)
    (hro : p.readOnly = false) (o : Obj V) (hd : (o.locals.map (·.1)).Nodup) (hp : HasProp env o n p) (hstack : o.stack = [])
    (hf : o.frozen = false) (hc : o.count = 0) (v w z : V) (m : Nat) (hw : Accepts env.lt p v w) (hne : read env o n ≠ some w)
    (hz : Settles env.lt p h w z m) (fuel : Nat) (hfuel : m + 2 ≤ fuel) :
    ∃ o', step env fuel o (.set n v) = some (o', .ok, [.changed n (some z)]) ∧ read env o' n = some z ∧
      (∀ k, k ≠ n → read env o' k = read env o k) ∧ o'.stack = [] := by
  have hl := (lookup_iff (env := env) hd n p).mpr hp
  have hpos : Pos o.stack := by intro k it e; rw [hstack] at e; cases e
  have hst : Starts o n p w := by
    unfold Starts
    rw [hstack]
    intro e
    apply hne
    unfold read
    rw [hl, hstack]
    dsimp only [AList.get_nil]
    rw [← e]
  obtain ⟨t, ht, hcall⟩ := call_settles hr hs hro hz o fuel v hfuel ((process_iff hs v w).mpr hw) hpos hf hc hl hst
  have ht0 : t = [] := by
    refine AList.get_eq_none_of_nil fun k => ?_
    by_cases hk : k = n
    · subst hk; exact ht.none (by rw [hstack]; rfl)
    · rw [ht.other k hk, hstack]; rfl
  subst ht0
  refine ⟨{ o with values := (writeLocal o n p z).values, stack := [] }, ?_, ?_, ?_, rfl⟩
  · rw [step, show decide (o.count > 0) = false by rw [hc]; rfl]
    exact hcall
  · unfold read
    have : lookup env { o with values := (writeLocal o n p z).values, stack := [] } n = some p := hl
    rw [this]
    simp only [AList.get_nil, Option.some.injEq]
    unfold current writeLocal
    dsimp only
    by_cases e : current o n p = z
    · rw [if_neg (by simp [shouldWrite, e])]; exact e
    · rw [if_pos (by simp [shouldWrite, e])]
      simp [AList.get_put]
  · intro k hk
    unfold read
    have : lookup env { o with values := (writeLocal o n p z).values, stack := [] } k = lookup env o k := rfl
    rw [this, hstack]
    have hv : AList.get (writeLocal o n p z).values k = AList.get o.values k := by
      unfold writeLocal
      split
      · rw [AList.get_put, if_neg hk]
      · rfl
    unfold current
    dsimp only
    rw [hv]

/-- **C44 (violation)** When they do not come to rest, the call never returns: it overflows whatever stack there is. -/
theorem C44_violation_restless (env : Env V) (n : Name) (h : V → Option V) (hr : Rewrites env n h) (p : PropDef V) (hs : Sensible env.lt p)
    (hro : p.readOnly = false) (o : Obj V) (hd : (o.locals.map (·.1)).Nodup) (hp : HasProp env o n p) (hstack : o.stack = [])
    (hf : o.frozen = false) (hc : o.count = 0) (v w : V) (hw : Accepts env.lt p v w) (hne : read env o n ≠ some w)
    (hz : ∀ z m, ¬ Settles env.lt p h w z m) (fuel : Nat) : step env fuel o (.set n v) = none := by
  have hl := (lookup_iff (env := env) hd n p).mpr hp
  have hpos : Pos o.stack := by intro k it e; rw [hstack] at e; cases e
  have hst : Starts o n p w := by
    unfold Starts
    rw [hstack]
    intro e
    apply hne
    unfold read
    rw [hl, hstack]
    dsimp only [AList.get_nil]
    rw [← e]
  rw [step, hc]
  exact call_restless hr hs hro fuel o v w hz ((process_iff hs v w).mpr hw) hpos hf hc hl hst

end Chain

/-! ## Handlers that replace the value -/

/-- **C44** When the handler of a property replaces the value in the event, the value stored is the replacement, as a set would
store it, and a replacement that is refused is an error that changes nothing. -/
theorem C44_replaced (env : Env V) (n : Name) (g : V → V) (hr : Replaces env n g) (p : PropDef V) (hs : Sensible env.lt p)
    (hro : p.readOnly = false) (o : Obj V) (hd : (o.locals.map (·.1)).Nodup) (hp : HasProp env o n p) (hstack : o.stack = [])
    (hf : o.frozen = false) (hc : o.count = 0) (v w : V) (hw : Accepts env.lt p v w) (hne : read env o n ≠ some w) (hg : g w ≠ w)
    (fuel : Nat) :
    (∀ z, Accepts env.lt p (g w) z → ∃ o' ev, step env (fuel + 1) o (.set n v) = some (o', .ok, ev) ∧ read env o' n = some z ∧
      (∀ k, k ≠ n → read env o' k = read env o k) ∧ o'.stack = []) ∧
    ((∀ z, ¬ Accepts env.lt p (g w) z) → ∃ e, step env (fuel + 1) o (.set n v) = some (o, .err e, [])) := by
  have hl := (lookup_iff (env := env) hd n p).mpr hp
  have hget : AList.get o.stack n = none := by rw [hstack]; rfl
  have hcur : current o n p ≠ w := by
    intro e
    apply hne
    unfold read
    rw [hl, hstack]
    dsimp only [AList.get_nil]
    rw [← e]
  have hrun : ∀ (o : Obj V) old, runHandlers env (call env fuel) o n w old false false = some (o, g w, false, false, []) := by
    intro o old
    unfold runHandlers
    have hcl : (if (AList.get o.locals n).isSome = true then [] else env.onClass n w old false false) = [] := by
      rw [(hr _ _ _ _).1, ite_self]
    rw [hcl]
    simp [runActs, (hr _ _ _ _).2.1, (hr _ _ _ _).2.2]
  have hcall : step env (fuel + 1) o (.set n v) = applyWrite (finish env { o with stack := AList.put o.stack n ⟨some w, 1, true⟩ } n p (some w) (g w) false).1
      n p (some w) false [] (finish env { o with stack := AList.put o.stack n ⟨some w, 1, true⟩ } n p (some w) (g w) false).2 := by
    rw [step, show decide (o.count > 0) = false by rw [hc]; rfl, call, callStep, if_neg (by rw [hf]; simp)]
    dsimp only
    rw [if_neg (by simp), hl]
    dsimp only
    rw [if_neg (by rw [hro]; simp), (process_iff hs v w).mpr hw]
    dsimp only
    rw [writeWith, callWrite, register_fresh hget]
    dsimp only
    have : redundant o n p (some w) = false := by simp [redundant, shouldWrite, hcur]
    rw [this, Bool.and_false, if_neg (by simp)]
    simp only [Option.getD_some, Option.isNone_some]
    rw [hrun]
  have hfin : finish env { o with stack := AList.put o.stack n ⟨some w, 1, true⟩ } n p (some w) (g w) false =
      match setPlain env o n (g w) with
      | (o, .err e) => (o, .err e)
      | (o, .ignored) => (o, .ignored)
      | (o, .ok) => (o, .done (some (g w))) := by
    unfold finish
    rw [unregister_fresh hget]
    simp only [Bool.false_eq_true, if_false, if_true]
    rw [if_neg (by simp), if_neg (by simpa using fun e => hg e.symm)]
    rfl
  rw [hcall, hfin]
  unfold setPlain
  rw [if_neg (by rw [hf]; simp), hl]
  dsimp only
  constructor
  · intro z hz
    rw [(process_iff hs _ z).mpr hz]
    dsimp only
    by_cases e : current o n p = z
    · rw [if_neg (by simp [shouldWrite, e])]
      refine ⟨o, [], rfl, ?_, fun _ _ => rfl, hstack⟩
      unfold read
      rw [hl, hstack]
      simp [e]
    · rw [if_pos (by simp [shouldWrite, e])]
      simp only [applyWrite, Option.some.injEq]
      rw [if_neg (fun e => hg e.symm), writeLocal, if_pos (by simp [shouldWrite, e])]
      refine ⟨_, _, rfl, ?_, ?_, hstack⟩
      · unfold read
        have : lookup env { o with values := AList.put o.values n z } n = some p := hl
        rw [this, hstack]
        simp [current, AList.get_put]
      · intro k hk
        exact read_values (fun m hm => by rw [AList.get_put, if_neg hm]) hk
  · intro hz
    cases e : process env p (g w) with
    | ok z => exact absurd ((process_iff hs _ z).mp e) (hz z)
    | error e' => exact ⟨e', rfl⟩

/-! ## Examples and violations -/

/-- Counts down to an even number. -/
def downEnv : Env Nat where
  lt := fun a b => decide (a < b)
  cls := [(7, { dflt := 0, max := some 20 })]
  onName := fun n a _ _ _ => if n = 7 ∧ a % 4 ≠ 0 then [.write 7 (a - 1) false] else []

example : Rewrites downEnv 7 (fun a => if a % 4 ≠ 0 then some (a - 1) else none) ∧
    Accepts downEnv.lt { dflt := 0, max := some 20 } 11 11 ∧
    Settles downEnv.lt { dflt := 0, max := some 20 } (fun a => if a % 4 ≠ 0 then some (a - 1) else none) 11 8 3 ∧
    (step downEnv 5 {} (.set 7 11)).map (fun r => (r.1.values, r.2.1)) = some ([(7, 8)], .ok) := by
  have acc : ∀ a b : Nat, a = b → a ≤ 20 → Accepts downEnv.lt { dflt := 0, max := some 20 } a b := by
    rintro a b rfl ha
    refine ⟨a, a, rfl, rfl, rfl, rfl, fun _ => rfl, fun h => absurd (fun m h => (by cases h)) h, fun _ h => absurd ?_ h⟩
    rintro m ⟨⟩
    exact decide_eq_false (by omega)
  refine ⟨?_, acc 11 11 rfl (by decide), ?_, by decide⟩
  · intro a old c u
    refine ⟨rfl, rfl, ?_⟩
    simp only [downEnv, true_and]
    split <;> simp_all
  · exact .next 11 10 10 8 2 rfl (acc _ _ rfl (by decide)) (by decide) (.next 10 9 9 8 1 rfl (acc _ _ rfl (by decide)) (by decide)
      (.next 9 8 8 8 0 rfl (acc _ _ rfl (by decide)) (by decide) (.still 8 rfl)))

/-- Writes 1 for 2 and 2 for 1. -/
def swapEnv : Env Nat where
  lt := fun a b => decide (a < b)
  cls := [(7, { dflt := 0 })]
  onName := fun n a _ _ _ => if n = 7 ∧ (a = 1 ∨ a = 2) then [.write 7 (3 - a) false] else []

/-- A handler that writes 2 for 1 and 1 for 2 never returns. -/
example (fuel : Nat) : step swapEnv fuel {} (.set 7 1) = none := by
  have acc : ∀ a b : Nat, Accepts swapEnv.lt { dflt := 0 } a b ↔ a = b := by
    intro a b
    constructor
    · rintro ⟨c, d, h1, -, h2, -, h3, -⟩
      simp only [Option.some.injEq] at h1 h2
      subst h1 h2
      exact (h3 ⟨(fun m h => by cases h), fun m h => by cases h⟩).symm
    · rintro rfl
      exact ⟨a, a, rfl, rfl, rfl, rfl, fun _ => rfl, fun h => absurd (fun m h => by cases h) h,
        fun _ h => absurd (fun m h => by cases h) h⟩
  refine C44_violation_restless swapEnv 7 (fun a => if a = 1 ∨ a = 2 then some (3 - a) else none) ?_ { dflt := 0 }
    ⟨(fun v => by simp [swapEnv]), fun m M h => by cases h⟩ rfl {} List.nodup_nil (.inr ⟨by simp, [], [], rfl, by simp⟩) rfl rfl rfl 1 1
    ((acc 1 1).mpr rfl) (by decide) ?_ fuel
  · intro a old c u
    refine ⟨rfl, rfl, ?_⟩
    simp only [swapEnv, true_and]
    split <;> simp_all
  · have key : ∀ w z m, Settles swapEnv.lt { dflt := 0 } (fun a => if a = 1 ∨ a = 2 then some (3 - a) else none) w z m → w = 1 ∨ w = 2 → False := by
      intro w z m hz
      induction hz with
      | still w hw => intro h; simp [h] at hw
      | refused w v hw hr => intro _; exact hr v ((acc v v).mpr rfl)
      | same w v hw hs =>
        intro h
        rw [if_pos h] at hw
        have := (acc _ _).mp hs
        simp only [Option.some.injEq] at hw
        omega
      | next w v w' z m hw hacc _ _ ih =>
        intro h
        rw [if_pos h] at hw
        have := (acc _ _).mp hacc
        simp only [Option.some.injEq] at hw
        exact ih (by omega)
    exact fun z m hz => key 1 z m hz (.inl rfl)

/-- The handler of the whole object raises an exception for 5. -/
def throwEnv : Env Nat where
  lt := fun a b => decide (a < b)
  cls := [(7, { dflt := 1, max := some 9 })]
  onAny := fun _ a _ _ _ => if a = 5 then [.fail] else []

/-- **C44 (violation)** An exception from a handler of the whole object leaves the value in the update stack: the property
reads as a value that was not stored, and setting it to that value again succeeds without storing it. -/
theorem C44_violation_residue :
    (run throwEnv 10 {} [.set 7 5]).map (fun r => (read throwEnv r.1 7, AList.get r.1.values 7, r.2)) =
      some (some 5, none, [.err .handler]) ∧
    (run throwEnv 10 {} [.set 7 5, .set 7 5]).map (fun r => (read throwEnv r.1 7, AList.get r.1.values 7, r.2)) =
      some (some 5, none, [.err .handler, .ok]) := by
  decide

/-- The handler of the property writes 2 for 1, and raises an exception for 2. -/
def loseEnv : Env Nat where
  lt := fun a b => decide (a < b)
  cls := [(7, { dflt := 0 })]
  onName := fun _ a _ _ _ => if a = 1 then [.write 7 2 false] else if a = 2 then [.fail] else []

/-- **C44 (violation)** When the inner write fails after it has been registered and the handler goes on, the outer call succeeds
and stores nothing. -/
theorem C44_violation_lost :
    (step loseEnv 10 {} (.set 7 1)).map (fun r => (r.1.values, r.2.1, r.2.2.length)) = some ([], .ok, 0) := by
  decide

/-- The handler of the property replaces 3 by 50. -/
def replaceEnv : Env Nat where
  lt := fun a b => decide (a < b)
  cls := [(7, { dflt := 0, max := some 9 })]
  onName := fun _ a _ _ _ => [.setArgs (if a = 3 then 50 else a)]

example : Replaces replaceEnv 7 (fun a => if a = 3 then 50 else a) ∧
    Accepts replaceEnv.lt { dflt := 0, max := some 9 } 50 9 ∧ (step replaceEnv 2 {} (.set 7 3)).map (fun r => (r.1.values, r.2.1)) = some ([(7, 9)], .ok) := by
  refine ⟨fun a old c u => ⟨rfl, rfl, rfl⟩, ?_, by decide⟩
  refine ⟨50, 50, rfl, rfl, rfl, rfl, fun h => ?_, fun h => absurd (fun m h => by cases h) h, fun _ _ => rfl⟩
  have := h.2 9 rfl
  simp [replaceEnv] at this

/-- **C44 (violation)** The event for a replaced value carries the replacement as the handler gave it, not what is stored. -/
theorem C44_violation_event :
    (step replaceEnv 2 {} (.set 7 3)).map (fun r => (r.1.values, r.2.2.map (fun e => match e with | .changed n v => (n, v) | .updateEnd _ => (0, none)))) =
      some ([(7, 9)], [(7, some 50)]) := by
  decide

end Verif.PropObj
