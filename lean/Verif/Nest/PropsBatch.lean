import Verif.Nest.Lemmas
import Verif.Nest.Demo

/-!
# An update has the effect of the calls made in it (C261)
-/

namespace Verif.Nest
open Spec

variable {V : Type} [DecidableEq V]

/-! ## Violations -/

/-- Clears with a dotted name are recorded by the object they are made on, sets by the object that has the property, and the
objects inside are brought up to date first: the last call does not win. -/
theorem C261_violation_order : ∃ f : Forest Nat,
    (run f [.startUpdate [10], .clear [10] [20] 1, .set [10] [20] 1 8, .endUpdate [10]]).2 = [.ok, .ok, .ok, .ok] ∧
    read (run f [.startUpdate [10], .clear [10] [20] 1, .set [10] [20] 1 8, .endUpdate [10]]).1 [10, 20] 1 = some 0 ∧
    (run f [.clear [10] [20] 1, .set [10] [20] 1 8]).2 = [.ok, .ok] ∧
    read (run f [.clear [10] [20] 1, .set [10] [20] 1 8]).1 [10, 20] 1 = some 8 :=
  ⟨demo, by decide +kernel, by decide +kernel, by decide +kernel, by decide +kernel⟩

/-- The same if the object is cleared as a whole. -/
theorem C261_violation_object : ∃ f : Forest Nat,
    (run f [.startUpdate [10], .clear [10] [] 20, .set [10, 20] [] 1 8, .endUpdate [10]]).2 = [.ok, .ok, .ok, .ok] ∧
    read (run f [.startUpdate [10], .clear [10] [] 20, .set [10, 20] [] 1 8, .endUpdate [10]]).1 [10, 20] 1 = some 0 ∧
    (run f [.clear [10] [] 20, .set [10, 20] [] 1 8]).2 = [.ok, .ok] ∧
    read (run f [.clear [10] [] 20, .set [10, 20] [] 1 8]).1 [10, 20] 1 = some 8 :=
  ⟨demo, by decide +kernel, by decide +kernel, by decide +kernel, by decide +kernel⟩

/-! ## One object -/

/-- A recorded call for the object itself, made now. -/
def one (d : Data V) (a : Action V) : Data V × Res :=
  match a.v with
  | some v => d.set .nil a.n v
  | none => match AList.get d.defs a.n with
    | some p => d.clear a.n p
    | none => (d, .err .notFound)

/-- Calls for the object itself, all of which succeed. -/
inductive Plays : Data V → List (Action V) → Data V → Prop where
  | nil {d} : Plays d [] d
  | cons {d a as e} : a.route = [] → (one d a).2 = .ok → Plays (one d a).1 as e → Plays d (a :: as) e

theorem Plays.snoc {d e : Data V} {as : List (Action V)} {a : Action V} (h : Plays d as e) (hr : a.route = [])
    (ho : (one e a).2 = .ok) : Plays d (as ++ [a]) (one e a).1 := by
  induction h with
  | nil => exact .cons hr ho .nil
  | cons h1 h2 _ ih => exact .cons h1 h2 (ih ho)

theorem set_ok_iff {d : Data V} {b b' : Forest V} {n : Name} {v : V} (h : (d.set b n v).2 = .ok) :
    d.set b' n v = d.set b n v := by
  unfold Data.set at h ⊢
  repeat' split at h
  all_goals first
    | cases h; done
    | simp_all

omit [DecidableEq V] in
theorem clear_same {d : Data V} {n : Name} {p : Def V} :
    (d.clear n p).1.count = d.count ∧ (d.clear n p).1.frozen = d.frozen ∧ (d.clear n p).1.defs = d.defs ∧
      (d.clear n p).1.pending = d.pending := by
  unfold Data.clear
  repeat' split
  all_goals exact ⟨rfl, rfl, rfl, rfl⟩

theorem set_same {d : Data V} {b : Forest V} {n : Name} {v : V} :
    (d.set b n v).1.count = d.count ∧ (d.set b n v).1.frozen = d.frozen ∧ (d.set b n v).1.defs = d.defs ∧
      (d.set b n v).1.pending = d.pending := by
  unfold Data.set
  repeat' split
  all_goals exact ⟨rfl, rfl, rfl, rfl⟩

theorem one_same {d : Data V} {a : Action V} :
    (one d a).1.count = d.count ∧ (one d a).1.frozen = d.frozen ∧ (one d a).1.defs = d.defs ∧
      (one d a).1.pending = d.pending := by
  unfold one
  split
  · exact set_same
  · split
    · exact clear_same
    · exact ⟨rfl, rfl, rfl, rfl⟩

theorem Plays.same {d e : Data V} {as : List (Action V)} (h : Plays d as e) :
    e.count = d.count ∧ e.frozen = d.frozen ∧ e.defs = d.defs ∧ e.pending = d.pending := by
  induction h with
  | nil => exact ⟨rfl, rfl, rfl, rfl⟩
  | @cons d a as e _ _ _ ih =>
    obtain ⟨h1, h2, h3, h4⟩ := one_same (d := d) (a := a)
    exact ⟨ih.1.trans h1, ih.2.1.trans h2, ih.2.2.1.trans h3, ih.2.2.2.trans h4⟩

/-- What is recorded is made in the same way. -/
theorem applyAll_plays {d e : Data V} {as : List (Action V)} {b : Forest V} (hf : d.frozen = false) (h : Plays d as e) :
    applyAll d b as = (e, b, .ok) := by
  induction h with
  | nil => rfl
  | @cons d a as e hr ho _ ih =>
    have hf' : (one d a).1.frozen = false := one_same.2.1.trans hf
    unfold applyAll
    unfold one at ho ih hf'
    cases hv : a.v with
    | some v =>
      simp only [hv] at ho ih hf' ⊢
      rw [set_ok_iff ho (b' := b), ho]
      exact ih hf'
    | none =>
      simp only [hv] at ho ih hf' ⊢
      rw [hr]
      unfold clearNow clearHere
      rw [if_neg (by rw [hf]; decide)]
      cases hd : AList.get d.defs a.n with
      | none => rw [hd] at ho; cases ho
      | some p =>
        simp only [hd] at ho ih hf' ⊢
        rw [ho]
        exact ih hf'

/-! ## Inside the update -/

/-- `d` is in the update that `e` is not in, and has recorded what was done to `e`. -/
def Ahead (d e : Data V) : Prop :=
  d.count = 1 ∧ d.frozen = false ∧ Plays { d with count := 0, pending := [] } d.pending e

theorem Ahead.facts {d e : Data V} (h : Ahead d e) :
    e.count = 0 ∧ e.frozen = false ∧ e.defs = d.defs ∧ e.pending = [] := by
  obtain ⟨h1, h2, h3, h4⟩ := h.2.2.same
  exact ⟨h1, h2.trans h.2.1, h3, h4⟩

theorem Ahead.push {d e : Data V} (h : Ahead d e) {a : Action V} (hr : a.route = []) (ho : (one e a).2 = .ok) :
    Ahead (d.push a) (one e a).1 := ⟨h.1, h.2.1, h.2.2.snoc hr ho⟩

/-- At the end everything is as it would be without the update. -/
theorem endAll_ahead {f u : Forest V} (h : Pairs Ahead f u) : f.endAll = (u, .ok) := by
  induction h with
  | nil => rfl
  | @cons m d e b b' r r' hd _ _ ihb ihr =>
    have h1 : endOne d b b.endAll = (e, b', .ok) := by
      unfold endOne
      rw [if_neg (by rw [hd.1]; decide), ihb]
      dsimp only
      rw [if_pos hd.1]
      exact applyAll_plays hd.2.1 hd.2.2
    unfold Forest.endAll
    rw [if_neg (by rw [hd.2.1]; decide), h1, ihr]

/-- What a function does without the update it does in the update as well. -/
def Follows (Good : Data V → Prop) (g : Data V → Forest V → Data V × Forest V × Res) : Prop :=
  ∀ {d e : Data V} {b b' : Forest V}, Ahead d e → Pairs Ahead b b' → Good e → (g e b').2.2 = .ok →
    (g d b).2.2 = .ok ∧ Ahead (g d b).1 (g e b').1 ∧ Pairs Ahead (g d b).2.1 (g e b').2.1

theorem at_ahead {Good : Data V → Prop} {g : Data V → Forest V → Data V × Forest V × Res} (hg : Follows Good g)
    {f u : Forest V} (h : Pairs Ahead f u) {chk : Bool} {p : Path} (hgood : ∀ e b, u.find p = some (e, b) → Good e)
    (ho : (u.at chk p g).2 = .ok) : (f.at chk p g).2 = .ok ∧ Pairs Ahead (f.at chk p g).1 (u.at chk p g).1 := by
  induction h generalizing p with
  | nil => cases ho
  | @cons m d e b b' r r' hd hb hr ihb ihr =>
    cases p with
    | nil => cases ho
    | cons k q =>
      unfold Forest.at at ho ⊢
      by_cases hk : k = m
      · simp only [if_pos hk] at ho ⊢
        cases q with
        | nil =>
          dsimp only at ho ⊢
          obtain ⟨h1, h2, h3⟩ := hg hd hb (hgood e b' (by simp [Forest.find, hk])) ho
          exact ⟨h1, .cons h2 h3 hr⟩
        | cons x q =>
          dsimp only at ho ⊢
          have n1 : ¬ (chk = true ∧ d.frozen = true) := by simp [hd.2.1]
          have n2 : ¬ (chk = true ∧ e.frozen = true) := by simp [hd.facts.2.1]
          rw [if_neg n2] at ho ⊢
          rw [if_neg n1]
          obtain ⟨h1, h2⟩ := ihb (p := x :: q) (fun e b he => hgood e b (by simp only [Forest.find, if_pos hk]; exact he)) ho
          exact ⟨h1, .cons hd h2 hr⟩
      · simp only [if_neg hk] at ho ⊢
        obtain ⟨h1, h2⟩ := ihr (p := k :: q) (fun e b he => hgood e b (by simp only [Forest.find, if_neg hk]; exact he)) ho
        exact ⟨h1, .cons hd hb h2⟩

theorem setSelf_follows (n : Name) (v : V) : Follows (fun _ => True) (setSelf n v) := by
  intro d e b b' hd hb _ ho
  obtain ⟨f1, f2, f3, f4⟩ := hd.facts
  unfold setSelf at ho ⊢
  rw [if_neg (by rw [f2]; decide), if_neg (by omega)] at ho
  rw [if_neg (by rw [hd.2.1]; decide), if_pos (by rw [hd.1]; decide), if_neg (by rw [f2]; decide), if_neg (by omega)]
  dsimp only at ho ⊢
  refine ⟨rfl, ?_, hb⟩
  have := hd.push (a := ⟨[], n, some v⟩) rfl (by
    change (e.set .nil n v).2 = .ok
    rw [set_ok_iff ho (b' := .nil)]
    exact ho)
  rw [show (e.set b' n v).1 = (one e ⟨[], n, some v⟩).1 from by
    change _ = (e.set .nil n v).1
    rw [set_ok_iff ho (b' := .nil)]]
  exact this

theorem setNamed_follows (route : Path) (n : Name) (v : V) : Follows (fun _ => True) (setNamed route n v) := by
  intro d e b b' hd hb _ ho
  unfold setNamed at ho ⊢
  cases route with
  | nil => exact setSelf_follows n v hd hb trivial ho
  | cons k q =>
    obtain ⟨f1, f2, f3, f4⟩ := hd.facts
    dsimp only at ho ⊢
    rw [if_neg (by rw [f2]; decide)] at ho
    rw [if_neg (by rw [hd.2.1]; decide), if_neg (by rw [f2]; decide)]
    obtain ⟨h1, h2⟩ := at_ahead (setSelf_follows n v) hb (fun _ _ _ => trivial) ho
    exact ⟨h1, hd, h2⟩

theorem clearNamed_follows (n : Name) : Follows (fun e : Data V => ∃ t, AList.get e.defs n = some t) (clearNamed [] n) := by
  rintro d e b b' hd hb ⟨t, ht⟩ ho
  obtain ⟨f1, f2, f3, f4⟩ := hd.facts
  unfold clearNamed at ho ⊢
  rw [if_neg (by rw [f2]; decide), if_neg (by omega)] at ho
  rw [if_neg (by rw [hd.2.1]; decide), if_pos (by rw [hd.1]; decide), if_neg (by rw [f2]; decide), if_neg (by omega)]
  unfold clearNow clearHere at ho ⊢
  dsimp only at ho ⊢
  rw [if_neg (by rw [f2]; decide), ht] at ho
  rw [if_neg (by rw [f2]; decide), ht]
  dsimp only at ho ⊢
  have e1 : one e ⟨[], n, none⟩ = e.clear n t := by
    unfold one
    dsimp only
    rw [ht]
  refine ⟨rfl, ?_, hb⟩
  have := hd.push (a := ⟨[], n, none⟩) rfl (by rw [e1]; exact ho)
  rw [e1] at this
  exact this

/-! ## The whole forest -/

/-- Two forests that differ only in the object with a path, which is ahead with all objects inside. -/
inductive Differ : Path → Forest V → Forest V → Prop where
  | here {m d e b b' r} : Ahead d e → Pairs Ahead b b' → Differ [m] (.cons m d b r) (.cons m e b' r)
  | inside {m d b b' r k q} : Differ (k :: q) b b' → Differ (m :: k :: q) (.cons m d b r) (.cons m d b' r)
  | beside {m d b r r' k q} : k ≠ m → Differ (k :: q) r r' → Differ (k :: q) (.cons m d b r) (.cons m d b r')

/-- The function does not depend on the objects inside. -/
def Blind (Good : Data V → Prop) (g : Data V → Forest V → Data V × Forest V × Res) : Prop :=
  ∀ {h : Path} {d : Data V} {b b' : Forest V}, Differ h b b' → Good d → (g d b').2.2 = .ok →
    (g d b).2.2 = .ok ∧ (g d b).1 = (g d b').1 ∧ Differ h (g d b).2.1 (g d b').2.1

theorem at_differ {Good : Data V → Prop} {g : Data V → Forest V → Data V × Forest V × Res} (hg : Follows Good g)
    (hb : Blind Good g) {h : Path} {f u : Forest V} (hd : Differ h f u) {chk : Bool} {p : Path}
    (hgood : ∀ e b, u.find p = some (e, b) → Good e) (ho : (u.at chk p g).2 = .ok) :
    (f.at chk p g).2 = .ok ∧ Differ h (f.at chk p g).1 (u.at chk p g).1 := by
  induction hd generalizing p with
  | @here m d e b b' r hd hk =>
    cases p with
    | nil => cases ho
    | cons k q =>
      unfold Forest.at at ho ⊢
      by_cases hkm : k = m
      · simp only [if_pos hkm] at ho ⊢
        cases q with
        | nil =>
          dsimp only at ho ⊢
          obtain ⟨h1, h2, h3⟩ := hg hd hk (hgood e b' (by simp [Forest.find, hkm])) ho
          exact ⟨h1, .here h2 h3⟩
        | cons x q =>
          dsimp only at ho ⊢
          have n1 : ¬ (chk = true ∧ d.frozen = true) := by simp [hd.2.1]
          have n2 : ¬ (chk = true ∧ e.frozen = true) := by simp [hd.facts.2.1]
          rw [if_neg n2] at ho ⊢
          rw [if_neg n1]
          obtain ⟨h1, h2⟩ := at_ahead hg hk (p := x :: q)
            (fun e b he => hgood e b (by simp only [Forest.find, if_pos hkm]; exact he)) ho
          exact ⟨h1, .here hd h2⟩
      · simp only [if_neg hkm] at ho ⊢
        exact ⟨ho, .here hd hk⟩
  | @inside m d b b' r k' q' hin ih =>
    cases p with
    | nil => cases ho
    | cons k q =>
      unfold Forest.at at ho ⊢
      by_cases hkm : k = m
      · simp only [if_pos hkm] at ho ⊢
        cases q with
        | nil =>
          dsimp only at ho ⊢
          obtain ⟨h1, h2, h3⟩ := hb hin (hgood d b' (by simp [Forest.find, hkm])) ho
          rw [h2]
          exact ⟨h1, .inside h3⟩
        | cons x q =>
          dsimp only at ho ⊢
          by_cases hc : chk = true ∧ d.frozen = true
          · rw [if_pos hc] at ho; cases ho
          · rw [if_neg hc] at ho ⊢
            rw [if_neg hc]
            obtain ⟨h1, h2⟩ := ih (p := x :: q)
              (fun e b he => hgood e b (by simp only [Forest.find, if_pos hkm]; exact he)) ho
            exact ⟨h1, .inside h2⟩
      · simp only [if_neg hkm] at ho ⊢
        exact ⟨ho, .inside hin⟩
  | @beside m d b r r' k' q' hne hin ih =>
    cases p with
    | nil => cases ho
    | cons k q =>
      unfold Forest.at at ho ⊢
      by_cases hkm : k = m
      · simp only [if_pos hkm] at ho ⊢
        cases q with
        | nil => exact ⟨ho, .beside hne hin⟩
        | cons x q =>
          dsimp only at ho ⊢
          by_cases hc : chk = true ∧ d.frozen = true
          · rw [if_pos hc] at ho; cases ho
          · rw [if_neg hc] at ho ⊢
            rw [if_neg hc]
            exact ⟨ho, .beside hne hin⟩
      · simp only [if_neg hkm] at ho ⊢
        obtain ⟨h1, h2⟩ := ih (p := k :: q)
          (fun e b he => hgood e b (by simp only [Forest.find, if_neg hkm]; exact he)) ho
        exact ⟨h1, .beside hne h2⟩

theorem setSelf_blind (n : Name) (v : V) : Blind (fun _ => True) (setSelf n v) := by
  intro h d b b' hd _ ho
  unfold setSelf at ho ⊢
  by_cases hf : d.frozen = true
  · rw [if_pos hf] at ho; cases ho
  · simp only [if_neg hf] at ho ⊢
    by_cases hc : d.count > 0
    · simp only [if_pos hc]
      exact ⟨trivial, trivial, hd⟩
    · simp only [if_neg hc] at ho ⊢
      have e := set_ok_iff ho (b' := b)
      rw [e]
      exact ⟨ho, rfl, hd⟩

theorem setNamed_blind (route : Path) (n : Name) (v : V) : Blind (fun _ => True) (setNamed route n v) := by
  intro h d b b' hd _ ho
  unfold setNamed at ho ⊢
  cases route with
  | nil => exact setSelf_blind n v hd trivial ho
  | cons k q =>
    dsimp only at ho ⊢
    by_cases hf : d.frozen = true
    · rw [if_pos hf] at ho; cases ho
    · simp only [if_neg hf] at ho ⊢
      obtain ⟨h1, h2⟩ := at_differ (setSelf_follows n v) (setSelf_blind n v) hd (fun _ _ _ => trivial) ho
      exact ⟨h1, trivial, h2⟩

theorem clearNamed_blind (n : Name) : Blind (fun e : Data V => ∃ t, AList.get e.defs n = some t) (clearNamed [] n) := by
  rintro h d b b' hd ⟨t, ht⟩ ho
  unfold clearNamed at ho ⊢
  by_cases hf : d.frozen = true
  · rw [if_pos hf] at ho; cases ho
  · simp only [if_neg hf] at ho ⊢
    by_cases hc : d.count > 0
    · simp only [if_pos hc]
      exact ⟨trivial, trivial, hd⟩
    · simp only [if_neg hc, clearNow, clearHere, if_neg hf, ht] at ho ⊢
      exact ⟨ho, trivial, hd⟩

/-- A call that succeeds without the update succeeds in it. -/
theorem step_differ {h : Path} {f u : Forest V} (hd : Differ h f u) {o : Op V} (hp : Plain u o)
    (ho : (step u o).2 = .ok) : (step f o).2 = .ok ∧ Differ h (step f o).1 (step u o).1 := by
  cases hp with
  | @set h' route n v => exact at_differ (setNamed_follows route n v) (setNamed_blind route n v) hd (fun _ _ _ => trivial) ho
  | @clear h' n d b t h1 h2 =>
    refine at_differ (clearNamed_follows n) (clearNamed_blind n) hd (fun e b' he => ⟨t, ?_⟩) ho
    rw [obj_iff.mp h1] at he
    cases he
    exact first_iff.mp h2

/-- The objects inside are ahead after the beginning of the update. -/
theorem beginAll_ahead {f : Forest V} (hi : Idle f) : Pairs Ahead f.beginAll f := by
  induction f with
  | nil => exact .nil
  | cons m d b r ih1 ih2 =>
    obtain ⟨⟨h1, h2, h3⟩, h4, h5⟩ := hi
    unfold Forest.beginAll
    rw [if_neg (by rw [h3]; decide)]
    refine .cons ⟨by simp [h1], h3, ?_⟩ (ih1 h4) (ih2 h5)
    have : ({ ({ d with count := d.count + 1 } : Data V) with count := 0, pending := [] } : Data V) = d := by
      rw [← h1, ← h2]
    rw [this]
    dsimp only
    rw [h2]
    exact .nil

theorem start_differ {f : Forest V} {h : Path} {d : Data V} {b : Forest V} (hf : Obj f h d b)
    (hi : Idle (.cons 0 d b .nil)) : (step f (.startUpdate h)).2 = .ok ∧ Differ h (step f (.startUpdate h)).1 f := by
  obtain ⟨⟨h1, h2, h3⟩, h4, -⟩ := hi
  induction hf with
  | @here m d b r =>
    simp only [step, Forest.at, if_true, beginHere]
    rw [if_neg (by rw [h3]; decide)]
    refine ⟨rfl, .here ⟨by simp [h1], h3, ?_⟩ (beginAll_ahead h4)⟩
    have : ({ ({ d with count := d.count + 1 } : Data V) with count := 0, pending := [] } : Data V) = d := by
      rw [← h1, ← h2]
    rw [this]
    dsimp only
    rw [h2]
    exact .nil
  | @inside m d' b' r k q d b hin ih =>
    obtain ⟨e1, e2⟩ := ih h1 h2 h3 h4
    simp only [step, Forest.at, if_true] at e1 e2 ⊢
    rw [if_neg (by simp)]
    exact ⟨e1, .inside e2⟩
  | @beside m d' b' r k q d b hne hin ih =>
    obtain ⟨e1, e2⟩ := ih h1 h2 h3 h4
    simp only [step] at e1 e2 ⊢
    unfold Forest.at
    rw [if_neg hne]
    exact ⟨e1, .beside hne e2⟩

theorem end_differ {h : Path} {f u : Forest V} (hd : Differ h f u) : step f (.endUpdate h) = (u, .ok) := by
  induction hd with
  | @here m d e b b' r hd hk =>
    simp only [step, Forest.at, if_true]
    have : endHere d b = (e, b', .ok) := by
      unfold endHere endOne
      rw [if_neg (by rw [hd.1]; decide), endAll_ahead hk]
      dsimp only
      rw [if_pos hd.1]
      exact applyAll_plays hd.2.1 hd.2.2
    rw [this]
  | @inside m d b b' r k q hin ih =>
    simp only [step] at ih ⊢
    unfold Forest.at
    rw [if_pos rfl]
    dsimp only
    rw [if_neg (by simp), ih]
  | @beside m d b r r' k q hne hin ih =>
    simp only [step] at ih ⊢
    unfold Forest.at
    rw [if_neg hne, ih]

/-- Calls made without an update, all plain and all done. -/
inductive Direct : Forest V → List (Op V) → Forest V → Prop where
  | nil {f} : Direct f [] f
  | cons {f o os g} : Plain f o → (step f o).2 = .ok → Direct (step f o).1 os g → Direct f (o :: os) g

theorem run_append (f : Forest V) (os os' : List (Op V)) :
    run f (os ++ os') = ((run (run f os).1 os').1, (run f os).2 ++ (run (run f os).1 os').2) := by
  induction os generalizing f with
  | nil => rfl
  | cons o os ih =>
    simp only [List.cons_append, run, ih]

theorem run_differ {h : Path} {f u g : Forest V} {os : List (Op V)} (hd : Differ h f u) (hr : Direct u os g) :
    Differ h (run f os).1 g ∧ (run f os).2 = os.map fun _ => .ok := by
  induction hr generalizing f with
  | nil => exact ⟨hd, rfl⟩
  | cons h1 h2 _ ih =>
    obtain ⟨e1, e2⟩ := step_differ hd h1 h2
    obtain ⟨i1, i2⟩ := ih e2
    refine ⟨i1, ?_⟩
    simp only [run, List.map_cons, e1, i2]

/-- Calls that would all be done without an update, made in an update of any object: all of them and the end of the update
succeed, and then everything is exactly as if they had been made without it. Left out are clears of objects and clears
with dotted names. -/
theorem C261_batch_partial {f g : Forest V} {h : Path} {d : Data V} {b : Forest V} {os : List (Op V)} (ho : Obj f h d b)
    (hi : Idle (.cons 0 d b .nil)) (hr : Direct f os g) :
    run f (.startUpdate h :: (os ++ [.endUpdate h])) = (g, .ok :: (os.map (fun _ => Res.ok) ++ [.ok])) := by
  obtain ⟨h1, h2⟩ := start_differ ho hi
  obtain ⟨h3, h4⟩ := run_differ h2 hr
  simp only [run, run_append, end_differ h3, h1, h4]

/-- Three calls in an update of an object inside: to itself, through a dotted name and to an object outside. -/
example : Direct demo [.set [10, 20] [] 1 8, .clear [10, 20] [] 2, .set [10] [20, 40] 2 3, .set [10] [] 1 4]
    (run demo [.set [10, 20] [] 1 8, .clear [10, 20] [] 2, .set [10] [20, 40] 2 3, .set [10] [] 1 4]).1 := by
  refine .cons .set (by decide +kernel) (.cons (.clear (.inside .here) (.later (by decide) .here)) (by decide +kernel)
    (.cons .set (by decide +kernel) (.cons .set (by decide +kernel) .nil)))
example : Idle (.cons 0 leaf (.cons 40 leaf .nil .nil) .nil) := by simp [Idle, Everywhere, leaf]
example : read (run demo [.startUpdate [10], .set [10] [20, 40] 2 3, .endUpdate [10]]).1 [10, 20, 40] 2 = some 3 := by
  decide +kernel

end Verif.Nest
