import Verif.Nest.PropsBatch

/-!
# Dotted names and clearing without an update (C265)
-/

namespace Verif.Nest
open Spec

variable {V : Type} [DecidableEq V]

omit [DecidableEq V] in
theorem at_congr {P : Data V → Prop} {chk : Bool} {g g' : Data V → Forest V → Data V × Forest V × Res}
    (hg : ∀ d b, P d → Everywhere P b → g d b = g' d b) : (f : Forest V) → Everywhere P f → (p : Path) →
    f.at chk p g = f.at chk p g'
  | .nil, _, p => by simp [Forest.at]
  | .cons m d b r, _, [] => by simp [Forest.at]
  | .cons m d b r, hf, k :: q => by
    unfold Forest.at
    rw [at_congr hg r hf.2.2]
    cases q with
    | nil => rw [hg d b hf.1 hf.2.1]
    | cons x q => rw [at_congr hg b hf.2.1]

omit [DecidableEq V] in
theorem at_open {g : Data V → Forest V → Data V × Forest V × Res} : (f : Forest V) →
    Everywhere (fun d => d.frozen = false) f → (p : Path) → f.at true p g = f.at false p g
  | .nil, _, p => by simp [Forest.at]
  | .cons m d b r, _, [] => by simp [Forest.at]
  | .cons m d b r, hf, k :: q => by
    unfold Forest.at
    rw [at_open r hf.2.2]
    cases q with
    | nil => rfl
    | cons x q =>
      dsimp only
      have h1 : d.frozen = false := hf.1
      rw [at_open b hf.2.1]
      simp [h1]

omit [DecidableEq V] in
theorem at_append {g : Data V → Forest V → Data V × Forest V × Res} {k : Name} {q : Path} : (f : Forest V) → (x : Name) →
    (h : Path) → f.at false (x :: h ++ k :: q) g =
      f.at false (x :: h) fun d b => (d, (b.at false (k :: q) g).1, (b.at false (k :: q) g).2)
  | .nil, _, _ => by simp [Forest.at]
  | .cons m d b r, x, h => by
    rw [List.cons_append]
    unfold Forest.at
    by_cases hx : x = m
    · simp only [if_pos hx]
      cases h with
      | nil => simp
      | cons y h =>
        have := at_append (g := g) (k := k) (q := q) b y h
        rw [List.cons_append] at this ⊢
        simp only [this]
    · simp only [if_neg hx]
      have := at_append (g := g) (k := k) (q := q) r x h
      rw [List.cons_append] at this
      rw [this]

/-- A dotted name stands for the property of the object inside, if nothing is frozen. -/
theorem C265_dotted {f : Forest V} (hf : Everywhere (fun d => d.frozen = false) f) {x : Name} {h route : Path} (n : Name)
    (v : V) : step f (.set (x :: h) route n v) = step f (.set (x :: h ++ route) [] n v) := by
  cases route with
  | nil => simp
  | cons k q =>
    simp only [step]
    rw [at_append]
    refine at_congr (P := fun d => d.frozen = false) (fun d b hd hb => ?_) f hf _
    simp only [setNamed, hd, at_open b hb, Bool.false_eq_true, if_false]
    rfl

omit [DecidableEq V] in
theorem clearIn_at {n : Name} : (f : Forest V) → Everywhere (fun d => d.frozen = false ∧ d.count = 0) f → (p : Path) →
    f.clearIn p n = f.at false p (clearNamed [] n)
  | .nil, _, p => by simp [Forest.at, Forest.clearIn]
  | .cons m d b r, _, [] => by simp [Forest.at, Forest.clearIn]
  | .cons m d b r, hf, k :: q => by
    have h1 : d.frozen = false := hf.1.1
    have h2 : d.count = 0 := hf.1.2
    unfold Forest.at Forest.clearIn
    rw [clearIn_at r hf.2.2]
    cases q with
    | nil => simp [clearNamed, clearNow, h1, h2]
    | cons x q => simp [clearIn_at b hf.2.1, h1, h2]

/-- The same for clears, if moreover nothing is in an update. -/
theorem C265_dotted_clear {f : Forest V} (hf : Everywhere (fun d => d.frozen = false ∧ d.count = 0) f) {x : Name}
    {h route : Path} (n : Name) : step f (.clear (x :: h) route n) = step f (.clear (x :: h ++ route) [] n) := by
  cases route with
  | nil => simp
  | cons k q =>
    simp only [step]
    rw [at_append]
    refine at_congr (P := fun d => d.frozen = false ∧ d.count = 0) (fun d b hd hb => ?_) f hf _
    simp only [clearNamed, clearNow, hd.1, hd.2, clearIn_at b hb, Bool.false_eq_true, if_false, Nat.lt_irrefl, gt_iff_lt]

/-- Without an update a value is cleared exactly if it may be written; then it is the default, and the others are as they
were. -/
theorem C265_clear {f : Forest V} {h : Path} {n : Name} {d : Data V} {b : Forest V} {t : Def V} (ho : Obj f h d b)
    (hf : d.frozen = false) (hc : d.count = 0) (ht : First d.defs n t) :
    ((step f (.clear h [] n)).2 = .ok ↔ t.readOnly = false) ∧
    (t.readOnly = true → (step f (.clear h [] n)).2 = .err .accessDenied ∧ Obj (step f (.clear h [] n)).1 h d b) ∧
    (t.readOnly = false → Shows (step f (.clear h [] n)).1 h n t.dflt ∧
      ∀ m u, m ≠ n → (Shows (step f (.clear h [] n)).1 h m u ↔ Shows f h m u)) := by
  rw [obj_iff] at ho
  rw [first_iff] at ht
  obtain ⟨h1, h2⟩ := find_at_self ho (clearNamed [] n)
  have e : clearNamed [] n d b = ((d.clear n t).1, b, (d.clear n t).2) := by
    simp [clearNamed, clearNow, clearHere, hf, hc, ht]
  rw [e] at h1 h2
  simp only [step, h2]
  cases hr : t.readOnly with
  | true =>
    have hcl : d.clear n t = (d, .err .accessDenied) := by simp [Data.clear, hf, hr]
    rw [hcl] at h1 ⊢
    exact ⟨⟨nofun, nofun⟩, fun _ => ⟨rfl, obj_iff.mpr h1⟩, nofun⟩
  | false =>
    have hcl : d.clear n t = ({ d with vals := AList.del d.vals n }, .ok) := by simp [Data.clear, hf, hr]
    rw [hcl] at h1 ⊢
    refine ⟨⟨fun _ => rfl, fun _ => rfl⟩, nofun, fun _ => ⟨?_, fun m u hm => ?_⟩⟩
    · rw [shows_iff, read, h1]
      simp [ht, Data.current, AList.get_del]
    · rw [shows_iff, shows_iff, read, read, h1, ho]
      simp [Data.current, AList.get_del, hm]

example : Everywhere (fun d => d.frozen = false ∧ d.count = 0) demo := by simp [Everywhere, demo, leaf]
example : read (step demo (.set [10] [20, 40] 1 8)).1 [10, 20, 40] 1 = some 8 := by decide +kernel
example : read (run demo [.set [10] [] 1 8, .clear [10] [] 1]).1 [10] 1 = some 0 := by decide +kernel

end Verif.Nest
