import Verif.Expr.Spec

/-! # The limit of the recursion does not change results -/

namespace Verif.Expr

theorem PR.bind_eq_ok {α β : Type} {x : PR α} {f : α → PR β} {b : β} :
    x.bind f = .ok b ↔ ∃ a, x = .ok a ∧ f a = .ok b := by
  cases x <;> simp [PR.bind]

@[simp] theorem PR.bind_ok {α β : Type} (a : α) (f : α → PR β) : (PR.ok a).bind f = f a := rfl

/-- Equal, or not yet known. -/
def PR.le {α : Type} (x y : PR α) : Prop := x = .hang ∨ x = y

theorem PR.le_refl {α : Type} (x : PR α) : PR.le x x := Or.inr rfl

theorem PR.le_bind {α β : Type} {x y : PR α} {f g : α → PR β} (h : PR.le x y) (hf : ∀ a, PR.le (f a) (g a)) :
    PR.le (x.bind f) (y.bind g) := by
  rcases h with rfl | rfl
  · exact Or.inl rfl
  · cases x with
    | ok a => exact hf a
    | err => exact Or.inr rfl
    | hang => exact Or.inl rfl

theorem PR.le_ok {α : Type} {x y : PR α} {a : α} (h : PR.le x y) (hx : x = .ok a) : y = .ok a := by
  rcases h with h | h
  · rw [h] at hx; cases hx
  · exact h ▸ hx

theorem le_ite {α : Type} {c : Prop} [Decidable c] {a b a' b' : PR α} (h1 : PR.le a a') (h2 : PR.le b b') :
    PR.le (if c then a else b) (if c then a' else b') := by split <;> assumption

theorem mono_succ (fn : Bool) (n : Nat) :
    (∀ p ts, PR.le (expr fn n p ts) (expr fn (n + 1) p ts)) ∧ (∀ t ts, PR.le (pre fn n t ts) (pre fn (n + 1) t ts)) ∧
    (∀ p e ts, PR.le (loop fn n p e ts) (loop fn (n + 1) p e ts)) ∧
    (∀ c l ts, PR.le (items fn n c l ts) (items fn (n + 1) c l ts)) ∧
    (∀ ts, PR.le (more fn n ts) (more fn (n + 1) ts)) := by
  induction n with
  | zero =>
    refine ⟨?_, ?_, ?_, ?_, ?_⟩ <;> intros <;> left
    · rw [expr]
    · rw [pre]
    · rw [loop]
    · rw [items]
    · rw [more]
  | succ n ih =>
    obtain ⟨hexpr, hpre, hloop, hitems, hmore⟩ := ih
    refine ⟨?_, ?_, ?_, ?_, ?_⟩
    · intro p ts
      cases ts with
      | nil => right; rw [expr, expr]
      | cons t ts =>
        rw [expr, expr]
        exact PR.le_bind (hpre t ts) fun x => hloop p x.1 x.2
    · intro t ts
      cases t <;> (unfold pre; dsimp only) <;> try exact PR.le_refl _
      · exact PR.le_bind (hexpr _ _) fun x => PR.le_refl _
      · exact PR.le_bind (hitems _ _ _) fun x => PR.le_refl _
      · exact PR.le_bind (hexpr _ _) fun x => PR.le_refl _
      · exact PR.le_bind (hexpr _ _) fun x => PR.le_refl _
      · exact PR.le_bind (PR.le_refl _) fun r => PR.le_bind (hitems _ _ _) fun x => PR.le_refl _
      · exact PR.le_bind (PR.le_refl _) fun r => PR.le_bind (hexpr _ _) fun v => PR.le_bind (hmore _) fun x => PR.le_refl _
      · exact PR.le_bind (PR.le_refl _) fun r => PR.le_bind (hexpr _ _) fun v => PR.le_bind (PR.le_refl _) fun x =>
          PR.le_bind (hexpr _ _) fun v => PR.le_bind (PR.le_refl _) fun x => PR.le_bind (hexpr _ _) fun v => PR.le_refl _
    · intro p e ts
      cases ts with
      | nil => right; rw [loop, loop]
      | cons t ts =>
        rw [loop, loop]
        cases infixRule t with
        | none => exact PR.le_refl _
        | some x =>
          dsimp only
          exact le_ite (PR.le_bind (hexpr _ _) fun y => hloop _ _ _) (PR.le_refl _)
    · intro c l ts
      rw [items, items]
      refine le_ite (PR.le_refl _) (le_ite (PR.le_refl _) (PR.le_bind (hexpr _ _) fun x => le_ite (PR.le_refl _) ?_))
      exact PR.le_bind (PR.le_refl _) fun r => PR.le_bind (hitems _ _ _) fun y => PR.le_refl _
    · intro ts
      rw [more, more]
      refine le_ite (PR.le_refl _) (PR.le_bind (PR.le_refl _) fun r => PR.le_bind (hexpr _ _) fun x => ?_)
      exact PR.le_bind (hmore _) fun y => PR.le_refl _

theorem mono_ok {α : Type} {f : Nat → PR α} (h : ∀ n, PR.le (f n) (f (n + 1))) {n m : Nat} {a : α} (hn : n ≤ m)
    (hf : f n = .ok a) : f m = .ok a := by
  induction hn with
  | refl => exact hf
  | step _ ih => exact PR.le_ok (h _) ih

variable {fn : Bool} {n m : Nat}

theorem expr_mono {p ts x} (h : n ≤ m) (e : expr fn n p ts = .ok x) : expr fn m p ts = .ok x :=
  mono_ok (f := fun n => expr fn n p ts) (fun n => (mono_succ fn n).1 p ts) h e

theorem pre_mono {t ts x} (h : n ≤ m) (e : pre fn n t ts = .ok x) : pre fn m t ts = .ok x :=
  mono_ok (f := fun n => pre fn n t ts) (fun n => (mono_succ fn n).2.1 t ts) h e

theorem loop_mono {p l ts x} (h : n ≤ m) (e : loop fn n p l ts = .ok x) : loop fn m p l ts = .ok x :=
  mono_ok (f := fun n => loop fn n p l ts) (fun n => (mono_succ fn n).2.2.1 p l ts) h e

theorem items_mono {c l ts x} (h : n ≤ m) (e : items fn n c l ts = .ok x) : items fn m c l ts = .ok x :=
  mono_ok (f := fun n => items fn n c l ts) (fun n => (mono_succ fn n).2.2.2.1 c l ts) h e

theorem more_mono {ts x} (h : n ≤ m) (e : more fn n ts = .ok x) : more fn m ts = .ok x :=
  mono_ok (f := fun n => more fn n ts) (fun n => (mono_succ fn n).2.2.2.2 ts) h e

end Verif.Expr
