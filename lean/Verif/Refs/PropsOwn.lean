import Verif.Refs.Heard
import Verif.Refs.Demo

/-!
# C244, C245: who may add a definition, and whose handlers are called
-/

namespace Verif.Refs

open Verif

variable {V : Type} [DecidableEq V] {decl : Nat → Decl V}

/-! ## C244: a refused addition has no effect, and a removed property can be added again -/

theorem add_out (d : Nat) (w : World V) (o p : Nat) :
    step decl d w (.add o p) = ((w.add decl o p).1, (w.add decl o p).2.map fun _ => []) := rfl

/-- **C244.** An addition succeeds exactly if the definition was never accepted by an object or refused because of its name,
the name is free, and no existing property it refers to is referred to by another. -/
theorem C244_accepted_iff (d : Nat) (w : World V) (o p : Nat) :
    (step decl d w (.add o p)).2 = .ok [] ↔
      w.owner.get p = none ∧ Spec.prop decl w o (decl p).name = none ∧
      ¬ ∃ r m e r', (decl p).ref = some r ∧ m ∈ Spec.targets r ∧ (Spec.prop decl w o m).isSome ∧ e ∈ (w.obj o).props ∧
        (decl e.2).ref = some r' ∧ m ∈ Spec.targets r' := by
  have hdup : (∃ r m e r', (decl p).ref = some r ∧ m ∈ Spec.targets r ∧ (Spec.prop decl w o m).isSome ∧
      e ∈ (w.obj o).props ∧ (decl e.2).ref = some r' ∧ m ∈ Spec.targets r') ↔
      (w.obj o).hasDuplicate decl p = true := by
    rw [hasDuplicate_iff]
    constructor
    · rintro ⟨r, m, e, r', h1, h2, h3, h4, h5, h6⟩
      exact ⟨r, m, h1, h2, by rw [prop_eq, Option.isSome_map] at h3; exact h3, e, h4, r', h5, h6⟩
    · rintro ⟨r, m, h1, h2, h3, e, h4, r', h5, h6⟩
      exact ⟨r, m, e, r', h1, h2, by rw [prop_eq, Option.isSome_map]; exact h3, h4, h5, h6⟩
  have hown : w.owner.has p = true ↔ w.owner.get p ≠ none := by
    unfold AList.has
    cases w.owner.get p <;> simp
  have hname : (w.obj o).has (decl p).name = true ↔ Spec.prop decl w o (decl p).name ≠ none := by
    rw [has_iff_prop (decl := decl)]
    cases Spec.prop decl w o (decl p).name <;> simp
  rw [hdup, add_out]
  rcases add_cases (decl := decl) w o p with ⟨h1, e⟩ | ⟨h1, h2, e⟩ | ⟨h1, h2, h3, e⟩ | ⟨h1, h2, h3, e⟩
  · rw [e]
    constructor
    · intro h; cases h
    · rintro ⟨_, _, h⟩; exact absurd h1 h
  · rw [e]
    constructor
    · intro h; cases h
    · rintro ⟨h, _⟩; exact absurd h (hown.mp h2)
  · rw [e]
    constructor
    · intro h; cases h
    · rintro ⟨_, h, _⟩; exact absurd h (hname.mp h3)
  · rw [e]
    constructor
    · intro _
      refine ⟨?_, ?_, by rw [h1]; intro h; cases h⟩
      · by_cases h : w.owner.get p = none
        · exact h
        · rw [hown.mpr h] at h2; cases h2
      · by_cases h : Spec.prop decl w o (decl p).name = none
        · exact h
        · rw [hname.mpr h] at h3; cases h3
    · intro _; rfl

/-- **C244.** A refused addition changes no object. -/
theorem C244_refused_objects (d : Nat) (w : World V) (o p : Nat) (h : (step decl d w (.add o p)).2 ≠ .ok []) :
    (step decl d w (.add o p)).1.objs = w.objs := by
  rw [add_out] at h ⊢
  rcases add_cases (decl := decl) w o p with ⟨_, e⟩ | ⟨_, _, e⟩ | ⟨_, _, _, e⟩ | ⟨_, _, _, e⟩
  · rw [e]
  · rw [e]
  · rw [e]
  · rw [e] at h; exact absurd rfl h

theorem owner_step (d : Nat) (w : World V) (op : Op V) (p : Nat) :
    ((step decl d w op).1.owner.get p).isSome = true ↔
      (w.owner.get p).isSome = true ∨ ∃ o, op = .add o p ∧
        ((step decl d w op).2 = .ok [] ∨ (step decl d w op).2 = .err .alreadyExists) := by
  have hput : ∀ (x : World V) (o : Nat) (y : Obj V), (x.putObj o y).owner = x.owner := fun _ _ _ => rfl
  have quiet : (∀ o, op ≠ .add o p) → (step decl d w op).1.owner.get p = w.owner.get p →
      (((step decl d w op).1.owner.get p).isSome = true ↔
      (w.owner.get p).isSome = true ∨ ∃ o, op = .add o p ∧
        ((step decl d w op).2 = .ok [] ∨ (step decl d w op).2 = .err .alreadyExists)) := by
    intro h e
    rw [e]
    constructor
    · exact .inl
    · rintro (h' | ⟨o, h', _⟩)
      · exact h'
      · exact absurd h' (h o)
  cases op with
  | add o q =>
    by_cases eq : q = p
    · subst eq
      rw [add_out]
      rcases add_cases (decl := decl) w o q with ⟨_, e⟩ | ⟨_, h2, e⟩ | ⟨_, _, _, e⟩ | ⟨_, _, _, e⟩
      · rw [e]
        constructor
        · exact .inl
        · rintro (h | ⟨_, _, h | h⟩)
          · exact h
          · cases h
          · cases h
      · rw [e]
        constructor
        · exact .inl
        · rintro (h | ⟨_, _, h | h⟩)
          · exact h
          · cases h
          · cases h
      · rw [e]
        constructor
        · intro _; exact .inr ⟨o, rfl, .inr rfl⟩
        · intro _; dsimp only; rw [AList.get_put, if_pos rfl]; rfl
      · rw [e]
        constructor
        · intro _; exact .inr ⟨o, rfl, .inl rfl⟩
        · intro _; dsimp only; rw [hput]; dsimp only; rw [AList.get_put, if_pos rfl]; rfl
    · apply quiet
      · intro o' h; cases h; exact eq rfl
      · rw [add_out]
        have hne : p ≠ q := fun h => eq h.symm
        rcases add_cases (decl := decl) w o q with ⟨_, e⟩ | ⟨_, h2, e⟩ | ⟨_, _, _, e⟩ | ⟨_, _, _, e⟩
        · rw [e]
        · rw [e]
        · rw [e]; dsimp only; rw [AList.get_put, if_neg hne]
        · rw [e]; dsimp only; rw [hput]; dsimp only; rw [AList.get_put, if_neg hne]
  | remove o n =>
    apply quiet
    · intro o' h; cases h
    · change (w.remove o n).1.owner.get p = _
      unfold World.remove
      split <;> rfl
  | listen o n k =>
    apply quiet
    · intro o' h; cases h
    · change (w.listen decl o n k).1.owner.get p = _
      unfold World.listen
      split
      · rfl
      · split <;> rfl
  | set o n v =>
    apply quiet
    · intro o' h; cases h
    · change (w.through decl d o n fun x p => x.write decl p v).1.owner.get p = _
      rcases through_cases (decl := decl) w d o n (fun x p => x.write decl p v) with e | ⟨_, x, hs, _, _, e⟩
      · rw [e]
      · rw [e]; rfl
  | clear o n =>
    apply quiet
    · intro o' h; cases h
    · change (w.through decl d o n fun x p => x.clear decl p).1.owner.get p = _
      rcases through_cases (decl := decl) w d o n (fun x p => x.clear decl p) with e | ⟨_, x, hs, _, _, e⟩
      · rw [e]
      · rw [e]; rfl

theorem owner_run (d : Nat) (p : Nat) : ∀ (ops : List (Op V)) (w : World V),
    ((run decl d w ops).owner.get p).isSome = true ↔ (w.owner.get p).isSome = true ∨
      ∃ pre o suf, ops = pre ++ .add o p :: suf ∧
        ((step decl d (run decl d w pre) (.add o p)).2 = .ok [] ∨
          (step decl d (run decl d w pre) (.add o p)).2 = .err .alreadyExists)
  | [], w => by
    constructor
    · exact .inl
    · rintro (h | ⟨pre, o, suf, h, _⟩)
      · exact h
      · cases pre <;> cases h
  | a :: ops, w => by
    change ((run decl d (step decl d w a).1 ops).owner.get p).isSome = true ↔ _
    rw [owner_run d p ops, owner_step]
    constructor
    · rintro ((h | ⟨o, rfl, h⟩) | ⟨pre, o, suf, e, h⟩)
      · exact .inl h
      · exact .inr ⟨[], o, ops, rfl, h⟩
      · exact .inr ⟨a :: pre, o, suf, by rw [e]; rfl, h⟩
    · rintro (h | ⟨pre, o, suf, e, h⟩)
      · exact .inl (.inl h)
      · cases pre with
        | nil =>
          cases e
          exact .inl (.inr ⟨o, rfl, h⟩)
        | cons b pre =>
          cases e
          exact .inr ⟨pre, o, suf, rfl, h⟩

/-- **C244 (partial).** A definition is refused for having an owner exactly if an earlier addition of it succeeded, or failed
because the name was taken. So a definition that was never handed to an object, or only refused for its references, is
accepted wherever its name is free and its targets are not referred to. Whether the property was removed meanwhile does not
matter, which is the violation. -/
theorem C244_owned_partial (d : Nat) (ops : List (Op V)) (p : Nat) :
    ((run decl d {} ops).owner.get p).isSome = true ↔ ∃ pre o suf, ops = pre ++ .add o p :: suf ∧
      ((step decl d (run decl d {} pre) (.add o p)).2 = .ok [] ∨
        (step decl d (run decl d {} pre) (.add o p)).2 = .err .alreadyExists) := by
  rw [owner_run]
  constructor
  · rintro (h | h)
    · cases h
    · exact h
  · exact .inr

/-- Non-vacuity: a definition that no object knows is accepted. -/
example : (step Demo.decl 9 Demo.w (.add 0 11)).2 = .ok [] := by decide +kernel

/-- **C244 is violated.** A definition that was refused because the object has a property of that name cannot be added to
another object afterwards, although it belongs to none. -/
theorem C244_violation_refused : (step Demo.decl 9 Demo.w (.add 0 4)).2 = .err .alreadyExists ∧
    (step Demo.decl 9 (run Demo.decl 9 Demo.w [.add 0 4]) (.add 1 4)).2 = .err .ownerAssigned ∧
    (step Demo.decl 9 Demo.w (.add 1 4)).2 = .ok [] ∧
    ∀ o ∈ [0, 1], ∀ e ∈ ((run Demo.decl 9 Demo.w [.add 0 4]).obj o).props, e.2 ≠ 4 := by decide +kernel

/-- **C244 is violated.** A property that was removed can neither be added again nor be added to another object. -/
theorem C244_violation_removed : (step Demo.decl 9 Demo.w (.remove 0 10)).2 = .ok [] ∧
    (step Demo.decl 9 (run Demo.decl 9 Demo.w [.remove 0 10]) (.add 0 0)).2 = .err .ownerAssigned ∧
    (step Demo.decl 9 (run Demo.decl 9 Demo.w [.remove 0 10]) (.add 1 0)).2 = .err .ownerAssigned := by decide +kernel

/-! ## C245: the handlers of a property are its own -/

/-- **C245 (partial).** If no property is added under the name of a removed one, then a write that changes the value calls
the handlers of the definition followed by those registered for the property, in this order, and no others; a write of the
present value calls none. -/
theorem C245_handlers_partial (d d' : Nat) (ops : List (Op V)) (h : Spec.Always (Spec.NoReuse decl) ops) (o : Nat) (n m : Name)
    (v : V) (q : Decl V) (hs : List Nat) (hset : (step decl d' (run decl d {} ops) (.set o n v)).2 = .ok hs)
    (hl : Spec.Leads decl (run decl d {} ops) o n m) (hq : Spec.prop decl (run decl d {} ops) o m = some q) :
    ((Spec.stored (run decl d {} ops) o m).getD q.dflt = v → hs = []) ∧
    ((Spec.stored (run decl d {} ops) o m).getD q.dflt ≠ v →
      hs = q.handlers ++ Spec.registered o m (Spec.done decl d {} ops)) := by
  have hh := hears_run (d := d) h
  have hw : Ok decl (run decl d {} ops) := ok_run ops ok_init
  generalize run decl d {} ops = w at *
  generalize Spec.done decl d {} ops = dn at *
  change (w.through decl d' o n fun x p => x.write decl p v).2 = .ok hs at hset
  rcases through_cases (decl := decl) w d' o n (fun x p => x.write decl p v) with e | ⟨p, x, hs', hr, ha, e⟩
  · obtain ⟨d₁, p, h₁, hp⟩ := resolve_complete hw hl
    unfold World.through at hset e
    cases hr : resolve decl (w.obj o) d' n with
    | overflow => rw [hr] at hset; cases hset
    | err er => rw [hr] at hset; cases hset
    | ok p' =>
      have e1 := resolve_le (Nat.le_max_left d₁ d') (n := n) (decl := decl) (x := w.obj o) (by rw [h₁]; intro e; cases e)
      have e2 := resolve_le (Nat.le_max_right d₁ d') (n := n) (decl := decl) (x := w.obj o) (by rw [hr]; intro e; cases e)
      rw [e1, h₁, hr] at e2
      cases e2
      rw [hr] at hset
      dsimp only at hset
      have hn := hw.named o m p hp
      rw [prop_eq, hp] at hq
      cases hq
      cases ha : (w.obj o).write decl p v with
      | overflow => rw [ha] at hset; cases hset
      | err er => rw [ha] at hset; cases hset
      | ok y =>
        obtain ⟨x, hs'⟩ := y
        rw [ha] at hset
        cases hset
        have hval : (w.obj o).value decl p = (Spec.stored w o m).getD (decl p).dflt := by
          unfold Obj.value; rw [hn]; rfl
        rcases (write_ok ha).2 with ⟨hv, _, eh⟩ | ⟨hv, _, eh⟩
        · exact ⟨fun _ => eh, fun hne => absurd (hval ▸ hv) hne⟩
        · refine ⟨fun hne => absurd (hval ▸ hne) hv, fun _ => ?_⟩
          rw [eh, hn]
          exact hh.live o m p hp
  · rw [e] at hset
    cases hset
    obtain ⟨d₁, p', h₁, hp⟩ := resolve_complete hw hl
    have e1 := resolve_le (Nat.le_max_left d₁ d') (n := n) (decl := decl) (x := w.obj o) (by rw [h₁]; intro e; cases e)
    have e2 := resolve_le (Nat.le_max_right d₁ d') (n := n) (decl := decl) (x := w.obj o) (by rw [hr]; intro e; cases e)
    rw [e1, h₁, hr] at e2
    cases e2
    have hn := hw.named o m p hp
    rw [prop_eq, hp] at hq
    cases hq
    have hval : (w.obj o).value decl p = (Spec.stored w o m).getD (decl p).dflt := by
      unfold Obj.value; rw [hn]; rfl
    rcases (write_ok ha).2 with ⟨hv, _, eh⟩ | ⟨hv, _, eh⟩
    · exact ⟨fun _ => eh, fun hne => absurd (hval ▸ hv) hne⟩
    · refine ⟨fun hne => absurd (hval ▸ hne) hv, fun _ => ?_⟩
      rw [eh, hn]
      exact hh.live o m p hp

/-- **C245.** Handlers cannot be registered for a reference property or for a name that stands for nothing. -/
theorem C245_listen_iff (d : Nat) (w : World V) (o : Nat) (n : Name) (k : Nat) :
    (step decl d w (.listen o n k)).2 = .ok [] ↔ ∃ q, Spec.prop decl w o n = some q ∧ q.ref = none := by
  change ((w.listen decl o n k).2.map fun _ => []) = .ok [] ↔ _
  unfold World.listen
  rw [prop_eq]
  cases hp : (w.obj o).props.get n with
  | none =>
    constructor
    · intro h; cases h
    · rintro ⟨q, h, _⟩; cases h
  | some p =>
    dsimp only
    cases hr : (decl p).ref with
    | none =>
      constructor
      · intro _; exact ⟨decl p, rfl, hr⟩
      · intro _; rfl
    | some r =>
      constructor
      · intro h; cases h
      · rintro ⟨q, h, h'⟩; cases h; rw [hr] at h'; cases h'

/-- Non-vacuity: a definition with a handler, one more registered, both are called; the condition holds. -/
example : Spec.Always (Spec.NoReuse Demo.decl) [.add 0 4, .listen 0 10 7] ∧
    (step Demo.decl 9 (run Demo.decl 9 {} [.add 0 4, .listen 0 10 7]) (.set 0 10 1)).2 = .ok [40, 7] := by
  refine ⟨.snoc [.add 0 4] _ (.snoc [] _ .nil ?_) trivial, by decide +kernel⟩
  intro h
  cases h

/-- **C245 is violated.** The handlers of a removed property are called for the property that takes its name, and the
handlers of the new one are not. -/
theorem C245_violation :
    (step Demo.decl 9 (run Demo.decl 9 {} [.add 0 4, .listen 0 10 7, .remove 0 10, .add 0 10]) (.set 0 10 1)).2 =
      .ok [40, 7] ∧
    Spec.prop Demo.decl (run Demo.decl 9 {} [.add 0 4, .listen 0 10 7, .remove 0 10, .add 0 10]) 0 10 =
      some { name := 10, dflt := 110, handlers := [41] } := by decide +kernel

end Verif.Refs
