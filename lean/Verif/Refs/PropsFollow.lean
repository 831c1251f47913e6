import Verif.Refs.Inv
import Verif.Refs.Demo

/-!
# C241, C246, C247: references stand for their targets; new properties; other objects
-/

namespace Verif.Refs

open Verif

variable {V : Type} [DecidableEq V] {decl : Nat → Decl V}

/-! ## C241: a reference property stands for the property its expression yields -/

/-- **C241.** A value that is read is the one stored for, or the default of, the property the name stands for. -/
theorem C241_read (d d' : Nat) (ops : List (Op V)) (o : Nat) (n : Name) (v : V)
    (h : get decl d' (run decl d {} ops) o n = .ok v) : Spec.Reads decl (run decl d {} ops) o n v := by
  have hw : Ok decl (run decl d {} ops) := ok_run ops ok_init
  generalize run decl d {} ops = w at *
  unfold get read at h
  cases hr : resolve decl (w.obj o) d' n with
  | overflow => rw [hr] at h; cases h
  | err e => rw [hr] at h; cases h
  | ok p =>
    rw [hr] at h
    obtain ⟨hp, hl⟩ := resolve_sound hw hr
    have := reads_of hw hl hp
    rw [Out.ok.inj h] at this
    exact this

/-- **C241.** And whenever a name stands for a property, its value is read, given enough stack. -/
theorem C241_readable (d : Nat) (ops : List (Op V)) (o : Nat) (n : Name) (v : V)
    (h : Spec.Reads decl (run decl d {} ops) o n v) :
    ∃ d₀, ∀ d', d₀ ≤ d' → get decl d' (run decl d {} ops) o n = .ok v := by
  have hw : Ok decl (run decl d {} ops) := ok_run ops ok_init
  generalize run decl d {} ops = w at *
  obtain ⟨d₀, hd⟩ := read_complete hw h
  refine ⟨d₀, fun d' hle => ?_⟩
  have hn : resolve decl (w.obj o) d₀ n ≠ .overflow := by
    intro e; unfold read at hd; rw [e] at hd; cases hd
  unfold get read
  rw [resolve_le hle hn]
  exact hd

/-- **C241.** A name stands for one property only. -/
theorem C241_unique (d : Nat) (ops : List (Op V)) (o : Nat) (n m m' : Name)
    (h : Spec.Leads decl (run decl d {} ops) o n m) (h' : Spec.Leads decl (run decl d {} ops) o n m') : m = m' := by
  have hw : Ok decl (run decl d {} ops) := ok_run ops ok_init
  generalize run decl d {} ops = w at *
  obtain ⟨d₁, p, h₁, hp⟩ := resolve_complete hw h
  obtain ⟨d₂, q, h₂, hq⟩ := resolve_complete hw h'
  have e1 := resolve_le (Nat.le_max_left d₁ d₂) (n := n) (decl := decl) (x := w.obj o) (by rw [h₁]; intro e; cases e)
  have e2 := resolve_le (Nat.le_max_right d₁ d₂) (n := n) (decl := decl) (x := w.obj o) (by rw [h₂]; intro e; cases e)
  rw [e1, h₁, h₂] at e2
  cases e2
  rw [← hw.named o m p hp, ← hw.named o m' p hq]

theorem through_same {w : World V} (hw : Ok decl w) {d o : Nat} {n m : Name} {act : Obj V → Nat → Out (Obj V × List Nat)}
    (hl : Spec.Leads decl w o n m) (hn : (w.through decl d o n act).2 ≠ .overflow) :
    w.through decl d o n act = w.through decl d o m act := by
  obtain ⟨d₁, p, h₁, hp⟩ := resolve_complete hw hl
  have hres : resolve decl (w.obj o) d n ≠ .overflow := by
    intro e
    unfold World.through at hn
    rw [e] at hn
    exact hn rfl
  have hd : d ≠ 0 := by
    intro e; subst e; exact hres rfl
  obtain ⟨k, rfl⟩ := Nat.exists_eq_succ_of_ne_zero hd
  have e1 := resolve_le (Nat.le_max_left d₁ (k + 1)) (n := n) (decl := decl) (x := w.obj o) (by rw [h₁]; intro e; cases e)
  have e2 := resolve_le (Nat.le_max_right d₁ (k + 1)) (n := n) (decl := decl) (x := w.obj o) hres
  rw [e1, h₁] at e2
  obtain ⟨q, hq, hr⟩ := leads_end hl
  rw [hp] at hq
  cases hq
  unfold World.through
  rw [← e2, resolve_here hp hr]

/-- **C241.** Writing and clearing a reference property is writing and clearing the property it stands for: the result, the
handlers that are called and the state afterwards are the same. -/
theorem C241_write_is_target (d d' : Nat) (ops : List (Op V)) (o : Nat) (n m : Name) (v : V)
    (hl : Spec.Leads decl (run decl d {} ops) o n m) :
    ((step decl d' (run decl d {} ops) (.set o n v)).2 ≠ .overflow →
      step decl d' (run decl d {} ops) (.set o n v) = step decl d' (run decl d {} ops) (.set o m v)) ∧
    ((step decl d' (run decl d {} ops) (.clear o n)).2 ≠ .overflow →
      step decl d' (run decl d {} ops) (.clear o n) = step decl d' (run decl d {} ops) (.clear o m)) :=
  ⟨fun h => through_same (ok_run ops ok_init) hl h, fun h => through_same (ok_run ops ok_init) hl h⟩

theorem value_get {w : World V} (hw : Ok decl w) {o : Nat} {m : Name} {p : Nat} (hp : (w.obj o).props.get m = some p) :
    (w.obj o).value decl p = ((w.obj o).values.get m).getD (decl p).dflt := by
  unfold Obj.value; rw [hw.named o m p hp]

/-- **C241.** A successful write stores the value in the property the name stands for, unless that is its value already; no
other stored value and no property changes. -/
theorem C241_write (d d' : Nat) (ops : List (Op V)) (o : Nat) (n : Name) (v : V) (w' : World V) (hs : List Nat)
    (h : step decl d' (run decl d {} ops) (.set o n v) = (w', .ok hs)) :
    ∃ m q, Spec.Leads decl (run decl d {} ops) o n m ∧ Spec.prop decl (run decl d {} ops) o m = some q ∧
      q.readOnly = false ∧ (Spec.stored w' o m).getD q.dflt = v ∧
      (∀ o' k, o' ≠ o ∨ k ≠ m → Spec.stored w' o' k = Spec.stored (run decl d {} ops) o' k) ∧
      ∀ o' k, Spec.prop decl w' o' k = Spec.prop decl (run decl d {} ops) o' k := by
  have hw : Ok decl (run decl d {} ops) := ok_run ops ok_init
  generalize run decl d {} ops = w at *
  change w.through decl d' o n (fun x p => x.write decl p v) = (w', .ok hs) at h
  unfold World.through at h
  cases hr : resolve decl (w.obj o) d' n with
  | overflow => rw [hr] at h; cases h
  | err e => rw [hr] at h; cases h
  | ok p =>
    rw [hr] at h
    dsimp only at h
    cases ha : (w.obj o).write decl p v with
    | overflow => rw [ha] at h; cases h
    | err e => rw [ha] at h; cases h
    | ok y =>
      obtain ⟨x, hs'⟩ := y
      rw [ha] at h
      cases h
      obtain ⟨hp, hl⟩ := resolve_sound hw hr
      obtain ⟨hro, hcase⟩ := write_ok ha
      refine ⟨(decl p).name, decl p, hl, by rw [prop_eq, hp]; rfl, hro, ?_, ?_, ?_⟩
      · rw [stored_eq, obj_putObj, if_pos rfl]
        rcases hcase with ⟨hv, ex, _⟩ | ⟨_, ex, _⟩
        · rw [ex]; exact hv
        · rw [ex]; dsimp only; rw [AList.get_put, if_pos rfl]; rfl
      · intro o' k hk
        rw [stored_eq, stored_eq, obj_putObj]
        by_cases eo : o' = o
        · rw [if_pos eo]
          subst eo
          have hk' : k ≠ (decl p).name := by
            rcases hk with h | h
            · exact absurd rfl h
            · exact h
          rcases hcase with ⟨_, ex, _⟩ | ⟨_, ex, _⟩
          · rw [ex]
          · rw [ex]; dsimp only; rw [AList.get_put, if_neg hk']
        · rw [if_neg eo]
      · intro o' k
        rw [prop_eq, prop_eq, obj_putObj]
        by_cases eo : o' = o
        · rw [if_pos eo]
          subst eo
          rcases hcase with ⟨_, ex, _⟩ | ⟨_, ex, _⟩ <;> rw [ex]
        · rw [if_neg eo]

/-- **C241.** A successful clear leaves no stored value for the property the name stands for and changes nothing else. -/
theorem C241_clear (d d' : Nat) (ops : List (Op V)) (o : Nat) (n : Name) (w' : World V) (hs : List Nat)
    (h : step decl d' (run decl d {} ops) (.clear o n) = (w', .ok hs)) :
    ∃ m q, Spec.Leads decl (run decl d {} ops) o n m ∧ Spec.prop decl (run decl d {} ops) o m = some q ∧
      q.readOnly = false ∧ Spec.stored w' o m = none ∧
      (∀ o' k, o' ≠ o ∨ k ≠ m → Spec.stored w' o' k = Spec.stored (run decl d {} ops) o' k) ∧
      ∀ o' k, Spec.prop decl w' o' k = Spec.prop decl (run decl d {} ops) o' k := by
  have hw : Ok decl (run decl d {} ops) := ok_run ops ok_init
  generalize run decl d {} ops = w at *
  change w.through decl d' o n (fun x p => x.clear decl p) = (w', .ok hs) at h
  unfold World.through at h
  cases hr : resolve decl (w.obj o) d' n with
  | overflow => rw [hr] at h; cases h
  | err e => rw [hr] at h; cases h
  | ok p =>
    rw [hr] at h
    dsimp only at h
    cases ha : (w.obj o).clear decl p with
    | overflow => rw [ha] at h; cases h
    | err e => rw [ha] at h; cases h
    | ok y =>
      obtain ⟨x, hs'⟩ := y
      rw [ha] at h
      cases h
      obtain ⟨hp, hl⟩ := resolve_sound hw hr
      obtain ⟨hro, hcase⟩ := clear_ok ha
      refine ⟨(decl p).name, decl p, hl, by rw [prop_eq, hp]; rfl, hro, ?_, ?_, ?_⟩
      · rw [stored_eq, obj_putObj, if_pos rfl]
        rcases hcase with ⟨hv, ex, _⟩ | ⟨_, ex, _⟩
        · rw [ex]; exact hv
        · rw [ex]; dsimp only; rw [AList.get_del, if_pos rfl]
      · intro o' k hk
        rw [stored_eq, stored_eq, obj_putObj]
        by_cases eo : o' = o
        · rw [if_pos eo]
          subst eo
          have hk' : k ≠ (decl p).name := by
            rcases hk with h | h
            · exact absurd rfl h
            · exact h
          rcases hcase with ⟨_, ex, _⟩ | ⟨_, ex, _⟩
          · rw [ex]
          · rw [ex]; dsimp only; rw [AList.get_del, if_neg hk']
        · rw [if_neg eo]
      · intro o' k
        rw [prop_eq, prop_eq, obj_putObj]
        by_cases eo : o' = o
        · rw [if_pos eo]
          subst eo
          rcases hcase with ⟨_, ex, _⟩ | ⟨_, ex, _⟩ <;> rw [ex]
        · rw [if_neg eo]

/-- Non-vacuity: with `C = 1` the reference `R` reads and writes `B` and its handler is called; with `C = 0` it is `A`. -/
example : get Demo.decl 9 Demo.w 0 13 = .ok 101 ∧
    (step Demo.decl 9 Demo.w (.set 0 13 55)).2 = .ok [7] ∧
    get Demo.decl 9 (step Demo.decl 9 Demo.w (.set 0 13 55)).1 0 11 = .ok 55 ∧
    get Demo.decl 9 (step Demo.decl 9 Demo.w (.set 0 12 0)).1 0 13 = .ok 100 ∧
    (step Demo.decl 9 (run Demo.decl 9 Demo.w [.set 0 13 55]) (.clear 0 13)).2 = .ok [7] := by decide +kernel

/-- Non-vacuity: what `Leads` says about the same object. -/
example : ∃ m v, Spec.Leads Demo.decl (run Demo.decl 9 {} Demo.ops) 0 13 m ∧ m ≠ 13 ∧
    Spec.Reads Demo.decl (run Demo.decl 9 {} Demo.ops) 0 13 v := by
  have h : step Demo.decl 9 (run Demo.decl 9 {} Demo.ops) (.set 0 13 55) =
      ((step Demo.decl 9 (run Demo.decl 9 {} Demo.ops) (.set 0 13 55)).1, .ok [7]) := by decide +kernel
  obtain ⟨m, q, hl, _, _, _, hsame, _⟩ := C241_write 9 9 Demo.ops 0 13 55 _ _ h
  refine ⟨m, 101, hl, ?_, C241_read 9 9 Demo.ops 0 13 101 (by decide +kernel)⟩
  intro e
  subst e
  have := hsame 0 11 (.inr (by decide))
  revert this
  decide +kernel

/-! ## C246: a new property starts with its default value -/

/-- **C246.** A property that was added stands under its name, has no stored value and reads as its default, also if a
property with this name and another value was removed before. -/
theorem C246_fresh (d d' : Nat) (ops : List (Op V)) (o p : Nat)
    (h : (step decl d' (run decl d {} ops) (.add o p)).2 = .ok []) :
    Spec.prop decl (step decl d' (run decl d {} ops) (.add o p)).1 o (decl p).name = some (decl p) ∧
    Spec.stored (step decl d' (run decl d {} ops) (.add o p)).1 o (decl p).name = none ∧
    ((decl p).ref = none → ∀ k, get decl (k + 1) (step decl d' (run decl d {} ops) (.add o p)).1 o (decl p).name =
      .ok (decl p).dflt) := by
  have hw : Ok decl (run decl d {} ops) := ok_run ops ok_init
  generalize run decl d {} ops = w at *
  change ((w.add decl o p).2.map fun _ => []) = .ok [] at h
  change Spec.prop decl (w.add decl o p).1 o _ = _ ∧ Spec.stored (w.add decl o p).1 o _ = _ ∧
    (_ → ∀ k, get decl (k + 1) (w.add decl o p).1 o _ = _)
  rcases add_cases (decl := decl) w o p with ⟨_, e⟩ | ⟨_, _, e⟩ | ⟨_, _, _, e⟩ | ⟨_, _, h3, e⟩
  · rw [e] at h; cases h
  · rw [e] at h; cases h
  · rw [e] at h; cases h
  · rw [e]
    dsimp only
    have hx : ((({ w with owner := w.owner.put p o } : World V).putObj o
        (({ w.obj o with props := ((decl p).name, p) :: (w.obj o).props } : Obj V).hookUp (decl p))).obj o).props.get
        (decl p).name = some p := by
      rw [obj_putObj, if_pos rfl, hookUp_props, AList.get_cons, if_pos rfl]
    have hv : ((({ w with owner := w.owner.put p o } : World V).putObj o
        (({ w.obj o with props := ((decl p).name, p) :: (w.obj o).props } : Obj V).hookUp (decl p))).obj o).values.get
        (decl p).name = none := by
      rw [obj_putObj, if_pos rfl, hookUp_values]
      cases hg : (w.obj o).values.get (decl p).name with
      | none => rfl
      | some v =>
        have := hw.live o _ v hg
        rw [has_false h3] at this
        cases this
    refine ⟨by rw [prop_eq, hx]; rfl, by rw [stored_eq, hv], fun hr k => ?_⟩
    unfold get read
    rw [resolve_here hx hr]
    change Out.ok _ = _
    unfold Obj.value
    rw [hv]
    rfl

/-- **C246.** After a removal neither the property nor a value is left, and every other name is as before. -/
theorem C246_removed (d : Nat) (w : World V) (o : Nat) (n : Name) (h : (step decl d w (.remove o n)).2 = .ok []) :
    Spec.prop decl (step decl d w (.remove o n)).1 o n = none ∧ Spec.stored (step decl d w (.remove o n)).1 o n = none ∧
    (∀ k, k ≠ n → Spec.prop decl (step decl d w (.remove o n)).1 o k = Spec.prop decl w o k ∧
      Spec.stored (step decl d w (.remove o n)).1 o k = Spec.stored w o k) ∧
    (Spec.prop decl w o n).isSome := by
  change ((w.remove o n).2.map fun _ => []) = .ok [] at h
  change Spec.prop decl (w.remove o n).1 o n = none ∧ Spec.stored (w.remove o n).1 o n = none ∧
    (∀ k, k ≠ n → Spec.prop decl (w.remove o n).1 o k = _ ∧ Spec.stored (w.remove o n).1 o k = _) ∧ _
  unfold World.remove at h ⊢
  cases hh : (w.obj o).has n with
  | false => rw [hh] at h; cases h
  | true =>
    rw [if_pos rfl]
    dsimp only
    refine ⟨?_, ?_, ?_, (has_iff_prop w o n).mp hh⟩
    · rw [prop_eq, obj_putObj, if_pos rfl]; dsimp only; rw [AList.get_del, if_pos rfl]; rfl
    · rw [stored_eq, obj_putObj, if_pos rfl]; dsimp only; rw [AList.get_del, if_pos rfl]
    · intro k hk
      rw [prop_eq, stored_eq, obj_putObj, if_pos rfl]
      dsimp only
      rw [AList.get_del, if_neg hk, AList.get_del, if_neg hk]
      exact ⟨rfl, rfl⟩

/-- Non-vacuity: `A` is set, removed, and another `A` added: it reads as its own default. -/
example : (step Demo.decl 9 (run Demo.decl 9 Demo.w [.set 0 10 1, .remove 0 10]) (.add 0 4)).2 = .ok [] ∧
    get Demo.decl 9 (run Demo.decl 9 Demo.w [.set 0 10 1]) 0 10 = .ok 1 ∧
    get Demo.decl 9 (run Demo.decl 9 Demo.w [.set 0 10 1, .remove 0 10, .add 0 4]) 0 10 = .ok 104 := by decide +kernel

/-! ## C247: a call on one object does not change another -/

/-- **C247.** Calls on an object leave the properties, values and handlers of every other object alone. -/
theorem C247_others (d : Nat) (w : World V) (op : Op V) (o : Nat) (h : Spec.on op ≠ o) :
    (∀ n, Spec.prop decl (step decl d w op).1 o n = Spec.prop decl w o n ∧
      Spec.stored (step decl d w op).1 o n = Spec.stored w o n) ∧
    (∀ k n, get decl k (step decl d w op).1 o n = get decl k w o n) ∧
    ∀ k n v, (step decl k (step decl d w op).1 (.set o n v)).2 = (step decl k w (.set o n v)).2 := by
  have e : (step decl d w op).1.obj o = w.obj o := by
    cases op with
    | add o' p =>
      have h' : o ≠ o' := fun e => h e.symm
      change (w.add decl o' p).1.obj o = _
      rcases add_cases (decl := decl) w o' p with ⟨_, e⟩ | ⟨_, _, e⟩ | ⟨_, _, _, e⟩ | ⟨_, _, _, e⟩
      · rw [e]
      · rw [e]
      · rw [e]; rfl
      · rw [e]; dsimp only; rw [obj_putObj, if_neg h']; rfl
    | remove o' n =>
      have h' : o ≠ o' := fun e => h e.symm
      change (w.remove o' n).1.obj o = _
      unfold World.remove
      split
      · dsimp only; rw [obj_putObj, if_neg h']
      · rfl
    | listen o' n k =>
      have h' : o ≠ o' := fun e => h e.symm
      change (w.listen decl o' n k).1.obj o = _
      unfold World.listen
      split
      · rfl
      · split
        · rfl
        · dsimp only; rw [obj_putObj, if_neg h']
    | set o' n v =>
      have h' : o ≠ o' := fun e => h e.symm
      change (w.through decl d o' n fun x p => x.write decl p v).1.obj o = _
      rcases through_cases (decl := decl) w d o' n (fun x p => x.write decl p v) with e | ⟨p, x, hs, _, _, e⟩
      · rw [e]
      · rw [e]; dsimp only; rw [obj_putObj, if_neg h']
    | clear o' n =>
      have h' : o ≠ o' := fun e => h e.symm
      change (w.through decl d o' n fun x p => x.clear decl p).1.obj o = _
      rcases through_cases (decl := decl) w d o' n (fun x p => x.clear decl p) with e | ⟨p, x, hs, _, _, e⟩
      · rw [e]
      · rw [e]; dsimp only; rw [obj_putObj, if_neg h']
  refine ⟨fun n => ⟨by rw [prop_eq, prop_eq, e], by rw [stored_eq, stored_eq, e]⟩, fun k n => ?_, fun k n v => ?_⟩
  · unfold get; rw [e]
  · change ((step decl d w op).1.through decl k o n _).2 = (w.through decl k o n _).2
    unfold World.through
    rw [e]
    split
    · rfl
    · rfl
    · dsimp only
      split <;> rfl

/-- Non-vacuity: two objects with a property of the same name. -/
example : get Demo.decl 9 (run Demo.decl 9 Demo.w [.add 1 4, .set 1 10 3]) 0 10 = .ok 100 ∧
    get Demo.decl 9 (run Demo.decl 9 Demo.w [.add 1 4, .set 1 10 3]) 1 10 = .ok 3 := by decide +kernel

end Verif.Refs
