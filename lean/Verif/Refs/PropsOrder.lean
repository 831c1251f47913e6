import Verif.Refs.Inv
import Verif.Refs.Demo

/-!
# C242, C243: cycles of references and several references to one property
-/

namespace Verif.Refs

open Verif

variable {V : Type} [DecidableEq V] {decl : Nat → Decl V}

/-! ## C242: reading, writing and clearing come to an end -/

/-- **C242 (partial).** If no property is added that an existing reference, or itself, mentions, then every access ends: it
needs no more nested steps than the object has properties, and one. The code does not enforce the condition. -/
theorem C242_ends_partial (d d' : Nat) (ops : List (Op V)) (h : Spec.Always (Spec.Orderly decl d) ops) (o : Nat) (n : Name)
    (v : V) (hd : ((run decl d {} ops).obj o).props.length + 1 ≤ d') :
    get decl d' (run decl d {} ops) o n ≠ .overflow ∧
    (step decl d' (run decl d {} ops) (.set o n v)).2 ≠ .overflow ∧
    (step decl d' (run decl d {} ops) (.clear o n)).2 ≠ .overflow := by
  have hs := (tidy_run h).sorted o
  have hres : resolve decl ((run decl d {} ops).obj o) d' n ≠ .overflow := by
    have hn : n ∈ ((run decl d {} ops).obj o).props.map (·.1) ∨ ((run decl d {} ops).obj o).props.get n = none := by
      cases hg : ((run decl d {} ops).obj o).props.get n with
      | none => exact .inr rfl
      | some p => exact .inl (List.mem_map.mpr ⟨_, AList.mem_of_get hg, rfl⟩)
    have := sorted_ends hs _ [] rfl n hn
    rw [resolve_le hd this]
    exact this
  generalize run decl d {} ops = w at *
  refine ⟨?_, ?_, ?_⟩
  · unfold get read
    cases hr : resolve decl (w.obj o) d' n with
    | overflow => exact absurd hr hres
    | err e => intro h; cases h
    | ok p => intro h; cases h
  · change (w.through decl d' o n fun x p => x.write decl p v).2 ≠ _
    unfold World.through
    cases hr : resolve decl (w.obj o) d' n with
    | overflow => exact absurd hr hres
    | err e => intro h; cases h
    | ok p =>
      dsimp only
      unfold Obj.write
      split
      · intro h; rename_i ha; split at ha <;> (try cases ha); split at ha <;> cases ha
      · intro h; cases h
      · intro h; cases h
  · change (w.through decl d' o n fun x p => x.clear decl p).2 ≠ _
    unfold World.through
    cases hr : resolve decl (w.obj o) d' n with
    | overflow => exact absurd hr hres
    | err e => intro h; cases h
    | ok p =>
      dsimp only
      unfold Obj.clear
      split
      · intro h; rename_i ha; split at ha <;> (try cases ha); split at ha <;> cases ha
      · intro h; cases h
      · intro h; cases h

/-- **C242.** A result does not depend on how much stack there is. -/
theorem C242_stable (d d' : Nat) (w : World V) (o : Nat) (n : Name) (hle : d ≤ d') (h : get decl d w o n ≠ .overflow) :
    get decl d' w o n = get decl d w o n := by
  have : resolve decl (w.obj o) d n ≠ .overflow := by
    intro e; apply h; unfold get read; rw [e]; rfl
  unfold get read
  rw [resolve_le hle this]

/-- Non-vacuity: the calls of the demo are orderly. -/
example : Spec.Always (Spec.Orderly Demo.decl 9) [.add 0 0, .add 0 8] ∧
    get Demo.decl 3 (run Demo.decl 9 {} [.add 0 0, .add 0 8]) 0 18 = .ok 100 := by
  constructor
  · refine .snoc [.add 0 0] _ (.snoc [] _ .nil ⟨?_, ?_⟩) ⟨?_, ?_⟩
    · intro r h; cases h
    · intro n q r h; cases h
    · intro r h; cases h; decide
    · intro n q r h hr
      have : n = 10 ∧ q = Demo.decl 0 ∨ False := by
        by_cases e : n = 10
        · subst e; left; exact ⟨rfl, (Option.some.inj h).symm⟩
        · exfalso
          rw [prop_eq] at h
          change Option.map _ (AList.get [(10, 0)] n) = _ at h
          rw [AList.get_cons, if_neg e] at h
          cases h
      rcases this with ⟨_, rfl⟩ | h'
      · cases hr
      · cases h'
  · decide +kernel

/-- **C242 is violated.** A reference to itself is accepted, and no stack is large enough to read it. -/
theorem C242_violation_self : (step Demo.decl 9 ({} : World Nat) (.add 0 5)).2 = .ok [] ∧
    ∀ d, get Demo.decl d (run Demo.decl 9 {} [.add 0 5]) 0 15 = .overflow := by
  refine ⟨by decide +kernel, fun d => ?_⟩
  have h : ∀ d, resolve Demo.decl ((run Demo.decl 9 {} [.add 0 5]).obj 0) d 15 = .overflow := by
    intro d
    induction d with
    | zero => rfl
    | succ d ih =>
      rw [resolve_ref (p := 5) (m := 15) (r := .to 15) (by decide +kernel) (by decide +kernel)]
      · exact ih
      · have : ((run Demo.decl 9 {} [.add 0 5]).obj 0).has 15 = true := by decide +kernel
        unfold choose
        dsimp only
        rw [if_pos this]
  unfold get read
  rw [h]
  rfl

/-- **C242 is violated.** So are two references to each other. -/
theorem C242_violation_cycle : (step Demo.decl 9 ({} : World Nat) (.add 0 6)).2 = .ok [] ∧
    (step Demo.decl 9 (run Demo.decl 9 {} [.add 0 6]) (.add 0 7)).2 = .ok [] ∧
    ∀ d, get Demo.decl d (run Demo.decl 9 {} [.add 0 6, .add 0 7]) 0 16 = .overflow := by
  refine ⟨by decide +kernel, by decide +kernel, fun d => ?_⟩
  have h : ∀ d, resolve Demo.decl ((run Demo.decl 9 {} [.add 0 6, .add 0 7]).obj 0) d 16 = .overflow ∧
      resolve Demo.decl ((run Demo.decl 9 {} [.add 0 6, .add 0 7]).obj 0) d 17 = .overflow := by
    intro d
    induction d with
    | zero => exact ⟨rfl, rfl⟩
    | succ d ih =>
      constructor
      · rw [resolve_ref (p := 6) (m := 17) (r := .to 17) (by decide +kernel) (by decide +kernel)]
        · exact ih.2
        · have : ((run Demo.decl 9 {} [.add 0 6, .add 0 7]).obj 0).has 17 = true := by decide +kernel
          unfold choose
          dsimp only
          rw [if_pos this]
      · rw [resolve_ref (p := 7) (m := 16) (r := .to 16) (by decide +kernel) (by decide +kernel)]
        · exact ih.1
        · have : ((run Demo.decl 9 {} [.add 0 6, .add 0 7]).obj 0).has 16 = true := by decide +kernel
          unfold choose
          dsimp only
          rw [if_pos this]
  unfold get read
  rw [(h d).1]
  rfl

/-! ## C243: at most one reference to a property -/

/-- **C243 (partial).** If no property is added that an existing reference, or itself, mentions, then an existing property is
referred to by at most one other, as `addProperty` intends. The code does not enforce the condition. -/
theorem C243_one_reference_partial (d : Nat) (ops : List (Op V)) (h : Spec.Always (Spec.Orderly decl d) ops) (o : Nat) :
    Spec.OneReference decl (run decl d {} ops) o := by
  have hsi := (tidy_run h).single o
  have hso := (tidy_run h).sorted o
  generalize run decl d {} ops = w at *
  intro m hm n₁ n₂ q₁ q₂ r₁ r₂ h₁ h₂ hr₁ hr₂ ht₁ ht₂
  rw [prop_eq] at hm h₁ h₂
  cases hg₁ : (w.obj o).props.get n₁ with
  | none => rw [hg₁] at h₁; cases h₁
  | some p₁ =>
    cases hg₂ : (w.obj o).props.get n₂ with
    | none => rw [hg₂] at h₂; cases h₂
    | some p₂ =>
      rw [hg₁] at h₁; cases h₁
      rw [hg₂] at h₂; cases h₂
      have hsym : ∀ {l : AList Name Nat} {R : Name × Nat → Name × Nat → Prop}, l.Pairwise R → ∀ a ∈ l, ∀ b ∈ l, a ≠ b →
          R a b ∨ R b a := by
        intro l R hp
        induction hp with
        | nil => intro a ha; cases ha
        | cons hh _ ih =>
          intro a ha b hb hne
          rcases List.mem_cons.mp ha with ea | ea
          · rcases List.mem_cons.mp hb with eb | eb
            · exact absurd (ea.trans eb.symm) hne
            · rw [ea]; exact .inl (hh b eb)
          · rcases List.mem_cons.mp hb with eb | eb
            · rw [eb]; exact .inr (hh a ea)
            · exact ih a ea b eb hne
      by_cases hne : n₁ = n₂
      · exact hne
      · have hgone : (w.obj o).props.get m = none := by
          rcases hsym hsi (n₁, p₁) (AList.mem_of_get hg₁) (n₂, p₂) (AList.mem_of_get hg₂)
            (fun e => hne (congrArg Prod.fst e)) with h | h
          · exact h r₁ r₂ m hr₁ hr₂ ht₁ ht₂
          · exact h r₂ r₁ m hr₂ hr₁ ht₂ ht₁
        rw [hgone] at hm
        cases hm

/-- **C243.** A property that refers to an existing one that is referred to already is refused and nothing changes. -/
theorem C243_refused (d : Nat) (w : World V) (o p : Nat) (r r' : Ref V) (n m : Name) (q : Decl V)
    (hr : (decl p).ref = some r) (hm : m ∈ Spec.targets r) (he : (Spec.prop decl w o m).isSome)
    (hn : Spec.prop decl w o n = some q) (hq : q.ref = some r') (hm' : m ∈ Spec.targets r') :
    step decl d w (.add o p) = (w, .err .duplicateReference) := by
  have hd : (w.obj o).hasDuplicate decl p = true := by
    rw [prop_eq] at he hn
    cases hg : (w.obj o).props.get n with
    | none => rw [hg] at hn; cases hn
    | some k =>
      rw [hg] at hn; cases hn
      exact hasDuplicate_iff.mpr ⟨r, m, hr, hm, by simpa using he, (n, k), AList.mem_of_get hg, r', hq, hm'⟩
  change ((w.add decl o p).1, (w.add decl o p).2.map fun _ => []) = _
  unfold World.add
  rw [hd]
  rfl

/-- Non-vacuity: `X = %A` is accepted, then `Y = %A` is refused. -/
example : (step Demo.decl 9 (run Demo.decl 9 {} [.add 0 0, .add 0 8]) (.add 0 9)).2 = .err .duplicateReference := by
  decide +kernel

/-- **C243 is violated.** If the referred property is added last, two references to it stand. -/
theorem C243_violation : ¬ Spec.OneReference Demo.decl (run Demo.decl 9 {} [.add 0 8, .add 0 9, .add 0 0]) 0 ∧
    get Demo.decl 9 (run Demo.decl 9 {} [.add 0 8, .add 0 9, .add 0 0, .set 0 18 3]) 0 19 = .ok 3 := by
  refine ⟨fun h => ?_, by decide +kernel⟩
  have := h 10 (by decide +kernel) 18 19 (Demo.decl 8) (Demo.decl 9) (.to 10) (.to 10) (by decide +kernel)
    (by decide +kernel) rfl rfl (by decide) (by decide)
  cases this

end Verif.Refs
