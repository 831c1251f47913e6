import Verif.Defs.Made
import Verif.Defs.Demo

/-!
# C252–C254: saving, loading and cloning definitions
-/

namespace Verif.Defs
open Spec

/-- What is left of a definition after saving and loading it. -/
def kept (d : Def) : Def :=
  { d with
    selection := if d.onSelection then none else d.selection
    suggested := if d.onSuggested then none else d.suggested
    intSel := d.intSel && decide (d.valueType = .int)
    onRead := false
    onSelection := false
    onSuggested := false }

theorem load_save (p : Property) : load (save p) = build (kept p.d) := by
  unfold load
  refine congrArg build ?_
  obtain ⟨⟨n, vt, de, u, mi, ma, df, vi, ro, se, su, re, co, va, ca, is, r, os, ou⟩, k⟩ := p
  simp only [read, save, kept, Def.mk.injEq, Option.getD_some, Option.orElse_eq_orElse, Option.orElse_eq_or,
    Option.or_none, true_and, and_true]
  cases is <;> by_cases h : vt = .int <;> simp [h]

theorem kept_acceptable {d : Def} (a : Acceptable d) : Acceptable (kept d) := by
  have hs : (kept d).selection ≠ none → d.selection ≠ none := by
    intro h h'
    apply h
    simp [kept, h']
  have hu : (kept d).suggested ≠ none → d.suggested ≠ none := by
    intro h h'
    apply h
    simp [kept, h']
  have hs' : d.selection = none → (kept d).selection = none := fun h => by simp [kept, h]
  have hu' : d.suggested = none → (kept d).suggested = none := fun h => by simp [kept, h]
  exact { named := a.named, noDefault := a.noDefault, hasDefault := a.hasDefault
          object := fun h => by
            obtain ⟨h1, h2, h3⟩ := a.object h
            exact ⟨hs' h1, hu' h2, h3⟩
          limits := a.limits, callable := a.callable
          reference := fun h => by
            obtain ⟨h1, h2, h3, h4, h5⟩ := a.reference h
            exact ⟨h1, h2, hs' h3, hu' h4, h5⟩
          selection := fun h => a.selection (hs h)
          sparse := fun v h => a.sparse v (by
            simp only [kept] at h
            split at h
            · cases h
            · exact h)
          suggested := fun h => a.suggested (hu h)
          dict := a.dict, list := a.list
          struct := fun h => by
            obtain ⟨h1, h2, h3⟩ := a.struct h
            exact ⟨hs' h1, hu' h2, h3⟩ }

theorem load_save_ok {p : Property} (h : Made p) : load (save p) = .ok ⟨kept p.d, infer none (kept p.d)⟩ := by
  rw [load_save, build_ok]
  exact ⟨kept_acceptable (made_acceptable h), rfl⟩

/-! ## C252 -/

/-- Every property can be saved and loaded again. -/
theorem C252_loads {p : Property} (h : Made p) : ∃ q, load (save p) = .ok q := ⟨_, load_save_ok h⟩

/-- A property whose selection and suggested values are not replaced by handlers comes back the same. -/
theorem C252_same {p : Property} (h : Made p) (h1 : p.d.onSelection = false) (h2 : p.d.onSuggested = false) :
    ∃ q, load (save p) = .ok q ∧ Same p.d q.d := by
  refine ⟨_, load_save_ok h, ?_⟩
  constructor <;> simp [kept, h1, h2]
  intro hv
  simp [hv]

theorem infer_kept {d : Def} (h1 : d.onSelection = false) (own : Owner) : infer own (kept d) = infer own d := by
  have hl : listKind (kept d) = listKind d := by
    unfold listKind kept
    by_cases hv : d.valueType = .int <;> simp [hv]
  have hs : (kept d).selection = d.selection := by simp [kept, h1]
  unfold infer
  rw [hs, hl]
  rfl

/-- It also has the same property type, before and after it gets an owner, if it was made by a builder. -/
theorem C252_type {d : Def} {p : Property} (h : build d = .ok p) (h1 : d.onSelection = false) :
    ∃ q, load (save p) = .ok q ∧ ∀ own, (getType own q).2 = (getType own p).2 := by
  obtain ⟨a, rfl⟩ := build_ok.mp h
  refine ⟨_, load_save_ok (.build h), fun own => ?_⟩
  change known own _ = known own _
  unfold known
  simp only [infer_kept h1]

/-- Loading twice gives the same as loading once. -/
theorem C252_again {p q : Property} (h : Made p) (hq : load (save p) = .ok q) : load (save q) = .ok q := by
  rw [load_save_ok h] at hq
  obtain rfl := Out.ok.inj hq
  rw [load_save_ok (.load (load_save_ok h))]
  have : kept (kept p.d) = kept p.d := by
    simp [kept]
    exact fun _ h => decide_eq_true h
  rw [this]

example : (load (save ⟨demoSparse, .sparseSelection⟩)) = .ok ⟨demoSparse, .sparseSelection⟩ := by decide +kernel
example : (load (save ⟨demoInt, .core .int⟩)) = .ok ⟨demoInt, .core .int⟩ := by decide +kernel

/-! ## C253 -/

/-- A selection with a handler for its values is loaded as an Int without selection values. -/
theorem C253_violation : ∃ d p q, build d = .ok p ∧ load (save p) = .ok q ∧ ¬ Same p.d q.d ∧
    (getType none p).2 = .indexSelection ∧ (getType none q).2 = .core .int :=
  ⟨{ demoIndex with onSelection := true }, _, _, rfl, rfl, fun h => absurd h.selection (by decide +kernel), rfl, rfl⟩

/-- The suggested values are lost as well. -/
theorem C253_violation_suggested : ∃ d p q, build d = .ok p ∧ load (save p) = .ok q ∧ p.d.suggested ≠ none ∧
    q.d.suggested = none :=
  ⟨{ demoInt with onSuggested := true }, _, _, rfl, rfl, nofun, rfl⟩

/-- Nothing else is lost. -/
theorem C253_rest_partial {p : Property} (h : Made p) : ∃ q, load (save p) = .ok q ∧
    Same { p.d with selection := none, suggested := none } { q.d with selection := none, suggested := none } ∧
    (p.d.onSelection = false → q.d.selection = p.d.selection) ∧ (p.d.onSuggested = false → q.d.suggested = p.d.suggested) := by
  refine ⟨_, load_save_ok h, ?_, fun h1 => by simp [kept, h1], fun h2 => by simp [kept, h2]⟩
  constructor <;> simp [kept]
  intro hv
  simp [hv]

/-! ## C254 -/

/-- Every property can be cloned; the clone has the same fields and handlers. -/
theorem C254_clone {p : Property} (h : Made p) : ∃ q, clone p = .ok q ∧ q.d = p.d :=
  ⟨_, build_ok.mpr ⟨made_acceptable h, rfl⟩, rfl⟩

/-- A property that was built, loaded or cloned equals its clone. -/
theorem C254_equal {d : Def} {p : Property} (h : build d = .ok p) : clone p = .ok p := by
  obtain ⟨a, rfl⟩ := build_ok.mp h
  exact h

/-- The type of a clone is that of the property, also for one made by a function, unless its selection values are an
expression or missing. -/
theorem C254_type {f : Factory} {name : Option String} {visible : Bool} {p : Property} (h : direct f name visible = .ok p)
    (hf : match f with
      | .selection s _ => ∃ e items, s = some (.plain (.list e items))
      | .sparse s _ => ∃ k e es, s = some (.plain (.dict k e es))
      | _ => True) : clone p = .ok p := by
  unfold clone
  refine build_ok.mpr ⟨direct_acceptable h, ?_⟩
  unfold direct at h
  obtain ⟨-, rfl⟩ := make_iff.mp h
  cases f with
  | selection s v => obtain ⟨e, l, rfl⟩ := hf; rfl
  | sparse s v => obtain ⟨k, e, l, rfl⟩ := hf; rfl
  | value t v => rfl
  | object v => rfl
  | reference e => rfl
  | function ret i => by_cases hr : ret = .undefined <;> simp [infer, Factory.start, Factory.kind, hr]

example : ∃ p, build demoEval = .ok p ∧ clone p = .ok p ∧ p.d.selection = some (.eval 5) := ⟨_, rfl, rfl, rfl⟩

end Verif.Defs
