import Verif.Defs.Made
import Verif.Defs.Demo

/-!
# C248–C251: which definitions are accepted
-/

namespace Verif.Defs
open Spec

/-! ## C248 -/

/-- A builder yields a property exactly if the definition follows the rules. -/
theorem C248_exact (d : Def) : (∃ p, build d = .ok p) ↔ Acceptable d := by
  constructor
  · rintro ⟨p, h⟩
    exact (build_ok.mp h).1
  · exact fun h => ⟨_, build_ok.mpr ⟨h, rfl⟩⟩

/-- The property has the fields that were given to the builder. -/
theorem C248_fields {d : Def} {p : Property} (h : build d = .ok p) : p.d = d := by
  rw [(build_ok.mp h).2]

theorem infer_type {own : Owner} {d : Def} (h : PlainSel d) : TypeIs d (infer own d) := by
  unfold TypeIs infer
  cases hs : d.selection with
  | none =>
    refine ⟨nofun, fun _ hr => ?_, fun _ hr => ?_⟩
    · obtain ⟨r, hr⟩ := Option.ne_none_iff_exists'.mp hr
      simp [hr]
    · simp [hr]
  | some s =>
    cases s with
    | eval e => exact absurd hs (h e)
    | plain v =>
      refine ⟨?_, nofun, nofun⟩
      intro w hw
      obtain rfl : v = w := by simpa using hw
      refine ⟨fun hv => ?_, fun hv hi hn => ?_, fun hv hi => ?_⟩
      · simp [vty_eq, hv]
      · simp [vty_eq, hv, listKind, hi, hn]
      · simp only [vty_eq, hv, if_false, listKind]
        rw [if_neg]
        rintro ⟨a, b⟩
        rcases hi with hi | hi
        · exact hi a
        · rw [hi] at b; exact absurd b (by simp)

/-- Its property type follows from the fields. -/
theorem C248_type {d : Def} {p : Property} (h : build d = .ok p) (hs : PlainSel d) (own : Owner) :
    TypeIs d (getType own p).2 := by
  rw [(build_ok.mp h).2]
  change TypeIs d (known own ⟨d, infer none d⟩)
  rw [known_infer]
  split
  · exact infer_type hs
  · exact infer_type hs

/-- Whatever way a property came into being, its definition follows the rules. -/
theorem C248_made {p : Property} (h : Made p) : Acceptable p.d := made_acceptable h

/-- An Int with limits, a unit and suggested values, a selection by key and a list are accepted; a Ratio with a limit, an
object with a unit and a list of objects are not. -/
example : build demoInt = .ok ⟨demoInt, .core .int⟩ := by decide +kernel
example : build demoSparse = .ok ⟨demoSparse, .sparseSelection⟩ := by decide +kernel
example : ∃ p, build { name := some "a", valueType := .list, dflt := some (.list .undefined [.float 1, .float 2]) } =
    .ok p ∧ p.kind = .core .list := ⟨_, rfl, by decide +kernel⟩
example : build { name := some "a", valueType := .ratio, dflt := some (.atom (.other .ratio 1)), min := some (.int 0) } =
    .err .invalidState := by decide +kernel
example : build { name := some "a", valueType := .object, dflt := some emptyObject, unit := some 1 } =
    .err .invalidState := by decide +kernel
example : build { name := some "a", valueType := .list, dflt := some (.list .undefined [.other .object 1]) } =
    .err .invalidState := by decide +kernel
example : build { name := some "a", valueType := .list, dflt := some (.list .undefined [.int 1, .float 1]) } =
    .err .invalidType := by decide +kernel
example : build { name := some "opendaq_unassigned", valueType := .int, dflt := some (.atom (.int 3)) } =
    .err .invalidState := by decide +kernel

/-! ## C249 -/

/-- The intended rule for references: nothing but a name, flags and the reference. -/
def ReferenceBare (d : Def) : Prop :=
  d.ref ≠ none → d.valueType = .undefined ∧ d.dflt = none ∧ d.min = none ∧ d.max = none ∧ d.callable = none ∧
    d.selection = none ∧ d.suggested = none ∧ d.coercer = none ∧ d.validator = none ∧ d.readOnly = false

/-- With an empty description a reference may have a value type and limits. -/
theorem C249_violation : ∃ d p, build d = .ok p ∧ ¬ ReferenceBare p.d :=
  ⟨{ name := some "a", ref := some 1, description := some "", valueType := .int, min := some (.int 3) },
    _, rfl, fun h => absurd (h nofun).1 nofun⟩

/-- With an empty description a reference may pass for a function. -/
theorem C249_violation_function : ∃ d p, build d = .ok p ∧ p.d.ref ≠ none ∧ p.d.callable ≠ none ∧ p.d.valueType = .func :=
  ⟨{ name := some "a", ref := some 1, description := some "", valueType := .func, callable := some 1 },
    _, rfl, nofun, nofun, rfl⟩

/-- Without a description the rule holds. -/
theorem C249_undescribed_partial {p : Property} (h : Made p) (hd : p.d.description = none) : ReferenceBare p.d := by
  intro hr
  have a := made_acceptable h
  obtain ⟨h1, h2, h3, h4, h5, h6⟩ := a.reference hr
  have hv : p.d.valueType = .undefined := by
    rcases h1 with h1 | h1
    · exact h1.1
    · rw [hd] at h1; cases h1
  refine ⟨hv, a.noDefault (.inr (.inr hr)), ?_, ?_, ?_, h3, h4, h5, h6, h2⟩
  · by_cases hm : p.d.min = none
    · exact hm
    · have := a.limits (.inl hm); rw [hv] at this; simp at this
  · by_cases hm : p.d.max = none
    · exact hm
    · have := a.limits (.inr hm); rw [hv] at this; simp at this
  · by_cases hm : p.d.callable = none
    · exact hm
    · have := a.callable hm; rw [hv] at this; simp at this

/-- A reference with a description other than the empty one is not accepted. -/
theorem C249_described_partial {p : Property} (h : Made p) (hr : p.d.ref ≠ none) :
    p.d.description = none ∨ p.d.description = some "" :=
  (((made_acceptable h).reference hr).1).imp (·.2) id

example : ∃ p, build { name := some "a", ref := some 1 } = .ok p ∧ p.kind = .reference := ⟨_, rfl, rfl⟩

/-! ## C251: the functions and the builders -/

/-- The selection values given to the functions are a list and a dictionary. -/
def Plain : Factory → Prop
  | .selection s _ => ∃ e items, s = some (.plain (.list e items))
  | .sparse s _ => ∃ k e es, s = some (.plain (.dict k e es))
  | _ => True

/-- A function that makes a property and the builder for that type give the same property. -/
theorem C251_agree (f : Factory) (h : Plain f) (name : Option String) (visible : Bool) :
    direct f name visible = build { f.start name with
      visible := match f with | .object _ => true | .reference _ => true | _ => visible } := by
  unfold direct build
  refine congrArg make ?_
  cases f with
  | selection s v => obtain ⟨e, l, rfl⟩ := h; rfl
  | sparse s v => obtain ⟨k, e, l, rfl⟩ := h; rfl
  | value t v => rfl
  | object v => rfl
  | reference e => rfl
  | function ret i =>
    by_cases hr : ret = .undefined <;> simp [infer, Factory.start, Factory.kind, Factory.shown, hr]

/-- Such a property has the given name, default value, selection values, reference and callable info, the type of the
function, and nothing else. -/
theorem C251_fields {f : Factory} {name : Option String} {visible : Bool} {p : Property}
    (h : direct f name visible = .ok p) : p.d.name = name ∧ p.d.description = none ∧ p.d.unit = none ∧ p.d.min = none ∧
      p.d.max = none ∧ p.d.readOnly = false ∧ p.d.suggested = none ∧ p.d.coercer = none ∧ p.d.validator = none ∧
      (match f with
       | .value t v => p.d.valueType = t ∧ p.d.dflt = v ∧ p.d.selection = none ∧ p.d.ref = none ∧ p.d.callable = none ∧
          p.d.visible = visible
       | .object v => p.d.valueType = .object ∧ (∀ o, v = some o → p.d.dflt = some o) ∧ p.d.dflt ≠ none ∧
          p.d.selection = none ∧ p.d.ref = none ∧ p.d.callable = none ∧ p.d.visible = true
       | .function ret i => (ret = .undefined → p.d.valueType = .proc) ∧ (ret ≠ .undefined → p.d.valueType = .func) ∧
          p.d.dflt = none ∧ p.d.selection = none ∧ p.d.ref = none ∧ p.d.callable = some i ∧ p.d.visible = visible
       | .reference e => p.d.valueType = .undefined ∧ p.d.dflt = none ∧ p.d.selection = none ∧ p.d.ref = some e ∧
          p.d.callable = none ∧ p.d.visible = true
       | .selection s v => p.d.valueType = .int ∧ p.d.dflt = v ∧ p.d.selection = s ∧ p.d.ref = none ∧
          p.d.callable = none ∧ p.d.visible = visible
       | .sparse s v => p.d.valueType = .int ∧ p.d.dflt = v ∧ p.d.selection = s ∧ p.d.ref = none ∧
          p.d.callable = none ∧ p.d.visible = visible) := by
  unfold direct at h
  obtain ⟨-, rfl⟩ := make_iff.mp h
  cases f with
  | object v => cases v <;> simp [Factory.start, Factory.shown]
  | function ret i => by_cases hr : ret = .undefined <;> simp [Factory.start, Factory.shown, hr]
  | _ => simp [Factory.start, Factory.shown]

/-- For every combination of types such a function accepts: a name and, where needed, a default. -/
theorem C251_accepts {f : Factory} {n : String} {visible : Bool} (hn : n ≠ "opendaq_unassigned")
    (h : match f with
      | .value t v => (t = .bool ∨ t = .int ∨ t = .float ∨ t = .string ∨ t = .ratio ∨ t = .struct ∨ t = .enumeration) ∧
          v ≠ none
      | .selection s v => (∃ e items, s = some (.plain (.list e items))) ∧ v ≠ none
      | .sparse s v => (∃ k e es, s = some (.plain (.dict k e es))) ∧ v ≠ none
      | _ => True) : ∃ p, direct f (some n) visible = .ok p := by
  have hp : Plain f := by
    cases f with
    | selection s v => exact h.1
    | sparse s v => exact h.1
    | _ => trivial
  rw [C251_agree f hp]
  refine (C248_exact _).mpr ?_
  cases f with
  | value t v =>
    dsimp only at h
    obtain ⟨ht, hv⟩ := h
    rcases ht with rfl | rfl | rfl | rfl | rfl | rfl | rfl <;>
      exact { named := ⟨n, rfl, hn⟩, noDefault := by simp [Factory.start], hasDefault := fun _ _ _ => hv
              object := by simp [Factory.start], limits := by simp [Factory.start], callable := by simp [Factory.start]
              reference := by simp [Factory.start], selection := by simp [Factory.start], sparse := by simp [Factory.start]
              suggested := by simp [Factory.start], dict := by simp [Factory.start], list := by simp [Factory.start]
              struct := by simp [Factory.start] }
  | selection s v =>
    dsimp only at h
    obtain ⟨ht, hv⟩ := h
    exact { named := ⟨n, rfl, hn⟩, noDefault := by simp [Factory.start], hasDefault := fun _ _ _ => hv
            object := by simp [Factory.start], limits := by simp [Factory.start], callable := by simp [Factory.start]
            reference := by simp [Factory.start], selection := by simp [Factory.start], sparse := by simp [Factory.start]
            suggested := by simp [Factory.start], dict := by simp [Factory.start], list := by simp [Factory.start]
            struct := by simp [Factory.start] }
  | sparse s v =>
    dsimp only at h
    obtain ⟨ht, hv⟩ := h
    exact { named := ⟨n, rfl, hn⟩, noDefault := by simp [Factory.start], hasDefault := fun _ _ _ => hv
            object := by simp [Factory.start], limits := by simp [Factory.start], callable := by simp [Factory.start]
            reference := by simp [Factory.start], selection := by simp [Factory.start], sparse := by simp [Factory.start]
            suggested := by simp [Factory.start], dict := by simp [Factory.start], list := by simp [Factory.start]
            struct := by simp [Factory.start] }
  | object v =>
    exact { named := ⟨n, rfl, hn⟩, noDefault := by simp [Factory.start], hasDefault := fun _ _ _ => nofun
            object := by simp [Factory.start], limits := by simp [Factory.start], callable := by simp [Factory.start]
            reference := by simp [Factory.start], selection := by simp [Factory.start], sparse := by simp [Factory.start]
            suggested := by simp [Factory.start], dict := by simp [Factory.start], list := by simp [Factory.start]
            struct := by simp [Factory.start] }
  | reference e =>
    exact { named := ⟨n, rfl, hn⟩, noDefault := by simp [Factory.start], hasDefault := fun _ _ h => nomatch h
            object := by simp [Factory.start], limits := by simp [Factory.start], callable := by simp [Factory.start]
            reference := by simp [Factory.start], selection := by simp [Factory.start], sparse := by simp [Factory.start]
            suggested := by simp [Factory.start], dict := by simp [Factory.start], list := by simp [Factory.start]
            struct := by simp [Factory.start] }
  | function ret i =>
    by_cases hr : ret = .undefined <;>
      exact { named := ⟨n, rfl, hn⟩, noDefault := by simp [Factory.start], hasDefault := by simp [Factory.start, hr]
              object := by simp [Factory.start, hr], limits := by simp [Factory.start]
              callable := by simp [Factory.start, hr], reference := by simp [Factory.start]
              selection := by simp [Factory.start], sparse := by simp [Factory.start]
              suggested := by simp [Factory.start], dict := by simp [Factory.start, hr]
              list := by simp [Factory.start, hr], struct := by simp [Factory.start] }

example : direct (.selection (some (.plain demoNames)) (some (.atom (.int 1)))) (some "a") false =
    .ok ⟨{ demoIndex with visible := false }, .indexSelection⟩ := by decide +kernel

end Verif.Defs
