import Verif.Defs.Lemmas

/-!
# Properties that can come into being
-/

namespace Verif.Defs
open Spec

/-- All ways to get a property: building it, one of the functions, loading a document, cloning another; asking for the type
and writing a value may settle the type of a property that has an owner. -/
inductive Made : Property → Prop where
  | build {d p} : build d = .ok p → Made p
  | direct {f name visible p} : direct f name visible = .ok p → Made p
  | load {c p} : load c = .ok p → Made p
  | clone {p q} : Made p → clone p = .ok q → Made q
  | type {p own} : Made p → Made (getType own p).1
  | write {p conv ev v} : Made p → Made (write conv ev p v).1

/-- The checks of a property of type Int do not depend on its kind, apart from the selection. -/
theorem acceptable_of_int {d : Def} {k : PT} (hv : d.valueType = .int) (h : validate ⟨d, k⟩ = .ok ()) : Acceptable d := by
  rw [validate_iff] at h
  simp only [checkPresence_iff, checkFields_iff, checkRef_iff, checkStruct_iff] at h
  obtain ⟨⟨n1, n2⟩, ⟨p1, p2⟩, ⟨f1, f2, f3⟩, r, s, c, st⟩ := h
  obtain ⟨n, hn⟩ := Option.ne_none_iff_exists'.mp n1
  have nl : d.valueType ≠ .list := by rw [hv]; exact nofun
  have nd : d.valueType ≠ .dict := by rw [hv]; exact nofun
  exact { named := ⟨n, hn, fun h => n2 (by rw [hn, h]; rfl)⟩, noDefault := p1, hasDefault := p2, object := f1, limits := f2,
          callable := f3, reference := r, selection := fun _ => .inl hv, sparse := fun _ _ _ => hv,
          suggested := fun _ => .inl hv, dict := fun h => absurd h nd, list := fun h => absurd h nl,
          struct := fun h => (st h).1 }

theorem direct_acceptable {f : Factory} {name : Option String} {visible : Bool} {p : Property}
    (h : direct f name visible = .ok p) : Acceptable p.d := by
  unfold direct at h
  obtain ⟨hv, rfl⟩ := make_iff.mp h
  clear h
  cases f with
  | selection s v => exact acceptable_of_int rfl hv
  | sparse s v => exact acceptable_of_int rfl hv
  | value t v => exact validate_build.mp hv
  | object v => exact validate_build.mp hv
  | reference e => exact validate_build.mp hv
  | function ret i =>
    refine validate_build.mp (.trans (congrArg validate ?_) hv)
    by_cases hr : ret = .undefined <;> simp [infer, Factory.start, Factory.kind, hr]

theorem made_acceptable {p : Property} (h : Made p) : Acceptable p.d := by
  induction h with
  | build h => rw [build_ok] at h; rw [h.2]; exact h.1
  | direct h => exact direct_acceptable h
  | load h => unfold Defs.load at h; rw [build_ok] at h; rw [h.2]; exact h.1
  | clone _ h ih => unfold Defs.clone at h; rw [build_ok] at h; rw [h.2]; exact h.1
  | type _ ih => exact ih
  | @write p conv ev v _ ih =>
    have : (Defs.write conv ev p v).1.d = p.d := by
      unfold Defs.write
      dsimp only
      repeat' split
      all_goals rfl
    rw [this]
    exact ih

end Verif.Defs
