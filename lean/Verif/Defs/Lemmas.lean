import Verif.Defs.Spec

/-!
# Lemmas about checking property definitions
-/

namespace Verif.Defs
open Spec

theorem ty_eq (a : Atom) : a.ty = typeOf a := by
  cases a with
  | int i => rfl
  | float q => rfl
  | other t n => cases t <;> rfl

theorem vty_eq (v : Val) : v.ty = typeOfVal v := by
  cases v with
  | atom a => exact ty_eq a
  | list e l => rfl
  | dict k e l => rfl

theorem ty_ne_undefined (a : Atom) : a.ty ≠ .undefined := by
  cases a with
  | int i => exact nofun
  | float q => exact nofun
  | other t n => cases t <;> exact nofun

theorem allTy_iff {t : CT} {l : List Atom} : allTy t l = true ↔ ∀ a ∈ l, typeOf a = t := by
  simp [allTy, List.all_eq_true, ty_eq]

theorem banned_iff {t : CT} : banned t = false ↔ (Simple t ∨ t = .undefined) := by
  cases t <;> simp [banned, Simple]

/-- The type of the items as found in a container. -/
def found (e : CT) (l : List Atom) : CT := if e = .undefined then (l.head?.map Atom.ty).getD .undefined else e

theorem item_list (e : CT) (l : List Atom) : (Val.list e l).item = found e l := rfl

theorem item_dict (k e : CT) (l : List (Atom × Atom)) : (Val.dict k e l).item = found e (l.map (·.2)) := by
  cases l <;> rfl

theorem key_dict (k e : CT) (l : List (Atom × Atom)) : (Val.dict k e l).keyTy = found k (l.map (·.1)) := by
  cases l <;> rfl

/-- The check of the found type is the rule. -/
theorem found_ok {e : CT} {l : List Atom} :
    (banned (found e l) = false ∧ (found e l ≠ .undefined → allTy (found e l) l = true)) ↔ Uniform e l := by
  rw [banned_iff, allTy_iff]
  unfold found
  constructor
  · intro ⟨h1, h2⟩
    by_cases he : e = .undefined
    · cases l with
      | nil => exact ⟨.int, by simp [Simple], fun h => absurd he h, nofun⟩
      | cons a l =>
        have hg : (if e = CT.undefined then ((a :: l).head?.map Atom.ty).getD .undefined else e) = a.ty := by
          simp [he]
        rw [hg] at h1 h2
        have hn := ty_ne_undefined a
        rcases h1 with h1 | h1
        · exact ⟨a.ty, h1, fun h => absurd he h, h2 hn⟩
        · exact absurd h1 hn
    · simp only [he, if_false] at h1 h2
      rcases h1 with h1 | h1
      · exact ⟨e, h1, fun _ => rfl, h2 he⟩
      · exact h1.elim
  · rintro ⟨t, ht, hd, hall⟩
    by_cases he : e = .undefined
    · cases l with
      | nil => subst he; exact ⟨Or.inr rfl, fun h => absurd rfl h⟩
      | cons a l =>
        have hg : (if e = CT.undefined then ((a :: l).head?.map Atom.ty).getD .undefined else e) = t := by
          simp [he, ty_eq, hall a (by simp)]
        rw [hg]
        exact ⟨Or.inl ht, fun _ => hall⟩
    · obtain rfl := hd he
      simp only [he, if_false]
      exact ⟨Or.inl ht, fun _ => hall⟩

/-- For an unknown type of an empty container the check of all items holds anyway. -/
theorem found_undefined {e : CT} {l : List Atom} (h : found e l = .undefined) : l = [] := by
  cases l with
  | nil => rfl
  | cons a l =>
    unfold found at h
    split at h
    · exact absurd h (ty_ne_undefined a)
    · contradiction

theorem found_all {e : CT} {l : List Atom} :
    (banned (found e l) = false ∧ allTy (found e l) l = true) ↔ Uniform e l := by
  rw [← found_ok]
  constructor
  · exact fun ⟨a, b⟩ => ⟨a, fun _ => b⟩
  · intro ⟨a, b⟩
    refine ⟨a, ?_⟩
    by_cases h : found e l = .undefined
    · rw [found_undefined h]; rfl
    · exact b h

/-- What `validate` checks, one by one. -/
theorem validate_iff {p : Property} : validate p = .ok () ↔
    (p.d.name ≠ none ∧ p.d.name ≠ some unassigned) ∧ checkPresence p.d = true ∧ checkFields p.d = true ∧
      checkRef p.d = .ok () ∧ checkSelection p.kind p.d = true ∧ checkContainer p = .ok () ∧ checkStruct p.d = true := by
  unfold validate
  by_cases h1 : p.d.name = none ∨ p.d.name = some unassigned
  · rw [if_pos h1]
    constructor
    · exact nofun
    · rintro ⟨⟨a, b⟩, -⟩
      rcases h1 with h1 | h1
      · exact absurd h1 a
      · exact absurd h1 b
  · rw [if_neg h1]
    have h1' : p.d.name ≠ none ∧ p.d.name ≠ some unassigned := ⟨fun h => h1 (.inl h), fun h => h1 (.inr h)⟩
    by_cases h2 : checkPresence p.d = true <;> by_cases h3 : checkFields p.d = true <;> simp [h2, h3, h1']
    cases h4 : checkRef p.d with
    | err e => simp
    | ok u =>
      by_cases h5 : checkSelection p.kind p.d = true <;> simp [h5]
      cases h6 : checkContainer p with
      | err e => simp
      | ok u => simp

theorem make_iff {p q : Property} : make p = .ok q ↔ validate p = .ok () ∧ q = p := by
  unfold make
  cases h : validate p with
  | ok u => simp [eq_comm]
  | err e => simp

theorem build_iff {d : Def} {q : Property} :
    build d = .ok q ↔ validate ⟨d, infer none d⟩ = .ok () ∧ q = ⟨d, infer none d⟩ := make_iff

theorem checkPresence_iff {d : Def} : checkPresence d = true ↔
    (d.valueType = .func ∨ d.valueType = .proc ∨ d.ref ≠ none → d.dflt = none) ∧
      (d.valueType ≠ .func → d.valueType ≠ .proc → d.ref = none → d.dflt ≠ none) := by
  unfold checkPresence
  cases hr : d.ref <;> cases hd : d.dflt <;> by_cases h1 : d.valueType = .func <;> by_cases h2 : d.valueType = .proc <;>
    simp [h1, h2]

theorem checkFields_iff {d : Def} : checkFields d = true ↔
    (d.valueType = .object →
      d.selection = none ∧ d.suggested = none ∧ d.coercer = none ∧ d.validator = none ∧ d.unit = none) ∧
    (d.min ≠ none ∨ d.max ≠ none → d.valueType = .int ∨ d.valueType = .float) ∧
    (d.callable ≠ none → d.valueType = .proc ∨ d.valueType = .func) := by
  unfold checkFields
  cases d.selection <;> cases d.suggested <;> cases d.coercer <;> cases d.validator <;> cases d.unit <;> cases d.min <;>
    cases d.max <;> cases d.callable <;> simp [and_assoc]

theorem checkRef_iff {d : Def} : checkRef d = .ok () ↔
    (d.ref ≠ none → ((d.valueType = .undefined ∧ d.description = none) ∨ d.description = some "") ∧ d.readOnly = false ∧
      d.selection = none ∧ d.suggested = none ∧ d.coercer = none ∧ d.validator = none) := by
  unfold checkRef
  cases hr : d.ref with
  | none => simp
  | some r =>
    cases hd : d.description with
    | none =>
      by_cases hv : d.valueType = .undefined
      · simp only [Option.isNone_some, Bool.false_eq_true, if_false, hv, if_true]
        cases d.readOnly <;> cases d.selection <;> cases d.suggested <;> cases d.coercer <;> cases d.validator <;> simp
      · simp [hv]
    | some t =>
      by_cases ht : t = ""
      · simp only [Option.isNone_some, Bool.false_eq_true, if_false, ht, true_and]
        cases d.readOnly <;> cases d.selection <;> cases d.suggested <;> cases d.coercer <;> cases d.validator <;> simp
      · simp [ht]

theorem checkStruct_iff {d : Def} : checkStruct d = true ↔
    (d.valueType = .struct ∨ d.valueType = .enumeration →
      (d.selection = none ∧ d.suggested = none ∧ d.coercer = none ∧ d.validator = none ∧ d.unit = none) ∧
        d.max = none ∧ d.min = none ∧ d.callable = none) := by
  unfold checkStruct
  by_cases h1 : d.valueType = .struct <;> by_cases h2 : d.valueType = .enumeration <;>
    cases d.selection <;> cases d.suggested <;> cases d.coercer <;> cases d.validator <;> cases d.unit <;> cases d.min <;>
    cases d.max <;> cases d.callable <;> simp [h1, h2]

theorem checkSelection_iff {d : Def} : checkSelection (infer none d) d = true ↔
    (d.selection ≠ none → d.valueType = .int ∨ d.valueType = .float ∨ d.valueType = .string) ∧
    (∀ v, d.selection = some (.plain v) → typeOfVal v = .dict → d.valueType = .int) ∧
    (d.suggested ≠ none → d.valueType = .int ∨ d.valueType = .float ∨ d.valueType = .string) := by
  unfold checkSelection infer
  cases hs : d.selection with
  | none => cases d.suggested <;> simp [or_assoc]
  | some s =>
    cases s with
    | eval e => cases d.suggested <;> by_cases h1 : d.valueType = .int <;> by_cases h2 : d.valueType = .float <;>
        by_cases h3 : d.valueType = .string <;> simp [h1, h2, h3]
    | plain v =>
      by_cases hv : typeOfVal v = .dict
      · cases d.suggested <;> by_cases h1 : d.valueType = .int <;> by_cases h2 : d.valueType = .float <;>
          by_cases h3 : d.valueType = .string <;> simp [h1, h2, h3, hv, vty_eq]
      · have : ¬ v.ty = .dict := by rw [vty_eq]; exact hv
        simp only [this, if_false, listKind]
        cases d.suggested <;> by_cases h1 : d.valueType = .int <;> cases h0 : d.intSel <;>
          by_cases h2 : d.valueType = .float <;> by_cases h3 : d.valueType = .string <;> simp [h1, h2, h3, hv]

/-- The container rules, for a property whose kind says nothing about a selection or a reference. -/
theorem checkContainer_iff {d : Def} {k : PT} (hs : d.selection = none) (hr : d.ref = none)
    (hk : known none ⟨d, k⟩ ≠ .selection) (hk' : known none ⟨d, k⟩ ≠ .reference) : checkContainer ⟨d, k⟩ = .ok () ↔
    (d.valueType = .dict → ∀ v, d.dflt = some v →
      ∃ k e es, v = .dict k e es ∧ Uniform k (es.map (·.1)) ∧ Uniform e (es.map (·.2))) ∧
    (d.valueType = .list → ∀ v, d.dflt = some v →
      (∀ e items, v = .list e items → Uniform e items) ∧ (∀ k e es, v = .dict k e es → es = [] ∧ Uniform e [])) := by
  have hit : itemType none ⟨d, k⟩ = some (match d.dflt with | some v => v.item | none => .undefined) := by
    unfold itemType selVal
    simp only [hk, hk', hr, hs]
    cases d.dflt <;> simp
  have hkt : keyType ⟨d, k⟩ = some (match d.dflt with | some v => v.keyTy | none => .undefined) := by
    unfold keyType
    simp only [hr]
    cases d.dflt <;> simp
  unfold checkContainer checkDefault
  simp only [hit, hkt, Option.getD_some]
  cases hd : d.dflt with
  | none => by_cases h1 : d.valueType = .dict <;> by_cases h2 : d.valueType = .list <;> simp [h1, h2, banned]
  | some v =>
    by_cases h1 : d.valueType = .dict
    · simp only [h1, reduceCtorEq, or_true, if_true, forall_const, Option.some.injEq, forall_eq', false_implies, and_true]
      cases v with
      | atom a => simp [Val.item, Val.keyTy, banned]
      | list e l =>
        simp only [reduceCtorEq, false_and, exists_const, iff_false]
        split <;> simp
      | dict kk e es =>
        have hu : (∃ k' e' es', Val.dict kk e es = Val.dict k' e' es' ∧ Uniform k' (es'.map (·.1)) ∧
            Uniform e' (es'.map (·.2))) ↔ Uniform kk (es.map (·.1)) ∧ Uniform e (es.map (·.2)) := by
          constructor
          · rintro ⟨_, _, _, h, h'⟩
            cases h
            exact h'
          · exact fun h => ⟨_, _, _, rfl, h⟩
        rw [hu, ← found_all, ← found_all]
        simp only [item_dict, key_dict]
        cases banned (found e (es.map (·.2))) <;> cases banned (found kk (es.map (·.1))) <;>
          cases allTy (found kk (es.map (·.1))) (es.map (·.1)) <;> cases allTy (found e (es.map (·.2))) (es.map (·.2)) <;>
          simp
    · by_cases h2 : d.valueType = .list
      · simp only [h2, reduceCtorEq, or_false, if_true, if_false, forall_const, Option.some.injEq, forall_eq', false_implies,
          true_and]
        cases v with
        | atom a => simp [Val.item, banned]
        | list e l =>
          have hu : ((∀ e' l', Val.list e l = Val.list e' l' → Uniform e' l') ∧
              (∀ k' e' es, Val.list e l = Val.dict k' e' es → es = [] ∧ Uniform e' [])) ↔ Uniform e l := by
            constructor
            · exact fun h => h.1 _ _ rfl
            · intro h
              refine ⟨?_, nofun⟩
              rintro _ _ h'
              cases h'
              exact h
          rw [hu, ← found_ok]
          simp only [item_list]
          have hb : banned CT.undefined = false := rfl
          by_cases h3 : banned (found e l) = true <;> by_cases h4 : allTy (found e l) l = true <;>
            by_cases h5 : found e l = .undefined <;> simp [h3, h4, h5, hb]
        | dict kk e es =>
          have hu : ((∀ e' l', Val.dict kk e es = Val.list e' l' → Uniform e' l') ∧
              (∀ k' e' es', Val.dict kk e es = Val.dict k' e' es' → es' = [] ∧ Uniform e' [])) ↔
                es = [] ∧ Uniform e [] := by
            constructor
            · exact fun h => h.2 _ _ _ rfl
            · intro h
              refine ⟨nofun, ?_⟩
              rintro _ _ _ h'
              cases h'
              exact h
          rw [hu]
          simp only [item_dict]
          cases es with
          | nil =>
            rw [← found_ok]
            have hb : banned CT.undefined = false := rfl
            by_cases h3 : banned (found e []) = true <;> simp [h3, hb, allTy]
          | cons x es =>
            have hne : found e ((x :: es).map (·.2)) ≠ .undefined := by
              intro h
              have := found_undefined h
              simp at this
            cases hb : banned (found e ((x :: es).map (·.2))) with
            | true => simp
            | false =>
              have hl : found e ((x :: es).map (·.2)) ≠ .list := by
                intro h
                rw [h] at hb
                simp [banned] at hb
              simp at hne hl
              simp [hne, hl, banned]
      · simp [h1, h2]

theorem infer_none_plain {d : Def} (hs : d.selection = none) (hr : d.ref = none) : infer none d = .core d.valueType := by
  unfold infer
  simp [hs, hr]

theorem known_infer {own : Owner} {d : Def} : known own ⟨d, infer none d⟩ =
    if infer none d = .core .undefined then infer own d else infer none d := rfl

/-- With a reference and without a default the container rules hold. -/
theorem checkContainer_ref {d : Def} {k : PT} (hr : d.ref ≠ none) (hd : d.dflt = none) (hs : d.selection = none) :
    checkContainer ⟨d, k⟩ = .ok () := by
  obtain ⟨r, hr⟩ := Option.ne_none_iff_exists'.mp hr
  have hit : (itemType none ⟨d, k⟩).getD .undefined = .undefined := by
    unfold itemType
    split
    · rfl
    · simp [hr]
  have hkt : keyType ⟨d, k⟩ = none := by
    unfold keyType
    simp [hr]
  unfold checkContainer checkDefault
  simp only [hit, hkt, hd]
  cases d.valueType <;> simp [banned]

/-- The checks of a builder are the rules. -/
theorem validate_build {d : Def} : validate ⟨d, infer none d⟩ = .ok () ↔ Acceptable d := by
  rw [validate_iff]
  simp only [checkPresence_iff, checkFields_iff, checkRef_iff, checkSelection_iff, checkStruct_iff]
  have cont : ∀ (h1 : d.valueType = .func ∨ d.valueType = .proc ∨ d.ref ≠ none → d.dflt = none)
      (h2 : d.ref ≠ none → d.selection = none)
      (h3 : d.selection ≠ none → d.valueType = .int ∨ d.valueType = .float ∨ d.valueType = .string),
      checkContainer ⟨d, infer none d⟩ = .ok () ↔
    (d.valueType = .dict → ∀ v, d.dflt = some v →
      ∃ k e es, v = .dict k e es ∧ Uniform k (es.map (·.1)) ∧ Uniform e (es.map (·.2))) ∧
    (d.valueType = .list → ∀ v, d.dflt = some v →
      (∀ e items, v = .list e items → Uniform e items) ∧ (∀ k e es, v = .dict k e es → es = [] ∧ Uniform e [])) := by
    intro h1 h2 h3
    by_cases hr : d.ref = none
    · by_cases hs : d.selection = none
      · have hi := infer_none_plain hs hr
        have hkn : known none ⟨d, infer none d⟩ = .core d.valueType := by
          rw [known_infer, hi]; split <;> rfl
        exact checkContainer_iff hs hr (by rw [hkn]; exact nofun) (by rw [hkn]; exact nofun)
      · have := h3 hs
        unfold checkContainer
        rcases this with h | h | h <;> simp [h]
    · have hd := h1 (.inr (.inr hr))
      rw [checkContainer_ref hr hd (h2 hr)]
      simp [hd]
  constructor
  · rintro ⟨⟨n1, n2⟩, ⟨p1, p2⟩, ⟨f1, f2, f3⟩, r, ⟨s1, s2, s3⟩, c, st⟩
    obtain ⟨n, hn⟩ := Option.ne_none_iff_exists'.mp n1
    have hc := (cont p1 (fun h => (r h).2.2.1) s1).mp c
    exact { named := ⟨n, hn, fun h => n2 (by rw [hn, h]; rfl)⟩, noDefault := p1, hasDefault := p2, object := f1, limits := f2,
            callable := f3, reference := r, selection := s1, sparse := s2, suggested := s3, dict := hc.1, list := hc.2,
            struct := fun h => (st h).1 }
  · intro a
    obtain ⟨n, hn, hn'⟩ := a.named
    refine ⟨⟨by simp [hn], ?_⟩, ⟨a.noDefault, a.hasDefault⟩, ⟨a.object, a.limits, a.callable⟩, a.reference,
      ⟨a.selection, a.sparse, a.suggested⟩, (cont a.noDefault (fun h => (a.reference h).2.2.1) a.selection).mpr
        ⟨a.dict, a.list⟩, fun h => ⟨a.struct h, ?_, ?_, ?_⟩⟩
    · rw [hn]
      intro h
      exact hn' (Option.some.inj h)
    · by_cases hm : d.max = none
      · exact hm
      · have := a.limits (.inr hm)
        rcases h with h | h <;> rw [h] at this <;> simp at this
    · by_cases hm : d.min = none
      · exact hm
      · have := a.limits (.inl hm)
        rcases h with h | h <;> rw [h] at this <;> simp at this
    · by_cases hm : d.callable = none
      · exact hm
      · have := a.callable hm
        rcases h with h | h <;> rw [h] at this <;> simp at this

theorem build_ok {d : Def} {q : Property} : build d = .ok q ↔ Acceptable d ∧ q = ⟨d, infer none d⟩ := by
  rw [build_iff, validate_build]

end Verif.Defs
