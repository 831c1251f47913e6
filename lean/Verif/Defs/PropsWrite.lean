import Verif.Defs.PropsAccept
import Verif.Defs.PropsSave

/-!
# C250 and C255–C257: default values, kinds of selection, items of containers and limits
-/

namespace Verif.Defs
open Spec

theorem write_ok {conv : CT → Val → Option Val} {ev : Nat → Option Val} {p : Property} {v r : Val} :
    (write conv ev p v).2 = .ok r ↔ p.d.readOnly = false ∧ p.d.valueType ≠ .object ∧
      ∃ w, convert conv p.d v = some w ∧ checkItems (some ev) p w = .ok () ∧ checkSelected (some ev) p w = .ok () ∧
        r = clamp p.d w := by
  unfold write
  by_cases h : p.d.readOnly = true ∨ p.d.valueType = .object
  · rw [if_pos h]
    constructor
    · exact nofun
    · rintro ⟨h1, h2, -⟩
      rcases h with h | h
      · rw [h1] at h; cases h
      · exact absurd h h2
  · rw [if_neg h]
    have h1 : p.d.readOnly = false := by
      cases hr : p.d.readOnly
      · rfl
      · exact absurd (.inl hr) h
    have h2 : p.d.valueType ≠ .object := fun hv => h (.inr hv)
    cases hc : convert conv p.d v with
    | none => simp
    | some w =>
      dsimp only
      cases hi : checkItems (some ev) p w with
      | err e =>
        constructor
        · exact nofun
        · rintro ⟨_, _, w', hw, h', -⟩
          cases hw
          rw [hi] at h'
          cases h'
      | ok u =>
        dsimp only
        cases hs : checkSelected (some ev) p w with
        | err e =>
          constructor
          · exact nofun
          · rintro ⟨_, _, w', hw, -, h', -⟩
            cases hw
            rw [hs] at h'
            cases h'
        | ok u =>
          dsimp only
          constructor
          · intro h
            exact ⟨h1, h2, w, rfl, hi, hs, (Out.ok.inj h).symm⟩
          · rintro ⟨_, _, w', hw, -, -, rfl⟩
            cases hw
            rfl

/-! ## C250 -/

/-- A text as the default of an Int. -/
theorem C250_violation_type : ∃ d p v, build d = .ok p ∧ p.d.dflt = some v ∧ typeOfVal v ≠ p.d.valueType :=
  ⟨{ name := some "a", valueType := .int, dflt := some (.atom (.other .string 1)) }, _, _, rfl, rfl, by decide +kernel⟩

/-- A number as the default of a list. -/
theorem C250_violation_list : ∃ d p v, build d = .ok p ∧ p.d.dflt = some v ∧ p.d.valueType = .list ∧ typeOfVal v = .int :=
  ⟨{ name := some "a", valueType := .list, dflt := some (.atom (.int 1)) }, _, _, rfl, rfl, rfl, rfl⟩

/-- A default above the upper limit. -/
theorem C250_violation_limit : ∃ d p v, build d = .ok p ∧ p.d.dflt = some v ∧ ¬ DefaultFits p.d v ∧
    (write noConv noEval p v).2 ≠ .ok v :=
  ⟨{ demoInt with dflt := some (.atom (.int 100)) }, _, _, rfl, rfl,
    fun h => absurd ((h.limits _ rfl).2 _ rfl) (by unfold Le; decide), by decide +kernel⟩

/-- A default that is no index into the selection values; the same value is refused when it is written. -/
theorem C250_violation_selection : ∃ d p v, build d = .ok p ∧ p.d.dflt = some v ∧
    (write noConv noEval p v).2 = .err .notFound :=
  ⟨{ demoIndex with dflt := some (.atom (.int 2)) }, _, _, rfl, rfl, by decide +kernel⟩

theorem le_compare_lt {m a : Atom} (h : Le m a) : Defs.compare a m ≠ some .lt := by
  cases m with
  | int i =>
    cases a with
    | int j =>
      have h' : ¬ j < i := Int.not_lt.mpr h
      dsimp only [Defs.compare]
      rw [if_neg h']
      split <;> simp
    | float q =>
      have h' : ¬ q < (i : Rat) := Rat.not_lt.mpr h
      dsimp only [Defs.compare]
      rw [if_neg h']
      split <;> simp
    | other t n => exact h.elim
  | float q =>
    cases a with
    | int j =>
      have h' : q ≤ (j : Rat) := h
      have : ¬ j < trunc q := by
        unfold trunc
        split
        · have := Rat.floor_monotone h'
          rw [Rat.floor_intCast] at this
          omega
        · have : q.ceil ≤ j := Rat.ceil_le_iff.mpr h'
          omega
      dsimp only [Defs.compare]
      rw [if_neg this]
      split <;> simp
    | float r =>
      have h' : ¬ r < q := Rat.not_lt.mpr h
      dsimp only [Defs.compare]
      rw [if_neg h']
      split <;> simp
    | other t n => exact h.elim
  | other t n => cases a <;> exact h.elim

theorem le_compare_gt {m a : Atom} (h : Le a m) : Defs.compare a m ≠ some .gt := by
  cases m with
  | int i =>
    cases a with
    | int j =>
      have h' : ¬ i < j := Int.not_lt.mpr h
      dsimp only [Defs.compare]
      rw [if_neg h']
      split <;> simp
    | float q =>
      have h' : ¬ (i : Rat) < q := Rat.not_lt.mpr h
      dsimp only [Defs.compare]
      rw [if_neg h']
      split <;> simp
    | other t n => exact h.elim
  | float q =>
    cases a with
    | int j =>
      have h' : (j : Rat) ≤ q := h
      have : ¬ trunc q < j := by
        unfold trunc
        split
        · have := Rat.le_floor_iff.mpr h'
          omega
        · intro hlt
          have h1 : q ≤ ((j - 1 : Int) : Rat) := Rat.ceil_le_iff.mp (by omega)
          have h2 := Rat.floor_monotone (Rat.le_trans h' h1)
          rw [Rat.floor_intCast, Rat.floor_intCast] at h2
          omega
      dsimp only [Defs.compare]
      rw [if_neg this]
      split <;> simp
    | float r =>
      have h' : ¬ q < r := Rat.not_lt.mpr h
      dsimp only [Defs.compare]
      rw [if_neg h']
      split <;> simp
    | other t n => exact h.elim
  | other t n => cases a <;> exact h.elim

/-- A value within the limits is left alone. -/
theorem clamp_within {d : Def} {v : Val} (h : ∀ a, v = .atom a → Within d a) : clamp d v = v := by
  cases v with
  | list e l => cases hm : d.min <;> cases hx : d.max <;> simp [clamp, atLeast, atMost, hm, hx]
  | dict k e l => cases hm : d.min <;> cases hx : d.max <;> simp [clamp, atLeast, atMost, hm, hx]
  | atom a =>
    obtain ⟨h1, h2⟩ := h a rfl
    have hl : atLeast d.min (.atom a) = .atom a := by
      cases hm : d.min with
      | none => rfl
      | some m =>
        dsimp only [atLeast]
        rw [if_neg (le_compare_lt (h1 m hm))]
    unfold clamp
    rw [hl]
    cases hm : d.max with
    | none => rfl
    | some m =>
      dsimp only [atMost]
      rw [if_neg (le_compare_gt (h2 m hm))]

theorem selects_of {t : PT} {s v : Val} (h : Selected t s v) : selects t s v = true := by
  rcases h with ⟨rfl, e, l, i, rfl, rfl, h1, h2⟩ | ⟨rfl, e, l, a, rfl, rfl, h⟩ | ⟨rfl, k, e, es, a, rfl, rfl, h⟩
  · simp [selects, h1, h2]
  · simp [selects, h]
  · simp only [selects, List.contains_iff_mem]
    exact h

theorem selected_of {t : PT} {s v : Val} (h : selects t s v = true) : Selected t s v := by
  unfold selects at h
  split at h
  · simp at h
    exact .inl ⟨rfl, _, _, _, rfl, rfl, h.1, h.2⟩
  · exact .inr (.inl ⟨rfl, _, _, _, rfl, rfl, by simpa using h⟩)
  · exact .inr (.inr ⟨rfl, _, _, _, _, rfl, rfl, List.contains_iff_mem.mp h⟩)
  · cases h

theorem known_type {own : Owner} {d : Def} (hs : PlainSel d) : TypeIs d (known own ⟨d, infer none d⟩) := by
  rw [known_infer]
  split
  · exact infer_type hs
  · exact infer_type hs

/-- The container rules also accept the default as a written value. -/
theorem default_items {own : Owner} {d : Def} {v : Val} (a : Acceptable d) (hr : d.ref = none) (hs : d.selection = none)
    (hv : d.dflt = some v) (ht : typeOfVal v = d.valueType) : checkItems own ⟨d, infer none d⟩ v = .ok () := by
  have hi := infer_none_plain hs hr
  have hkn : known own ⟨d, infer none d⟩ = .core d.valueType := by
    rw [known_infer, hi]
    split
    · unfold infer; simp [hs, hr]
    · rfl
  have hit : itemType own ⟨d, infer none d⟩ = some v.item := by
    unfold itemType selVal
    simp [hkn, hr, hs, hv]
  have hkt : keyType ⟨d, infer none d⟩ = some v.keyTy := by
    unfold keyType
    simp [hr, hv]
  cases v with
  | atom x => rfl
  | list e l =>
    have hu := (a.list ht.symm _ hv).1 _ _ rfl
    have := found_ok.mpr hu
    rw [item_list] at hit
    dsimp only [checkItems]
    rw [hit]
    dsimp only
    rw [if_neg]
    rintro ⟨h1, h2⟩
    rw [this.2 h1] at h2
    cases h2
  | dict k e es =>
    obtain ⟨k', e', es', h, hk, he⟩ := a.dict ht.symm _ hv
    cases h
    dsimp only [checkItems]
    rw [hit, hkt]
    simp only [item_dict, key_dict]
    rw [(found_all.mpr hk).2, (found_all.mpr he).2]
    rfl

/-- A default value that fits can be written and is stored as it is. -/
theorem C250_rewrite_partial {d : Def} {p : Property} {v : Val} (h : build d = .ok p) (hv : p.d.dflt = some v)
    (hf : DefaultFits p.d v) (hs : PlainSel d) (h1 : p.d.readOnly = false) (h2 : p.d.valueType ≠ .object)
    (conv : CT → Val → Option Val) (ev : Nat → Option Val) : (write conv ev p v).2 = .ok v := by
  obtain ⟨a, rfl⟩ := build_ok.mp h
  refine write_ok.mpr ⟨h1, h2, v, ?_, ?_, ?_, (clamp_within hf.limits).symm⟩
  · unfold convert
    rw [if_pos (by rw [vty_eq]; exact hf.type)]
  · have hr : d.ref = none := by
      by_cases hr : d.ref = none
      · exact hr
      · have := a.noDefault (.inr (.inr hr))
        rw [this] at hv
        cases hv
    by_cases hsel : d.selection = none
    · exact default_items a hr hsel hv hf.type
    · have ht := a.selection hsel
      cases v with
      | atom x => rfl
      | list e l => rw [← hf.type] at ht; simp [typeOfVal] at ht
      | dict k e l => rw [← hf.type] at ht; simp [typeOfVal] at ht
  · unfold checkSelected selVal
    cases hsel : d.selection with
    | none => rfl
    | some s =>
      cases s with
      | eval e => exact absurd hsel (hs e)
      | plain s =>
        dsimp only
        rw [if_pos (selects_of (hf.selected s _ hsel (known_type hs)))]

/-- The default of a dictionary, and of a list if it is a list, has items of one simple type. -/
theorem C250_items_partial {p : Property} {v : Val} (h : Made p) (hv : p.d.dflt = some v) :
    (p.d.valueType = .dict → ∃ k e es, v = .dict k e es ∧ Uniform k (es.map (·.1)) ∧ Uniform e (es.map (·.2))) ∧
    (p.d.valueType = .list → ∀ e items, v = .list e items → Uniform e items) :=
  ⟨fun ht => (made_acceptable h).dict ht v hv, fun ht => ((made_acceptable h).list ht v hv).1⟩

example : ∃ p, build demoInt = .ok p ∧ (write noConv noEval p (.atom (.int 3))).2 = .ok (.atom (.int 3)) :=
  ⟨_, rfl, by decide +kernel⟩
example : DefaultFits demoIndex (.atom (.int 1)) where
  type := rfl
  limits := fun _ _ => ⟨nofun, nofun⟩
  selected := fun s t hs ht => by
    obtain rfl : demoNames = s := by simpa [demoIndex] using hs
    have : t = .indexSelection := (ht.1 demoNames rfl).2.1 (by decide) rfl rfl
    exact .inl ⟨this, _, _, 1, rfl, rfl, by decide, by decide⟩

/-! ## C255 -/

/-- An owner whose expression yields a list, and later a dictionary. -/
def evList : Nat → Option Val := fun _ => some demoNames
def evDict : Nat → Option Val := fun _ => some (.dict .int .string [(.int 7, .other .string 1)])

/-- Once the type has been asked for it does not follow the expression any more: the key of the dictionary is refused,
although it is accepted if the type was not asked for before. -/
theorem C255_violation : ∃ d p, build d = .ok p ∧
    (getType (some evDict) p).2 = .sparseSelection ∧
    (getType (some evDict) (getType (some evList) p).1).2 = .indexSelection ∧
    (write noConv evDict p (.atom (.int 7))).2 = .ok (.atom (.int 7)) ∧
    (write noConv evDict (getType (some evList) p).1 (.atom (.int 7))).2 = .err .notFound :=
  ⟨demoEval, _, rfl, by decide +kernel, by decide +kernel, by decide +kernel, by decide +kernel⟩

/-- A selection made by `SelectionProperty` with an expression stays a selection by index, while the one of a builder follows
the expression. -/
theorem C255_violation_direct : ∃ p q, direct (.selection (some (.eval 5)) (some (.atom (.int 1)))) (some "a") true = .ok p ∧
    build demoEval = .ok q ∧ p.d = q.d ∧ (getType (some evDict) p).2 = .indexSelection ∧
    (getType (some evDict) q).2 = .sparseSelection :=
  ⟨_, _, rfl, rfl, rfl, by decide +kernel, by decide +kernel⟩

/-- Without an expression the type is always the right one, whatever was asked and written before. -/
theorem C255_plain_partial {d : Def} {p : Property} (h : build d = .ok p) (hs : PlainSel d) (own own' : Owner) :
    TypeIs d (getType own' (getType own p).1).2 := by
  obtain ⟨a, rfl⟩ := build_ok.mp h
  change TypeIs d (known own' ⟨d, known own ⟨d, infer none d⟩⟩)
  unfold known
  dsimp only
  repeat' split
  all_goals exact infer_type hs

/-- With an expression the first answer after the owner is known is right: it is the type for the current values. -/
theorem C255_first_partial {d : Def} {p : Property} {e : Nat} {v : Val} (h : build d = .ok p) (hs : d.selection = some (.eval e))
    (ev : Nat → Option Val) (he : ev e = some v) (hv : typeOfVal v = .list ∨ typeOfVal v = .dict) :
    TypeIs { d with selection := some (.plain v) } (getType (some ev) p).2 := by
  obtain ⟨a, rfl⟩ := build_ok.mp h
  have h1 : infer none d = .core .undefined := by unfold infer; simp [hs]
  have h2 : infer (some ev) d = infer none { d with selection := some (.plain v) } := by
    unfold infer
    rw [hs]
    simp only [he, vty_eq]
    rcases hv with hv | hv <;> simp [hv, listKind]
  change TypeIs _ (known _ _)
  rw [known_infer, if_pos h1, h2]
  exact infer_type (by intro e' h'; cases h')

/-! ## C256 -/

theorem write_err {conv : CT → Val → Option Val} {ev : Nat → Option Val} {p : Property} {v w : Val} {x : Err}
    (h1 : p.d.readOnly = false) (h2 : p.d.valueType ≠ .object) (hc : convert conv p.d v = some w)
    (hi : checkItems (some ev) p w = .err x) : (write conv ev p v).2 = .err x := by
  unfold write
  rw [if_neg (by simp [h1, h2]), hc]
  dsimp only
  rw [hi]

/-- A dictionary property whose default is empty and says nothing about types accepts no dictionary but an empty one. -/
theorem C256_violation_dict : ∃ p, build demoDict = .ok p ∧ ∀ conv ev k e es, es ≠ [] →
    (write conv ev p (.dict k e es)).2 = .err .invalidType := by
  refine ⟨_, rfl, fun conv ev k e es hes => ?_⟩
  cases es with
  | nil => exact absurd rfl hes
  | cons x es =>
    have hx : (x.1.ty == CT.undefined) = false := by simpa using ty_ne_undefined x.1
    have hc : checkItems (some ev) ⟨demoDict, infer none demoDict⟩ (.dict k e (x :: es)) = .err .invalidType := by
      change (if !allTy .undefined (x.1 :: es.map (·.1)) then Out.err Err.invalidType else _) = _
      rw [if_pos (by simp [allTy, hx])]
    exact write_err (w := .dict k e (x :: es)) rfl (by decide) rfl hc

/-- A list property whose default is empty and says nothing about types accepts lists of objects, functions and lists. -/
theorem C256_violation_list : ∃ p, build demoList = .ok p ∧
    (write noConv noEval p (.list .undefined [.other .object 1, .other .func 2, .other .list 3])).2 =
      .ok (.list .undefined [.other .object 1, .other .func 2, .other .list 3]) :=
  ⟨_, rfl, by decide +kernel⟩

/-- What is stored for a list property has items of the type of the default, if that type is declared or the default is not
empty. -/
theorem C256_list_partial {d : Def} {p : Property} {e : CT} {l : List Atom} (h : build d = .ok p)
    (ht : d.valueType = .list) (hd : d.dflt = some (.list e l)) (hn : e ≠ .undefined ∨ l ≠ [])
    {conv : CT → Val → Option Val} {ev : Nat → Option Val} {v : Val} {e' : CT} {r : List Atom}
    (hw : (write conv ev p v).2 = .ok (.list e' r)) :
    ∃ t, Simple t ∧ (e ≠ .undefined → e = t) ∧ (∀ a ∈ l, typeOf a = t) ∧ ∀ a ∈ r, typeOf a = t := by
  obtain ⟨a, rfl⟩ := build_ok.mp h
  obtain ⟨-, -, w, -, hi, -, hr⟩ := write_ok.mp hw
  have hm : d.min = none := by
    by_cases hm : d.min = none
    · exact hm
    · have := a.limits (.inl hm); rw [ht] at this; simp at this
  have hx : d.max = none := by
    by_cases hx : d.max = none
    · exact hx
    · have := a.limits (.inr hx); rw [ht] at this; simp at this
  have hcl : clamp d w = w := by cases w <;> simp [clamp, atLeast, atMost, hm, hx]
  change _ = clamp d w at hr
  rw [hcl] at hr
  subst hr
  have hrf : d.ref = none := by
    by_cases hr : d.ref = none
    · exact hr
    · have := a.noDefault (.inr (.inr hr)); rw [this] at hd; cases hd
  have hs : d.selection = none := by
    by_cases hs : d.selection = none
    · exact hs
    · have := a.selection hs; rw [ht] at this; simp at this
  have hkn : known (some ev) ⟨d, infer none d⟩ = .core .list := by
    rw [known_infer, infer_none_plain hs hrf, ht]; rfl
  have hit : itemType (some ev) ⟨d, infer none d⟩ = some (found e l) := by
    unfold itemType selVal
    simp [hkn, hrf, hs, hd, item_list]
  dsimp only [checkItems] at hi
  rw [hit] at hi
  dsimp only at hi
  have hu := found_ok.mpr ((a.list ht _ hd).1 _ _ rfl)
  have hne : found e l ≠ .undefined := by
    intro h
    rcases hn with hn | hn
    · unfold found at h
      rw [if_neg hn] at h
      exact hn h
    · exact hn (found_undefined h)
  have hall : allTy (found e l) r = true := by
    by_cases hb : allTy (found e l) r = true
    · exact hb
    · rw [if_pos ⟨hne, by simpa using hb⟩] at hi
      cases hi
  rcases banned_iff.mp hu.1 with hsi | hsi
  · refine ⟨found e l, hsi, ?_, allTy_iff.mp (hu.2 hne), allTy_iff.mp hall⟩
    intro he
    unfold found
    rw [if_neg he]
  · exact absurd hsi hne

example : ∃ p, build demoFloats = .ok p ∧
    (write noConv noEval p (.list .undefined [.float 2, .float 3])).2 = .ok (.list .undefined [.float 2, .float 3]) ∧
    (write noConv noEval p (.list .undefined [.int 2])).2 = .err .invalidType :=
  ⟨_, rfl, by decide +kernel, by decide +kernel⟩

/-- What is stored for a dictionary property has keys and values of the types of the default. -/
theorem C256_dict_partial {d : Def} {p : Property} {k e : CT} {l : List (Atom × Atom)} (h : build d = .ok p)
    (ht : d.valueType = .dict) (hd : d.dflt = some (.dict k e l)) (hl : l ≠ [])
    {conv : CT → Val → Option Val} {ev : Nat → Option Val} {v : Val} {k' e' : CT} {r : List (Atom × Atom)}
    (hw : (write conv ev p v).2 = .ok (.dict k' e' r)) :
    ∃ tk te, Simple tk ∧ Simple te ∧ (∀ x ∈ l, typeOf x.1 = tk ∧ typeOf x.2 = te) ∧
      ∀ x ∈ r, typeOf x.1 = tk ∧ typeOf x.2 = te := by
  obtain ⟨a, rfl⟩ := build_ok.mp h
  obtain ⟨-, -, w, -, hi, -, hr⟩ := write_ok.mp hw
  have hm : d.min = none := by
    by_cases hm : d.min = none
    · exact hm
    · have := a.limits (.inl hm); rw [ht] at this; simp at this
  have hx : d.max = none := by
    by_cases hx : d.max = none
    · exact hx
    · have := a.limits (.inr hx); rw [ht] at this; simp at this
  have hcl : clamp d w = w := by cases w <;> simp [clamp, atLeast, atMost, hm, hx]
  change _ = clamp d w at hr
  rw [hcl] at hr
  subst hr
  have hrf : d.ref = none := by
    by_cases hr : d.ref = none
    · exact hr
    · have := a.noDefault (.inr (.inr hr)); rw [this] at hd; cases hd
  have hs : d.selection = none := by
    by_cases hs : d.selection = none
    · exact hs
    · have := a.selection hs; rw [ht] at this; simp at this
  have hkn : known (some ev) ⟨d, infer none d⟩ = .core .dict := by
    rw [known_infer, infer_none_plain hs hrf, ht]; rfl
  have hit : itemType (some ev) ⟨d, infer none d⟩ = some (found e (l.map (·.2))) := by
    unfold itemType selVal
    simp [hkn, hrf, hs, hd, item_dict]
  have hkt : keyType ⟨d, infer none d⟩ = some (found k (l.map (·.1))) := by
    unfold keyType
    simp [hrf, hd, key_dict]
  obtain ⟨k1, e1, l1, h1, huk, hue⟩ := a.dict ht _ hd
  cases h1
  have hfk := found_all.mpr huk
  have hfe := found_all.mpr hue
  dsimp only [checkItems] at hi
  rw [hkt, hit] at hi
  dsimp only at hi
  by_cases hbk : allTy (found k (l.map (·.1))) (r.map (·.1)) = true
  · by_cases hbe : allTy (found e (l.map (·.2))) (r.map (·.2)) = true
    · have nk : found k (l.map (·.1)) ≠ .undefined := fun h => hl (by simpa using found_undefined h)
      have ne : found e (l.map (·.2)) ≠ .undefined := fun h => hl (by simpa using found_undefined h)
      have sk := (banned_iff.mp hfk.1).resolve_right nk
      have se := (banned_iff.mp hfe.1).resolve_right ne
      refine ⟨_, _, sk, se, fun x hx => ⟨?_, ?_⟩, fun x hx => ⟨?_, ?_⟩⟩
      · exact allTy_iff.mp hfk.2 _ (List.mem_map_of_mem hx)
      · exact allTy_iff.mp hfe.2 _ (List.mem_map_of_mem hx)
      · exact allTy_iff.mp hbk _ (List.mem_map_of_mem hx)
      · exact allTy_iff.mp hbe _ (List.mem_map_of_mem hx)
    · simp [hbk, hbe] at hi
  · simp [hbk] at hi

/-! ## C258 -/

/-- What is stored for a property with selection values is one of them: a key, an index or an item. -/
theorem C258_selected {d : Def} {p : Property} {s : Val} (h : build d = .ok p) (hs : d.selection = some (.plain s))
    {conv : CT → Val → Option Val} {ev : Nat → Option Val} {v r : Val} (hm : d.min = none) (hx : d.max = none)
    (hw : (write conv ev p v).2 = .ok r) (t : PT) (ht : TypeIs d t) : Selected t s r := by
  obtain ⟨a, rfl⟩ := build_ok.mp h
  obtain ⟨-, -, w, -, -, hsel, hr⟩ := write_ok.mp hw
  have hcl : clamp d w = w := by cases w <;> simp [clamp, atLeast, atMost, hm, hx]
  change _ = clamp d w at hr
  rw [hcl] at hr
  subst hr
  have hps : PlainSel d := fun e he => by rw [hs] at he; cases he
  have hk : known (some ev) ⟨d, infer none d⟩ = t := by
    have h1 := (known_type (own := some ev) hps).1 s hs
    have h2 := ht.1 s hs
    by_cases hv : typeOfVal s = .dict
    · rw [h1.1 hv, h2.1 hv]
    · by_cases hi : d.valueType = .int ∧ d.intSel = false
      · rw [h1.2.1 hv hi.1 hi.2, h2.2.1 hv hi.1 hi.2]
      · have : d.valueType ≠ .int ∨ d.intSel = true := by
          by_cases h : d.valueType = .int
          · right
            cases hb : d.intSel
            · exact absurd ⟨h, hb⟩ hi
            · rfl
          · exact .inl h
        rw [h1.2.2 hv this, h2.2.2 hv this]
  unfold checkSelected selVal at hsel
  rw [hs] at hsel
  dsimp only at hsel
  rw [hk] at hsel
  by_cases hb : selects t s r = true
  · exact selected_of hb
  · rw [if_neg hb] at hsel
    cases hsel

example : ∃ p, build demoSparse = .ok p ∧ (write noConv noEval p (.atom (.int 8))).2 = .ok (.atom (.int 8)) ∧
    (write noConv noEval p (.atom (.int 4))).2 = .err .notFound := ⟨_, rfl, by decide +kernel, by decide +kernel⟩

/-! ## C257 -/

/-- A Float limit of an Int property: a lower value is replaced by the Float, and a value less than one below it is kept. -/
theorem C257_violation_type : ∃ d p, build d = .ok p ∧ d.valueType = .int ∧ d.min = some (.float (5/2)) ∧
    (write noConv noEval p (.atom (.int 1))).2 = .ok (.atom (.float (5/2))) ∧
    (write noConv noEval p (.atom (.int 2))).2 = .ok (.atom (.int 2)) ∧ ¬ Le (.float (5/2)) (.int 2) :=
  ⟨{ demoInt with min := some (.float (5/2)) }, _, rfl, rfl, rfl, by decide +kernel, by decide +kernel,
    by simp only [Le]; decide +kernel⟩

/-- A lower limit above the upper one is accepted, and everything is stored as the upper limit. -/
theorem C257_violation_order : ∃ d p, build d = .ok p ∧ d.min = some (.int 5) ∧ d.max = some (.int 3) ∧
    ∀ conv ev i, (write conv ev p (.atom (.int i))).2 = .ok (.atom (.int 3)) := by
  refine ⟨{ demoInt with min := some (.int 5), max := some (.int 3) }, _, rfl, rfl, rfl, fun conv ev i => ?_⟩
  refine write_ok.mpr ⟨rfl, by decide, .atom (.int i), rfl, rfl, rfl, ?_⟩
  change _ = atMost (some (.int 3)) (if Defs.compare (.int i) (.int 5) = some .lt then .atom (.int 5) else .atom (.int i))
  by_cases h : i < 5
  · rw [if_pos (by dsimp only [Defs.compare]; rw [if_pos h])]
    decide +kernel
  · rw [if_neg (by dsimp only [Defs.compare]; rw [if_neg h]; split <;> simp)]
    dsimp only [atMost]
    rw [if_pos]
    dsimp only [Defs.compare]
    rw [if_neg (by omega), if_pos (by omega)]

/-- The limits can lead out of the selection values. -/
theorem C257_violation_selection : ∃ d p s, build d = .ok p ∧ d.selection = some (.plain s) ∧ TypeIs d .sparseSelection ∧
    (write noConv noEval p (.atom (.int 8))).2 = .ok (.atom (.int 5)) ∧ ¬ Selected .sparseSelection s (.atom (.int 5)) := by
  refine ⟨{ demoSparse with max := some (.int 5) }, _, _, rfl, rfl,
    infer_type (own := none) (by intro e h; cases h), by decide +kernel, ?_⟩
  rintro (⟨h, -⟩ | ⟨h, -⟩ | ⟨-, k, e, es, a, h, h', hm⟩)
  · cases h
  · cases h
  · cases h
    cases h'
    simp at hm

/-- With limits of the type of the property, in order, what is stored is within the limits. -/
theorem C257_int_partial {p : Property} {lo hi : Int} (ht : p.d.valueType = .int)
    (hm : p.d.min = some (.int lo)) (hx : p.d.max = some (.int hi)) (hle : lo ≤ hi)
    {conv : CT → Val → Option Val} (hc : ∀ v w, conv .int v = some w → ∃ i, w = .atom (.int i))
    {ev : Nat → Option Val} {v r : Val} (hv : typeOfVal v = .int → ∃ i, v = .atom (.int i)) (hw : (write conv ev p v).2 = .ok r) :
    ∃ i, r = .atom (.int i) ∧ lo ≤ i ∧ i ≤ hi ∧ ∀ j, v = .atom (.int j) → lo ≤ j → j ≤ hi → i = j := by
  obtain ⟨-, -, w, hcv, -, -, rfl⟩ := write_ok.mp hw
  have hw' : (∃ i, w = .atom (.int i)) ∧ ∀ j, v = .atom (.int j) → w = v := by
    unfold convert at hcv
    by_cases hv' : v.ty = p.d.valueType
    · rw [if_pos hv'] at hcv
      cases hcv
      exact ⟨hv (by rw [← vty_eq, hv', ht]), fun _ _ => rfl⟩
    · rw [if_neg hv', ht] at hcv
      exact ⟨hc _ _ hcv, fun j h => absurd (by rw [h, ht]; rfl) hv'⟩
  obtain ⟨⟨i, rfl⟩, hw2⟩ := hw'
  unfold clamp
  rw [hm, hx]
  by_cases h1 : i < lo
  · have e1 : atLeast (some (.int lo)) (.atom (.int i)) = .atom (.int lo) := by
      dsimp only [atLeast]
      rw [if_pos (by dsimp only [Defs.compare]; rw [if_pos h1])]
    have e2 : atMost (some (.int hi)) (.atom (.int lo)) = .atom (.int lo) := by
      dsimp only [atMost]
      rw [if_neg (le_compare_gt (m := .int hi) (a := .int lo) hle)]
    rw [e1, e2]
    refine ⟨lo, rfl, by omega, hle, fun j hj h2 h3 => ?_⟩
    have := hw2 j hj
    rw [hj] at this
    cases this
    omega
  · have e1 : atLeast (some (.int lo)) (.atom (.int i)) = .atom (.int i) := by
      dsimp only [atLeast]
      rw [if_neg (le_compare_lt (m := .int lo) (a := .int i) (Int.not_lt.mp h1))]
    rw [e1]
    by_cases h2 : hi < i
    · have e2 : atMost (some (.int hi)) (.atom (.int i)) = .atom (.int hi) := by
        dsimp only [atMost]
        rw [if_pos (by dsimp only [Defs.compare]; rw [if_neg (by omega), if_pos h2])]
      rw [e2]
      refine ⟨hi, rfl, hle, by omega, fun j hj h3 h4 => ?_⟩
      have := hw2 j hj
      rw [hj] at this
      cases this
      omega
    · have e2 : atMost (some (.int hi)) (.atom (.int i)) = .atom (.int i) := by
        dsimp only [atMost]
        rw [if_neg (le_compare_gt (m := .int hi) (a := .int i) (Int.not_lt.mp h2))]
      rw [e2]
      refine ⟨i, rfl, by omega, by omega, fun j hj _ _ => ?_⟩
      have := hw2 j hj
      rw [hj] at this
      cases this
      rfl

/-- Any value of the right type that is within the limits and accepted otherwise is stored as it is. -/
theorem C257_within_partial {p : Property} {conv : CT → Val → Option Val} {ev : Nat → Option Val} {a : Atom} {r : Val}
    (ht : typeOf a = p.d.valueType) (hi : Within p.d a) (hw : (write conv ev p (.atom a)).2 = .ok r) : r = .atom a := by
  obtain ⟨-, -, w, hcv, -, -, rfl⟩ := write_ok.mp hw
  unfold convert at hcv
  rw [if_pos (by rw [vty_eq]; exact ht)] at hcv
  cases hcv
  exact clamp_within fun b hb => by cases hb; exact hi

example : ∃ p, build demoInt = .ok p ∧ (write noConv noEval p (.atom (.int 30))).2 = .ok (.atom (.int 9)) ∧
    (write noConv noEval p (.atom (.int (-1)))).2 = .ok (.atom (.int 0)) := ⟨_, rfl, by decide +kernel, by decide +kernel⟩

end Verif.Defs
