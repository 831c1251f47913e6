import Verif.Info.Demo

/-!
# Lemmas about property objects
-/

namespace Verif.Info

theorem get_append (m : AList String Field) (n k : String) (f : Field) :
    AList.get (m ++ [(k, f)]) n = match m.get n with
      | some g => some g
      | none => if n = k then some f else none := by
  induction m with
  | nil => simp only [List.nil_append, AList.get_cons, AList.get_nil]
  | cons e m ih =>
    obtain ⟨a, g⟩ := e
    simp only [List.cons_append, AList.get_cons]
    by_cases h : n = a
    · simp only [if_pos h]
    · simp only [if_neg h, ih]

theorem read_of {o : Obj} {n : String} {f : Field} (h : o.props.get n = some f) :
    o.read n = .ok ((o.vals.get n).getD f.dflt) := by
  simp only [Obj.read, h]

theorem store_props (o : Obj) (n : String) (d v : Val) : (o.store n d v).props = o.props := by
  unfold Obj.store
  by_cases h : o.vals.has n = true
  · rw [if_pos h]
  · rw [if_neg h]
    by_cases h1 : d = v
    · rw [if_pos h1]
    · rw [if_neg h1]

theorem store_frozen (o : Obj) (n : String) (d v : Val) : (o.store n d v).frozen = o.frozen := by
  unfold Obj.store
  by_cases h : o.vals.has n = true
  · rw [if_pos h]
  · rw [if_neg h]
    by_cases h1 : d = v
    · rw [if_pos h1]
    · rw [if_neg h1]

theorem store_getD (o : Obj) (n : String) (d v : Val) : ((o.store n d v).vals.get n).getD d = v := by
  unfold Obj.store
  by_cases h : o.vals.has n = true
  · rw [if_pos h]
    simp only [AList.get_put, if_true, Option.getD_some]
  · rw [if_neg h]
    have h0 : o.vals.get n = none := by
      cases hg : o.vals.get n with
      | none => rfl
      | some x => exact absurd ((AList.has_iff _ _).2 ⟨x, hg⟩) h
    by_cases h1 : d = v
    · rw [if_pos h1, h0]
      exact h1
    · rw [if_neg h1]
      simp only [AList.get_put, if_true, Option.getD_some]

theorem store_other (o : Obj) (n m : String) (d v : Val) (hm : m ≠ n) : (o.store n d v).vals.get m = o.vals.get m := by
  unfold Obj.store
  by_cases h : o.vals.has n = true
  · rw [if_pos h]
    simp only [AList.get_put, if_neg hm]
  · rw [if_neg h]
    by_cases h1 : d = v
    · rw [if_pos h1]
    · rw [if_neg h1]
      simp only [AList.get_put, if_neg hm]

/-- What a successful write does. -/
theorem write_ok {o o' : Obj} {p : Bool} {n : String} {v : Val} (h : o.write p n v = .ok o') :
    ∃ f, o.props.get n = some f ∧ o.frozen = false ∧ o' = o.store n f.dflt v ∧ ¬(p = false ∧ (f.readOnly = true ∨ f.ty = .object)) := by
  unfold Obj.write at h
  by_cases hf : o.frozen = true
  · rw [if_pos hf] at h
    cases h
  rw [if_neg hf] at h
  cases hg : o.props.get n with
  | none => simp only [hg] at h; cases h
  | some f =>
    simp only [hg] at h
    by_cases hr : p = false ∧ (f.readOnly = true ∨ f.ty = .object)
    · rw [if_pos hr] at h
      cases h
    · rw [if_neg hr] at h
      cases h
      exact ⟨f, rfl, by simpa using hf, rfl, hr⟩

theorem write_of {o : Obj} {p : Bool} {n : String} {v : Val} {f : Field} (hg : o.props.get n = some f) (hf : o.frozen = false)
    (hr : p = false → f.readOnly = false ∧ f.ty ≠ .object) : o.write p n v = .ok (o.store n f.dflt v) := by
  unfold Obj.write
  rw [if_neg (by simp [hf])]
  simp only [hg]
  refine if_neg fun ⟨a, b⟩ => ?_
  obtain ⟨h1, h2⟩ := hr a
  cases b with
  | inl b => rw [h1] at b; cases b
  | inr b => exact h2 b

theorem write_props {o o' : Obj} {p : Bool} {n : String} {v : Val} (h : o.write p n v = .ok o') : o'.props = o.props := by
  obtain ⟨f, _, _, rfl, _⟩ := write_ok h
  exact store_props ..

theorem write_frozen {o o' : Obj} {p : Bool} {n : String} {v : Val} (h : o.write p n v = .ok o') : o'.frozen = o.frozen := by
  obtain ⟨f, _, _, rfl, _⟩ := write_ok h
  exact store_frozen ..

theorem write_read {o o' : Obj} {p : Bool} {n : String} {v : Val} (h : o.write p n v = .ok o') : o'.read n = .ok v := by
  obtain ⟨f, hg, _, rfl, _⟩ := write_ok h
  have hg' : (o.store n f.dflt v).props.get n = some f := by rw [store_props]; exact hg
  rw [read_of hg', store_getD]

theorem write_other {o o' : Obj} {p : Bool} {n m : String} {v : Val} (h : o.write p n v = .ok o') (hm : m ≠ n) :
    o'.read m = o.read m := by
  obtain ⟨f, hg, _, rfl, _⟩ := write_ok h
  simp only [Obj.read, store_props, store_other _ _ _ _ _ hm]

/-- What a successful clear does. -/
theorem clear_ok {o o' : Obj} {p : Bool} {n : String} (h : o.clear p n = .ok o') :
    ∃ f, o.props.get n = some f ∧ o.frozen = false ∧ o' = { o with vals := o.vals.del n } ∧ ¬(p = false ∧ f.readOnly = true) := by
  unfold Obj.clear at h
  by_cases hf : o.frozen = true
  · rw [if_pos hf] at h
    cases h
  rw [if_neg hf] at h
  cases hg : o.props.get n with
  | none => simp only [hg] at h; cases h
  | some f =>
    simp only [hg] at h
    by_cases hr : p = false ∧ f.readOnly = true
    · rw [if_pos hr] at h
      cases h
    · rw [if_neg hr] at h
      cases h
      exact ⟨f, rfl, by simpa using hf, rfl, hr⟩

theorem clear_of {o : Obj} {p : Bool} {n : String} {f : Field} (hg : o.props.get n = some f) (hf : o.frozen = false)
    (hr : p = false → f.readOnly = false) : o.clear p n = .ok { o with vals := o.vals.del n } := by
  unfold Obj.clear
  rw [if_neg (by simp [hf])]
  simp only [hg]
  refine if_neg fun ⟨a, b⟩ => ?_
  rw [hr a] at b
  cases b

theorem addProp_ok {o o' : Obj} {n : String} {f : Field} (h : o.addProp n f = .ok o') :
    o.props.get n = none ∧ o.frozen = false ∧ o' = { o with props := o.props ++ [(n, f)] } := by
  unfold Obj.addProp at h
  by_cases hf : o.frozen = true
  · rw [if_pos hf] at h
    cases h
  rw [if_neg hf] at h
  by_cases hn : o.props.has n = true
  · rw [if_pos hn] at h
    cases h
  · rw [if_neg hn] at h
    cases h
    refine ⟨?_, by simpa using hf, rfl⟩
    cases hg : o.props.get n with
    | none => rfl
    | some x => exact absurd ((AList.has_iff _ _).2 ⟨x, hg⟩) hn

theorem addField_ok {o o' : Obj} {n : String} {f : Field} (h : addField o n f = .ok o') :
    f.ty.code ≤ 3 ∧ f.selects = false ∧ o.addProp n f = .ok o' := by
  unfold addField at h
  by_cases h1 : f.ty.code > 3
  · rw [if_pos h1] at h
    cases h
  rw [if_neg h1] at h
  by_cases h2 : f.selects = true
  · rw [if_pos h2] at h
    cases h
  rw [if_neg h2] at h
  exact ⟨by omega, by simpa using h2, h⟩

theorem code_le (t : Ty) : t.code ≤ 3 ↔ t = .bool ∨ t = .int ∨ t = .float ∨ t = .string := by
  cases t <;> simp [Ty.code]

/-! ## Fields of the information -/

theorem owned_plain {w : World} {n : String} (h : shared n = false) : owned w n = .ok false := by
  unfold owned
  rw [if_neg (by simp [h])]

theorem owned_shared {w : World} {n : String} {f : Field} (h : shared n = true) (hg : w.info.props.get n = some f) :
    owned w n = .ok (!f.readOnly && w.attached) := by
  unfold owned
  rw [if_pos h]
  simp only [hg]

/-- What a successful `set` does. -/
theorem set_ok {w w' : World} {p : Bool} {n : String} {v : Val} (h : set w p n v = .ok w') :
    (owned w n = .ok true ∧ ∃ d, w.dev.write p n v = .ok d ∧ w' = { w with dev := d }) ∨
      (owned w n = .ok false ∧ ∃ o, w.info.write p n v = .ok o ∧ w' = { w with info := o }) := by
  unfold set at h
  cases ho : owned w n with
  | error e => simp only [ho] at h; cases h
  | ok b =>
    cases b with
    | true =>
      simp only [ho] at h
      cases hw : w.dev.write p n v with
      | error e => rw [hw] at h; cases h
      | ok d =>
        rw [hw] at h
        cases h
        exact .inl ⟨rfl, d, rfl, rfl⟩
    | false =>
      simp only [ho] at h
      cases hw : w.info.write p n v with
      | error e => rw [hw] at h; cases h
      | ok d =>
        rw [hw] at h
        cases h
        exact .inr ⟨rfl, d, rfl, rfl⟩

theorem set_dev {w : World} {p : Bool} {n : String} {v : Val} {d : Obj} (ho : owned w n = .ok true)
    (hw : w.dev.write p n v = .ok d) : set w p n v = .ok { w with dev := d } := by
  unfold set
  simp only [ho, hw]
  rfl

theorem set_info {w : World} {p : Bool} {n : String} {v : Val} {o : Obj} (ho : owned w n = .ok false)
    (hw : w.info.write p n v = .ok o) : set w p n v = .ok { w with info := o } := by
  unfold set
  simp only [ho, hw]
  rfl

theorem owned_info {w w' : World} (n : String) (hp : w'.info.props = w.info.props) (ha : w'.attached = w.attached) :
    owned w' n = owned w n := by
  unfold owned
  rw [hp, ha]

/-- A successful `set` is read back. -/
theorem set_get {w w' : World} {p : Bool} {n : String} {v : Val} (h : set w p n v = .ok w') : get w' n = .ok v := by
  rcases set_ok h with ⟨ho, d, hw, rfl⟩ | ⟨ho, o, hw, rfl⟩
  · unfold get
    rw [show owned { w with dev := d } n = .ok true from (owned_info (w := w) (w' := { w with dev := d }) n rfl rfl).trans ho]
    exact write_read hw
  · unfold get
    rw [show owned { w with info := o } n = .ok false from
      (owned_info (w := w) (w' := { w with info := o }) n (write_props hw) rfl).trans ho]
    exact write_read hw

theorem set_kept {w w' : World} {p : Bool} {n : String} {v : Val} (h : set w p n v = .ok w') :
    w'.info.props = w.info.props ∧ w'.dev.props = w.dev.props ∧ w'.attached = w.attached ∧ w'.mirrored = w.mirrored ∧
      w'.info.frozen = w.info.frozen ∧ w'.dev.frozen = w.dev.frozen ∧ w'.devName = w.devName ∧ w'.nameLocked = w.nameLocked := by
  rcases set_ok h with ⟨ho, d, hw, rfl⟩ | ⟨ho, o, hw, rfl⟩
  · exact ⟨rfl, write_props hw, rfl, rfl, rfl, write_frozen hw, rfl, rfl⟩
  · exact ⟨write_props hw, rfl, rfl, rfl, write_frozen hw, rfl, rfl, rfl⟩

end Verif.Info
