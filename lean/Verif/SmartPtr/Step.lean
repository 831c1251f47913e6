import Verif.SmartPtr.Inv

namespace Verif.SmartPtr
open Spec

theorem refs_pos_of_kept {s : St} {d o : Nat} (h : Kept s d o) (hd : d < s.vars.length) :
    own o (s.var d) < refs s o := by
  rcases h with ⟨w, p, hw, hp, ho⟩ | hr
  · have hwl : w < s.vars.length := (List.getElem?_eq_some_iff.mp hp).1
    have h1 := tot_set (own o) s.vars d {} hd
    have h2 := tot_ge (own o) (s.vars.set d {}) w (by simpa using hwl)
    have h3 : (s.vars.set d {}).getD w {} = p := by
      simp [List.getD_eq_getElem?_getD, List.getElem?_set, Ne.symm hw, hp]
    rw [h3] at h2
    have h4 : own o p = 1 := by simp [own, ho.1, ho.2]
    have h5 : own o {} = 0 := own_none o {} rfl
    simp only [refs, St.var]
    omega
  · have h1 := tot_ge (own o) s.vars d hd
    have h2 : 0 < s.raw.count o := List.count_pos_iff.mpr hr
    simp only [refs, St.var]
    omega

theorem wipe_alive {s : St} (h : Inv s) {d o : Nat} (hd : d < s.vars.length) (hk : Kept s d o) :
    (s.wipe d).alive o = true := by
  obtain ⟨hi, -, -, -, -, hr⟩ := wipe_facts h hd
  have h1 := hr o
  have h2 := refs_pos_of_kept hk hd
  rw [inv_alive hi]
  exact decide_eq_true (by omega)

theorem drop_setVar (s : St) (d : Nat) (p : Ptr) : (s.drop (s.var d)).setVar d p = (s.wipe d).setVar d p := by
  simp [St.wipe, St.setVar]

theorem drop_alloc_setVar (s : St) (d : Nat) (p : Ptr) (is : List Nat) :
    ((s.drop (s.var d)).alloc is).setVar d p = ((s.wipe d).alloc is).setVar d p := by
  simp [St.wipe, St.setVar, St.alloc]

theorem drop_heap (s : St) (d : Nat) : (s.drop (s.var d)).heap = (s.wipe d).heap := rfl

theorem wipe_len {s : St} (h : Inv s) {d : Nat} (hd : d < s.vars.length) : (s.wipe d).vars.length = s.vars.length := by
  rw [(wipe_facts h hd).2.1]; simp

theorem wipe_var {s : St} (h : Inv s) {d : Nat} (hd : d < s.vars.length) : (s.wipe d).var d = {} := by
  unfold St.var
  rw [(wipe_facts h hd).2.1]
  simp [List.getD_eq_getElem?_getD, hd]

theorem wipe_var_ne {s : St} (h : Inv s) {d v : Nat} (hd : d < s.vars.length) (hv : d ≠ v) :
    (s.wipe d).var v = s.var v := by
  unfold St.var
  rw [(wipe_facts h hd).2.1]
  simp [List.getD_eq_getElem?_getD, hv]

theorem wipe_supports {s : St} (h : Inv s) {d o i : Nat} (hd : d < s.vars.length) (hs : Supports s o i) :
    (s.wipe d).supports o i = true := by
  obtain ⟨x, hx, hi⟩ := hs
  have h1 := (wipe_facts h hd).2.2.2.2.1 o
  rw [hx] at h1
  unfold St.supports
  cases hy : (s.wipe d).heap[o]? with
  | none => rw [hy] at h1; cases h1
  | some y =>
    rw [hy] at h1
    have : y.intfs = x.intfs := by simpa using h1
    simp [this, hi]

/-- Setting a variable that holds no reference to something that holds none. -/
theorem setVar_inv {t : St} (h : Inv t) {d : Nat} {p : Ptr} (hd : d < t.vars.length)
    (hr : ∀ o, own o (t.var d) = own o p) : Inv (t.setVar d p) :=
  same_inv h rfl rfl fun o => by have := refs_setVar t d p o hd; have := hr o; omega

theorem copy_inv {s : St} (h : Inv s) {d o : Nat} (hd : d < s.vars.length) (hk : Kept s d o) :
    Inv (((s.drop (s.var d)).setVar d { obj := some o }).addRef o) := by
  rw [drop_setVar]
  exact attach_inv (wipe_facts h hd).1 (by rw [wipe_len h hd]; exact hd) (by rw [wipe_var h hd]) (wipe_alive h hd hk)

/-- The reference that `v` holds, or its loan, goes to `d`. -/
theorem move_inv {s : St} (h : Inv s) {d v : Nat} (hd : d < s.vars.length) (hv : v < s.vars.length) (hne : d ≠ v) :
    Inv (((s.drop (s.var d)).setVar d (s.var v)).setVar v {}) := by
  rw [drop_setVar]
  have hl := wipe_len h hd
  refine same_inv (wipe_facts h hd).1 rfl rfl fun o => ?_
  have h1 := refs_setVar (s.wipe d) d (s.var v) o (by omega)
  have h2 := refs_setVar ((s.wipe d).setVar d (s.var v)) v {} o (by simp [St.setVar]; omega)
  have h3 : ((s.wipe d).setVar d (s.var v)).var v = s.var v := by
    have := wipe_var_ne h hd hne
    unfold St.var St.setVar at *
    simp only [List.getD_eq_getElem?_getD] at *
    rw [← this]
    simp [hne]
  rw [h3] at h2
  rw [wipe_var h hd] at h1
  omega

theorem inv_step {s : St} (h : Inv s) (op : Op) (hv : ∀ v ∈ op.vars, v < s.vars.length) (hr : Rule s op) :
    Inv (step s op).1 := by
  have ub2 : ∀ {P : Prop} [Decidable P] {a b : St × Out}, P → Inv a.1 → Inv (if P then a else b).1 :=
    fun hp ha => by rw [if_pos hp]; exact ha
  cases op with
  | create d is =>
    have hd := hv d (by simp [Op.vars])
    simp only [step]
    rw [drop_alloc_setVar, drop_heap]
    exact alloc_inv (wipe_facts h hd).1 (by rw [wipe_len h hd]; exact hd) (by rw [wipe_var h hd]) is
  | clear d => exact (wipe_facts h (hv d (by simp [Op.vars]))).1
  | copy d v =>
    have hd := hv d (by simp [Op.vars])
    simp only [step]
    by_cases e : d = v
    · rw [if_pos e]; exact h
    · rw [if_neg e]
      cases ho : (s.var v).obj with
      | none => exact (wipe_facts h hd).1
      | some o => exact copy_inv h hd (hr e o ho)
  | move d v =>
    simp only [step]
    by_cases e : d = v
    · rw [if_pos e]; exact h
    · rw [if_neg e]
      exact move_inv h (hv d (by simp [Op.vars])) (hv v (by simp [Op.vars])) e
  | assignRaw d v =>
    have hd := hv d (by simp [Op.vars])
    simp only [step]
    cases ho : (s.var v).obj with
    | none => exact (wipe_facts h hd).1
    | some o => exact copy_inv h hd (hr o ho)
  | convCopy d v i =>
    have hd := hv d (by simp [Op.vars])
    simp only [step]
    by_cases e : d = v
    · rw [if_pos e]; exact h
    · rw [if_neg e]
      cases ho : (s.var v).obj with
      | none => exact (wipe_facts h hd).1
      | some o =>
        obtain ⟨hk, hs⟩ := hr e o ho
        have h1 : (s.drop (s.var d)).alive o = true := wipe_alive h hd hk
        have h2 : (s.drop (s.var d)).supports o i = true := wipe_supports h hd hs
        simp only [h1, h2, Bool.not_true, Bool.false_eq_true, if_false, if_true]
        exact copy_inv h hd hk
  | convMove d v i =>
    have hd := hv d (by simp [Op.vars])
    simp only [step]
    by_cases e : d = v
    · rw [if_pos e]; exact h
    · rw [if_neg e]
      cases ho : (s.var v).obj with
      | none => exact (wipe_facts h hd).1
      | some o =>
        obtain ⟨hk, hs⟩ := hr e o ho
        have h1 : (s.drop (s.var d)).alive o = true := wipe_alive h hd hk
        have h2 : (s.drop (s.var d)).supports o i = true := wipe_supports h hd hs
        simp only [h1, h2, Bool.not_true, Bool.false_eq_true, if_false, if_true]
        have e2 : ({ obj := some o, borrowed := (s.var v).borrowed } : Ptr) = s.var v := by rw [← ho]
        rw [e2]
        exact move_inv h hd (hv v (by simp [Op.vars])) e
  | borrow d v =>
    have hd := hv d (by simp [Op.vars])
    simp only [step]
    rw [drop_setVar]
    refine setVar_inv (wipe_facts h hd).1 (by rw [wipe_len h hd]; exact hd) fun o => ?_
    rw [wipe_var h hd]
    simp [own]
  | outParam d is =>
    have hd := hv d (by simp [Op.vars])
    have hb : (s.var d).borrowed = false := hr
    simp only [step]
    rw [hb, drop_alloc_setVar, drop_heap]
    exact alloc_inv (wipe_facts h hd).1 (by rw [wipe_len h hd]; exact hd) (by rw [wipe_var h hd]) is
  | detach d =>
    have hd := hv d (by simp [Op.vars])
    simp only [step]
    rcases Option.eq_none_or_eq_some (s.var d).obj with ho | ⟨o, ho⟩ <;> rw [ho]
    · exact setVar_inv h hd fun o => by rw [own_none o _ ho, own_none o _ rfl]
    · have hown := hr o ho
      refine same_inv h rfl rfl fun o' => ?_
      have h1 := refs_setVar ({ s with raw := o :: s.raw } : St) d {} o' hd
      have h2 : refs ({ s with raw := o :: s.raw } : St) o' = refs s o' + (if o = o' then 1 else 0) := by
        by_cases hoo : o = o' <;> simp [refs, hoo]; omega
      have h3 : ({ s with raw := o :: s.raw } : St).var d = s.var d := rfl
      have h4 : own o' (s.var d) = if o = o' then 1 else 0 := by simp [own, hown.1, hown.2]
      have h5 := own_none o' {} rfl
      rw [h2, h3, h4, h5] at h1
      show refs (({ s with raw := o :: s.raw } : St).setVar d {}) o' = refs s o'
      omega
  | adopt d =>
    have hd := hv d (by simp [Op.vars])
    simp only [step]
    cases hraw : s.raw with
    | nil => exact h
    | cons o rs =>
      dsimp only
      -- the raw reference is put aside in `d`
      have e1 : ({ s with raw := rs } : St).drop (s.var d) = { s.drop (s.var d) with raw := rs } := by
        unfold St.drop
        split
        · split
          · rfl
          · unfold St.releaseRef St.alive; dsimp only; split <;> rfl
        · rfl
      rw [e1]
      have e2 : ({ s.drop (s.var d) with raw := rs } : St).setVar d { obj := some o } =
          ({ s.wipe d with raw := rs } : St).setVar d { obj := some o } := by
        simp [St.wipe, St.setVar]
      rw [e2]
      have hl := wipe_len h hd
      have hwr : (s.wipe d).raw = o :: rs := by rw [(wipe_facts h hd).2.2.1, hraw]
      refine same_inv (wipe_facts h hd).1 rfl rfl fun o' => ?_
      have h1 := refs_setVar ({ s.wipe d with raw := rs } : St) d { obj := some o } o' (by simpa [hl] using hd)
      have h3 : ({ s.wipe d with raw := rs } : St).var d = {} := wipe_var h hd
      have h4 : own o' { obj := some o } = if o = o' then 1 else 0 := by simp [own]
      have h5 := own_none o' {} rfl
      have h2 : refs (s.wipe d) o' = refs ({ s.wipe d with raw := rs } : St) o' + (if o = o' then 1 else 0) := by
        unfold refs
        rw [hwr]
        by_cases hoo : o = o' <;> simp [hoo]; omega
      rw [h3, h4, h5] at h1
      omega
  | use d =>
    have hd := hv d (by simp [Op.vars])
    simp only [step]
    cases ho : (s.var d).obj with
    | none => exact h
    | some o =>
      have : s.alive o = true := by
        rw [inv_alive h]
        rcases hr o ho with hown | hk
        · have : own o (s.var d) = 1 := by simp [own, hown.1, hown.2]
          have h1 := tot_ge (own o) s.vars d hd
          have h2 : own o (s.vars.getD d {}) = 1 := this
          exact decide_eq_true (by unfold refs; omega)
        · have := refs_pos_of_kept hk hd
          exact decide_eq_true (by omega)
      dsimp only
      rw [if_pos this]; exact h

theorem inv_run {s : St} (h : Inv s) (ops : List Op) (hk : Keeps s ops) : Inv (run s ops) := by
  induction ops generalizing s with
  | nil => exact h
  | cons op ops ih => exact ih (inv_step h op hk.1 hk.2.1) hk.2.2

end Verif.SmartPtr
