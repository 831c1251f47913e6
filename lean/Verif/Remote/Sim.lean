import Verif.Remote.Load

/-!
# One change of the server and its events
-/

namespace Verif.Remote
open Spec

namespace Obj

theorem child_setChild_self {o : Obj} {n : Nat} {c : Obj} (h : o.child n = some c) (x : Obj) :
    (o.setChild n x).child n = some x := by
  induction o with
  | nil => simp [child] at h
  | val m p r ih =>
    simp only [child] at h
    split at h
    · simp at h
    · rename_i e; simp [setChild, child, e, ih h]
  | obj m o r _ ih =>
    simp only [child] at h
    by_cases e : m = n
    · simp [setChild, child, e]
    · rw [if_neg e] at h
      simp [setChild, child, e, ih h]

theorem setChild_setChild (o : Obj) (n : Nat) (x y : Obj) :
    (o.setChild n x).setChild n y = o.setChild n y := by
  induction o with
  | nil => rfl
  | val m p r ih => by_cases e : m = n <;> simp [setChild, e, ih]
  | obj m o r _ ih => by_cases e : m = n <;> simp [setChild, e, ih]

theorem setChild_child {o : Obj} {n : Nat} {c : Obj} (h : o.child n = some c) :
    o.setChild n c = o := by
  induction o with
  | nil => rfl
  | val m p r ih =>
    simp only [child] at h
    split at h
    · simp at h
    · rename_i e; simp [setChild, e, ih h]
  | obj m o r _ ih =>
    simp only [child] at h
    by_cases e : m = n
    · rw [if_pos e] at h; cases h; simp [setChild, e]
    · rw [if_neg e] at h
      simp [setChild, e, ih h]

theorem sub_setSub_self {o : Obj} {q : List Nat} {c : Obj} (h : o.sub q = some c) (x : Obj) :
    (o.setSub q x).sub q = some x := by
  induction q generalizing o with
  | nil => rfl
  | cons n q ih =>
    simp only [sub] at h
    cases hc : o.child n with
    | none => rw [hc] at h; simp at h
    | some d =>
      rw [hc] at h
      simp only [setSub, hc, sub]
      rw [child_setChild_self hc]
      exact ih h

theorem setSub_setSub {o : Obj} {q : List Nat} {c : Obj} (h : o.sub q = some c) (x y : Obj) :
    (o.setSub q x).setSub q y = o.setSub q y := by
  induction q generalizing o with
  | nil => rfl
  | cons n q ih =>
    simp only [sub] at h
    cases hc : o.child n with
    | none => rw [hc] at h; simp at h
    | some d =>
      rw [hc] at h
      simp only [setSub, hc]
      rw [child_setChild_self hc]
      dsimp only
      rw [setChild_setChild, ih h]

theorem setSub_sub {o : Obj} {q : List Nat} {c : Obj} (h : o.sub q = some c) : o.setSub q c = o := by
  induction q generalizing o with
  | nil => simp only [sub, Option.some.injEq] at h; exact h.symm
  | cons n q ih =>
    simp only [sub] at h
    cases hc : o.child n with
    | none => rw [hc] at h; simp at h
    | some d =>
      rw [hc] at h
      simp only [setSub, hc]
      rw [ih h, setChild_child hc]

end Obj

/-- The same component with another property object. -/
def Comp.withObj (c : Comp) (o : Obj) : Comp := ({ c.1 with obj := o }, c.2)

theorem Comp.norm_withObj (c : Comp) (o : Obj) :
    Comp.norm (Comp.withObj c o) = Comp.withObj (Comp.norm c) o.norm := rfl

theorem Comp.norm_obj {x y : Comp} (h : Comp.norm x = Comp.norm y) :
    x.1.obj.norm = y.1.obj.norm := by
  have := congrArg (fun c : Comp => c.1.obj) h
  exact this

theorem Comp.norm_items {x y : Comp} (h : Comp.norm x = Comp.norm y) : x.2.norm = y.2.norm :=
  congrArg (fun c : Comp => c.2) h

theorem Comp.withObj_congr {x y : Comp} (h : Comp.norm x = Comp.norm y) {o c : Obj}
    (ho : o.norm = c.norm) : Comp.norm (Comp.withObj x o) = Comp.norm (Comp.withObj y c) := by
  rw [Comp.norm_withObj, Comp.norm_withObj, h, ho]

theorem Obj.sub_both {o c : Obj} (h : o.norm = c.norm) (q : List Nat) :
    (o.sub q = none ∧ c.sub q = none) ∨
    ∃ x y, o.sub q = some x ∧ c.sub q = some y ∧ x.norm = y.norm := by
  have := sub_congr h q
  cases h1 : o.sub q <;> cases h2 : c.sub q <;> simp_all

theorem Obj.setSub_congr {o c : Obj} (h : o.norm = c.norm) (q : List Nat) {x y : Obj}
    (hx : x.norm = y.norm) : (o.setSub q x).norm = (c.setSub q y).norm := by
  rw [norm_setSub, norm_setSub, h, hx]

theorem apply_value {y : Comp} {q : List Nat} {o : Obj} (h : y.1.obj.sub q = some o) (t : Told) :
    (Ev.value q t).apply y = Comp.withObj y (y.1.obj.setSub q (o.tell t)) := by
  obtain ⟨n, v⟩ := t
  have key : ∀ r : Option Obj, (match r with
      | none => y
      | some o' => ({ y.1 with obj := y.1.obj.setSub q o' }, y.2)) =
      Comp.withObj y (y.1.obj.setSub q (r.getD o)) := by
    intro r
    cases r with
    | none =>
      show y = Comp.withObj y (y.1.obj.setSub q o)
      rw [Obj.setSub_sub h]
      rfl
    | some o' => rfl
  simp only [Ev.apply, h]
  unfold Obj.tell
  exact key _

theorem apply_values {q : List Nat} (l : List Told) : ∀ {y : Comp} {o : Obj},
    y.1.obj.sub q = some o →
    (l.map (fun t => Ev.value q t)).foldl Ev.apply y =
      Comp.withObj y (y.1.obj.setSub q (l.foldl Obj.tell o)) := by
  induction l with
  | nil =>
    intro y o h
    show y = Comp.withObj y (y.1.obj.setSub q o)
    rw [Obj.setSub_sub h]
    rfl
  | cons t l ih =>
    intro y o h
    simp only [List.map_cons, List.foldl_cons]
    rw [apply_value h, ih (o := o.tell t) (Obj.sub_setSub_self h _)]
    show Comp.withObj _ _ = Comp.withObj _ _
    unfold Comp.withObj
    dsimp only
    rw [Obj.setSub_setSub h]

theorem Obj.putSome_nil (o : Obj) : o.putSome [] = o := rfl

/-! ### The client never gets a locked active state -/

theorem Data.load_active {d d' : Data} (h : d.load = some d') : d'.lock .active = false := by
  unfold Data.load at h
  split at h
  · simp at h
  · cases h; rfl

theorem Forest.load_free {f f' : Forest} (h : f.load = some f') : Free f' := by
  induction f generalizing f' with
  | nil => simp only [Forest.load, Option.some.injEq] at h; subst h; trivial
  | cons k d i r ihi ihr =>
    simp only [Forest.load] at h
    split at h
    · simp at h
    · rename_i d' hd
      split at h
      · simp at h
      · rename_i i' hi
        split at h
        · simp at h
        · rename_i r' hr
          cases h
          exact ⟨Data.load_active hd, ihi hi, ihr hr⟩

theorem Comp.load_free {c c' : Comp} (h : Comp.load c = some c') :
    c'.1.lock .active = false ∧ Free c'.2 := by
  unfold Comp.load at h
  split at h
  · simp at h
  · rename_i d' hd
    split at h
    · simp at h
    · rename_i i' hi
      cases h
      exact ⟨Data.load_active hd, Forest.load_free hi⟩

namespace Forest

theorem free_get {f : Forest} (h : Free f) {k : Nat} {c : Comp} (hg : f.get k = some c) :
    c.1.lock .active = false ∧ Free c.2 := by
  induction f with
  | nil => simp [get] at hg
  | cons m d i r _ ih =>
    simp only [get] at hg
    split at hg
    · cases hg; exact ⟨h.1, h.2.1⟩
    · exact ih h.2.2 hg

theorem free_set {f : Forest} (h : Free f) (k : Nat) {c : Comp} (h1 : c.1.lock .active = false)
    (h2 : Free c.2) : Free (f.set k c) := by
  induction f with
  | nil => trivial
  | cons m d i r _ ih =>
    simp only [set]
    split
    · exact ⟨h1, h2, h.2.2⟩
    · exact ⟨h.1, h.2.1, ih h.2.2⟩

theorem free_add {f : Forest} (h : Free f) (k : Nat) {c : Comp} (h1 : c.1.lock .active = false)
    (h2 : Free c.2) : Free (f.add k c) := by
  induction f with
  | nil => exact ⟨h1, h2, trivial⟩
  | cons m d i r _ ih => exact ⟨h.1, h.2.1, ih h.2.2⟩

theorem free_del {f : Forest} (h : Free f) (k : Nat) : Free (f.del k) := by
  induction f with
  | nil => trivial
  | cons m d i r _ ih =>
    simp only [del]
    split
    · exact h.2.2
    · exact ⟨h.1, h.2.1, ih h.2.2⟩

theorem free_keep {f : Forest} (h : Free f) (l : List Nat) : Free (f.keep l) := by
  induction f with
  | nil => trivial
  | cons m d i r _ ih =>
    simp only [keep]
    split
    · exact ⟨h.1, h.2.1, ih h.2.2⟩
    · exact ih h.2.2

theorem free_find {f : Forest} (h : Free f) {p : List Nat} {c : Comp} (hg : f.find p = some c) :
    c.1.lock .active = false ∧ Free c.2 := by
  induction p generalizing f with
  | nil => simp [find] at hg
  | cons k p ih =>
    cases p with
    | nil => simp only [find] at hg; exact free_get h hg
    | cons j p =>
      simp only [find] at hg
      cases hk : f.get k with
      | none => rw [hk] at hg; simp at hg
      | some x =>
        rw [hk] at hg
        exact ih (free_get h hk).2 hg

theorem free_upd {f : Forest} (h : Free f) (p : List Nat) {c : Comp}
    (h1 : c.1.lock .active = false) (h2 : Free c.2) : Free (f.upd p c) := by
  induction p generalizing f with
  | nil => simpa [upd] using h
  | cons k p ih =>
    cases p with
    | nil => simp only [upd]; exact free_set h k h1 h2
    | cons j p =>
      simp only [upd]
      cases hk : f.get k with
      | none => exact h
      | some x => exact free_set h k (free_get h hk).1 (ih (free_get h hk).2)

theorem free_follow (s : Forest) : ∀ {c : Forest}, Free c → Free (s.follow c).1 := by
  induction s with
  | nil => intro c h; exact h
  | cons k d i r ihi ihr =>
    intro c h
    simp only [Forest.follow]
    cases hk : c.get k with
    | some x =>
      dsimp only
      have hx := free_get h hk
      apply ihr
      apply free_set h k
      · have : (d.follow x.1).1.lock = x.1.lock := by
          unfold Data.follow; dsimp only; split <;> rfl
        dsimp only
        rw [this]; exact hx.1
      · dsimp only
        have hz : Free (if (d.follow x.1).2 = true then i.follow x.2 else (x.2, false)).1 := by
          split
          · exact ihi hx.2
          · exact hx.2
        generalize (if (d.follow x.1).2 = true then i.follow x.2 else (x.2, false)) = z at *
        split
        · exact free_keep hz _
        · exact hz
    | none =>
      dsimp only
      cases hl : Comp.load (d, i) with
      | none => exact h
      | some x => exact ihr (free_add h k (Comp.load_free hl).1 (Comp.load_free hl).2)

end Forest

theorem Comp.free_updateEnd (s : Comp) {c : Comp} (h1 : c.1.lock .active = false) (h2 : Free c.2) :
    (Comp.updateEnd s c).1.lock .active = false ∧ Free (Comp.updateEnd s c).2 := by
  have key : ∀ c : Comp, c.1.lock .active = false → Free c.2 →
      (Comp.follow s c).1.1.lock .active = false ∧ Free (Comp.follow s c).1.2 := by
    intro c h1 h2
    unfold Comp.follow
    have hl : (s.1.follow c.1).1.lock = c.1.lock := by
      unfold Data.follow; dsimp only; split <;> rfl
    dsimp only
    split
    · refine ⟨by rw [hl]; exact h1, ?_⟩
      dsimp only
      split
      · exact Forest.free_keep (Forest.free_follow _ h2) _
      · exact Forest.free_follow _ h2
    · exact ⟨by rw [hl]; exact h1, h2⟩
  have := key ({ c.1 with open_ := true, mute := true }, c.2) h1 h2
  unfold Comp.updateEnd
  dsimp only
  split <;> exact this

theorem apply_free (e : Ev) {y : Comp} (h1 : y.1.lock .active = false) (h2 : Free y.2) :
    (e.apply y).1.lock .active = false ∧ Free (e.apply y).2 := by
  cases e with
  | attr a v => simp only [Ev.apply]; split <;> exact ⟨h1, h2⟩
  | both v => exact ⟨h1, h2⟩
  | tags l => exact ⟨h1, h2⟩
  | stat n v m => simp only [Ev.apply]; split <;> exact ⟨h1, h2⟩
  | value q t =>
    simp only [Ev.apply]
    split
    · exact ⟨h1, h2⟩
    · split <;> exact ⟨h1, h2⟩
  | many q l => simp only [Ev.apply]; split <;> exact ⟨h1, h2⟩
  | propAdd q n s =>
    simp only [Ev.apply]
    split
    · exact ⟨h1, h2⟩
    · split
      · exact ⟨h1, h2⟩
      · split <;> exact ⟨h1, h2⟩
  | propDel q n => simp only [Ev.apply]; split <;> exact ⟨h1, h2⟩
  | added k x =>
    simp only [Ev.apply]
    split
    · exact ⟨h1, h2⟩
    · split
      · exact ⟨h1, h2⟩
      · rename_i hl
        exact ⟨h1, Forest.free_add h2 k (Comp.load_free hl).1 (Comp.load_free hl).2⟩
  | removed k => exact ⟨h1, Forest.free_del h2 k⟩
  | updated x => exact Comp.free_updateEnd x h1 h2

theorem apply_all_free (l : List Ev) : ∀ {y : Comp}, y.1.lock .active = false → Free y.2 →
    (l.foldl Ev.apply y).1.lock .active = false ∧ Free (l.foldl Ev.apply y).2 := by
  induction l with
  | nil => intro y h1 h2; exact ⟨h1, h2⟩
  | cons e l ih =>
    intro y h1 h2
    exact ih (apply_free e h1 h2).1 (apply_free e h1 h2).2

/-! ### One change -/

/-- What the simulation of a change needs. -/
def Fine (x y : Comp) : Op → Prop
  | .statAdd _ _ _ => False
  | .write q a => ∀ o c : Obj, x.1.obj.sub q = some o → o.norm = c.norm →
      ((o.write a).2.foldl Obj.tell c).norm = (o.write a).1.norm
  | .batch q l => ∀ o c : Obj, x.1.obj.sub q = some o → o.norm = c.norm →
      (((o.batch l []).2.1.foldl Obj.tell c).putSome ((o.batch l []).2.2.getD [])).norm =
        (o.batch l []).1.norm
  | .propAdd _ _ (.obj o) => ∃ o', o.load = some o' ∧ o'.norm = o.norm
  | .itemAdd _ c => ∃ c', Comp.load c = some c' ∧ Comp.norm c' = Comp.norm c
  | .update z => Comp.norm (Comp.updateEnd z y) = Comp.norm z
  | _ => True

theorem norm_fields {x y : Comp} (h : Comp.norm x = Comp.norm y) :
    x.1.kind = y.1.kind ∧ x.1.attr = y.1.attr ∧ x.1.tags = y.1.tags ∧ x.1.stat = y.1.stat ∧
    x.1.obj.norm = y.1.obj.norm ∧ x.2.norm = y.2.norm := by
  have h1 : x.1.norm = y.1.norm := congrArg Prod.fst h
  have h2 : x.2.norm = y.2.norm := congrArg Prod.snd h
  unfold Data.norm at h1
  rw [Data.mk.injEq] at h1
  exact ⟨h1.1, h1.2.1, h1.2.2.2.1, h1.2.2.2.2.1, h1.2.2.2.2.2.1, h2⟩

theorem norm_of_fields {x y : Comp} (h1 : x.1.kind = y.1.kind) (h2 : x.1.attr = y.1.attr)
    (h3 : x.1.tags = y.1.tags) (h4 : x.1.stat = y.1.stat) (h5 : x.1.obj.norm = y.1.obj.norm)
    (h6 : x.2.norm = y.2.norm) : Comp.norm x = Comp.norm y := by
  unfold Comp.norm Data.norm
  rw [h1, h2, h3, h4, h5, h6]

theorem run_norm {x y : Comp} (h : Comp.norm x = Comp.norm y) (hl : y.1.lock .active = false)
    (op : Op) (hf : Fine x y op) :
    Comp.norm ((op.run x).2.foldl Ev.apply y) = Comp.norm (op.run x).1 := by
  obtain ⟨e1, e2, e3, e4, e5, e6⟩ := norm_fields h
  cases op with
  | attr a v up =>
    simp only [Op.run]
    split
    · exact h.symm
    · have first : Comp.norm (Ev.apply y (.attr a v)) = Comp.norm (x.1.setAttr a v, x.2) := by
        simp only [Ev.apply]
        rw [if_neg (by rintro ⟨r, s⟩; rw [r, hl] at s; simp at s)]
        refine norm_of_fields e1.symm ?_ e3.symm e4.symm e5.symm e6.symm
        unfold Data.setAttr
        dsimp only
        rw [e2]
      dsimp only
      split
      · rename_i ha
        show Comp.norm (Ev.apply (Ev.apply y (.attr a v)) (.both v)) = _
        obtain ⟨f1, f2, f3, f4, f5, f6⟩ := norm_fields first
        refine norm_of_fields f1 ?_ f3 f4 f5 f6
        simp only [Ev.apply, Data.setAttr] at f2 ⊢
        rw [ha.1] at f2 ⊢
        funext b
        have := congrFun f2 b
        simp only [hl, Bool.false_eq_true, and_false, if_false] at this ⊢
        by_cases hb : b = .active
        · simp [hb]
        · simp only [hb, if_false] at this ⊢
          exact this
      · exact first
  | lock a b => exact (norm_of_fields e1 e2 e3 e4 e5 e6).symm
  | tagAdd t =>
    simp only [Op.run]
    split
    · exact h.symm
    · exact norm_of_fields e1.symm e2.symm rfl e4.symm e5.symm e6.symm
  | tagDel t =>
    simp only [Op.run]
    split
    · exact norm_of_fields e1.symm e2.symm rfl e4.symm e5.symm e6.symm
    · exact h.symm
  | statAdd n v m => exact hf.elim
  | statSet n v m =>
    simp only [Op.run]
    cases hs : x.1.stat.lookup n with
    | none => exact h.symm
    | some z =>
      dsimp only
      split
      · exact h.symm
      · show Comp.norm (Ev.apply y (.stat n v m)) = _
        simp only [Ev.apply]
        rw [← e4, hs]
        simp only [Option.isSome_some, if_true]
        exact norm_of_fields e1.symm e2.symm e3.symm rfl e5.symm e6.symm
  | write q a =>
    simp only [Op.run]
    rcases Obj.sub_both e5 q with ⟨a1, _⟩ | ⟨o, c, a1, a2, a3⟩
    · rw [a1]; exact h.symm
    · rw [a1]
      dsimp only
      rw [apply_values _ a2]
      exact (Comp.withObj_congr h (Obj.setSub_congr e5 q (hf o c a1 a3).symm)).symm
  | batch q l =>
    simp only [Op.run]
    rcases Obj.sub_both e5 q with ⟨a1, _⟩ | ⟨o, c, a1, a2, a3⟩
    · rw [a1]; exact h.symm
    · rw [a1]
      dsimp only
      rw [List.foldl_append, apply_values _ a2]
      have key := hf o c a1 a3
      generalize o.batch l [] = r at *
      have fin : Comp.norm (Comp.withObj y (y.1.obj.setSub q
          ((r.2.1.foldl Obj.tell c).putSome (r.2.2.getD [])))) =
          Comp.norm (Comp.withObj x (x.1.obj.setSub q r.1)) :=
        (Comp.withObj_congr h (Obj.setSub_congr e5 q key.symm)).symm
      cases hr : r.2.2 with
      | none => rw [hr] at fin; exact fin
      | some d =>
        rw [hr] at fin
        cases d with
        | nil => exact fin
        | cons z d =>
          refine Eq.trans ?_ fin
          show Comp.norm (Ev.apply _ (.many q (z :: d))) = _
          simp only [Ev.apply]
          have : (Comp.withObj y (y.1.obj.setSub q (r.2.1.foldl Obj.tell c))).1.obj.sub q =
              some (r.2.1.foldl Obj.tell c) := Obj.sub_setSub_self a2 _
          rw [this]
          dsimp only [Option.getD]
          unfold Comp.withObj
          dsimp only
          rw [Obj.setSub_setSub a2]
  | propAdd q n s =>
    simp only [Op.run]
    rcases Obj.sub_both e5 q with ⟨a1, _⟩ | ⟨o, c, a1, a2, a3⟩
    · rw [a1]; exact h.symm
    · rw [a1]
      dsimp only
      split
      · exact h.symm
      · rename_i hh
        show Comp.norm (Ev.apply y (.propAdd q n s)) = _
        simp only [Ev.apply, a2]
        rw [if_neg (by rw [← Obj.has_congr a3]; exact hh)]
        have hs : ∃ s', s.load = some s' ∧ (s'.fresh n).norm = (s.fresh n).norm := by
          cases s with
          | val p => exact ⟨.val p, rfl, rfl⟩
          | obj o =>
            obtain ⟨o', l1, l2⟩ := hf
            exact ⟨.obj o', by simp [Slot.load, l1], by simp [Slot.fresh, Obj.norm, l2]⟩
        obtain ⟨s', l1, l2⟩ := hs
        rw [l1]
        refine (Comp.withObj_congr h (Obj.setSub_congr e5 q ?_)).symm
        rw [Obj.norm_append, Obj.norm_append, a3, l2]
  | propDel q n =>
    simp only [Op.run]
    rcases Obj.sub_both e5 q with ⟨a1, _⟩ | ⟨o, c, a1, a2, a3⟩
    · rw [a1]; exact h.symm
    · rw [a1]
      dsimp only
      split
      · show Comp.norm (Ev.apply y (.propDel q n)) = _
        simp only [Ev.apply, a2]
        refine (Comp.withObj_congr h (Obj.setSub_congr e5 q ?_)).symm
        rw [Obj.norm_erase, Obj.norm_erase, a3]
      · exact h.symm
  | itemAdd k c =>
    simp only [Op.run]
    split
    · exact h.symm
    · rename_i hh
      show Comp.norm (Ev.apply y (.added k c)) = _
      simp only [Ev.apply]
      rw [if_neg (by rw [← Forest.has_norm, ← e6, Forest.has_norm]; exact hh)]
      obtain ⟨c', l1, l2⟩ := hf
      rw [l1]
      refine norm_of_fields e1.symm e2.symm e3.symm e4.symm e5.symm ?_
      show (y.2.add k c').norm = (x.2.add k c).norm
      rw [Forest.norm_add, Forest.norm_add, e6, l2]
  | itemDel k =>
    simp only [Op.run]
    split
    · refine norm_of_fields e1.symm e2.symm e3.symm e4.symm e5.symm ?_
      show (y.2.del k).norm = (x.2.del k).norm
      rw [Forest.norm_del, Forest.norm_del, e6]
    · exact h.symm
  | update z => exact hf

theorem handle_path (p : List Nat) (l : List Ev) : ∀ {c : Forest} {y : Comp}, c.find p = some y →
    handleAll c (l.map (fun e => (p, e))) = c.upd p (l.foldl Ev.apply y) := by
  induction l with
  | nil => intro c y h; exact (Forest.upd_find h).symm
  | cons e l ih =>
    intro c y h
    show handleAll (handle c (p, e)) (l.map (fun e => (p, e))) = _
    have : handle c (p, e) = c.upd p (e.apply y) := by unfold handle; simp only [h]
    rw [this, ih (Forest.find_upd_self h _), Forest.upd_upd h]
    rfl

theorem Forest.find_both {s c : Forest} (h : s.norm = c.norm) (p : List Nat) :
    (s.find p = none ∧ c.find p = none) ∨
    ∃ x y, s.find p = some x ∧ c.find p = some y ∧ Comp.norm x = Comp.norm y := by
  have h1 := Forest.find_norm s p
  rw [h, Forest.find_norm] at h1
  cases h2 : s.find p <;> cases h3 : c.find p <;> simp_all

/-- One change on the server, and the client that handles its events. -/
theorem serve_ok {s c : Forest} (h : s.norm = c.norm) (hc : Free c) (p : List Nat) (op : Op)
    (hf : ∀ x y, s.find p = some x → c.find p = some y → Comp.norm x = Comp.norm y → Fine x y op) :
    (handleAll c (serve s p op).2).norm = (serve s p op).1.norm ∧
    Free (handleAll c (serve s p op).2) := by
  unfold serve
  rcases Forest.find_both h p with ⟨a, _⟩ | ⟨x, y, a, b, e⟩
  · rw [a]; exact ⟨h.symm, hc⟩
  · rw [a]
    dsimp only
    rw [handle_path p _ b]
    have fy := Forest.free_find hc b
    have fr := apply_all_free (op.run x).2 fy.1 fy.2
    refine ⟨?_, Forest.free_upd hc p fr.1 fr.2⟩
    rw [Forest.norm_upd, Forest.norm_upd, run_norm e fy.1 op (hf x y a b e), h]

theorem handleAll_append (c : Forest) (l m : List (List Nat × Ev)) :
    handleAll c (l ++ m) = handleAll (handleAll c l) m := List.foldl_append

end Verif.Remote
