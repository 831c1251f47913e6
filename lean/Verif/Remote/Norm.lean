import Verif.Remote.Spec

/-!
# Objects up to what can be seen of them

`Obj.norm` stores every value, also the default; two objects look the same if and only if their
normal forms are equal. Every operation of the model respects this.
-/

namespace Verif.Remote
open Spec

def P.norm (p : P) : P := { p with val := some p.read }

@[simp] theorem P.norm_dflt (p : P) : p.norm.dflt = p.dflt := rfl
@[simp] theorem P.norm_fix (p : P) : p.norm.fix = p.fix := rfl
@[simp] theorem P.norm_read (p : P) : p.norm.read = p.read := rfl
@[simp] theorem P.norm_norm (p : P) : p.norm.norm = p.norm := rfl

theorem P.value_eq (p : P) : value p = p.read := by
  unfold value P.read
  cases p.val <;> rfl

namespace Obj

def norm : Obj → Obj
  | nil => nil
  | val n p rest => val n p.norm rest.norm
  | obj n o rest => obj n o.norm rest.norm

@[simp] theorem norm_norm (o : Obj) : o.norm.norm = o.norm := by
  induction o with
  | nil => rfl
  | val n p r ih => simp [norm, ih]
  | obj n o r ih1 ih2 => simp [norm, ih1, ih2]

theorem seen_norm (o : Obj) : seen o.norm = seen o := by
  induction o with
  | nil => rfl
  | val n p r ih => simp [norm, seen, ih, P.value_eq]
  | obj n o r ih1 ih2 => simp [norm, seen, ih1, ih2]

theorem norm_eq_of_seen : ∀ (o c : Obj), seen o = seen c → o.norm = c.norm
  | nil, nil, _ => rfl
  | nil, val _ _ _, h => by simp [seen] at h
  | nil, obj _ _ _, h => by simp [seen] at h
  | val _ _ _, nil, h => by simp [seen] at h
  | val n p r, val m q s, h => by
    simp only [seen, Seen.val.injEq, P.value_eq] at h
    obtain ⟨h1, h2, h3, h4, h5⟩ := h
    have := norm_eq_of_seen r s h5
    have hp : p.norm = q.norm := by
      unfold P.norm
      rw [h4]
      cases p; cases q
      simp only at h2 h3
      rw [h2, h3]
    simp [norm, h1, hp, this]
  | val _ _ _, obj _ _ _, h => by simp [seen] at h
  | obj _ _ _, nil, h => by simp [seen] at h
  | obj _ _ _, val _ _ _, h => by simp [seen] at h
  | obj n o r, obj m x s, h => by
    simp only [seen, Seen.obj.injEq] at h
    obtain ⟨h1, h2, h3⟩ := h
    simp [norm, h1, norm_eq_of_seen o x h2, norm_eq_of_seen r s h3]

theorem seen_eq_iff (o c : Obj) : seen o = seen c ↔ o.norm = c.norm :=
  ⟨norm_eq_of_seen o c, fun h => by rw [← seen_norm o, h, seen_norm c]⟩

theorem find_norm (o : Obj) (n : Nat) : o.norm.find n = (o.find n).map P.norm := by
  induction o with
  | nil => rfl
  | val m p r ih => simp only [norm, find]; split <;> simp [ih]
  | obj m o r _ ih => simp only [norm, find]; split <;> simp [ih]

theorem child_norm (o : Obj) (n : Nat) : o.norm.child n = (o.child n).map norm := by
  induction o with
  | nil => rfl
  | val m p r ih => simp only [norm, child]; split <;> simp [ih]
  | obj m o r _ ih => simp only [norm, child]; split <;> simp [ih]

theorem has_norm (o : Obj) (n : Nat) : o.norm.has n = o.has n := by
  induction o with
  | nil => rfl
  | val m p r ih => simp [norm, has, ih]
  | obj m o r _ ih => simp [norm, has, ih]

theorem names_norm (o : Obj) : o.norm.names = o.names := by
  induction o with
  | nil => rfl
  | val m p r ih => simp [norm, names, ih]
  | obj m o r _ ih => simp [norm, names, ih]

theorem env_norm (o : Obj) : o.norm.env = o.env := by
  funext n
  unfold env
  rw [find_norm]
  cases o.find n <;> rfl

theorem norm_store_some (o : Obj) (n v : Nat) :
    (o.store n (some v)).norm = o.norm.store n (some v) := by
  induction o with
  | nil => rfl
  | val m p r ih => simp only [norm, store]; split <;> simp [norm, ih, P.norm, P.read]
  | obj m o r _ ih => simp only [norm, store]; split <;> simp [norm, ih]

theorem norm_store_none (o : Obj) (n : Nat) (p : P) (h : o.find n = some p) :
    (o.store n none).norm = o.norm.store n (some p.dflt) := by
  induction o with
  | nil => rfl
  | val m q r ih =>
    simp only [norm, store]
    simp only [find] at h
    split
    · rename_i e
      rw [if_pos e] at h
      cases h
      simp [norm, P.norm, P.read]
    · rename_i e
      rw [if_neg e] at h
      simp [norm, ih h]
  | obj m o r _ ih =>
    simp only [norm, store]
    simp only [find] at h
    split
    · rfl
    · rename_i e
      rw [if_neg e] at h
      simp [norm, ih h]

theorem store_read (o : Obj) (n : Nat) (p : P) (h : o.find n = some p) :
    (o.store n (some p.read)).norm = o.norm := by
  induction o with
  | nil => rfl
  | val m q r ih =>
    simp only [store]
    simp only [find] at h
    split
    · rename_i e
      rw [if_pos e] at h
      cases h
      simp [norm, P.norm, P.read]
    · rename_i e
      rw [if_neg e] at h
      simp [norm, ih h]
  | obj m o r _ ih =>
    simp only [store]
    simp only [find] at h
    split
    · rfl
    · rename_i e
      rw [if_neg e] at h
      simp [norm, ih h]

theorem norm_setChild (o : Obj) (n : Nat) (c : Obj) :
    (o.setChild n c).norm = o.norm.setChild n c.norm := by
  induction o with
  | nil => rfl
  | val m p r ih => simp only [norm, setChild]; split <;> simp [norm, ih]
  | obj m o r _ ih => simp only [norm, setChild]; split <;> simp [norm, ih]

theorem norm_append (o x : Obj) : (o.append x).norm = o.norm.append x.norm := by
  induction o with
  | nil => rfl
  | val m p r ih => simp [norm, append, ih]
  | obj m o r _ ih => simp [norm, append, ih]

theorem norm_erase (o : Obj) (n : Nat) : (o.erase n).norm = o.norm.erase n := by
  induction o with
  | nil => rfl
  | val m p r ih => simp only [norm, erase]; split <;> simp [norm, ih]
  | obj m o r _ ih => simp only [norm, erase]; split <;> simp [norm, ih]

theorem norm_keep (o : Obj) (l : List Nat) : (o.keep l).norm = o.norm.keep l := by
  induction o with
  | nil => rfl
  | val m p r ih => simp only [norm, keep]; split <;> simp [norm, ih]
  | obj m o r _ ih => simp only [norm, keep]; split <;> simp [norm, ih]

theorem sub_norm (o : Obj) (q : List Nat) : o.norm.sub q = (o.sub q).map norm := by
  induction q generalizing o with
  | nil => simp [sub]
  | cons n q ih =>
    simp only [sub, child_norm]
    cases h : o.child n with
    | none => rfl
    | some c => simp [ih]

theorem norm_setSub (o : Obj) (q : List Nat) (x : Obj) :
    (o.setSub q x).norm = o.norm.setSub q x.norm := by
  induction q generalizing o with
  | nil => rfl
  | cons n q ih =>
    simp only [setSub, child_norm]
    cases h : o.child n with
    | none => rfl
    | some c => simp [norm_setChild, ih]

theorem put_norm (o : Obj) (n v : Nat) : (o.norm.put n v).map norm = (o.put n v).map norm := by
  unfold put
  rw [find_norm, env_norm]
  cases h : o.find n with
  | none => rfl
  | some p =>
    simp only [Option.map_some, P.norm_fix, P.norm_read]
    cases p.fix o.env v with
    | none => rfl
    | some w =>
      dsimp only
      by_cases e : w = p.read
      · simp [e]
      · simp [e, norm_store_some]

theorem drop_norm (o : Obj) (n : Nat) : (o.norm.drop n).map norm = (o.drop n).map norm := by
  unfold drop
  rw [find_norm]
  cases h : o.find n with
  | none => rfl
  | some p =>
    simp only [Option.map_some, Option.some.injEq]
    rw [norm_store_none o.norm n p.norm (by rw [find_norm, h]; rfl), norm_store_none o n p h,
      norm_norm, P.norm_dflt]

/-- Congruence of `put`. -/
theorem put_congr {o c : Obj} (h : o.norm = c.norm) (n v : Nat) :
    (o.put n v).map norm = (c.put n v).map norm := by rw [← put_norm o, h, put_norm]

theorem drop_congr {o c : Obj} (h : o.norm = c.norm) (n : Nat) :
    (o.drop n).map norm = (c.drop n).map norm := by rw [← drop_norm o, h, drop_norm]

/-- What both find at a name. -/
theorem find_congr {o c : Obj} (h : o.norm = c.norm) {n : Nat} {p : P} (hp : o.find n = some p) :
    ∃ q, c.find n = some q ∧ q.fix = p.fix ∧ q.dflt = p.dflt ∧ q.read = p.read := by
  have h1 := find_norm o n
  rw [h, find_norm, hp] at h1
  cases hq : c.find n with
  | none => rw [hq] at h1; simp at h1
  | some q =>
    rw [hq] at h1
    simp only [Option.map_some, Option.some.injEq] at h1
    refine ⟨q, rfl, ?_, ?_, ?_⟩
    · rw [← P.norm_fix q, h1, P.norm_fix]
    · rw [← P.norm_dflt q, h1, P.norm_dflt]
    · rw [← P.norm_read q, h1, P.norm_read]

theorem env_congr {o c : Obj} (h : o.norm = c.norm) : o.env = c.env := by
  rw [← env_norm o, h, env_norm]

theorem has_congr {o c : Obj} (h : o.norm = c.norm) (n : Nat) : o.has n = c.has n := by
  rw [← has_norm o, h, has_norm]

theorem sub_congr {o c : Obj} (h : o.norm = c.norm) (q : List Nat) :
    (o.sub q).map norm = (c.sub q).map norm := by rw [← sub_norm, h, sub_norm]

/-- A value that the property accepts as it is: nothing else than a store. -/
theorem put_store {o : Obj} {n v : Nat} {p : P} (hp : o.find n = some p)
    (hf : p.fix o.env v = some v) :
    ∃ o', o.put n v = some o' ∧ o'.norm = (o.store n (some v)).norm := by
  unfold put
  rw [hp]
  dsimp only
  rw [hf]
  dsimp only
  split
  · rename_i e
    exact ⟨o, rfl, by rw [e, store_read o n p hp]⟩
  · exact ⟨_, rfl, rfl⟩

theorem store_congr {o c : Obj} (h : o.norm = c.norm) (n v : Nat) :
    (o.store n (some v)).norm = (c.store n (some v)).norm := by
  rw [norm_store_some, h, norm_store_some]

end Obj

/-! ## Trees -/

def Data.norm (d : Data) : Data :=
  { d with obj := d.obj.norm, lock := fun _ => false, open_ := false, mute := false }

def Forest.norm : Forest → Forest
  | .nil => .nil
  | .cons k d i r => .cons k d.norm i.norm r.norm

def Comp.norm (c : Comp) : Comp := (c.1.norm, c.2.norm)

theorem seenData_eq_iff (d e : Data) : seenData d = seenData e ↔ d.norm = e.norm := by
  unfold seenData Data.norm
  rw [SeenData.mk.injEq, Data.mk.injEq, Obj.seen_eq_iff]
  constructor
  · rintro ⟨h1, h2, h3, h4, h5⟩
    exact ⟨h1, h2, rfl, h3, h4, h5, rfl, rfl⟩
  · rintro ⟨h1, h2, _, h3, h4, h5, _, _⟩
    exact ⟨h1, h2, h3, h4, h5⟩

theorem Forest.view_eq_iff : ∀ (f g : Forest), view f = view g ↔ f.norm = g.norm
  | .nil, .nil => by simp [view, Forest.norm]
  | .nil, .cons _ _ _ _ => by simp [view, Forest.norm]
  | .cons _ _ _ _, .nil => by simp [view, Forest.norm]
  | .cons k d i r, .cons m e j s => by
    simp only [view, Forest.norm, SeenTree.cons.injEq, Forest.cons.injEq]
    rw [seenData_eq_iff, Forest.view_eq_iff i j, Forest.view_eq_iff r s]

namespace Forest

theorem get_norm (f : Forest) (n : Nat) : f.norm.get n = (f.get n).map Comp.norm := by
  induction f with
  | nil => rfl
  | cons k d i r _ ih =>
    simp only [norm, get]
    split
    · rfl
    · exact ih

theorem norm_set (f : Forest) (n : Nat) (c : Comp) : (f.set n c).norm = f.norm.set n c.norm := by
  induction f with
  | nil => rfl
  | cons k d i r _ ih =>
    simp only [norm, set]
    split
    · rfl
    · simp [norm, ih]

theorem norm_add (f : Forest) (n : Nat) (c : Comp) : (f.add n c).norm = f.norm.add n c.norm := by
  induction f with
  | nil => rfl
  | cons k d i r _ ih => simp [norm, add, ih]

theorem norm_del (f : Forest) (n : Nat) : (f.del n).norm = f.norm.del n := by
  induction f with
  | nil => rfl
  | cons k d i r _ ih =>
    simp only [norm, del]
    split
    · rfl
    · simp [norm, ih]

theorem ids_norm (f : Forest) : f.norm.ids = f.ids := by
  induction f with
  | nil => rfl
  | cons k d i r _ ih => simp [norm, ids, ih]

theorem has_norm (f : Forest) (n : Nat) : f.norm.has n = f.has n := by
  unfold has
  rw [get_norm]
  cases f.get n <;> rfl

theorem find_norm (f : Forest) (p : List Nat) : f.norm.find p = (f.find p).map Comp.norm := by
  induction p generalizing f with
  | nil => simp [find]
  | cons k p ih =>
    cases p with
    | nil => simp only [find]; exact get_norm f k
    | cons j p =>
      simp only [find, get_norm]
      cases f.get k with
      | none => rfl
      | some c => exact ih c.2

theorem norm_upd (f : Forest) (p : List Nat) (x : Comp) :
    (f.upd p x).norm = f.norm.upd p x.norm := by
  induction p generalizing f with
  | nil => simp [upd]
  | cons k p ih =>
    cases p with
    | nil => simp only [upd]; exact norm_set f k x
    | cons j p =>
      simp only [upd, get_norm]
      cases f.get k with
      | none => rfl
      | some c =>
        rw [norm_set]
        show f.norm.set k (c.1.norm, (c.2.upd (j :: p) x).norm) = _
        rw [ih]
        rfl

/-- Setting and getting. -/
theorem get_set_self {f : Forest} {n : Nat} {c : Comp} (h : f.get n = some c) (x : Comp) :
    (f.set n x).get n = some x := by
  induction f with
  | nil => simp [get] at h
  | cons k d i r _ ih =>
    simp only [get] at h
    simp only [set]
    split
    · rename_i e; simp [get, e]
    · rename_i e
      rw [if_neg e] at h
      simp [get, e, ih h]

theorem set_set (f : Forest) (n : Nat) (x y : Comp) : (f.set n x).set n y = f.set n y := by
  induction f with
  | nil => rfl
  | cons k d i r _ ih =>
    simp only [set]
    split
    · rename_i e; simp [set, e]
    · rename_i e; simp [set, e, ih]

theorem set_get {f : Forest} {n : Nat} {c : Comp} (h : f.get n = some c) : f.set n c = f := by
  induction f with
  | nil => rfl
  | cons k d i r _ ih =>
    simp only [get] at h
    simp only [set]
    split
    · rename_i e
      rw [if_pos e] at h
      cases h; rfl
    · rename_i e
      rw [if_neg e] at h
      rw [ih h]

theorem find_upd_self {f : Forest} {p : List Nat} {c : Comp} (h : f.find p = some c) (x : Comp) :
    (f.upd p x).find p = some x := by
  induction p generalizing f with
  | nil => simp [find] at h
  | cons k p ih =>
    cases p with
    | nil =>
      simp only [find] at h
      simp only [upd, find]
      exact get_set_self h x
    | cons j p =>
      simp only [find] at h
      cases hg : f.get k with
      | none => rw [hg] at h; simp at h
      | some c' =>
        rw [hg] at h
        dsimp only at h
        simp only [upd, hg, find]
        rw [get_set_self hg]
        exact ih h

theorem upd_upd {f : Forest} {p : List Nat} {c : Comp} (h : f.find p = some c) (x y : Comp) :
    (f.upd p x).upd p y = f.upd p y := by
  induction p generalizing f with
  | nil => simp [find] at h
  | cons k p ih =>
    cases p with
    | nil => simp only [upd]; exact set_set f k x y
    | cons j p =>
      simp only [find] at h
      cases hg : f.get k with
      | none => rw [hg] at h; simp at h
      | some c' =>
        rw [hg] at h
        dsimp only at h
        simp only [upd, hg]
        rw [get_set_self hg]
        dsimp only
        rw [set_set, ih h]

theorem upd_find {f : Forest} {p : List Nat} {c : Comp} (h : f.find p = some c) : f.upd p c = f := by
  induction p generalizing f with
  | nil => simp [find] at h
  | cons k p ih =>
    cases p with
    | nil => simp only [find] at h; simp only [upd]; exact set_get h
    | cons j p =>
      simp only [find] at h
      cases hg : f.get k with
      | none => rw [hg] at h; simp at h
      | some c' =>
        rw [hg] at h
        dsimp only at h
        simp only [upd, hg]
        rw [ih h]
        exact set_get hg

end Forest
end Verif.Remote
