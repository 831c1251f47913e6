import Verif.Remote.Write

/-!
# Serializing and deserializing
-/

namespace Verif.Remote
open Spec

namespace Obj

/-- Stores values one after the other. -/
def storeAll (o : Obj) (l : List (Nat × Nat)) : Obj := l.foldl (fun o x => o.store x.1 (some x.2)) o

theorem store_comm {n m : Nat} (h : n ≠ m) (v w : Option Nat) (o : Obj) :
    (o.store n v).store m w = (o.store m w).store n v := by
  induction o with
  | nil => rfl
  | val k p r ih =>
    by_cases e : k = n
    · subst e; simp [store, h]
    · by_cases e2 : k = m
      · subst e2; simp [store, e]
      · simp [store, e, e2, ih]
  | obj k p r _ ih =>
    by_cases e : k = n
    · subst e; simp [store, h]
    · by_cases e2 : k = m
      · subst e2; simp [store, e]
      · simp [store, e, e2, ih]

theorem storeAll_insert (x : Nat × Nat) (l : List (Nat × Nat)) (h : x.1 ∉ l.map (·.1)) (o : Obj) :
    o.storeAll (insertBy x l) = o.storeAll (x :: l) := by
  induction l generalizing o with
  | nil => rfl
  | cons y l ih =>
    simp only [insertBy]
    split
    · rfl
    · simp only [List.map_cons, List.mem_cons, not_or] at h
      have := ih h.2 (o.store y.1 (some y.2))
      unfold storeAll at this ⊢
      simp only [List.foldl_cons] at this ⊢
      rw [this, store_comm h.1]

theorem mem_insertBy (x y : Nat × Nat) (l : List (Nat × Nat)) :
    y ∈ insertBy x l ↔ y = x ∨ y ∈ l := by
  induction l with
  | nil => simp [insertBy]
  | cons z l ih =>
    simp only [insertBy]
    split
    · simp
    · simp only [List.mem_cons, ih]
      constructor
      · rintro (h | h | h) <;> simp [h]
      · rintro (h | h | h) <;> simp [h]

theorem mem_sortBy (y : Nat × Nat) (l : List (Nat × Nat)) : y ∈ sortBy l ↔ y ∈ l := by
  induction l with
  | nil => rfl
  | cons x l ih => rw [sortBy, mem_insertBy, ih, List.mem_cons]

theorem storeAll_sort (l : List (Nat × Nat)) (h : (l.map (·.1)).Nodup) (o : Obj) :
    o.storeAll (sortBy l) = o.storeAll l := by
  induction l generalizing o with
  | nil => rfl
  | cons x l ih =>
    simp only [List.map_cons, List.nodup_cons] at h
    rw [sortBy, storeAll_insert]
    · exact ih h.2 _
    · intro hm
      obtain ⟨y, hy, e⟩ := List.mem_map.mp hm
      exact h.1 (List.mem_map.mpr ⟨y, (mem_sortBy y l).mp hy, e⟩)

/-- The property exists and takes the value in every state. -/
def Takes (o : Obj) (n v : Nat) : Prop := ∃ p, o.find n = some p ∧ ∀ e, p.fix e v = some v

theorem Takes.congr {o c : Obj} (h : o.norm = c.norm) {n v : Nat} (t : o.Takes n v) :
    c.Takes n v := by
  obtain ⟨p, hp, hf⟩ := t
  obtain ⟨q, hq, hqf, _⟩ := find_congr h hp
  exact ⟨q, hq, fun e => by rw [hqf]; exact hf e⟩

theorem Takes.store {o : Obj} {n v : Nat} (t : o.Takes n v) (m : Nat) (w : Option Nat) :
    (o.store m w).Takes n v := by
  obtain ⟨p, hp, hf⟩ := t
  by_cases e : n = m
  · subst e; exact ⟨_, find_store_self hp w, hf⟩
  · exact ⟨p, by rw [find_store_ne e, hp], hf⟩

theorem storeAll_congr {o c : Obj} (h : o.norm = c.norm) (l : List (Nat × Nat)) :
    (o.storeAll l).norm = (c.storeAll l).norm := by
  induction l generalizing o c with
  | nil => exact h
  | cons x l ih => exact ih (store_congr h x.1 x.2)

theorem putAll_ok (l : List (Nat × Nat)) : ∀ o : Obj, (∀ x ∈ l, o.Takes x.1 x.2) →
    ∃ o', o.putAll l = some o' ∧ o'.norm = (o.storeAll l).norm := by
  induction l with
  | nil => intro o _; exact ⟨o, rfl, rfl⟩
  | cons x l ih =>
    intro o h
    obtain ⟨n, v⟩ := x
    obtain ⟨p, hp, hf⟩ := h (n, v) (by simp)
    obtain ⟨o1, h1, h2⟩ := put_store hp (hf o.env)
    obtain ⟨o2, h3, h4⟩ := ih o1 (fun y hy =>
      ((h y (by simp [hy])).store n (some v)).congr h2.symm)
    refine ⟨o2, by simp [putAll, h1, h3], ?_⟩
    rw [h4]
    exact storeAll_congr h2 l

/-- The properties without values. -/
def blank : Obj → Obj
  | nil => nil
  | val m p r => val m { p with val := none } r.blank
  | obj m o r => obj m o r.blank

theorem stored_names (o : Obj) : ∀ x ∈ o.stored, x.1 ∈ o.names := by
  induction o with
  | nil => simp [stored]
  | val m p r ih =>
    intro x
    simp only [stored, names, List.mem_cons]
    split
    · simp only [List.mem_cons]
      rintro (h | h)
      · exact Or.inl (by rw [h])
      · exact Or.inr (ih x h)
    · exact fun h => Or.inr (ih x h)
  | obj m o r _ ih =>
    intro x hx
    simp only [names, List.mem_cons]
    exact Or.inr (ih x hx)

theorem stored_nodup {o : Obj} (g : GoodObj o) : (o.stored.map (·.1)).Nodup := by
  induction o with
  | nil => simp [stored]
  | val m p r ih =>
    simp only [stored]
    split
    · simp only [List.map_cons, List.nodup_cons]
      refine ⟨?_, ih g.2.2.2⟩
      intro h
      obtain ⟨y, hy, e⟩ := List.mem_map.mp h
      have := stored_names r y hy
      rw [e, ← propNames_eq] at this
      exact g.2.2.1 this
    · exact ih g.2.2.2
  | obj m o r _ ih => exact ih g.2.2

theorem storeAll_val {m : Nat} {p : P} {r : Obj} (l : List (Nat × Nat)) (h : m ∉ l.map (·.1)) :
    (val m p r).storeAll l = val m p (r.storeAll l) := by
  induction l generalizing r with
  | nil => rfl
  | cons x l ih =>
    simp only [List.map_cons, List.mem_cons, not_or] at h
    show (Obj.store (val m p r) x.1 (some x.2)).storeAll l = _
    rw [store, if_neg h.1, ih h.2]
    rfl

theorem storeAll_obj {m : Nat} {o r : Obj} (l : List (Nat × Nat)) (h : m ∉ l.map (·.1)) :
    (obj m o r).storeAll l = obj m o (r.storeAll l) := by
  induction l generalizing r with
  | nil => rfl
  | cons x l ih =>
    simp only [List.map_cons, List.mem_cons, not_or] at h
    show (Obj.store (obj m o r) x.1 (some x.2)).storeAll l = _
    rw [store, if_neg h.1, ih h.2]
    rfl

theorem storeAll_blank {o : Obj} (g : GoodObj o) : o.blank.storeAll o.stored = o := by
  induction o with
  | nil => rfl
  | val m p r ih =>
    have hn : m ∉ r.stored.map (·.1) := by
      intro h
      obtain ⟨y, hy, e⟩ := List.mem_map.mp h
      have := stored_names r y hy
      rw [e, ← propNames_eq] at this
      exact g.2.2.1 this
    simp only [stored, blank]
    split
    · rename_i v hv
      show (Obj.store (val m { p with val := none } r.blank) m (some v)).storeAll r.stored = _
      rw [store, if_pos rfl, storeAll_val _ hn, ih g.2.2.2]
      cases p; cases hv; rfl
    · rename_i hv
      rw [storeAll_val _ hn, ih g.2.2.2]
      cases p; cases hv; rfl
  | obj m o r _ ih =>
    have hn : m ∉ r.stored.map (·.1) := by
      intro h
      obtain ⟨y, hy, e⟩ := List.mem_map.mp h
      have := stored_names r y hy
      rw [e, ← propNames_eq] at this
      exact g.2.1 this
    simp only [stored, blank]
    rw [storeAll_obj _ hn, ih g.2.2]

theorem stored_takes {o : Obj} (g : GoodObj o) : ∀ x ∈ o.stored, o.blank.Takes x.1 x.2 := by
  induction o with
  | nil => simp [stored]
  | val m p r ih =>
    have tail : ∀ x ∈ r.stored, (val m p r).blank.Takes x.1 x.2 := by
      intro x hx
      obtain ⟨q, hq, hf⟩ := ih g.2.2.2 x hx
      have hm : m ≠ x.1 := by
        intro e
        have := stored_names r x hx
        rw [← e, ← propNames_eq] at this
        exact g.2.2.1 this
      exact ⟨q, by simp [blank, find, hm, hq], hf⟩
    intro x
    simp only [stored]
    split
    · rename_i v hv
      simp only [List.mem_cons]
      rintro (h | h)
      · subst h
        exact ⟨{ p with val := none }, by simp [blank, find], g.2.1 v hv⟩
      · exact tail x h
    · exact tail x
  | obj m o r _ ih =>
    intro x hx
    obtain ⟨q, hq, hf⟩ := ih g.2.2 x hx
    have hm : m ≠ x.1 := by
      intro e
      have := stored_names r x hx
      rw [← e, ← propNames_eq] at this
      exact g.2.1 this
    exact ⟨q, by simp [blank, find, hm, hq], hf⟩

theorem load_of_shape {o s : Obj} (g : GoodObj o) (h : s.norm = o.blank.norm) :
    ∃ o', s.putAll (sortBy o.stored) = some o' ∧ o'.norm = o.norm := by
  obtain ⟨o', h1, h2⟩ := putAll_ok (sortBy o.stored) s (fun x hx =>
    (stored_takes g x ((mem_sortBy x _).mp hx)).congr h.symm)
  refine ⟨o', h1, ?_⟩
  rw [h2, storeAll_sort _ (stored_nodup g), storeAll_congr h, storeAll_blank g]

theorem shape_ok {o : Obj} (g : GoodObj o) : ∃ s, o.shape = some s ∧ s.norm = o.blank.norm := by
  induction o with
  | nil => exact ⟨nil, rfl, rfl⟩
  | val m p r ih =>
    obtain ⟨s, h1, h2⟩ := ih g.2.2.2
    exact ⟨_, by simp [shape, h1]; rfl, by simp [norm, blank, h2]⟩
  | obj m o r iho ihr =>
    obtain ⟨s, h1, h2⟩ := iho g.1
    obtain ⟨o', h3, h4⟩ := load_of_shape g.1 h2
    obtain ⟨t, h5, h6⟩ := ihr g.2.2
    exact ⟨obj m o' t, by simp [shape, h1, h3, h5], by simp [norm, blank, h4, h6]⟩

/-- Deserializing gives the same object. -/
theorem load_ok {o : Obj} (g : GoodObj o) : ∃ o', o.load = some o' ∧ o'.norm = o.norm := by
  obtain ⟨s, h1, h2⟩ := shape_ok g
  obtain ⟨o', h3, h4⟩ := load_of_shape g h2
  exact ⟨o', by simp [load, h1, h3], h4⟩

end Obj

theorem Data.load_ok {d : Data} (g : GoodObj d.obj) :
    ∃ d', d.load = some d' ∧ d'.norm = d.norm ∧ d'.lock .active = false := by
  obtain ⟨o, h1, h2⟩ := Obj.load_ok g
  refine ⟨_, by simp only [Data.load, h1]; rfl, ?_, ?_⟩
  · unfold Data.norm; rw [h2]
  · rfl

theorem Forest.load_ok {f : Forest} (g : Good f) :
    ∃ f', f.load = some f' ∧ f'.norm = f.norm ∧ Free f' := by
  induction f with
  | nil => exact ⟨.nil, rfl, rfl, trivial⟩
  | cons k d i r ihi ihr =>
    obtain ⟨d', a1, a2, a3⟩ := Data.load_ok g.1
    obtain ⟨i', b1, b2, b3⟩ := ihi g.2.1
    obtain ⟨r', c1, c2, c3⟩ := ihr g.2.2.2
    exact ⟨.cons k d' i' r', by simp [Forest.load, a1, b1, c1], by simp [Forest.norm, a2, b2, c2],
      a3, b3, c3⟩

theorem Comp.load_ok {c : Comp} (g1 : GoodObj c.1.obj) (g2 : Good c.2) :
    ∃ c', Comp.load c = some c' ∧ Comp.norm c' = Comp.norm c ∧ c'.1.lock .active = false ∧
      Free c'.2 := by
  obtain ⟨d', a1, a2, a3⟩ := Data.load_ok g1
  obtain ⟨i', b1, b2, b3⟩ := Forest.load_ok g2
  exact ⟨(d', i'), by simp [Comp.load, a1, b1], by simp [Comp.norm, a2, b2], a3, b3⟩

end Verif.Remote
