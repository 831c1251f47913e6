import Verif.Remote.Batch

/-!
# What a change on the server does to the server's own tree

Nothing in the first part uses the operations of the model; only its data types are used.
-/

namespace Verif.Remote.Spec
open Verif.Remote

/-- The properties of an object in their order. -/
def entries : Obj → List (Nat × Slot)
  | .nil => []
  | .val n p r => (n, .val p) :: entries r
  | .obj n o r => (n, .obj o) :: entries r

/-- The items of a folder in their order. -/
def items : Forest → List (Nat × Comp)
  | .nil => []
  | .cons k d i r => (k, (d, i)) :: items r

/-- Names are unique in the object and in its nested objects. -/
def Named : Obj → Prop
  | .nil => True
  | .val n _ r => n ∉ propNames r ∧ Named r
  | .obj n o r => Named o ∧ n ∉ propNames r ∧ Named r

/-- Ids are unique in every folder. -/
def Ided : Forest → Prop
  | .nil => True
  | .cons k _ i r => Ided i ∧ k ∉ itemIds r ∧ Ided r

/-- `Edit o q x y o'`: `x` is the object at path `q` of `o`, and `o'` is `o` with `y` in its place. -/
inductive Edit : Obj → List Nat → Obj → Obj → Obj → Prop
  | here (x y : Obj) : Edit x [] x y y
  | down {o o' c c' x y : Obj} {n : Nat} {q : List Nat} {l r : List (Nat × Slot)} :
      entries o = l ++ (n, .obj c) :: r → entries o' = l ++ (n, .obj c') :: r →
      Edit c q x y c' → Edit o (n :: q) x y o'

/-- `EditTree f p c c' f'`: `c` is the component with id `p` of `f`, and `f'` is `f` with `c'` in its
place. -/
inductive EditTree : Forest → List Nat → Comp → Comp → Forest → Prop
  | last {f f' : Forest} {c c' : Comp} {k : Nat} {l r : List (Nat × Comp)} :
      items f = l ++ (k, c) :: r → items f' = l ++ (k, c') :: r → EditTree f [k] c c' f'
  | down {f f' i i' : Forest} {d : Data} {c c' : Comp} {k : Nat} {p : List Nat}
      {l r : List (Nat × Comp)} :
      items f = l ++ (k, (d, i)) :: r → items f' = l ++ (k, (d, i')) :: r →
      EditTree i p c c' i' → EditTree f (k :: p) c c' f'

/-- The values that expressions read of an object. -/
def reads (o : Obj) (n : Nat) : Nat :=
  match (valueProps o).lookup n with
  | some p => value p
  | none => 0

/-- The same list with this value stored for property `n`. -/
def setVal (n : Nat) (v : Option Nat) (e : Nat × Slot) : Nat × Slot :=
  match e with
  | (m, .val p) => if m = n then (m, .val { p with val := v }) else (m, .val p)
  | (m, .obj o) => (m, .obj o)

/-- The object accepts the value for property `n` as `w`. -/
def Admits (o : Obj) (n v w : Nat) : Prop :=
  ∃ p, (n, p) ∈ valueProps o ∧ p.fix (reads o) v = some w

/-- The property reads as `v`. -/
def ReadsAs (o : Obj) (n v : Nat) : Prop := ∃ p, (n, p) ∈ valueProps o ∧ value p = v

/-- `Ran own o l o' es b`: handlers of property `own` set the properties of `l` one after the other,
from `o` to `o'` and with the events `es`; `b` is false if the object refused one of them, which ends
the handler. Setting the property itself has no effect at this point. -/
inductive Ran (own : Nat) : Obj → List (Nat × Nat) → Obj → List Told → Bool → Prop
  | nil (o : Obj) : Ran own o [] o [] true
  | own {o o' : Obj} {v : Nat} {l : List (Nat × Nat)} {es : List Told} {b : Bool} :
      Ran own o l o' es b → Ran own o ((own, v) :: l) o' es b
  | refused {o : Obj} {n v : Nat} {l : List (Nat × Nat)} : n ≠ own → (∀ w, ¬ Admits o n v w) →
      Ran own o ((n, v) :: l) o [] false
  | same {o o' : Obj} {n v w : Nat} {l : List (Nat × Nat)} {es : List Told} {b : Bool} : n ≠ own →
      Admits o n v w → ReadsAs o n w → Ran own o l o' es b → Ran own o ((n, v) :: l) o' es b
  | set {o x o' : Obj} {n v w : Nat} {l : List (Nat × Nat)} {es : List Told} {b : Bool} : n ≠ own →
      Admits o n v w → ¬ ReadsAs o n w → entries x = (entries o).map (setVal n (some w)) →
      Ran own x l o' es b → Ran own o ((n, v) :: l) o' ((n, some w) :: es) b

/-- The write or clear reaches the handlers, and would store `w` (`none`: nothing) in the property,
which would then read as `u`. -/
def Starts (o : Obj) (a : Act) (w : Option Nat) (u : Nat) : Prop :=
  ∃ p, (a.name, p) ∈ valueProps o ∧
    ((∃ v x, a.want = some v ∧ p.fix (reads o) v = some x ∧ x ≠ value p ∧ w = some x ∧ u = x) ∨
     (a.want = none ∧ p.val ≠ none ∧ w = none ∧ u = p.dflt))

/-- The write ends with an error: no such property, the value is refused, or the handlers were ended
by a refused value, or the value they left is refused. -/
def Fails (o : Obj) (a : Act) : Prop :=
  (∀ p, (a.name, p) ∉ valueProps o) ∨
  (∃ v, a.want = some v ∧ ∀ w, ¬ Admits o a.name v w) ∨
  (∃ w u x es, Starts o a w u ∧ Ran a.name o a.side x es false) ∨
  (∃ w u x es r, Starts o a w u ∧ Ran a.name o a.side x es true ∧ a.repl = some r ∧ r ≠ u ∧
    ∀ y, ¬ Admits x a.name r y)

/-- Writes are applied one after the other (`go`) up to the first that fails. -/
inductive Applied (go : Obj → Act → Obj) : Obj → List Act → Obj → Prop
  | nil (o : Obj) : Applied go o [] o
  | stop {o : Obj} {a : Act} {l : List Act} : Fails o a → Applied go o (a :: l) (go o a)
  | next {o y : Obj} {a : Act} {l : List Act} : ¬ Fails o a → Applied go (go o a) l y →
      Applied go o (a :: l) y

/-- The last event about a property. -/
def lastAbout (m : Nat) : List Told → Option (Option Nat)
  | [] => none
  | (n, v) :: l =>
    match lastAbout m l with
    | some x => some x
    | none => if n = m then some v else none

/-- The last event about the property tells its value; there is none if the value did not change. -/
def Truthful (m : Nat) (es : List Told) (p p' : P) : Prop :=
  match lastAbout m es with
  | none => value p' = value p
  | some none => value p' = p'.dflt
  | some (some v) => value p' = v

end Verif.Remote.Spec

namespace Verif.Remote
open Spec

namespace Obj

theorem named_nm {o : Obj} : ∀ {n : Nat} {p : P}, (n, p) ∈ valueProps o → n ∈ propNames o := by
  intro n p h
  induction o with
  | nil => simp [valueProps] at h
  | val m q r ih =>
    simp only [valueProps, List.mem_cons, Prod.mk.injEq] at h
    rcases h with ⟨h, _⟩ | h
    · simp [propNames, h]
    · simp [propNames, ih h]
  | obj m q r _ ih => simp [propNames, ih h]

/-- Under unique names looking for a value property is looking at the list. -/
theorem named_find {o : Obj} (g : Named o) {n : Nat} {p : P} :
    o.find n = some p ↔ (n, p) ∈ valueProps o := by
  refine ⟨find_valueProps, fun h => ?_⟩
  induction o with
  | nil => simp [valueProps] at h
  | val m q r ih =>
    simp only [valueProps, List.mem_cons, Prod.mk.injEq] at h
    rcases h with ⟨h1, h2⟩ | h
    · simp [find, h1, h2]
    · have hm : m ≠ n := fun e => g.1 (e ▸ named_nm h)
      simp [find, hm, ih g.2 h]
  | obj m q r _ ih =>
    have hm : m ≠ n := fun e => g.2.1 (e ▸ named_nm h)
    simp [find, hm, ih g.2.2 h]

theorem find_none_of {o : Obj} {n : Nat} (h : n ∉ propNames o) : o.find n = none := by
  cases e : o.find n with
  | none => rfl
  | some p => exact absurd (named_nm (find_valueProps e)) h

theorem lookup_none_of {o : Obj} {n : Nat} (h : n ∉ propNames o) : (valueProps o).lookup n = none := by
  induction o with
  | nil => rfl
  | val m q r ih =>
    simp only [propNames, List.mem_cons, not_or] at h
    have e : (n == m) = false := by simp [h.1]
    simp only [valueProps, List.lookup_cons, e, ih h.2]
  | obj m q r _ ih =>
    simp only [propNames, List.mem_cons, not_or] at h
    simp [valueProps, ih h.2]

theorem find_lookup {o : Obj} (g : Named o) (n : Nat) : o.find n = (valueProps o).lookup n := by
  induction o with
  | nil => rfl
  | val m q r ih =>
    simp only [find, valueProps, List.lookup_cons]
    by_cases e : m = n
    · subst e; simp
    · have : (n == m) = false := by simp [Ne.symm e]
      rw [if_neg e, this]; exact ih g.2
  | obj m q r _ ih =>
    simp only [find, valueProps]
    by_cases e : m = n
    · subst e; rw [if_pos rfl, lookup_none_of g.2.1]
    · rw [if_neg e]; exact ih g.2.2

theorem value_read (p : P) : value p = p.read := by
  unfold value P.read
  cases p.val <;> rfl

theorem env_reads {o : Obj} (g : Named o) : o.env = reads o := by
  funext n
  unfold env reads
  rw [find_lookup g]
  cases (valueProps o).lookup n with
  | none => rfl
  | some p => exact (value_read p).symm

theorem map_setVal_id {o : Obj} {n : Nat} (h : n ∉ propNames o) (v : Option Nat) :
    (entries o).map (setVal n v) = entries o := by
  induction o with
  | nil => rfl
  | val m p r ih =>
    simp only [propNames, List.mem_cons, not_or] at h
    simp [entries, setVal, Ne.symm h.1, ih h.2]
  | obj m o r _ ih =>
    simp only [propNames, List.mem_cons, not_or] at h
    simp [entries, setVal, ih h.2]

theorem entries_store {o : Obj} (g : Named o) (n : Nat) (v : Option Nat) :
    entries (o.store n v) = (entries o).map (setVal n v) := by
  induction o with
  | nil => rfl
  | val m p r ih =>
    by_cases e : m = n
    · subst e
      simp [store, entries, setVal, map_setVal_id g.1]
    · simp [store, entries, setVal, e, ih g.2]
  | obj m o r _ ih =>
    by_cases e : m = n
    · subst e
      simp [store, entries, setVal, map_setVal_id g.2.1]
    · simp [store, entries, setVal, e, ih g.2.2]

theorem entries_inj {o x : Obj} (h : entries o = entries x) : o = x := by
  induction o generalizing x with
  | nil => cases x <;> simp [entries] at h ⊢
  | val m p r ih =>
    cases x with
    | nil => simp [entries] at h
    | val m' p' r' =>
      simp only [entries, List.cons.injEq, Prod.mk.injEq, Slot.val.injEq] at h
      rw [h.1.1, h.1.2, ih h.2]
    | obj m' o' r' => simp [entries] at h
  | obj m o r _ ih =>
    cases x with
    | nil => simp [entries] at h
    | val m' p' r' => simp [entries] at h
    | obj m' o' r' =>
      simp only [entries, List.cons.injEq, Prod.mk.injEq, Slot.obj.injEq] at h
      rw [h.1.1, h.1.2, ih h.2]

theorem propNames_store (o : Obj) (n : Nat) (v : Option Nat) : propNames (o.store n v) = propNames o := by
  rw [propNames_eq, propNames_eq, names_store]

theorem named_store {o : Obj} (g : Named o) (n : Nat) (v : Option Nat) : Named (o.store n v) := by
  induction o with
  | nil => trivial
  | val m p r ih =>
    simp only [store]
    split
    · exact g
    · exact ⟨by rw [propNames_store]; exact g.1, ih g.2⟩
  | obj m o r _ ih =>
    simp only [store]
    split
    · exact g
    · exact ⟨g.1, by rw [propNames_store]; exact g.2.1, ih g.2.2⟩

theorem entries_append (o x : Obj) : entries (o.append x) = entries o ++ entries x := by
  induction o with
  | nil => rfl
  | val m p r ih => simp [append, entries, ih]
  | obj m o r _ ih => simp [append, entries, ih]

theorem filter_id {o : Obj} {n : Nat} (h : n ∉ propNames o) :
    (entries o).filter (fun e => e.1 != n) = entries o := by
  induction o with
  | nil => rfl
  | val m p r ih =>
    simp only [propNames, List.mem_cons, not_or] at h
    simp [entries, Ne.symm h.1, ih h.2]
  | obj m o r _ ih =>
    simp only [propNames, List.mem_cons, not_or] at h
    simp [entries, Ne.symm h.1, ih h.2]

theorem entries_erase {o : Obj} (g : Named o) (n : Nat) :
    entries (o.erase n) = (entries o).filter (fun e => e.1 != n) := by
  induction o with
  | nil => rfl
  | val m p r ih =>
    by_cases e : m = n
    · subst e; simp [erase, entries, filter_id g.1]
    · simp [erase, entries, e, ih g.2]
  | obj m o r _ ih =>
    by_cases e : m = n
    · subst e; simp [erase, entries, filter_id g.2.1]
    · simp [erase, entries, e, ih g.2.2]

theorem child_split {o : Obj} {n : Nat} {c : Obj} (h : o.child n = some c) (x : Obj) :
    ∃ l r, entries o = l ++ (n, .obj c) :: r ∧ entries (o.setChild n x) = l ++ (n, .obj x) :: r := by
  induction o with
  | nil => simp [child] at h
  | val m p s ih =>
    simp only [child] at h
    split at h
    · simp at h
    · rename_i e
      obtain ⟨l, r, h1, h2⟩ := ih h
      exact ⟨(m, .val p) :: l, r, by simp [entries, h1], by simp [setChild, e, entries, h2]⟩
  | obj m o s _ ih =>
    simp only [child] at h
    split at h
    · rename_i e
      cases h
      exact ⟨[], entries s, by simp [entries, e], by simp [setChild, e, entries]⟩
    · rename_i e
      obtain ⟨l, r, h1, h2⟩ := ih h
      exact ⟨(m, .obj o) :: l, r, by simp [entries, h1], by simp [setChild, e, entries, h2]⟩

theorem setSub_edit {o x : Obj} {q : List Nat} (h : o.sub q = some x) (y : Obj) :
    Edit o q x y (o.setSub q y) := by
  induction q generalizing o with
  | nil =>
    simp only [sub, Option.some.injEq] at h
    subst h
    exact Edit.here _ _
  | cons n q ih =>
    simp only [sub] at h
    cases hc : o.child n with
    | none => rw [hc] at h; simp at h
    | some c =>
      rw [hc] at h
      simp only [setSub, hc]
      obtain ⟨l, r, h1, h2⟩ := child_split hc (c.setSub q y)
      exact Edit.down h1 h2 (ih h)

/-- Objects are found where the list says. -/
theorem named_sub {o : Obj} (g : Named o) {q : List Nat} {x : Obj} (h : ObjAt o q x) :
    o.sub q = some x := by
  have nilc : ∀ {o x : Obj}, ObjAt o [] x → o.sub [] = some x := by
    intro o x h
    cases o with
    | nil => simp only [ObjAt] at h; rw [h.2]; rfl
    | val m p r =>
      rcases h with ⟨_, h⟩ | ⟨h, _⟩
      · rw [h]; rfl
      · simp at h
    | obj m p r =>
      rcases h with ⟨_, h⟩ | ⟨q', h, _⟩ | ⟨h, _⟩
      · rw [h]; rfl
      · simp at h
      · simp at h
  cases q with
  | nil => exact nilc h
  | cons n q =>
    induction o generalizing n q with
    | nil => simp [ObjAt] at h
    | val m p r ih =>
      rcases h with ⟨h, _⟩ | ⟨_, h⟩
      · simp at h
      · have hm : m ≠ n := by
          intro e
          have := objAt_name h
          rw [← e, ← propNames_eq] at this
          exact g.1 this
        have := ih g.2 n q h
        simp only [sub, child, if_neg hm] at this ⊢
        exact this
    | obj m p r iho ih =>
      rcases h with ⟨h, _⟩ | ⟨q', h, hx⟩ | ⟨_, h⟩
      · simp at h
      · simp only [List.cons.injEq] at h
        obtain ⟨e1, e2⟩ := h
        subst e1; subst e2
        simp only [sub, child, if_true]
        cases q with
        | nil => exact nilc hx
        | cons k q => exact iho g.1 k q hx
      · have hm : m ≠ n := by
          intro e
          have := objAt_name h
          rw [← e, ← propNames_eq] at this
          exact g.2.1 this
        have := ih g.2.2 n q h
        simp only [sub, child, if_neg hm] at this ⊢
        exact this

theorem named_child {o c : Obj} {n : Nat} (g : Named o) (h : o.child n = some c) : Named c := by
  induction o with
  | nil => simp [child] at h
  | val m p r ih =>
    simp only [child] at h
    split at h
    · simp at h
    · exact ih g.2 h
  | obj m o r _ ih =>
    simp only [child] at h
    split at h
    · cases h; exact g.1
    · exact ih g.2.2 h

theorem named_of_sub {o x : Obj} {q : List Nat} (g : Named o) (h : o.sub q = some x) : Named x := by
  induction q generalizing o with
  | nil => simp only [sub, Option.some.injEq] at h; subst h; exact g
  | cons n q ih =>
    simp only [sub] at h
    cases hc : o.child n with
    | none => rw [hc] at h; simp at h
    | some c => rw [hc] at h; exact ih (named_child g hc) h

/-! ### Handlers and writes -/

theorem named_admits {o : Obj} (g : Named o) {n v w : Nat} :
    Admits o n v w ↔ ∃ p, o.find n = some p ∧ p.fix o.env v = some w := by
  unfold Admits
  rw [env_reads g]
  constructor
  · rintro ⟨p, h, k⟩; exact ⟨p, (named_find g).mpr h, k⟩
  · rintro ⟨p, h, k⟩; exact ⟨p, (named_find g).mp h, k⟩

theorem named_readsAs {o : Obj} (g : Named o) {n v : Nat} {p : P} (h : o.find n = some p) :
    ReadsAs o n v ↔ v = p.read := by
  unfold ReadsAs
  constructor
  · rintro ⟨q, hq, e⟩
    rw [(named_find g).mpr hq] at h
    cases h
    rw [← e, value_read]
  · intro e
    exact ⟨p, (named_find g).mp h, by rw [value_read, e]⟩

theorem ran_sides (own : Nat) (l : List (Nat × Nat)) : ∀ {o : Obj}, Named o →
    Ran own o l (o.sides own l).1 (o.sides own l).2.1 (o.sides own l).2.2 ∧ Named (o.sides own l).1 := by
  induction l with
  | nil => intro o g; exact ⟨Ran.nil o, g⟩
  | cons a l ih =>
    obtain ⟨n, v⟩ := a
    intro o g
    unfold sides
    by_cases e : n = own
    · rw [if_pos e, e]
      exact ⟨Ran.own (ih g).1, (ih g).2⟩
    · rw [if_neg e]
      cases hf : o.find n with
      | none =>
        refine ⟨Ran.refused e ?_, g⟩
        rintro w ht
        obtain ⟨p, hp, _⟩ := (named_admits g).mp ht
        rw [hf] at hp; cases hp
      | some p =>
        dsimp only
        cases hx : p.fix o.env v with
        | none =>
          refine ⟨Ran.refused e ?_, g⟩
          rintro w ht
          obtain ⟨p', hp, hw⟩ := (named_admits g).mp ht
          rw [hf] at hp; cases hp
          rw [hx] at hw; cases hw
        | some w =>
          dsimp only
          have ht : Admits o n v w := (named_admits g).mpr ⟨p, hf, hx⟩
          by_cases hw : w = p.read
          · rw [if_pos hw]
            exact ⟨Ran.same e ht ((named_readsAs g hf).mpr hw) (ih g).1, (ih g).2⟩
          · rw [if_neg hw]
            have g' := named_store g n (some w)
            exact ⟨Ran.set e ht (fun h => hw ((named_readsAs g hf).mp h)) (entries_store g n (some w))
              (ih g').1, (ih g').2⟩

theorem ran_det {own : Nat} {o o1 o2 : Obj} {l : List (Nat × Nat)} {e1 e2 : List Told} {b1 b2 : Bool}
    (g : Named o) (h1 : Ran own o l o1 e1 b1) (h2 : Ran own o l o2 e2 b2) :
    o1 = o2 ∧ e1 = e2 ∧ b1 = b2 := by
  have uniq : ∀ {o : Obj}, Named o → ∀ {n v w w' : Nat}, Admits o n v w → Admits o n v w' → w = w' := by
    intro o g n v w w' a b
    obtain ⟨p, hp, hw⟩ := (named_admits g).mp a
    obtain ⟨p', hp', hw'⟩ := (named_admits g).mp b
    rw [hp] at hp'; cases hp'
    rw [hw] at hw'; exact Option.some.inj hw'
  induction h1 generalizing o2 e2 b2 with
  | nil o => cases h2; exact ⟨rfl, rfl, rfl⟩
  | own h ih =>
    cases h2 with
    | own h' => exact ih g h'
    | refused c _ => exact absurd rfl c
    | same c _ _ _ => exact absurd rfl c
    | set c _ _ _ _ => exact absurd rfl c
  | refused c d =>
    cases h2 with
    | own h' => exact absurd rfl c
    | refused _ _ => exact ⟨rfl, rfl, rfl⟩
    | same _ t _ _ => exact absurd t (d _)
    | set _ t _ _ _ => exact absurd t (d _)
  | same c t r h ih =>
    cases h2 with
    | own h' => exact absurd rfl c
    | refused _ d => exact absurd t (d _)
    | same _ _ _ h' => exact ih g h'
    | set _ t' r' _ _ => exact absurd (uniq g t t' ▸ r) r'
  | set c t r en h ih =>
    cases h2 with
    | own h' => exact absurd rfl c
    | refused _ d => exact absurd t (d _)
    | same _ t' r' _ => exact absurd (uniq g t' t ▸ r') r
    | set _ t' _ en' h' =>
      have := uniq g t t'
      subst this
      have hx := entries_inj (en.trans (entries_store g _ _).symm)
      have hx' := entries_inj (en'.trans (entries_store g _ _).symm)
      subst hx; subst hx'
      obtain ⟨a, b, c⟩ := ih (named_store g _ _) h'
      exact ⟨a, by rw [b], c⟩

/-- The handlers change only values. -/
theorem ran_sides_eq {own : Nat} {o x : Obj} {l : List (Nat × Nat)} {es : List Told} {b : Bool}
    (g : Named o) (h : Ran own o l x es b) : o.sides own l = (x, es, b) := by
  obtain ⟨a, b, c⟩ := ran_det g (ran_sides own l g).1 h
  rw [← a, ← b, ← c]

/-- What `act` does once the handlers are reached. -/
theorem act_starts {o x : Obj} {a : Act} {w : Option Nat} {u : Nat} {es : List Told} {b : Bool}
    (g : Named o) (hs : Starts o a w u) (hr : Ran a.name o a.side x es b) :
    o.act a = if b then x.finish a.name w (if a.repl = some u then none else a.repl) es
      else (x, es, .bad) := by
  obtain ⟨p, hp, hc⟩ := hs
  have hf := (named_find g).mpr hp
  unfold act
  rw [hf]
  dsimp only
  rcases hc with ⟨v, y, h1, h2, h3, h4, h5⟩ | ⟨h1, h2, h3, h4⟩
  · rw [← env_reads g] at h2
    rw [value_read] at h3
    subst h4; subst h5
    rw [h1]
    dsimp only
    rw [h2]
    dsimp only
    rw [if_neg h3, ran_sides_eq g hr]
  · subst h3; subst h4
    rw [h1]
    dsimp only
    rw [if_neg h2, ran_sides_eq g hr]

theorem act_not_starts {o : Obj} {a : Act} (g : Named o) (h : ∀ w u, ¬ Starts o a w u) :
    (o.act a).1 = o ∧ (o.act a).2.1 = [] ∧ ∀ v, (o.act a).2.2 ≠ .done v := by
  unfold act
  cases hf : o.find a.name with
  | none => exact ⟨rfl, rfl, fun v => by simp⟩
  | some p =>
    have hp := (named_find g).mp hf
    dsimp only
    cases hw : a.want with
    | none =>
      dsimp only
      by_cases hv : p.val = none
      · rw [if_pos hv]; exact ⟨rfl, rfl, fun v => by simp⟩
      · exact absurd ⟨p, hp, Or.inr ⟨hw, hv, rfl, rfl⟩⟩ (h none p.dflt)
    | some v =>
      dsimp only
      cases hx : p.fix o.env v with
      | none => exact ⟨rfl, rfl, fun v => by simp⟩
      | some w =>
        dsimp only
        by_cases e : w = p.read
        · rw [if_pos e]; exact ⟨rfl, rfl, fun v => by simp⟩
        · refine absurd ⟨p, hp, Or.inl ⟨v, w, hw, ?_, ?_, rfl, rfl⟩⟩ (h (some w) w)
          · rw [← env_reads g]; exact hx
          · rw [value_read]; exact e

theorem finish_cases (o : Obj) (n : Nat) (w r : Option Nat) (es : List Told) :
    (r = none ∧ o.finish n w r es = (o.store n w, es, .done w)) ∨
    (∃ v, r = some v ∧ o.put n v = none ∧ o.finish n w r es = (o, es, .bad)) ∨
    (∃ v y, r = some v ∧ o.put n v = some y ∧ o.finish n w r es = (y, es, .done (some v))) := by
  unfold finish
  cases r with
  | none => exact Or.inl ⟨rfl, rfl⟩
  | some v =>
    dsimp only
    cases hp : o.put n v with
    | none => exact Or.inr (Or.inl ⟨v, rfl, hp, rfl⟩)
    | some y => exact Or.inr (Or.inr ⟨v, y, rfl, hp, rfl⟩)

theorem put_none {o : Obj} (g : Named o) {n v : Nat} : o.put n v = none ↔ ∀ y, ¬ Admits o n v y := by
  constructor
  · intro h y ha
    obtain ⟨p, hp, hw⟩ := (named_admits g).mp ha
    simp only [put, hp, hw] at h
    split at h <;> simp at h
  · intro h
    cases hf : o.find n with
    | none => simp [put, hf]
    | some p =>
      cases hx : p.fix o.env v with
      | none => simp [put, hf, hx]
      | some w => exact absurd ((named_admits g).mpr ⟨p, hf, hx⟩) (h w)

theorem act_bad {o : Obj} {a : Act} (g : Named o) : (o.act a).2.2 = .bad ↔ Fails o a := by
  by_cases hs : ∃ w u, Starts o a w u
  · obtain ⟨w, u, hs⟩ := hs
    obtain ⟨hr, gx⟩ := ran_sides a.name a.side g
    generalize (o.sides a.name a.side).1 = x at hr gx
    generalize (o.sides a.name a.side).2.1 = es at hr
    generalize (o.sides a.name a.side).2.2 = b at hr
    rw [act_starts g hs hr]
    have hs' := hs
    have huniq : ∀ {w' u'}, Starts o a w' u' → u' = u := by
      intro w' u' h'
      obtain ⟨p, hp, hc⟩ := hs'
      obtain ⟨p', hp', hc'⟩ := h'
      have := ((named_find g).mpr hp).symm.trans ((named_find g).mpr hp')
      cases this
      rcases hc with ⟨v, y, h1, h2, _, _, h5⟩ | ⟨h1, _, _, h5⟩ <;>
        rcases hc' with ⟨v', y', k1, k2, _, _, k5⟩ | ⟨k1, _, _, k5⟩
      · rw [h1] at k1; cases k1; rw [h2] at k2; cases k2; rw [h5, k5]
      · rw [h1] at k1; cases k1
      · rw [h1] at k1; cases k1
      · rw [h5, k5]
    have nf1 : ¬ (∀ p, (a.name, p) ∉ valueProps o) := by
      obtain ⟨p, hp, _⟩ := hs'
      exact fun h => h p hp
    have nf2 : ¬ (∃ v, a.want = some v ∧ ∀ w, ¬ Admits o a.name v w) := by
      rintro ⟨v, hv, hn⟩
      obtain ⟨p, hp, ⟨v', y, h1, h2, _⟩ | ⟨h1, _⟩⟩ := hs'
      · rw [hv] at h1; cases h1; exact hn y ⟨p, hp, h2⟩
      · rw [hv] at h1; cases h1
    cases b with
    | false =>
      simp only [Bool.false_eq_true, if_false, true_iff]
      exact Or.inr (Or.inr (Or.inl ⟨w, u, x, es, hs, hr⟩))
    | true =>
      simp only [if_true]
      constructor
      · intro h
        rcases finish_cases x a.name w (if a.repl = some u then none else a.repl) es with
          ⟨_, e⟩ | ⟨v, e1, e2, _⟩ | ⟨v, y, _, _, e⟩
        · rw [e] at h; cases h
        · have e3 : a.repl = some v ∧ v ≠ u := by
            split at e1
            · cases e1
            · rename_i hne; exact ⟨e1, fun e => hne (by rw [e1, e])⟩
          exact Or.inr (Or.inr (Or.inr ⟨w, u, x, es, v, hs, hr, e3.1, e3.2, (put_none gx).mp e2⟩))
        · rw [e] at h; cases h
      · rintro (h | h | ⟨w', u', x', es', _, hr'⟩ | ⟨w', u', x', es', r, hs2, hr', h1, h2, h3⟩)
        · exact absurd h nf1
        · exact absurd h nf2
        · have := ran_det g hr hr'
          exact absurd this.2.2 (by simp)
        · have e := ran_det g hr hr'
          have eu := huniq hs2
          subst eu
          rw [h1]
          have : ¬ (some r = some u') := fun e => h2 (Option.some.inj e)
          rw [if_neg this]
          rw [← e.1] at h3
          simp only [finish, (put_none gx).mpr h3]
  · have hn : ∀ w u, ¬ Starts o a w u := fun w u h => hs ⟨w, u, h⟩
    constructor
    · intro h
      unfold act at h
      cases hf : o.find a.name with
      | none =>
        left
        intro p hp
        rw [(named_find g).mpr hp] at hf
        cases hf
      | some p =>
        rw [hf] at h
        dsimp only at h
        cases hw : a.want with
        | none =>
          rw [hw] at h
          dsimp only at h
          by_cases hv : p.val = none
          · rw [if_pos hv] at h; cases h
          · exact absurd ⟨p, (named_find g).mp hf, Or.inr ⟨hw, hv, rfl, rfl⟩⟩ (hn none p.dflt)
        | some v =>
          rw [hw] at h
          dsimp only at h
          cases hx : p.fix o.env v with
          | none =>
            refine Or.inr (Or.inl ⟨v, hw, ?_⟩)
            intro w ha
            obtain ⟨p', hp', hw'⟩ := (named_admits g).mp ha
            rw [hf] at hp'; cases hp'
            rw [hx] at hw'; cases hw'
          | some w =>
            rw [hx] at h
            dsimp only at h
            by_cases e : w = p.read
            · rw [if_pos e] at h; cases h
            · refine absurd ⟨p, (named_find g).mp hf, Or.inl ⟨v, w, hw, ?_, ?_, rfl, rfl⟩⟩ (hn (some w) w)
              · rw [← env_reads g]; exact hx
              · rw [value_read]; exact e
    · rintro (h | ⟨v, hv, h⟩ | ⟨w, u, _, _, h, _⟩ | ⟨w, u, _, _, _, h, _⟩)
      · cases hf : o.find a.name with
        | none => unfold act; rw [hf]
        | some p => exact absurd ((named_find g).mp hf) (h p)
      · unfold act
        cases hf : o.find a.name with
        | none => rfl
        | some p =>
          dsimp only
          rw [hv]
          dsimp only
          cases hx : p.fix o.env v with
          | none => rfl
          | some w => exact absurd ((named_admits g).mpr ⟨p, hf, hx⟩) (h w)
      · exact absurd h (hn w u)
      · exact absurd h (hn w u)

theorem named_put {o y : Obj} (g : Named o) {n v : Nat} (h : o.put n v = some y) : Named y := by
  unfold put at h
  cases hf : o.find n with
  | none => rw [hf] at h; cases h
  | some p =>
    rw [hf] at h
    dsimp only at h
    cases hx : p.fix o.env v with
    | none => rw [hx] at h; cases h
    | some w =>
      rw [hx] at h
      dsimp only at h
      split at h
      · cases h; exact g
      · cases h; exact named_store g _ _

theorem named_finish {o : Obj} (g : Named o) (n : Nat) (w r : Option Nat) (es : List Told) :
    Named (o.finish n w r es).1 := by
  rcases finish_cases o n w r es with ⟨_, e⟩ | ⟨v, _, _, e⟩ | ⟨v, y, _, h, e⟩
  · rw [e]; exact named_store g _ _
  · rw [e]; exact g
  · rw [e]; exact named_put g h

theorem named_act {o : Obj} (g : Named o) (a : Act) : Named (o.act a).1 := by
  by_cases hs : ∃ w u, Starts o a w u
  · obtain ⟨w, u, hs⟩ := hs
    obtain ⟨hr, gx⟩ := ran_sides a.name a.side g
    rw [act_starts g hs hr]
    split
    · exact named_finish gx _ _ _ _
    · exact gx
  · rw [(act_not_starts g (fun w u h => hs ⟨w, u, h⟩)).1]; exact g

theorem write_obj (o : Obj) (a : Act) : (o.write a).1 = (o.act a).1 := by
  unfold write
  dsimp only
  split <;> rfl

/-! ### Events -/

theorem lastAbout_append (m : Nat) (l k : List Told) :
    lastAbout m (l ++ k) = match lastAbout m k with | some x => some x | none => lastAbout m l := by
  induction l with
  | nil => simp only [List.nil_append, lastAbout]; cases lastAbout m k <;> rfl
  | cons a l ih =>
    obtain ⟨n, v⟩ := a
    simp only [List.cons_append, lastAbout, ih]
    cases lastAbout m k <;> rfl

/-- The handlers' events are truthful and never about their own property. -/
theorem sides_truthful (own : Nat) (l : List (Nat × Nat)) : ∀ {o : Obj} {m : Nat} {p : P},
    o.find m = some p → ∃ p', (o.sides own l).1.find m = some p' ∧ p'.dflt = p.dflt ∧ p'.fix = p.fix ∧
      Truthful m (o.sides own l).2.1 p p' ∧
      (m = own → p' = p ∧ lastAbout m (o.sides own l).2.1 = none) := by
  induction l with
  | nil => intro o m p h; exact ⟨p, h, rfl, rfl, rfl, fun _ => ⟨rfl, rfl⟩⟩
  | cons a l ih =>
    obtain ⟨n, v⟩ := a
    intro o m p h
    unfold sides
    by_cases e : n = own
    · rw [if_pos e]; exact ih h
    · rw [if_neg e]
      cases hf : o.find n with
      | none => exact ⟨p, h, rfl, rfl, rfl, fun _ => ⟨rfl, rfl⟩⟩
      | some q =>
        dsimp only
        cases hx : q.fix o.env v with
        | none => exact ⟨p, h, rfl, rfl, rfl, fun _ => ⟨rfl, rfl⟩⟩
        | some w =>
          dsimp only
          by_cases hw : w = q.read
          · rw [if_pos hw]; exact ih h
          · rw [if_neg hw]
            by_cases hm : m = n
            · subst hm
              rw [h] at hf; cases hf
              obtain ⟨p', h1, h2, h2', h3, h4⟩ := ih (find_store_self h (some w))
              refine ⟨p', h1, h2, h2', ?_, fun h => absurd h e⟩
              unfold Truthful at h3 ⊢
              simp only [lastAbout]
              generalize lastAbout m ((o.store m (some w)).sides own l).2.1 = z at *
              cases z with
              | none => simp only [if_true]; exact h3
              | some z => cases z <;> exact h3
            · obtain ⟨p', h1, h2, h2', h3, h4⟩ := ih ((find_store_ne hm (some w)).trans h)
              have hl : lastAbout m ((n, some w) :: ((o.store n (some w)).sides own l).2.1) =
                  lastAbout m ((o.store n (some w)).sides own l).2.1 := by
                simp only [lastAbout, if_neg (Ne.symm hm)]
                cases lastAbout m ((o.store n (some w)).sides own l).2.1 <;> rfl
              refine ⟨p', h1, h2, h2', ?_, fun h => ?_⟩
              · unfold Truthful at h3 ⊢
                dsimp only
                rw [hl]; exact h3
              · refine ⟨(h4 h).1, ?_⟩
                dsimp only
                rw [hl]; exact (h4 h).2

end Obj

namespace Forest

theorem ided_find {f : Forest} (g : Ided f) {p : List Nat} {d : Data} {i : Forest}
    (h : CompAt f p d i) : f.find p = some (d, i) := by
  induction f generalizing p with
  | nil => exact h.elim
  | cons m e j r ihj ihr =>
    rcases h with ⟨h1, h2, h3⟩ | ⟨p', h1, h2⟩ | h
    · subst h1; subst h2; subst h3
      simp [find, get]
    · subst h1
      have := ihj g.1 h2
      cases p' with
      | nil => exact absurd rfl (compAt_ne h2)
      | cons a p' => simp only [find, get, if_true]; exact this
    · have := ihr g.2.2 h
      cases p with
      | nil => exact absurd rfl (compAt_ne h)
      | cons a p =>
        have hm : m ≠ a := by
          intro e'
          have hh := compAt_mem h
          rw [← e', ← itemIds_eq] at hh
          exact g.2.1 hh
        cases p with
        | nil => simp only [find, get, if_neg hm] at this ⊢; exact this
        | cons b p => simp only [find, get, if_neg hm] at this ⊢; exact this

theorem get_split {f : Forest} {k : Nat} {c : Comp} (h : f.get k = some c) (x : Comp) :
    ∃ l r, items f = l ++ (k, c) :: r ∧ items (f.set k x) = l ++ (k, x) :: r := by
  induction f with
  | nil => simp [get] at h
  | cons m d i s _ ih =>
    simp only [get] at h
    split at h
    · rename_i e
      cases h
      exact ⟨[], items s, by simp [items, e], by simp [set, e, items]⟩
    · rename_i e
      obtain ⟨l, r, h1, h2⟩ := ih h
      exact ⟨(m, (d, i)) :: l, r, by simp [items, h1], by simp [set, e, items, h2]⟩

theorem upd_edit {f : Forest} {p : List Nat} {c : Comp} (h : f.find p = some c) (x : Comp) :
    EditTree f p c x (f.upd p x) := by
  induction p generalizing f with
  | nil => simp [find] at h
  | cons k p ih =>
    cases p with
    | nil =>
      simp only [find] at h
      obtain ⟨l, r, h1, h2⟩ := get_split h x
      exact EditTree.last h1 (by simpa only [upd] using h2)
    | cons j p =>
      simp only [find] at h
      cases hg : f.get k with
      | none => rw [hg] at h; simp at h
      | some y =>
        rw [hg] at h
        simp only [upd, hg]
        obtain ⟨l, r, h1, h2⟩ := get_split hg (y.1, y.2.upd (j :: p) x)
        exact EditTree.down (d := y.1) (i := y.2) h1 h2 (ih h)

theorem items_add (f : Forest) (k : Nat) (c : Comp) : items (f.add k c) = items f ++ [(k, c)] := by
  induction f with
  | nil => rfl
  | cons m d i r _ ih => simp [add, items, ih]

theorem items_filter_id {f : Forest} {k : Nat} (h : k ∉ itemIds f) :
    (items f).filter (fun e => e.1 != k) = items f := by
  induction f with
  | nil => rfl
  | cons m d i r _ ih =>
    simp only [itemIds, List.mem_cons, not_or] at h
    simp [items, Ne.symm h.1, ih h.2]

theorem items_del {f : Forest} (g : Ided f) (k : Nat) :
    items (f.del k) = (items f).filter (fun e => e.1 != k) := by
  induction f with
  | nil => rfl
  | cons m d i r _ ih =>
    by_cases e : m = k
    · subst e; simp [del, items, items_filter_id g.2.1]
    · simp [del, items, e, ih g.2.2]

theorem has_ids (f : Forest) (k : Nat) : f.has k = true ↔ k ∈ itemIds f := by
  induction f with
  | nil => simp [has, get, itemIds]
  | cons m d i r _ ih =>
    unfold has at ih ⊢
    simp only [get, itemIds, List.mem_cons]
    by_cases e : m = k
    · simp [e]
    · rw [if_neg e, ih]
      exact ⟨Or.inr, fun h => h.resolve_left (fun x => e x.symm)⟩

end Forest

end Verif.Remote
