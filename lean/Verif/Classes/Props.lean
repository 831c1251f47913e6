import Verif.Classes.Spec
import Verif.Types.PropsMgr
import Mathlib.Data.List.Nodup
/-
C127: a class has its own properties and those of its ancestors, the nearest one counts.
C128: classes and their parents in a type manager.
-/
namespace Verif.Classes.Props
open Verif.Types (Name Mgr Op)
open Spec

/-- C127: the property of the nearest class that has one, or an error when none has one. -/
theorem C127_get {m : CMgr} {c : Cls} {l : List Cls} (h : Chain m c l) (k : Nat) (hk : l.length ≤ k) (n : Name) :
    c.get k m n = some (match nearest l n with
      | some p => .ok p
      | none => .error .notFound) := by
  induction h generalizing k with
  | root c hp =>
    obtain ⟨k, rfl⟩ : ∃ j, k = j + 1 := ⟨k - 1, by simp at hk; omega⟩
    unfold Cls.get nearest Cls.own nearest
    cases c.props.find? (fun p => decide (p.name = n)) with
    | some p => rfl
    | none => simp [hp]
  | step c d q l hp hm hl _ ih =>
    obtain ⟨k, rfl⟩ : ∃ j, k = j + 1 := ⟨k - 1, by simp at hk; omega⟩
    unfold Cls.get nearest Cls.own
    cases c.props.find? (fun p => decide (p.name = n)) with
    | some p => rfl
    | none =>
      simp only [hp, hm, hl, Bool.not_true, Bool.false_eq_true, if_false]
      exact ih k (by simp at hk; omega)

/-- C127: a class has a property exactly when it or one of its ancestors does. -/
theorem C127_has {m : CMgr} {c : Cls} {l : List Cls} (h : Chain m c l) (k : Nat) (hk : l.length ≤ k) (n : Name) :
    c.has k m n = some (.ok (decide (∃ d ∈ l, ∃ p ∈ d.props, p.name = n))) := by
  induction h generalizing k with
  | root c hp =>
    obtain ⟨k, rfl⟩ : ∃ j, k = j + 1 := ⟨k - 1, by simp at hk; omega⟩
    unfold Cls.has Cls.own
    cases hf : c.props.find? (fun p => decide (p.name = n)) with
    | some p =>
      have h1 := List.find?_some hf
      have h2 := List.mem_of_find?_eq_some hf
      simp at h1
      simp only [List.mem_singleton, exists_eq_left]
      rw [decide_eq_true ⟨p, h2, h1⟩]
    | none =>
      simp only [List.find?_eq_none, decide_eq_true_eq] at hf
      simp only [hp, List.mem_singleton, exists_eq_left]
      rw [decide_eq_false]
      rintro ⟨p, h1, h2⟩
      exact hf p h1 h2
  | step c d q l hp hm hl _ ih =>
    obtain ⟨k, rfl⟩ : ∃ j, k = j + 1 := ⟨k - 1, by simp at hk; omega⟩
    unfold Cls.has Cls.own
    cases hf : c.props.find? (fun p => decide (p.name = n)) with
    | some p =>
      have h1 := List.find?_some hf
      have h2 := List.mem_of_find?_eq_some hf
      simp at h1
      rw [decide_eq_true ⟨c, by simp, p, h2, h1⟩]
    | none =>
      simp only [List.find?_eq_none, decide_eq_true_eq] at hf
      simp only [hp, hm, hl, Bool.not_true, Bool.false_eq_true, if_false]
      rw [ih k (by simp at hk; omega)]
      congr 3
      apply propext
      constructor
      · rintro ⟨e, he, x⟩
        exact ⟨e, List.mem_cons_of_mem _ he, x⟩
      · rintro ⟨e, he, p, h1, h2⟩
        rcases List.mem_cons.mp he with rfl | he'
        · exact absurd h2 (hf p h1)
        · exact ⟨e, he', p, h1, h2⟩

/-- C127: a property of the class itself is the one that counts. -/
theorem C127_own (m : CMgr) (c : Cls) (ht : Tidy c) (p : Property) (hp : p ∈ c.props) (k : Nat) :
    c.get (k + 1) m p.name = some (.ok p) ∧ c.has (k + 1) m p.name = some (.ok true) := by
  have h : c.own p.name = some p := by
    unfold Cls.own
    cases hf : c.props.find? (fun q => decide (q.name = p.name)) with
    | none =>
      simp only [List.find?_eq_none, decide_eq_true_eq] at hf
      exact absurd rfl (hf p hp)
    | some q =>
      have h1 := List.find?_some hf
      have h2 := List.mem_of_find?_eq_some hf
      simp at h1
      congr 1
      exact List.inj_on_of_nodup_map ht h2 hp h1
  unfold Cls.get Cls.has
  rw [h]
  exact ⟨rfl, rfl⟩

/-! ### Histories -/

theorem step_types (m : CMgr) (o : Op Entry) : (m.step Entry.name o).1.types = m.types ∨
    (∃ t ok, o = .add t ok ∧ m.types.lookup t.name = none ∧
      (m.step Entry.name o).1.types = m.types ++ [(t.name, t)]) ∨
    (∃ n ok, o = .remove n ok ∧ (m.step Entry.name o).1.types = m.types.filter (fun e => e.1 != n)) := by
  have tell : ∀ (m : CMgr) e ok, (m.tell e ok).1.types = m.types := by
    intro m e ok
    unfold Mgr.tell
    split <;> rfl
  cases o with
  | add t ok =>
    simp only [Mgr.step, Mgr.add]
    split
    · exact .inl rfl
    · split
      · exact .inl rfl
      · split
        · exact .inl rfl
        · split
          · left; split <;> rfl
          · rename_i hl
            right; left
            exact ⟨t, ok, rfl, hl, tell _ _ _⟩
  | remove n ok =>
    simp only [Mgr.step, Mgr.remove]
    split
    · exact .inl rfl
    · right; right
      exact ⟨n, ok, rfl, tell _ _ _⟩
  | callback b => exact .inl rfl

theorem lookup_append_single {l : List (Name × Entry)} {n : Name} {t : Entry} (q : Name) (e : Entry)
    (h : l.lookup q = some e) : (l ++ [(n, t)]).lookup q = some e := by
  induction l with
  | nil => simp at h
  | cons x l ih =>
    obtain ⟨x1, x2⟩ := x
    rw [List.cons_append, List.lookup_cons]
    rw [List.lookup_cons] at h
    split at h
    · exact h
    · exact ih h

theorem lookup_filter_ne {l : List (Name × Entry)} {n : Name} (q : Name) (e : Entry) (hq : q ≠ n)
    (h : l.lookup q = some e) : (l.filter (fun e => e.1 != n)).lookup q = some e := by
  induction l with
  | nil => simp at h
  | cons x l ih =>
    obtain ⟨x1, x2⟩ := x
    rw [List.lookup_cons] at h
    rw [List.filter_cons]
    split at h
    · rename_i hx
      have : x1 ≠ n := by rw [← beq_iff_eq.mp hx]; exact hq
      rw [if_pos (by simpa using this), List.lookup_cons, hx]
      exact h
    · rename_i hx
      split
      · rw [List.lookup_cons, hx]
        exact ih h
      · exact ih h

/-- C127: the answers stay the same whatever types are added, also when that fails, and
whatever types are removed that are not ancestors of the class. -/
theorem C127_stable {m : CMgr} {c : Cls} {l : List Cls} (h : Chain m c l) (ops : List (Op Entry))
    (hr : ∀ n ok, Op.remove n ok ∈ ops → ∀ d ∈ l, d.parent ≠ some n) :
    Chain (Mgr.run Entry.name m ops) c l := by
  induction ops generalizing m with
  | nil => exact h
  | cons o ops ih =>
    refine ih (m := (m.step Entry.name o).1) ?_ (fun n ok hn => hr n ok (List.mem_cons_of_mem _ hn))
    have hl : ∀ d ∈ l, ∀ q e, d.parent = some q → m.types.lookup q = some e →
        (m.step Entry.name o).1.types.lookup q = some e := by
      intro d hd q e hq he
      rcases step_types m o with h1 | ⟨t, ok, _, _, h1⟩ | ⟨n, ok, rfl, h1⟩
      · rw [h1]; exact he
      · rw [h1]; exact lookup_append_single q e he
      · rw [h1]
        refine lookup_filter_ne q e ?_ he
        rintro rfl
        exact hr _ ok (by simp) d hd hq
    clear ih hr
    induction h with
    | root c hp => exact .root c hp
    | step c d q l hp hm hq _ ih =>
      exact .step c d q l hp hm (hl c (by simp) q _ hp hq)
        (ih (fun e he => hl e (List.mem_cons_of_mem _ he)))

/-- Every class comes after its parent. -/
def After (l : List (Name × Entry)) : Prop :=
  ∀ a k c b, l = a ++ (k, Entry.cls c) :: b → ∀ q, c.parent = some q →
    c.managed = true ∧ ∃ d, (q, Entry.cls d) ∈ a

theorem After.snoc {l : List (Name × Entry)} (h : After l) (t : Entry) (n : Name)
    (ht : ∀ c, t = .cls c → ∀ q, c.parent = some q → c.managed = true ∧ ∃ d, (q, Entry.cls d) ∈ l) :
    After (l ++ [(n, t)]) := by
  intro a k c b hl q hq
  rcases List.eq_nil_or_concat b with rfl | ⟨b', x, rfl⟩
  · have := List.append_inj' hl rfl
    obtain ⟨rfl, h2⟩ := this
    simp only [List.cons.injEq, Prod.mk.injEq, and_true] at h2
    exact ht c h2.2 q hq
  · have h' : l ++ [(n, t)] = (a ++ (k, Entry.cls c) :: b') ++ [x] := by
      rw [hl]; simp [List.concat_eq_append]
    obtain ⟨h1, _⟩ := List.append_inj' h' rfl
    exact h a k c b' h1 q hq

theorem filter_split {α : Type} (p : α → Bool) : ∀ (l : List α) (a : List α) (x : α) (b : List α),
    l.filter p = a ++ x :: b → ∃ a' b', l = a' ++ x :: b' ∧ a'.filter p = a
  | [], a, x, b, h => by simp at h
  | y :: l, a, x, b, h => by
    rw [List.filter_cons] at h
    split at h
    · rename_i hy
      cases a with
      | nil =>
        simp only [List.nil_append, List.cons.injEq] at h
        exact ⟨[], l, by simp [h.1], rfl⟩
      | cons z a =>
        simp only [List.cons_append, List.cons.injEq] at h
        obtain ⟨a', b', h1, h2⟩ := filter_split p l a x b h.2
        exact ⟨y :: a', b', by simp [h1], by rw [List.filter_cons, if_pos hy, h2, h.1]⟩
    · rename_i hy
      obtain ⟨a', b', h1, h2⟩ := filter_split p l a x b h
      exact ⟨y :: a', b', by simp [h1], by rw [List.filter_cons, if_neg hy, h2]⟩

theorem After.filter {l : List (Name × Entry)} (h : After l) (n : Name)
    (hn : ∀ k c, (k, Entry.cls c) ∈ l → c.parent ≠ some n) : After (l.filter (fun e => e.1 != n)) := by
  intro a k c b hl q hq
  obtain ⟨a', b', h1, h2⟩ := filter_split _ _ _ _ _ hl
  obtain ⟨hm, d, hd⟩ := h a' k c b' h1 q hq
  refine ⟨hm, d, ?_⟩
  rw [← h2, List.mem_filter]
  refine ⟨hd, ?_⟩
  have : q ≠ n := by
    rintro rfl
    exact hn k c (by rw [h1]; simp) hq
  simpa using this

structure Good (m : CMgr) : Prop where
  after : After m.types
  inv : Types.Props.Inv Entry.name m.types

theorem mem_lookup {l : List (Name × Entry)} (hn : (l.map (·.1)).Nodup) {q : Name} {e : Entry} (h : (q, e) ∈ l) :
    l.lookup q = some e := by
  induction l with
  | nil => simp at h
  | cons x l ih =>
    simp only [List.map_cons, List.nodup_cons] at hn
    rcases List.mem_cons.mp h with rfl | h
    · simp
    · have : (q == x.1) = false := by
        rw [beq_eq_false_iff_ne]
        rintro rfl
        exact hn.1 (List.mem_map.mpr ⟨_, h, rfl⟩)
      rw [List.lookup_cons, this]
      exact ih hn.2 h

theorem Good.step {m : CMgr} (h : Good m) (o : Op Entry) (ho : Allowed m o) : Good (m.step Entry.name o).1 := by
  refine ⟨?_, Types.Props.step_inv Entry.name m o h.inv⟩
  rcases step_types m o with h1 | ⟨t, ok, rfl, hl, h1⟩ | ⟨n, ok, rfl, h1⟩
  · rw [h1]; exact h.after
  · rw [h1]
    refine h.after.snoc t t.name ?_
    rintro c rfl q hq
    obtain ⟨hm, d, hd⟩ := ho q hq
    exact ⟨hm, d, Types.Props.lookup_mem hd⟩
  · rw [h1]; exact h.after.filter n ho

theorem Good.chain {m : CMgr} (h : Good m) : ∀ (j : Nat) (a : List (Name × Entry)) (k : Name) (c : Cls) (b : List (Name × Entry)),
    a.length ≤ j → m.types = a ++ (k, .cls c) :: b → ∃ l, Chain m c l ∧ l.length ≤ j + 1
  | j, a, k, c, b, hj, hm => by
    cases hp : c.parent with
    | none => exact ⟨[c], .root c hp, by simp⟩
    | some q =>
      obtain ⟨hmg, d, hd⟩ := h.after a k c b hm q hp
      obtain ⟨a', b', rfl⟩ := List.append_of_mem hd
      cases j with
      | zero => simp at hj
      | succ j =>
        obtain ⟨l, hl, hlen⟩ := Good.chain h j a' q d (b' ++ (k, .cls c) :: b) (by simp at hj; omega) (by rw [hm]; simp)
        refine ⟨c :: l, .step c d q l hp hmg ?_ hl, by simp; omega⟩
        exact mem_lookup h.inv.nodup (by rw [hm]; simp)

theorem Good.run {m : CMgr} (h : Good m) (ops : List (Op Entry)) (ho : AllAllowed m ops) :
    Good (Mgr.run Entry.name m ops) := by
  induction ops generalizing m with
  | nil => exact h
  | cons o ops ih => exact ih (h.step o ho.1) ho.2

/-- C128: as long as classes are added after their parents and not removed before their
children, every class of the manager has a finite chain of ancestors, no longer than there
are types, so that every question is answered.  Missing: neither is enforced, see the
violations. -/
theorem C128_chain_partial (ops : List (Op Entry)) (ho : AllAllowed {} ops) (n : Name) (c : Cls)
    (hc : (Mgr.run Entry.name {} ops).types.lookup n = some (.cls c)) :
    ∃ l, Chain (Mgr.run Entry.name {} ops) c l ∧ l.length ≤ (Mgr.run Entry.name {} ops).types.length := by
  have h : Good (Mgr.run Entry.name {} ops) := by
    refine Good.run ⟨?_, ?_⟩ ops ho
    · intro a k c b hl; simp at hl
    · exact ⟨by simp, by simp, by simp, by simp⟩
  obtain ⟨a, b, hab⟩ := List.append_of_mem (Types.Props.lookup_mem hc)
  obtain ⟨l, h1, h2⟩ := h.chain a.length a n c b (Nat.le_refl _) hab
  exact ⟨l, h1, by rw [hab]; simp; omega⟩

/-- C127: a name that the class itself lacks is an error when the parent cannot be asked:
without a manager, when the manager does not have it, or has another type of that name. -/
theorem C127_broken (m : CMgr) (c : Cls) (q n : Name) (k : Nat) (hp : c.parent = some q) (hn : ∀ p ∈ c.props, p.name ≠ n) :
    (c.managed = false → c.get (k + 1) m n = some (.error .noManager) ∧ c.has (k + 1) m n = some (.error .noManager) ∧
      c.list (k + 1) m true = some (.error .noManager)) ∧
    (c.managed = true → m.types.lookup q = none → c.get (k + 1) m n = some (.error .notFound) ∧
      c.has (k + 1) m n = some (.error .notFound) ∧ c.list (k + 1) m true = some (.error .notFound)) ∧
    (c.managed = true → ∀ x y, m.types.lookup q = some (.other x y) → c.get (k + 1) m n = some (.error .badType) ∧
      c.has (k + 1) m n = some (.error .badType) ∧ c.list (k + 1) m true = some (.error .noIface)) := by
  have h : c.own n = none := by
    unfold Cls.own
    simpa [List.find?_eq_none] using hn
  refine ⟨?_, ?_, ?_⟩
  · intro hm; unfold Cls.get Cls.has Cls.list; simp [h, hp, hm]
  · intro hm hl; unfold Cls.get Cls.has Cls.list; simp [h, hp, hm, hl]
  · intro hm x y hl; unfold Cls.get Cls.has Cls.list; simp [h, hp, hm, hl]

/-! ### Examples -/

def nA : Name := ['A']
def nB : Name := ['B']
def nx : Name := ['x']
def ny : Name := ['y']
def nz : Name := ['z']

/-- A base class with two properties. -/
def base : Cls := ⟨1, nA, none, [⟨nx, none, 1⟩, ⟨ny, none, 2⟩], [], true⟩

/-- A class that overrides one of them and has one more. -/
def derived : Cls := ⟨2, nB, some nA, [⟨nx, none, 3⟩, ⟨nz, none, 4⟩], [], true⟩

def both : List (Op Entry) := [.add (.cls base) true, .add (.cls derived) true]

def bothMgr : CMgr := { types := [(nA, .cls base), (nB, .cls derived)] }

theorem both_run : Mgr.run Entry.name {} both = bothMgr := by decide +kernel

theorem both_chain : Chain bothMgr derived [derived, base] :=
  .step derived base nA [base] rfl rfl rfl (.root base rfl)

example : derived.get 2 bothMgr nx = some (.ok ⟨nx, none, 3⟩) ∧ derived.get 2 bothMgr ny = some (.ok ⟨ny, none, 2⟩) ∧
    derived.get 2 bothMgr nA = some (.error .notFound) := by
  refine ⟨?_, ?_, ?_⟩ <;> rw [C127_get both_chain 2 (by decide)] <;> rfl

/-- Non-vacuity of C128: a history with a base class, a derived class, a removal that is
allowed and a class that is refused. -/
example : AllAllowed {} (both ++ [.remove nB true, .add (.cls { base with uid := 7 }) true]) := by
  refine ⟨?_, ?_, ?_, ?_, trivial⟩
  · intro q hq; simp [base] at hq
  · intro q hq
    simp only [derived, Option.some.injEq] at hq
    subst hq
    exact ⟨rfl, base, by decide +kernel⟩
  · intro k c hc hp
    have : (k, Entry.cls c) ∈ bothMgr.types := by
      have h : ((({} : CMgr).step Entry.name (.add (.cls base) true)).1.step Entry.name (.add (.cls derived) true)).1.types =
          bothMgr.types := by decide +kernel
      rw [← h]; exact hc
    simp [bothMgr, base, derived] at this
    rcases this with ⟨_, rfl⟩ | ⟨_, rfl⟩ <;> simp [nA, nB] at hp
  · intro q hq; simp [base] at hq

/-- C128, violation: a class is accepted whose parent is not there; then it does not even
tell that it lacks a property, and its properties cannot be listed. -/
theorem C128_violation_child_first (k : Nat) :
    (Mgr.step Entry.name {} (.add (.cls derived) true)).2 = none ∧
    derived.has (k + 1) (Mgr.step Entry.name {} (.add (.cls derived) true)).1 ny = some (.error .notFound) ∧
    derived.list (k + 1) (Mgr.step Entry.name {} (.add (.cls derived) true)).1 true = some (.error .notFound) := by
  have h : (Mgr.step Entry.name {} (.add (.cls derived) true)) = ({ types := [(nB, .cls derived)] }, none) := by decide +kernel
  rw [h]
  exact ⟨rfl, rfl, rfl⟩

/-- C128, violation: a class is removed although another one has it as its parent; objects of
that class lose the inherited properties. -/
theorem C128_violation_parent_removed (k : Nat) :
    objGet (k + 2) bothMgr derived [] ny = some (.ok ⟨ny, none, 2⟩) ∧
    (bothMgr.step Entry.name (.remove nA true)).2 = none ∧
    objGet (k + 2) (bothMgr.step Entry.name (.remove nA true)).1 derived [] ny = some (.error .notFound) := by
  have h : (bothMgr.step Entry.name (.remove nA true)) = ({ types := [(nB, .cls derived)] }, none) := by decide +kernel
  rw [h]
  exact ⟨rfl, rfl, rfl⟩

theorem list_none {m : CMgr} {c d : Cls} {q : Name} {k : Nat} (hp : c.parent = some q) (hm : c.managed = true)
    (hl : m.types.lookup q = some (.cls d)) (h : d.list k m true = none) : c.list (k + 1) m true = none := by
  unfold Cls.list
  simp [hp, hm, hl, h]

/-- Two classes, each the parent of the other. -/
def left : Cls := ⟨1, nA, some nB, [], [], true⟩
def right : Cls := ⟨2, nB, some nA, [], [], true⟩
def ring : CMgr := { types := [(nA, .cls left), (nB, .cls right)] }

/-- C128, violation: two classes are accepted that are parents of each other; asking for a
property that they do not have never ends: no stack is large enough. -/
theorem C128_violation_cycle : Mgr.run Entry.name {} [.add (.cls left) true, .add (.cls right) true] = ring ∧
    (∀ k, left.get k ring nx = none) ∧ (∀ k, left.has k ring nx = none) ∧ ∀ k, left.list k ring true = none := by
  have hg : ∀ k, left.get k ring nx = none ∧ right.get k ring nx = none := by
    intro k
    induction k with
    | zero => exact ⟨rfl, rfl⟩
    | succ k ih => exact ⟨ih.2, ih.1⟩
  have hh : ∀ k, left.has k ring nx = none ∧ right.has k ring nx = none := by
    intro k
    induction k with
    | zero => exact ⟨rfl, rfl⟩
    | succ k ih => exact ⟨ih.2, ih.1⟩
  have hl : ∀ k, left.list k ring true = none ∧ right.list k ring true = none := by
    intro k
    induction k with
    | zero => exact ⟨rfl, rfl⟩
    | succ k ih =>
      exact ⟨list_none (d := right) (q := nB) rfl rfl rfl ih.2, list_none (d := left) (q := nA) rfl rfl rfl ih.1⟩
  exact ⟨by decide +kernel, fun k => (hg k).1, fun k => (hh k).1, fun k => (hl k).1⟩

end Verif.Classes.Props
