import Verif.Remote.Sim

/-!
# Histories of the server, batches
-/

namespace Verif.Remote
open Spec

theorem Forest.itemIds_eq (f : Forest) : itemIds f = f.ids := by
  induction f with
  | nil => rfl
  | cons k d i r _ ih => simp [itemIds, Forest.ids, ih]

/-- A property of all the objects of a tree, and of every id and the ids after it. -/
def Tree (Q : Obj → Prop) (U : Nat → List Nat → Prop) : Forest → Prop
  | .nil => True
  | .cons k d i r => Q d.obj ∧ Tree Q U i ∧ U k r.ids ∧ Tree Q U r

theorem good_iff (f : Forest) : Good f ↔ Tree GoodObj (fun k l => k ∉ l) f := by
  induction f with
  | nil => exact Iff.rfl
  | cons k d i r ihi ihr =>
    unfold Good Tree
    rw [ihi, ihr, Forest.itemIds_eq]

theorem stable_iff (f : Forest) : StableTree f ↔ Tree StableObj (fun _ _ => True) f := by
  induction f with
  | nil => exact Iff.rfl
  | cons k d i r ihi ihr =>
    unfold StableTree Tree
    rw [ihi, ihr]
    simp

namespace Forest

theorem ids_set (f : Forest) (n : Nat) (c : Comp) : (f.set n c).ids = f.ids := by
  induction f with
  | nil => rfl
  | cons k d i r _ ih => simp only [set]; split <;> simp [ids, ih]

theorem ids_add (f : Forest) (n : Nat) (c : Comp) : (f.add n c).ids = f.ids ++ [n] := by
  induction f with
  | nil => rfl
  | cons k d i r _ ih => simp [add, ids, ih]

theorem ids_del (f : Forest) (n : Nat) : ∀ x ∈ (f.del n).ids, x ∈ f.ids := by
  induction f with
  | nil => simp [del]
  | cons k d i r _ ih =>
    intro x
    simp only [del]
    split
    · exact fun h => List.mem_cons_of_mem _ h
    · simp only [ids, List.mem_cons]
      rintro (h | h)
      · exact Or.inl h
      · exact Or.inr (ih x h)

theorem has_iff (f : Forest) (n : Nat) : f.has n = true ↔ n ∈ f.ids := by
  unfold has
  induction f with
  | nil => simp [get, ids]
  | cons k d i r _ ih =>
    by_cases e : k = n
    · simp [get, ids, e]
    · simp only [get, ids, if_neg e, List.mem_cons, ih]
      constructor
      · exact Or.inr
      · rintro (h | h)
        · exact absurd h.symm e
        · exact h

variable {Q : Obj → Prop} {U : Nat → List Nat → Prop}

theorem tree_get {f : Forest} (h : Tree Q U f) {k : Nat} {c : Comp} (hg : f.get k = some c) :
    Q c.1.obj ∧ Tree Q U c.2 := by
  induction f with
  | nil => simp [get] at hg
  | cons m d i r _ ih =>
    simp only [get] at hg
    split at hg
    · cases hg; exact ⟨h.1, h.2.1⟩
    · exact ih h.2.2.2 hg

theorem tree_set {f : Forest} (h : Tree Q U f) (k : Nat) {c : Comp} (h1 : Q c.1.obj)
    (h2 : Tree Q U c.2) : Tree Q U (f.set k c) := by
  induction f with
  | nil => trivial
  | cons m d i r _ ih =>
    simp only [set]
    split
    · exact ⟨h1, h2, h.2.2⟩
    · exact ⟨h.1, h.2.1, by rw [ids_set]; exact h.2.2.1, ih h.2.2.2⟩

theorem tree_del (hU : ∀ k l l', (∀ x ∈ l', x ∈ l) → U k l → U k l') {f : Forest} (h : Tree Q U f)
    (k : Nat) : Tree Q U (f.del k) := by
  induction f with
  | nil => trivial
  | cons m d i r _ ih =>
    simp only [del]
    split
    · exact h.2.2.2
    · exact ⟨h.1, h.2.1, hU _ _ _ (ids_del r k) h.2.2.1, ih h.2.2.2⟩

theorem tree_find {f : Forest} (h : Tree Q U f) {p : List Nat} {c : Comp} (hg : f.find p = some c) :
    Q c.1.obj ∧ Tree Q U c.2 := by
  induction p generalizing f with
  | nil => simp [find] at hg
  | cons k p ih =>
    cases p with
    | nil => simp only [find] at hg; exact tree_get h hg
    | cons j p =>
      simp only [find] at hg
      cases hk : f.get k with
      | none => rw [hk] at hg; simp at hg
      | some x =>
        rw [hk] at hg
        exact ih (tree_get h hk).2 hg

theorem tree_upd {f : Forest} (h : Tree Q U f) (p : List Nat) {c : Comp} (h1 : Q c.1.obj)
    (h2 : Tree Q U c.2) : Tree Q U (f.upd p c) := by
  induction p generalizing f with
  | nil => simpa [upd] using h
  | cons k p ih =>
    cases p with
    | nil => simp only [upd]; exact tree_set h k h1 h2
    | cons j p =>
      simp only [upd]
      cases hk : f.get k with
      | none => exact h
      | some x => exact tree_set h k (tree_get h hk).1 (ih (tree_get h hk).2)

theorem good_add {f : Forest} (h : Good f) {k : Nat} (hk : f.has k = false) {c : Comp}
    (h1 : GoodObj c.1.obj) (h2 : Good c.2) : Good (f.add k c) := by
  have hk' : k ∉ f.ids := fun hm => by rw [(has_iff f k).mpr hm] at hk; simp at hk
  clear hk
  induction f with
  | nil => exact ⟨h1, h2, by simp [itemIds], trivial⟩
  | cons m d i r _ ih =>
    simp only [ids, List.mem_cons, not_or] at hk'
    refine ⟨h.1, h.2.1, ?_, ih h.2.2.2 hk'.2⟩
    rw [itemIds_eq, ids_add, List.mem_append, List.mem_singleton]
    have := h.2.2.1
    rw [itemIds_eq] at this
    exact fun hh => hh.elim this (fun e => hk'.1 e.symm)

end Forest

/-! ### Well behaved trees and plain changes -/

theorem Obj.good_write {o : Obj} (g : GoodObj o) (a : Act) : GoodObj (o.write a).1 :=
  (Obj.write_ok (c := o) rfl g a).2

theorem run_good {x : Comp} (g1 : GoodObj x.1.obj) (g2 : Good x.2) {op : Op} (hp : Plain op) :
    GoodObj (op.run x).1.1.obj ∧ Good (op.run x).1.2 := by
  cases op with
  | attr a v up => simp only [Op.run]; split <;> exact ⟨g1, g2⟩
  | lock a b => exact ⟨g1, g2⟩
  | tagAdd t => simp only [Op.run]; split <;> exact ⟨g1, g2⟩
  | tagDel t => simp only [Op.run]; split <;> exact ⟨g1, g2⟩
  | statAdd n v m => exact hp.elim
  | statSet n v m =>
    simp only [Op.run]
    split
    · exact ⟨g1, g2⟩
    · split <;> exact ⟨g1, g2⟩
  | write q a =>
    simp only [Op.run]
    split
    · exact ⟨g1, g2⟩
    · rename_i o ho
      exact ⟨Obj.good_setSub g1 q (Obj.good_write (Obj.good_sub g1 ho) a), g2⟩
  | batch q l => exact hp.elim
  | propAdd q n s =>
    simp only [Op.run]
    split
    · exact ⟨g1, g2⟩
    · rename_i o ho
      split
      · exact ⟨g1, g2⟩
      · rename_i hh
        have hn : n ∉ o.names := fun hm => hh ((Obj.has_iff o n).mpr hm)
        refine ⟨Obj.good_setSub g1 q (Obj.good_append (Obj.good_sub g1 ho) ?_ ?_), g2⟩
        · cases s with
          | val p => exact ⟨hp, by simp, by simp [propNames], trivial⟩
          | obj o => exact ⟨hp, by simp [propNames], trivial⟩
        · intro m hm hm2
          have : m = n := by
            cases s <;> simpa [Slot.fresh, Obj.names] using hm2
          exact hn (this ▸ hm)
  | propDel q n =>
    simp only [Op.run]
    split
    · exact ⟨g1, g2⟩
    · rename_i o ho
      split
      · exact ⟨Obj.good_setSub g1 q (Obj.good_erase (Obj.good_sub g1 ho) n), g2⟩
      · exact ⟨g1, g2⟩
  | itemAdd k c =>
    simp only [Op.run]
    split
    · exact ⟨g1, g2⟩
    · rename_i hh
      exact ⟨g1, Forest.good_add g2 (by simpa using hh) hp.1 hp.2⟩
  | itemDel k =>
    simp only [Op.run]
    split
    · refine ⟨g1, ?_⟩
      rw [good_iff] at g2 ⊢
      exact Forest.tree_del (fun _ _ _ h1 h2 h3 => h2 (h1 _ h3)) g2 k
    · exact ⟨g1, g2⟩
  | update z => exact hp.elim

theorem fine_plain {x y : Comp} (g : GoodObj x.1.obj) {op : Op} (hp : Plain op) : Fine x y op := by
  cases op with
  | statAdd n v m => exact hp.elim
  | batch q l => exact hp.elim
  | update z => exact hp.elim
  | write q a => intro o c ho hc; exact (Obj.write_ok hc (Obj.good_sub g ho) a).1
  | propAdd q n s =>
    cases s with
    | val p => trivial
    | obj o => exact Obj.load_ok hp
  | itemAdd k c =>
    obtain ⟨c', h1, h2, _⟩ := Comp.load_ok hp.1 hp.2
    exact ⟨c', h1, h2⟩
  | attr a v up => trivial
  | lock a b => trivial
  | tagAdd t => trivial
  | tagDel t => trivial
  | statSet n v m => trivial
  | propDel q n => trivial
  | itemDel k => trivial

theorem serve_good {s : Forest} (g : Good s) (p : List Nat) {op : Op} (hp : Plain op) :
    Good (serve s p op).1 := by
  unfold serve
  cases hf : s.find p with
  | none => exact g
  | some x =>
    rw [good_iff] at g
    have gx := Forest.tree_find g hf
    have := run_good gx.1 ((good_iff _).mpr gx.2) hp
    dsimp only
    rw [good_iff]
    exact Forest.tree_upd g p this.1 ((good_iff _).mp this.2)

theorem history_ok : ∀ (ops : List (List Nat × Op)) {s c : Forest}, s.norm = c.norm → Free c →
    Good s → (∀ x ∈ ops, Plain x.2) →
    (handleAll c (history s ops).2).norm = (history s ops).1.norm ∧
    Free (handleAll c (history s ops).2) ∧ Good (history s ops).1
  | [], s, c, h, hc, g, _ => ⟨h.symm, hc, g⟩
  | (p, op) :: l, s, c, h, hc, g, hp => by
    have hop : Plain op := hp (p, op) (by simp)
    have gt := (good_iff s).mp g
    obtain ⟨a1, a2⟩ := serve_ok h hc p op (fun x y hx _ _ => fine_plain (Forest.tree_find gt hx).1 hop)
    have a3 := serve_good g p hop
    have := history_ok l a1.symm a2 a3 (fun x hx => hp x (by simp [hx]))
    simp only [history]
    rw [handleAll_append]
    exact this

/-! ### Properties whose limits depend on others -/

namespace Obj

theorem stable_find {o : Obj} (g : StableObj o) {n : Nat} {p : P} (h : o.find n = some p) :
    Stable p.fix := by
  induction o with
  | nil => simp [find] at h
  | val m q r ih =>
    simp only [find] at h
    split at h
    · cases h; exact g.1
    · exact ih g.2 h
  | obj m q r _ ih =>
    simp only [find] at h
    split at h
    · simp at h
    · exact ih g.2 h

theorem stable_store {o : Obj} (g : StableObj o) (n : Nat) (v : Option Nat) :
    StableObj (o.store n v) := by
  induction o with
  | nil => trivial
  | val m q r ih => simp only [store]; split <;> first | exact g | exact ⟨g.1, ih g.2⟩
  | obj m q r _ ih => simp only [store]; split <;> first | exact g | exact ⟨g.1, ih g.2⟩

theorem stable_child {o : Obj} (g : StableObj o) {n : Nat} {c : Obj} (h : o.child n = some c) :
    StableObj c := by
  induction o with
  | nil => simp [child] at h
  | val m q r ih =>
    simp only [child] at h
    split at h
    · simp at h
    · exact ih g.2 h
  | obj m q r _ ih =>
    simp only [child] at h
    split at h
    · cases h; exact g.1
    · exact ih g.2 h

theorem stable_setChild {o : Obj} (g : StableObj o) (n : Nat) {c : Obj} (gc : StableObj c) :
    StableObj (o.setChild n c) := by
  induction o with
  | nil => trivial
  | val m q r ih => simp only [setChild]; split <;> first | exact g | exact ⟨g.1, ih g.2⟩
  | obj m q r _ ih => simp only [setChild]; split <;> first | exact ⟨gc, g.2⟩ | exact ⟨g.1, ih g.2⟩

theorem stable_append {o x : Obj} (g : StableObj o) (gx : StableObj x) :
    StableObj (o.append x) := by
  induction o with
  | nil => exact gx
  | val m q r ih => exact ⟨g.1, ih g.2⟩
  | obj m q r _ ih => exact ⟨g.1, ih g.2⟩

theorem stable_erase {o : Obj} (g : StableObj o) (n : Nat) : StableObj (o.erase n) := by
  induction o with
  | nil => trivial
  | val m q r ih => simp only [erase]; split <;> first | exact g.2 | exact ⟨g.1, ih g.2⟩
  | obj m q r _ ih => simp only [erase]; split <;> first | exact g.2 | exact ⟨g.1, ih g.2⟩

theorem stable_sub {o : Obj} (g : StableObj o) {q : List Nat} {x : Obj} (h : o.sub q = some x) :
    StableObj x := by
  induction q generalizing o with
  | nil => simp only [sub, Option.some.injEq] at h; exact h ▸ g
  | cons n q ih =>
    simp only [sub] at h
    split at h
    · rename_i c hc
      exact ih (stable_child g hc) h
    · simp at h

theorem stable_setSub {o : Obj} (g : StableObj o) (q : List Nat) {x : Obj} (gx : StableObj x) :
    StableObj (o.setSub q x) := by
  induction q generalizing o with
  | nil => exact gx
  | cons n q ih =>
    simp only [setSub]
    split
    · rename_i c hc
      exact stable_setChild g n (ih (stable_child g hc))
    · exact g

theorem stable_put {o o' : Obj} (g : StableObj o) {n v : Nat} (h : o.put n v = some o') :
    StableObj o' := by
  unfold put at h
  split at h
  · simp at h
  · split at h
    · simp at h
    · split at h
      · cases h; exact g
      · cases h; exact stable_store g _ _

theorem finish_stable {o c : Obj} (h : o.norm = c.norm) (g : StableObj o) {n : Nat} {p : P}
    (hp : o.find n = some p) (w : Option Nat) (hw : ∀ x, w = some x → p.fix o.env x = some x)
    (repl : Option Nat) :
    StableObj (o.finish n w repl []).1 ∧ (o.finish n w repl []).2.1 = [] ∧
    ((match (o.finish n w repl []).2.2 with
      | .done v => c.tell (n, v)
      | _ => c)).norm = (o.finish n w repl []).1.norm := by
  unfold finish
  cases repl with
  | none =>
    dsimp only
    refine ⟨stable_store g n w, rfl, ?_⟩
    obtain ⟨q, hq, hqf, hqd, _⟩ := find_congr h hp
    cases w with
    | none =>
      unfold tell drop
      simp only [hq, Option.getD_some]
      rw [norm_store_none _ _ _ hq, norm_store_none _ _ _ hp, h, hqd]
    | some x =>
      rw [tell_some hq (by rw [hqf, ← env_congr h]; exact hw x rfl)]
      exact (store_congr h n x).symm
  | some r =>
    dsimp only
    have hc := put_congr h n r
    cases h1 : o.put n r with
    | none => exact ⟨g, rfl, h.symm⟩
    | some o' =>
      dsimp only
      refine ⟨stable_put g h1, rfl, ?_⟩
      rw [h1] at hc
      unfold tell
      dsimp only
      cases h2 : c.put n r with
      | none => rw [h2] at hc; simp at hc
      | some c' => rw [h2] at hc; simpa using hc.symm

theorem write_stable {o c : Obj} (h : o.norm = c.norm) (g : StableObj o) {a : Act}
    (hs : a.side = []) :
    ((o.write a).2.foldl tell c).norm = (o.write a).1.norm ∧ StableObj (o.write a).1 := by
  have key : ∀ (w : Option Nat) (p : P) (repl : Option Nat), o.find a.name = some p →
      (∀ x, w = some x → p.fix o.env x = some x) →
      (let r := o.finish a.name w repl []
       let t : Obj × List Told := match r.2.2 with
        | .done v => (r.1, r.2.1 ++ [(a.name, v)])
        | _ => (r.1, r.2.1)
       (t.2.foldl tell c).norm = t.1.norm ∧ StableObj t.1) := by
    intro w p repl hp hw
    dsimp only
    obtain ⟨f1, f2, f3⟩ := finish_stable h g hp w hw repl
    generalize o.finish a.name w repl [] = r at *
    cases hr : r.2.2 with
    | bad => rw [hr] at f3; simp only [f2]; exact ⟨f3, f1⟩
    | same => rw [hr] at f3; simp only [f2]; exact ⟨f3, f1⟩
    | done v =>
      rw [hr] at f3
      simp only [f2, List.nil_append, List.foldl_cons, List.foldl_nil]
      exact ⟨f3, f1⟩
  unfold write act
  cases hp : o.find a.name with
  | none => exact ⟨h.symm, g⟩
  | some p =>
    dsimp only
    cases hw : a.want with
    | none =>
      dsimp only
      by_cases hv : p.val = none
      · rw [if_pos hv]; exact ⟨h.symm, g⟩
      · rw [if_neg hv, hs]
        exact key none p _ hp (by simp)
    | some v =>
      dsimp only
      cases hf : p.fix o.env v with
      | none => exact ⟨h.symm, g⟩
      | some w =>
        dsimp only
        by_cases hr : w = p.read
        · rw [if_pos hr]; exact ⟨h.symm, g⟩
        · rw [if_neg hr, hs]
          exact key (some w) p _ hp
            (fun x hx => by cases hx; exact stable_find g hp _ _ _ hf)

end Obj

theorem run_stable {x : Comp} (g1 : StableObj x.1.obj) (g2 : StableTree x.2) {op : Op}
    (hp : Simple op) : StableObj (op.run x).1.1.obj ∧ StableTree (op.run x).1.2 := by
  cases op with
  | attr a v up => simp only [Op.run]; split <;> exact ⟨g1, g2⟩
  | lock a b => exact ⟨g1, g2⟩
  | tagAdd t => simp only [Op.run]; split <;> exact ⟨g1, g2⟩
  | tagDel t => simp only [Op.run]; split <;> exact ⟨g1, g2⟩
  | statAdd n v m => exact hp.elim
  | statSet n v m =>
    simp only [Op.run]
    split
    · exact ⟨g1, g2⟩
    · split <;> exact ⟨g1, g2⟩
  | write q a =>
    simp only [Op.run]
    split
    · exact ⟨g1, g2⟩
    · rename_i o ho
      exact ⟨Obj.stable_setSub g1 q
        (Obj.write_stable (c := o) rfl (Obj.stable_sub g1 ho) hp).2, g2⟩
  | batch q l => exact hp.elim
  | propAdd q n s =>
    simp only [Op.run]
    split
    · exact ⟨g1, g2⟩
    · rename_i o ho
      split
      · exact ⟨g1, g2⟩
      · refine ⟨Obj.stable_setSub g1 q (Obj.stable_append (Obj.stable_sub g1 ho) ?_), g2⟩
        cases s with
        | val p => exact ⟨hp, trivial⟩
        | obj o => exact hp.elim
  | propDel q n =>
    simp only [Op.run]
    split
    · exact ⟨g1, g2⟩
    · rename_i o ho
      split
      · exact ⟨Obj.stable_setSub g1 q (Obj.stable_erase (Obj.stable_sub g1 ho) n), g2⟩
      · exact ⟨g1, g2⟩
  | itemAdd k c => exact hp.elim
  | itemDel k =>
    simp only [Op.run]
    split
    · refine ⟨g1, ?_⟩
      rw [stable_iff] at g2 ⊢
      exact Forest.tree_del (fun _ _ _ _ _ => trivial) g2 k
    · exact ⟨g1, g2⟩
  | update z => exact hp.elim

theorem fine_simple {x y : Comp} (g : StableObj x.1.obj) {op : Op} (hp : Simple op) :
    Fine x y op := by
  cases op with
  | statAdd n v m => exact hp.elim
  | batch q l => exact hp.elim
  | update z => exact hp.elim
  | write q a => intro o c ho hc; exact (Obj.write_stable hc (Obj.stable_sub g ho) hp).1
  | propAdd q n s =>
    cases s with
    | val p => trivial
    | obj o => exact hp.elim
  | itemAdd k c => exact hp.elim
  | attr a v up => trivial
  | lock a b => trivial
  | tagAdd t => trivial
  | tagDel t => trivial
  | statSet n v m => trivial
  | propDel q n => trivial
  | itemDel k => trivial

theorem history_stable : ∀ (ops : List (List Nat × Op)) {s c : Forest}, s.norm = c.norm → Free c →
    StableTree s → (∀ x ∈ ops, Simple x.2) →
    (handleAll c (history s ops).2).norm = (history s ops).1.norm
  | [], s, c, h, hc, g, _ => h.symm
  | (p, op) :: l, s, c, h, hc, g, hp => by
    have hop : Simple op := hp (p, op) (by simp)
    have gt := (stable_iff s).mp g
    obtain ⟨a1, a2⟩ := serve_ok h hc p op
      (fun x y hx _ _ => fine_simple (Forest.tree_find gt hx).1 hop)
    have a3 : StableTree (serve s p op).1 := by
      unfold serve
      cases hf : s.find p with
      | none => exact g
      | some x =>
        have gx := Forest.tree_find gt hf
        have := run_stable gx.1 ((stable_iff _).mpr gx.2) hop
        dsimp only
        rw [stable_iff]
        exact Forest.tree_upd gt p this.1 ((stable_iff _).mp this.2)
    have := history_stable l a1.symm a2 a3 (fun x hx => hp x (by simp [hx]))
    simp only [history]
    rw [handleAll_append]
    exact this

end Verif.Remote
