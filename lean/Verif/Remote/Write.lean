import Verif.Remote.Norm

/-!
# Writes on the server and their events on the client
-/

namespace Verif.Remote
open Spec

namespace Obj

theorem propNames_eq (o : Obj) : propNames o = o.names := by
  induction o with
  | nil => rfl
  | val n p r ih => simp [propNames, names, ih]
  | obj n o r _ ih => simp [propNames, names, ih]

theorem has_iff (o : Obj) (n : Nat) : o.has n = true ↔ n ∈ o.names := by
  induction o with
  | nil => simp [has, names]
  | val m p r ih =>
    simp only [has, names, List.mem_cons, Bool.or_eq_true, beq_iff_eq, ih]
    exact or_congr ⟨Eq.symm, Eq.symm⟩ Iff.rfl
  | obj m o r _ ih =>
    simp only [has, names, List.mem_cons, Bool.or_eq_true, beq_iff_eq, ih]
    exact or_congr ⟨Eq.symm, Eq.symm⟩ Iff.rfl

theorem find_mem {o : Obj} {n : Nat} {p : P} (h : o.find n = some p) : n ∈ o.names := by
  induction o with
  | nil => simp [find] at h
  | val m q r ih =>
    simp only [find] at h
    split at h
    · rename_i e; simp [names, e]
    · simp [names, ih h]
  | obj m q r _ ih =>
    simp only [find] at h
    split at h
    · simp at h
    · simp [names, ih h]

theorem names_store (o : Obj) (n : Nat) (v : Option Nat) : (o.store n v).names = o.names := by
  induction o with
  | nil => rfl
  | val m p r ih => simp only [store]; split <;> simp [names, ih]
  | obj m o r _ ih => simp only [store]; split <;> simp [names, ih]

theorem names_setChild (o : Obj) (n : Nat) (c : Obj) : (o.setChild n c).names = o.names := by
  induction o with
  | nil => rfl
  | val m p r ih => simp only [setChild]; split <;> simp [names, ih]
  | obj m o r _ ih => simp only [setChild]; split <;> simp [names, ih]

theorem names_append (o x : Obj) : (o.append x).names = o.names ++ x.names := by
  induction o with
  | nil => rfl
  | val m p r ih => simp [append, names, ih]
  | obj m o r _ ih => simp [append, names, ih]

theorem names_erase_sub (o : Obj) (n : Nat) : ∀ x ∈ (o.erase n).names, x ∈ o.names := by
  induction o with
  | nil => simp [erase]
  | val m p r ih =>
    intro x
    simp only [erase]
    split
    · simp only [names]; exact fun h => List.mem_cons_of_mem _ h
    · simp only [names, List.mem_cons]
      rintro (h | h)
      · exact Or.inl h
      · exact Or.inr (ih x h)
  | obj m o r _ ih =>
    intro x
    simp only [erase]
    split
    · simp only [names]; exact fun h => List.mem_cons_of_mem _ h
    · simp only [names, List.mem_cons]
      rintro (h | h)
      · exact Or.inl h
      · exact Or.inr (ih x h)

theorem find_store_ne {o : Obj} {n m : Nat} (h : n ≠ m) (v : Option Nat) :
    (o.store m v).find n = o.find n := by
  induction o with
  | nil => rfl
  | val k p r ih =>
    by_cases e : k = m
    · subst e; simp [store, find, Ne.symm h]
    · rw [store, if_neg e]
      by_cases e2 : k = n <;> simp [find, e2, ih]
  | obj k o r _ ih =>
    by_cases e : k = m
    · subst e; simp [store, find]
    · rw [store, if_neg e]
      by_cases e2 : k = n <;> simp [find, e2, ih]

theorem find_store_self {o : Obj} {n : Nat} {p : P} (h : o.find n = some p) (v : Option Nat) :
    (o.store n v).find n = some { p with val := v } := by
  induction o with
  | nil => simp [find] at h
  | val k q r ih =>
    simp only [find] at h
    simp only [store]
    split at h
    · rename_i e; cases h; simp [find, e]
    · rename_i e; simp [find, e, ih h]
  | obj k q r _ ih =>
    simp only [find] at h
    simp only [store]
    split at h
    · simp at h
    · rename_i e; simp [find, e, ih h]

theorem good_find {o : Obj} (g : GoodObj o) {n : Nat} {p : P} (h : o.find n = some p) :
    Firm p.fix ∧ ∀ v, p.val = some v → ∀ e, p.fix e v = some v := by
  induction o with
  | nil => simp [find] at h
  | val m q r ih =>
    simp only [find] at h
    split at h
    · cases h; exact ⟨g.1, g.2.1⟩
    · exact ih g.2.2.2 h
  | obj m q r _ ih =>
    simp only [find] at h
    split at h
    · simp at h
    · exact ih g.2.2 h

theorem good_store {o : Obj} (g : GoodObj o) {n : Nat} {p : P} (h : o.find n = some p)
    (v : Option Nat) (hv : ∀ w, v = some w → ∀ e, p.fix e w = some w) : GoodObj (o.store n v) := by
  induction o with
  | nil => trivial
  | val m q r ih =>
    simp only [find] at h
    simp only [store]
    split at h
    · rename_i e
      cases h
      rw [if_pos e]
      exact ⟨g.1, hv, g.2.2.1, g.2.2.2⟩
    · rename_i e
      rw [if_neg e]
      refine ⟨g.1, g.2.1, ?_, ih g.2.2.2 h⟩
      have := g.2.2.1
      rw [propNames_eq] at this ⊢
      rwa [names_store]
  | obj m q r _ ih =>
    simp only [find] at h
    simp only [store]
    split at h
    · simp at h
    · rename_i e
      rw [if_neg e]
      refine ⟨g.1, ?_, ih g.2.2 h⟩
      have := g.2.1
      rw [propNames_eq] at this ⊢
      rwa [names_store]

theorem good_child {o : Obj} (g : GoodObj o) {n : Nat} {c : Obj} (h : o.child n = some c) :
    GoodObj c := by
  induction o with
  | nil => simp [child] at h
  | val m q r ih =>
    simp only [child] at h
    split at h
    · simp at h
    · exact ih g.2.2.2 h
  | obj m q r _ ih =>
    simp only [child] at h
    split at h
    · cases h; exact g.1
    · exact ih g.2.2 h

theorem good_setChild {o : Obj} (g : GoodObj o) (n : Nat) {c : Obj} (gc : GoodObj c) :
    GoodObj (o.setChild n c) := by
  induction o with
  | nil => trivial
  | val m q r ih =>
    simp only [setChild]
    split
    · exact g
    · refine ⟨g.1, g.2.1, ?_, ih g.2.2.2⟩
      have := g.2.2.1
      rw [propNames_eq] at this ⊢
      rwa [names_setChild]
  | obj m q r _ ih =>
    simp only [setChild]
    split
    · exact ⟨gc, g.2⟩
    · refine ⟨g.1, ?_, ih g.2.2⟩
      have := g.2.1
      rw [propNames_eq] at this ⊢
      rwa [names_setChild]

theorem good_append {o x : Obj} (g : GoodObj o) (gx : GoodObj x)
    (h : ∀ n ∈ o.names, n ∉ x.names) : GoodObj (o.append x) := by
  induction o with
  | nil => exact gx
  | val m q r ih =>
    refine ⟨g.1, g.2.1, ?_, ih g.2.2.2 (fun n hn => h n (by simp [names, hn]))⟩
    have := g.2.2.1
    rw [propNames_eq] at this ⊢
    rw [names_append, List.mem_append]
    exact fun hh => hh.elim this (h m (by simp [names]))
  | obj m q r _ ih =>
    refine ⟨g.1, ?_, ih g.2.2 (fun n hn => h n (by simp [names, hn]))⟩
    have := g.2.1
    rw [propNames_eq] at this ⊢
    rw [names_append, List.mem_append]
    exact fun hh => hh.elim this (h m (by simp [names]))

theorem good_erase {o : Obj} (g : GoodObj o) (n : Nat) : GoodObj (o.erase n) := by
  induction o with
  | nil => trivial
  | val m q r ih =>
    simp only [erase]
    split
    · exact g.2.2.2
    · refine ⟨g.1, g.2.1, ?_, ih g.2.2.2⟩
      have := g.2.2.1
      rw [propNames_eq] at this ⊢
      exact fun hh => this (names_erase_sub r n m hh)
  | obj m q r _ ih =>
    simp only [erase]
    split
    · exact g.2.2
    · refine ⟨g.1, ?_, ih g.2.2⟩
      have := g.2.1
      rw [propNames_eq] at this ⊢
      exact fun hh => this (names_erase_sub r n m hh)

theorem good_sub {o : Obj} (g : GoodObj o) {q : List Nat} {x : Obj} (h : o.sub q = some x) :
    GoodObj x := by
  induction q generalizing o with
  | nil => simp only [sub, Option.some.injEq] at h; exact h ▸ g
  | cons n q ih =>
    simp only [sub] at h
    split at h
    · rename_i c hc
      exact ih (good_child g hc) h
    · simp at h

theorem good_setSub {o : Obj} (g : GoodObj o) (q : List Nat) {x : Obj} (gx : GoodObj x) :
    GoodObj (o.setSub q x) := by
  induction q generalizing o with
  | nil => exact gx
  | cons n q ih =>
    simp only [setSub]
    split
    · rename_i c hc
      exact good_setChild g n (ih (good_child g hc))
    · exact g

/-! ### Writes -/

/-- A client that is told one value. -/
def tell (c : Obj) (t : Told) : Obj :=
  ((match t.2 with | some v => c.put t.1 v | none => c.drop t.1)).getD c

theorem tell_congr {o c : Obj} (h : o.norm = c.norm) (t : Told) :
    (o.tell t).norm = (c.tell t).norm := by
  unfold tell
  cases t.2 with
  | none =>
    have := drop_congr h t.1
    dsimp only
    cases h1 : o.drop t.1 <;> cases h2 : c.drop t.1 <;> simp_all
  | some v =>
    have := put_congr h t.1 v
    dsimp only
    cases h1 : o.put t.1 v <;> cases h2 : c.put t.1 v <;> simp_all

/-- Telling a value that the property accepts. -/
theorem tell_some {c : Obj} {n v : Nat} {p : P} (hp : c.find n = some p)
    (hf : p.fix c.env v = some v) : (c.tell (n, some v)).norm = (c.store n (some v)).norm := by
  obtain ⟨o', h1, h2⟩ := put_store hp hf
  unfold tell
  simp [h1, h2]

theorem sides_ok (own : Nat) (l : List (Nat × Nat)) : ∀ (o c : Obj), o.norm = c.norm → GoodObj o →
    ((o.sides own l).2.1.foldl tell c).norm = (o.sides own l).1.norm ∧
    GoodObj (o.sides own l).1 ∧ (o.sides own l).1.find own = o.find own := by
  induction l with
  | nil => intro o c h g; exact ⟨h.symm, g, rfl⟩
  | cons x l ih =>
    intro o c h g
    obtain ⟨n, v⟩ := x
    simp only [sides]
    split
    · exact ih o c h g
    · rename_i hne
      split
      · exact ⟨h.symm, g, rfl⟩
      · rename_i p hp
        split
        · exact ⟨h.symm, g, rfl⟩
        · rename_i w hw
          split
          · exact ih o c h g
          · have gp := good_find g hp
            have hacc : ∀ e, p.fix e w = some w := fun e => gp.1 _ e v w hw
            obtain ⟨q, hq, hqf, _, _⟩ := find_congr h hp
            have h1 : (o.store n (some w)).norm = (c.tell (n, some w)).norm := by
              rw [tell_some hq (by rw [hqf]; exact hacc _)]
              exact store_congr h n w
            have g1 : GoodObj (o.store n (some w)) :=
              good_store g hp _ (fun x hx e => by cases hx; exact hacc e)
            obtain ⟨r1, r2, r3⟩ := ih _ _ h1 g1
            refine ⟨r1, r2, ?_⟩
            rw [r3, find_store_ne (Ne.symm hne)]

/-- The end of a write whose value is accepted in every state. -/
theorem finish_ok {o c : Obj} (h : o.norm = c.norm) (g : GoodObj o) {n : Nat} {p : P}
    (hp : o.find n = some p) (w : Option Nat) (hw : ∀ x, w = some x → ∀ e, p.fix e x = some x)
    (repl : Option Nat) (evs : List Told) :
    GoodObj (o.finish n w repl evs).1 ∧ (o.finish n w repl evs).2.1 = evs ∧
    ((match (o.finish n w repl evs).2.2 with
      | .done v => c.tell (n, v)
      | _ => c)).norm = (o.finish n w repl evs).1.norm := by
  unfold finish
  cases repl with
  | none =>
    dsimp only
    refine ⟨good_store g hp w hw, rfl, ?_⟩
    obtain ⟨q, hq, hqf, hqd, _⟩ := find_congr h hp
    cases w with
    | none =>
      unfold tell drop
      simp only [hq, Option.getD_some]
      rw [norm_store_none _ _ _ hq, norm_store_none _ _ _ hp, h, hqd]
    | some x =>
      rw [tell_some hq (by rw [hqf]; exact hw x rfl _)]
      exact (store_congr h n x).symm
  | some r =>
    dsimp only
    have hc := put_congr h n r
    cases h1 : o.put n r with
    | none => exact ⟨g, rfl, h.symm⟩
    | some o' =>
      dsimp only
      refine ⟨?_, rfl, ?_⟩
      · unfold put at h1
        rw [hp] at h1
        dsimp only at h1
        split at h1
        · simp at h1
        · rename_i x hx
          split at h1
          · cases h1; exact g
          · cases h1
            exact good_store g hp _ (fun y hy e => by cases hy; exact (good_find g hp).1 _ e _ _ hx)
      · rw [h1] at hc
        unfold tell
        dsimp only
        cases h2 : c.put n r with
        | none => rw [h2] at hc; simp at hc
        | some c' => rw [h2] at hc; simpa using hc.symm

/-- A single write and its events. -/
theorem write_ok {o c : Obj} (h : o.norm = c.norm) (g : GoodObj o) (a : Act) :
    ((o.write a).2.foldl tell c).norm = (o.write a).1.norm ∧ GoodObj (o.write a).1 := by
  have key : ∀ (w : Option Nat) (p : P) (repl : Option Nat), o.find a.name = some p →
      (∀ x, w = some x → ∀ e, p.fix e x = some x) →
      (let s := o.sides a.name a.side
       let r := if s.2.2 then s.1.finish a.name w repl s.2.1 else (s.1, s.2.1, Fin.bad)
       let t : Obj × List Told := match r.2.2 with
        | .done v => (r.1, r.2.1 ++ [(a.name, v)])
        | _ => (r.1, r.2.1)
       (t.2.foldl tell c).norm = t.1.norm ∧ GoodObj t.1) := by
    intro w p repl hp hw
    dsimp only
    obtain ⟨s1, s2, s3⟩ := sides_ok a.name a.side o c h g
    by_cases hb : (o.sides a.name a.side).2.2 = true
    · rw [if_pos hb]
      obtain ⟨f1, f2, f3⟩ := finish_ok s1.symm s2 (s3.trans hp) w hw repl (o.sides a.name a.side).2.1
      generalize (o.sides a.name a.side).1.finish a.name w repl (o.sides a.name a.side).2.1 = r at *
      cases hr : r.2.2 with
      | bad => rw [hr] at f3; simp only [f2]; exact ⟨f3, f1⟩
      | same => rw [hr] at f3; simp only [f2]; exact ⟨f3, f1⟩
      | done v =>
        rw [hr] at f3
        simp only [f2, List.foldl_append, List.foldl_cons, List.foldl_nil]
        exact ⟨f3, f1⟩
    · rw [if_neg hb]
      exact ⟨s1, s2⟩
  unfold write act
  cases hp : o.find a.name with
  | none => exact ⟨h.symm, g⟩
  | some p =>
    dsimp only
    cases hw : a.want with
    | none =>
      dsimp only
      by_cases hv : p.val = none
      · rw [if_pos hv]; exact ⟨h.symm, g⟩
      · rw [if_neg hv]
        exact key none p _ hp (by simp)
    | some v =>
      dsimp only
      cases hf : p.fix o.env v with
      | none => exact ⟨h.symm, g⟩
      | some w =>
        dsimp only
        by_cases hr : w = p.read
        · rw [if_pos hr]; exact ⟨h.symm, g⟩
        · rw [if_neg hr]
          exact key (some w) p _ hp
            (fun x hx e => by cases hx; exact (good_find g hp).1 _ e _ _ hf)

end Obj
end Verif.Remote
