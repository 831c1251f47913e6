import Verif.Remote.Hist

/-!
# Batches of writes, and where components and objects are
-/

namespace Verif.Remote
open Spec

namespace Obj

theorem store_store (o : Obj) (n : Nat) (v w : Option Nat) :
    (o.store n v).store n w = o.store n w := by
  induction o with
  | nil => rfl
  | val m p r ih => by_cases e : m = n <;> simp [store, e, ih]
  | obj m p r _ ih => by_cases e : m = n <;> simp [store, e, ih]

theorem storeAll_store (l : List (Nat × Nat)) (n : Nat) (h : n ∉ l.map (·.1)) (v : Option Nat)
    (o : Obj) : (o.store n v).storeAll l = (o.storeAll l).store n v := by
  induction l generalizing o with
  | nil => rfl
  | cons x l ih =>
    simp only [List.map_cons, List.mem_cons, not_or] at h
    show ((o.store n v).store x.1 (some x.2)).storeAll l = ((o.store x.1 (some x.2)).storeAll l).store n v
    rw [store_comm h.1, ih h.2]

theorem storeAll_dictSet (d : List (Nat × Nat)) (n v : Nat) (h : (d.map (·.1)).Nodup) (o : Obj) :
    o.storeAll (dictSet d n v) = (o.storeAll d).store n (some v) := by
  induction d generalizing o with
  | nil => rfl
  | cons x d ih =>
    obtain ⟨m, y⟩ := x
    simp only [List.map_cons, List.nodup_cons] at h
    simp only [dictSet]
    split
    · rename_i e
      subst e
      show (o.store m (some v)).storeAll d = ((o.store m (some y)).storeAll d).store m (some v)
      rw [storeAll_store d m h.1, storeAll_store d m h.1, store_store]
    · show (o.store m (some y)).storeAll (dictSet d n v) = _
      rw [ih h.2]
      rfl

theorem dictSet_mem (d : List (Nat × Nat)) (n v : Nat) :
    ∀ x ∈ dictSet d n v, x ∈ d ∨ x = (n, v) := by
  induction d with
  | nil => simp [dictSet]
  | cons y d ih =>
    obtain ⟨m, z⟩ := y
    intro x
    simp only [dictSet]
    split
    · rename_i e
      simp only [List.mem_cons, e]
      rintro (h | h)
      · exact Or.inr h
      · exact Or.inl (Or.inr h)
    · simp only [List.mem_cons]
      rintro (h | h)
      · exact Or.inl (Or.inl h)
      · exact (ih x h).elim (fun a => Or.inl (Or.inr a)) Or.inr

theorem dictSet_nodup (d : List (Nat × Nat)) (n v : Nat) (h : (d.map (·.1)).Nodup) :
    ((dictSet d n v).map (·.1)).Nodup := by
  induction d with
  | nil => simp [dictSet]
  | cons y d ih =>
    obtain ⟨m, z⟩ := y
    simp only [List.map_cons, List.nodup_cons] at h
    simp only [dictSet]
    split
    · simpa using h
    · rename_i e
      simp only [List.map_cons, List.nodup_cons]
      refine ⟨?_, ih h.2⟩
      intro hm
      obtain ⟨x, hx, ex⟩ := List.mem_map.mp hm
      rcases dictSet_mem d n v x hx with a | a
      · exact h.1 (List.mem_map.mpr ⟨x, a, ex⟩)
      · rw [a] at ex; exact e ex.symm

theorem putSome_ok (l : List (Nat × Nat)) (o : Obj) (h : ∀ x ∈ l, o.Takes x.1 x.2) :
    (o.putSome l).norm = (o.storeAll l).norm := by
  induction l generalizing o with
  | nil => rfl
  | cons x l ih =>
    obtain ⟨n, v⟩ := x
    obtain ⟨p, hp, hf⟩ := h (n, v) (by simp)
    obtain ⟨o1, h1, h2⟩ := put_store hp (hf o.env)
    simp only [putSome, h1]
    rw [ih o1 (fun y hy => ((h y (by simp [hy])).store n (some v)).congr h2.symm)]
    exact storeAll_congr h2 l

/-- The definition of a property, which writes do not change. -/
def Has (o : Obj) (n : Nat) (d : Nat) (f : Fix) : Prop :=
  ∃ p, o.find n = some p ∧ p.dflt = d ∧ p.fix = f

theorem Has.congr {o c : Obj} (h : o.norm = c.norm) {n d : Nat} {f : Fix} (t : o.Has n d f) :
    c.Has n d f := by
  obtain ⟨p, hp, h1, h2⟩ := t
  obtain ⟨q, hq, hqf, hqd, _⟩ := find_congr h hp
  exact ⟨q, hq, hqd.trans h1, hqf.trans h2⟩

theorem Has.store {o : Obj} {n d : Nat} {f : Fix} (t : o.Has n d f) (m : Nat) (w : Option Nat) :
    (o.store m w).Has n d f := by
  obtain ⟨p, hp, h1, h2⟩ := t
  by_cases e : n = m
  · subst e; exact ⟨_, find_store_self hp w, h1, h2⟩
  · exact ⟨p, by rw [find_store_ne e, hp], h1, h2⟩

theorem env_of_find {o : Obj} {n : Nat} {p : P} (h : o.find n = some p) : o.env n = p.read := by
  unfold env; rw [h]

theorem env_store {o : Obj} {n : Nat} {p : P} (h : o.find n = some p) (w : Nat) :
    (o.store n (some w)).env n = w := by
  rw [env_of_find (find_store_self h (some w))]; rfl

/-- One element of a batch: the object is as if the value read afterwards had been stored. -/
theorem act_ok {o : Obj} {a : Act} (hs : a.side = []) {d : Nat} {f : Fix} (hh : o.Has a.name d f)
    (hF : Firm f) (hd : ∀ e, f e d = some d)
    (hw : ∀ v, a.want = some v → ∀ e, f e v ≠ none) (hr : ∀ v, a.repl = some v → ∀ e, f e v ≠ none) :
    (o.act a).2.1 = [] ∧ (o.act a).2.2 ≠ .bad ∧
    (a.want = none ∧ (o.act a).2.2 = .same → (o.act a).1 = o) ∧
    (o.act a).1.norm = (o.store a.name (some ((o.act a).1.env a.name))).norm ∧
    ∀ e, f e ((o.act a).1.env a.name) = some ((o.act a).1.env a.name) := by
  obtain ⟨p, hp, rfl, rfl⟩ := hh
  have fin : ∀ (w : Option Nat) (repl : Option Nat),
      (∀ x, w = some x → ∀ e, p.fix e x = some x) → (∀ v, repl = some v → ∀ e, p.fix e v ≠ none) →
      (o.finish a.name w repl []).2.1 = [] ∧ (o.finish a.name w repl []).2.2 ≠ .bad ∧
      (o.finish a.name w repl []).2.2 ≠ .same ∧
      (o.finish a.name w repl []).1.norm =
        (o.store a.name (some ((o.finish a.name w repl []).1.env a.name))).norm ∧
      ∀ e, p.fix e ((o.finish a.name w repl []).1.env a.name) =
        some ((o.finish a.name w repl []).1.env a.name) := by
    intro w repl h1 h2
    unfold finish
    cases repl with
    | none =>
      dsimp only
      refine ⟨rfl, by simp, by simp, ?_, ?_⟩
      · cases w with
        | none =>
          rw [env_of_find (find_store_self hp none)]
          show _ = (o.store a.name (some p.dflt)).norm
          rw [norm_store_none _ _ _ hp, norm_store_some]
        | some x => rw [env_store hp]
      · cases w with
        | none => rw [env_of_find (find_store_self hp none)]; exact hd
        | some x => rw [env_store hp]; exact h1 x rfl
    | some r =>
      have hne := h2 r rfl o.env
      cases hx : p.fix o.env r with
      | none => exact absurd hx hne
      | some x =>
        have acc : ∀ e, p.fix e x = some x := fun e => hF _ e _ _ hx
        by_cases hxr : x = p.read
        · have hput : o.put a.name r = some o := by
            unfold put; simp only [hp, hx]; rw [if_pos hxr]
          simp only [hput]
          refine ⟨trivial, by simp, by simp, ?_, ?_⟩
          · rw [env_of_find hp, store_read _ _ _ hp]
          · rw [env_of_find hp, ← hxr]; exact acc
        · have hput : o.put a.name r = some (o.store a.name (some x)) := by
            unfold put; simp only [hp, hx]; rw [if_neg hxr]
          simp only [hput]
          refine ⟨trivial, by simp, by simp, ?_, ?_⟩
          · rw [env_store hp]
          · rw [env_store hp]; exact acc
  have hrepl : ∀ w, ∀ v, (if a.repl = some w then none else a.repl) = some v →
      ∀ e, p.fix e v ≠ none := by
    intro w v hv
    split at hv
    · simp at hv
    · exact hr v hv
  unfold act
  simp only [hp]
  cases haw : a.want with
  | none =>
    dsimp only
    by_cases hv : p.val = none
    · rw [if_pos hv]
      refine ⟨rfl, by simp, fun _ => rfl, ?_, ?_⟩
      · dsimp only; rw [env_of_find hp, store_read _ _ _ hp]
      · dsimp only
        rw [env_of_find hp]
        have : p.read = p.dflt := by unfold P.read; rw [hv]; rfl
        rw [this]; exact hd
    · rw [if_neg hv, hs]
      simp only [sides, if_true]
      obtain ⟨f1, f2, f3, f4, f5⟩ := fin none (if a.repl = some p.dflt then none else a.repl)
        (by simp) (hrepl p.dflt)
      exact ⟨f1, f2, fun h => absurd h.2 f3, f4, f5⟩
  | some v =>
    dsimp only
    cases hx : p.fix o.env v with
    | none => exact absurd hx (hw v haw o.env)
    | some w =>
      have acc : ∀ e, p.fix e w = some w := fun e => hF _ e _ _ hx
      dsimp only
      by_cases hxr : w = p.read
      · rw [if_pos hxr]
        refine ⟨rfl, by simp, fun _ => rfl, ?_, ?_⟩
        · dsimp only; rw [env_of_find hp, store_read _ _ _ hp]
        · dsimp only; rw [env_of_find hp, ← hxr]; exact acc
      · rw [if_neg hxr, hs]
        simp only [sides, if_true]
        obtain ⟨f1, f2, f3, f4, f5⟩ := fin (some w) (if a.repl = some w then none else a.repl)
          (fun x hx e => by cases hx; exact acc e) (hrepl w)
        exact ⟨f1, f2, fun h => absurd h.2 f3, f4, f5⟩

theorem batch_ok (l : List Act) : ∀ (o c : Obj) (dict : List (Nat × Nat)),
    (∀ a ∈ l, a.side = [] ∧ ∃ d f, o.Has a.name d f ∧ Firm f ∧ (∀ e, f e d = some d) ∧
      (∀ v, a.want = some v → ∀ e, f e v ≠ none) ∧ (∀ v, a.repl = some v → ∀ e, f e v ≠ none)) →
    (dict.map (·.1)).Nodup → (∀ x ∈ dict, c.Takes x.1 x.2) → (c.storeAll dict).norm = o.norm →
    (∀ n d f, o.Has n d f → c.Has n d f) →
    (o.batch l dict).2.1 = [] ∧ ∃ r, (o.batch l dict).2.2 = some r ∧
      (c.putSome r).norm = (o.batch l dict).1.norm := by
  induction l with
  | nil =>
    intro o c dict _ _ ht hn _
    exact ⟨rfl, dict, rfl, (putSome_ok dict c ht).trans hn⟩
  | cons a l ih =>
    intro o c dict ha hd ht hn hc
    obtain ⟨hs, d, f, hh, hF, hdf, hw, hr⟩ := ha a (by simp)
    obtain ⟨a1, a2, a3, a4, a5⟩ := act_ok hs hh hF hdf hw hr
    have hHas : ∀ n d f, (o.act a).1.Has n d f → o.Has n d f := by
      intro n d f hx
      have := hx.congr a4
      obtain ⟨p, hp, e1, e2⟩ := this
      by_cases e : n = a.name
      · subst e
        obtain ⟨q, hq, _, _⟩ := hh
        rw [find_store_self hq] at hp
        cases hp
        exact ⟨q, hq, e1, e2⟩
      · rw [find_store_ne e] at hp
        exact ⟨p, hp, e1, e2⟩
    have hHas2 : ∀ n d f, o.Has n d f → (o.act a).1.Has n d f := fun n d f hx =>
      (hx.store a.name _).congr a4.symm
    have next := ih (o.act a).1 c
      (if a.want = none ∧ (o.act a).2.2 = .same then dict
       else dictSet dict a.name ((o.act a).1.env a.name))
      (fun b hb => by
        obtain ⟨b1, d', f', b2, b3⟩ := ha b (by simp [hb])
        exact ⟨b1, d', f', hHas2 _ _ _ b2, b3⟩)
      (by split; exact hd; exact dictSet_nodup _ _ _ hd)
      (by
        split
        · exact ht
        · intro x hx
          rcases dictSet_mem _ _ _ x hx with h | h
          · exact ht x h
          · subst h
            obtain ⟨q, hq, _, e2⟩ := hc _ _ _ hh
            exact ⟨q, hq, fun e => by rw [e2]; exact a5 e⟩)
      (by
        split
        · rename_i h; rw [a3 h]; exact hn
        · rw [storeAll_dictSet _ _ _ hd, a4]
          exact store_congr hn _ _)
      (fun n d f hx => hc n d f (hHas n d f hx))
    simp only [batch]
    generalize hra : o.act a = r at *
    cases h2 : r.2.2 with
    | bad => exact absurd h2 a2
    | same =>
      rw [h2] at next
      obtain ⟨n1, rr, n2, n3⟩ := next
      exact ⟨by rw [a1, n1]; rfl, rr, n2, n3⟩
    | done v =>
      rw [h2] at next
      obtain ⟨n1, rr, n2, n3⟩ := next
      exact ⟨by simp only [a1, n1, List.nil_append], rr, n2, n3⟩

theorem valueProps_find {o : Obj} (g : GoodObj o) {n : Nat} {p : P} (h : (n, p) ∈ valueProps o) :
    o.find n = some p := by
  induction o with
  | nil => simp [valueProps] at h
  | val m q r ih =>
    simp only [valueProps, List.mem_cons, Prod.mk.injEq] at h
    rcases h with ⟨h1, h2⟩ | h
    · simp [find, h1, h2]
    · have := ih g.2.2.2 h
      have hm : m ≠ n := by
        intro e
        subst e
        have hh := find_mem this
        rw [← propNames_eq] at hh
        exact g.2.2.1 hh
      simp [find, hm, this]
  | obj m q r _ ih =>
    have := ih g.2.2 h
    have hm : m ≠ n := by
      intro e
      subst e
      have hh := find_mem this
      rw [← propNames_eq] at hh
      exact g.2.1 hh
    simp [find, hm, this]

theorem find_valueProps {o : Obj} {n : Nat} {p : P} (h : o.find n = some p) :
    (n, p) ∈ valueProps o := by
  induction o with
  | nil => simp [find] at h
  | val m q r ih =>
    simp only [find] at h
    simp only [valueProps, List.mem_cons]
    split at h
    · rename_i e; cases h; exact Or.inl (by rw [e])
    · exact Or.inr (ih h)
  | obj m q r _ ih =>
    simp only [find] at h
    split at h
    · simp at h
    · exact ih h

theorem fits_find {o : Obj} (g : DefaultsFit o) {n : Nat} {p : P} (h : o.find n = some p) :
    ∀ e, p.fix e p.dflt = some p.dflt := by
  induction o with
  | nil => simp [find] at h
  | val m q r ih =>
    simp only [find] at h
    split at h
    · cases h; exact g.1
    · exact ih g.2 h
  | obj m q r _ ih =>
    simp only [find] at h
    split at h
    · simp at h
    · exact ih g h

theorem child_objAt {o : Obj} {n : Nat} {c : Obj} (h : o.child n = some c) {q : List Nat} {x : Obj}
    (hx : ObjAt c q x) : ObjAt o (n :: q) x := by
  induction o with
  | nil => simp [child] at h
  | val m p r ih =>
    simp only [child] at h
    split at h
    · simp at h
    · exact Or.inr ⟨by simp, ih h⟩
  | obj m p r _ ih =>
    simp only [child] at h
    split at h
    · rename_i e
      cases h
      exact Or.inr (Or.inl ⟨q, by rw [e], hx⟩)
    · exact Or.inr (Or.inr ⟨by simp, ih h⟩)

theorem objAt_nil (o : Obj) : ObjAt o [] o := by
  cases o with
  | nil => exact ⟨rfl, rfl⟩
  | val m p r => exact Or.inl ⟨rfl, rfl⟩
  | obj m p r => exact Or.inl ⟨rfl, rfl⟩

theorem sub_objAt {o : Obj} {q : List Nat} {x : Obj} (h : o.sub q = some x) : ObjAt o q x := by
  induction q generalizing o with
  | nil => simp only [sub, Option.some.injEq] at h; subst h; exact objAt_nil o
  | cons n q ih =>
    simp only [sub] at h
    cases hc : o.child n with
    | none => rw [hc] at h; simp at h
    | some c => rw [hc] at h; exact child_objAt hc (ih h)

theorem objAt_name {o : Obj} {n : Nat} {q : List Nat} {x : Obj} (h : ObjAt o (n :: q) x) :
    n ∈ o.names := by
  induction o with
  | nil => simp [ObjAt] at h
  | val m p r ih =>
    rcases h with ⟨h, _⟩ | ⟨_, h⟩
    · simp at h
    · simp [names, ih h]
  | obj m p r _ ih =>
    rcases h with ⟨h, _⟩ | ⟨q', h, _⟩ | ⟨_, h⟩
    · simp at h
    · simp only [List.cons.injEq] at h; simp [names, h.1]
    · simp [names, ih h]

theorem objAt_sub {o : Obj} (g : GoodObj o) {q : List Nat} {x : Obj} (h : ObjAt o q x) :
    o.sub q = some x := by
  cases q with
  | nil =>
    cases o with
    | nil => simp only [ObjAt] at h; rw [h.2]; rfl
    | val m p r =>
      rcases h with ⟨_, h⟩ | ⟨h, _⟩
      · rw [h]; rfl
      · simp at h
    | obj m p r =>
      rcases h with ⟨_, h⟩ | ⟨q', h, _⟩ | ⟨h, _⟩
      · rw [h]; rfl
      · simp at h
      · simp at h
  | cons n q =>
    induction o generalizing n q with
    | nil => simp [ObjAt] at h
    | val m p r ih =>
      rcases h with ⟨h, _⟩ | ⟨_, h⟩
      · simp at h
      · have hm : m ≠ n := by
          intro e
          have := objAt_name h
          rw [← e, ← propNames_eq] at this
          exact g.2.2.1 this
        have := ih g.2.2.2 n q h
        simp only [sub, child, if_neg hm] at this ⊢
        exact this
    | obj m p r iho ih =>
      rcases h with ⟨h, _⟩ | ⟨q', h, hx⟩ | ⟨_, h⟩
      · simp at h
      · simp only [List.cons.injEq] at h
        obtain ⟨e1, e2⟩ := h
        subst e1; subst e2
        simp only [sub, child, if_true]
        cases q with
        | nil =>
          cases p with
          | nil => simp only [ObjAt] at hx; rw [hx.2]; rfl
          | val a b c =>
            rcases hx with ⟨_, h⟩ | ⟨h, _⟩
            · rw [h]; rfl
            · simp at h
          | obj a b c =>
            rcases hx with ⟨_, h⟩ | ⟨q', h, _⟩ | ⟨h, _⟩
            · rw [h]; rfl
            · simp at h
            · simp at h
        | cons k q => exact iho g.1 k q hx
      · have hm : m ≠ n := by
          intro e
          have := objAt_name h
          rw [← e, ← propNames_eq] at this
          exact g.2.1 this
        have := ih g.2.2 n q h
        simp only [sub, child, if_neg hm] at this ⊢
        exact this

end Obj

namespace Forest

theorem get_compAt {f : Forest} {k : Nat} {c : Comp} (h : f.get k = some c) :
    CompAt f [k] c.1 c.2 := by
  induction f with
  | nil => simp [get] at h
  | cons m d i r _ ih =>
    simp only [get] at h
    split at h
    · rename_i e; cases h; exact Or.inl ⟨by rw [e], rfl, rfl⟩
    · exact Or.inr (Or.inr (ih h))

theorem get_compAt_cons {f : Forest} {k : Nat} {c : Comp} (h : f.get k = some c) {p : List Nat}
    {d : Data} {i : Forest} (hx : CompAt c.2 p d i) : CompAt f (k :: p) d i := by
  induction f with
  | nil => simp [get] at h
  | cons m e j r _ ih =>
    simp only [get] at h
    split at h
    · rename_i e'; cases h; exact Or.inr (Or.inl ⟨p, by rw [e'], hx⟩)
    · exact Or.inr (Or.inr (ih h))

theorem find_compAt {f : Forest} {p : List Nat} {c : Comp} (h : f.find p = some c) :
    CompAt f p c.1 c.2 := by
  induction p generalizing f with
  | nil => simp [find] at h
  | cons k p ih =>
    cases p with
    | nil => simp only [find] at h; exact get_compAt h
    | cons j p =>
      simp only [find] at h
      cases hg : f.get k with
      | none => rw [hg] at h; simp at h
      | some x => rw [hg] at h; exact get_compAt_cons hg (ih h)

theorem compAt_ne {f : Forest} {p : List Nat} {d : Data} {i : Forest} (h : CompAt f p d i) :
    p ≠ [] := by
  induction f with
  | nil => exact h.elim
  | cons m e j r _ ih =>
    rcases h with ⟨h, _⟩ | ⟨_, h, _⟩ | h
    · rw [h]; simp
    · rw [h]; simp
    · exact ih h

theorem compAt_mem {f : Forest} {k : Nat} {p : List Nat} {d : Data} {i : Forest}
    (h : CompAt f (k :: p) d i) : k ∈ f.ids := by
  induction f with
  | nil => exact h.elim
  | cons m e j r _ ih =>
    rcases h with ⟨h, _⟩ | ⟨_, h, _⟩ | h
    · simp only [List.cons.injEq] at h; simp [ids, h.1]
    · simp only [List.cons.injEq] at h; simp [ids, h.1]
    · simp [ids, ih h]

theorem compAt_find {f : Forest} (g : Good f) {p : List Nat} {d : Data} {i : Forest}
    (h : CompAt f p d i) : f.find p = some (d, i) := by
  induction f generalizing p with
  | nil => exact h.elim
  | cons m e j r ihj ihr =>
    rcases h with ⟨h1, h2, h3⟩ | ⟨p', h1, h2⟩ | h
    · subst h1; subst h2; subst h3
      simp [find, get]
    · subst h1
      have := ihj g.2.1 h2
      cases p' with
      | nil => exact absurd rfl (compAt_ne h2)
      | cons a p' => simp only [find, get, if_true]; exact this
    · have := ihr g.2.2.2 h
      cases p with
      | nil => exact absurd rfl (compAt_ne h)
      | cons a p =>
        have hm : m ≠ a := by
          intro e'
          have hh := compAt_mem h
          rw [← e', ← itemIds_eq] at hh
          exact g.2.2.1 hh
        cases p with
        | nil => simp only [find, get, if_neg hm] at this ⊢; exact this
        | cons b p => simp only [find, get, if_neg hm] at this ⊢; exact this

end Forest

/-- A batch of accepted writes. -/
theorem fine_batch {x y : Comp} (g : GoodObj x.1.obj) (q : List Nat) (l : List Act)
    (h : ∀ o, x.1.obj.sub q = some o → DefaultsFit o ∧ ∀ a ∈ l, Accepted o a) :
    Fine x y (.batch q l) := by
  intro o c ho hc
  obtain ⟨h1, h2⟩ := h o ho
  have go := Obj.good_sub g ho
  obtain ⟨b1, r, b2, b3⟩ := Obj.batch_ok l o c [] (fun a ha => by
    obtain ⟨a1, p, a2, a3, a4⟩ := h2 a ha
    have hp := Obj.valueProps_find go a2
    exact ⟨a1, p.dflt, p.fix, ⟨p, hp, rfl, rfl⟩, (Obj.good_find go hp).1, Obj.fits_find h1 hp,
      a3, a4⟩) (by simp) (by simp) hc.symm (fun n d f hx => hx.congr hc)
  rw [b1, b2]
  exact b3

end Verif.Remote
