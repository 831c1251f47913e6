import Verif.Boxes.Spec
import Mathlib.Tactic.SplitIfs

/-!
# Counting
-/

namespace Verif.Boxes

/-- One, if the pointer is to the object. -/
def one (o : Option Nat) (x : Nat) : Nat := if o = some x then 1 else 0

theorem one_le (o : Option Nat) (x : Nat) (h : o = some x) : one o x = 1 := if_pos h

theorem addRef_spec {h : Heap} (b : h.bad = false) {o : Option Nat} (l : ∀ x, o = some x → 0 < h.refs x) :
    (h.addRef o).bad = false ∧ (∀ y, (h.addRef o).refs y = h.refs y + one o y)
      ∧ (h.addRef o).owner = h.owner := by
  cases o with
  | none => exact ⟨b, fun y => by simp [Heap.addRef, one], rfl⟩
  | some x =>
    have p := l x rfl
    simp only [Heap.addRef, if_neg (show ¬ h.refs x = 0 by omega)]
    refine ⟨b, fun y => ?_, trivial⟩
    by_cases e : y = x
    · subst e; simp [upd, one]
    · have : ¬ x = y := fun h => e h.symm
      simp [upd, one, e, this]

theorem release_spec {h : Heap} (b : h.bad = false) {o : Option Nat} (l : ∀ x, o = some x → 0 < h.refs x) :
    (h.release o).bad = false ∧ (∀ y, h.refs y = (h.release o).refs y + one o y)
      ∧ (h.release o).owner = h.owner := by
  cases o with
  | none => exact ⟨b, fun y => by simp [Heap.release, one], rfl⟩
  | some x =>
    have p := l x rfl
    simp only [Heap.release, if_neg (show ¬ h.refs x = 0 by omega)]
    refine ⟨b, fun y => ?_, trivial⟩
    by_cases e : y = x
    · subst e; simp [upd, one]; omega
    · have : ¬ x = y := fun h => e h.symm
      simp [upd, one, e, this]

theorem count_cons_one (o : Option Nat) (os : List (Option Nat)) (x : Nat) :
    (o :: os).count (some x) = os.count (some x) + one o x := by
  rw [List.count_cons]
  unfold one
  by_cases e : o = some x <;> simp [e]

theorem releaseAll_spec : ∀ (os : List (Option Nat)) (h : Heap), h.bad = false →
    (∀ x, os.count (some x) ≤ h.refs x) →
    (h.releaseAll os).bad = false ∧ (∀ y, h.refs y = (h.releaseAll os).refs y + os.count (some y))
      ∧ (h.releaseAll os).owner = h.owner
  | [], h, b, _ => ⟨b, fun y => by simp [Heap.releaseAll], rfl⟩
  | o :: os, h, b, l => by
    have l1 : ∀ x, o = some x → 0 < h.refs x := fun x e => by
      have := l x
      rw [count_cons_one, one_le o x e] at this
      omega
    obtain ⟨b1, r1, w1⟩ := release_spec b l1
    obtain ⟨b2, r2, w2⟩ := releaseAll_spec os (h.release o) b1 (fun x => by
      have := l x
      rw [count_cons_one] at this
      have := r1 x
      omega)
    refine ⟨b2, fun y => ?_, w2.trans w1⟩
    rw [count_cons_one]
    have := r1 y
    have := r2 y
    simp only [Heap.releaseAll]
    omega

theorem setOwner_spec (cfg : Cfg) {h : Heap} (b : h.bad = false) {o : Option Nat}
    (l : ∀ x, o = some x → 0 < h.refs x) (p : Option Nat) :
    (h.setOwner cfg o p).1.bad = false ∧ (h.setOwner cfg o p).1.refs = h.refs := by
  cases o with
  | none => exact ⟨b, rfl⟩
  | some x =>
    have := l x rfl
    simp only [Heap.setOwner, if_neg (show ¬ h.refs x = 0 by omega)]
    cases cfg.kind x with
    | plain => exact ⟨b, rfl⟩
    | ownable => exact ⟨b, rfl⟩
    | bound =>
      simp only
      split
      · exact ⟨b, rfl⟩
      · exact ⟨b, rfl⟩

theorem giveOwner_spec (cfg : Cfg) {h : Heap} (b : h.bad = false) {o : Option Nat}
    (l : ∀ x, o = some x → 0 < h.refs x) (p : Nat) :
    (giveOwner cfg h p o).1.bad = false ∧ (giveOwner cfg h p o).1.refs = h.refs := by
  cases o with
  | none => exact ⟨b, rfl⟩
  | some x =>
    have := l x rfl
    simp only [giveOwner, if_neg (show ¬ h.refs x = 0 by omega)]
    split
    · exact ⟨b, rfl⟩
    · split
      · exact ⟨b, rfl⟩
      · exact setOwner_spec cfg b l (some p)

theorem freeAll_spec (cfg : Cfg) : ∀ (os : List (Option Nat)) (h : Heap), h.bad = false →
    (∀ x, some x ∈ os → 0 < h.refs x) →
    (freeAll cfg h os).1.bad = false ∧ (freeAll cfg h os).1.refs = h.refs
  | [], h, b, _ => ⟨b, rfl⟩
  | o :: os, h, b, l => by
    obtain ⟨b1, r1⟩ := setOwner_spec cfg b (o := o) (fun x e => l x (e ▸ List.mem_cons_self)) none
    simp only [freeAll]
    split
    · obtain ⟨b2, r2⟩ := freeAll_spec cfg os _ b1 (fun x m => by
        rw [r1]; exact l x (List.mem_cons_of_mem _ m))
      exact ⟨b2, r2.trans r1⟩
    · exact ⟨b1, r1⟩

theorem thenGive_spec (cfg : Cfg) (o : Option Nat) (r : Ret) (b : r.heap.bad = false)
    (l : ∀ x, o = some x → 0 < r.heap.refs x) :
    (r.thenGive cfg o).heap.bad = false ∧ (r.thenGive cfg o).heap.refs = r.heap.refs
      ∧ (r.thenGive cfg o).lst = r.lst ∧ (r.thenGive cfg o).out = r.out := by
  unfold Ret.thenGive
  cases r.lst.own with
  | none => exact ⟨b, rfl, rfl, rfl⟩
  | some p =>
    simp only
    split
    · obtain ⟨b1, r1⟩ := giveOwner_spec cfg b l p
      exact ⟨b1, r1, rfl, rfl⟩
    · exact ⟨b, rfl, rfl, rfl⟩

theorem thenFree_spec (cfg : Cfg) (r : Ret) (b : r.heap.bad = false)
    (l : ∀ x, r.out = some x → 0 < r.heap.refs x) :
    (r.thenFree cfg).heap.bad = false ∧ (r.thenFree cfg).heap.refs = r.heap.refs
      ∧ (r.thenFree cfg).lst = r.lst ∧ (r.thenFree cfg).out = r.out := by
  unfold Ret.thenFree
  cases r.lst.own with
  | none => exact ⟨b, rfl, rfl, rfl⟩
  | some p =>
    simp only
    split
    · obtain ⟨b1, r1⟩ := setOwner_spec cfg b l none
      exact ⟨b1, r1, rfl, rfl⟩
    · exact ⟨b, rfl, rfl, rfl⟩

theorem setOwner_code (cfg : Cfg) (h : Heap) (o p : Option Nat) :
    (h.setOwner cfg o p).2 = .ok ∨ (h.setOwner cfg o p).2 = .taken := by
  cases o with
  | none => exact .inl rfl
  | some x =>
    simp only [Heap.setOwner]
    split
    · exact .inl rfl
    · cases cfg.kind x with
      | plain => exact .inl rfl
      | ownable => exact .inl rfl
      | bound => simp only; split
                 · exact .inr rfl
                 · exact .inl rfl

theorem giveOwner_code (cfg : Cfg) (h : Heap) (p : Nat) (o : Option Nat) :
    (giveOwner cfg h p o).2 = .ok ∨ (giveOwner cfg h p o).2 = .gone ∨ (giveOwner cfg h p o).2 = .taken := by
  cases o with
  | none => exact .inl rfl
  | some x =>
    simp only [giveOwner]
    split
    · exact .inl rfl
    · split
      · exact .inl rfl
      · split
        · exact .inr (.inl rfl)
        · rcases setOwner_code cfg h (some x) (some p) with e | e
          · exact .inl e
          · exact .inr (.inr e)

theorem thenGive_code (cfg : Cfg) (o : Option Nat) (r : Ret) (c : r.code = .ok) :
    (r.thenGive cfg o).code = .ok ∨ (r.thenGive cfg o).code = .gone ∨ (r.thenGive cfg o).code = .taken := by
  unfold Ret.thenGive
  cases r.lst.own with
  | none => exact .inl c
  | some p =>
    simp only [if_pos c]
    exact giveOwner_code cfg r.heap p o

theorem thenFree_code (cfg : Cfg) (r : Ret) (c : r.code = .ok) :
    (r.thenFree cfg).code = .ok ∨ (r.thenFree cfg).code = .taken := by
  unfold Ret.thenFree
  cases r.lst.own with
  | none => exact .inl c
  | some p =>
    simp only [if_pos c]
    exact setOwner_code cfg r.heap r.out none

theorem count_append (a b : List (Option Nat)) (x : Nat) :
    (a ++ b).count (some x) = a.count (some x) + b.count (some x) := List.count_append

/-- The count of a list, taken apart at a position. -/
theorem count_at (l : List (Option Nat)) (i : Nat) (h : i < l.length) (x : Nat) :
    l.count (some x) = (l.take i).count (some x) + one (l[i]?).join x + (l.drop (i + 1)).count (some x) := by
  conv => lhs; rw [← List.take_append_drop i l, List.drop_eq_getElem_cons h]
  rw [count_append, count_cons_one, List.getElem?_eq_getElem h]
  simp only [Option.join_some]
  omega

theorem count_split (l : List (Option Nat)) (i : Nat) (x : Nat) :
    l.count (some x) = (l.take i).count (some x) + (l.drop i).count (some x) := by
  conv => lhs; rw [← List.take_append_drop i l, count_append]

theorem count_last (l : List (Option Nat)) (h : l ≠ []) (x : Nat) :
    l.count (some x) = l.dropLast.count (some x) + one l.getLast?.join x := by
  conv => lhs; rw [← List.dropLast_concat_getLast h]
  rw [count_append, count_cons_one, List.getLast?_eq_some_getLast h]
  simp

theorem gain_at (m : Nat → Nat) (o : Option Nat) (x : Nat) : gain m o x = m x + one o x := by
  cases o with
  | none => simp [gain, one]
  | some y =>
    unfold gain upd one
    by_cases e : x = y
    · subst e; simp
    · have : ¬ y = x := fun h => e h.symm
      simp [e, this]

theorem lose_at (m : Nat → Nat) (o : Option Nat) (h : ∀ y, o = some y → 0 < m y) (x : Nat) :
    m x = lose m o x + one o x := by
  cases o with
  | none => simp [lose, one]
  | some y =>
    have := h y rfl
    unfold lose upd one
    by_cases e : x = y
    · subst e; simp; omega
    · have : ¬ y = x := fun h => e h.symm
      simp [e, this]

end Verif.Boxes
