import Verif.Component.PropsLookup
import Mathlib.Tactic.ByContra

/-! # C57: folders as ordered maps, and removal -/

namespace Verif.Component
open Verif.Graph

/-- **C57** After any calls, the items of a folder are existing components stored under their own local id, and no two
have the same local id. -/
theorem C57_keys (ops : List Op) (f : Nat) :
    (∀ k i, (k, i) ∈ ((exec ops).1.comp f).items → i < (exec ops).1.count ∧ k = ((exec ops).1.comp i).localId) ∧
    (((exec ops).1.comp f).items.map (·.1)).Nodup :=
  ⟨(wf_exec ops).item f, (wf_exec ops).nodup f⟩

/-- **C57** `getItem`, `hasItem` and `getItems` agree: the listed items are those that can be got by their local id. -/
theorem C57_agree (ops : List Op) (f i : Nat) (k : Str) :
    (getItem (exec ops).1 f k = some i ↔ i ∈ getItems (exec ops).1 f ∧ ((exec ops).1.comp i).localId = k) ∧
    (hasItem (exec ops).1 f k = true ↔ ∃ i, getItem (exec ops).1 f k = some i) := by
  have hw := wf_exec ops
  constructor
  · rw [getItem_iff hw]
    constructor
    · intro h; exact ⟨List.mem_map.mpr ⟨_, h, rfl⟩, (hw.item f k i h).2.symm⟩
    · rintro ⟨h, rfl⟩
      obtain ⟨⟨k', i'⟩, hm, rfl⟩ := List.mem_map.mp h
      rw [← (hw.item f k' i' hm).2]; exact hm
  · unfold hasItem getItem AList.has
    exact Option.isSome_iff_exists

theorem get_append (l : AList Str Nat) (a k : Str) (b : Nat) :
    AList.get (l ++ [(a, b)]) k = (AList.get l k).or (if k = a then some b else none) := by
  induction l with
  | nil =>
    show AList.get [(a, b)] k = _
    rw [AList.get_cons]
    by_cases h : k = a
    · rw [if_pos h, if_pos h]; rfl
    · rw [if_neg h, if_neg h]; rfl
  | cons e l ih =>
    obtain ⟨x, y⟩ := e
    show AList.get ((x, y) :: (l ++ [(a, b)])) k = _
    rw [AList.get_cons, AList.get_cons, ih]
    by_cases h : k = x
    · rw [if_pos h, if_pos h]; rfl
    · rw [if_neg h, if_neg h]

/-- **C57** Adding an item whose local id is taken changes nothing and is refused; otherwise the item comes last in the
folder, is got by its local id, and everything else is as before. -/
theorem C57_add (ops : List Op) (f c : Nat) (hf : f < (exec ops).1.count) (hfd : ((exec ops).1.comp f).folder = true)
    (hc : c < (exec ops).1.count) :
    (hasItem (exec ops).1 f ((exec ops).1.comp c).localId = true →
      step (exec ops).1 (.addItem f c) = ((exec ops).1, .error .duplicateItem)) ∧
    (hasItem (exec ops).1 f ((exec ops).1.comp c).localId = false →
      (step (exec ops).1 (.addItem f c)).2 = .ok ∧
      getItems (step (exec ops).1 (.addItem f c)).1 f = getItems (exec ops).1 f ++ [c] ∧
      (∀ k, getItem (step (exec ops).1 (.addItem f c)).1 f k =
        if k = ((exec ops).1.comp c).localId then some c else getItem (exec ops).1 f k) ∧
      ∀ g, g ≠ f → (step (exec ops).1 (.addItem f c)).1.comp g = (exec ops).1.comp g) := by
  have hw := wf_exec ops
  revert hw hf hfd hc
  generalize (exec ops).1 = s
  intro hf hfd hc hw
  have hst : step s (.addItem f c) = addItem s f c := by
    unfold step
    simp [isFolder, hf, hfd, hc]
  rw [hst]
  unfold addItem hasItem
  constructor
  · intro h; rw [if_pos h]
  · intro h
    rw [if_neg (by rw [h]; exact Bool.false_ne_true)]
    refine ⟨rfl, ?_, ?_, fun g hg => upd_ne _ _ hg⟩
    · simp [getItems, upd_eq, appendItem]
    · intro k
      have hnone : AList.get (s.comp f).items (s.comp c).localId = none := by
        simpa [AList.has] using h
      simp only [getItem, upd_eq, appendItem]
      rw [get_append]
      by_cases hk : k = (s.comp c).localId
      · subst hk; rw [if_pos rfl, if_pos rfl, hnone]; rfl
      · rw [if_neg hk, if_neg hk]; cases AList.get (s.comp f).items k <;> rfl

/-- The order of the remaining items after one is taken out. -/
theorem del_map {s : St} (h : WF s) (f : Nat) (k : Str) (i : Nat) (hi : (k, i) ∈ (s.comp f).items) :
    (AList.del (s.comp f).items k).map (·.2) = ((s.comp f).items.map (·.2)).filter (fun j => j ≠ i) := by
  rw [List.filter_map]
  unfold AList.del
  congr 1
  apply List.filter_congr
  rintro ⟨a, b⟩ hm
  have h1 := (h.item f a b hm).2
  have h2 := (h.item f k i hi).2
  simp only [Function.comp]
  by_cases e : a = k
  · subst e
    have := get_of_mem (h.nodup f) hm
    rw [get_of_mem (h.nodup f) hi] at this
    have : i = b := Option.some.inj this
    subst this; simp
  · have : b ≠ i := fun e' => e (by rw [h1, h2, e'])
    simp [e, this]

/-- What removing item `i` of `f` does. -/
theorem removeKey_eq {s : St} (hw : WF s) {f i : Nat} {k : Str} (hi : (k, i) ∈ (s.comp f).items) (hb : ¬ Below s i f) :
    (removeKey s f k).2 = .ok ∧ (removeKey s f k).1.count = s.count ∧
    ∀ y, (removeKey s f k).1.comp y =
      if y = f then dropItem (s.comp f) k else removeAll s s.comp i y := by
  have hg : getItem s f k = some i := (getItem_iff hw f k i).mpr hi
  have hlt := (hw.item f k i hi).1
  have hf : removeAll s s.comp i f = s.comp f := (removeAll_eq hw hlt f).2 hb
  unfold removeKey
  unfold getItem at hg
  rw [hg]
  dsimp only
  rw [hf]
  rw [if_neg (by simp)]
  refine ⟨rfl, rfl, fun y => ?_⟩
  show upd (removeAll s s.comp i) f (dropItem (s.comp f) k) y = _
  by_cases e : y = f
  · subst e; rw [upd_eq, if_pos rfl]
  · rw [upd_ne _ _ e, if_neg e]

/-- **C57** Removing an item by local id: unknown ids change nothing and give an error. Otherwise, unless the item
contains the folder, the item and everything below it become removed and empty, the item leaves the folder with the
order of the others kept, and nothing else changes. -/
theorem C57_remove (ops : List Op) (f : Nat) (k : Str) (hf : f < (exec ops).1.count)
    (hfd : ((exec ops).1.comp f).folder = true) :
    (getItem (exec ops).1 f k = none →
      step (exec ops).1 (.removeItemWithLocalId f k) = ((exec ops).1, .error .notFound)) ∧
    (∀ i, getItem (exec ops).1 f k = some i → ¬ Below (exec ops).1 i f →
      (step (exec ops).1 (.removeItemWithLocalId f k)).2 = .ok ∧
      getItems (step (exec ops).1 (.removeItemWithLocalId f k)).1 f = (getItems (exec ops).1 f).filter (fun j => j ≠ i) ∧
      ∀ y, (Below (exec ops).1 i y → ((step (exec ops).1 (.removeItemWithLocalId f k)).1.comp y).removed = true ∧
          getItems (step (exec ops).1 (.removeItemWithLocalId f k)).1 y = []) ∧
        (¬ Below (exec ops).1 i y →
          ((step (exec ops).1 (.removeItemWithLocalId f k)).1.comp y).removed = ((exec ops).1.comp y).removed ∧
          (y ≠ f → (step (exec ops).1 (.removeItemWithLocalId f k)).1.comp y = (exec ops).1.comp y))) := by
  have hw := wf_exec ops
  revert hw hf hfd
  generalize (exec ops).1 = s
  intro hf hfd hw
  have hst : step s (.removeItemWithLocalId f k) = removeKey s f k := by
    unfold step; simp [isFolder, hf, hfd]
  rw [hst]
  constructor
  · intro h
    unfold getItem at h
    unfold removeKey
    rw [h]
  · intro i hg hb
    have hi := (getItem_iff hw f k i).mp hg
    have hlt := (hw.item f k i hi).1
    obtain ⟨h1, h2, h3⟩ := removeKey_eq hw hi hb
    refine ⟨h1, ?_, fun y => ⟨fun hy => ?_, fun hy => ?_⟩⟩
    · unfold getItems
      rw [h3 f, if_pos rfl]
      exact del_map hw f k i hi
    · have hne : y ≠ f := fun e => hb (e ▸ hy)
      unfold getItems
      rw [h3 y, if_neg hne, (removeAll_eq hw hlt y).1 hy]
      exact ⟨rfl, rfl⟩
    · have := (removeAll_eq hw hlt y).2 hy
      rw [h3 y]
      by_cases e : y = f
      · subst e; rw [if_pos rfl]; exact ⟨rfl, fun h => absurd rfl h⟩
      · rw [if_neg e, this]; exact ⟨rfl, fun _ => rfl⟩

/-- **C57** Clearing a folder that is not below one of its own items empties it, removes everything that was below it and
changes nothing else. -/
theorem C57_clear (ops : List Op) (f : Nat) (hf : f < (exec ops).1.count) (hfd : ((exec ops).1.comp f).folder = true)
    (hb : ∀ i, Holds (exec ops).1 f i → ¬ Below (exec ops).1 i f) :
    (step (exec ops).1 (.clear f)).2 = .ok ∧ getItems (step (exec ops).1 (.clear f)).1 f = [] ∧
    ((step (exec ops).1 (.clear f)).1.comp f).removed = ((exec ops).1.comp f).removed ∧
    ∀ y, y ≠ f → ((∃ i, Holds (exec ops).1 f i ∧ Below (exec ops).1 i y) →
        ((step (exec ops).1 (.clear f)).1.comp y).removed = true ∧ getItems (step (exec ops).1 (.clear f)).1 y = []) ∧
      (¬ (∃ i, Holds (exec ops).1 f i ∧ Below (exec ops).1 i y) →
        (step (exec ops).1 (.clear f)).1.comp y = (exec ops).1.comp y) := by
  have hw := wf_exec ops
  revert hw hf hfd hb
  generalize (exec ops).1 = s
  intro hf hfd hb hw
  have hst : step s (.clear f) = clear s f := by
    unfold step; simp [isFolder, hf, hfd]
  rw [hst]
  have hx : ∀ x ∈ (s.comp f).items.map (·.2), x < s.count := by
    intro x hx
    obtain ⟨⟨k, i⟩, hm, rfl⟩ := List.mem_map.mp hx
    exact (hw.item f k i hm).1
  have hiff : ∀ y, (∃ x ∈ (s.comp f).items.map (·.2), Below s x y) ↔ ∃ i, Holds s f i ∧ Below s i y := by
    intro y
    constructor
    · rintro ⟨x, hx, h⟩
      obtain ⟨⟨k, i⟩, hm, rfl⟩ := List.mem_map.mp hx
      exact ⟨i, ⟨k, hm⟩, h⟩
    · rintro ⟨i, ⟨k, hm⟩, h⟩
      exact ⟨i, List.mem_map.mpr ⟨_, hm, rfl⟩, h⟩
  have hall := removeItems_eq hw hx
  simp only [hiff] at hall
  have hff : ((s.comp f).items.map (·.2)).foldl (removeAll s) s.comp f = s.comp f :=
    (hall f).2 (by rintro ⟨i, h1, h2⟩; exact hb i h1 h2)
  unfold clear
  dsimp only
  rw [if_neg (by rw [hff]; simp)]
  refine ⟨rfl, ?_, ?_, ?_⟩
  · simp only [getItems, upd_eq]; rfl
  · simp only [upd_eq, noItems, hff]
  · intro y hy
    refine ⟨fun h => ?_, fun h => ?_⟩
    · simp only [getItems, upd_ne _ _ hy, (hall y).1 h]
      exact ⟨rfl, rfl⟩
    · simp only [upd_ne _ _ hy, (hall y).2 h]

/-- **C57** Removing a component directly removes it and everything below, and leaves all else, also the folder that
holds it; the second time the call is ignored. -/
theorem C57_removeSelf (ops : List Op) (c : Nat) (hc : c < (exec ops).1.count) :
    (((exec ops).1.comp c).removed = true → step (exec ops).1 (.remove c) = ((exec ops).1, .ignored)) ∧
    (((exec ops).1.comp c).removed = false → (step (exec ops).1 (.remove c)).2 = .ok ∧
      ∀ y, (Below (exec ops).1 c y → ((step (exec ops).1 (.remove c)).1.comp y).removed = true ∧
          getItems (step (exec ops).1 (.remove c)).1 y = []) ∧
        (¬ Below (exec ops).1 c y → (step (exec ops).1 (.remove c)).1.comp y = (exec ops).1.comp y)) := by
  have hw := wf_exec ops
  revert hw hc
  generalize (exec ops).1 = s
  intro hc hw
  have hst : step s (.remove c) = remove s c := by unfold step; simp [hc]
  rw [hst]
  unfold remove
  constructor
  · intro h; rw [if_pos h]
  · intro h
    rw [if_neg (by rw [h]; exact Bool.false_ne_true)]
    refine ⟨rfl, fun y => ⟨fun hy => ?_, fun hy => ?_⟩⟩
    · simp only [getItems, (removeAll_eq hw hc y).1 hy]; exact ⟨rfl, rfl⟩
    · simp only [(removeAll_eq hw hc y).2 hy]

/-- No folder is below one of its items when every item was added to the folder that is its parent: the hypothesis about
containment in the theorems above is then always met. -/
theorem below_lt {s : St} (hw : WF s) (ho : Owned s) {i y : Nat} (h : Below s i y) : i ≤ y := by
  induction h with
  | start _ => exact Nat.le_refl _
  | step f d _ hd _ ih =>
    obtain ⟨k, hk⟩ := hd
    exact Nat.le_of_lt (Nat.lt_of_le_of_lt ih (hw.parent d f (hw.item f k d hk).1 (ho f d ⟨k, hk⟩)))

/-- **C57** When items are added only to their parent, no folder is below one of its items. -/
theorem C57_acyclic (ops : List Op) (ho : Along OwnParent init ops) (f i : Nat) (h : Holds (exec ops).1 f i) :
    ¬ Below (exec ops).1 i f := by
  intro hb
  have hw := wf_exec ops
  have how := owned_exec ops ho
  obtain ⟨k, hk⟩ := h
  have := hw.parent i f (hw.item f k i hk).1 (how f i ⟨k, hk⟩)
  have := below_lt hw how hb
  omega

example : Along OwnParent init sampleTree ∧ getItem (exec sampleTree).1 0 "IO".toList = some 1 ∧
    Below (exec sampleTree).1 1 2 ∧ hasItem (exec sampleTree).1 1 "ch".toList = true ∧
    ((step (exec sampleTree).1 (.removeItemWithLocalId 0 "IO".toList)).1.comp 2).removed = true ∧
    getItems (step (exec sampleTree).1 (.removeItemWithLocalId 0 "IO".toList)).1 0 = [] := by
  refine ⟨⟨trivial, trivial, rfl, trivial, rfl, trivial⟩, rfl, ?_, rfl, rfl, rfl⟩
  exact .step _ _ (.start rfl) ⟨"ch".toList, by decide⟩ rfl

/-- **C57 (violation)** The item to remove is looked up by its local id only: asked to remove a component that it does
not hold, a folder removes another with the same local id. -/
theorem C57_violation_otherItem :
    (let s := (exec [.create none ['f'] true true, .create (some 0) ['a'] false true, .create (some 0) ['a'] false true,
        .addItem 0 1]).1
     ¬ Holds s 0 2 ∧ (step s (.removeItem 0 2)).2 = .ok ∧
     ((step s (.removeItem 0 2)).1.comp 1).removed = true ∧ ((step s (.removeItem 0 2)).1.comp 2).removed = false ∧
     getItems (step s (.removeItem 0 2)).1 0 = []) := by
  refine ⟨?_, rfl, rfl, rfl, rfl⟩
  rintro ⟨k, hk⟩
  simp [exec, runTrace, step, create, init, parentOk, isFolder, addItem, upd, AList.has, AList.get, List.lookup, appendItem] at hk

/-- **C57 (violation)** A component removed directly stays among the items of its folder. -/
theorem C57_violation_stale :
    (let s := (exec (sampleTree ++ [.remove 1])).1
     (s.comp 1).removed = true ∧ getItem s 0 "IO".toList = some 1 ∧ getItems s 0 = [1]) := ⟨rfl, rfl, rfl⟩

/-- **C57 (violation)** A folder can be added to itself; removing it from itself or clearing it then uses freed items. -/
theorem C57_violation_self :
    (let s := (exec [.create none ['f'] true true, .addItem 0 0]).1
     getItems s 0 = [0] ∧ (step s (.removeItemWithLocalId 0 ['f'])).2 = .ub ∧ (step s (.clear 0)).2 = .ub) := ⟨rfl, rfl, rfl⟩

end Verif.Component
