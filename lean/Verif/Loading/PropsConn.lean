import Verif.Loading.Model
import Verif.Loading.Spec
import Verif.Loading.Demo

/-! # Where connections lead after devices were replaced -/

namespace Verif.Loading

theorem split_append (a : List Char) (ha : '/' ∉ a) (b : List Char) :
    split (a ++ '/' :: b) = a :: split b := by
  induction a with
  | nil => simp [split]
  | cons x a ih =>
    rw [List.mem_cons] at ha
    rw [List.cons_append, split, if_neg (fun h => ha (Or.inl h.symm)), ih (fun h => ha (Or.inr h))]

theorem split_single (a : List Char) (ha : '/' ∉ a) : split a = [a] := by
  induction a with
  | nil => rfl
  | cons x a ih =>
    rw [List.mem_cons] at ha
    rw [split, if_neg (fun h => ha (Or.inl h.symm)), ih (fun h => ha (Or.inr h))]

theorem globalId_cons (x : String) (l : List String) : Spec.globalId (x :: l) = '/' :: join ((x :: l).map String.toList) := by
  induction l generalizing x with
  | nil => simp [Spec.globalId, join]
  | cons y l ih =>
    rw [Spec.globalId, ih]
    rfl

theorem split_join (x : String) (l : List String) (h : ∀ y ∈ x :: l, '/' ∉ y.toList) :
    split (join ((x :: l).map String.toList)) = (x :: l).map String.toList := by
  induction l generalizing x with
  | nil => exact split_single _ (h x (List.mem_cons_self ..))
  | cons y l ih =>
    have hj : join ((x :: y :: l).map String.toList) = x.toList ++ '/' :: join ((y :: l).map String.toList) := rfl
    rw [hj, split_append _ (h x (List.mem_cons_self ..)), ih y (fun z hz => h z (List.mem_cons_of_mem _ hz))]
    rfl

/-- What a local id is replaced with. -/
theorem remapId_global (m : AList String String) (x : String) (l : List String) (h : ∀ y ∈ x :: l, '/' ∉ y.toList) :
    remapId m (Spec.globalId (x :: l)) = Spec.globalId ((x :: l).map fun y => (m.get y).getD y) := by
  rw [globalId_cons]
  unfold remapId
  rw [List.drop_one, List.tail_cons, split_join x l h, List.map_map, List.map_cons (f := fun y => (m.get y).getD y), globalId_cons,
    ← List.map_cons (f := fun y => (m.get y).getD y), List.map_map]
  congr 2
  refine List.map_congr_left fun y _ => ?_
  simp only [Function.comp, String.ofList_toList]
  cases m.get y <;> rfl

/-- **C297.** A connection to a signal of a device that was not replaced leads elsewhere: the signal has the local id of a replaced
device. -/
theorem C297_violation_signal :
    remapId [("a", "b")] (Spec.globalId ["r", "Dev", "c", "Sig", "a"]) = Spec.globalId ["r", "Dev", "c", "Sig", "b"] ∧
      Spec.move (fun x => if x = "a" then "b" else x) ["r", "Dev", "c", "Sig", "a"] = ["r", "Dev", "c", "Sig", "a"] := by
  decide +kernel

/-- **C297.** So does one to a function block of another device, with the local id of a replaced device. -/
theorem C297_violation_other_device :
    let c : Ctx Nat := { make := Demo.make, opts := [("a", { mode := .remap, new := { conn := "t://c" } })] }
    let r := load c (.cons "a" (Demo.saved 11 "a") .nil .nil) true Demo.devs []
    remapId r.2 (Spec.globalId ["r", "Dev", "b", "FB", "a", "Sig", "s"]) = Spec.globalId ["r", "Dev", "b", "FB", "c", "Sig", "s"] := by
  decide +kernel

/-- **C297.** A device that is added again can have another local id; connections to it are not changed and lead nowhere. -/
theorem C297_violation_added :
    let make (conn : String) : Option (String × Dev Nat × Forest (Dev Nat)) := if conn = "t://a" then some ("a2", Demo.fresh "a") else none
    let c : Ctx Nat := { make }
    let r := load c (.cons "a" (Demo.saved 11 "a") .nil .nil) true .nil []
    r.1.ids = ["a2"] ∧ remapId r.2 (Spec.globalId ["r", "Dev", "a", "Sig", "s"]) = Spec.globalId ["r", "Dev", "a", "Sig", "s"] := by
  decide +kernel

theorem move_below (m : AList String String) (l : List String) (h : ∀ x ∈ Spec.othersBelow l, m.get x = none) :
    l.map (fun y => (m.get y).getD y) = Spec.moveBelow (fun y => (m.get y).getD y) l := by
  match l with
  | [] => rfl
  | [x] =>
    have := h x (by simp [Spec.othersBelow])
    simp [Spec.moveBelow, this]
  | x :: y :: l =>
    unfold Spec.moveBelow
    unfold Spec.othersBelow at h
    by_cases hx : x = "Dev"
    · rw [if_pos hx] at h ⊢
      rw [List.map_cons, List.map_cons, h x (List.mem_cons_self ..), move_below m l (fun z hz => h z (List.mem_cons_of_mem _ hz))]
      rfl
    · rw [if_neg hx] at h ⊢
      have : (x :: y :: l).map (fun y => (m.get y).getD y) = (x :: y :: l).map (fun y => y) :=
        List.map_congr_left fun z hz => by rw [h z hz]; rfl
      rw [this, List.map_id']

/-- **C297.** A connection leads to what is at the same place in the replacing devices, if nothing else on the way has the local id
of a replaced device. -/
theorem C297_moved_partial (m : AList String String) (x : String) (l : List String) (hs : ∀ y ∈ x :: l, '/' ∉ y.toList)
    (ho : ∀ y ∈ Spec.others (x :: l), m.get y = none) :
    remapId m (Spec.globalId (x :: l)) = Spec.globalId (Spec.move (fun y => (m.get y).getD y) (x :: l)) := by
  rw [remapId_global m x l hs]
  unfold Spec.move
  unfold Spec.others at ho
  rw [List.map_cons, ho x (List.mem_cons_self ..), move_below m l (fun z hz => ho z (List.mem_cons_of_mem _ hz))]
  rfl

/-- **C297.** If no device was replaced, connections stay as they are. -/
theorem C297_none_replaced_partial (x : String) (l : List String) (hs : ∀ y ∈ x :: l, '/' ∉ y.toList) :
    remapId [] (Spec.globalId (x :: l)) = Spec.globalId (x :: l) := by
  rw [remapId_global [] x l hs]
  congr 1
  have : (fun y : String => (AList.get ([] : AList String String) y).getD y) = fun y => y := rfl
  rw [this, List.map_id']

example : remapId [("a", "c")] (Spec.globalId ["r", "Dev", "b", "Dev", "a", "Sig", "s"]) = Spec.globalId ["r", "Dev", "b", "Dev", "c", "Sig", "s"] :=
  C297_moved_partial [("a", "c")] "r" ["Dev", "b", "Dev", "a", "Sig", "s"] (by decide +kernel) (by decide +kernel)

end Verif.Loading
