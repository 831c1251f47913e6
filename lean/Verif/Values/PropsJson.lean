import Mathlib.Tactic.ByContra
import Verif.Values.JsonRound
import Verif.Values.Props

namespace Verif.Values.Props
open Spec Verif.CoreTypes

/-! ## C86: values survive JSON -/

/-- Writing succeeds, and reading what was written gives the same content: the element types of lists and dictionaries too
when they are written (`ver` above 1), and otherwise the type of any object. -/
theorem C86_round_trip (hd : Fl → Nat) (rt : Fl → Fl) (hh : HashOk hd) (ver : Int) (x : V) (h : Storable rt x) :
    ∃ j, ser ver x = .ok j ∧ ∀ n, ∃ x' n', de hd rt j n = .ok (x', n') ∧ shape true x' = shape (decide (1 < ver)) x :=
  round hh ver x h

/-- Interface identifiers survive being written as text. -/
theorem C86_id (i j : Iid) : Iid.ofText i.text j = (i, true) := ofText_text i j

/-- A dictionary with a null value, a typed list, a ratio and a complex number. -/
def stored : V := .dict 1 anyId ⟨1, 2, 3, 4, 5, 6, 7, 8, 9, 10, 11⟩
  (.cons (.str 2 (some [97])) .null (.cons (.int 3 4) (.list 4 ⟨0xFFFFFFFF, 0, 9, 0, 0, 0, 0xAB, 0, 0, 0, 0⟩
    (.cons (.ratio 5 1 3) (.cons (.cplx 6 (.fin 1) .negZero) .nil))) .nil))

theorem stored_ok : Storable (fun f => f) stored := by
  simp [stored, Storable, StorableK, StorableL, keyOf, keysOf, Is64]

example : Storable (fun f => f) stored ∧ ∃ j, ser 2 stored = .ok j := by
  obtain ⟨j, h, -⟩ := C86_round_trip hd0 (fun f => f) hd0_ok 2 stored stored_ok
  exact ⟨stored_ok, j, h⟩

/-! ## C87: what does not survive -/

/-- The content of what was read. -/
def content (r : Except Fail (V × Nat)) : Option V :=
  match r with
  | .ok (v, _) => some (shape true v)
  | .error _ => none

/-- The failure of reading. -/
def failure (r : Except Fail (V × Nat)) : Option Fail :=
  match r with
  | .ok _ => none
  | .error e => some e

/-- A string ends at its first zero character, without an error. -/
theorem C87_zero_violation : ser 2 (.str 1 (some [97, 0, 98])) = .ok (.str [97, 0, 98]) ∧
    content (de hd0 (fun f => f) (.str [97, 0, 98]) 1) = some (.str 0 (some [97])) := by decide +kernel

/-- A list without JSON form as the key of a dictionary: success is reported for text that is not JSON. As a value it
is an error. -/
theorem C87_key_violation :
    ser 2 (.dict 1 anyId anyId (.cons (.list 2 anyId (.cons (.obj 3) .nil)) (.int 4 1) .nil)) = .broken ∧
    ser 2 (.dict 1 anyId anyId (.cons (.int 4 1) (.list 2 anyId (.cons (.obj 3) .nil)) .nil)) = .notSer := by
  decide +kernel

/-- A complex number whose real part is written without a decimal point is read as zero, without an error. -/
theorem C87_complex_violation (n : Nat) (rt : Fl → Fl) :
    de hd0 rt (.obj (.cons "__type" (.str tagCplx) (.cons "real" (.int 3) (.cons "imaginary" (.dbl (.fin 4)) .nil)))) n =
      .ok (.cplx n (.fin 0) (.fin 0), n + 1) := by
  rw [de, readTag_cplx]
  simp only [readCplx, JM.find, String.reduceEq, if_true, if_false]

/-- An entry with a null key disappears, without an error. -/
theorem C87_null_key_violation : content (de hd0 (fun f => f) (.obj (.cons "__type" (.str tagDict) (.cons "values"
      (.arr (.cons (.obj (.cons "key" .null (.cons "value" (.int 1) .nil))) .nil)) .nil))) 1) =
    some (.dict 0 anyId anyId .nil) := by decide +kernel

/-- A list without its elements throws instead of returning an error. -/
theorem C87_throw_violation :
    failure (de hd0 (fun f => f) (.obj (.cons "__type" (.str tagList) .nil)) 1) = some .thrown := by decide +kernel

/-- An identifier that is wrong in its last part is taken over in its first parts, without an error. -/
theorem C87_id_violation : ∃ s : List UInt8, (Iid.ofText s unknownId).2 = false ∧ (Iid.ofText s unknownId).1 ≠ unknownId :=
  ⟨(⟨1, 2, 3, 4, 5, 6, 7, 8, 9, 10, 11⟩ : Iid).text.set 36 90, by decide +kernel⟩

/-- What is missing: strings with zero characters or without characters, keys without content, floats whose text is not
read back exactly, objects without a JSON form, text that was not written by the library. -/
theorem C87_round_trip_partial (hd : Fl → Nat) (rt : Fl → Fl) (hh : HashOk hd) (x : V) (h : Storable rt x) :
    ∃ j, ser 2 x = .ok j ∧ ∀ n, ∃ x' n', de hd rt j n = .ok (x', n') ∧ shape true x' = shape true x := by
  have := C86_round_trip hd rt hh 2 x h
  simpa using this

/-! ## C88: reading the elements of a list one by one -/

variable (hd : Fl → Nat) (rt : Fl → Fl)

/-- What a call may do to the position. -/
def Moves (r : Reader) (p : Reader × ROut) : Prop :=
  p.1.items = r.items ∧ (p.1.index = r.index ∨ (p.1.index = r.index + 1 ∧ r.index < r.items.length)) ∧
    (p.2 = .outOfRange ∨ p.2 = .invalidType ∨ p.2 = .null → p.1.index = r.index)

theorem moves_stay (r : Reader) (o : ROut) : Moves r (r, o) := ⟨rfl, Or.inl rfl, fun _ => rfl⟩

theorem moves_next (r : Reader) (o : ROut) (h : r.index < r.items.length)
    (ho : ¬ (o = .outOfRange ∨ o = .invalidType ∨ o = .null)) : Moves r (r.next, o) :=
  ⟨rfl, Or.inr ⟨rfl, h⟩, fun e => absurd e ho⟩

/-- A call moves on by one element or does not move; the elements stay. Calls that report that the list has ended, that
the element has another type, or null do not move. -/
theorem C88_step (n : Nat) (r : Reader) (o : ROp) : Moves r (r.step hd rt n o) := by
  have hv (x : Except Fail (V × Nat)) : ¬ (readVal x = .outOfRange ∨ readVal x = .invalidType ∨ readVal x = .null) := by
    unfold readVal; split <;> simp
  cases h : r.items[r.index]? with
  | none => cases o <;> simp only [Reader.step, h] <;> exact moves_stay _ _
  | some j =>
    have hl : r.index < r.items.length := by
      by_contra hc
      rw [List.getElem?_eq_none (by omega)] at h
      cases h
    cases o <;> cases j <;> simp only [Reader.step, h] <;> first
      | exact moves_stay _ _
      | exact moves_next _ _ hl (hv _)
      | exact moves_next _ _ hl (by simp)
      | (split
         · exact moves_next _ _ hl (by simp)
         · exact moves_stay _ _)

/-- The position stays within the list, and the elements stay, whatever is called. -/
theorem C88_bounds (n : Nat) (l : List J) (ops : List ROp) :
    (runTrace (Reader.step hd rt n) ⟨l, 0⟩ ops).1.items = l ∧ (runTrace (Reader.step hd rt n) ⟨l, 0⟩ ops).1.index ≤ l.length := by
  have key : ∀ (ops : List ROp) (r : Reader), r.items = l → r.index ≤ l.length →
      (runTrace (Reader.step hd rt n) r ops).1.items = l ∧ (runTrace (Reader.step hd rt n) r ops).1.index ≤ l.length := by
    intro ops
    induction ops with
    | nil => intro r h1 h2; exact ⟨h1, h2⟩
    | cons o ops ih =>
      intro r h1 h2
      obtain ⟨a, b, -⟩ := C88_step hd rt n r o
      simp only [runTrace]
      refine ih _ (a.trans h1) ?_
      rw [h1] at b
      omega
  exact key ops ⟨l, 0⟩ rfl (Nat.zero_le _)

theorem objects_from (n : Nat) (l pre : List J) :
    (runTrace (Reader.step hd rt n) ⟨pre ++ l, pre.length⟩ (l.map fun _ => .object)).2.map Prod.snd =
      l.map fun j => readVal (de hd rt j n) := by
  induction l generalizing pre with
  | nil => rfl
  | cons j l ih =>
    have h : (pre ++ j :: l)[pre.length]? = some j := by simp
    have hs : Reader.step hd rt n ⟨pre ++ j :: l, pre.length⟩ .object =
        (⟨pre ++ j :: l, pre.length + 1⟩, readVal (de hd rt j n)) := by
      simp only [Reader.step, h, Reader.next]
    have := ih (pre ++ [j])
    simp only [List.append_assoc, List.singleton_append, List.length_append, List.length_cons, List.length_nil,
      Nat.zero_add] at this
    simp only [List.map_cons, runTrace, hs, this]

theorem items_values (hh : HashOk hd) (ver : Int) (n : Nat) (xs : VL) (h : StorableL rt xs) (l : JL)
    (hs : serItems ver xs = .ok l) : ∃ vs : List V, (l.toList.map fun j => readVal (de hd rt j n)) = vs.map .val ∧
      vs.map (shape true) = xs.toList.map (shape (decide (1 < ver))) := by
  match xs with
  | .nil =>
    rw [serItems] at hs
    cases hs
    exact ⟨[], rfl, rfl⟩
  | .cons x xs =>
    simp only [StorableL] at h
    obtain ⟨j, h1, h2⟩ := round hh ver x h.1
    obtain ⟨l', h3, -⟩ := roundL hh ver xs h.2
    rw [serItems, h1, h3] at hs
    cases hs
    obtain ⟨x', n', h5, h6⟩ := h2 n
    obtain ⟨vs, h7, h8⟩ := items_values hh ver n xs h.2 l' h3
    refine ⟨x' :: vs, ?_, ?_⟩
    · have e : readVal (de hd rt j n) = .val x' := by rw [h5]; rfl
      simp only [JL.toList, List.map_cons, h7, e]
    · simp only [VL.toList, List.map_cons, h8, h6]

/-- Reading the written elements one by one gives all of them, in order. -/
theorem C88_objects (hh : HashOk hd) (ver : Int) (n : Nat) (xs : VL) (h : StorableL rt xs) :
    ∃ l, serItems ver xs = .ok l ∧ ∃ vs : List V,
      (runTrace (Reader.step hd rt n) ⟨l.toList, 0⟩ (l.toList.map fun _ => .object)).2.map Prod.snd = vs.map .val ∧
      vs.map (shape true) = xs.toList.map (shape (decide (1 < ver))) := by
  obtain ⟨l, h1, -⟩ := roundL (hd := hd) hh ver xs h
  obtain ⟨vs, h2, h3⟩ := items_values hd rt hh ver n xs h l h1
  refine ⟨l, h1, vs, ?_, h3⟩
  have := objects_from hd rt n l.toList []
  simp only [List.nil_append, List.length_nil] at this
  rw [this, h2]

example : StorableL (fun f => f) (.cons .null (.cons (.int 1 7) (.cons (.str 2 (some [97])) .nil))) := by
  simp [StorableL, Storable, Is64]

/-! ## C89: reading elements by type -/

/-- A null element is never passed by reading strings, lists or objects: the same success is reported forever. -/
theorem C89_null_violation (n k : Nat) (l : List J) :
    (runTrace (Reader.step hd rt n) ⟨.null :: l, 0⟩ (List.replicate k .string)).2.map Prod.snd = List.replicate k .null := by
  have hs : Reader.step hd rt n ⟨.null :: l, 0⟩ .string = (⟨.null :: l, 0⟩, .null) := rfl
  induction k with
  | zero => rfl
  | succ k ih => simp only [List.replicate_succ, runTrace, hs, List.map_cons, ih]

/-- An integer of more than 32 bits is written but refused by `readInt`, which does not move on either. -/
theorem C89_int_violation (n : Nat) : ser 2 (.int 1 2147483648) = .ok (.int 2147483648) ∧
    (Reader.step hd rt n ⟨[.int 2147483648], 0⟩ .int).2 = .invalidType := by
  constructor
  · rw [ser]
  · rfl

/-- An integer of 32 bits is read. Missing: larger ones. -/
theorem C89_int_partial (n : Nat) (i : Int) (h1 : -2147483648 ≤ i) (h2 : i < 2147483648) (l : List J) :
    Reader.step hd rt n ⟨.int i :: l, 0⟩ .int = (⟨.int i :: l, 1⟩, .int i) := by
  have : isInt32 i = true := by simp [isInt32, h1, h2]
  simp [Reader.step, this, Reader.next]

example : (Reader.step hd0 (fun f => f) 1 ⟨[.int 5, .null], 0⟩ .int).2 = .int 5 := by decide +kernel

end Verif.Values.Props
