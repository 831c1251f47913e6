import Verif.Values.Spec

/-! # Specification of JSON

What a value read back should be, without the model of JSON. -/

namespace Verif.Values.Spec

open Verif.CoreTypes

/-- The identifier of the interface every object has. -/
def anyId : Iid := ⟨0, 0, 0, 0xC0, 0, 0, 0, 0, 0, 0, 0x46⟩

mutual
/-- The content of a value: no addresses. Element types are kept or replaced by the one of any object. -/
def shape (types : Bool) : V → V
  | .null => .null
  | .bool _ b => .bool 0 b
  | .int _ i => .int 0 i
  | .float _ f => .float 0 f
  | .str _ s => .str 0 s
  | .ratio _ n d => .ratio 0 n d
  | .cplx _ re im => .cplx 0 re im
  | .list _ iid xs => .list 0 (if types then iid else anyId) (shapeL types xs)
  | .dict _ kid vid kvs => .dict 0 (if types then kid else anyId) (if types then vid else anyId) (shapeK types kvs)
  | .obj _ => .obj 0
def shapeL (types : Bool) : VL → VL
  | .nil => .nil
  | .cons x xs => .cons (shape types x) (shapeL types xs)
def shapeK (types : Bool) : KL → KL
  | .nil => .nil
  | .cons k v r => .cons (shape types k) (shape types v) (shapeK types r)
end

mutual
/-- A value that survives: no object without a JSON form, integers of 64 bits, strings with characters other than zero,
denominators other than zero, dictionaries with proper and different keys, and floats whose text is read back
exactly. -/
def Storable (rt : Fl → Fl) : V → Prop
  | .null => True
  | .bool _ _ => True
  | .int _ i => Is64 i
  | .float _ f => rt f = f
  | .str _ none => False
  | .str _ (some s) => 0 ∉ s
  | .ratio _ n d => Is64 n ∧ Is64 d ∧ d ≠ 0
  | .cplx _ re im => rt re = re ∧ rt im = im
  | .list _ _ xs => StorableL rt xs
  | .dict _ _ _ kvs => StorableK rt kvs ∧ (keysOf kvs).Nodup
  | .obj _ => False
def StorableL (rt : Fl → Fl) : VL → Prop
  | .nil => True
  | .cons x xs => Storable rt x ∧ StorableL rt xs
def StorableK (rt : Fl → Fl) : KL → Prop
  | .nil => True
  | .cons k v r => (keyOf k).isSome ∧ Storable rt k ∧ Storable rt v ∧ StorableK rt r
end

end Verif.Values.Spec
