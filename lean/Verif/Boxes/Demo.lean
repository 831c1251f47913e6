import Verif.Boxes.Spec

/-! # A few objects -/

namespace Verif.Boxes.Demo

open Verif.Boxes

/-- Object 0 is an owner, 9 cannot be owned, 7 and 8 are input ports; objects equal as keys have the same
last digit. -/
def cfg : Cfg := ⟨fun x => if x = 9 then .plain else if x = 7 ∨ x = 8 then .bound else .ownable, (· % 10)⟩

/-- Objects that can be owned only. -/
def soft : Cfg := ⟨fun x => if x = 9 then .plain else .ownable, (· % 10)⟩

/-- Three objects in a list and in a dictionary; one is taken out, one is replaced, one key is set twice. -/
def mixed : List Op :=
  [.create 1, .create 2, .create 9, .pushBack (some 1), .moveFront (some 2), .pushBack none,
   .set (some 1) (some 9), .create 11, .set (some 11) (some 11), .setAt 0 (some 9), .getAt 1, .popFront,
   .deleteAt 0, .drop 9, .remove (some 1), .insertAt 0 (some 1), .popBack, .renew true, .clearD]

/-- The same in an owning list, without what is replaced. -/
def owned : List Op :=
  [.create 1, .create 2, .create 9, .pushBack (some 1), .moveFront (some 2), .pushBack (some 9),
   .popFront, .insertAt 0 (some 2), .deleteAt 1, .pushBack (some 1), .removeAt 0, .clear, .pushFront (some 2)]

/-- The owner of the list is gone when an object is moved into it, and the client drops the object. -/
def lost : List Op := [.create 1, .drop 0, .moveBack (some 1), .drop 1, .getAt 0]

/-- An input port is popped. -/
def port : List Op := [.create 7, .moveBack (some 7), .popBack]

/-- Two elements, the second an input port. -/
def half : List Op := [.create 1, .create 7, .pushBack (some 1), .pushBack (some 7)]

/-- The owner is gone. -/
def late : List Op := [.create 1, .drop 0]

/-- An element is replaced by another. -/
def swap : List Op := [.create 1, .create 2, .pushBack (some 1), .setAt 0 (some 2)]

/-- An object is in the list twice, and one of them is removed. -/
def twice : List Op := [.create 1, .pushBack (some 1), .pushBack (some 1), .deleteAt 0]

/-- The list is destroyed. -/
def ended : List Op := [.create 1, .pushBack (some 1), .renew false]

end Verif.Boxes.Demo
