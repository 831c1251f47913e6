import Verif.Boxes.Model

/-!
# What is expected of lists and dictionaries

Stated with the elements and entries, the counts, and nothing else of the model.
-/

namespace Verif.Boxes

/-- How many pointers there are to an object: those of the client, those in the list, the keys and the
values of the dictionary. -/
def Sys.pointers (s : Sys) (x : Nat) : Nat :=
  s.mine x + s.lst.items.count (some x) + (s.dict.entries.map (·.1)).count x
    + (s.dict.entries.map (·.2)).count (some x)

/-- Every object has as many references as there are pointers to it, and none that was destroyed has
been touched.  In particular an object is destroyed exactly when nothing points to it. -/
def Sys.Sound (s : Sys) : Prop := s.heap.bad = false ∧ ∀ x, s.heap.refs x = s.pointers x

/-- The client has a pointer to what it passes (null is allowed). -/
def Sys.Has (s : Sys) (o : Option Nat) : Prop := ∀ x, o = some x → 0 < s.mine x

/-- What a client may do: pass what it has a pointer to; a new object is none that is there. -/
def Sys.Legal (s : Sys) : Op → Prop
  | .create x => s.heap.refs x = 0 ∧ s.lst.own ≠ some x
  | .copy x | .drop x => 0 < s.mine x
  | .setAt _ o | .pushBack o | .pushFront o | .moveBack o | .moveFront o | .insertAt _ o => s.Has o
  | .get k | .remove k | .delete k => s.Has k
  | .set k v => s.Has k ∧ s.Has v
  | _ => True

/-- A condition on every act and the state it is done in. -/
def Always (cfg : Cfg) (P : Sys → Op → Prop) (s : Sys) : List Op → Prop
  | [] => True
  | op :: ops => P s op ∧ Always cfg P (s.step cfg op).1 ops

/-- No call failed because of an owner. -/
def Calm (cs : List Code) : Prop := Code.gone ∉ cs ∧ Code.taken ∉ cs

/-- The acts that change a list. -/
def Op.changesList : Op → Bool
  | .setAt .. | .pushBack _ | .pushFront _ | .moveBack _ | .moveFront _ | .popBack | .popFront
  | .insertAt .. | .removeAt _ | .deleteAt _ | .clear => true
  | _ => false

/-- The acts that change a dictionary. -/
def Op.changesDict : Op → Bool
  | .set .. | .remove _ | .delete _ | .clearD => true
  | _ => false

/-- Which code a list of which length answers. -/
def listCode (frozen : Bool) (n : Nat) (op : Op) : Code :=
  if frozen && op.changesList then .frozen
  else match op with
    | .getAt i | .setAt i _ | .insertAt i _ | .removeAt i | .deleteAt i => if i < n then .ok else .range
    | .popBack | .popFront => if n = 0 then .missing else .ok
    | _ => .ok

/-- What a successful act makes of the elements, position by position. -/
def Elements (l l' : List (Option Nat)) : Op → Prop
  | .setAt i o => ∀ j, l'[j]? = if j = i then some o else l[j]?
  | .pushBack o | .moveBack o => ∀ j, l'[j]? = if j = l.length then some o else l[j]?
  | .pushFront o | .moveFront o => l'[0]? = some o ∧ ∀ j, l'[j + 1]? = l[j]?
  | .popBack => ∀ j, l'[j]? = if j + 1 = l.length then none else l[j]?
  | .popFront => ∀ j, l'[j]? = l[j + 1]?
  | .insertAt i o => ∀ j, l'[j]? = if j < i then l[j]? else if j = i then some o else l[j - 1]?
  | .removeAt i | .deleteAt i => ∀ j, l'[j]? = if j < i then l[j]? else l[j + 1]?
  | .clear | .renew _ => l' = []
  | _ => l' = l

/-- Which element a successful act gives the client. -/
def given (l : List (Option Nat)) : Op → Option (Option Nat)
  | .getAt i | .removeAt i => l[i]?
  | .popBack => l[l.length - 1]?
  | .popFront => l[0]?
  | _ => none

/-- The acts on the list. -/
def Op.onList : Op → Bool
  | .getAt _ | .freeze | .renew _ => true
  | op => op.changesList

/-- What a dictionary has under a key: the value of the entry whose key is equal. -/
def Under (cfg : Cfg) (d : List (Nat × Option Nat)) (k : Nat) (v : Option Nat) : Prop :=
  ∃ e ∈ d, cfg.key e.1 = cfg.key k ∧ e.2 = v

/-- No two keys are equal. -/
def Distinct (cfg : Cfg) (d : List (Nat × Option Nat)) : Prop := (d.map (fun e => cfg.key e.1)).Nodup

/-- The list stores objects once: what is passed is not in it, and nothing is replaced or left to the
end of the list. -/
def Once (s : Sys) : Op → Prop
  | .pushBack o | .pushFront o | .moveBack o | .moveFront o | .insertAt _ o =>
    o = none ∨ o ∉ s.lst.items
  | .setAt .. | .renew _ => False
  | _ => True

/-- Living objects that can be owned have the owner of the list exactly while they are in it. -/
def Sys.Owned (cfg : Cfg) (s : Sys) (p : Nat) : Prop :=
  ∀ x, 0 < s.heap.refs x → cfg.kind x = .ownable →
    s.heap.owner x = if some x ∈ s.lst.items then some p else none

end Verif.Boxes
