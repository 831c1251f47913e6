/-!
# Lists and dictionaries: what they hold, whom they own

The containers of the SDK keep plain pointers and count references by hand.  The model has a heap of
objects with reference counts, a list (`ListImpl`, or `OwningListImpl` when it has an owner), a
dictionary (`DictImpl`) and a client that calls them through the smart pointers.

* `lst` = `core/corecontainers/src/listobject_impl.cpp`
* `dic` = `core/corecontainers/src/dictobject_impl.cpp`
* `dich` = `core/corecontainers/include/coretypes/dictobject_impl.h`
* `own` = `core/coreobjects/src/owning_list_impl.cpp`
* `lptr` = `core/corecontainers/include/coretypes/listptr.h`
* `intfs` = `core/coretypes/include/coretypes/intfs.h`
* `weak` = `core/coretypes/include/coretypes/weakref_impl.h`
* `poi` = `core/coreobjects/include/coreobjects/property_object_impl.h`
* `port` = `core/opendaq/signal/include/opendaq/input_port_impl.h`
-/

namespace Verif.Boxes

/-- Which code a call answers: success; the container is frozen; the index is out of range; nothing to
take or no such key; a null argument; the owner is gone (`OPENDAQ_ERR_NOTASSIGNED`); the object has
another owner (`OPENDAQ_ERR_ALREADYEXISTS`). -/
inductive Code where
  | ok | frozen | range | missing | noArg | gone | taken
  deriving DecidableEq, Repr

/-- How an object takes an owner: not at all (no `IOwnable`), any (property objects, poi:3473-3497), or
only when it has no other living owner (input ports, port:600-610). -/
inductive Kind where
  | plain | ownable | bound
  deriving DecidableEq, Repr

/-- What is known about the objects: how they take owners, and which of them are equal as keys (equal
objects have the same number; hash and `equals` of the key, dich:30-50). -/
structure Cfg where
  kind : Nat → Kind
  key : Nat → Nat

/-- The objects: how many references there are to each (0: destroyed or not created), the owner each
remembers (a weak reference), and whether a destroyed object has been touched.  What an object holds
itself is not modelled. -/
structure Heap where
  refs : Nat → Nat
  owner : Nat → Option Nat
  bad : Bool

/-- Changing a function at one place. -/
def upd {α : Type} (f : Nat → α) (x : Nat) (v : α) : Nat → α := fun y => if y = x then v else f y

/-- `addRef` (intfs:481-484); a null pointer is skipped by the callers. -/
def Heap.addRef (h : Heap) : Option Nat → Heap
  | none => h
  | some x =>
    if h.refs x = 0 then { h with bad := true } else { h with refs := upd h.refs x (h.refs x + 1) }

/-- `releaseRef` (intfs:486-497): the object is destroyed when no reference is left. -/
def Heap.release (h : Heap) : Option Nat → Heap
  | none => h
  | some x =>
    if h.refs x = 0 then { h with bad := true } else { h with refs := upd h.refs x (h.refs x - 1) }

/-- `releaseRefOnChildren` (lst:393-400). -/
def Heap.releaseAll (h : Heap) : List (Option Nat) → Heap
  | [] => h
  | o :: os => (h.release o).releaseAll os

/-- An input port does not let go of a living owner (port:602-608). -/
def Heap.holdsOn (h : Heap) (x : Nat) (p : Option Nat) : Bool :=
  match h.owner x with
  | some q => decide (0 < h.refs q) && decide (p ≠ some q)
  | none => false

/-- `IOwnable::setOwner` of an object (poi:3473-3497, port:600-610), with the query for the interface
before (own:17-21, own:29-31). -/
def Heap.setOwner (cfg : Cfg) (h : Heap) (o : Option Nat) (p : Option Nat) : Heap × Code :=
  match o with
  | none => (h, .ok)
  | some x =>
    if h.refs x = 0 then ({ h with bad := true }, .ok)
    else match cfg.kind x with
      | .plain => (h, .ok)
      | .ownable => ({ h with owner := upd h.owner x p }, .ok)
      | .bound => if h.holdsOn x p then (h, .taken) else ({ h with owner := upd h.owner x p }, .ok)

/-- A list: its elements (null is allowed), whether it is frozen, whether `dispose` was called, and for an
owning list its owner (a weak reference). -/
structure Lst where
  items : List (Option Nat)
  frozen : Bool
  disposed : Bool
  own : Option Nat

/-- What a call of a list leaves and answers. -/
structure Ret where
  heap : Heap
  lst : Lst
  code : Code
  out : Option Nat

/-- `OwningListImpl::setOwner` (own:24-38): elements that cannot be owned are skipped before the owner is
looked up; a destroyed owner is an error (weak:67-73). -/
def giveOwner (cfg : Cfg) (h : Heap) (p : Nat) (o : Option Nat) : Heap × Code :=
  match o with
  | none => (h, .ok)
  | some x =>
    if h.refs x = 0 then ({ h with bad := true }, .ok)
    else if cfg.kind x = .plain then (h, .ok)
    else if h.refs p = 0 then (h, .gone)
    else h.setOwner cfg (some x) (some p)

/-- What an owning list does after an element was stored (own:40-86): nothing when storing failed. -/
def Ret.thenGive (cfg : Cfg) (o : Option Nat) (r : Ret) : Ret :=
  match r.lst.own with
  | none => r
  | some p =>
    if r.code = .ok then
      let g := giveOwner cfg r.heap p o
      { r with heap := g.1, code := g.2 }
    else r

/-- What an owning list does after an element was taken out by a pop (own:88-102). -/
def Ret.thenFree (cfg : Cfg) (r : Ret) : Ret :=
  match r.lst.own with
  | none => r
  | some _ =>
    if r.code = .ok then
      let g := r.heap.setOwner cfg r.out none
      { r with heap := g.1, code := g.2 }
    else r

/-- `ListImpl::getItemAt` (lst:150-164). -/
def Lst.getAt (h : Heap) (l : Lst) (i : Nat) : Ret :=
  if l.items.length ≤ i then ⟨h, l, .range, none⟩
  else ⟨h.addRef (l.items[i]?).join, l, .ok, (l.items[i]?).join⟩

/-- `setItemAt` (lst:172-192, own:40-46): the element before is released first. -/
def Lst.setAt (cfg : Cfg) (h : Heap) (l : Lst) (i : Nat) (o : Option Nat) : Ret :=
  if l.frozen then ⟨h, l, .frozen, none⟩
  else if l.items.length ≤ i then ⟨h, l, .range, none⟩
  else Ret.thenGive cfg o
    ⟨(h.release (l.items[i]?).join).addRef o,
      { l with items := l.items.take i ++ o :: l.items.drop (i + 1) }, .ok, none⟩

/-- `pushBack` (lst:194-206, own:48-54). -/
def Lst.pushBack (cfg : Cfg) (h : Heap) (l : Lst) (o : Option Nat) : Ret :=
  if l.frozen then ⟨h, l, .frozen, none⟩
  else Ret.thenGive cfg o ⟨h.addRef o, { l with items := l.items ++ [o] }, .ok, none⟩

/-- `pushFront` (lst:208-220, own:56-62). -/
def Lst.pushFront (cfg : Cfg) (h : Heap) (l : Lst) (o : Option Nat) : Ret :=
  if l.frozen then ⟨h, l, .frozen, none⟩
  else Ret.thenGive cfg o ⟨h.addRef o, { l with items := o :: l.items }, .ok, none⟩

/-- `moveBack` (lst:222-231, own:64-70): the reference of the caller is taken over. -/
def Lst.moveBack (cfg : Cfg) (h : Heap) (l : Lst) (o : Option Nat) : Ret :=
  if l.frozen then ⟨h, l, .frozen, none⟩
  else Ret.thenGive cfg o ⟨h, { l with items := l.items ++ [o] }, .ok, none⟩

/-- `moveFront` (lst:233-242, own:72-78). -/
def Lst.moveFront (cfg : Cfg) (h : Heap) (l : Lst) (o : Option Nat) : Ret :=
  if l.frozen then ⟨h, l, .frozen, none⟩
  else Ret.thenGive cfg o ⟨h, { l with items := o :: l.items }, .ok, none⟩

/-- `popBack` (lst:244-261, own:88-94): the reference of the list goes to the caller. -/
def Lst.popBack (cfg : Cfg) (h : Heap) (l : Lst) : Ret :=
  if l.frozen then ⟨h, l, .frozen, none⟩
  else if l.items = [] then ⟨h, l, .missing, none⟩
  else Ret.thenFree cfg ⟨h, { l with items := l.items.dropLast }, .ok, l.items.getLast?.join⟩

/-- `popFront` (lst:263-280, own:96-102). -/
def Lst.popFront (cfg : Cfg) (h : Heap) (l : Lst) : Ret :=
  if l.frozen then ⟨h, l, .frozen, none⟩
  else match l.items with
    | [] => ⟨h, l, .missing, none⟩
    | o :: os => Ret.thenFree cfg ⟨h, { l with items := os }, .ok, o⟩

/-- `insertAt` (lst:282-297, own:80-86): the position after the last element is out of range. -/
def Lst.insertAt (cfg : Cfg) (h : Heap) (l : Lst) (i : Nat) (o : Option Nat) : Ret :=
  if l.frozen then ⟨h, l, .frozen, none⟩
  else if l.items.length ≤ i then ⟨h, l, .range, none⟩
  else Ret.thenGive cfg o
    ⟨h.addRef o, { l with items := l.items.take i ++ o :: l.items.drop i }, .ok, none⟩

/-- `removeAt` (lst:299-313, own:104-115): the code of taking the owner away is not looked at. -/
def Lst.removeAt (cfg : Cfg) (h : Heap) (l : Lst) (i : Nat) : Ret :=
  if l.frozen then ⟨h, l, .frozen, none⟩
  else if l.items.length ≤ i then ⟨h, l, .range, none⟩
  else
    let o := (l.items[i]?).join
    let l' := { l with items := l.items.take i ++ l.items.drop (i + 1) }
    match l.own with
    | none => ⟨h, l', .ok, o⟩
    | some _ => ⟨(h.setOwner cfg o none).1, l', .ok, o⟩

/-- Whether the object was destroyed by the release (lst:327-329). -/
def Heap.dead (h : Heap) : Option Nat → Bool
  | none => false
  | some x => decide (h.refs x = 0)

/-- `deleteAt` (lst:315-345, own:117-131): an element that lives on loses its owner. -/
def Lst.deleteAt (cfg : Cfg) (h : Heap) (l : Lst) (i : Nat) : Ret :=
  if l.frozen then ⟨h, l, .frozen, none⟩
  else if l.items.length ≤ i then ⟨h, l, .range, none⟩
  else
    let o := (l.items[i]?).join
    let h' := h.release o
    let l' := { l with items := l.items.take i ++ l.items.drop (i + 1) }
    match l.own with
    | none => ⟨h', l', .ok, none⟩
    | some _ =>
      if h'.dead o then ⟨h', l', .ok, none⟩
      else ⟨(h'.setOwner cfg o none).1, l', (h'.setOwner cfg o none).2, none⟩

/-- The first half of `OwningListImpl::clear` (own:140-145): the owners are taken away until one refuses. -/
def freeAll (cfg : Cfg) (h : Heap) : List (Option Nat) → Heap × Code
  | [] => (h, .ok)
  | o :: os =>
    let g := h.setOwner cfg o none
    if g.2 = .ok then freeAll cfg g.1 os else g

/-- `clear` (lst:347-357, own:133-149). -/
def Lst.clear (cfg : Cfg) (h : Heap) (l : Lst) : Ret :=
  if l.frozen then ⟨h, l, .frozen, none⟩
  else match l.own with
    | none => ⟨h.releaseAll l.items, { l with items := [] }, .ok, none⟩
    | some _ =>
      let g := freeAll cfg h l.items
      if g.2 = .ok then ⟨g.1.releaseAll l.items, { l with items := [] }, .ok, none⟩
      else ⟨g.1, l, g.2, none⟩

/-- `dispose` (intfs:243-251, lst:402-405): the elements are released, the pointers stay. -/
def Lst.dispose (h : Heap) (l : Lst) : Heap × Lst :=
  if l.disposed then (h, l) else (h.releaseAll l.items, { l with disposed := true })

/-- The last reference to the list is released (intfs:373-377, intfs:490-494). -/
def Lst.destroy (h : Heap) (l : Lst) : Heap :=
  if l.disposed then h else h.releaseAll l.items

/-- A dictionary: its entries in the order of their insertion. -/
structure Dict where
  entries : List (Nat × Option Nat)
  frozen : Bool
  disposed : Bool

/-- `hashTable.find` (dich:30-59). -/
def Dict.find (cfg : Cfg) (d : Dict) (k : Nat) : Option (Nat × Option Nat) :=
  d.entries.find? (fun e => cfg.key e.1 = cfg.key k)

/-- `erase` of the entry found; the order of the others stays (dic:107, dic:137). -/
def Dict.erase (cfg : Cfg) (d : Dict) (k : Nat) : Dict :=
  { d with entries := d.entries.eraseP (fun e => cfg.key e.1 = cfg.key k) }

/-- Another value at the entry found (dic:82). -/
def replace (cfg : Cfg) (k : Nat) (v : Option Nat) : List (Nat × Option Nat) → List (Nat × Option Nat)
  | [] => []
  | e :: es => if cfg.key e.1 = cfg.key k then (e.1, v) :: es else e :: replace cfg k v es

/-- What a call of a dictionary leaves and answers. -/
structure DRet where
  heap : Heap
  dict : Dict
  code : Code
  out : Option Nat

/-- `DictImpl::get` (dic:44-58). -/
def Dict.get (cfg : Cfg) (h : Heap) (d : Dict) (k : Option Nat) : DRet :=
  match k with
  | none => ⟨h, d, .noArg, none⟩
  | some k =>
    match d.find cfg k with
    | none => ⟨h, d, .missing, none⟩
    | some e => ⟨h.addRef e.2, d, .ok, e.2⟩

/-- `DictImpl::set` (dic:60-88): the key before stays, the value before is released first. -/
def Dict.set (cfg : Cfg) (h : Heap) (d : Dict) (k : Option Nat) (v : Option Nat) : DRet :=
  if d.frozen then ⟨h, d, .frozen, none⟩
  else match k with
    | none => ⟨h, d, .noArg, none⟩
    | some k =>
      match d.find cfg k with
      | none => ⟨(h.addRef (some k)).addRef v, { d with entries := d.entries ++ [(k, v)] }, .ok, none⟩
      | some e => ⟨(h.release e.2).addRef v, { d with entries := replace cfg k v d.entries }, .ok, none⟩

/-- `DictImpl::remove` (dic:90-113): the key is released, the value goes to the caller. -/
def Dict.remove (cfg : Cfg) (h : Heap) (d : Dict) (k : Option Nat) : DRet :=
  if d.frozen then ⟨h, d, .frozen, none⟩
  else match k with
    | none => ⟨h, d, .noArg, none⟩
    | some k =>
      match d.find cfg k with
      | none => ⟨h, d, .missing, none⟩
      | some e => ⟨h.release (some e.1), d.erase cfg k, .ok, e.2⟩

/-- `DictImpl::deleteItem` (dic:115-150). -/
def Dict.delete (cfg : Cfg) (h : Heap) (d : Dict) (k : Option Nat) : DRet :=
  if d.frozen then ⟨h, d, .frozen, none⟩
  else match k with
    | none => ⟨h, d, .noArg, none⟩
    | some k =>
      match d.find cfg k with
      | none => ⟨h, d, .missing, none⟩
      | some e => ⟨(h.release (some e.1)).release e.2, d.erase cfg k, .ok, none⟩

/-- `releaseRefOnChildren` (dic:270-278). -/
def Heap.releaseEntries (h : Heap) : List (Nat × Option Nat) → Heap
  | [] => h
  | e :: es => ((h.release (some e.1)).release e.2).releaseEntries es

/-- `DictImpl::clear` (dic:152-163). -/
def Dict.clear (h : Heap) (d : Dict) : DRet :=
  if d.frozen then ⟨h, d, .frozen, none⟩
  else ⟨h.releaseEntries d.entries, { d with entries := [] }, .ok, none⟩

/-- `dispose` (intfs:243-251, dic:39-42). -/
def Dict.dispose (h : Heap) (d : Dict) : Heap × Dict :=
  if d.disposed then (h, d) else (h.releaseEntries d.entries, { d with disposed := true })

/-- The last reference to the dictionary is released (intfs:373-377, intfs:490-494). -/
def Dict.destroy (h : Heap) (d : Dict) : Heap :=
  if d.disposed then h else h.releaseEntries d.entries

/-- The whole: the objects, how many references the client has to each, a list and a dictionary. -/
structure Sys where
  heap : Heap
  mine : Nat → Nat
  lst : Lst
  dict : Dict

/-- What a client can do: create an object, copy and drop a pointer to one, and call the containers.
`renew` lets go of the list and creates an empty one of the same kind, calling `dispose` before or not. -/
inductive Op where
  | create (x : Nat) | copy (x : Nat) | drop (x : Nat)
  | getAt (i : Nat) | setAt (i : Nat) (o : Option Nat)
  | pushBack (o : Option Nat) | pushFront (o : Option Nat)
  | moveBack (o : Option Nat) | moveFront (o : Option Nat)
  | popBack | popFront
  | insertAt (i : Nat) (o : Option Nat) | removeAt (i : Nat) | deleteAt (i : Nat)
  | clear | freeze | renew (disposed : Bool)
  | get (k : Option Nat) | set (k v : Option Nat) | remove (k : Option Nat) | delete (k : Option Nat)
  | clearD | freezeD | renewD (disposed : Bool)
  deriving DecidableEq, Repr

/-- The client gets one more pointer. -/
def gain (m : Nat → Nat) : Option Nat → (Nat → Nat)
  | none => m
  | some x => upd m x (m x + 1)

/-- The client gives up one pointer. -/
def lose (m : Nat → Nat) : Option Nat → (Nat → Nat)
  | none => m
  | some x => upd m x (m x - 1)

/-- A call of the list that gives the client nothing. -/
def Sys.plain (s : Sys) (r : Ret) : Sys × Code := ({ s with heap := r.heap, lst := r.lst }, r.code)

/-- A call of the list that gives the client a pointer, if it succeeds (lptr:392-414, lptr:425-435): after
an error the pointer is not looked at. -/
def Sys.taking (s : Sys) (r : Ret) : Sys × Code :=
  ({ s with heap := r.heap, lst := r.lst, mine := if r.code = .ok then gain s.mine r.out else s.mine },
    r.code)

/-- A call of the list that takes over a pointer of the client: the smart pointers detach it after
success only (lptr:350-358, lptr:382-390). -/
def Sys.giving (s : Sys) (o : Option Nat) (r : Ret) : Sys × Code :=
  ({ s with heap := r.heap, lst := r.lst, mine := if r.code = .ok then lose s.mine o else s.mine }, r.code)

/-- A call of the dictionary. -/
def Sys.dcall (s : Sys) (r : DRet) : Sys × Code :=
  ({ s with heap := r.heap, dict := r.dict, mine := if r.code = .ok then gain s.mine r.out else s.mine },
    r.code)

/-- One act of the client. -/
def Sys.step (cfg : Cfg) (s : Sys) : Op → Sys × Code
  | .create x =>
    ({ s with heap := ⟨upd s.heap.refs x 1, upd s.heap.owner x none, s.heap.bad⟩,
              mine := gain s.mine (some x) }, .ok)
  | .copy x => ({ s with heap := s.heap.addRef (some x), mine := gain s.mine (some x) }, .ok)
  | .drop x => ({ s with heap := s.heap.release (some x), mine := lose s.mine (some x) }, .ok)
  | .getAt i => s.taking (s.lst.getAt s.heap i)
  | .setAt i o => s.plain (s.lst.setAt cfg s.heap i o)
  | .pushBack o => s.plain (s.lst.pushBack cfg s.heap o)
  | .pushFront o => s.plain (s.lst.pushFront cfg s.heap o)
  | .moveBack o => s.giving o (s.lst.moveBack cfg s.heap o)
  | .moveFront o => s.giving o (s.lst.moveFront cfg s.heap o)
  | .popBack => s.taking (s.lst.popBack cfg s.heap)
  | .popFront => s.taking (s.lst.popFront cfg s.heap)
  | .insertAt i o => s.plain (s.lst.insertAt cfg s.heap i o)
  | .removeAt i => s.taking (s.lst.removeAt cfg s.heap i)
  | .deleteAt i => s.plain (s.lst.deleteAt cfg s.heap i)
  | .clear => s.plain (s.lst.clear cfg s.heap)
  | .freeze => ({ s with lst := { s.lst with frozen := true } }, .ok)
  | .renew b =>
    let r := if b then s.lst.dispose s.heap else (s.heap, s.lst)
    ({ s with heap := r.2.destroy r.1, lst := ⟨[], false, false, s.lst.own⟩ }, .ok)
  | .get k => s.dcall (s.dict.get cfg s.heap k)
  | .set k v => s.dcall (s.dict.set cfg s.heap k v)
  | .remove k => s.dcall (s.dict.remove cfg s.heap k)
  | .delete k => s.dcall (s.dict.delete cfg s.heap k)
  | .clearD => s.dcall (s.dict.clear s.heap)
  | .freezeD => ({ s with dict := { s.dict with frozen := true } }, .ok)
  | .renewD b =>
    let r := if b then s.dict.dispose s.heap else (s.heap, s.dict)
    ({ s with heap := r.2.destroy r.1, dict := ⟨[], false, false⟩ }, .ok)

/-- Acts one after another, with the codes answered. -/
def Sys.run (cfg : Cfg) (s : Sys) : List Op → Sys × List Code
  | [] => (s, [])
  | op :: ops =>
    let r := s.step cfg op
    let t := r.1.run cfg ops
    (t.1, r.2 :: t.2)

/-- At first there is nothing but, for an owning list, its owner, which the client holds. -/
def Sys.init (own : Option Nat) : Sys :=
  ⟨⟨fun x => if own = some x then 1 else 0, fun _ => none, false⟩, fun x => if own = some x then 1 else 0,
    ⟨[], false, false, own⟩, ⟨[], false, false⟩⟩

end Verif.Boxes
