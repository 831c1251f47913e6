/-
Smart pointers (`ObjectPtr<T>`): construction, assignment, borrowing, conversion and destruction.

Abbreviations used in the citations:
  `optr` = `core/coretypes/include/coretypes/objectptr.h`
  `intfs` = `core/coretypes/include/coretypes/intfs.h`
-/

namespace Verif.SmartPtr

/-- An object: its reference count and whether it is still there (intfs:473-526), and the interfaces it supports
(by number).  Simplification: the counter is unbounded, and an object that is destroyed releases no other objects. -/
structure Obj where
  count : Int := 0
  alive : Bool := true
  intfs : List Nat := []
  deriving DecidableEq, Repr

/-- A smart pointer variable: `object` and `borrowed` (optr:635-636). -/
structure Ptr where
  obj : Option Nat := none
  borrowed : Bool := false
  deriving DecidableEq, Repr

/-- The objects and the smart pointer variables of a program; `raw` are the interface pointers with a reference of
their own that were handed out by `detach`.  `ub`: an object was touched that is not there any more. -/
structure St where
  heap : List Obj := []
  vars : List Ptr := []
  raw : List Nat := []
  ub : Bool := false
  deriving DecidableEq, Repr

/-- How an operation ends. -/
inductive Out where
  | ok | threw | terminated
  deriving DecidableEq, Repr

/-- The value of a variable. -/
def St.var (s : St) (v : Nat) : Ptr := s.vars.getD v {}

/-- Change a variable. -/
def St.setVar (s : St) (v : Nat) (p : Ptr) : St := { s with vars := s.vars.set v p }

/-- Is the object there? -/
def St.alive (s : St) (o : Nat) : Bool :=
  match s.heap[o]? with
  | some x => x.alive
  | none => false

/-- `object->addRef()` (intfs:481-484). -/
def St.addRef (s : St) (o : Nat) : St :=
  if s.alive o then { s with heap := s.heap.modify o (fun x => { x with count := x.count + 1 }) }
  else { s with ub := true }

/-- `object->releaseRef()` (intfs:486-497): the last reference destroys the object. -/
def St.releaseRef (s : St) (o : Nat) : St :=
  if s.alive o then
    { s with heap := s.heap.modify o (fun x => { x with count := x.count - 1, alive := decide (x.count - 1 ≠ 0) }) }
  else { s with ub := true }

/-- `if (object && !borrowed) object->releaseRef();`, the start of every assignment (for example
optr:1489-1490). -/
def St.drop (s : St) (p : Ptr) : St :=
  match p.obj with
  | some o => if p.borrowed then s else s.releaseRef o
  | none => s

/-- Does the object support the interface (`borrowInterface`, intfs:265-275)? -/
def St.supports (s : St) (o i : Nat) : Bool :=
  match s.heap[o]? with
  | some x => x.intfs.contains i
  | none => false

/-- A new object with one reference, for the caller. -/
def St.alloc (s : St) (is : List Nat) : St := { s with heap := s.heap ++ [{ count := 1, intfs := is }] }

/-- The operations. -/
inductive Op where
  /-- a new object, given to variable `d`: `operator=(T*&&)` -/
  | create (d : Nat) (intfs : List Nat)
  /-- `d = s`, same type -/
  | copy (d s : Nat)
  /-- `d = std::move(s)`, same type -/
  | move (d s : Nat)
  /-- `d = s`, where the type of `d` is interface `i` -/
  | convCopy (d s i : Nat)
  /-- `d = std::move(s)`, where the type of `d` is interface `i` -/
  | convMove (d s i : Nat)
  /-- `d = raw`, where `raw` is the interface pointer of `s` -/
  | assignRaw (d s : Nat)
  /-- `d = ObjectPtr::Borrow(s)` -/
  | borrow (d s : Nat)
  /-- `d = nullptr`, `d.release()`, or the end of the life of `d` -/
  | clear (d : Nat)
  /-- a call `f(&d)` of a function that returns a new object -/
  | outParam (d : Nat) (intfs : List Nat)
  /-- `raw = d.detach()` -/
  | detach (d : Nat)
  /-- `d = ObjectPtr::Adopt(raw)`, for the first raw pointer -/
  | adopt (d : Nat)
  /-- `d->…` -/
  | use (d : Nat)
  deriving DecidableEq, Repr

/-- One operation.  Operations on variables that are not there do nothing. -/
def step (s : St) : Op → St × Out
  -- optr:1566-1573 (the object is created before the old one is released, which makes no difference)
  | .create d is =>
    let s1 := s.drop (s.var d)
    ((s1.alloc is).setVar d { obj := some s1.heap.length }, .ok)
  -- optr:1484-1499
  | .copy d v =>
    if d = v then (s, .ok)
    else
      let s1 := s.drop (s.var d)
      match (s.var v).obj with
      | some o => ((s1.setVar d { obj := some o }).addRef o, .ok)
      | none => (s1.setVar d {}, .ok)
  -- optr:1502-1515
  | .move d v =>
    if d = v then (s, .ok)
    else
      let s1 := s.drop (s.var d)
      ((s1.setVar d (s.var v)).setVar v {}, .ok)
  -- optr:1519-1530, as: optr:1950-1964; a conversion that fails throws after the old object was released
  | .convCopy d v i =>
    if d = v then (s, .ok)
    else
      let s1 := s.drop (s.var d)
      match (s.var v).obj with
      | some o =>
        if !s1.alive o then ({ s1 with ub := true }, .ok)
        else if s1.supports o i then ((s1.setVar d { obj := some o }).addRef o, .ok)
        else (s1.setVar d { obj := (s.var d).obj }, .threw)
      | none => (s1.setVar d {}, .ok)
  -- optr:1534-1551; the function is noexcept
  | .convMove d v i =>
    if d = v then (s, .ok)
    else
      let s1 := s.drop (s.var d)
      match (s.var v).obj with
      | some o =>
        if !s1.alive o then ({ s1 with ub := true }, .ok)
        else if s1.supports o i then
          ((s1.setVar d { obj := some o, borrowed := (s.var v).borrowed }).setVar v {}, .ok)
        else (s1, .terminated)
      | none => (s1.setVar d {}, .ok)
  -- optr:1554-1563
  | .assignRaw d v =>
    let s1 := s.drop (s.var d)
    match (s.var v).obj with
    | some o => ((s1.setVar d { obj := some o }).addRef o, .ok)
    | none => (s1.setVar d {}, .ok)
  -- optr:1418-1424, then 1502-1515
  | .borrow d v =>
    let s1 := s.drop (s.var d)
    (s1.setVar d { obj := (s.var v).obj, borrowed := true }, .ok)
  -- optr:1576-1583, 2068-2074, 1463-1472
  | .clear d =>
    let s1 := s.drop (s.var d)
    (s1.setVar d {}, .ok)
  -- optr:2091-2101: the flag `borrowed` stays as it is
  | .outParam d is =>
    let s1 := s.drop (s.var d)
    ((s1.alloc is).setVar d { obj := some s1.heap.length, borrowed := (s.var d).borrowed }, .ok)
  -- optr:1454-1460
  | .detach d =>
    match (s.var d).obj with
    | some o => (({ s with raw := o :: s.raw } : St).setVar d {}, .ok)
    | none => (s.setVar d {}, .ok)
  -- optr:1373-1379, then 1502-1515
  | .adopt d =>
    match s.raw with
    | o :: rs =>
      let s1 := ({ s with raw := rs } : St).drop (s.var d)
      (s1.setVar d { obj := some o }, .ok)
    | [] => (s, .ok)
  -- optr:1475-1481
  | .use d =>
    match (s.var d).obj with
    | some o => if s.alive o then (s, .ok) else ({ s with ub := true }, .ok)
    | none => (s, .threw)

/-- The variables the operation is about. -/
def Op.vars : Op → List Nat
  | .create d _ | .clear d | .outParam d _ | .detach d | .adopt d | .use d => [d]
  | .copy d v | .move d v | .convCopy d v _ | .convMove d v _ | .assignRaw d v | .borrow d v => [d, v]

/-- A program with `n` smart pointer variables. -/
def init (n : Nat) : St := { vars := List.replicate n {} }

def run : St → List Op → St
  | s, [] => s
  | s, op :: ops => run (step s op).1 ops

end Verif.SmartPtr
