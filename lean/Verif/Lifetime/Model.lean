/-
Reference counting and weak references of an object, with the atomic steps of concurrent calls.

Abbreviations used in the citations:
  `intfs` = `core/coretypes/include/coretypes/intfs.h`
  `wimpl` = `core/coretypes/include/coretypes/weakref_impl.h`
  `wobj` = `core/coretypes/include/coretypes/weakrefobj.h`
  `impl` = `core/coretypes/include/coretypes/impl.h`
-/

namespace Verif.Lifetime

/-- What is left of a weak reference object (`WeakRefImpl`, wimpl:23-35).  `dtor`: its destructor has given up
its share of the counter block, but the memory is not returned yet. -/
inductive WSt where
  | live | dtor | freed
  deriving DecidableEq, Repr

/-- A weak reference object: its own reference count (`ObjInstance::refCount`, intfs:525) and its memory. -/
structure WObj where
  count : Int := 1
  st : WSt := .live
  deriving DecidableEq, Repr

/-- The memory touched by the calls on one object with weak reference support.  `strong`/`weak` are the counters
of its block (`RefCount`, intfs:529-540), `owns` says whether the object's `unique_ptr` still owns the block
(intfs:621), `ub` is set by any access to memory that has been freed, and by freeing twice.
Simplification: the counters are unbounded (an `int` wraps at 2^31 references) and the steps are sequentially
consistent (the code orders them with acquire/release). -/
structure Mem where
  strong : Int := 0
  weak : Int := 1
  objAlive : Bool := true
  owns : Bool := true
  rcAlive : Bool := true
  wobjs : List WObj := []
  ub : Bool := false
  deriving DecidableEq, Repr

/-- A call in progress, by its next atomic step.
`rel*` are the steps of `releaseRef` (intfs:556-575); their argument is the weak reference on which the
enclosing `getRefAs` (wimpl:67-88) was called, if there is one.  `gw*`: `getWeakRef` (wobj:36-46).
`w*`: `addRef`/`releaseRef` of a weak reference object (intfs:481-497) and its destructor (wimpl:43-49).
`get*`: `getRef` (wimpl:51-65, mode `none`) and `getRefAs` (wimpl:67-88, mode `some b`, where `b` says whether the
object supports the interface asked for). -/
inductive Pc where
  | addRef
  | rel (k : Option Nat)
  | relWeak (k : Option Nat)
  | relDrop (k : Option Nat) (n : Int)
  | relDelete (k : Option Nat)
  | gw
  | gwNew
  | wAdd (i : Nat)
  | wRel (i : Nat)
  | wDelete (i : Nat)
  | wDtor (i : Nat) (n : Int)
  | getLoad (i : Nat) (m : Option Bool)
  | getCas (i : Nat) (m : Option Bool) (cur : Int)
  | getBorrow (i : Nat) (b : Bool)
  deriving DecidableEq, Repr

/-- What a step shows to the outside. -/
inductive Ev where
  | destroyed              -- the destructor of the object ran
  | blockFreed             -- the counter block was returned
  | got (i : Nat)          -- a call on weak reference `i` returned the object
  | notAssigned (i : Nat)  -- a call on weak reference `i` found the object gone
  | noInterface (i : Nat)  -- a call on weak reference `i` found that the interface is not supported
  deriving DecidableEq, Repr

/-- The outcome of one atomic step of a call: the memory, the call's next step (`none`: it has returned), the
references the caller holds after it returned (strong ones, ones to a weak reference object), whether it returned
a new weak reference object, and what was seen. -/
structure Res where
  mem : Mem
  next : Option Pc := none
  give : Nat := 0
  giveW : Option (Nat × Nat) := none
  newW : Bool := false
  ev : List Ev := []

/-- Freed memory was touched. -/
def Mem.fail (m : Mem) : Mem := { m with ub := true }

/-- `refCount->…` through the object: the object, its pointer to the block and the block must be there. -/
def Mem.viaObj (m : Mem) : Bool := m.objAlive && m.owns && m.rcAlive

/-- The memory of a weak reference object. -/
def Mem.wAlive (m : Mem) (i : Nat) : Bool :=
  match m.wobjs[i]? with
  | some w => w.st != .freed
  | none => false

/-- `refCount->…` through a weak reference object. -/
def Mem.viaWeak (m : Mem) (i : Nat) : Bool := m.wAlive i && m.rcAlive

/-- The reference count of a weak reference object. -/
def Mem.wCount (m : Mem) (i : Nat) : Int :=
  match m.wobjs[i]? with
  | some w => w.count
  | none => 0

/-- Change a weak reference object. -/
def Mem.wSet (m : Mem) (i : Nat) (f : WObj → WObj) : Mem := { m with wobjs := m.wobjs.modify i f }

/-- One atomic step of a call.  `sp`: `compare_exchange_weak` fails spuriously. -/
def adv (m : Mem) (sp : Bool) : Pc → Res
  -- addRef, intfs:551-554
  | .addRef =>
    if m.viaObj then { mem := { m with strong := m.strong + 1 }, give := 2 }
    else { mem := m.fail }
  -- releaseRef, intfs:558: the strong counter goes down; 561: was it the last one?
  | .rel k =>
    if m.viaObj then
      if m.strong - 1 = 0 then { mem := { m with strong := m.strong - 1 }, next := some (.relWeak k) }
      else { mem := { m with strong := m.strong - 1 }, giveW := k.map (·, 1) }
    else { mem := m.fail }
  -- intfs:565: the strong references together hold one share of the block, which is given up
  | .relWeak k =>
    if m.viaObj then
      { mem := { m with weak := m.weak - 1 }, next := some (.relDrop k (m.weak - 1)) }
    else { mem := m.fail }
  -- intfs:566-569: with weak references left the object no longer owns the block
  | .relDrop k n =>
    if n ≠ 0 then
      if m.objAlive then { mem := { m with owns := false }, next := some (.relDelete k) }
      else { mem := m.fail }
    else { mem := m, next := some (.relDelete k) }
  -- intfs:571: delete this; the destructor of the unique_ptr frees the block if it is still owned
  | .relDelete k =>
    if m.objAlive then
      if m.owns then
        if m.rcAlive then
          { mem := { m with objAlive := false, owns := false, rcAlive := false }, giveW := k.map (·, 1)
            ev := [.destroyed, .blockFreed] }
        else { mem := m.fail }
      else { mem := { m with objAlive := false }, giveW := k.map (·, 1), ev := [.destroyed] }
    else { mem := m.fail }
  -- getWeakRef, wobj:38
  | .gw =>
    if m.viaObj then { mem := { m with weak := m.weak + 1 }, next := some .gwNew }
    else { mem := m.fail }
  -- wobj:40-45: a new WeakRefImpl, with one reference for the caller
  | .gwNew =>
    if m.objAlive then { mem := { m with wobjs := m.wobjs ++ [{}] }, give := 1, newW := true }
    else { mem := m.fail }
  -- addRef of the weak reference object, intfs:481-484
  | .wAdd i =>
    if m.wAlive i then
      { mem := m.wSet i (fun w => { w with count := w.count + 1 }), giveW := some (i, 2) }
    else { mem := m.fail }
  -- releaseRef of the weak reference object, intfs:486-490
  | .wRel i =>
    if m.wAlive i then
      if m.wCount i - 1 = 0 then
        { mem := m.wSet i (fun w => { w with count := w.count - 1 }), next := some (.wDelete i) }
      else { mem := m.wSet i (fun w => { w with count := w.count - 1 }) }
    else { mem := m.fail }
  -- intfs:493, ~WeakRefImpl, wimpl:45
  | .wDelete i =>
    if m.viaWeak i then
      { mem := { m with weak := m.weak - 1 }.wSet i (fun w => { w with st := .dtor })
        next := some (.wDtor i (m.weak - 1)) }
    else { mem := m.fail }
  -- wimpl:47-48, and the memory of the weak reference object
  | .wDtor i n =>
    if m.wAlive i then
      if n = 0 then
        if m.rcAlive then
          { mem := { m with rcAlive := false }.wSet i (fun w => { w with st := .freed }), ev := [.blockFreed] }
        else { mem := m.fail }
      else { mem := m.wSet i (fun w => { w with st := .freed }) }
    else { mem := m.fail }
  -- getRef / getRefAs, wimpl:55-57, 71-73
  | .getLoad i mode =>
    if m.viaWeak i then
      if m.strong = 0 then { mem := m, giveW := some (i, 1), ev := [.notAssigned i] }
      else { mem := m, next := some (.getCas i mode m.strong) }
    else { mem := m.fail }
  -- wimpl:59-63, 75
  | .getCas i mode cur =>
    if m.viaWeak i then
      if m.strong = cur ∧ sp = false then
        match mode with
        | none => { mem := { m with strong := m.strong + 1 }, give := 1, giveW := some (i, 1), ev := [.got i] }
        | some b => { mem := { m with strong := m.strong + 1 }, next := some (.getBorrow i b) }
      else { mem := m, next := some (.getLoad i mode) }
    else { mem := m.fail }
  -- wimpl:77-86: borrowInterface; without the interface the reference is released again (79)
  | .getBorrow i b =>
    if m.objAlive then
      if b then { mem := m, give := 1, giveW := some (i, 1), ev := [.got i] }
      else { mem := m, next := some (.rel (some i)), ev := [.noInterface i] }
    else { mem := m.fail }

/-- The object, the clients and the calls they have started.  `strongs` counts the strong references the clients
hold between calls, `weaks[i]` the references they hold to weak reference object `i`.  A call keeps the reference
it was made on for itself until it returns. -/
structure St where
  mem : Mem := {}
  strongs : Nat := 0
  weaks : List Nat := []
  calls : List Pc := []
  log : List Ev := []
  deriving DecidableEq, Repr

/-- The calls clients can make. -/
inductive Op where
  | addRef | releaseRef | getWeakRef
  | wAddRef (i : Nat) | wReleaseRef (i : Nat)
  | getRef (i : Nat) | getRefAs (i : Nat) (supported : Bool)
  deriving DecidableEq, Repr

/-- `createObject` (impl:88-124): the new object has no references (intfs:531-535, 546-549), `queryInterface`
(intfs:253-263) adds the one which is given to the caller. -/
def init : St := { mem := { strong := 1 }, strongs := 1 }

/-- Start a call on a strong reference. -/
def St.onStrong (s : St) (pc : Pc) : St :=
  match s.strongs with
  | 0 => s
  | n + 1 => { s with strongs := n, calls := s.calls ++ [pc] }

/-- Start a call on a reference to weak reference object `i`. -/
def St.onWeak (s : St) (i : Nat) (pc : Pc) : St :=
  match s.weaks[i]? with
  | some (n + 1) => { s with weaks := s.weaks.set i n, calls := s.calls ++ [pc] }
  | _ => s

/-- Start a call.  A client that holds no reference cannot make it. -/
def St.call (s : St) : Op → St
  | .addRef => s.onStrong .addRef
  | .releaseRef => s.onStrong (.rel none)
  | .getWeakRef => s.onStrong .gw
  | .wAddRef i => s.onWeak i (.wAdd i)
  | .wReleaseRef i => s.onWeak i (.wRel i)
  | .getRef i => s.onWeak i (.getLoad i none)
  | .getRefAs i b => s.onWeak i (.getLoad i (some b))

/-- The references a call hands back. -/
def giveWeak (ws : List Nat) : Option (Nat × Nat) → List Nat
  | none => ws
  | some (i, n) => ws.modify i (· + n)

/-- The effect of one atomic step of call `j`. -/
def St.after (s : St) (j : Nat) (r : Res) : St :=
  { mem := r.mem
    strongs := s.strongs + r.give
    weaks := giveWeak s.weaks r.giveW ++ (if r.newW then [1] else [])
    calls := match r.next with
      | some pc => s.calls.set j pc
      | none => s.calls.eraseIdx j
    log := s.log ++ r.ev }

/-- What the scheduler can do: let some client start a call, or let some call make its next step. -/
inductive Act where
  | call (op : Op)
  | run (j : Nat) (spurious : Bool)
  deriving DecidableEq, Repr

/-- One step of the whole system. -/
def step (s : St) : Act → St
  | .call op => s.call op
  | .run j sp =>
    match s.calls[j]? with
    | some pc => s.after j (adv s.mem sp pc)
    | none => s

/-- An execution: any number of clients, calls and steps in any order. -/
def run : St → List Act → St
  | s, [] => s
  | s, a :: as => run (step s a) as

end Verif.Lifetime
