import Verif.Types.Model
/-
Property object classes: inheritance, builders, listing, serialization.

Citations: `cls` = `core/coreobjects/src/property_object_class_impl.cpp`,
`bld` = `core/coreobjects/src/property_object_class_builder_impl.cpp`,
`obj` = `core/coreobjects/include/coreobjects/property_object_impl.h`,
`tm` = `core/coretypes/src/type_manager_impl.cpp`.

Simplifications.  A property is its name, the names it refers to when it is a reference
property, and a number for everything else.  A class holds a weak reference to a type
manager; here it is either the one manager that is looked at or none (`managed`).  The depth
of the stack is a parameter: none stands for a call that does not fit on it.  Classes are
compared by identity (there is no `equals` in cls:13-418), which is the number `uid` here.
Names are lists of characters without a null character.
-/
namespace Verif.Classes
open Verif.Types (Name Mgr Op)

/-- The error codes. -/
inductive Err where
  | notFound    -- OPENDAQ_ERR_NOTFOUND
  | noManager   -- OPENDAQ_ERR_MANAGER_NOT_ASSIGNED
  | badType     -- OPENDAQ_ERR_INVALIDTYPE
  | noIface     -- OPENDAQ_ERR_NOINTERFACE
  | taken       -- OPENDAQ_ERR_ALREADYEXISTS
  | badValue    -- OPENDAQ_ERR_INVALIDVALUE
  | add (e : Verif.Types.Err)  -- an error of `addType`
deriving DecidableEq, Repr

/-- A property. -/
structure Property where
  name : Name
  refs : Option (List Name) := none
  tag : Nat := 0
deriving DecidableEq, Repr

/-- A class, cls:13-25. -/
structure Cls where
  uid : Nat
  name : Name
  parent : Option Name := none
  props : List Property := []
  order : List Name := []
  managed : Bool := true
deriving DecidableEq, Repr

/-- What a type manager holds: classes and other types. -/
inductive Entry where
  | cls (c : Cls)
  | other (n : Name) (k : Nat)
deriving DecidableEq, Repr

def Entry.name : Entry → Name
  | .cls c => c.name
  | .other n _ => n

abbrev CMgr := Mgr Entry

/-- The search in `props`, cls:48 and cls:81. -/
def Cls.own (c : Cls) (n : Name) : Option Property := c.props.find? (fun p => p.name = n)

/-- `getProperty`, cls:43-74; the first argument is the room on the stack. -/
def Cls.get : Nat → CMgr → Cls → Name → Option (Except Err Property)
  | 0, _, _, _ => none
  | k + 1, m, c, n => match c.own n with
    | some p => some (.ok p)
    | none => match c.parent with
      | none => some (.error .notFound)
      | some q => if !c.managed then some (.error .noManager) else match m.types.lookup q with
        | none => some (.error .notFound)
        | some (.other _ _) => some (.error .badType)
        | some (.cls d) => Cls.get k m d n

/-- `hasProperty`, cls:76-107. -/
def Cls.has : Nat → CMgr → Cls → Name → Option (Except Err Bool)
  | 0, _, _, _ => none
  | k + 1, m, c, n => match c.own n with
    | some _ => some (.ok true)
    | none => match c.parent with
      | none => some (.ok false)
      | some q => if !c.managed then some (.error .noManager) else match m.types.lookup q with
        | none => some (.error .notFound)
        | some (.other _ _) => some (.error .badType)
        | some (.cls d) => Cls.has k m d n

/-- `insert_or_assign` of an ordered map with the name as key: a new key goes to the end, the
value of an old one is replaced in place. -/
def assign : List Property → Property → List Property
  | [], p => [p]
  | q :: l, p => if q.name = p.name then p :: l else q :: assign l p

/-- `insert` of an ordered map: an old value stays. -/
def insertNew (l : List Property) (p : Property) : List Property :=
  if l.any (fun q => q.name = p.name) then l else l ++ [p]

/-- The loop over the custom order, cls:200-208: what is found is moved to the result. -/
def pick : List Name → List Property → List Property × List Property
  | [], l => ([], l)
  | n :: r, l => match l.find? (fun p => p.name = n) with
    | some p => let x := pick r (l.filter (fun q => q.name ≠ n)); (p :: x.1, x.2)
    | none => pick r l

/-- The end of `getWithNormalOrder` (cls:160-166) and of `getWithCustomOrder` (cls:183-217),
with the inherited properties. -/
def arrange (order : List Name) (inherited own : List Property) : List Property :=
  if order = [] then inherited ++ own
  else
    let x := pick order (own.foldl assign (inherited.foldl assign []))
    x.1 ++ x.2

/-- `getProperties`, cls:220-229 with cls:109-128, cls:146-218. -/
def Cls.list : Nat → CMgr → Cls → Bool → Option (Except Err (List Property))
  | 0, _, _, _ => none
  | _ + 1, _, c, false => some (.ok (arrange c.order [] c.props))
  | k + 1, m, c, true => match c.parent with
    | none => some (.ok (arrange c.order [] c.props))
    | some q => if !c.managed then some (.error .noManager) else match m.types.lookup q with
      | none => some (.error .notFound)
      | some (.other _ _) => some (.error .noIface)
      | some (.cls d) => match Cls.list k m d true with
        | none => none
        | some (.error e) => some (.error e)
        | some (.ok l) => some (.ok (arrange c.order l c.props))

/-! ### Property objects of a class -/

/-- `getProperties` of an object of class `c` with properties of its own, in the order of the
object, obj:2416-2513.  `bind` is true for users and false while a configuration is loaded
(obj:3716-3734). -/
def objList (k : Nat) (m : CMgr) (c : Cls) (locals : List Property) (bind : Bool) (order : List Name) :
    Option (Except Err (List Property)) :=
  match c.list k m true with
  | none => none
  | some (.error e) => some (.error e)
  | some (.ok l) =>
    let lookup := (l ++ locals).foldl (if bind then assign else insertNew) []
    if order = [] then some (.ok lookup)
    else let x := pick order lookup; some (.ok (x.1 ++ x.2))

/-- The property that an object uses for a name, obj:1316-1328. -/
def objGet (k : Nat) (m : CMgr) (c : Cls) (locals : List Property) (n : Name) : Option (Except Err Property) :=
  match locals.find? (fun p => p.name = n) with
  | some p => some (.ok p)
  | none => c.get k m n

/-! ### Builders -/

/-- A builder, bld:10-21. -/
structure Bld where
  name : Name
  parent : Option Name := none
  props : List Property := []
  order : List Name := []
  managed : Bool := true
deriving DecidableEq, Repr

/-- `getProperties` of a builder, bld:180-201. -/
def Bld.all (k : Nat) (m : CMgr) (b : Bld) : Option (Except Err (List Property)) :=
  match b.parent with
  | none => some (.ok b.props)
  | some q => if !b.managed then some (.ok b.props) else match m.types.lookup q with
    | none => some (.error .notFound)
    | some (.other _ _) => some (.error .badType)
    | some (.cls d) => match d.list k m true with
      | none => none
      | some (.error e) => some (.error e)
      | some (.ok l) => some (.ok (l ++ b.props))

/-- The names of the two properties overlap, bld:160-173. -/
def overlap (ns : List Name) (q : Property) : Bool :=
  match q.refs with
  | none => false
  | some l => l.any ns.contains

/-- `hasDuplicateReferences`, bld:154-178. -/
def Bld.dup (k : Nat) (m : CMgr) (b : Bld) (p : Property) : Option (Except Err Bool) :=
  match p.refs with
  | none => some (.ok false)
  | some ns => match b.all k m with
    | none => none
    | some (.error e) => some (.error e)
    | some (.ok l) => some (.ok (l.any (overlap ns)))

/-- `addProperty`, bld:67-93; the outer option is the stack. -/
def Bld.add (k : Nat) (m : CMgr) (b : Bld) (p : Property) : Option (Bld × Option Err) :=
  match b.dup k m p with
  | none => none
  | some (.error e) => some (b, some e)
  | some (.ok true) => some (b, some .badValue)
  | some (.ok false) =>
    if b.props.any (fun q => q.name = p.name) then some (b, some .taken)
    else some ({ b with props := b.props ++ [p] }, none)

/-- `removeProperty`, bld:103-119. -/
def Bld.remove (b : Bld) (n : Name) : Bld × Option Err :=
  if b.props.any (fun q => q.name = n) then ({ b with props := b.props.filter (fun q => q.name ≠ n) }, none)
  else (b, some .notFound)

/-- The calls of a builder. -/
inductive BOp where
  | add (p : Property)
  | remove (n : Name)
  | setName (n : Name)
  | setParent (q : Option Name)
  | setOrder (l : List Name)
deriving DecidableEq, Repr

/-- One call, bld:39-133. -/
def Bld.step (k : Nat) (m : CMgr) (b : Bld) : BOp → Option (Bld × Option Err)
  | .add p => b.add k m p
  | .remove n => some (b.remove n)
  | .setName n => some ({ b with name := n }, none)
  | .setParent q => some ({ b with parent := q }, none)
  | .setOrder l => some ({ b with order := l }, none)

/-- A history of calls; none if one of them does not fit on the stack. -/
def Bld.run (k : Nat) (m : CMgr) : Bld → List BOp → Option Bld
  | b, [] => some b
  | b, o :: l => match b.step k m o with
    | none => none
    | some (b', _) => Bld.run k m b' l

/-- `build`, bld:23-36 with cls:13-25. -/
def Bld.build (b : Bld) (uid : Nat) : Cls := ⟨uid, b.name, b.parent, b.props, b.order, b.managed⟩

/-- Adding some properties; an error ends it. -/
def Bld.addAll (k : Nat) (m : CMgr) : Bld → List Property → Option (Except Err Bld)
  | b, [] => some (.ok b)
  | b, p :: l => match b.add k m p with
    | none => none
    | some (_, some e) => some (.error e)
    | some (b', none) => Bld.addAll k m b' l

/-- `clone` for the manager `m`, cls:387-410. -/
def Cls.clone (k : Nat) (m : CMgr) (c : Cls) (uid : Nat) : Option (Except Err Cls) :=
  match Bld.addAll k m ⟨c.name, c.parent, [], [], true⟩ c.props with
  | none => none
  | some (.error e) => some (.error e)
  | some (.ok b) => some (.ok ({ b with order := c.order }.build uid))

/-! ### Serialization -/

/-- What is written of a class, cls:231-267 and cls:296-318: the name, the parent and its own
properties in its order, but not the order. -/
structure Text where
  name : Name
  parent : Option Name
  props : List Property
deriving DecidableEq, Repr

/-- `serialize`, cls:296-318. -/
def Cls.write (c : Cls) : Text := ⟨c.name, c.parent, arrange c.order [] c.props⟩

/-- `Deserialize` with the type manager as the context, cls:325-368: the class is added to it. -/
def Text.read (k : Nat) (m : CMgr) (t : Text) (uid : Nat) : Option (CMgr × Except Err Cls) :=
  match Bld.addAll k m ⟨t.name, t.parent, [], [], true⟩ t.props with
  | none => none
  | some (.error e) => some (m, .error e)
  | some (.ok b) => match Mgr.add Entry.name m (.cls (b.build uid)) true with
    | (m', none) => some (m', .ok (b.build uid))
    | (m', some e) => some (m', .error (.add e))

/-- All types of a manager in order, tm:177-199; other types are added as they are.  The
`uid`s of what is read count up from the given one. -/
def readAll (k : Nat) : CMgr → Nat → List Entry → Option (Except Err CMgr)
  | m, _, [] => some (.ok m)
  | m, u, .other n x :: l => match Mgr.add Entry.name m (.other n x) true with
    | (m', none) => readAll k m' u l
    | (_, some e) => some (.error (.add e))
  | m, u, .cls c :: l => match c.write.read k m u with
    | none => none
    | some (_, .error e) => some (.error e)
    | some (m', .ok _) => readAll k m' (u + 1) l

/-- A type manager that is written and read back. -/
def reload (k : Nat) (m : CMgr) (u : Nat) : Option (Except Err CMgr) := readAll k {} u (m.types.map (·.2))

end Verif.Classes
