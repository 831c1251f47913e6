import Verif.Common

/-!
# Model of property definitions: building, checking, saving, loading and cloning them

`prp` = `core/coreobjects/include/coreobjects/property_impl.h`
`bld` = `core/coreobjects/src/property_builder_impl.cpp`
`pty` = `core/coreobjects/include/coreobjects/property.h`
`obj` = `core/coreobjects/include/coreobjects/property_object_impl.h`
`ord` = `core/coretypes/include/coretypes/ordinalobject_impl.h`
`ptr` = `core/coretypes/include/coretypes/objectptr.h`
`ctp` = `core/coretypes/include/coretypes/coretype.h`
`dic` = `core/corecontainers/src/dictobject_impl.cpp`
`ser` = `core/coretypes/include/coretypes/serializer.h`
`uti` = `core/coreobjects/include/coreobjects/serialization_utils.h`

A property is made by a builder or by one of the functions `IntProperty`, `SelectionProperty`, …; both check it. The kind
of a property (plain, selection, reference, …) is inferred from its fields. A property is saved field by field and is loaded
through a builder. A written value is converted to the type of the property, checked against the type of its items and the
selection values, and moved into the limits.

Simplifications: only the selection values and the reference are expressions, the other fields are plain values; freezing
of default values is left out; the handlers that replace selection and suggested values return what they are given, only
their presence is kept; values inside containers are no containers with contents; selection values of type Float are
compared exactly (the code allows a relative error of one epsilon); coercers, validators, struct and enumeration types are
those of `Verif.PropObj` and `Verif.Types` and are left out of writing; the referenced property is not followed, see
`Verif.Refs`; the serializer writes version 2, so that the interfaces of containers are kept (dic:411-430).
-/

namespace Verif.Defs

/-- `CoreType` (ctp:31-48) -/
inductive CT where
  | bool | int | float | string | list | dict | ratio | proc | object | binary | func | complex | struct | enumeration
  | undefined
  deriving DecidableEq, Repr, Inhabited

/-- `PropertyType` (pty:36-60). The numbers of the first ones, and of `Undefined`, are those of the core types. -/
inductive PT where
  | core (t : CT) | reference | indexSelection | selection | sparseSelection
  deriving DecidableEq, Repr, Inhabited

/-- A value that is no container with contents. `other` carries its core type and an identity. -/
inductive Atom where
  | int (i : Int) | float (q : Rat) | other (t : CT) (n : Nat)
  deriving DecidableEq, Repr, Inhabited

/-- `getCoreType`: an object that reports none counts as an object (ptr:2104-2118). -/
def Atom.ty : Atom → CT
  | .int _ => .int
  | .float _ => .float
  | .other .undefined _ => .object
  | .other t _ => t

/-- A value. Lists and dictionaries are created for an item type; `undefined` if it is none of the core types. -/
inductive Val where
  | atom (a : Atom)
  | list (elem : CT) (items : List Atom)
  | dict (key elem : CT) (entries : List (Atom × Atom))
  deriving DecidableEq, Repr, Inhabited

def Val.ty : Val → CT
  | .atom a => a.ty
  | .list .. => .list
  | .dict .. => .dict

/-- Selection values: a value, usually a list or a dictionary, or an expression that yields one. -/
inductive Sel where
  | plain (v : Val) | eval (e : Nat)
  deriving DecidableEq, Repr, Inhabited

/-- The fields of a property, and those of a builder (prp:1682-1705; bld:9-19). Units, coercers, validators and callable
infos are identified by a number. -/
structure Def where
  name : Option String := none
  valueType : CT := .undefined
  description : Option String := none
  unit : Option Nat := none
  min : Option Atom := none
  max : Option Atom := none
  dflt : Option Val := none
  visible : Bool := true
  readOnly : Bool := false
  selection : Option Sel := none
  suggested : Option (List Atom) := none
  ref : Option Nat := none
  coercer : Option Nat := none
  validator : Option Nat := none
  callable : Option Nat := none
  /-- Value selection with integers: the value is an item of the list and not an index. -/
  intSel : Bool := false
  /-- Whether handlers are attached to reading the value, the selection values and the suggested values. -/
  onRead : Bool := false
  onSelection : Bool := false
  onSuggested : Bool := false
  deriving DecidableEq, Repr, Inhabited

inductive Err where
  | invalidState | invalidType | invalidParameter | noInterface | accessDenied | notFound | conversion | calcFailed
  | invalidProperty | outOfRange
  deriving DecidableEq, Repr, Inhabited

inductive Out (α : Type) where
  | ok (a : α) | err (e : Err)
  deriving DecidableEq, Repr

instance {α : Type} : Inhabited (Out α) := ⟨.err .invalidState⟩

/-- A property: its fields and the property type that was assigned or found so far. -/
structure Property where
  d : Def
  kind : PT
  deriving DecidableEq, Repr, Inhabited

/-- What the owner makes of expressions now; `none` if there is no owner. -/
abbrev Owner := Option (Nat → Option Val)

/-- The kind of selection for a list (prp:1735-1737, prp:1749-1751, prp:1756-1758). -/
def listKind (d : Def) : PT :=
  if d.valueType = .int ∧ d.intSel = false then .indexSelection else .selection

/-- `inferPropertyTypeFromMetadata` (prp:1709-1767) -/
def infer (own : Owner) (d : Def) : PT :=
  match d.selection with
  | some (.eval e) =>
    match own with
    | none => .core .undefined
    | some ev =>
      match ev e with
      | none => .core .undefined
      | some v =>
        if v.ty = .dict then .sparseSelection
        else if v.ty = .list then listKind d
        else .core .undefined
  | some (.plain v) => if v.ty = .dict then .sparseSelection else listKind d
  | none => if d.ref.isSome then .reference else .core d.valueType

/-- The property type after a call that needs it; it is kept once it is known (prp:310-311, prp:400-401). -/
def known (own : Owner) (p : Property) : PT :=
  if p.kind = .core .undefined then infer own p.d else p.kind

/-- `getPropertyType` (prp:304-315) -/
def getType (own : Owner) (p : Property) : Property × PT :=
  ({ p with kind := known own p }, known own p)

/-- The type of the items of a container: the one it was created for, else that of the first item (prp:426-452). -/
def Val.item : Val → CT
  | .list e items => if e = .undefined then (items.head?.map Atom.ty).getD .undefined else e
  | .dict _ e entries => if e = .undefined then (entries.head?.map (·.2.ty)).getD .undefined else e
  | .atom _ => .undefined

/-- The type of the keys (prp:365-378) -/
def Val.keyTy : Val → CT
  | .dict k _ entries => if k = .undefined then (entries.head?.map (·.1.ty)).getD .undefined else k
  | _ => .undefined

/-- The current selection values (prp:693-722, prp:1779-1794): `none` if the expression fails. -/
def selVal (own : Owner) (d : Def) : Option (Option Val) :=
  match d.selection with
  | none => some none
  | some (.plain v) => some (some v)
  | some (.eval e) => (own.bind fun ev => ev e).map some

/-- `getItemType` (prp:392-458): `none` on failure. A reference without an owner fails. -/
def itemType (own : Owner) (p : Property) : Option CT :=
  if known own p = .selection then some .undefined
  else if known own p = .reference ∨ p.d.ref.isSome then none
  else (selVal own p.d).map fun s => match s with
    | some v => v.item
    | none => match p.d.dflt with
      | some v => v.item
      | none => .undefined

/-- `getKeyType` (prp:352-380); see `itemType` for references. -/
def keyType (p : Property) : Option CT :=
  if p.d.ref.isSome then none else some (match p.d.dflt with | some v => v.keyTy | none => .undefined)

/-- All values of a list have the type (prp:1196-1204). -/
def allTy (t : CT) (l : List Atom) : Bool := l.all fun a => a.ty == t

/-- `checkContainerType` (prp:1191-1226). Iterating over a dictionary yields lists of a key and a value. -/
def checkDefault (d : Def) (key item : CT) : Out Unit :=
  match d.dflt with
  | none => .ok ()
  | some v =>
    if d.valueType = .dict then
      match v with
      | .dict _ _ es =>
        if !allTy key (es.map (·.1)) then .err .invalidType
        else if !allTy item (es.map (·.2)) then .err .invalidType else .ok ()
      | _ => .err .noInterface
    else if d.valueType = .list then
      match v with
      | .list _ items => if item ≠ .undefined ∧ !allTy item items then .err .invalidType else .ok ()
      | .dict _ _ es => if item ≠ .undefined ∧ es ≠ [] ∧ item ≠ .list then .err .invalidType else .ok ()
      | .atom _ => if item ≠ .undefined then .err .noInterface else .ok ()
    else .ok ()

/-- The name that stands for a missing one (prp:1030-1034). -/
def unassigned : String := "opendaq_unassigned"

/-- Rules for the default value (prp:1036-1056). -/
def checkPresence (d : Def) : Bool :=
  if d.valueType = .func ∨ d.valueType = .proc then d.dflt.isNone
  else if d.ref.isSome then d.dflt.isNone
  else d.dflt.isSome

/-- Rules for objects (prp:1067-1076), limits (prp:1078-1083) and callable infos (prp:1085-1091). -/
def checkFields (d : Def) : Bool :=
  (d.valueType ≠ .object ||
    (d.selection.isNone && d.suggested.isNone && d.coercer.isNone && d.validator.isNone && d.unit.isNone)) &&
  ((d.min.isNone && d.max.isNone) || d.valueType = .int || d.valueType = .float) &&
  (d.callable.isNone || d.valueType = .proc || d.valueType = .func)

/-- Rules for references (prp:1093-1103). Comparing a missing description with a text raises an exception (ptr:1037-1047). -/
def checkRef (d : Def) : Out Unit :=
  if d.ref.isNone then .ok ()
  else
    let rest := !d.readOnly && d.selection.isNone && d.suggested.isNone && d.coercer.isNone && d.validator.isNone
    match d.description with
    | none => if d.valueType = .undefined then (if rest then .ok () else .err .invalidState) else .err .invalidParameter
    | some t => if t = "" ∧ rest then .ok () else .err .invalidState

/-- Rules for selection values (prp:1105-1125) and suggested values (prp:1127-1131). -/
def checkSelection (kind : PT) (d : Def) : Bool :=
  (d.selection.isNone ||
    (match kind with
     | .indexSelection | .sparseSelection => d.valueType = .int
     | .selection | .core .undefined => d.valueType = .int || d.valueType = .string || d.valueType = .float
     | _ => false)) &&
  (d.suggested.isNone || d.valueType = .int || d.valueType = .float || d.valueType = .string)

/-- Types that no item and no key of a container may have (prp:1142-1155). -/
def banned (t : CT) : Bool := [CT.object, .func, .proc, .list, .dict].contains t

/-- Rules for containers (prp:1133-1158). Failures to find the types are ignored. -/
def checkContainer (p : Property) : Out Unit :=
  if p.d.valueType = .list ∨ p.d.valueType = .dict then
    let item := (itemType none p).getD .undefined
    let key := if p.d.valueType = .dict then (keyType p).getD .undefined else .undefined
    if banned item || banned key then .err .invalidState else checkDefault p.d key item
  else .ok ()

/-- Rules for structures and enumerations (prp:1160-1180) -/
def checkStruct (d : Def) : Bool :=
  !(d.valueType = .struct || d.valueType = .enumeration) ||
    (d.selection.isNone && d.suggested.isNone && d.coercer.isNone && d.validator.isNone && d.max.isNone && d.min.isNone &&
      d.unit.isNone && d.callable.isNone)

/-- `validate` (prp:1028-1189) -/
def validate (p : Property) : Out Unit :=
  if p.d.name = none ∨ p.d.name = some unassigned then .err .invalidState
  else if !checkPresence p.d then .err .invalidState
  else if !checkFields p.d then .err .invalidState
  else match checkRef p.d with
    | .err e => .err e
    | .ok () =>
      if !checkSelection p.kind p.d then .err .invalidState
      else match checkContainer p with
        | .err e => .err e
        | .ok () => if !checkStruct p.d then .err .invalidState else .ok ()

/-- The constructors check what they made (prp:1666-1672). -/
def make (p : Property) : Out Property :=
  match validate p with
  | .ok () => .ok p
  | .err e => .err e

/-- `build` (bld:148-159; prp:92-121) -/
def build (d : Def) : Out Property := make ⟨d, infer none d⟩

/-- The functions that make a property of one type, and the builders for them. A list or dictionary of selection values may
be missing or an expression; `ret` is the type a function returns, and `undefined` if it returns nothing. -/
inductive Factory where
  /-- `BoolProperty`, `IntProperty`, `FloatProperty`, `StringProperty`, `ListProperty`, `DictProperty`, `RatioProperty`,
  `StructProperty`, `EnumerationProperty` (prp:130-205, prp:280-302; bld:34-81, bld:134-146) -/
  | value (t : CT) (dflt : Option Val)
  /-- `ObjectProperty` (prp:207-219; bld:83-90) -/
  | object (dflt : Option Val)
  /-- `FunctionProperty` (prp:221-243; bld:92-109) -/
  | function (ret : CT) (info : Nat)
  /-- `ReferenceProperty` (prp:245-254; bld:111-116) -/
  | reference (e : Nat)
  /-- `SelectionProperty` (prp:256-266; bld:118-124) -/
  | selection (values : Option Sel) (dflt : Option Val)
  /-- `SparseSelectionProperty` (prp:268-278; bld:126-132) -/
  | sparse (values : Option Sel) (dflt : Option Val)
  deriving DecidableEq, Repr, Inhabited

/-- An empty property object, the default of an object property (prp:214-215; bld:88-89). -/
def emptyObject : Val := .atom (.other .object 0)

/-- The fields a builder for a type of property starts with; all of them are visible (bld:21-146). -/
def Factory.start (f : Factory) (name : Option String) : Def :=
  match f with
  | .value t v => { name, valueType := t, dflt := v }
  | .object v => { name, valueType := .object, dflt := some (v.getD emptyObject) }
  | .function ret i => { name, valueType := if ret = .undefined then .proc else .func, callable := some i }
  | .reference e => { name, ref := some e }
  | .selection s v => { name, valueType := .int, dflt := v, selection := s }
  | .sparse s v => { name, valueType := .int, dflt := v, selection := s }

/-- The property type that such a function assigns (prp:130-302). -/
def Factory.kind : Factory → PT
  | .value t _ => .core t
  | .object _ => .core .object
  | .function ret _ => if ret = .undefined then .core .proc else .core .func
  | .reference _ => .reference
  | .selection .. => .indexSelection
  | .sparse .. => .sparseSelection

/-- Object and reference properties are visible, the others as asked for (prp:209, prp:247; prp:123-128). -/
def Factory.shown (f : Factory) (visible : Bool) : Bool :=
  match f with
  | .object _ | .reference _ => true
  | _ => visible

/-- The functions themselves (prp:123-302). -/
def direct (f : Factory) (name : Option String) (visible : Bool) : Out Property :=
  make ⟨{ f.start name with visible := f.shown visible }, f.kind⟩

/-! ## Saving, loading and cloning -/

/-- A saved property: the fields that are written. Flags of handlers and of value selection are only written if set. -/
structure Doc where
  name : Option String := none
  valueType : Option CT := none
  description : Option String := none
  unit : Option Nat := none
  min : Option Atom := none
  max : Option Atom := none
  dflt : Option Val := none
  visible : Option Bool := none
  readOnly : Option Bool := none
  selection : Option Sel := none
  suggested : Option (List Atom) := none
  ref : Option Nat := none
  coercer : Option Nat := none
  validator : Option Nat := none
  callable : Option Nat := none
  valueSel : Option Bool := none
  hasRead : Bool := false
  hasSelection : Bool := false
  hasSuggested : Bool := false
  deriving DecidableEq, Repr, Inhabited

/-- `serialize` (prp:1244-1311): the fields that are assigned (ser:74-89). -/
def save (p : Property) : Doc :=
  { name := p.d.name
    valueType := some p.d.valueType
    description := p.d.description
    unit := p.d.unit
    min := p.d.min
    max := p.d.max
    dflt := p.d.dflt
    visible := some p.d.visible
    readOnly := some p.d.readOnly
    ref := p.d.ref
    selection := if p.d.onSelection then none else p.d.selection
    hasSelection := p.d.onSelection
    coercer := p.d.coercer
    validator := p.d.validator
    suggested := if p.d.onSuggested then none else p.d.suggested
    hasSuggested := p.d.onSuggested
    callable := p.d.callable
    hasRead := p.d.onRead
    valueSel := if p.d.intSel = true ∧ p.d.valueType = .int then some true else none }

/-- `ReadBuilderDeserializeValues` (prp:1324-1403): fields that are missing keep the value of a new builder. -/
def read (c : Doc) (b : Def) : Def :=
  { b with
    valueType := c.valueType.getD b.valueType
    description := c.description <|> b.description
    unit := c.unit <|> b.unit
    dflt := c.dflt <|> b.dflt
    ref := c.ref <|> b.ref
    selection := c.selection <|> b.selection
    suggested := c.suggested <|> b.suggested
    visible := c.visible.getD b.visible
    readOnly := c.readOnly.getD b.readOnly
    min := c.min <|> b.min
    max := c.max <|> b.max
    coercer := c.coercer <|> b.coercer
    validator := c.validator <|> b.validator
    callable := c.callable <|> b.callable
    intSel := c.valueSel.getD b.intSel }

/-- `Deserialize` (prp:1405-1416) -/
def load (c : Doc) : Out Property := build (read c { name := c.name })

/-- `clone` (prp:1422-1460); default values that are objects are cloned, here they are equal. -/
def clone (p : Property) : Out Property := build p.d

/-! ## Writing a value -/

/-- The part of a number before the decimal point: converting a Float to an Int. -/
def trunc (q : Rat) : Int := if 0 ≤ q then q.floor else q.ceil

/-- `compareTo` (ord:189-226): the other number is converted to the type of the first; `none` if they cannot be compared. -/
def compare : Atom → Atom → Option Ordering
  | .int i, .int j => some (if i < j then .lt else if j < i then .gt else .eq)
  | .int i, .float q => some (if i < trunc q then .lt else if trunc q < i then .gt else .eq)
  | .float q, .float r => some (if q < r then .lt else if r < q then .gt else .eq)
  | .float q, .int j => some (if q < (j : Rat) then .lt else if (j : Rat) < q then .gt else .eq)
  | _, _ => none

/-- The lower limit (obj:873-884) -/
def atLeast (m : Option Atom) (v : Val) : Val :=
  match m, v with
  | some m, .atom a => if compare a m = some .lt then .atom m else v
  | _, _ => v

/-- The upper limit (obj:886-896) -/
def atMost (m : Option Atom) (v : Val) : Val :=
  match m, v with
  | some m, .atom a => if compare a m = some .gt then .atom m else v
  | _, _ => v

/-- `coerceMinMax` (obj:866-897) -/
def clamp (d : Def) (v : Val) : Val := atMost d.max (atLeast d.min v)

/-- `checkContainerType` of the object (obj:926-978) for a value; types that cannot be found fail the write. -/
def checkItems (own : Owner) (p : Property) (v : Val) : Out Unit :=
  match v with
  | .dict _ _ es =>
    match keyType p, itemType own p with
    | some k, some t =>
      if !allTy k (es.map (·.1)) then .err .invalidType
      else if !allTy t (es.map (·.2)) then .err .invalidType else .ok ()
    | _, _ => .err .calcFailed
  | .list _ items =>
    match itemType own p with
    | some t => if t ≠ .undefined ∧ !allTy t items then .err .invalidType else .ok ()
    | none => .err .calcFailed
  | .atom _ => .ok ()

/-- Whether a value is selected by one of the values (obj:1032-1071). A negative index is huge as a size. -/
def selects (kind : PT) (s v : Val) : Bool :=
  match kind, s, v with
  | .indexSelection, .list _ items, .atom (.int i) => decide (0 ≤ i) && decide (i < items.length)
  | .selection, .list _ items, .atom a => items.contains a
  | .sparseSelection, .dict _ _ es, .atom a => (es.map (·.1)).contains a
  | _, _, _ => false

/-- `checkSelectionValues` (obj:1025-1075) -/
def checkSelected (own : Owner) (p : Property) (v : Val) : Out Unit :=
  match selVal own p.d with
  | none => .err .calcFailed
  | some none => .ok ()
  | some (some s) => if selects (known own p) s v then .ok () else .err .notFound

/-- `checkPropertyTypeAndConvert` (obj:1204-1240); `conv` is the conversion between types. -/
def convert (conv : CT → Val → Option Val) (d : Def) (v : Val) : Option Val :=
  if v.ty = d.valueType then some v else conv d.valueType v

/-- `setPropertyValue` (obj:1078-1201) up to the value that is stored, for a property that is no reference. The property
type may become known on the way (obj:1031). -/
def write (conv : CT → Val → Option Val) (ev : Nat → Option Val) (p : Property) (v : Val) : Property × Out Val :=
  if p.d.readOnly = true ∨ p.d.valueType = .object then (p, .err .accessDenied)
  else match convert conv p.d v with
    | none => (p, .err .conversion)
    | some w =>
      match checkItems (some ev) p w with
      | .err e => (p, .err e)
      | .ok () =>
        let q : Property := if p.d.selection.isSome then { p with kind := known (some ev) p } else p
        match checkSelected (some ev) p w with
        | .err e => (q, .err e)
        | .ok () => (q, .ok (clamp p.d w))

/-! ## Selecting by value -/

/-- The index of the first item that is equal to a value (obj:1744-1751). -/
def indexOf (items : List Atom) (v : Val) : Option Nat :=
  match items with
  | [] => none
  | a :: l => if v = .atom a then some 0 else (indexOf l v).map (· + 1)

/-- The first key with a value (obj:1767-1774). -/
def keyOf (es : List (Atom × Atom)) (v : Val) : Option Atom :=
  match es with
  | [] => none
  | (k, a) :: l => if v = .atom a then some k else keyOf l v

/-- The value that is to be written for a selected one (obj:1728-1786). -/
def toKey (own : Owner) (p : Property) (v : Val) : Out Val :=
  match selVal own p.d with
  | none => .err .calcFailed
  | some s =>
    match known own p, s with
    | .indexSelection, some (.list _ items) => match indexOf items v with
      | some i => .ok (.atom (.int i))
      | none => .err .notFound
    | .sparseSelection, some (.dict _ _ es) => match keyOf es v with
      | some k => .ok (.atom k)
      | none => .err .notFound
    | .selection, _ => .ok v
    | _, _ => .err .invalidProperty

/-- `setPropertySelectionValue` (obj:1687-1792), up to the value that is stored; the property type becomes known. -/
def select (conv : CT → Val → Option Val) (ev : Nat → Option Val) (p : Property) (v : Val) : Property × Out Val :=
  match toKey (some ev) p v with
  | .err e => ((getType (some ev) p).1, .err e)
  | .ok k => write conv ev (getType (some ev) p).1 k

/-- The position for an index: it is converted to an unsigned integer, so that negative ones are too large. -/
def position : Val → Option Nat
  | .atom (.int i) => if 0 ≤ i then some i.toNat else none
  | .atom (.float q) => if 0 ≤ trunc q then some (trunc q).toNat else none
  | _ => none

/-- The item for a value (obj:2203-2232). -/
def fromKey (own : Owner) (p : Property) (s v : Val) : Out Val :=
  match known own p, s with
  | .indexSelection, .list _ items => match (position v).bind fun i => items[i]? with
    | some a => .ok (.atom a)
    | none => .err .outOfRange
  | .sparseSelection, .dict _ _ es => match v with
    | .atom k => match es.find? (fun e => e.1 == k) with
      | some e => .ok (.atom e.2)
      | none => .err .notFound
    | _ => .err .notFound
  | .selection, _ => if v.ty = p.d.valueType then .ok v else .err .invalidType
  | _, _ => .err .invalidProperty

/-- `getPropertySelectionValue` (obj:2171-2242) for the value that is stored, else the default. -/
def selected (own : Owner) (p : Property) (stored : Option Val) : Out Val :=
  match stored.or p.d.dflt with
  | none => .err .invalidParameter
  | some v =>
    match selVal own p.d with
    | none => .err .calcFailed
    | some none => .err .invalidProperty
    | some (some s) =>
      match fromKey own p s v with
      | .err e => .err e
      | .ok w =>
        if known own p = .selection then .ok w
        else match itemType own p with
          | some t => if t = w.ty then .ok w else .err .invalidType
          | none => .err .calcFailed

end Verif.Defs
