/-
Types, structs and enumerations.

Citations: `tm` = `core/coretypes/src/type_manager_impl.cpp`,
`st` = `core/coretypes/src/struct_type_impl.cpp`,
`si` = `core/coretypes/include/coretypes/struct_impl.h`,
`sb` = `core/coretypes/src/struct_builder_impl.cpp`,
`et` = `core/coretypes/src/enumeration_type_impl.cpp`,
`ei` = `core/coretypes/src/enumeration_impl.cpp`,
`sty` = `core/coretypes/src/simple_type_impl.cpp`,
`ty` = `core/coretypes/include/coretypes/type_impl.h`,
`ctu` = `core/coretypes/include/coretypes/ctutils.h`,
`cu` = `core/coretypes/include/coretypes/coretype_utils.h`,
`op` = `core/coretypes/include/coretypes/objectptr.h`,
`lp` = `core/corecontainers/include/coretypes/listptr.h`,
`dict` = `core/corecontainers/src/dictobject_impl.cpp`,
`list` = `core/corecontainers/src/listobject_impl.cpp`.

Simplifications.  Names are lists of characters; the classification of characters is that of
the "C" locale, names hold no null character.  Values other than structs and enumerations
are opaque: a core type and a number that tells them apart; in particular the elements of
lists and dictionaries are not looked at (nor does the code look at them).  Numbers of
different kinds never compare equal here (see C85 for what the code does).  Allocation never
fails; the lock of the manager makes its calls atomic.  A dictionary is a list of pairs in
the order of insertion (C81).  Integers of enumerations are 64 bits wide.  Two enumeration
types with the same entries in another order are different here (in the code they compare
equal), and no struct type is called "struct" and no enumeration type "enumeration" (the
simple types of these names would compare equal to them).
-/
namespace Verif.Types

abbrev Name := List Char

/-- The error codes the modelled functions return or throw. -/
inductive Err where
  | null       -- OPENDAQ_ERR_ARGUMENT_NULL
  | invalid    -- OPENDAQ_ERR_INVALIDPARAMETER
  | reserved   -- OPENDAQ_ERR_RESERVED_TYPE_NAME
  | badName    -- OPENDAQ_ERR_VALIDATE_FAILED
  | taken      -- OPENDAQ_ERR_ALREADYEXISTS
  | missing    -- OPENDAQ_ERR_NOTFOUND
  | noIface    -- OPENDAQ_ERR_NOINTERFACE
  | frozen     -- OPENDAQ_ERR_FROZEN
  | callback   -- the error of the core event callback
  | overflow   -- not an error code: signed overflow, undefined behaviour
  | crash      -- not an error code: a null pointer is dereferenced
deriving DecidableEq, Repr

/-! ### Names -/

/-- `std::isalpha` in the "C" locale, ctu:706-710. -/
def alpha (c : Char) : Bool := (decide ('a' ≤ c) && decide (c ≤ 'z')) || (decide ('A' ≤ c) && decide (c ≤ 'Z'))

/-- `std::isdigit`, ctu:710. -/
def digit (c : Char) : Bool := decide ('0' ≤ c) && decide (c ≤ '9')

/-- `validateTypeName`, ctu:701-714. -/
def validName : Name → Bool
  | [] => false
  | c :: l => (alpha c || c == '_') && l.all fun c => alpha c || digit c || c == '_'

/-- `tolower` of the classic locale, cu:191-198. -/
def lowerChar (c : Char) : Char :=
  if decide ('A' ≤ c) && decide (c ≤ 'Z') then Char.ofNat (c.toNat + 32) else c

/-- `toLowerCase`, cu:191-198. -/
def lower (n : Name) : Name := n.map lowerChar

/-- `reservedTypeNames`, tm:14-27. -/
def reservedNames : List Name :=
  [ ['a','r','g','u','m','e','n','t','i','n','f','o'],
    ['c','a','l','l','a','b','l','e','i','n','f','o'],
    ['u','n','i','t'],
    ['c','o','m','p','l','e','x','n','u','m','b','e','r'],
    ['r','a','t','i','o'],
    ['d','e','v','i','c','e','t','y','p','e'],
    ['f','u','n','c','t','i','o','n','b','l','o','c','k','t','y','p','e'],
    ['s','e','r','v','e','r','t','y','p','e'],
    ['d','a','t','a','d','e','s','c','r','i','p','t','o','r'],
    ['d','a','t','a','r','u','l','e'],
    ['d','i','m','e','n','s','i','o','n'],
    ['d','i','m','e','n','s','i','o','n','r','u','l','e'],
    ['r','a','n','g','e'],
    ['s','c','a','l','i','n','g'] ]

/-! ### The type manager, for any kind of types that have names and can be compared -/

/-- What the core event callback is told: the type that was added (tm:62-67) or the name of
the one that was removed (tm:87-92). -/
inductive Note (T : Type) where
  | added (t : T)
  | removed (n : Name)
deriving DecidableEq, Repr

/-- A type manager.  `types` is the dictionary (tm:13), `heard` says whether a core event
callback is set (tm:131-137) and `log` is what it was told so far, in order. -/
structure Mgr (T : Type) where
  types : List (Name × T) := []
  heard : Bool := false
  log : List (Note T) := []
deriving DecidableEq, Repr

namespace Mgr
variable {T : Type}

/-- `getType`, tm:97-109. -/
def get (m : Mgr T) (n : Name) : Except Err T :=
  match m.types.lookup n with
  | some t => .ok t
  | none => .error .missing

/-- `hasType`, tm:121-129. -/
def has (m : Mgr T) (n : Name) : Bool := (m.types.lookup n).isSome

/-- `getTypes`, tm:111-119. -/
def list (m : Mgr T) : List Name := m.types.map (·.1)

/-- The call of the callback after a change, tm:62-69 and tm:87-94; `ok` says whether the
callback returns without an error. -/
def tell (m : Mgr T) (e : Note T) (ok : Bool) : Mgr T × Option Err :=
  if m.heard then ({ m with log := m.log ++ [e] }, if ok then none else some .callback) else (m, none)

/-- `addType`, tm:31-70; `nm` gives the name of a type. -/
def add [DecidableEq T] (nm : T → Name) (m : Mgr T) (t : T) (ok : Bool) : Mgr T × Option Err :=
  if nm t = [] then (m, some .invalid)
  else if reservedNames.contains (lower (nm t)) then (m, some .reserved)
  else if !validName (nm t) then (m, some .badName)
  else match m.types.lookup (nm t) with
    | some u => if u = t then (m, none) else (m, some .taken)
    | none => ({ m with types := m.types ++ [(nm t, t)] } : Mgr T).tell (.added t) ok

/-- `removeType`, tm:72-95. -/
def remove (m : Mgr T) (n : Name) (ok : Bool) : Mgr T × Option Err :=
  match m.types.lookup n with
  | none => (m, some .missing)
  | some _ => ({ m with types := m.types.filter (fun e => e.1 != n) } : Mgr T).tell (.removed n) ok

end Mgr

/-- The calls that change a type manager. -/
inductive Op (T : Type) where
  | add (t : T) (ok : Bool)
  | remove (n : Name) (ok : Bool)
  | callback (set : Bool)
deriving DecidableEq, Repr

/-- One call, with the error it returns. -/
def Mgr.step {T : Type} [DecidableEq T] (nm : T → Name) (m : Mgr T) : Op T → Mgr T × Option Err
  | .add t ok => m.add nm t ok
  | .remove n ok => m.remove n ok
  | .callback b => ({ m with heard := b }, none)

/-- A history of calls. -/
def Mgr.run {T : Type} [DecidableEq T] (nm : T → Name) (m : Mgr T) (l : List (Op T)) : Mgr T :=
  l.foldl (fun m o => (m.step nm o).1) m

/-! ### Types and values -/

/-- Core types, in the order of sty:66-103. -/
inductive CT where
  | bool | int | float | string | list | dict | ratio | proc | object | binary | func
  | complex | struct | enum | undef
deriving DecidableEq, Repr

mutual
/-- Types that can be the type of a field: simple types (sty:9-12), enumeration types
(et:10-41) and struct types (st:13-64).  `dfl` says whether a list of default values was
given. -/
inductive Ty where
  | simple (c : CT)
  | enum (n : Name) (vs : List (Name × Int))
  | struct (n : Name) (fs : TyL) (dfl : Bool)
/-- The fields of a struct type: name, type, default value (null when there is no list of
default values). -/
inductive TyL where
  | nil
  | cons (n : Name) (t : Ty) (d : Val) (r : TyL)
/-- Values of fields. -/
inductive Val where
  | null
  | atom (c : CT) (k : Nat)
  | enum (n : Name) (vs : List (Name × Int)) (v : Name)
  | struct (n : Name) (fs : TyL) (dfl : Bool) (vs : ValL)
/-- The fields of a struct in the order of its dictionary. -/
inductive ValL where
  | nil
  | cons (n : Name) (v : Val) (r : ValL)
end

deriving instance DecidableEq for Ty, TyL, Val, ValL
deriving instance Repr for Ty, TyL, Val, ValL

abbrev Field := Name × Ty × Val
abbrev Dict := List (Name × Val)

def TyL.toList : TyL → List Field
  | .nil => []
  | .cons n t d r => (n, t, d) :: r.toList

def TyL.ofList : List Field → TyL
  | [] => .nil
  | (n, t, d) :: r => .cons n t d (TyL.ofList r)

def ValL.toList : ValL → Dict
  | .nil => []
  | .cons n v r => (n, v) :: r.toList

def ValL.ofList : Dict → ValL
  | [] => .nil
  | (n, v) :: r => .cons n v (ValL.ofList r)

/-- `coreTypeToString`, sty:66-103. -/
def CT.text : CT → Name
  | .bool => ['b','o','o','l']
  | .int => ['i','n','t']
  | .float => ['f','l','o','a','t']
  | .string => ['s','t','r','i','n','g']
  | .list => ['l','i','s','t']
  | .dict => ['d','i','c','t']
  | .ratio => ['r','a','t','i','o']
  | .proc => ['p','r','o','c']
  | .object => ['o','b','j','e','c','t']
  | .binary => ['b','i','n','a','r','y','D','a','t','a']
  | .func => ['f','u','n','c']
  | .complex => ['c','o','m','p','l','e','x','N','u','m','b','e','r']
  | .struct => ['s','t','r','u','c','t']
  | .enum => ['e','n','u','m','e','r','a','t','i','o','n']
  | .undef => ['u','n','d','e','f','i','n','e','d']

/-- `getName` of a type, ty:51-58. -/
def Ty.name : Ty → Name
  | .simple c => c.text
  | .enum n _ => n
  | .struct n _ _ => n

/-- `getCoreType` of a type, ty:78-85. -/
def Ty.core : Ty → CT
  | .simple c => c
  | .enum _ _ => .enum
  | .struct _ _ _ => .struct

/-- `getCoreType` of a value that is not null, op:2104-2118. -/
def Val.core : Val → CT
  | .null => .undef
  | .atom c _ => c
  | .enum _ _ _ => .enum
  | .struct _ _ _ _ => .struct

/-- Values whose `equals` dereferences a null argument (C80): numbers, booleans and complex
numbers. -/
def Val.derefs : Val → Bool
  | .atom .bool _ | .atom .int _ | .atom .float _ | .atom .complex _ => true
  | _ => false

/-- `x->equals(y)` where one of them is null and the other is not, or both are: list:138-141
compares the pointers first.  `f` says whether `x` or `y` is the object that is asked. -/
def sameNull (f : Bool) (x y : Val) : Option Bool :=
  if x = .null ∧ y = .null then some true
  else if (if f then x else y) = .null then none
  else if (if f then x else y).derefs then none
  else some false

def TyL.names : TyL → List Name
  | .nil => []
  | .cons n _ _ r => n :: r.names

def ValL.names : ValL → List Name
  | .nil => []
  | .cons n _ r => n :: r.names

mutual
/-- Whether two types are equal: st:90-110 (types, default values, names, then the name), et:77-95,
ty:60-76.  None when the comparison crashes.  `f` says which of the two is asked; the lists in
it are compared the other way round (st:103).  Without default values all of them are null
here, so comparing them does no harm. -/
def sameTy : Bool → Ty → Ty → Option Bool
  | _, .simple c, .simple c' => some (decide (c = c'))
  | _, .enum n vs, .enum n' vs' => some (decide (vs = vs') && decide (n = n'))
  | f, .struct n fs b, .struct n' fs' b' =>
    if fs.names.length ≠ fs'.names.length then some false
    else match sameTys (!f) fs fs' with
      | some true => match (if b = b' then sameDfls (!f) fs fs' else some false) with
        | some true => some (decide (fs.names = fs'.names) && decide (n = n'))
        | r => r
      | r => r
  | _, .simple _, .enum _ _ | _, .simple _, .struct _ _ _ | _, .enum _ _, .simple _ | _, .enum _ _, .struct _ _ _
  | _, .struct _ _ _, .simple _ | _, .struct _ _ _, .enum _ _ => some false
termination_by structural _ x => x
/-- The lists of types of the fields, list:107-148. -/
def sameTys : Bool → TyL → TyL → Option Bool
  | f, .cons _ t _ r, .cons _ t' _ r' => match sameTy f t t' with
    | some true => sameTys f r r'
    | x => x
  | _, .nil, _ => some true
  | _, .cons _ _ _ _, .nil => some true
termination_by structural _ x => x
/-- The lists of default values, list:107-148. -/
def sameDfls : Bool → TyL → TyL → Option Bool
  | f, .cons _ _ d r, .cons _ _ d' r' => match sameVal f d d' with
    | some true => sameDfls f r r'
    | x => x
  | _, .nil, _ => some true
  | _, .cons _ _ _ _, .nil => some true
termination_by structural _ x => x
/-- Whether two values are equal: `GenericStructImpl::equals`, si:232-248 (values in order,
names in order, types), and `EnumerationImpl::equals`, ei:85-99. -/
def sameVal : Bool → Val → Val → Option Bool
  | f, .struct n fs b v, y => match y with
    | .struct n' fs' b' v' =>
      if v.names.length ≠ v'.names.length then some false
      else match sameVals (!f) v v' with
        | some true =>
          if v.names = v'.names then
            -- the same as `sameTy (!f)` of the two types
            if fs.names.length ≠ fs'.names.length then some false
            else match sameTys f fs fs' with
              | some true => match (if b = b' then sameDfls f fs fs' else some false) with
                | some true => some (decide (fs.names = fs'.names) && decide (n = n'))
                | r => r
              | r => r
          else some false
        | r => r
    | .null => sameNull f (.struct n fs b v) .null
    | _ => some false
  | f, .enum n vs v, y => match y with
    | .enum n' vs' v' => some (decide (vs = vs') && decide (n = n') && decide (v = v'))
    | .null => sameNull f (.enum n vs v) .null
    | _ => some false
  | f, .atom c k, y => match y with
    | .atom c' k' => some (decide (c = c') && decide (k = k'))
    | .null => sameNull f (.atom c k) .null
    | _ => some false
  | f, .null, y => sameNull f .null y
termination_by structural _ x => x
/-- The lists of values of the fields, list:107-148. -/
def sameVals : Bool → ValL → ValL → Option Bool
  | f, .cons _ x r, .cons _ x' r' => match sameVal f x x' with
    | some true => sameVals f r r'
    | z => z
  | _, .nil, _ => some true
  | _, .cons _ _ _, .nil => some true
termination_by structural _ x => x
end

abbrev TMgr := Mgr Ty

/-- `addType` with a callback that does not fail; comparing the type with the one that has its
name can crash. -/
def TMgr.add (m : TMgr) (t : Ty) : TMgr × Option Err :=
  match m.types.lookup t.name with
  | some u => if sameTy true u t = none then (m, some .crash) else Mgr.add Ty.name m t true
  | none => Mgr.add Ty.name m t true

/-! ### Struct types -/

/-- `structAcceptedCoreTypes`, st:7-11. -/
def CT.accepted : CT → Bool
  | .proc | .object | .binary | .func => false
  | _ => true

/-- The fields of a struct type from the three lists. -/
def zip3 : List Name → List Ty → List Val → List Field
  | n :: ns, t :: ts, d :: ds => (n, t, d) :: zip3 ns ts ds
  | _, _, _ => []

/-- `StructTypeImpl::StructTypeImpl`, st:13-37 (with default values) and st:40-64. -/
def mkType (n : Name) (names : List Name) (dfl : Option (List Val)) (types : List Ty) : Except Err Ty :=
  match dfl with
  | some ds =>
    if names.length ≠ ds.length ∨ names.length ≠ types.length then .error .invalid
    else if !names.all validName then .error .invalid
    else if !types.all (fun t => t.core.accepted) then .error .invalid
    else .ok (.struct n (TyL.ofList (zip3 names types ds)) true)
  | none =>
    if names.length ≠ types.length then .error .invalid
    else if !names.all validName then .error .invalid
    else if !types.all (fun t => t.core.accepted) then .error .invalid
    else .ok (.struct n (TyL.ofList (zip3 names types (types.map fun _ => .null))) false)

/-! ### Structs -/

/-- The check of a given value against the type of the field, si:118-136: null always
passes; for a field with a struct type the value must be a struct of an equal type; for any
other field only the core types are compared, and undefined takes anything. -/
def check (t : Ty) (v : Val) : Option Err :=
  match v with
  | .null => none
  | v => match t with
    | .struct n fs b => match v with
      | .struct n' fs' b' _ => match sameTy true (.struct n' fs' b') (.struct n fs b) with
        | some true => none
        | some false => some .invalid
        | none => some .crash
      | _ => some .noIface
    | t => if t.core ≠ .undef ∧ v.core ≠ t.core then some .invalid else none

/-- The loop over the fields of the type, si:106-137: absent fields are set in the
dictionary (which fails when it is frozen, dict:60-65), given ones are checked.  Returns the
dictionary as it is at the end or at the error. -/
def fill (dfl frozen : Bool) : List Field → Dict → Dict × Option Err
  | [], d => (d, none)
  | (n, t, x) :: r, d => match d.lookup n with
    | none => if frozen then (d, some .frozen)
      else fill dfl frozen r (d ++ [(n, if dfl then x else .null)])
    | some v => match check t v with
      | some e => (d, some e)
      | none => fill dfl frozen r d

/-- Names, then the loop: si:95-137, the same in si:182-225. -/
def complete (fs : List Field) (dfl frozen : Bool) (d : Dict) : Dict × Option Err :=
  if d.all (fun e => (fs.map (·.1)).contains e.1) then fill dfl frozen fs d else (d, some .invalid)

/-- The type that is derived from a value, si:144-163. -/
def inferred : Val → Except Err Ty
  | .null => .ok (.simple .undef)
  | .atom .struct _ => .error .noIface
  | .atom .enum _ => .error .noIface
  | .atom c _ => .ok (.simple c)
  | .enum n vs _ => .ok (.enum n vs)
  | .struct n fs b _ => .ok (.struct n fs b)

/-- The types of all values in order, si:144-163. -/
def inferAll : Dict → Except Err (List Ty)
  | [] => .ok []
  | (_, v) :: r => match inferred v with
    | .error e => .error e
    | .ok t => match inferAll r with
      | .error e => .error e
      | .ok l => .ok (t :: l)

/-- What a creation leaves behind: the manager, the dictionary that was passed, whether that
is frozen, and the struct or the error. -/
structure Made where
  mgr : TMgr
  dict : Dict
  frozen : Bool
  res : Except Err Val

/-- `Struct(name, fields, typeManager)`, si:80-171.  `d` is the dictionary that is passed,
none for null. -/
def mkStruct (m : TMgr) (n : Name) (d : Option Dict) (frozen : Bool) : Made :=
  match m.types.lookup n with
  | some (.struct tn fs b) =>
    let r := complete fs.toList b (frozen && d.isSome) (d.getD [])
    match r.2 with
    | some e => ⟨m, r.1, frozen, .error e⟩
    | none => ⟨m, r.1, true, .ok (.struct tn fs b (ValL.ofList r.1))⟩
  | some _ => ⟨m, d.getD [], frozen, .error .noIface⟩
  | none => match d with
    | none => ⟨m, [], frozen, .error .invalid⟩
    | some d => match inferAll d with
      | .error e => ⟨m, d, frozen, .error e⟩
      | .ok ts => match mkType n (d.map (·.1)) none ts with
        | .ok (.struct tn fs b) => match TMgr.add m (.struct tn fs b) with
          | (m', none) => ⟨m', d, true, .ok (.struct tn fs b (ValL.ofList d))⟩
          | (m', some e) => ⟨m', d, frozen, .error e⟩
        | .ok _ => ⟨m, d, frozen, .error .noIface⟩
        | .error e => ⟨m, d, frozen, .error e⟩

/-- `a->equals(b)` for structs, none when it crashes. -/
def sameStruct (a b : Val) : Option Bool :=
  match a, b with
  | .struct _ _ _ _, .struct _ _ _ _ => sameVal true a b
  | _, _ => some false

/-- `get`, si:277-292: null for a field that does not exist. -/
def field (s : Val) (n : Name) : Val :=
  match s with
  | .struct _ _ _ v => (v.toList.lookup n).getD .null
  | _ => .null

/-! ### Struct builders -/

/-- A struct builder: the type, the dictionary of fields and whether it is frozen. -/
structure Builder where
  n : Name
  fs : TyL
  dfl : Bool
  fields : Dict
  frozen : Bool := false
deriving DecidableEq

/-- `DictImpl::set`, dict:60-88. -/
def dset : Dict → Name → Val → Dict
  | [], n, v => [(n, v)]
  | (k, x) :: r, n, v => if k = n then (k, v) :: r else (k, x) :: dset r n v

/-- `StructBuilderImpl(name, typeManager)`, sb:8-23. -/
def Builder.make (m : TMgr) (n : Name) : Except Err Builder :=
  match m.types.lookup n with
  | some (.struct tn fs b) =>
    .ok ⟨tn, fs, b, fs.toList.foldl (fun d f => dset d f.1 (if b then f.2.2 else .null)) [], false⟩
  | some _ => .error .noIface
  | none => .error .missing

/-- `StructBuilderImpl(struct_)`, sb:25-31. -/
def Builder.from : Val → Except Err Builder
  | .struct n fs b v => .ok ⟨n, fs, b, v.toList.foldl (fun d f => dset d f.1 f.2) [], false⟩
  | _ => .error .noIface

/-- The type of a value, sb:102-109. -/
def typeOf : Val → Ty
  | .struct n fs b _ => .struct n fs b
  | .enum n vs _ => .enum n vs
  | v => .simple v.core

/-- `set`, sb:70-119.  The default value looked up for null (sb:81-95) is not used:
sb:117 stores the argument. -/
def Builder.set (b : Builder) (n : Name) (v : Val) : Builder × Option Err :=
  match b.fields.lookup n with
  | none => (b, some .missing)
  | some _ =>
    match b.fs.toList.find? (fun f => v != .null && f.1 == n && sameTy true (typeOf v) f.2.1 != some true) with
    | some f => (b, some (if sameTy true (typeOf v) f.2.1 = none then .crash else .invalid))
    | none => if b.frozen then (b, some .frozen) else ({ b with fields := dset b.fields n v }, none)

/-- The checks of `setFieldValues`, sb:56-59.  The list is taken as a list of strings
(sb:52), so every element that is neither null nor a string is refused when it is read
(lp:292-301, op:1290-1307); null has no core type (op:2104-2107). -/
def checkAll : List Val → List Ty → Option Err
  | [], _ => none
  | v :: vs, ts => match v with
    | .null => some .invalid
    | .atom .string _ => match ts with
      | t :: r => if t = .simple .string then checkAll vs r else some .invalid
      | [] => some .invalid
    | _ => some .noIface

/-- `setFieldValues`, sb:48-68. -/
def Builder.setAll (b : Builder) (vs : List Val) : Builder × Option Err :=
  if vs.length ≠ b.fields.length then (b, some .invalid)
  else match checkAll vs (b.fs.toList.map (·.2.1)) with
    | some e => (b, some e)
    | none => ({ b with fields := (b.fields.map (·.1)).zip vs, frozen := false }, none)

/-- `build`, sb:33-46, si:173-229: the dictionary of the builder (sb:161-167) becomes that of
the struct and is frozen. -/
def Builder.build (b : Builder) : Builder × Except Err Val :=
  let r := complete b.fs.toList b.dfl b.frozen b.fields
  match r.2 with
  | some e => ({ b with fields := r.1 }, .error e)
  | none => ({ b with fields := r.1, frozen := true }, .ok (.struct b.n b.fs b.dfl (ValL.ofList r.1)))

/-- The calls of a builder. -/
inductive BOp where
  | set (n : Name) (v : Val)
  | setAll (vs : List Val)
  | build

/-- One call of a builder. -/
def Builder.step (b : Builder) : BOp → Builder × Option Err
  | .set n v => b.set n v
  | .setAll vs => b.setAll vs
  | .build => match b.build with
    | (b', .ok _) => (b', none)
    | (b', .error e) => (b', some e)

/-- A history of calls of a builder. -/
def Builder.run (b : Builder) (l : List BOp) : Builder := l.foldl (fun b o => (b.step o).1) b

/-! ### Enumerations -/

/-- The largest 64-bit integer. -/
def maxInt : Int := 9223372036854775807

/-- The loop of et:20-41: names must be new, values count up; counting beyond the largest
integer is undefined behaviour, also after the last name. -/
def countUp : List Name → Int → List (Name × Int) → Except Err (List (Name × Int))
  | [], _, acc => .ok acc
  | n :: r, i, acc =>
    if (acc.lookup n).isSome then .error .invalid
    else if i = maxInt then .error .overflow
    else countUp r (i + 1) (acc ++ [(n, i)])

/-- `EnumerationType(name, names, first)`, et:20-41. -/
def mkEnumType (n : Name) (names : List Name) (first : Int) : Except Err Ty :=
  if names = [] then .error .invalid
  else match countUp names first [] with
    | .ok vs => .ok (.enum n vs)
    | .error e => .error e

/-- `EnumerationType(name, values)`, et:10-18. -/
def mkEnumTypeFrom (n : Name) (vs : List (Name × Int)) : Except Err Ty :=
  if vs = [] then .error .invalid else .ok (.enum n vs)

/-- What an enumeration value is made from. -/
inductive Pick where
  | name (s : Name)
  | int (i : Int)

/-- `EnumerationImpl(type, value)`, ei:49-75. -/
def mkEnum (t : Ty) (p : Pick) : Except Err Val :=
  match t with
  | .enum n vs => match p with
    | .name s => if (vs.lookup s).isSome then .ok (.enum n vs s) else .error .invalid
    | .int i => match vs.find? (fun e => (vs.lookup e.1) == some i) with
      | some e => .ok (.enum n vs e.1)
      | none => .error .invalid
  | _ => .error .noIface

/-- `EnumerationImpl(name, value, typeManager)`, ei:6-47. -/
def mkEnumIn (m : TMgr) (n : Name) (p : Pick) : Except Err Val :=
  match m.types.lookup n with
  | none => .error .invalid
  | some t => match p with
    | .name [] => .error .invalid
    | p => mkEnum t p

/-- `getIntValue`, ei:118-124 with et:59-67. -/
def intValue : Val → Except Err Int
  | .enum _ vs v => match vs.lookup v with
    | some i => .ok i
    | none => .error .missing
  | _ => .error .noIface

/-- The key that is hashed for an enumeration, ei:77-83: the name of the type and the value
joined. -/
def hashKey : Val → Name
  | .enum n _ v => n ++ v
  | _ => []

/-! ### Serialization

Values and types are written as trees and read back as the same trees (C86, C87); what is
modelled is what reading does with the type manager. -/

mutual
/-- Reading a type: sty:39-64, et:138-175, st:181-222.  Every type that is read is added to
the manager, also simple types and the types of fields; a struct type with a reserved name
is not added, everything else that cannot be added is an error.  The types of the fields are
read first, then the default values. -/
def readTy (m : TMgr) : Ty → TMgr × Except Err Ty
  | .simple c => match TMgr.add m (.simple c) with
    | (m', none) => (m', .ok (.simple c))
    | (m', some e) => (m', .error e)
  | .enum n vs => if vs = [] then (m, .error .null) else
    match TMgr.add m (.enum n vs) with
    | (m', none) => (m', .ok (.enum n vs))
    | (m', some e) => (m', .error e)
  | .struct n fs b => match readTys m fs with
    | (m1, .error e) => (m1, .error e)
    | (m1, .ok fs1) => match (if b then readDfls m1 fs1 fs else (m1, .ok fs1)) with
      | (m2, .error e) => (m2, .error e)
      | (m2, .ok fs2) =>
        let b' := b && decide (fs ≠ .nil)
        match TMgr.add m2 (.struct n fs2 b') with
        | (m3, none) => (m3, .ok (.struct n fs2 b'))
        | (m3, some .reserved) => (m3, .ok (.struct n fs2 b'))
        | (m3, some e) => (m3, .error e)
/-- The list of types of the fields, st:187-189; default values are still missing. -/
def readTys (m : TMgr) : TyL → TMgr × Except Err TyL
  | .nil => (m, .ok .nil)
  | .cons n t _ r => match readTy m t with
    | (m1, .error e) => (m1, .error e)
    | (m1, .ok t1) => match readTys m1 r with
      | (m2, .error e) => (m2, .error e)
      | (m2, .ok r1) => (m2, .ok (.cons n t1 .null r1))
/-- The default values, st:191-193. -/
def readDfls (m : TMgr) : TyL → TyL → TMgr × Except Err TyL
  | .cons n t _ r1, .cons _ _ d r => match readVal m d with
    | (m1, .error e) => (m1, .error e)
    | (m1, .ok d1) => match readDfls m1 r1 r with
      | (m2, .error e) => (m2, .error e)
      | (m2, .ok r2) => (m2, .ok (.cons n t d1 r2))
  | _, _ => (m, .ok .nil)
/-- Reading a value: structs si:402-442 (fields first, then a struct is created from the
name and the fields), enumerations ei:201-239. -/
def readVal (m : TMgr) : Val → TMgr × Except Err Val
  | .null => (m, .ok .null)
  | .atom c k => (m, .ok (.atom c k))
  | .enum n _ v => (m, mkEnumIn m n (.name v))
  | .struct n _ _ vs => match readVals m vs with
    | (m1, .error e) => (m1, .error e)
    | (m1, .ok d) => let r := mkStruct m1 n (some d.toList) false; (r.mgr, r.res)
/-- The dictionary of the fields, si:421-423. -/
def readVals (m : TMgr) : ValL → TMgr × Except Err ValL
  | .nil => (m, .ok .nil)
  | .cons n v r => match readVal m v with
    | (m1, .error e) => (m1, .error e)
    | (m1, .ok v1) => match readVals m1 r with
      | (m2, .error e) => (m2, .error e)
      | (m2, .ok r1) => (m2, .ok (.cons n v1 r1))
end

/-- All types of the dictionary in order, tm:185-187. -/
def readTypes (m : TMgr) : List (Name × Ty) → TMgr × Except Err (List Ty)
  | [] => (m, .ok [])
  | (_, t) :: r => match readTy m t with
    | (m1, .error e) => (m1, .error e)
    | (m1, .ok t1) => match readTypes m1 r with
      | (m2, .error e) => (m2, .error e)
      | (m2, .ok l) => (m2, .ok (t1 :: l))

/-- The loop of tm:189-193: an error other than "already exists" ends it. -/
def addAll (m : TMgr) : List Ty → Except Err TMgr
  | [] => .ok m
  | t :: r => match TMgr.add m t with
    | (m1, none) => addAll m1 r
    | (m1, some .taken) => addAll m1 r
    | (_, some e) => .error e

/-- `TypeManagerImpl::Deserialize` of what `serialize` wrote, tm:139-199. -/
def reload (m : TMgr) : Except Err TMgr :=
  match readTypes {} m.types with
  | (_, .error e) => .error e
  | (m1, .ok l) => addAll m1 l

end Verif.Types
