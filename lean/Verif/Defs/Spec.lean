import Verif.Defs.Model

/-!
# What property definitions are expected to satisfy

Nothing here uses the functions of the model; only its data types.
-/

namespace Verif.Defs.Spec

/-- The core type of a value that is no container; anything that does not know its type is an object. -/
def typeOf : Atom → CT
  | .int _ => .int
  | .float _ => .float
  | .other t _ => if t = .undefined then .object else t

def typeOfVal : Val → CT
  | .atom a => typeOf a
  | .list _ _ => .list
  | .dict _ _ _ => .dict

/-- Types that items of containers may have. -/
def Simple (t : CT) : Prop :=
  t ≠ .object ∧ t ≠ .func ∧ t ≠ .proc ∧ t ≠ .list ∧ t ≠ .dict ∧ t ≠ .undefined

/-- All values have one simple type, the declared one if one is declared. -/
def Uniform (declared : CT) (l : List Atom) : Prop :=
  ∃ t, Simple t ∧ (declared ≠ .undefined → declared = t) ∧ ∀ a ∈ l, typeOf a = t

/-- The rules for a definition. -/
structure Acceptable (d : Def) : Prop where
  /-- It has a name, other than the reserved one. -/
  named : ∃ n, d.name = some n ∧ n ≠ "opendaq_unassigned"
  /-- Functions, procedures and references have no default value, all others have one. -/
  noDefault : d.valueType = .func ∨ d.valueType = .proc ∨ d.ref ≠ none → d.dflt = none
  hasDefault : d.valueType ≠ .func → d.valueType ≠ .proc → d.ref = none → d.dflt ≠ none
  /-- Objects have neither selection nor suggested values, no coercer, validator or unit. -/
  object : d.valueType = .object →
    d.selection = none ∧ d.suggested = none ∧ d.coercer = none ∧ d.validator = none ∧ d.unit = none
  /-- Only Int and Float have limits. -/
  limits : d.min ≠ none ∨ d.max ≠ none → d.valueType = .int ∨ d.valueType = .float
  /-- Only functions and procedures have a callable info. -/
  callable : d.callable ≠ none → d.valueType = .proc ∨ d.valueType = .func
  /-- References: no value type and no description, or an empty description. -/
  reference : d.ref ≠ none →
    ((d.valueType = .undefined ∧ d.description = none) ∨ d.description = some "") ∧ d.readOnly = false ∧
      d.selection = none ∧ d.suggested = none ∧ d.coercer = none ∧ d.validator = none
  /-- Selection by key is for Int, other selections for Int, Float and String. -/
  selection : d.selection ≠ none → d.valueType = .int ∨ d.valueType = .float ∨ d.valueType = .string
  sparse : ∀ v, d.selection = some (.plain v) → typeOfVal v = .dict → d.valueType = .int
  suggested : d.suggested ≠ none → d.valueType = .int ∨ d.valueType = .float ∨ d.valueType = .string
  /-- The default of a dictionary is a dictionary, and its keys and its items have one simple type each. -/
  dict : d.valueType = .dict → ∀ v, d.dflt = some v →
    ∃ k e es, v = .dict k e es ∧ Uniform k (es.map (·.1)) ∧ Uniform e (es.map (·.2))
  /-- If the default of a list is a list then its items have one simple type; if it is a dictionary then it is empty. -/
  list : d.valueType = .list → ∀ v, d.dflt = some v →
    (∀ e items, v = .list e items → Uniform e items) ∧ (∀ k e es, v = .dict k e es → es = [] ∧ Uniform e [])
  /-- Structures and enumerations have nothing but name, description, default and flags. -/
  struct : d.valueType = .struct ∨ d.valueType = .enumeration →
    d.selection = none ∧ d.suggested = none ∧ d.coercer = none ∧ d.validator = none ∧ d.unit = none

/-- The property type of a definition whose selection values are no expression. -/
def TypeIs (d : Def) (t : PT) : Prop :=
  (∀ v, d.selection = some (.plain v) →
    (typeOfVal v = .dict → t = .sparseSelection) ∧
    (typeOfVal v ≠ .dict → d.valueType = .int → d.intSel = false → t = .indexSelection) ∧
    (typeOfVal v ≠ .dict → (d.valueType ≠ .int ∨ d.intSel = true) → t = .selection)) ∧
  (d.selection = none → d.ref ≠ none → t = .reference) ∧
  (d.selection = none → d.ref = none → t = .core d.valueType)

/-- The selection values are no expression. -/
def PlainSel (d : Def) : Prop := ∀ e, d.selection ≠ some (.eval e)

/-- Two definitions agree in all that can be asked for, handlers apart. -/
structure Same (d d' : Def) : Prop where
  name : d'.name = d.name
  valueType : d'.valueType = d.valueType
  description : d'.description = d.description
  unit : d'.unit = d.unit
  min : d'.min = d.min
  max : d'.max = d.max
  dflt : d'.dflt = d.dflt
  visible : d'.visible = d.visible
  readOnly : d'.readOnly = d.readOnly
  selection : d'.selection = d.selection
  suggested : d'.suggested = d.suggested
  ref : d'.ref = d.ref
  coercer : d'.coercer = d.coercer
  validator : d'.validator = d.validator
  callable : d'.callable = d.callable
  /-- Whether integers of a selection are values only matters for integers. -/
  intSel : d.valueType = .int → d'.intSel = d.intSel

/-- Lower or equal, for numbers of any type. -/
def Le : Atom → Atom → Prop
  | .int i, .int j => i ≤ j
  | .int i, .float q => (i : Rat) ≤ q
  | .float q, .int j => q ≤ (j : Rat)
  | .float q, .float r => q ≤ r
  | _, _ => False

/-- A number is within the limits that are given. -/
def Within (d : Def) (a : Atom) : Prop :=
  (∀ m, d.min = some m → Le m a) ∧ (∀ m, d.max = some m → Le a m)

/-- A value is among the selection values `s`: an index into a list, an item of a list or a key of a dictionary. -/
def Selected (t : PT) (s : Val) (v : Val) : Prop :=
  (t = .indexSelection ∧ ∃ e items i, s = .list e items ∧ v = .atom (.int i) ∧ 0 ≤ i ∧ i < items.length) ∨
  (t = .selection ∧ ∃ e items a, s = .list e items ∧ v = .atom a ∧ a ∈ items) ∨
  (t = .sparseSelection ∧ ∃ k e es a, s = .dict k e es ∧ v = .atom a ∧ a ∈ es.map (·.1))

/-- A value is offered by the selection values: an item of a list or of a dictionary. -/
def Offered (s : Val) (v : Val) : Prop :=
  (∃ e items a, s = .list e items ∧ v = .atom a ∧ a ∈ items) ∨ (∃ k e es a, s = .dict k e es ∧ v = .atom a ∧ a ∈ es.map (·.2))

/-- All items have one type, the one that is declared if there is one. -/
def OneType (s : Val) : Prop :=
  (∀ e items, s = .list e items → ∃ t, (e ≠ .undefined → e = t) ∧ ∀ a ∈ items, typeOf a = t) ∧
  (∀ k e es, s = .dict k e es → ∃ t, (e ≠ .undefined → e = t) ∧ ∀ a ∈ es.map (·.2), typeOf a = t)

/-- The keys of a dictionary are integers, and different from each other. -/
def IntKeys (s : Val) : Prop :=
  ∀ k e es, s = .dict k e es → (es.map (·.1)).Nodup ∧ ∀ a ∈ es.map (·.1), typeOf a = .int

/-- The default value is a value that could be written: it has the type of the property, is within the limits and among
the selection values. -/
structure DefaultFits (d : Def) (v : Val) : Prop where
  type : typeOfVal v = d.valueType
  limits : ∀ a, v = .atom a → Within d a
  selected : ∀ s t, d.selection = some (.plain s) → TypeIs d t → Selected t s v

end Verif.Defs.Spec
