/-!
# Data descriptors

A data descriptor says how the samples of a signal are to be read: their type, their dimensions,
the rule that computes them, how they are scaled, and, for records, the descriptors of the fields.
It is put together by a builder, checked once, and then shared by everybody who reads the signal.

* `dsc` = `core/opendaq/signal/src/data_descriptor_impl.cpp`
* `dbl` = `core/opendaq/signal/src/data_descriptor_builder_impl.cpp`
* `rul` = `core/opendaq/signal/src/data_rule_impl.cpp`
* `dmr` = `core/opendaq/signal/src/dimension_rule_impl.cpp`
* `dim` = `core/opendaq/signal/src/dimension_impl.cpp`
* `scl` = `core/opendaq/signal/src/scaling_impl.cpp`
* `rdi` = `core/opendaq/signal/src/reference_domain_info_impl.cpp`
* `stt` = `core/opendaq/signal/include/opendaq/sample_type_traits.h`
* `sty` = `core/opendaq/signal/include/opendaq/sample_type.h`
* `drc` = `core/opendaq/signal/include/opendaq/data_rule_calc.h`
* `scc` = `core/opendaq/signal/include/opendaq/scaling_calc.h`

The first half takes a descriptor as the value it shows at one moment (a tree), the second half
keeps the lists and dictionaries it is made of in a memory where whoever holds them can change
those that are not frozen.
-/

namespace Verif.Descr

/-! ## Values -/

/-- The sample types, in the order of the enumeration.  sty:22-43 -/
inductive SampleType where
  | invalid | float32 | float64 | uint8 | int8 | uint16 | int16 | uint32 | int32 | uint64 | int64
  | rangeInt64 | complexFloat32 | complexFloat64 | binary | string | struct | null
  deriving DecidableEq, Repr

/-- The number of a sample type.  sty:22-43 -/
def SampleType.code : SampleType → Nat
  | .invalid => 0 | .float32 => 1 | .float64 => 2 | .uint8 => 3 | .int8 => 4 | .uint16 => 5
  | .int16 => 6 | .uint32 => 7 | .int32 => 8 | .uint64 => 9 | .int64 => 10 | .rangeInt64 => 11
  | .complexFloat32 => 12 | .complexFloat64 => 13 | .binary => 14 | .string => 15 | .struct => 16
  | .null => 17

/-- How many bytes one element takes, zero for types without a fixed size.  stt:361-401 -/
def SampleType.size : SampleType → Nat
  | .float32 => 4 | .float64 => 8 | .uint8 => 1 | .int8 => 1 | .uint16 => 2 | .int16 => 2
  | .uint32 => 4 | .int32 => 4 | .uint64 => 8 | .int64 => 8 | .rangeInt64 => 16
  | .complexFloat32 => 8 | .complexFloat64 => 16
  | .invalid => 0 | .binary => 0 | .string => 0 | .struct => 0 | .null => 0

/-- What post scaling can produce.  sty:51-56 -/
inductive ScaledType where
  | invalid | float32 | float64
  deriving DecidableEq, Repr

/-- The sample type of scaled values.  stt:442-455 -/
def ScaledType.toSample : ScaledType → SampleType
  | .float32 => .float32 | .float64 => .float64 | .invalid => .invalid

/-- The objects rule parameters and labels are made of.  A floating point number is given by its
truncation and something that tells it from the others with the same truncation; ranges and any
other objects are opaque. -/
inductive Leaf where
  | int (i : Int) | flt (whole : Int) (rest : Nat) | str (s : String) | range (lo hi : Int)
  | other (n : Nat)
  deriving DecidableEq, Repr

/-- Whether the object supports the number interface. -/
def Leaf.isNumber : Leaf → Bool
  | .int _ => true | .flt _ _ => true | _ => false

/-- A number as an unsigned size: negative numbers wrap around, fractions are dropped.
dim:80 (the conversion of the pointer to `SizeT`) -/
def Leaf.toSize : Leaf → Nat
  | .int i => (i % 2 ^ 64).toNat
  | .flt w _ => (w % 2 ^ 64).toNat
  | _ => 0

/-- A parameter of a rule: a plain object or a list. -/
inductive PVal where
  | leaf (l : Leaf) | labels (l : List Leaf)
  deriving DecidableEq, Repr

/-- Whether a parameter supports the number interface. -/
def PVal.isNumber : PVal → Bool
  | .leaf l => l.isNumber | .labels _ => false

/-- Parameters: a dictionary (its keys are distinct). -/
abbrev Params := List (String × PVal)

/-- Looking up a parameter. -/
def Params.find (p : Params) (k : String) : Option PVal := (List.find? (fun e => e.1 == k) p).map (·.2)

/-- `hasKey` and `supportsInterface<INumber>` of the value. -/
def Params.number (p : Params) (k : String) : Bool :=
  match p.find k with
  | some v => v.isNumber
  | none => false

/-! ## Rules -/

/-- The kind of rule of a dimension. -/
inductive DimKind where
  | other | linear | logarithmic | list
  deriving DecidableEq, Repr

/-- A rule of a dimension. -/
structure DimRule where
  kind : DimKind
  params : Params
  deriving DecidableEq, Repr

/-- The kind of a label.  dmr:185-194 -/
inductive LabelKind where
  | string | number | range | none
  deriving DecidableEq, Repr

/-- dmr:185-194 -/
def Leaf.labelKind : Leaf → LabelKind
  | .str _ => .string
  | .int _ => .number
  | .flt _ _ => .number
  | .range _ _ => .range
  | .other _ => .none

/-- Labels must be all of one known kind.  dmr:196-211 -/
def labelsValid : List Leaf → Bool
  | [] => true
  | a :: l => if a.labelKind = .none then false else (a :: l).all (fun b => b.labelKind = a.labelKind)

/-- The check of the parameters of the rule of a dimension.  dmr:108-183 -/
def DimRule.ok (r : DimRule) : Bool :=
  match r.kind with
  | .other => true
  | .linear =>
    r.params.length == 3 && r.params.number "delta" && r.params.number "start" &&
      r.params.number "size"
  | .logarithmic =>
    r.params.length == 4 && r.params.number "delta" && r.params.number "start" &&
      r.params.number "size" && r.params.number "base"
  | .list =>
    match r.params.find "List" with
    | some (.labels l) => labelsValid l
    | _ => false

/-- A dimension. -/
structure Dim where
  name : Option String
  unit : Option Nat
  rule : DimRule
  deriving DecidableEq, Repr

/-- The size of a dimension, if it has one.  dim:67-93 -/
def Dim.size (d : Dim) : Option Nat :=
  match d.rule.kind with
  | .other => none
  | .linear =>
    if d.rule.ok then
      match d.rule.params.find "size" with
      | some (.leaf l) => some l.toSize
      | _ => none
    else none
  | .logarithmic =>
    if d.rule.ok then
      match d.rule.params.find "size" with
      | some (.leaf l) => some l.toSize
      | _ => none
    else none
  | .list =>
    if d.rule.ok then
      match d.rule.params.find "List" with
      | some (.labels l) => some l.length
      | _ => none
    else none

/-- The kind of rule that computes the values. -/
inductive RuleKind where
  | other | linear | constant | explicit
  deriving DecidableEq, Repr

/-- A data rule; an explicit rule may have no parameters object at all. -/
structure Rule where
  kind : RuleKind
  params : Option Params
  deriving DecidableEq, Repr

/-- The check of the parameters of a data rule.  rul:144-181 -/
def Rule.ok (r : Rule) : Bool :=
  match r.kind, r.params with
  | .explicit, _ => true
  | _, none => false
  | .linear, some p => p.length == 2 && p.number "delta" && p.number "start"
  | .constant, some p => p.length == 0
  | .other, some _ => true

/-- Post scaling. -/
structure Scaling where
  input : SampleType
  output : ScaledType
  linear : Bool
  params : Params
  deriving DecidableEq, Repr

/-- The check of post scaling.  scl:176-203 -/
def Scaling.ok (s : Scaling) : Bool :=
  if SampleType.int64.code < s.input.code then false
  else if s.linear then s.params.length == 2 && s.params.number "scale" && s.params.number "offset"
  else true

/-- Whether values can be scaled: a calculation exists for the input and output types.
scc:116-172 -/
def Scaling.hasCalc (s : Scaling) : Bool :=
  s.input != .invalid && s.input.code ≤ SampleType.int64.code && s.output != .invalid

/-- Whether values of this type can be computed by a rule.  drc:444-482 -/
def SampleType.hasRuleCalc : SampleType → Bool
  | .float32 | .float64 | .uint8 | .int8 | .uint16 | .int16 | .uint32 | .int32 | .uint64 | .int64
  | .rangeInt64 => true
  | _ => false

/-- What a descriptor says about the clock of a domain.  rdi:25-33 -/
structure RefInfo where
  domainId : Option String
  offset : Option Int
  protocol : Nat
  usesOffset : Nat
  deriving DecidableEq, Repr

/-! ## Descriptors as values -/

/-- What the builder holds besides the fields of a record.  Units, value ranges and resolutions are
opaque. -/
structure Base where
  name : Option String
  sampleType : SampleType
  unit : Option Nat
  valueRange : Option Nat
  rule : Option Rule
  scaling : Option Scaling
  origin : Option String
  resolution : Option Nat
  dims : List Dim
  metadata : List (String × String)
  refInfo : Option RefInfo
  deriving DecidableEq, Repr

mutual
/-- A descriptor. -/
inductive Tree where
  | mk (b : Base) (fields : Trees)
/-- The descriptors of the fields of a record. -/
inductive Trees where
  | nil
  | cons (t : Tree) (ts : Trees)
end

deriving instance DecidableEq for Tree, Trees
deriving instance Repr for Tree, Trees

/-- The main part of a descriptor. -/
def Tree.base : Tree → Base
  | .mk b _ => b

/-- The fields of a descriptor. -/
def Tree.fields : Tree → Trees
  | .mk _ fs => fs

/-- Why a descriptor was refused. -/
inductive Err where
  | invalidState | incomplete | sampleType | parameter | unknownRule
  deriving DecidableEq, Repr

/-- The check of a descriptor with fields.  dsc:219-238 -/
def checkStruct (b : Base) : Except Err Unit :=
  let rule : Bool := match b.rule with
    | some r => r.kind == .explicit
    | none => false
  if b.sampleType = .struct ∧ rule ∧ b.unit = none ∧ b.scaling = none ∧ b.valueRange = none ∧
      b.resolution = none ∧ b.origin = some "" ∧ b.name ≠ none ∧ b.name ≠ some "" then .ok ()
  else .error .invalidState

/-- The part of the check about post scaling.  dsc:244-253 -/
def checkScaling (b : Base) (r : Rule) : Except Err Unit :=
  match b.scaling with
  | none => .ok ()
  | some s =>
    if b.sampleType ≠ s.output.toSample then .error .sampleType
    else if r.kind ≠ .explicit ∨ b.resolution ≠ none ∨ b.origin ≠ some "" then .error .invalidState
    else if b.dims ≠ [] then .error .invalidState
    else .ok ()

/-- The part of the check about reference domains.  dsc:262-280 -/
def checkRef (b : Base) (r : Rule) : Except Err Unit :=
  match b.refInfo with
  | none => .ok ()
  | some i =>
    if i.offset ≠ none ∧ i.offset ≠ some 0 ∧ SampleType.rangeInt64.code ≤ b.sampleType.code then
      .error .sampleType
    else if r.kind = .constant then .error .parameter
    else if b.scaling ≠ none then .error .parameter
    else .ok ()

/-- The calculations that must exist.  dsc:416-426 -/
def checkCalcs (b : Base) (r : Rule) : Except Err Unit :=
  if (r.kind = .constant ∨ r.kind = .linear) ∧ b.sampleType.hasRuleCalc = false then
    .error .sampleType
  else
    match b.scaling with
    | none => .ok ()
    | some s => if s.hasCalc then .ok () else .error .sampleType

/-- The check of a descriptor without fields.  dsc:239-280 and the calculations dsc:297 -/
def checkPlain (b : Base) : Except Err Unit :=
  match b.rule with
  | none => .error .incomplete
  | some r => do
    checkScaling b r
    if r.kind = .linear ∧ SampleType.rangeInt64.code < b.sampleType.code then .error .sampleType
    else
      checkRef b r
      checkCalcs b r

/-- The product of the sizes of the dimensions as the code computes it: unsigned, 64 bits; fails
if some dimension has no size.  dsc:179-181 -/
def elementCount : List Dim → Option Nat
  | ds => ds.foldlM (fun n d => d.size.map fun s => n * s % 2 ^ 64) 1

/-- The sizes of a sample and of its raw form. -/
structure Sizes where
  sample : Nat
  raw : Nat
  deriving DecidableEq, Repr

/-- The size of a descriptor without fields.  dsc:186-200 -/
def plainSize (b : Base) (n : Nat) : Sizes :=
  { sample := b.sampleType.size * n % 2 ^ 64
    raw :=
      match b.rule with
      | some r =>
        if r.kind ≠ .explicit then 0
        else
          match b.scaling with
          | some s => s.input.size * n % 2 ^ 64
          | none => b.sampleType.size * n % 2 ^ 64
      | none => 0 }

/-- Zero elements count as one.  dsc:183-184 -/
def nonzero (n : Nat) : Nat := if n = 0 then 1 else n

/-- Building a descriptor: its parts are checked and the sizes computed from the sizes of its
fields, which exist already.  dsc:40-60, dsc:177-302 -/
def construct (b : Base) (fields : List Sizes) : Except Err Sizes :=
  (if fields = [] then checkPlain b else checkStruct b).bind fun _ =>
    match elementCount b.dims with
    | none => .error .unknownRule
    | some n =>
      if fields = [] then .ok (plainSize b (nonzero n))
      else
        .ok { sample := (fields.map (·.sample)).foldl (fun a s => (a + s) % 2 ^ 64) 0 * nonzero n % 2 ^ 64
              raw := (fields.map (·.raw)).foldl (fun a s => (a + s) % 2 ^ 64) 0 * nonzero n % 2 ^ 64 }

/-- The parts of a descriptor are objects that were checked when they were made.
dmr:26, rul:42, scl:37 -/
def Base.partsOk (b : Base) : Bool :=
  b.dims.all (fun d => d.rule.ok) && (match b.rule with | some r => r.ok | none => true) &&
    (match b.scaling with | some s => s.ok | none => true)

mutual
/-- Building a whole tree from the bottom up: the sizes, or why it was refused. -/
def Tree.build : Tree → Except Err Sizes
  | .mk b fs =>
    match fs.build with
    | .error e => .error e
    | .ok l => if b.partsOk then construct b l else .error .parameter
/-- The sizes of the fields. -/
def Trees.build : Trees → Except Err (List Sizes)
  | .nil => .ok []
  | .cons t ts =>
    match t.build with
    | .error e => .error e
    | .ok s =>
      match ts.build with
      | .error e => .error e
      | .ok l => .ok (s :: l)
end

/-! ## Writing and reading -/

/-- A document: the keys that are written when the value is there. -/
inductive Doc where
  | str (s : String)
  | int (i : Int)
  | opaque (n : Nat)
  | leaf (l : Leaf)
  | list (l : List Doc)
  | dict (l : List (String × Doc))
  | obj (tag : String) (l : List (String × Doc))

/-- Looking up a key of a document. -/
def Doc.get (l : List (String × Doc)) (k : String) : Option Doc :=
  (l.find? (fun e => e.1 == k)).map (·.2)

/-- A key that is written if there is a value. -/
def optKey {α : Type} (k : String) (f : α → Doc) : Option α → List (String × Doc)
  | none => []
  | some a => [(k, f a)]

/-- A parameter in a document. -/
def PVal.save : PVal → Doc
  | .leaf l => .leaf l
  | .labels l => .list (l.map .leaf)

/-- Parameters in a document. -/
def Params.save (p : Params) : Doc := .dict (p.map fun e => (e.1, e.2.save))

/-- The number of a kind of rule of a dimension. -/
def DimKind.code : DimKind → Int
  | .other => 0 | .linear => 1 | .logarithmic => 2 | .list => 3

/-- The number of a kind of data rule. -/
def RuleKind.code : RuleKind → Int
  | .other => 0 | .linear => 1 | .constant => 2 | .explicit => 3

/-- The number of a scaled type. -/
def ScaledType.code : ScaledType → Int
  | .invalid => 0 | .float32 => 1 | .float64 => 2

/-- dmr:213-228 -/
def DimRule.save (r : DimRule) : Doc :=
  .obj "DimensionRule" [("rule_type", .int r.kind.code), ("params", r.params.save)]

/-- Fails if there is no name to write.  dim:195-216 -/
def Dim.save (d : Dim) : Option Doc :=
  d.name.map fun n =>
    .obj "Dimension" ([("rule", d.rule.save)] ++ optKey "unit" .opaque d.unit ++ [("name", .str n)])

/-- Fails if there are no parameters to write.  rul:103-118 -/
def Rule.save (r : Rule) : Option Doc :=
  r.params.map fun p => .obj "DataRule" [("ruleType", .int r.kind.code), ("params", p.save)]

/-- scl:127-148 -/
def Scaling.save (s : Scaling) : Doc :=
  .obj "Scaling" [("outputDataType", .int s.output.code), ("inputDataType", .int s.input.code),
    ("ruleType", .int (if s.linear then 1 else 0)), ("params", s.params.save)]

/-- rdi:102-129 -/
def RefInfo.save (i : RefInfo) : Doc :=
  .obj "ReferenceDomainInfo" (optKey "referenceDomainId" .str i.domainId ++
    optKey "referenceDomainOffset" .int i.offset ++
    [("referenceTimeSource", .int i.protocol), ("usesOffset", .int i.usesOffset)])

/-- Writing each element of a list. -/
def saveAll {α : Type} (f : α → Option Doc) : List α → Option (List Doc)
  | [] => some []
  | a :: l =>
    match f a, saveAll f l with
    | some x, some xs => some (x :: xs)
    | _, _ => none

mutual
/-- Writing a descriptor; fails where something that is always written is missing.
dsc:428-488 -/
def Tree.save : Tree → Option Doc
  | .mk b fs =>
    match b.name, saveAll Dim.save b.dims, b.rule.bind Rule.save, b.origin, fs.save with
    | some n, some ds, some r, some o, some f =>
      some (.obj "DataDescriptor" ([("name", .str n), ("sampleType", .int b.sampleType.code)] ++
        optKey "unit" .opaque b.unit ++ [("dimensions", .list ds)] ++
        optKey "valueRange" .opaque b.valueRange ++ [("rule", r)] ++
        optKey "postScaling" Scaling.save b.scaling ++ [("origin", .str o)] ++
        optKey "tickResolution" .opaque b.resolution ++
        [("metadata", .dict (b.metadata.map fun e => (e.1, .str e.2))),
          ("structFields", .list f)] ++
        optKey "referenceDomainInfo" RefInfo.save b.refInfo))
    | _, _, _, _, _ => none
/-- Writing the fields. -/
def Trees.save : Trees → Option (List Doc)
  | .nil => some []
  | .cons t ts =>
    match t.save, ts.save with
    | some x, some xs => some (x :: xs)
    | _, _ => none
end

/-- Reading a sample type back. -/
def SampleType.ofCode : Int → Option SampleType
  | 0 => some .invalid | 1 => some .float32 | 2 => some .float64 | 3 => some .uint8
  | 4 => some .int8 | 5 => some .uint16 | 6 => some .int16 | 7 => some .uint32 | 8 => some .int32
  | 9 => some .uint64 | 10 => some .int64 | 11 => some .rangeInt64 | 12 => some .complexFloat32
  | 13 => some .complexFloat64 | 14 => some .binary | 15 => some .string | 16 => some .struct
  | 17 => some .null | _ => none

/-- Reading the kind of rule of a dimension back. -/
def DimKind.ofCode : Int → Option DimKind
  | 0 => some .other | 1 => some .linear | 2 => some .logarithmic | 3 => some .list | _ => none

/-- Reading the kind of a data rule back. -/
def RuleKind.ofCode : Int → Option RuleKind
  | 0 => some .other | 1 => some .linear | 2 => some .constant | 3 => some .explicit | _ => none

/-- Reading a scaled type back. -/
def ScaledType.ofCode : Int → Option ScaledType
  | 0 => some .invalid | 1 => some .float32 | 2 => some .float64 | _ => none

/-- `readString` -/
def getStr (l : List (String × Doc)) (k : String) : Option String :=
  match Doc.get l k with
  | some (.str s) => some s
  | _ => none

/-- `readInt` -/
def getInt (l : List (String × Doc)) (k : String) : Option Int :=
  match Doc.get l k with
  | some (.int i) => some i
  | _ => none

/-- `hasKey` and `readObject` of an opaque value: absent, read, or not readable. -/
def getOpaque (l : List (String × Doc)) (k : String) : Option (Option Nat) :=
  match Doc.get l k with
  | none => some none
  | some (.opaque n) => some (some n)
  | some _ => none

/-- Reading each element of a list. -/
def loadAll {α : Type} (f : Doc → Option α) : List Doc → Option (List α)
  | [] => some []
  | a :: l =>
    match f a, loadAll f l with
    | some x, some xs => some (x :: xs)
    | _, _ => none

/-- Reading each value of a dictionary. -/
def loadVals {α : Type} (f : Doc → Option α) : List (String × Doc) → Option (List (String × α))
  | [] => some []
  | a :: l =>
    match f a.2, loadVals f l with
    | some x, some xs => some ((a.1, x) :: xs)
    | _, _ => none

/-- A plain object of a document. -/
def Doc.asLeaf : Doc → Option Leaf
  | .leaf l => some l
  | _ => none

/-- A parameter of a document. -/
def PVal.load : Doc → Option PVal
  | .leaf l => some (.leaf l)
  | .list l => (loadAll Doc.asLeaf l).map .labels
  | _ => none

/-- Parameters of a document. -/
def Params.load : Doc → Option Params
  | .dict l => loadVals PVal.load l
  | _ => none

/-- The parameters under a key. -/
def getParams (l : List (String × Doc)) (k : String) : Option Params :=
  (Doc.get l k).bind Params.load

/-- dmr:244-251: the constructor checks again -/
def DimRule.load : Doc → Option DimRule
  | .obj "DimensionRule" l =>
    match (getInt l "rule_type").bind DimKind.ofCode, getParams l "params" with
    | some k, some p => if (DimRule.mk k p).ok then some ⟨k, p⟩ else none
    | _, _ => none
  | _ => none

/-- dim:232-242 -/
def Dim.load : Doc → Option Dim
  | .obj "Dimension" l =>
    match (Doc.get l "rule").bind DimRule.load, getOpaque l "unit", getStr l "name" with
    | some r, some u, some n => some ⟨some n, u, r⟩
    | _, _, _ => none
  | _ => none

/-- rul:134-141 -/
def Rule.load : Doc → Option Rule
  | .obj "DataRule" l =>
    match (getInt l "ruleType").bind RuleKind.ofCode, getParams l "params" with
    | some k, some p => if (Rule.mk k (some p)).ok then some ⟨k, some p⟩ else none
    | _, _ => none
  | _ => none

/-- scl:164-173 -/
def Scaling.load : Doc → Option Scaling
  | .obj "Scaling" l =>
    match (getInt l "outputDataType").bind ScaledType.ofCode,
      (getInt l "inputDataType").bind SampleType.ofCode, getInt l "ruleType",
      getParams l "params" with
    | some o, some i, some t, some p =>
      if (Scaling.mk i o (t == 1) p).ok then some ⟨i, o, t == 1, p⟩ else none
    | _, _, _, _ => none
  | _ => none

/-- rdi:145-183 (the enumerations are kept as their numbers) -/
def RefInfo.load : Doc → Option RefInfo
  | .obj "ReferenceDomainInfo" l =>
    match getInt l "referenceTimeSource", getInt l "usesOffset" with
    | some p, some u =>
      some ⟨getStr l "referenceDomainId", getInt l "referenceDomainOffset", p.toNat, u.toNat⟩
    | _, _ => none
  | _ => none

/-- An optional object under a key: absent, read, or not readable. -/
def getOpt {α : Type} (f : Doc → Option α) (l : List (String × Doc)) (k : String) :
    Option (Option α) :=
  match Doc.get l k with
  | none => some none
  | some d => (f d).map some

/-- A string of a document. -/
def Doc.asStr : Doc → Option String
  | .str s => some s
  | _ => none

/-- The elements of a list of a document. -/
def getList (l : List (String × Doc)) (k : String) : Option (List Doc) :=
  match Doc.get l k with
  | some (.list ds) => some ds
  | _ => none

/-- The dictionary of strings of a document. -/
def getStrings (l : List (String × Doc)) (k : String) : Option (List (String × String)) :=
  match Doc.get l k with
  | some (.dict ds) => loadVals Doc.asStr ds
  | _ => none

/-- What is read into the builder besides the fields.  dsc:515-564 -/
def Base.load (l : List (String × Doc)) : Option Base :=
  match getStr l "name", (getInt l "sampleType").bind SampleType.ofCode, getOpaque l "unit",
    (getList l "dimensions").bind (loadAll Dim.load), getOpaque l "valueRange" with
  | some n, some st, some u, some ds, some vr =>
    match (Doc.get l "rule").bind Rule.load, getOpt Scaling.load l "postScaling",
      getStr l "origin", getOpaque l "tickResolution", getStrings l "metadata",
      getOpt RefInfo.load l "referenceDomainInfo" with
    | some r, some sc, some o, some tr, some md, some ri =>
      some { name := some n, sampleType := st, unit := u, valueRange := vr, rule := some r
             scaling := sc, origin := some o, resolution := tr, dims := ds, metadata := md
             refInfo := ri }
    | _, _, _, _, _, _ => none
  | _, _, _, _, _ => none

/-- Putting the fields together. -/
def Trees.ofList : List Tree → Trees
  | [] => .nil
  | t :: ts => .cons t (Trees.ofList ts)

/-- Reading a descriptor, at most `n` levels deep (the depth of the document is enough): the
builder is filled and the descriptor built, which checks it again.  dsc:504-569 -/
def Tree.load : Nat → Doc → Option Tree
  | n + 1, .obj "DataDescriptor" l =>
    match Base.load l, (getList l "structFields").bind (loadAll (Tree.load n)) with
    | some b, some fs =>
      match (Tree.mk b (Trees.ofList fs)).build with
      | .ok _ => some (.mk b (Trees.ofList fs))
      | .error _ => none
    | _, _ => none
  | _, _ => none

/-! ## Descriptors in memory -/

/-- Where a list or dictionary is. -/
abbrev Addr := Nat

/-- A parameter in memory: a plain object, or a list somewhere. -/
inductive HVal where
  | leaf (l : Leaf) | ref (a : Addr)
  deriving DecidableEq, Repr

/-- The rule of a dimension in memory. -/
structure HDimRule where
  kind : DimKind
  params : Addr
  deriving DecidableEq, Repr

/-- A dimension in memory. -/
structure HDim where
  name : Option String
  unit : Option Nat
  rule : HDimRule
  deriving DecidableEq, Repr

/-- A data rule in memory. -/
structure HRule where
  kind : RuleKind
  params : Option Addr
  deriving DecidableEq, Repr

/-- Post scaling in memory. -/
structure HScaling where
  input : SampleType
  output : ScaledType
  linear : Bool
  params : Addr
  deriving DecidableEq, Repr

/-- A descriptor in memory, or the content of a builder: lists and dictionaries are shared. -/
structure HDescr where
  name : Option String
  sampleType : SampleType
  unit : Option Nat
  valueRange : Option Nat
  rule : Option HRule
  scaling : Option HScaling
  origin : Option String
  resolution : Option Nat
  dims : Addr
  metadata : Addr
  fields : Addr
  refInfo : Option RefInfo
  sizes : Sizes
  deriving DecidableEq, Repr

/-- What a list or dictionary holds. -/
inductive Content where
  | labels (l : List Leaf)
  | params (p : List (String × HVal))
  | dims (l : List HDim)
  | metadata (m : List (String × String))
  | fields (l : List HDescr)
  deriving DecidableEq, Repr

/-- A list or dictionary, and whether it is frozen. -/
structure Cell where
  frozen : Bool
  content : Content
  deriving DecidableEq, Repr

/-- The memory. -/
abbrev Heap := List Cell

/-- Freezing the object at an address; nothing undoes it. -/
def Heap.freeze (h : Heap) (a : Addr) : Heap :=
  match h[a]? with
  | some c => h.set a { c with frozen := true }
  | none => h

/-- Anybody can change a list or dictionary that is not frozen; a frozen one refuses. -/
def Heap.edit (h : Heap) (a : Addr) (x : Content) : Heap :=
  match h[a]? with
  | some c => if c.frozen then h else h.set a { c with content := x }
  | none => h

/-- The labels at an address. -/
def Heap.labels (h : Heap) (a : Addr) : List Leaf :=
  match h[a]? with
  | some ⟨_, .labels l⟩ => l
  | _ => []

/-- A parameter as it shows now. -/
def HVal.view (h : Heap) : HVal → PVal
  | .leaf l => .leaf l
  | .ref a => .labels (h.labels a)

/-- The raw parameters at an address. -/
def Heap.rawParams (h : Heap) (a : Addr) : List (String × HVal) :=
  match h[a]? with
  | some ⟨_, .params p⟩ => p
  | _ => []

/-- The parameters at an address as they show now. -/
def Heap.params (h : Heap) (a : Addr) : Params :=
  (h.rawParams a).map fun e => (e.1, e.2.view h)

/-- The raw dimensions at an address. -/
def Heap.rawDims (h : Heap) (a : Addr) : List HDim :=
  match h[a]? with
  | some ⟨_, .dims l⟩ => l
  | _ => []

/-- A dimension as it shows now. -/
def HDim.view (h : Heap) (d : HDim) : Dim :=
  { name := d.name, unit := d.unit, rule := { kind := d.rule.kind, params := h.params d.rule.params } }

/-- The metadata at an address. -/
def Heap.metadata (h : Heap) (a : Addr) : List (String × String) :=
  match h[a]? with
  | some ⟨_, .metadata m⟩ => m
  | _ => []

/-- The fields at an address. -/
def Heap.fields (h : Heap) (a : Addr) : List HDescr :=
  match h[a]? with
  | some ⟨_, .fields l⟩ => l
  | _ => []

/-- A data rule as it shows now. -/
def HRule.view (h : Heap) (r : HRule) : Rule := { kind := r.kind, params := r.params.map h.params }

/-- Post scaling as it shows now. -/
def HScaling.view (h : Heap) (s : HScaling) : Scaling :=
  { input := s.input, output := s.output, linear := s.linear, params := h.params s.params }

/-- The main part of a descriptor as its getters show it now.  dsc:62-175 -/
def HDescr.base (h : Heap) (d : HDescr) : Base :=
  { name := d.name, sampleType := d.sampleType, unit := d.unit, valueRange := d.valueRange
    rule := d.rule.map (·.view h), scaling := d.scaling.map (·.view h), origin := d.origin
    resolution := d.resolution, dims := (h.rawDims d.dims).map (·.view h)
    metadata := h.metadata d.metadata, refInfo := d.refInfo }

/-- Everything a descriptor shows now, `n` levels of fields deep. -/
def HDescr.view (h : Heap) : Nat → HDescr → Tree
  | 0, d => .mk (d.base h) .nil
  | n + 1, d => .mk (d.base h) (Trees.ofList ((h.fields d.fields).map (HDescr.view h n)))

/-! ### Constructors in memory -/

/-- Making the rule of a dimension: the parameters are checked and frozen, not what they hold.
dmr:16-29 -/
def mkDimRule (h : Heap) (k : DimKind) (a : Addr) : Option (HDimRule × Heap) :=
  if (DimRule.mk k (h.params a)).ok then some (⟨k, a⟩, h.freeze a) else none

/-- Making a data rule: the parameters are checked and frozen.  rul:36-43, rul:144-181 -/
def mkRule (h : Heap) (k : RuleKind) (a : Option Addr) : Option (HRule × Heap) :=
  if (Rule.mk k (a.map h.params)).ok then
    some (⟨k, a⟩, match a with | some a => h.freeze a | none => h)
  else none

/-- Making post scaling with the constructor that takes the parameters: they are moved into the
object before the constructor freezes what it was given, which is empty by then.  scl:24-41 -/
def mkScaling (h : Heap) (i : SampleType) (o : ScaledType) (linear : Bool) (a : Addr) :
    Option (HScaling × Heap) :=
  if (Scaling.mk i o linear (h.params a)).ok then some (⟨i, o, linear, a⟩, h) else none

/-- Making post scaling from a builder: the parameters are frozen.  scl:48-62 -/
def mkScalingB (h : Heap) (i : SampleType) (o : ScaledType) (linear : Bool) (a : Addr) :
    Option (HScaling × Heap) :=
  if (Scaling.mk i o linear (h.params a)).ok then some (⟨i, o, linear, a⟩, h.freeze a) else none

/-- What building freezes: the list of fields if there are any, the dimensions and the metadata.
dsc:237, dsc:282-295 -/
def sealParts (h : Heap) (d : HDescr) : Heap :=
  let h := if h.fields d.fields = [] then h else h.freeze d.fields
  (h.freeze d.dims).freeze d.metadata

/-- Building a descriptor from what a builder holds.  dsc:40-60, dbl:43-53 -/
def buildH (h : Heap) (d : HDescr) : Option (HDescr × Heap) :=
  match construct (d.base h) ((h.fields d.fields).map (·.sizes)) with
  | .ok s => some ({ d with sizes := s }, sealParts h d)
  | .error _ => none

/-- What can happen to the memory afterwards: something unfrozen is changed, something is frozen,
something new is made. -/
inductive Op where
  | edit (a : Addr) (x : Content)
  | freeze (a : Addr)
  | alloc (c : Cell)
  deriving Repr

/-- One step. -/
def Op.run (h : Heap) : Op → Heap
  | .edit a x => h.edit a x
  | .freeze a => h.freeze a
  | .alloc c => h ++ [c]

/-- Many steps. -/
def runOps (h : Heap) (ops : List Op) : Heap := ops.foldl Op.run h

/-- A builder that starts as a copy of a descriptor shares its lists and dictionaries.
dbl:26-41 -/
def copyBuilder (d : HDescr) : HDescr := d

end Verif.Descr
