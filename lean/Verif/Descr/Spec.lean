import Verif.Descr.Model

/-!
# What users rely on about data descriptors

Stated over what the getters show and what the documentation says, without the functions of the
model that compute it.
-/

namespace Verif.Descr.Spec

open Verif.Descr

/-- What one element takes, in bytes; types without a fixed size take none. -/
inductive Bytes : SampleType → Nat → Prop
  | b1 {t} (h : t = .uint8 ∨ t = .int8) : Bytes t 1
  | b2 {t} (h : t = .uint16 ∨ t = .int16) : Bytes t 2
  | b4 {t} (h : t = .uint32 ∨ t = .int32 ∨ t = .float32) : Bytes t 4
  | b8 {t} (h : t = .uint64 ∨ t = .int64 ∨ t = .float64 ∨ t = .complexFloat32) : Bytes t 8
  | b16 {t} (h : t = .rangeInt64 ∨ t = .complexFloat64) : Bytes t 16
  | b0 {t} (h : t = .invalid ∨ t = .binary ∨ t = .string ∨ t = .struct ∨ t = .null) : Bytes t 0

/-- A real number type: integers and floating point numbers. -/
def Real (t : SampleType) : Prop :=
  t = .float32 ∨ t = .float64 ∨ t = .uint8 ∨ t = .int8 ∨ t = .uint16 ∨ t = .int16 ∨ t = .uint32 ∨
    t = .int32 ∨ t = .uint64 ∨ t = .int64

/-- An integer type. -/
def Integer (t : SampleType) : Prop := Real t ∧ t ≠ .float32 ∧ t ≠ .float64

/-- A number stands under the key. -/
def NumberAt (p : Params) (k : String) : Prop :=
  (∃ i, (k, PVal.leaf (.int i)) ∈ p) ∨ ∃ w r, (k, PVal.leaf (.flt w r)) ∈ p

/-- Labels of one kind: strings, numbers or ranges. -/
def OneKind (l : List Leaf) : Prop :=
  (∀ x ∈ l, ∃ s, x = .str s) ∨ (∀ x ∈ l, (∃ i, x = .int i) ∨ ∃ w r, x = .flt w r) ∨
    ∀ x ∈ l, ∃ a b, x = .range a b

/-- The parameters the rule of a dimension needs. -/
def DimParams (r : DimRule) : Prop :=
  (r.kind = .linear → r.params.length = 3 ∧ NumberAt r.params "delta" ∧ NumberAt r.params "start" ∧
    NumberAt r.params "size") ∧
  (r.kind = .logarithmic → r.params.length = 4 ∧ NumberAt r.params "delta" ∧
    NumberAt r.params "start" ∧ NumberAt r.params "size" ∧ NumberAt r.params "base") ∧
  (r.kind = .list → ∃ l, ("List", PVal.labels l) ∈ r.params ∧ OneKind l)

/-- The parameters a data rule needs. -/
def RuleParams (r : Rule) : Prop :=
  (r.kind ≠ .explicit → r.params ≠ none) ∧
  (r.kind = .linear → ∀ p, r.params = some p → p.length = 2 ∧ NumberAt p "delta" ∧
    NumberAt p "start") ∧
  (r.kind = .constant → ∀ p, r.params = some p → p = [])

/-- What post scaling needs. -/
def ScalingParams (s : Scaling) : Prop :=
  (Real s.input ∨ s.input = .invalid) ∧
  (s.linear = true → s.params.length = 2 ∧ NumberAt s.params "scale" ∧ NumberAt s.params "offset")

/-- The parts of a descriptor are as their constructors demand. -/
def Parts (b : Base) : Prop :=
  (∀ d ∈ b.dims, DimParams d.rule) ∧ (∀ r, b.rule = some r → RuleParams r) ∧
    ∀ s, b.scaling = some s → ScalingParams s

/-- Dictionaries have distinct keys. -/
def Distinct (p : Params) : Prop := (p.map (·.1)).Nodup

/-- All dictionaries of the parts of a descriptor are dictionaries. -/
def Dicts (b : Base) : Prop :=
  (∀ d ∈ b.dims, Distinct d.rule.params) ∧
  (∀ r p, b.rule = some r → r.params = some p → Distinct p) ∧
  ∀ s, b.scaling = some s → Distinct s.params

mutual
/-- In the whole tree. -/
def AllDicts : Tree → Prop
  | .mk b fs => Dicts b ∧ AllDictsF fs
/-- In all fields. -/
def AllDictsF : Trees → Prop
  | .nil => True
  | .cons t ts => AllDicts t ∧ AllDictsF ts
end

/-- A record: named, of type struct, explicit, and nothing of what belongs to single values. -/
def Record (b : Base) : Prop :=
  b.sampleType = .struct ∧ (∃ r, b.rule = some r ∧ r.kind = .explicit) ∧ b.unit = none ∧
    b.scaling = none ∧ b.valueRange = none ∧ b.resolution = none ∧ b.origin = some "" ∧
    ∃ n, b.name = some n ∧ n ≠ ""

/-- What scaled values need: the sample type is that of the scaled values, both ends are known
types, the values come explicitly, one at a time, and have neither resolution nor origin. -/
def Scaled (b : Base) (s : Scaling) : Prop :=
  ((s.output = .float32 ∧ b.sampleType = .float32) ∨
    (s.output = .float64 ∧ b.sampleType = .float64)) ∧
  Real s.input ∧ (∃ r, b.rule = some r ∧ r.kind = .explicit) ∧ b.resolution = none ∧
  b.origin = some "" ∧ b.dims = [] ∧ b.refInfo = none

/-- What plain values need. -/
def Plain (b : Base) : Prop :=
  ∃ r, b.rule = some r ∧
    (∀ s, b.scaling = some s → Scaled b s) ∧
    (r.kind = .linear ∨ r.kind = .constant → Real b.sampleType ∨ b.sampleType = .rangeInt64) ∧
    (∀ i, b.refInfo = some i → r.kind ≠ .constant ∧
      ∀ o, i.offset = some o → o ≠ 0 → Real b.sampleType ∨ b.sampleType = .invalid)

mutual
/-- What can be built. -/
def Buildable : Tree → Prop
  | .mk b fs => BuildableF fs ∧ Parts b ∧ (∀ d ∈ b.dims, d.rule.kind ≠ .other) ∧
    (match fs with
      | .nil => Plain b
      | .cons _ _ => Record b)
/-- All fields can be built. -/
def BuildableF : Trees → Prop
  | .nil => True
  | .cons t ts => Buildable t ∧ BuildableF ts
end

/-- A dimension with this many labels, written down as such. -/
def Labels (d : Dim) (n : Nat) : Prop :=
  ((d.rule.kind = .linear ∨ d.rule.kind = .logarithmic) ∧
    ("size", PVal.leaf (.int n)) ∈ d.rule.params) ∨
  (d.rule.kind = .list ∧ ∃ l, ("List", PVal.labels l) ∈ d.rule.params ∧ l.length = n)

/-- The number of elements of a sample: the product of the sizes of the dimensions. -/
inductive Elements : List Dim → Nat → Prop
  | nil : Elements [] 1
  | cons {d ds n m} (h : Labels d n) (hs : Elements ds m) : Elements (d :: ds) (n * m)

/-- No dimension is empty. -/
inductive NonEmpty : List Dim → Prop
  | nil : NonEmpty []
  | cons {d ds n} (h : Labels d n) (hn : 0 < n) (hs : NonEmpty ds) : NonEmpty (d :: ds)

mutual
/-- How many bytes a sample fills, after scaling and before (as it travels; nothing travels if a
rule computes the values). -/
inductive Fills : Tree → Nat → Nat → Prop
  | plain {b e n k} (hb : Bytes b.sampleType e) (hn : Elements b.dims n) (hp : NonEmpty b.dims)
      (hk : (∃ r, b.rule = some r ∧ r.kind ≠ .explicit ∧ k = 0) ∨
        (∃ r, b.rule = some r ∧ r.kind = .explicit ∧
          ((b.scaling = none ∧ k = e) ∨ ∃ s, b.scaling = some s ∧ Bytes s.input k))) :
      Fills (.mk b .nil) (e * n) (k * n)
  | record {b t ts e k n} (hf : FillsF (.cons t ts) e k) (hn : Elements b.dims n)
      (hp : NonEmpty b.dims) : Fills (.mk b (.cons t ts)) (e * n) (k * n)
/-- The bytes of all fields, one after the other. -/
inductive FillsF : Trees → Nat → Nat → Prop
  | nil : FillsF .nil 0 0
  | cons {t ts e k e' k'} (h : Fills t e k) (hs : FillsF ts e' k') : FillsF (.cons t ts) (e + e') (k + k')
end

/-- What the documentation says about records: only the name and the dimensions are configured. -/
def OnlyNameAndDimensions (b : Base) : Prop :=
  b.sampleType = .struct ∧ b.unit = none ∧ b.valueRange = none ∧
    (∃ r, b.rule = some r ∧ r.kind = .explicit) ∧ b.scaling = none ∧ b.origin = some "" ∧
    b.resolution = none ∧ b.metadata = [] ∧ b.refInfo = none

mutual
/-- Everything that is always written is there: names, origins, rules and their parameters. -/
def Complete : Tree → Prop
  | .mk b fs => b.name ≠ none ∧ b.origin ≠ none ∧ (∀ d ∈ b.dims, d.name ≠ none) ∧
    (∃ r, b.rule = some r ∧ r.params ≠ none) ∧ CompleteF fs
/-- In all fields. -/
def CompleteF : Trees → Prop
  | .nil => True
  | .cons t ts => Complete t ∧ CompleteF ts
end

mutual
/-- How deep records are nested. -/
def levels : Tree → Nat
  | .mk _ fs => levelsF fs + 1
/-- How deep the fields are. -/
def levelsF : Trees → Nat
  | .nil => 0
  | .cons t ts => max (levels t) (levelsF ts)
end

/-! ## Descriptors in memory -/

/-- The object at the address is frozen. -/
def Frozen (h : Heap) (a : Addr) : Prop := ∃ c, h[a]? = some c ∧ c.frozen = true

/-- A dictionary of parameters is frozen, and so are the lists in it. -/
def FrozenParams (h : Heap) (a : Addr) : Prop :=
  ∃ p, h[a]? = some ⟨true, .params p⟩ ∧ ∀ k b, (k, HVal.ref b) ∈ p → Frozen h b

/-- Everything a descriptor is made of is frozen. -/
inductive Fixed (h : Heap) : HDescr → Prop
  | mk {d : HDescr} {ds m fs}
      (hd : h[d.dims]? = some ⟨true, .dims ds⟩) (hds : ∀ x ∈ ds, FrozenParams h x.rule.params)
      (hm : h[d.metadata]? = some ⟨true, .metadata m⟩)
      (hr : ∀ r a, d.rule = some r → r.params = some a → FrozenParams h a)
      (hs : ∀ s, d.scaling = some s → FrozenParams h s.params)
      (hf : h[d.fields]? = some ⟨true, .fields fs⟩) (hfs : ∀ x ∈ fs, Fixed h x) : Fixed h d

end Verif.Descr.Spec
