import Verif.Descr.Spec

/-!
# Concrete descriptors for the examples
-/

namespace Verif.Descr.Demo

open Verif.Descr

/-- An explicit rule as the builder makes it. -/
def explicitRule : Rule := ⟨.explicit, some []⟩

/-- A plain descriptor of the type. -/
def plain (t : SampleType) (ds : List Dim := []) : Base :=
  { name := some "v", sampleType := t, unit := none, valueRange := none, rule := some explicitRule
    scaling := none, origin := some "", resolution := none, dims := ds, metadata := [], refInfo := none }

/-- A linear dimension of the size. -/
def linearDim (n : Int) : Dim :=
  ⟨some "d", none, .linear, [("delta", .leaf (.int 2)), ("start", .leaf (.int 0)), ("size", .leaf (.int n))]⟩

/-- A dimension with listed labels. -/
def listDim (l : List Leaf) : Dim := ⟨some "l", none, .list, [("List", .labels l)]⟩

/-- A matrix of 3 by 2 doubles. -/
def matrix : Tree := .mk (plain .float64 [linearDim 3, listDim [.str "x", .str "y"]]) .nil

/-- The clock of a domain. -/
def clock : Tree :=
  .mk { plain .int64 with
    unit := some 1, resolution := some 1000, origin := some "1970"
    rule := some ⟨.linear, some [("delta", .leaf (.int 10)), ("start", .leaf (.int 0))]⟩
    refInfo := some ⟨some "dom", some 5, 2, 1⟩ } .nil

/-- Scaled values. -/
def scaled : Tree :=
  .mk { plain .float32 with
    scaling := some ⟨.int16, .float32, true, [("scale", .leaf (.flt 0 1)), ("offset", .leaf (.int 3))]⟩
    metadata := [("k", "v")] } .nil

/-- A record of a matrix and a clock. -/
def rec2 : Tree :=
  .mk { plain .struct [linearDim 4] with name := some "r" } (.cons matrix (.cons scaled .nil))

/-- Two dimensions of 2^32 elements. -/
def huge : Tree := .mk (plain .uint8 [linearDim (2 ^ 32), linearDim (2 ^ 32)]) .nil

/-- A dimension without labels. -/
def empty : Tree := .mk (plain .float64 [listDim []]) .nil

/-- A record with a reference domain and metadata. -/
def recRef : Tree :=
  .mk { plain .struct with name := some "r", refInfo := some ⟨some "dom", some 5, 0, 0⟩, metadata := [("a", "b")] }
    (.cons matrix .nil)

/-- Floating point values with an offset of their reference domain. -/
def fltRef : Tree :=
  .mk { plain .float64 with refInfo := some ⟨some "dom", some 5, 0, 0⟩ } .nil

/-- A descriptor without a name. -/
def unnamed : Tree := .mk { plain .int32 with name := none } .nil

/-- A descriptor whose explicit rule has no parameters. -/
def noParams : Tree := .mk { plain .int32 with rule := some ⟨.explicit, none⟩ } .nil

/-! ## In memory -/

/-- A memory: parameters of the explicit rule, of a linear dimension, of scaling, labels, the
parameters holding them; dimensions, metadata and fields of a builder. -/
def heap : Heap :=
  [⟨true, .params []⟩,
   ⟨true, .params [("delta", .leaf (.int 2)), ("start", .leaf (.int 0)), ("size", .leaf (.int 3))]⟩,
   ⟨false, .params [("scale", .leaf (.int 2)), ("offset", .leaf (.int 0))]⟩,
   ⟨false, .labels [.str "x", .str "y"]⟩,
   ⟨true, .params [("List", .ref 3)]⟩,
   ⟨false, .dims []⟩,
   ⟨false, .metadata [("k", "v")]⟩,
   ⟨false, .fields []⟩]

/-- A builder for single values of the type. -/
def bld (t : SampleType) : HDescr :=
  { name := some "v", sampleType := t, unit := none, valueRange := none, rule := some ⟨.explicit, some 0⟩
    scaling := none, origin := some "", resolution := none, dims := 5, metadata := 6, fields := 7
    refInfo := none, sizes := ⟨0, 0⟩ }

/-- The memory with the dimensions given. -/
def heapDims (l : List HDim) : Heap := heap.set 5 ⟨false, .dims l⟩

/-- A linear dimension in memory. -/
def hLinear : HDim := ⟨some "d", none, .linear, 1⟩

/-- A dimension with labels in memory. -/
def hList : HDim := ⟨some "l", none, .list, 4⟩

/-- A memory where everything a descriptor uses is frozen but the lists of the builder, which has
one field. -/
def heapRec : Heap :=
  [⟨true, .params []⟩,
   ⟨true, .params [("delta", .leaf (.int 2)), ("start", .leaf (.int 0)), ("size", .leaf (.int 3))]⟩,
   ⟨true, .dims []⟩, ⟨true, .metadata []⟩, ⟨true, .fields []⟩,
   ⟨false, .dims [⟨some "d", none, .linear, 1⟩]⟩, ⟨false, .metadata [("k", "v")]⟩,
   ⟨false, .fields [{ name := some "f", sampleType := .int16, unit := none, valueRange := none
                      rule := some ⟨.explicit, some 0⟩, scaling := none, origin := some ""
                      resolution := none, dims := 2, metadata := 3, fields := 4, refInfo := none
                      sizes := ⟨2, 2⟩ }]⟩]

/-- The builder of the record. -/
def bldRec : HDescr := { bld .struct with name := some "r" }

end Verif.Descr.Demo
