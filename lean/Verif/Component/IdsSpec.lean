import Verif.Component.IdsModel

/-! # Specification of component ids: paths of local ids -/

namespace Verif.Component

/-- A local id contains no `/`. -/
def Plain (s : Str) : Prop := '/' ∉ s

/-- The global id of a path of local ids: every local id preceded by a `/`. -/
def absolute : List Str → Str
  | [] => []
  | a :: p => '/' :: (a ++ absolute p)

/-- The relative id of a path: the local ids separated by `/`. -/
def relative : List Str → Str
  | [] => []
  | [a] => a
  | a :: b :: p => a ++ '/' :: relative (b :: p)

end Verif.Component
