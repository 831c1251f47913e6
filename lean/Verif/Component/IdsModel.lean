/-!
# Component ids

Model of `core/opendaq/utility/include/opendaq/ids_parser.h` (abbreviated `ids`). Texts are lists of characters.
-/

namespace Verif.Component

abbrev Str := List Char

/-- `IdsParser::splitRelativeId` (ids:26-37): the text before and after the first `/`, if there is one. -/
def splitRelativeId : Str → Option (Str × Str)
  | [] => none
  | c :: s => if c == '/' then some ([], s) else (splitRelativeId s).map fun p => (c :: p.1, p.2)

/-- `IdsParser::isNestedComponentId` (ids:39-42): the text starts with the other one and a `/`. -/
def isNestedComponentId (ancestor descendant : Str) : Bool := (ancestor ++ ['/']).isPrefixOf descendant

/-- `IdsParser::idEndsWith` (ids:44-49). -/
def idEndsWith (text ending : Str) : Bool :=
  if ending.length > text.length then false else ending.reverse == text.reverse.take ending.length

end Verif.Component
