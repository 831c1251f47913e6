import Verif.Defs.Model

/-!
# Definitions used in examples
-/

namespace Verif.Defs

/-- An Int with limits, a unit and suggested values. -/
def demoInt : Def :=
  { name := some "a"
    valueType := .int
    dflt := some (.atom (.int 3))
    min := some (.int 0)
    max := some (.int 9)
    unit := some 1
    suggested := some [.int 1, .int 2] }

/-- A selection by key. -/
def demoSparse : Def :=
  { name := some "a"
    valueType := .int
    dflt := some (.atom (.int 3))
    selection := some (.plain (.dict .int .string [(.int 3, .other .string 1), (.int 8, .other .string 2)])) }

def demoNames : Val := .list .string [.other .string 1, .other .string 2]

/-- A selection by index. -/
def demoIndex : Def :=
  { name := some "a"
    valueType := .int
    dflt := some (.atom (.int 1))
    selection := some (.plain demoNames) }

/-- A selection by index whose values are given by an expression. -/
def demoEval : Def :=
  { name := some "a"
    valueType := .int
    dflt := some (.atom (.int 1))
    selection := some (.eval 5) }

/-- A dictionary and a list whose defaults are empty and say nothing about their items. -/
def demoDict : Def :=
  { name := some "a"
    valueType := .dict
    dflt := some (.dict .undefined .undefined []) }

def demoList : Def :=
  { name := some "a"
    valueType := .list
    dflt := some (.list .undefined []) }

/-- A list of numbers. -/
def demoFloats : Def :=
  { name := some "a"
    valueType := .list
    dflt := some (.list .undefined [.float 1]) }

/-- A conversion that always fails. -/
def noConv : CT → Val → Option Val := fun _ _ => none

/-- An owner that knows no expressions. -/
def noEval : Nat → Option Val := fun _ => none

end Verif.Defs
