import Verif.Nest.Model

/-!
# Objects used in examples

Values are natural numbers. Property 1 accepts anything, 2 only up to 9, 3 is read-only.
-/

namespace Verif.Nest

def any : Def Nat := { dflt := 0 }
def small : Def Nat := { dflt := 5, check := fun v => if v ≤ 9 then some v else none }
def locked : Def Nat := { dflt := 7, readOnly := true }

def leaf : Data Nat := { defs := [(1, any), (2, small)] }

/-- Object 10 with objects 20 and 30 inside; 20 contains 40. -/
def demo : Forest Nat :=
  .cons 10 leaf (.cons 20 leaf (.cons 40 leaf .nil .nil) (.cons 30 leaf .nil .nil)) .nil

end Verif.Nest
