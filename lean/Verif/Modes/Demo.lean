import Verif.Modes.Spec
/-!
# Trees to try things on
-/

namespace Verif.Modes.Demo

open Verif.Modes

/-- The device at the top. -/
def top : Kind := .device [.idle, .operation, .safe] .safe

/-- A sub-device that has fewer modes. -/
def sub : Kind := .device [.idle, .safe] .safe

/-- A device with a function block (number 4), a folder in it (5), and a sub-device (6) with a
sub-device (9) of its own.  The device has two folders (2 and 3) besides that of the sub-devices. -/
def build : List Op :=
  [.create [1] .plain 1 [], .add [1] 0, .create [0] sub 1 [], .add [0] 0, .create [0, 0, 0] top 0 [],
    .add [0, 0, 0] 0]

/-- As it is when the device became the root before. -/
def world : World := ((World.init top 2 []).step .asRoot).run build

/-- After the mode was set once. -/
def set : World := world.step (.set [] .operation)

/-- The same, with a function block that cannot idle. -/
def stubborn : World :=
  ((World.init top 2 []).step .asRoot).run
    [.create [1] .plain 0 [.idle], .add [1] 0, .create [2] .plain 0 [], .add [2] 0]

/-- A device in a folder that is not the one of the sub-devices. -/
def stray : World := ((World.init top 2 []).step .asRoot).run
  [.create [1] sub 0 [], .add [1] 0, .set [1, 0] .idle]

/-- A sub-device in which a function block was added before it was added itself. -/
def early : World := ((World.init top 2 []).step .asRoot).run
  [.create [0] sub 1 [], .create [0, 0, 1] .plain 0 [], .add [0, 0, 1] 0, .add [0] 0]

end Verif.Modes.Demo
