import Verif.Timer.Spec

/-! # A timer in use -/

namespace Verif.Timer

/-- The thread begins and comes to its first wait. -/
def up : List Op := [.start, .born, .check, .sleep]

/-- Two calls that take 300 ms. -/
def calls : List Op := up ++ [.tick 1100000000, .wake, .check, .sleep, .timeout, .tick 300000000, .finish,
  .check, .sleep, .tick 1000000000, .timeout, .tick 300000000, .finish]

/-- The client stops the timer after the thread looked whether it should end, and before it waits. -/
def late : List Op := [.start, .born, .check, .stop, .notify, .sleep, .tick 1000000000, .timeout, .finish, .check,
  .join]

end Verif.Timer
