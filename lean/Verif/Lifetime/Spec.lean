import Verif.Lifetime.Model

/-! What the clients of an object can rely on, said without the counters. -/

namespace Verif.Lifetime.Spec

/-- A state some execution leads to, with any number of clients and calls, interleaved in any way. -/
def Reachable (s : St) : Prop := ∃ acts, run init acts = s

/-- The step shows `e` to the outside. -/
def Shows (s : St) (a : Act) (e : Ev) : Prop := ∃ evs, (step s a).log = s.log ++ evs ∧ e ∈ evs

/-- How often the destructor of the object ran. -/
def timesDestroyed (s : St) : Nat := s.log.count .destroyed

/-- How often the block with the counters was returned. -/
def timesFreed (s : St) : Nat := s.log.count .blockFreed

/-- All the clients have given back all their references, and all their calls have returned. -/
def AllReleased (s : St) : Prop := s.strongs = 0 ∧ s.calls = [] ∧ ∀ n ∈ s.weaks, n = 0

/-- All the memory is given back. -/
def AllFreed (s : St) : Prop :=
  s.mem.objAlive = false ∧ s.mem.rcAlive = false ∧ ∀ w ∈ s.mem.wobjs, w.st = .freed

end Verif.Lifetime.Spec
