import Verif.Journal.Spec

/-! # A logger in use -/

namespace Verif.Journal

/-- Debugging for `A`, a level that does not exist for `B`, errors for all others. -/
def env : Env := ⟨fun n => if n = ['A'] then some (some 1) else if n = ['B'] then some (some 9) else none,
  some (some 4), 2⟩

/-- Two components of two levels at two sinks; one is removed and made again. -/
def used : List Op :=
  [.getOrAdd ['a'], .setLevel 3, .add ['c'], .sinkLevel 1 4, .log 0 100 1, .log 1 101 3, .log 1 102 2,
   .flushOn 5, .log 0 103 4, .remove ['a'], .log 0 104 2, .getOrAdd ['a'], .compLevel 1 7]

end Verif.Journal
