import Verif.Opts.Model

/-!
# Options used in examples
-/

namespace Verif.Opts

/-- A text. -/
abbrev t (s : String) : Text := s.toList

/-- Some of the options an instance builder starts with (bld:11-47). -/
def demo : Ents :=
  .cons (t "Scheduler") (.dict (.cons (t "WorkersNum") (.prim (.int 0)) (.cons (t "UseMainLoop") (.prim (.bool false)) .nil)))
    (.cons (t "RootDevice") (.dict (.cons (t "ConnectionString") (.prim (.str [])) .nil)) .nil)

/-- A document. -/
def doc : Ents :=
  .cons (t "Scheduler") (.dict (.cons (t "WorkersNum") (.prim (.str (t "two"))) (.cons (t "WorkersNum") (.prim (.int 4)) .nil)))
    (.cons (t "Modules") (.dict (.cons (t "Rate") (.prim (.float (.num (1 / 2)))) .nil)) .nil)

end Verif.Opts
