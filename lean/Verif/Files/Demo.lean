import Verif.Files.Spec

/-! # A device with a log file -/

namespace Verif.Files

def dev : Device := ⟨true, ['l', '/', 'd'], some [1, 2, 3, 4, 5]⟩

/-- The client reads two bytes, the device writes, and so on. -/
def plan : List (List Nat × Int) := [([], 2), ([6, 7], 3), ([], 0), ([], -5), ([8], -1), ([], 4)]

def plain : Builder := { name := some ['n'], localPath := some ['p'], lastModified := some ['t'], size := 2 ^ 63 + 5 }

/-- An id, but no encoding. -/
def bare : Builder := { name := some ['n'], id := some ['i'], lastModified := some ['t'] }

end Verif.Files
