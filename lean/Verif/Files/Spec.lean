import Verif.Files.Model

/-! # What a client expects of log files -/

namespace Verif.Files

/-- The bytes in the file of a device. -/
def Device.content (d : Device) : List Nat := d.file.getD []

/-- The part of a file that is asked for: -1 asks for all that remains. -/
def part (f : List Nat) (size offset : Int) : List Nat :=
  if size = -1 then f.drop offset.toNat else (f.drop offset.toNat).take size.toNat

end Verif.Files
