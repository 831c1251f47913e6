import Verif.Loading.Model

/-! # Examples of devices and documents -/

namespace Verif.Loading.Demo

/-- A device to connect to. -/
def fresh (conn : String) (sub : Forest (Dev Nat) := .nil) : Dev Nat × Forest (Dev Nat) :=
  ({ conf := 0, info := { man := "m", ser := conn, conn := "t://" ++ conn } }, sub)

/-- Devices that can be connected to: the local id is that of the connection string. -/
def make (conn : String) : Option (String × Dev Nat × Forest (Dev Nat)) :=
  if conn = "t://a" then some ("a", fresh "a")
  else if conn = "t://b" then some ("b", fresh "b")
  else if conn = "t://c" then some ("c", fresh "c")
  else none

/-- A connected device. -/
def dev (n : Nat) (conn : String) (fixed : Bool := false) : Dev Nat :=
  { conf := n, info := { man := "m", ser := conn, conn := "t://" ++ conn }, fixed }

/-- A saved device. -/
def saved (n : Nat) (conn : String) : Saved Nat := { conf := n, info := { conn := "t://" ++ conn } }

/-- Two devices and a fixed one. -/
def devs : Forest (Dev Nat) :=
  .cons "a" (dev 1 "a") .nil (.cons "b" (dev 2 "b") .nil (.cons "f" (dev 3 "f" true) .nil .nil))

/-- A configuration of `a`, `b` and `c`. -/
def docs : Forest (Saved Nat) :=
  .cons "a" (saved 11 "a") .nil (.cons "b" (saved 12 "b") .nil (.cons "c" (saved 13 "c") .nil .nil))

/-- All are loaded. -/
def plain : Ctx Nat := { make }

/-- `a` is to be removed, `b` is skipped. -/
def modes : Ctx Nat := { make, opts := [("a", { mode := .remove }), ("b", { mode := .skip })], removeUnused := true }

/-- `a` and `b` are to be swapped. -/
def swap : Ctx Nat :=
  { make, opts := [("a", { mode := .remap, new := { conn := "t://b" } }), ("b", { mode := .remap, new := { conn := "t://a" } })] }

/-- The configurations of devices by local id. -/
def confs : Forest (Dev Nat) → List (String × Nat)
  | .nil => []
  | .cons id d _ rest => (id, d.conf) :: confs rest

example : confs (load plain docs true devs []).1 = [("a", 11), ("b", 12), ("f", 3), ("c", 13)] := by decide +kernel
example : confs (load modes docs true devs []).1 = [("b", 2), ("f", 3), ("c", 13)] := by decide +kernel
example : confs (load swap docs true devs []).1 = [("f", 3), ("a", 12), ("c", 13)] := by decide +kernel
example : remapId [("a", "b")] "/r/Dev/a/Sig/a".toList = "/r/Dev/b/Sig/b".toList := by decide +kernel

end Verif.Loading.Demo
