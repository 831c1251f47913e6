import Verif.Sync.Spec

/-! # A device with three interfaces to synchronise by -/

namespace Verif.Sync.Demo

open Verif.Sync

def types : AList Name Ty :=
  [("SyncInterfaceBase", .cls none), ("Ptp", .cls (some "SyncInterfaceBase")), ("Clock", .cls (some "SyncInterfaceBase")),
   ("Irig", .cls (some "Clock")), ("Dcf", .cls (some "Irig")), ("Point", .other), ("Plain", .cls none),
   ("Left", .cls (some "Right")), ("Right", .cls (some "Left"))]

def fresh : St := create (some types)

/-- Three interfaces, the last of them selected. -/
def three : List Op := [.add (some "Ptp"), .add (some "Clock"), .add (some "Irig"), .select 2]

def full : St := (run fresh three).1

/-- A fourth interface, the third selected. -/
def four : St := (run full [.add (some "Dcf"), .select 2]).1

/-- The first two interfaces are removed in an update. -/
def trim : List Op := [.beginUpdate, .remove "Ptp", .remove "Clock", .endUpdate]

end Verif.Sync.Demo
