import Verif.Config.Model

/-! Devices for the examples and the counterexamples. -/

namespace Verif.Config.Demo

open Verif.Config

/-- A check that takes everything. -/
def any : Vals → Val → Option Val := fun _ v => some v

/-- A check that takes values up to ten. -/
def upTo10 : Vals → Val → Option Val := fun _ v => if v ≤ 10 then some v else none

/-- A check that takes values up to the value of the property `Max`. -/
def upToMax : Vals → Val → Option Val := fun env v =>
  match env.find? (fun x => x.1 = "Max") with
  | some m => if v ≤ m.2 then some v else none
  | none => some v

/-- The properties of a scaling function block. -/
def scalingProps (gain unit : Option Val) : Obj :=
  .val "Gain" 1 upTo10 gain (.sub "Output" false (.val "Unit" 0 any unit .nil) .nil)

/-- A scaling function block. -/
def scaling (i : String) (gain unit : Option Val) : Head :=
  { id := i, typ := "Scaling", props := scalingProps gain unit, ports := [⟨"in", {}⟩], sigs := [{ id := "out" }] }

/-- A built-in channel with an input port. -/
def channel : Head :=
  { id := "ch", typ := "Channel", ports := [⟨"trigger", {}⟩], sigs := [{ id := "ai" }] }

/-- Devices can add scaling function blocks. -/
def env : Env where
  avail outer typ :=
    if outer = "Device" ∧ typ = "Scaling" then some fun i _ => some (scaling i none none, .nil) else none
  accepts _ _ _ := true

/-- The device itself. -/
def root : Head := { id := "dev", typ := "Device", sigs := [{ id := "time" }, { id := "status" }] }

/-- A device as it comes. -/
def fresh : Dev := { root := root, kids := .cons channel .nil .nil }

/-- The device with two scaling function blocks in a row behind the channel. -/
def setup : Dev where
  root := { root with attrs := { name := "Bench" } }
  kids := .cons { channel with sigs := [{ id := "ai", pub := false }] } .nil
    (.cons { scaling "s1" (some 3) (some 7) with attrs := { active := false } } .nil
      (.cons (scaling "s2" none none) .nil .nil))
  conn := [((["dev", "s1"], "in"), (["dev", "ch"], "ai")), ((["dev", "s2"], "in"), (["dev", "s1"], "out"))]

/-- A device used otherwise: another scaling function block, and the name changed. -/
def used : Dev where
  root := { root with attrs := { name := "Old", desc := "x" } }
  kids := .cons channel .nil (.cons (scaling "s2" (some 9) none) .nil .nil)
  conn := [((["dev", "s2"], "in"), (["dev", "dev"], "time"))]

instance : DecidableEq Conns := inferInstanceAs (DecidableEq (List ((List String × String) × (List String × String))))

/-- What is left after a load: the local identifiers of the function blocks, the connections, and the outcome. -/
def outcome : Loaded → Option (List String × Conns × Bool)
  | .tooDeep => none
  | .done x ok => some (x.kids.list.map (·.1.id), x.conn, ok)

/-- The tree after a load, or the device as it comes. -/
def dev : Loaded → Dev
  | .tooDeep => fresh
  | .done x _ => x

/-- An object where the bound of a property comes after it. -/
def bounded (value max : Option Val) : Obj :=
  .val "Value" 1 upToMax value (.val "Max" 10 any max .nil)

/-- The saved setup with a gain that is too large. -/
def wrongGain : DDev :=
  { root := setup.save.root
    kids := match setup.save.kids with
      | .cons a k (.cons b k' r) => .cons a k (.cons { b with props := .val "Gain" 50 .nil } k' r)
      | x => x }

/-- The device with its channel triggered by one of its own signals. -/
def triggered (s : String) : Dev := { fresh with conn := [((["dev", "ch"], "trigger"), (["dev"], s))] }

/-- The device with an inactive and tagged channel input. -/
def marked : Dev :=
  { fresh with kids := .cons { channel with ports := [⟨"trigger", { active := false }⟩], tags := ["x"] } .nil .nil }

/-- A document in which two function blocks are each connected to the other. -/
def cyclic : DDev where
  root := { id := "dev", typ := "Device" }
  kids := .cons { id := "a", typ := "Scaling", ports := [⟨"in", {}, some (["dev", "b"], "out")⟩], sigs := [{ id := "out" }] } .nil
    (.cons { id := "b", typ := "Scaling", ports := [⟨"in", {}, some (["dev", "a"], "out")⟩], sigs := [{ id := "out" }] } .nil .nil)

/-- The function blocks after the first pass over it, for a device as it comes. -/
def cyclicKids : Fbs :=
  .cons channel .nil (.cons (scaling "a" none none) .nil (.cons (scaling "b" none none) .nil .nil))

/-- The context then. -/
def cyclicCtx : Ctx where
  conn := []
  pend := [((["dev", "a"], "in"), (["dev", "b"], "out")), ((["dev", "b"], "in"), (["dev", "a"], "out"))]
  deps := [((["dev", "a"], "out"), ["dev", "a"]), ((["dev", "b"], "out"), ["dev", "b"])]

/-- A document with a port the function block does not have. -/
def otherPort : DDev where
  root := { id := "dev", typ := "Device" }
  kids := .cons { id := "a", typ := "Scaling", ports := [⟨"trigger", {}, some (["dev"], "time")⟩] } .nil .nil

end Verif.Config.Demo
