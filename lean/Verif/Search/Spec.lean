import Verif.Search.Model
import Mathlib.Logic.Relation

/-!
# What a search has to return

Written in terms of the tree only: which components a filter wants, which ones it lets a search
enter, and which components can be reached through entered ones.  Nothing here uses the search
functions of the model.
-/

namespace Verif.Search.Spec

open Verif.Search

/-- The components a filter wants, in words of the documentation. -/
def Wants : Filter → Info → Prop
  | .any, _ => True
  | .visible, i => i.visible = true
  | .required ts, i => ∀ t ∈ ts, t ∈ i.tags
  | .excluded ts, i => ∀ t ∈ ts, t ∉ i.tags
  | .intf x, i => i.kind.supports x = true
  | .localId n, i => i.localId = n
  | .or l r, i => Wants l i ∨ Wants r i
  | .and l r, i => Wants l i ∧ Wants r i
  | .not f, i => ¬ Wants f i
  | .custom a _, i => a i = true
  | .recursive f, i => Wants f i

/-- The components whose children a search may look at.  `notEnters` says what a negation does: the
documentation says that it does not negate the result of the inner filter. -/
def EntersWith (notEnters : Prop → Prop) : Filter → Info → Prop
  | .any, _ => True
  | .visible, i => i.visible = true
  | .required _, _ => True
  | .excluded _, _ => True
  | .intf _, _ => True
  | .localId _, _ => True
  | .or l r, i => EntersWith notEnters l i ∨ EntersWith notEnters r i
  | .and l r, i => EntersWith notEnters l i ∧ EntersWith notEnters r i
  | .not f, i => notEnters (EntersWith notEnters f i)
  | .custom _ none, _ => True
  | .custom _ (some v), i => v i = true
  | .recursive f, i => EntersWith notEnters f i

/-- As documented: a negation enters what the inner filter enters. -/
def DocEnters : Filter → Info → Prop := EntersWith fun p => p

/-- As implemented: a negation enters everything. -/
def Enters : Filter → Info → Prop := EntersWith fun _ => True

/-- No negation anywhere in the filter. -/
def NoNot : Filter → Bool
  | .not _ => false
  | .or l r => NoNot l && NoNot r
  | .and l r => NoNot l && NoNot r
  | .recursive f => NoNot f
  | _ => true

/-- `d` is below `c`, and every component strictly between them is a folder that may be entered. -/
inductive Under (v : Info → Prop) : Comp → Comp → Prop
  | child {c d : Comp} : d ∈ c.items → Under v c d
  | deeper {c e d : Comp} : e ∈ c.items → v e.info → e.info.kind.supports .folder = true →
      Under v e d → Under v c d

/-- `d` is `c` or somewhere below it. -/
inductive Inside : Comp → Comp → Prop
  | self {c : Comp} : Inside c c
  | step {c e d : Comp} : e ∈ c.items → Inside e d → Inside c d

/-- Global ids identify components of the tree. -/
def UniqueIds (c : Comp) : Prop :=
  ∀ a b, Inside c a → Inside c b → a.info.gid = b.info.gid → a = b

/-- `d` is an item of the default folder of `c` for `r`. -/
def Holds (r : Role) (c d : Comp) : Prop :=
  ∃ fo, c.items.find? (fun x => decide (x.info.role = some r)) = some fo ∧ d ∈ fo.items

/-- A channel in a list of items of an io folder, or in io folders below it that may be entered. -/
inductive IoChannel (v : Info → Prop) : List Comp → Comp → Prop
  | here {l : List Comp} {ch : Comp} : ch ∈ l → ch.info.kind = .channel → IoChannel v l ch
  | deeper {l : List Comp} {e ch : Comp} : e ∈ l → e.info.kind = .ioFolder → v e.info →
      IoChannel v e.items ch → IoChannel v l ch

/-- `ch` is a channel of the device `c`. -/
def HasChannel (v : Info → Prop) (c ch : Comp) : Prop :=
  ∃ fo, c.items.find? (fun x => decide (x.info.role = some .io)) = some fo ∧ IoChannel v fo.items ch

/-- One step from a function block or device to a function block it holds. -/
def FbStep (v : Info → Prop) (c e : Comp) : Prop := Holds .fb c e ∧ v e.info

/-- One step from a device to a device it holds. -/
def DevStep (v : Info → Prop) (c e : Comp) : Prop := Holds .dev c e ∧ v e.info

/-- One step from a device or function block to a function block, channel or device it holds. -/
def Step (v : Info → Prop) (c e : Comp) : Prop :=
  v e.info ∧ (Holds .fb c e ∨
    (c.info.kind = .device ∧ (Holds .dev c e ∨ HasChannel v c e)))

/-- The default folders hold what they are meant to hold. -/
def Fits : Role → Kind → Prop
  | .sig, k => k = .signal
  | .ip, k => k = .port
  | .fb, k => k = .fb ∨ k = .channel
  | .dev, k => k = .device
  | .io, _ => True

def Typed (c : Comp) : Prop :=
  ∀ n, Inside c n → ∀ r, n.info.role = some r → ∀ d ∈ n.items, Fits r d.info.kind

/-- No two components of a list have the same global id. -/
def EachOnce (l : List Comp) : Prop := (l.map fun c => c.info.gid).Nodup

mutual
/-- A component and everything below it. -/
def nodes : Comp → List Comp
  | .mk i cs => .mk i cs :: nodesOf cs

def nodesOf : List Comp → List Comp
  | [] => []
  | c :: cs => nodes c ++ nodesOf cs
end

/-- Every component of the tree has its own global id. -/
def DistinctIds (c : Comp) : Prop := EachOnce (nodes c)

instance (c : Comp) : Decidable (DistinctIds c) :=
  inferInstanceAs (Decidable ((nodes c).map fun c => c.info.gid).Nodup)

/-- No signal anywhere in a component. -/
def NoSignals (c : Comp) : Prop := ∀ d, Inside c d → d.info.kind ≠ .signal

/-- The components that own signals. -/
def Owner (k : Kind) : Prop := k = .device ∨ k = .fb ∨ k = .channel

/-- How devices, channels and function blocks are laid out: signals are in the folder for signals, function blocks in
the folder for function blocks, devices in the folder for devices, channels in io folders; whatever else there is
holds no signals. -/
structure TidyNode (n : Comp) : Prop where
  leaf : n.info.kind.supports .folder = false → n.items = []
  owner : Owner n.info.kind → ∀ e ∈ n.items, NoSignals e ∨ ∃ r, e.info.role = some r ∧
    n.items.find? (fun x => decide (x.info.role = some r)) = some e ∧
    (r = .sig ∨ r = .fb ∨ (n.info.kind = .device ∧ (r = .dev ∨ r = .io)))
  role : ∀ r, n.info.role = some r →
    n.info.kind = (if r = .io then .ioFolder else .folder) ∧ ∀ d ∈ n.items, Fits r d.info.kind
  io : n.info.kind = .ioFolder → ∀ e ∈ n.items,
    e.info.kind = .channel ∨ e.info.kind = .ioFolder ∨ NoSignals e

def Tidy (c : Comp) : Prop := ∀ n, Inside c n → TidyNode n

end Verif.Search.Spec
