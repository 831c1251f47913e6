import Verif.Security.PermModel

/-! # Specification vocabulary for permissions

A permission object stands for the list of rules it was built from. What a user may do is decided by the last
rule, along the chain of owners, that mentions the group and the permission.
-/

namespace Verif.Security

/-- A rule given to the permission builder. -/
inductive Rule where
  | assign (g : Group) (m : Mask)
  | allow (g : Group) (m : Mask)
  | deny (g : Group) (m : Mask)
  deriving DecidableEq

/-- The rule is about permission bit `i` of group `g`; `assign` is about all of them. -/
def Rule.mentions (g : Group) (i : Nat) : Rule → Bool
  | .assign h _ => h == g
  | .allow h m => h == g && m.getLsbD i
  | .deny h m => h == g && m.getLsbD i

/-- The last rule about bit `i` of group `g`. -/
def lastRule (rs : List Rule) (g : Group) (i : Nat) : Option Rule := rs.reverse.find? (Rule.mentions g i)

/-- Bit `i` is granted to group `g`. -/
def granted (rs : List Rule) (g : Group) (i : Nat) : Bool :=
  match lastRule rs g i with
  | some (.allow _ _) => true
  | some (.assign _ m) => m.getLsbD i
  | _ => false

/-- Bit `i` is denied to group `g`. -/
def forbidden (rs : List Rule) (g : Group) (i : Nat) : Bool :=
  match lastRule rs g i with
  | some (.deny _ _) => true
  | _ => false

/-- The permission object was built from these rules. -/
inductive Means : Perms → List Rule → Prop
  | empty : Means {} []
  | inherit {p rs} (b : Bool) : Means p rs → Means (p.inherit b) rs
  | assign {p rs} (g : Group) (m : Mask) : Means p rs → Means (p.assign g m) (rs ++ [.assign g m])
  | allow {p rs} (g : Group) (m : Mask) : Means p rs → Means (p.allow g m) (rs ++ [.allow g m])
  | deny {p rs} (g : Group) (m : Mask) : Means p rs → Means (p.deny g m) (rs ++ [.deny g m])
  | extend {p q rs qs} : Means p rs → Means q qs → Means (p.extend q) (rs ++ qs)

/-- A user with these groups may do `perm` under these rules: no bit of it is denied to a group of the user, and
some bit is granted to a group of the user. -/
def Authorized (rs : List Rule) (groups : List Group) (perm : Mask) : Prop :=
  (∀ g ∈ groups, ∀ i, perm.getLsbD i = true → forbidden rs g i = false) ∧
  ∃ g ∈ groups, ∃ i, perm.getLsbD i = true ∧ granted rs g i = true

/-- The living objects, each with its owner and its own permissions. -/
abbrev World := AList Nat (Option Nat × Perms)

/-- This is a living object, or none. -/
def World.alive (w : World) : Option Nat → Bool
  | none => true
  | some p => AList.has w p

/-- What a call does to them. -/
def World.after (w : World) : Op → World
  | .create id p =>
    if AList.has w id || !w.alive p then w
    else AList.put w id (p, defaultPerms)
  | .setPermissions id p =>
    match AList.get w id with
    | none => w
    | some (o, _) => AList.put w id (o, p)
  | .setParent id p =>
    match AList.get w id with
    | none => w
    | some (_, own) => if w.alive p then AList.put w id (p, own) else w
  | .clone id new =>
    match AList.get w id with
    | none => w
    | some e => if AList.has w new then w else AList.put w new e
  | .destroy id => AList.del w id
  | .isAuthorized _ _ _ => w

def world (ops : List Op) : World := ops.foldl World.after []

def exec (ops : List Op) : St × List (Op × Out) := runTrace step init ops

/-- The owners have no cycle: every object can be given a rank above that of its owner. -/
def World.Forest (w : World) : Prop :=
  ∃ rank : Nat → Nat, ∀ id p own, AList.get w id = some (some p, own) → rank p < rank id

/-- Object `id` owns no other. -/
def World.Childless (w : World) (id : Nat) : Prop := ∀ c own, AList.get w c ≠ some (some id, own)

/-- Ownership never becomes cyclic, and owners outlive what they own. -/
def Orderly (ops : List Op) : Prop :=
  ∀ pre op post, ops = pre ++ op :: post → (world (pre ++ [op])).Forest ∧
    ∀ id, op = .destroy id → (world pre).Childless id

/-- The rules that apply to an object: those of its owner, if it inherits, and then its own. -/
inductive Applies (rules : Perms → List Rule) (w : World) : Nat → List Rule → Prop
  | root {id own} : AList.get w id = some (none, own) → Applies rules w id (rules own)
  | cut {id p own} : AList.get w id = some (some p, own) → own.inherited = false → Applies rules w id (rules own)
  | inherit {id p own rs} : AList.get w id = some (some p, own) → own.inherited = true →
      Applies rules w p rs → Applies rules w id (rs ++ rules own)

/-- The permission objects passed in a history. -/
def passed (ops : List Op) : List Perms := ops.filterMap fun
  | .setPermissions _ p => some p
  | _ => none

end Verif.Security
