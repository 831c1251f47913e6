import Verif.Remote.Model

/-!
# What users of the server and of the client can see, and which properties are well behaved

Nothing here uses the operations of the model; only its data types are used.
-/

namespace Verif.Remote.Spec
open Verif.Remote

/-- The function of a property: what becomes of a written value. -/
abbrev Fix := (Nat → Nat) → Nat → Option Nat

/-- A property object as a user sees it: names, definitions and values, whether or not a value is
stored. -/
inductive Seen where
  | nil
  | val (n dflt : Nat) (fix : Fix) (v : Nat) (rest : Seen)
  | obj (n : Nat) (o : Seen) (rest : Seen)

/-- The value a user reads. -/
def value (p : P) : Nat :=
  match p.val with
  | some v => v
  | none => p.dflt

/-- See `Seen`. -/
def seen : Obj → Seen
  | .nil => .nil
  | .val n p rest => .val n p.dflt p.fix (value p) (seen rest)
  | .obj n o rest => .obj n (seen o) (seen rest)

/-- A component as a user sees it. -/
structure SeenData where
  kind : Nat
  attr : Attr → Nat
  tags : List Nat
  stat : List (Nat × (Nat × Nat))
  obj : Seen

/-- A tree as a user sees it. -/
inductive SeenTree where
  | nil
  | cons (k : Nat) (d : SeenData) (items rest : SeenTree)

/-- See `SeenData`. -/
def seenData (d : Data) : SeenData := ⟨d.kind, d.attr, d.tags, d.stat, seen d.obj⟩

/-- See `SeenTree`. -/
def view : Forest → SeenTree
  | .nil => .nil
  | .cons k d i r => .cons k (seenData d) (view i) (view r)

/-- The result of a write does not depend on other properties and is accepted as it is. -/
def Firm (f : Fix) : Prop := ∀ e e' v w, f e v = some w → f e' w = some w

/-- The result of a write would be accepted as it is if it were written at the same moment. -/
def Stable (f : Fix) : Prop := ∀ e v w, f e v = some w → f e w = some w

/-- Names of the properties of an object. -/
def propNames : Obj → List Nat
  | .nil => []
  | .val n _ rest => n :: propNames rest
  | .obj n _ rest => n :: propNames rest

/-- Ids of the items. -/
def itemIds : Forest → List Nat
  | .nil => []
  | .cons k _ _ r => k :: itemIds r

/-- Every property is firm, every stored value is one the property accepts, and names are unique. -/
def GoodObj : Obj → Prop
  | .nil => True
  | .val n p rest =>
    Firm p.fix ∧ (∀ v, p.val = some v → ∀ e, p.fix e v = some v) ∧ n ∉ propNames rest ∧ GoodObj rest
  | .obj n o rest => GoodObj o ∧ n ∉ propNames rest ∧ GoodObj rest

/-- The same for all the components of a tree. -/
def Good : Forest → Prop
  | .nil => True
  | .cons k d i r => GoodObj d.obj ∧ Good i ∧ k ∉ itemIds r ∧ Good r

/-- Every property is stable. -/
def StableObj : Obj → Prop
  | .nil => True
  | .val _ p rest => Stable p.fix ∧ StableObj rest
  | .obj _ o rest => StableObj o ∧ StableObj rest

/-- The same for all the components of a tree. -/
def StableTree : Forest → Prop
  | .nil => True
  | .cons _ d i r => StableObj d.obj ∧ StableTree i ∧ StableTree r

/-- No component of the client has a locked active state. -/
def Free : Forest → Prop
  | .nil => True
  | .cons _ d i r => d.lock .active = false ∧ Free i ∧ Free r

/-- A change that the server makes outside of batches and updates, other than adding a status; what
it adds is well behaved. -/
def Plain : Op → Prop
  | .statAdd _ _ _ | .batch _ _ | .update _ => False
  | .propAdd _ _ (.val p) => Firm p.fix
  | .propAdd _ _ (.obj o) => GoodObj o
  | .itemAdd _ c => GoodObj c.1.obj ∧ Good c.2
  | _ => True

/-- A change of attributes, tags, statuses or values (by handlers that set no other property), or of
the set of value properties, or the removal of a component. -/
def Simple : Op → Prop
  | .statAdd _ _ _ | .batch _ _ | .update _ | .itemAdd _ _ | .propAdd _ _ (.obj _) => False
  | .propAdd _ _ (.val p) => Stable p.fix
  | .write _ a => a.side = []
  | _ => True

/-- The default value of every property of the object is one it accepts. -/
def DefaultsFit : Obj → Prop
  | .nil => True
  | .val _ p rest => (∀ e, p.fix e p.dflt = some p.dflt) ∧ DefaultsFit rest
  | .obj _ _ rest => DefaultsFit rest

/-- The component with that id. -/
def CompAt : Forest → List Nat → Data → Forest → Prop
  | .nil, _, _, _ => False
  | .cons k d i r, p, d', i' =>
    (p = [k] ∧ d' = d ∧ i' = i) ∨ (∃ p', p = k :: p' ∧ CompAt i p' d' i') ∨ CompAt r p d' i'

/-- The object at that path of a property object. -/
def ObjAt : Obj → List Nat → Obj → Prop
  | .nil, q, x => q = [] ∧ x = .nil
  | .val n p r, q, x => (q = [] ∧ x = .val n p r) ∨ (q ≠ [] ∧ ObjAt r q x)
  | .obj n o r, q, x =>
    (q = [] ∧ x = .obj n o r) ∨ (∃ q', q = n :: q' ∧ ObjAt o q' x) ∨ (q ≠ [] ∧ ObjAt r q x)

/-- The value properties of an object. -/
def valueProps : Obj → List (Nat × P)
  | .nil => []
  | .val n p r => (n, p) :: valueProps r
  | .obj _ _ r => valueProps r

/-- The property exists and accepts what is written, by the user or by a handler, whatever the other
properties are; the handlers set no other property. -/
def Accepted (o : Obj) (a : Act) : Prop :=
  a.side = [] ∧ ∃ p, (a.name, p) ∈ valueProps o ∧
    (∀ v, a.want = some v → ∀ e, p.fix e v ≠ none) ∧ (∀ v, a.repl = some v → ∀ e, p.fix e v ≠ none)

/-! ### Updates that keep what is there -/

/-- Properties with these names. -/
def having (l : List Nat) : Obj → Obj
  | .nil => .nil
  | .val n p rest => if n ∈ l then .val n p (having l rest) else having l rest
  | .obj n o rest => if n ∈ l then .obj n o (having l rest) else having l rest

/-- `near may s c`: the properties of `s` are those of `c`, in the same order and with the same
definitions but any values, followed (if `may`) by new ones; nested objects that both have may differ
by removed and new properties too. -/
def near (may : Prop) : Obj → Obj → Prop
  | .nil, .nil => True
  | .val n p s, .val m q c => n = m ∧ p.dflt = q.dflt ∧ p.fix = q.fix ∧ near may s c
  | .obj n o s, .obj m x c => n = m ∧ near True o (having (propNames o) x) ∧ near may s c
  | .val _ _ s, .nil => may ∧ near may s .nil
  | .obj _ _ s, .nil => may ∧ near may s .nil
  | _, _ => False

/-- The component parts agree except for attributes and values, for statuses that are new in `s`, and
for properties that are removed or (if `may`) new in `s`. -/
def nearData (may : Prop) (s c : Data) : Prop :=
  s.kind = c.kind ∧ s.tags = c.tags ∧ (c.stat.map (·.1)) <+: (s.stat.map (·.1)) ∧
    (s.stat.map (·.1)).Nodup ∧ near may s.obj (having (propNames s.obj) c.obj)

/-- Items with these ids. -/
def itemsHaving (l : List Nat) : Forest → Forest
  | .nil => .nil
  | .cons k d i r => if k ∈ l then .cons k d i (itemsHaving l r) else itemsHaving l r

/-- The items of `s` are those of `c` (which may have got other attributes and values, and whose own
items are near in the same way), followed by new ones. -/
def nearItems : Forest → Forest → Prop
  | .nil, .nil => True
  | .cons k d i s, .cons m x y c =>
    k = m ∧ x.open_ = false ∧ nearData False d x ∧ nearItems i (itemsHaving (itemIds i) y) ∧
      nearItems s c
  | .cons _ _ _ s, .nil => nearItems s .nil
  | .nil, .cons _ _ _ _ => False

end Verif.Remote.Spec
