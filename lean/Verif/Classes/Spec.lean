import Verif.Classes.Model
/-
What users rely on about property object classes.
-/
namespace Verif.Classes.Spec
open Verif.Types (Name Mgr Op)

/-- A class and its ancestors, the nearest first. -/
inductive Chain (m : CMgr) : Cls → List Cls → Prop where
  | root (c : Cls) : c.parent = none → Chain m c [c]
  | step (c d : Cls) (q : Name) (l : List Cls) : c.parent = some q → c.managed = true →
      m.types.lookup q = some (.cls d) → Chain m d l → Chain m c (c :: l)

/-- The property that a list of classes has under a name: that of the first class that has
one. -/
def nearest : List Cls → Name → Option Property
  | [], _ => none
  | c :: l, n => match c.props.find? (fun p => p.name = n) with
    | some p => some p
    | none => nearest l n

/-- The names of the properties of a class are different. -/
def Tidy (c : Cls) : Prop := (c.props.map (·.name)).Nodup

/-- The first occurrences. -/
def firsts : List Name → List Name
  | [] => []
  | n :: l => n :: (firsts l).filter (· ≠ n)

/-- The names of the properties of a class and its ancestors in the documented order: the
inherited ones, then those of the class; with a custom order the ordered ones first. -/
def listed : List Cls → List Name
  | [] => []
  | c :: l =>
    let all := firsts (listed l ++ c.props.map (·.name))
    (firsts c.order).filter (fun n => n ∈ all) ++ all.filter (fun n => n ∉ c.order)

/-- A call that the documentation of the type manager allows: a class is added after its
parent, and a type is not removed while a class has it as its parent. -/
def Allowed (m : CMgr) : Op Entry → Prop
  | .add (.cls c) _ => ∀ q, c.parent = some q → c.managed = true ∧ ∃ d, m.types.lookup q = some (.cls d)
  | .add (.other _ _) _ => True
  | .remove n _ => ∀ k c, (k, Entry.cls c) ∈ m.types → c.parent ≠ some n
  | .callback _ => True

/-- All calls of a history are allowed. -/
def AllAllowed : CMgr → List (Op Entry) → Prop
  | _, [] => True
  | m, o :: l => Allowed m o ∧ AllAllowed (m.step Entry.name o).1 l

/-- The properties of a builder that accepts every new name: the last history of each name
counts. -/
def kept : List Property → List BOp → List Property
  | a, [] => a
  | a, .add p :: l => kept (if p.name ∈ a.map (·.name) then a else a ++ [p]) l
  | a, .remove n :: l => kept (a.filter (fun p => p.name ≠ n)) l
  | a, _ :: l => kept a l

/-- The last name, parent and order that were set. -/
def lastName : Name → List BOp → Name
  | a, [] => a
  | _, .setName n :: l => lastName n l
  | a, _ :: l => lastName a l

def lastParent : Option Name → List BOp → Option Name
  | a, [] => a
  | _, .setParent q :: l => lastParent q l
  | a, _ :: l => lastParent a l

def lastOrder : List Name → List BOp → List Name
  | a, [] => a
  | _, .setOrder q :: l => lastOrder q l
  | a, _ :: l => lastOrder a l

/-- Two reference properties refer to a common property. -/
def Clash (p q : Property) : Prop := ∃ a b n, p.refs = some a ∧ q.refs = some b ∧ n ∈ a ∧ n ∈ b

/-- What is read back for a type: the same type; for a class one of the same name, parent and
properties, these in the order in which the class lists them. -/
def Copy : Entry → Entry → Prop
  | .cls c, .cls d => d.name = c.name ∧ d.parent = c.parent ∧ d.managed = true ∧
      d.props.map (·.name) = (firsts c.order).filter (fun n => n ∈ c.props.map (·.name)) ++
        (c.props.map (·.name)).filter (fun n => n ∉ c.order) ∧ ∀ p, p ∈ d.props ↔ p ∈ c.props
  | .other n k, .other n' k' => n' = n ∧ k' = k
  | _, _ => False

end Verif.Classes.Spec
