import Verif.Refs.Model

/-!
# What reference properties, and adding and removing properties, mean

Stated with what can be observed of an object: which definition stands under a name, and which value is stored.
-/

namespace Verif.Refs.Spec

open Verif.Refs

variable {V : Type}

/-- The definition that stands under a name (`getProperty`). -/
def prop (decl : Nat → Decl V) (w : World V) (o : Nat) (n : Name) : Option (Decl V) :=
  (((w.objs.get o).getD {}).props.get n).map decl

/-- The value that was stored for a name. -/
def stored (w : World V) (o : Nat) (n : Name) : Option V := ((w.objs.get o).getD {}).values.get n

/-- The alternative of a `switch` that belongs to a value: the first case with this value, otherwise the last alternative. -/
inductive Selects (v : V) : List (V × Name) → Option Name → Name → Prop where
  | first (m : Name) (cs : List (V × Name)) (other : Option Name) : Selects v ((v, m) :: cs) other m
  | later (k : V) (m m' : Name) (cs : List (V × Name)) (other : Option Name) :
      k ≠ v → Selects v cs other m' → Selects v ((k, m) :: cs) other m'
  | other (m : Name) : Selects v [] (some m) m

mutual
/-- `n` stands for the plain property `m`. -/
inductive Leads (decl : Nat → Decl V) (w : World V) (o : Nat) : Name → Name → Prop where
  | plain (n : Name) (p : Decl V) : prop decl w o n = some p → p.ref = none → Leads decl w o n n
  | to (n m k : Name) (p : Decl V) : prop decl w o n = some p → p.ref = some (.to m) → Leads decl w o m k →
      Leads decl w o n k
  | switch (n c m k : Name) (p : Decl V) (v : V) (cs : List (V × Name)) (other : Option Name) :
      prop decl w o n = some p → p.ref = some (.switch c cs other) → Reads decl w o c v → Selects v cs other m →
      (∀ e ∈ cs, (prop decl w o e.2).isSome) → (∀ e, other = some e → (prop decl w o e).isSome) →
      Leads decl w o m k → Leads decl w o n k

/-- Reading `n` gives `v`: the value stored for the property it stands for, or the default value of that. -/
inductive Reads (decl : Nat → Decl V) (w : World V) (o : Nat) : Name → V → Prop where
  | stored (n m : Name) (v : V) : Leads decl w o n m → stored w o m = some v → Reads decl w o n v
  | dflt (n m : Name) (p : Decl V) : Leads decl w o n m → stored w o m = none → prop decl w o m = some p →
      Reads decl w o n p.dflt
end

/-- Names an expression uses in any way. -/
def mentions : Ref V → List Name
  | .to m => [m]
  | .switch c cs other => c :: (cs.map (·.2) ++ other.toList)

/-- Names after `%` in an expression. -/
def targets : Ref V → List Name
  | .to m => [m]
  | .switch _ cs other => cs.map (·.2) ++ other.toList

/-- A property handed to `addProperty` is not mentioned by itself, nor by a property the object has already: references are
added after everything they mention. -/
def Orderly [DecidableEq V] (decl : Nat → Decl V) (d : Nat) (past : List (Op V)) : Op V → Prop
  | .add o p => (∀ r, (decl p).ref = some r → (decl p).name ∉ mentions r) ∧
      ∀ n q r, prop decl (run decl d {} past) o n = some q → q.ref = some r → (decl p).name ∉ mentions r
  | _ => True

/-- No property is added under the name of one that was removed. -/
def NoReuse (decl : Nat → Decl V) (past : List (Op V)) : Op V → Prop
  | .add o p => .remove o (decl p).name ∉ past
  | _ => True

/-- Every operation of a sequence fulfils a condition on the calls before it. -/
inductive Always (good : List (Op V) → Op V → Prop) : List (Op V) → Prop where
  | nil : Always good []
  | snoc (ops : List (Op V)) (op : Op V) : Always good ops → good ops op → Always good (ops ++ [op])

/-- At most one property of an object refers to an existing one. -/
def OneReference (decl : Nat → Decl V) (w : World V) (o : Nat) : Prop :=
  ∀ m, (prop decl w o m).isSome → ∀ n₁ n₂ q₁ q₂ r₁ r₂, prop decl w o n₁ = some q₁ → prop decl w o n₂ = some q₂ →
    q₁.ref = some r₁ → q₂.ref = some r₂ → m ∈ targets r₁ → m ∈ targets r₂ → n₁ = n₂

/-- The object a call is made on. -/
def on : Op V → Nat
  | .add o _ => o
  | .remove o _ => o
  | .listen o _ _ => o
  | .set o _ _ => o
  | .clear o _ => o

/-- Whether a call succeeded. -/
def succeeded {α : Type} : Out α → Bool
  | .ok _ => true
  | _ => false

/-- The calls of a sequence that succeeded, in order. -/
def done [DecidableEq V] (decl : Nat → Decl V) (d : Nat) : World V → List (Op V) → List (Op V)
  | _, [] => []
  | w, op :: ops =>
    let l := done decl d (step decl d w op).1 ops
    if succeeded (step decl d w op).2 then op :: l else l

/-- The handlers registered for a property by a list of calls, in order. -/
def registered (o : Nat) (n : Name) : List (Op V) → List Nat
  | [] => []
  | .listen o' n' h :: l => if o' = o ∧ n' = n then h :: registered o n l else registered o n l
  | _ :: l => registered o n l

end Verif.Refs.Spec
