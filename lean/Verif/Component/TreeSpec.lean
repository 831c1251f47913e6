import Verif.Component.IdsSpec
import Verif.Component.TreeModel

/-! # Specification of component trees -/

namespace Verif.Component

def exec (ops : List Op) : St × List (Op × Out) := runTrace step init ops

/-- Starting from `c`, following the local ids of the path from folder to item leads to `d`. -/
inductive Leads (s : St) : Nat → List Str → Nat → Prop
  | nil (c : Nat) : Leads s c [] c
  | cons (c i d : Nat) (k : Str) (p : List Str) (hi : (k, i) ∈ (s.comp c).items) (hp : Leads s i p d) : Leads s c (k :: p) d

/-- `c` is among the items of `f`. -/
def Holds (s : St) (f c : Nat) : Prop := ∃ k, (k, c) ∈ (s.comp f).items

/-- `d` is `c` or is below it, all on the way not yet removed. -/
inductive Below (s : St) (c : Nat) : Nat → Prop
  | start (h : (s.comp c).removed = false) : Below s c c
  | step (f d : Nat) (hf : Below s c f) (hd : Holds s f d) (h : (s.comp d).removed = false) : Below s c d

/-- A history of calls each of which meets `P` in the state in which it is made. -/
def Along (P : St → Op → Prop) (s : St) : List Op → Prop
  | [] => True
  | op :: ops => P s op ∧ Along P (step s op).1 ops

/-- Items are added to the folder that was given as their parent. -/
def OwnParent (s : St) : Op → Prop
  | .addItem f c => (s.comp c).parent = some f
  | _ => True

/-- Local ids contain no separator (as is checked when there is a logger). -/
def PlainIds (_ : St) : Op → Prop
  | .create _ l _ _ => Plain l
  | _ => True

/-- An item is added while it and the folder are not removed, and before the folder's active state differs from what
the item was created with. Components are removed through the folder that holds them. -/
def Prompt (s : St) : Op → Prop
  | .addItem f c => (s.comp c).parentActive = (s.comp f).active ∧ (s.comp c).removed = false ∧ (s.comp f).removed = false
  | .remove c => ∀ f, ¬ Holds s f c
  | _ => True

end Verif.Component
