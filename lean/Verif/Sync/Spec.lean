import Verif.Sync.Model

/-!
# What a user of a synchronisation component relies on

Interfaces are thought of by name: there is a list of them, and one of them is the source. Nothing
here is about positions but the index handed in by the user.
-/

namespace Verif.Sync.Spec

open Verif.Sync (Name Ty Code Op)

/-- The interfaces and the one selected. -/
structure Abs where
  all : List Name
  source : Option Name

/-- A class called `c` is derived from the base class, at any depth: classes lead from it to one
whose parent is the base class. -/
inductive Derived (t : AList Name Ty) : Name → Prop
  | direct {c} : t.get c = some (.cls (some "SyncInterfaceBase")) → Derived t c
  | up {c p} : t.get c = some (.cls (some p)) → p ≠ "SyncInterfaceBase" → Derived t p → Derived t c

/-- The parents of a class, from the class on, never end and never reach the base class. -/
def Endless (t : AList Name Ty) (c : Name) : Prop :=
  ∃ f : Nat → Name, f 0 = c ∧ ∀ i, t.get (f i) = some (.cls (some (f (i + 1)))) ∧ f (i + 1) ≠ "SyncInterfaceBase"

/-- What is expected of an interface that is added: it comes last; it is selected when it is the
only one. -/
def Abs.added (a : Abs) (c : Name) : Abs := ⟨a.all ++ [c], a.source.orElse fun _ => some c⟩

/-- What is expected of an interface that is removed: the others stay, in order; the selected one
stays selected, and if it is the one removed then the first one left is. -/
def Abs.removed (a : Abs) (c : Name) : Abs :=
  ⟨a.all.filter (fun n => n ≠ c), if a.source = some c then (a.all.filter (fun n => n ≠ c)).head? else a.source⟩

/-- What is expected of a call, outside of updates. -/
inductive Step (t : Option (AList Name Ty)) (a : Abs) : Op → Abs → Code → Prop
  | noClass : Step t a (.add none) a .invalidArgument
  | base : Step t a (.add (some "SyncInterfaceBase")) a .invalidArgument
  | noTypes {c} : c ≠ "SyncInterfaceBase" → t = none → Step t a (.add (some c)) a .argumentNull
  | foreign {c t'} : c ≠ "SyncInterfaceBase" → t = some t' → ¬ Derived t' c → ¬ Endless t' c →
      Step t a (.add (some c)) a .invalidArgument
  | endless {c t'} : c ≠ "SyncInterfaceBase" → t = some t' → Endless t' c → Step t a (.add (some c)) a .never
  | twice {c t'} : c ≠ "SyncInterfaceBase" → t = some t' → Derived t' c → c ∈ a.all →
      Step t a (.add (some c)) a .alreadyExists
  | add {c t'} : c ≠ "SyncInterfaceBase" → t = some t' → Derived t' c → c ∉ a.all →
      Step t a (.add (some c)) (a.added c) .ok
  | unknown {c} : c ∉ a.all → Step t a (.remove c) a .notFound
  | remove {c} : c ∈ a.all → Step t a (.remove c) (a.removed c) .ok
  | select {i : Nat} {c} : a.all[i]? = some c → Step t a (.select i) ⟨a.all, some c⟩ .ok
  | outside {v : Int} : (v < 0 ∨ (a.all.length : Int) ≤ v) → Step t a (.select v) a .notFound
  | types {t'} : Step t a (.setTypes t') a .ok
  | notUpdating : Step t a .endUpdate a .invalidState

/-- The types after a call. -/
def typesAfter (t : Option (AList Name Ty)) : Op → Option (AList Name Ty)
  | .setTypes t' => t'
  | _ => t

/-- What is expected of a sequence of calls. -/
inductive Run : Option (AList Name Ty) → Abs → List Op → Abs → List Code → Prop
  | nil {t a} : Run t a [] a []
  | cons {t a o a' c l b cs} : Step t a o a' c → Run (typesAfter t o) a' l b cs → Run t a (o :: l) b (c :: cs)

/-- The selected index is that of an interface, unless there is none. -/
def Sound (names : List Name) (src : Int) : Prop := names ≠ [] → 0 ≤ src ∧ src < names.length

end Verif.Sync.Spec
