import Verif.MirrorEv.Model

/-! # What is expected of descriptor events -/

namespace Verif.MirrorEv.Spec

/-- The last descriptor of the values that the server announced for a signal. -/
def announced (v : Nat) : List Op → Option Desc
  | [] => none
  | o :: os =>
    match announced v os with
    | some x => some x
    | none => match o with
      | .event u e => if u = v then e.val else none
      | _ => none

/-- The last descriptor of the domain that the server announced for a signal. -/
def announcedDomain (v : Nat) : List Op → Option Desc
  | [] => none
  | o :: os =>
    match announcedDomain v os with
    | some x => some x
    | none => match o with
      | .event u e => if u = v then e.dom else none
      | _ => none

/-- At the beginning there are no connections. -/
def Fresh (w : W) : Prop := ∀ v, (w v).told = []

/-- `d` is the domain signal of `u`. -/
def DomainOf (w : W) (u d : Nat) : Prop := (w u).mirDomain = some d ∨ (w u).domain = some d

/-- The rules for signal `v`: the descriptors of a signal never go missing; another signal whose domain signal is `v` tells only
what `v` knows already; a connection does not change what a signal with connections knows. -/
def Rule (v : Nat) (w : W) : Op → Prop
  | .event u e => (u = v → e.val ≠ some none ∧ e.dom ≠ some none) ∧
      (u ≠ v → DomainOf w u v → ∀ y, e.dom = some (some y) → (w v).val = some y) ∧ (u = v → ¬ DomainOf w v v)
  | .connect u cv cd => (u = v → ((w v).told = [] ∨ (w v).val ≠ none) ∧ ¬ DomainOf w v v) ∧
      (u ≠ v → DomainOf w u v → (w u).val = none → (w u).dom = none → (w v).val = cd)
  | .disconnect _ _ => True

def Ruled (v : Nat) (w : W) : List Op → Prop
  | [] => True
  | o :: os => Rule v w o ∧ Ruled v (step w o) os

/-- Every connection of the signal knows what the server announced last. -/
def Informed (v : Nat) (os : List Op) (w : W) : Prop :=
  (∀ x, announced v os = some (some x) → ∀ t ∈ (w v).told, t.val = some x) ∧
  (∀ y, announcedDomain v os = some (some y) → ∀ t ∈ (w v).told, t.dom = some y)

end Verif.MirrorEv.Spec
