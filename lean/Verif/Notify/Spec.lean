import Verif.Notify.Model

/-!
# What a client is told

Read off the observations: the events that reach the server, the versions that are agreed on, the external
signals of the client. Nothing of the server's state is used.
-/

namespace Verif.Notify.Spec

/-- A value that can be sent in full. -/
inductive Full : Val → Prop where
  | null : Full .null
  | plain : Full .plain
  | list {l : List Val} : (∀ v ∈ l, Full v) → Full (.list l)

/-- The parameters that are told: for events about components, property objects, properties and attributes
without the owner, with ids in place of components. -/
def told (e : Ev) : List (String × Val) :=
  match e.what with
  | .ended _ => [("SerializedComponent", .plain)]
  | .conn _ => e.pars
  | .other => e.pars
  | .ext _ false => e.pars
  | _ =>
    e.pars.filterMap (fun p =>
      if p.1 = "Owner" then none
      else if p.1 ∈ ["Component", "Signal", "DomainSignal", "RelatedSignals"] then some (p.1, .plain)
      else some p)

/-- A function or procedure. -/
def callable : Val → Bool
  | .call => true
  | _ => false

/-- A client with version `v` and external signals `own` is to be told of the event. Not told: events of its
own external signals, connection statuses of streaming, the entry of a connected client for versions
before 11, the effective active state (versions from 24 on; from 22 on if it comes from a parent: the client works
it out itself), an update whose result cannot be serialised, events with a callable parameter. -/
def wanted (v : Nat) (own : List String) (e : Ev) : Bool :=
  (match e.what with
   | .ext s _ => !own.contains s
   | .conn s => s == "ConfigurationStatus"
   | .added c => decide (11 ≤ v) || !c
   | .attr a => a != "Active" || decide (v ≤ 21) || (decide (v ≤ 23) && (e.pars.map (·.1)).contains "LocalActive")
   | .ended b => b
   | .moved => true
   | .other => true) && (told e).all (fun p => !callable p.2)

/-- The version and the client's external signals after an observation. -/
def after (c : Nat × List String) : Obs → Nat × List String
  | .upgraded v _ => (v, c.2)
  | .mine s => (c.1, c.2 ++ [s])
  | .mineGone s => (c.1, c.2.filter (· ≠ s))
  | _ => c

/-- What the client is to be told because of an observation. -/
def owed (c : Nat × List String) : Obs → List Item
  | .heard n e => if wanted c.1 c.2 e then [⟨n, e.src, e.what, told e⟩] else []
  | _ => []

/-- What the client is to be told, in order. -/
def due (c : Nat × List String) : List Obs → List Item
  | [] => []
  | o :: l => owed c o ++ due (after c o) l

/-- What the client is told, in order. -/
def got : List Obs → List Item
  | [] => []
  | .note l :: r => l ++ got r
  | _ :: r => got r

/-- Every parameter of every event is callable or can be sent in full. -/
def Clean (tr : List Obs) : Prop :=
  ∀ o ∈ tr, match o with
    | .heard _ e => ∀ p ∈ told e, callable p.2 = true ∨ Full p.2
    | _ => True

/-- No external signal of the client was refused. -/
def Accepted (tr : List Obs) : Prop := ∀ o ∈ tr, match o with
  | .refused _ => False
  | _ => True

/-- What goes to the transport. -/
def packets : List Obs → List Obs
  | [] => []
  | .note l :: r => .note l :: packets r
  | .replied n :: r => .replied n :: packets r
  | _ :: r => packets r

/-- Steps without a change of the version. -/
def Settled (ops : List Op) : Prop := ∀ op ∈ ops, match op with
  | .upgrade _ => False
  | _ => True

/-- The version that is to be used: the highest that both know. -/
def Best (a b : List Nat) (v : Nat) : Prop := v ∈ a ∧ v ∈ b ∧ ∀ w ∈ a, w ∈ b → w ≤ v

end Verif.Notify.Spec
