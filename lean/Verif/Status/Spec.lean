import Verif.Status.Model
/-!
# What users expect of connection statuses and streaming sources
-/
namespace Verif.Status.Spec

/-- What a listener knows who starts with nothing and applies what it is told: a status that is
removed is gone, any other value is that of the name. -/
def follow (known : Text → Option Val) : List Event → Text → Option Val
  | [] => known
  | e :: l =>
    follow (fun n => if e.name = some n then
      (if e.val.text = "Removed".toList then none else some e.val) else known n) l

/-- The same for messages. -/
def followMsg (known : Text → Option Text) : List Event → Text → Option Text
  | [] => known
  | e :: l => followMsg (fun n => if e.name = some n then e.msg else known n) l

/-- Nobody sets a status to "Removed". -/
def Plain : Op → Prop
  | .addConfig _ v | .addStreaming _ _ v _ | .update _ v _ _ => v.text ≠ "Removed".toList
  | .remove _ => True

/-- The connection that a call is about. -/
def about : Op → Text
  | .addConfig c _ | .addStreaming _ c _ _ | .remove c | .update c _ _ _ => c

/-- The streaming that a call is about. -/
def whose : Op → Option Nat
  | .addConfig _ _ | .remove _ => none
  | .addStreaming _ _ _ o | .update _ _ o _ => o

/-- A connection is listed with a value. -/
def Lists (s : Box) (conn : Text) (v : Val) : Prop :=
  ∃ n, AList.get s.names conn = some n ∧ s.getStatus n = some v

/-- The types of streaming that a connection string is of: those with the prefix before `://`. -/
def IsType (types : List (Text × Text)) (conn id : Text) : Prop :=
  ∃ p r, (id, p) ∈ types ∧ conn = p ++ "://".toList ++ r

/-- No prefix is the beginning of another. -/
def Apart (types : List (Text × Text)) : Prop :=
  ∀ a ∈ types, ∀ b ∈ types, a.2 <+: b.2 → a = b

/-- What happens to a device with the configuration connection `k`, when streamings are added without
interruption, no streaming has an empty connection string or that of the configuration, and all
statuses are of one type.  `known` are the streamings there are. -/
def Regular (known : Nat → Prop) (conn : Nat → Text) (k : Text) (t : Nat) : DOp → Prop
  | .config c v => c = k ∧ v.type = t
  | .configStatus c v _ => c = k ∧ v.type = t
  | .add _ o => known o ∧ conn o ≠ [] ∧ conn o ≠ k
  | .remove c => c ≠ k
  | .status _ v _ => v.type = t
  | .start _ _ => False
  | .finish _ => False

end Verif.Status.Spec
