import Verif.Component.StatusModel

/-! # Specification of tags and statuses -/

namespace Verif.Component.Tags

/-- Tags as a mathematical set. -/
def after (M : Str → Prop) : List Op → (Str → Prop)
  | [] => M
  | .add n :: ops => after (fun x => x = n ∨ M x) ops
  | .remove n :: ops => after (fun x => x ≠ n ∧ M x) ops
  | .replace l :: ops => after (fun x => x ∈ l) ops

def exec (ops : List Op) : Tags × List (Op × Res × Option Tags) := runTrace step [] ops

/-- A client that is sent the events of a history. -/
def replay (client : Tags) (tr : List (Op × Res × Option Tags)) : Tags :=
  tr.foldl (fun c e => clientEvent c e.2.2) client

end Verif.Component.Tags

namespace Verif.Component.Status

def exec (ops : List Op) : Box × List (Op × Res × Option Params) := runTrace step {} ops

/-- What a user sees of a status: value and message. -/
def view (b : Box) (n : Str) : Option (Enu × Str) :=
  match getStatus b n, getMessage b n with
  | some v, some m => some (v, m)
  | _, _ => none

/-- A client that is sent the events of a history. -/
def replay (client : Box) (tr : List (Op × Res × Option Params)) : Box :=
  tr.foldl (fun c e => match e.2.2 with | none => c | some ps => clientEvent c ps) client

/-- The call does not concern a status called "Message". -/
def NotMessage : Op → Prop
  | .add n _ _ => n ≠ "Message".toList
  | .addPlain n _ => n ≠ "Message".toList
  | .set n _ _ => n ≠ "Message".toList
  | .setPlain n _ => n ≠ "Message".toList

end Verif.Component.Status
