import Verif.AList
import Verif.Common
import Verif.Component.IdsModel

/-!
# Model of tags and status containers, and of their copies at a client

`tags` = /repo/core/opendaq/component/include/opendaq/tags_impl.h
`stat` = /repo/core/opendaq/component/include/opendaq/component_status_container_impl.h
`cli` = /repo/shared/libraries/config_protocol/include/config_protocol/config_client_component_impl.h

Simplifications: the hash set of tags is a list without duplicates whose order means nothing; an enumeration value is its
type and its number; a core event reaches the client at once, as the parameters it was raised with (the transport is
modelled elsewhere); `query` of tags is not modelled. Null arguments are left out.
-/

namespace Verif.Component.Tags

/-- `std::unordered_set<std::string> tags` (tags:57). -/
abbrev Tags := List Str

inductive Op where
  | add (n : Str)
  | remove (n : Str)
  | replace (l : List Str)
  deriving DecidableEq, Repr

inductive Res where
  | success | ignored
  deriving DecidableEq, Repr

/-- `emplace` / `insert` (tags:97, 138). -/
def insert (t : Tags) (n : Str) : Tags := if t.contains n then t else t ++ [n]

/-- `add`, `remove`, `replace` (tags:88-149). The last component is the list in the event raised. -/
def step (t : Tags) : Op → Tags × Res × Option Tags
  | .add n => if t.contains n then (t, .ignored, none) else (insert t n, .success, some (insert t n))
  | .remove n => if t.contains n then (t.filter (· ≠ n), .success, some (t.filter (· ≠ n))) else (t, .ignored, none)
  | .replace l => (l.foldl insert [], .success, some (l.foldl insert []))

/-- `contains` (tags:151-159). -/
def contains (t : Tags) (n : Str) : Bool := t.contains n

/-- `equals` (tags:176-200) with another tags object. -/
def equals (t other : Tags) : Bool := other.length == t.length && other.all (fun n => t.contains n)

/-- `Deserialize` (tags:233-258): every tag of the list is added. -/
def deserialize (l : List Str) : Tags := l.foldl (fun t n => (step t (.add n)).1) []

/-- `tagsChanged` at the client (cli:394-401). -/
def clientEvent (client : Tags) : Option Tags → Tags
  | none => client
  | some l => (step client (.replace l)).1

end Verif.Component.Tags

namespace Verif.Component.Status

/-- An enumeration: its type and value. -/
structure Enu where
  ty : Nat
  val : Int
  deriving DecidableEq, Repr

/-- `statuses` and `messages` (stat:43-44). -/
structure Box where
  statuses : AList Str Enu := []
  messages : AList Str Str := []
  deriving DecidableEq, Repr

inductive Err where
  | invalidParameter | alreadyExists | notFound | invalidType
  deriving DecidableEq, Repr

inductive Res where
  | success | ignored
  | error (e : Err)
  deriving DecidableEq, Repr

/-- A parameter of a core event. -/
inductive Val where
  | enum (e : Enu)
  | text (s : Str)
  deriving DecidableEq, Repr

abbrev Params := AList Str Val

def messageKey : Str := ['M', 'e', 's', 's', 'a', 'g', 'e']

/-- `addStatusWithMessage` (stat:147-175). -/
def add (b : Box) (n : Str) (v : Enu) (m : Str) : Box × Res :=
  if n == [] then (b, .error .invalidParameter)
  else if b.statuses.has n then (b, .error .alreadyExists)
  else ({ statuses := b.statuses.put n v, messages := b.messages.put n m }, .success)

/-- The parameters of the event (stat:238-239): a dictionary filled from left to right. -/
def eventParams (n : Str) (v : Enu) (m : Str) : Params := AList.put (AList.put [] n (.enum v)) messageKey (.text m)

/-- `setStatusWithMessage` (stat:182-244). -/
def set (b : Box) (n : Str) (v : Enu) (m : Str) : Box × Res × Option Params :=
  if n == [] then (b, .error .invalidParameter, none)
  else match b.statuses.get n, b.messages.get n with
    | some old, some oldMessage =>
      if v.ty != old.ty then (b, .error .invalidType, none)
      else if v == old then
        if oldMessage == m then (b, .ignored, none)
        else ({ b with messages := b.messages.put n m }, .success, some (eventParams n v m))
      else if oldMessage != m then
        ({ statuses := b.statuses.put n v, messages := b.messages.put n m }, .success, some (eventParams n v m))
      else ({ b with statuses := b.statuses.put n v }, .success, some (eventParams n v m))
    | _, _ => (b, .error .notFound, none)

inductive Op where
  | add (n : Str) (v : Enu) (m : Str)
  | set (n : Str) (v : Enu) (m : Str)
  /-- `addStatus` and `setStatus` (stat:142-145, 177-180). -/
  | addPlain (n : Str) (v : Enu)
  | setPlain (n : Str) (v : Enu)
  deriving DecidableEq, Repr

def step (b : Box) : Op → Box × Res × Option Params
  | .add n v m => ((add b n v m).1, (add b n v m).2, none)
  | .addPlain n v => ((add b n v []).1, (add b n v []).2, none)
  | .set n v m => set b n v m
  | .setPlain n v => set b n v []

/-- `getStatus` (stat:62-75) and `getStatusMessage` (stat:97-107). -/
def getStatus (b : Box) (n : Str) : Option Enu := b.statuses.get n
def getMessage (b : Box) (n : Str) : Option Str := b.messages.get n

/-- `Deserialize` (stat:277-318) with messages: every status is added with its message. -/
def deserialize (b : Box) : Box :=
  b.statuses.foldl (fun r e => (add r e.1 e.2 ((b.messages.get e.1).getD [])).1) {}

/-- The loop in `statusChanged` at the client (cli:412-420); a failed call raises an exception, which ends it. -/
def clientLoop : Box → Str → Params → Box
  | b, _, [] => b
  | b, msg, (_, .text _) :: ps => clientLoop b msg ps
  | b, msg, (k, .enum v) :: ps =>
    match set b k v msg with
    | (b', .error _, _) => b'
    | (b', _, _) => clientLoop b' [] ps

/-- `statusChanged` at the client (cli:403-421). -/
def clientEvent (b : Box) (ps : Params) : Box :=
  clientLoop b (match ps.get messageKey with | some (.text m) => m | _ => []) ps

end Verif.Component.Status
