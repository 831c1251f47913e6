import Verif.Sessions.Model

/-!
# What is said about sessions

Read off the list of sessions and the history only: none of the counters or helpers of the server is used.
-/

namespace Verif.Sessions.Spec

/-- A history in which every session announces itself before it uses the server. -/
def orderly (used : List Nat) : List Op → Bool
  | [] => true
  | .announce sid _ :: l => decide (sid ∉ used) && orderly used l
  | .config sid :: l => orderly (sid :: used) l
  | .init sid :: l => orderly (sid :: used) l
  | _ :: l => orderly used l

/-- A history in which no session uses both the configuration and streaming. -/
def single (cfg stm : List Nat) : List Op → Bool
  | [] => true
  | .config sid :: l => decide (sid ∉ stm) && single (sid :: cfg) stm l
  | .init sid :: l => decide (sid ∉ cfg) && single cfg (sid :: stm) l
  | _ :: l => single cfg stm l

/-- A history in which no client takes an id that the server assigns. -/
def ownIds : List Op → Bool
  | [] => true
  | .announce _ p :: l =>
    (match p.id with
     | some (.assigned _, _) => false
     | _ => true) && ownIds l
  | _ :: l => ownIds l

/-- The sessions with a configuration connection. -/
def on (l : List Sess) : List Sess := l.filter (·.config)

/-- Those that may change something. -/
def steering (l : List Sess) : List Sess := (on l).filter (fun s => decide (s.kind ≠ .viewOnly))

/-- Whoever has exclusive control is the only one who may change something. -/
def Exclusive (l : List Sess) : Prop :=
  ∀ s ∈ steering l, s.kind = .exclusive → ∀ t ∈ steering l, t.sid = s.sid

/-- What is decided about the first configuration packet of a session. -/
inductive Verdict where
  | full
  | refused
  | granted (closed : List Nat)
deriving DecidableEq, Repr

/-- The decision about session `s` with the sessions `l`. -/
def verdict (max : Nat) (l : List Sess) (s : Sess) : Verdict :=
  if max ≠ 0 ∧ max ≤ (on l).length then .full
  else
    match s.kind with
    | .viewOnly => .granted []
    | .control => if ∃ t ∈ on l, t.kind = .exclusive then .refused else .granted []
    | .exclusive =>
      if steering l = [] then .granted []
      else if s.drop = true ∧ s.reconnected = false then .granted ((steering l).map (·.sid))
      else .refused

/-- The sessions after `s` was granted a configuration connection and `closed` were closed. -/
def after (l : List Sess) (s : Sess) (closed : List Nat) : List Sess :=
  (l.filter (fun x => decide (x.sid ∉ closed))).map
    (fun x => if x.sid = s.sid then { s with config := true, serves := some s.kind } else x)

/-- How a session shows in the list of connected clients: what it uses and its host. -/
def entry (s : Sess) : Option Kind × Nat := (if s.config then some s.kind else none, s.host)

/-- The sessions that use the server. -/
def users (st : St) : List Sess := st.sess.filter (fun s => s.config || decide (s.cid ∈ st.streams.map (·.cid)))

/-- What the list of connected clients shows. -/
def shown (st : St) : List (Option Kind × Nat) := st.info.map (fun x => (x.2.service, x.2.host))

end Verif.Sessions.Spec
