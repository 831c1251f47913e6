import Mathlib.Data.List.Basic

/-!
# Logging

A logger has sinks and named components; messages are given to components and come out at sinks.  Which
messages `spdlog` lets through is modelled as its documentation says: those whose level is not below the
level of the component, and of the sink.  Messages come out at once; in the code they wait in a thread pool
that keeps their order.

* `lg` = `core/opendaq/logger/src/logger_impl.cpp`
* `lc` = `core/opendaq/logger/src/logger_component_impl.cpp`
* `ls` = `core/opendaq/logger/src/logger_sink_impl.cpp`
* `ll` = `core/opendaq/logger/include/opendaq/log_level.h`
-/

namespace Verif.Journal

abbrev Name := List Char

/-- The level that switches off (ll:28). -/
def off : Nat := 6

/-- The level that stands for the default (ll:29). -/
def dflt : Nat := 7

/-- The environment: variables that are not set, that are no number for `std::stoi`, or a number; and the
level the library was compiled with. The variable of a component depends on its name in upper case. -/
structure Env where
  own : Name → Option (Option Int)
  general : Option (Option Int)
  compiled : Nat

/-- The name in upper case (lc:141-147). -/
def upper (n : Name) : Name := n.map Char.toUpper

/-- A variable as a number, -1 if there is none (lc:148-159, lc:163-175). -/
def read : Option (Option Int) → Int
  | some (some n) => n
  | _ => -1

/-- `getDefaultLogLevel` (lc:139-181). -/
def defaultLevel (env : Env) (n : Name) : Nat :=
  let a := read (env.own (upper n))
  let b := if a < 0 then read env.general else a
  if b < 0 ∨ (off : Int) < b then env.compiled else b.toNat

/-- `getLogLevelFromParam` (lc:183-186). -/
def resolve (env : Env) (n : Name) (l : Nat) : Nat := if l = dflt then defaultLevel env n else l

/-- A component: its name, its level, and the level from which messages are flushed. -/
structure Comp where
  name : Name
  level : Nat
  flush : Nat
  deriving DecidableEq, Repr, Inhabited

/-- A message that came out: at which sink, from which component. -/
structure Entry where
  sink : Nat
  comp : Nat
  msg : Nat
  deriving DecidableEq, Repr

/-- The logger: all components ever made, also those removed, numbered in the order they were made; the
components by name; the levels of the sinks; and what came out. -/
structure State where
  level : Nat
  flush : Nat
  comps : List Comp
  named : List (Name × Nat)
  sinks : List Nat
  out : List Entry
  deriving DecidableEq, Repr

/-- A logger with sinks of the lowest level (lg:18-44). -/
def init (level sinks : Nat) : State := ⟨level, off, [], [], List.replicate sinks 0, []⟩

/-- What a call answers. -/
inductive Out
  | ok | invalid | exists | notFound
  | comp (i : Nat)
  | comps (l : List Nat)
  | level (l : Nat)
  | will (b : Bool)
  deriving DecidableEq, Repr

/-- The component of a name. -/
def lookup (n : Name) : List (Name × Nat) → Option Nat
  | [] => none
  | (m, i) :: l => if m = n then some i else lookup n l

/-- A component is made and entered (lg:89-91, lg:121-126). -/
def State.make (s : State) (env : Env) (n : Name) : State :=
  { s with comps := s.comps ++ [⟨n, resolve env n s.level, s.flush⟩],
           named := s.named ++ [(n, s.comps.length)] }

/-- `getOrAddComponent` (lg:63-102). -/
def State.getOrAdd (s : State) (env : Env) (n : Name) : State × Out :=
  if n = [] then (s, .invalid)
  else match lookup n s.named with
    | some i => (s, .comp i)
    | none => (s.make env n, .comp s.comps.length)

/-- `addComponent` (lg:104-139). The component that is made in vain is left out. -/
def State.add (s : State) (env : Env) (n : Name) : State × Out :=
  if n = [] then (s, .invalid)
  else match lookup n s.named with
    | some _ => (s, .exists)
    | none => (s.make env n, .comp s.comps.length)

/-- `removeComponent` (lg:141-160). The component itself lives on for those who have it. -/
def State.remove (s : State) (n : Name) : State × Out :=
  match lookup n s.named with
  | none => (s, .notFound)
  | some _ => ({ s with named := s.named.filter (fun x => x.1 ≠ n) }, .ok)

/-- `getComponent` (lg:183-208). -/
def State.get (s : State) (n : Name) : Out :=
  match lookup n s.named with
  | none => .notFound
  | some i => .comp i

/-- A component is changed. -/
def State.change (s : State) (i : Nat) (f : Comp → Comp) : State :=
  { s with comps := s.comps.mapIdx fun j c => if j = i then f c else c }

/-- `flushOnLevel` (lg:218-229). -/
def State.flushOn (s : State) (l : Nat) : State :=
  { s with flush := l,
           comps := s.comps.mapIdx fun j c => if j ∈ s.named.map Prod.snd then { c with flush := l } else c }

/-- Whether a component lets a level through (lc:111-120, as `spdlog::logger::should_log`). -/
def State.will (s : State) (i l : Nat) : Bool :=
  match s.comps[i]? with
  | none => false
  | some c => decide (c.level ≤ l)

/-- `logMessage` (lc:96-101): the message comes out at the sinks that let it through (ls:76-86). -/
def State.log (s : State) (i msg l : Nat) : State :=
  if s.will i l then
    { s with out := s.out ++ (List.range s.sinks.length).filterMap fun k =>
        if s.sinks.getD k 0 ≤ l then some ⟨k, i, msg⟩ else none }
  else s

/-- The calls of the client. -/
inductive Op
  | setLevel (l : Nat)
  | getLevel
  | getOrAdd (n : Name)
  | add (n : Name)
  | remove (n : Name)
  | get (n : Name)
  | all
  | flushOn (l : Nat)
  | compLevel (i l : Nat)
  | compFlush (i l : Nat)
  | askLevel (i : Nat)
  | should (i l : Nat)
  | log (i msg l : Nat)
  | sinkLevel (k l : Nat)
  deriving DecidableEq, Repr

/-- One call. `setLevel` and `getLevel` of the logger (lg:46-61), of a component (lc:79-94) and of a sink
(ls:57-62), `flushOnLevel` of a component (lc:128-132), `getComponents` (lg:162-181, in the order of the
table). -/
def State.step (env : Env) (s : State) : Op → State × Out
  | .setLevel l => ({ s with level := l }, .ok)
  | .getLevel => (s, .level s.level)
  | .getOrAdd n => s.getOrAdd env n
  | .add n => s.add env n
  | .remove n => s.remove n
  | .get n => (s, s.get n)
  | .all => (s, .comps (s.named.map Prod.snd))
  | .flushOn l => (s.flushOn l, .ok)
  | .compLevel i l => (s.change i (fun c => { c with level := resolve env c.name l }), .ok)
  | .compFlush i l => (s.change i (fun c => { c with flush := l }), .ok)
  | .askLevel i => (s, match s.comps[i]? with | none => .notFound | some c => .level c.level)
  | .should i l => (s, .will (s.will i l))
  | .log i m l => (s.log i m l, .ok)
  | .sinkLevel k l => ({ s with sinks := s.sinks.set k l }, .ok)

/-- Many calls. -/
def run (env : Env) : State → List Op → State
  | s, [] => s
  | s, op :: ops => run env (s.step env op).1 ops

end Verif.Journal
