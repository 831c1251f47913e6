import Verif.Graph
import Verif.Common

/-!
# Model of signal connections and of the cyclic reference check

`cyc` = /repo/core/opendaq/signal/src/cyclic_ref_check.cpp
`port` = /repo/core/opendaq/signal/include/opendaq/input_port_impl.h
`sig` = /repo/core/opendaq/signal/include/opendaq/signal_impl.h

Function blocks, signals and input ports are numbered as they are created. A connection is known by its input port.
Simplifications: removed signals and ports, packets, events and locks are left out; a listener that is not a function
block (a reader, for example) is the same as none, because the check does not distinguish them; local and remote
connections are one list, as `getConnections` gives them.
-/

namespace Verif.Signal
open Verif.Graph

structure Net where
  blocks : Nat := 0
  signals : Nat := 0
  ports : Nat := 0
  /-- The signals of a function block (`getSignals` with `search::Any`). -/
  outs : Nat → List Nat := fun _ => []
  /-- `connections` and `remoteConnections` of a signal, as input ports (sig:649-664). -/
  conns : Nat → List Nat := fun _ => []
  /-- `listenerRef` of an input port, if it is a function block (port:502-519). -/
  listener : Nat → Option Nat := fun _ => none
  /-- `connectionRef` of an input port, as its signal. -/
  conn : Nat → Option Nat := fun _ => none

/-- A loop with a set of visited blocks that ends at the first hit. -/
def anyM {α : Type} (f : List Nat → α → Bool × List Nat) : List Nat → List α → Bool × List Nat
  | V, [] => (false, V)
  | V, a :: l => match f V a with
    | (true, V') => (true, V')
    | (false, V') => anyM f V' l

/-- `checkCyclicReferenceRecursive` (cyc:16-63) for a listener that is a function block. The first argument bounds the
depth of the recursion. -/
def visit (net : Net) (target : Nat) : Nat → List Nat → Nat → Bool × List Nat
  | 0, V, _ => (false, V)
  | n + 1, V, b =>
    if V.contains b then (false, V)
    else anyM (fun V s =>
      if s == target then (true, V)
      else anyM (fun V p => match net.listener p with
        | none => (false, V)
        | some b' => visit net target n V b') V (net.conns s)) (b :: V) (net.outs b)

/-- `daqHasCyclicReferenceIfConnected` (cyc:65-86). There are as many nested calls as there are function blocks at most. -/
def hasCyclicReferenceIfConnected (net : Net) (s p : Nat) : Bool :=
  match net.listener p with
  | none => false
  | some b => (visit net s (net.blocks + 1) [] b).1

inductive Op where
  | newBlock
  /-- A new signal, of a function block or of something else. -/
  | newSignal (owner : Option Nat)
  | newPort (listener : Option Nat)
  /-- `connect`; `accepted` is what `connected` of the listener answers. -/
  | connect (p s : Nat) (accepted : Bool)
  | disconnect (p : Nat)
  | setListener (p : Nat) (l : Option Nat)
  deriving DecidableEq, Repr

inductive Out where
  | ok | cyclicReference | refused | noCall
  deriving DecidableEq, Repr

/-- `disconnectSignalInternal` (port:244-280) with `listenerDisconnected` (sig:996-1027). -/
def unlink (net : Net) (p : Nat) : Net :=
  match net.conn p with
  | none => net
  | some s => { net with conns := upd net.conns s ((net.conns s).filter (· ≠ p)), conn := upd net.conn p none }

/-- Setting `connectionRef` and `listenerConnectedInternal` (port:680, sig:866-909). -/
def link (net : Net) (p s : Nat) : Net :=
  { net with conns := upd net.conns s (net.conns s ++ [p]), conn := upd net.conn p (some s) }

/-- `connectInternal` (port:656-725). -/
def connect (net : Net) (p s : Nat) (accepted : Bool) : Net × Out :=
  if hasCyclicReferenceIfConnected net s p then (net, .cyclicReference)
  else if accepted then (link (unlink net p) p s, .ok)
  else (unlink net p, .refused)

/-- A function block, if given, must exist. -/
def known (net : Net) : Option Nat → Bool
  | none => true
  | some b => decide (b < net.blocks)

def newSignal (net : Net) : Option Nat → Net
  | none => { net with signals := net.signals + 1 }
  | some b => { net with signals := net.signals + 1, outs := upd net.outs b (net.outs b ++ [net.signals]) }

def newPort (net : Net) (l : Option Nat) : Net :=
  { net with ports := net.ports + 1, listener := upd net.listener net.ports l }

def step (net : Net) : Op → Net × Out
  | .newBlock => ({ net with blocks := net.blocks + 1 }, .ok)
  | .newSignal o => if known net o then (newSignal net o, .ok) else (net, .noCall)
  | .newPort l => if known net l then (newPort net l, .ok) else (net, .noCall)
  | .connect p s a => if p < net.ports && s < net.signals then connect net p s a else (net, .noCall)
  | .disconnect p => if p < net.ports then (unlink net p, .ok) else (net, .noCall)
  | .setListener p l => if p < net.ports && known net l then ({ net with listener := upd net.listener p l }, .ok) else (net, .noCall)

def init : Net := {}

end Verif.Signal
