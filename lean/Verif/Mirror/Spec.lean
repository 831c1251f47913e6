import Verif.Mirror.Model

/-!
# What is expected of streaming sources and mirrored signals

The statements talk about the messages exchanged with the server, the connections of the signals,
their domain signals, their lists of sources and their active source.
-/

namespace Verif.Mirror.Spec
open Verif.Component (Str)

/-- The server offers this id: the last thing it said about it. -/
def offered : List Msg → Str → Bool
  | [], _ => false
  | .offered b :: l, a => a == b || offered l a
  | .withdrawn b :: l, a => !(a == b) && offered l a
  | .reset :: _, _ => false
  | _ :: l, a => offered l a

/-- The server sends the data of this id: it was asked to and was not asked to stop since, and it
offers the id all the time since. -/
def served : List Msg → Str → Bool
  | [], _ => false
  | .subscribe b :: l, a => a == b || served l a
  | .unsubscribe b :: l, a => !(a == b) && served l a
  | .withdrawn b :: l, a => !(a == b) && served l a
  | .reset :: _, _ => false
  | _ :: l, a => served l a

/-- Every request makes sense: the client asks only for what is offered and not sent already, and
asks to stop only what is being sent. -/
def Sensible : List Msg → Prop
  | [] => True
  | .subscribe a :: l => offered l a = true ∧ served l a = false ∧ Sensible l
  | .unsubscribe a :: l => served l a = true ∧ Sensible l
  | _ :: l => Sensible l

/-- The first text ends with the second. -/
def Ends (text ending : Str) : Prop := ∃ before, text = before ++ ending

/-- The signal is in use through this source: it is connected, not switched off, and the source is
its active one. -/
def InUse (w : W) (t v : Nat) : Prop :=
  v < w.n ∧ (w.sig v).removed = false ∧ 0 < (w.sig v).conns ∧ (w.sig v).streamed = true ∧ (w.sig v).active = some t

/-- The domain signal of a signal, if it has one that was not removed. -/
def Domain (w : W) (v d : Nat) : Prop := (w.sig v).domain = some d ∧ (w.sig d).removed = false

/-- The source is needed for the data of signal `s`: it is in use itself, or it is the domain signal
of one in use (unless the protocol cares for domain signals itself). -/
def Needed (w : W) (t s : Nat) : Prop :=
  InUse w t s ∨ ((w.src t).skipDomain = false ∧ ∃ v, InUse w t v ∧ Domain w v s)

/-- The server of every source sends exactly what is offered and needed, and was never asked for
anything else. -/
def RightlyServed (w : W) : Prop :=
  ∀ t, (w.src t).alive = true →
    Sensible (w.src t).log ∧
    ∀ a, served (w.src t).log a = true ↔
      offered (w.src t).log a = true ∧ ∃ s, s < w.n ∧ Ends (w.sig s).remote a ∧ Needed w t s

/-! ## Rules -/

/-- The ids can be told apart. `P` are the ids that servers offer. -/
structure Distinct (w : W) (P : Str → Prop) : Prop where
  /-- at most one id is meant for a signal -/
  one : ∀ s a b, s < w.n → P a → P b → Ends (w.sig s).remote a → Ends (w.sig s).remote b → a = b
  /-- an id is meant for at most one signal -/
  only : ∀ s s' a, s < w.n → s' < w.n → P a → Ends (w.sig s).remote a → Ends (w.sig s').remote a → s = s'
  /-- no id is an ending of another one -/
  ends : ∀ a b, P a → P b → Ends a b → a = b
  /-- remote ids differ -/
  remote : ∀ s s', s < w.n → s' < w.n → (w.sig s).remote = (w.sig s').remote → s = s'

/-- A client at the beginning: nothing was added, connected or offered. -/
structure Fresh (w : W) : Prop where
  sig : ∀ v, (w.sig v).sources = [] ∧ (w.sig v).active = none ∧ (w.sig v).listened = false ∧ (w.sig v).conns = 0 ∧
    (w.sig v).removed = false
  src : ∀ t, (w.src t).items = [] ∧ (w.src t).avail = [] ∧ (w.src t).deny = [] ∧ (w.src t).log = []
  domain : ∀ v d, v < w.n → (w.sig v).domain = some d → d < w.n ∧ d ≠ v

/-- The domain signal of the signal was added to the source. -/
def DomainIn (w : W) (t v : Nat) : Prop :=
  (w.src t).skipDomain = true ∨ ∀ d, Domain w v d → t ∈ (w.sig d).sources

/-- No signal in use through the source has this domain signal. -/
def FreeDomain (w : W) (t d : Nat) : Prop := ∀ v, InUse w t v → ¬ Domain w v d

/-- The rules: ids that servers offer are in `P`; requests do not fail; a signal is used through a source only if
its domain signal was added to that source; the domain signal of a signal in use is neither replaced nor
taken away; removed signals are not added. -/
def Rule (P : Str → Prop) (w : W) : Op → Prop
  | .addSignals _ vs => ∀ v ∈ vs, v < w.n ∧ (w.sig v).removed = false
  | .removeSignals t vs => ∀ v ∈ vs, v < w.n ∧ FreeDomain w t v
  | .setActive v t => v < w.n ∧ DomainIn w t v
  | .deactivate v => v < w.n
  | .setStreamed v _ => v < w.n ∧ ∀ t, (w.sig v).active = some t → DomainIn w t v
  | .connect v => v < w.n ∧ (w.sig v).removed = false ∧ ∀ t, (w.sig v).active = some t → DomainIn w t v
  | .disconnect v => v < w.n
  | .setDomain v d => v < w.n ∧ (∀ t, ¬ InUse w t v) ∧ ∀ x, d = some x → x < w.n ∧ x ≠ v
  | .remove v => v < w.n ∧ ∀ t, FreeDomain w t v
  | .offer _ a => P a
  | .deny _ l => l = []
  | _ => True

/-- A history that keeps the rules. -/
def Ruled (P : Str → Prop) (w : W) : List Op → Prop
  | [] => True
  | o :: os => Rule P w o ∧ Ruled P (step w o).1 os

/-! ## What calls do -/

/-- Two signals look the same to a user: id, domain signal, list of sources, active source, connections and switches. -/
def Alike (a b : Sig) : Prop := a = { b with listened := a.listened, got := a.got }

/-- The active source when source `t` is taken off the list of a signal: none if it was `t`, or if it is destroyed. -/
def without (w : W) (t : Nat) (a : Option Nat) : Option Nat := a.filter fun u => u ≠ t && (w.src u).alive

/-- The call is about this signal. -/
def About : Op → Nat → Prop
  | .addSignals _ vs, u | .removeSignals _ vs, u => u ∈ vs
  | .removeAll _, _ | .destroy _, _ => True
  | .setActive v _, u | .deactivate v, u | .setStreamed v _, u | .connect v, u | .disconnect v, u | .setDomain v _, u | .remove v, u => u = v
  | _, _ => False

end Verif.Mirror.Spec
