/-!
# Events and their subscribers

Model of `EventImpl`, whose handlers may call the event again while they are called.

* `event` = `core/coretypes/src/event_impl.cpp`
* `eventh` = `core/coretypes/include/coretypes/event_impl.h`
* `deleg` = `core/coretypes/include/coretypes/delegate.hpp`
* `evh` = `core/coretypes/include/coretypes/event_handler_impl.h`

Every call takes a recursive mutex (event:15, 97, …), so calls of other threads come before or after; calls by a handler on
the same thread are let through. What a handler does with the event, and whether it fails, is a parameter. Not modelled:
null arguments, `getHashCode` that fails, `clone`, the sender and the arguments.
-/

namespace Verif.Event

/-- What a handler was made from: a callable object at an address (deleg:473-481), a function (deleg:489-491) or a method of an
object (deleg:500-539). -/
inductive Src where
  | callable (addr : Nat)
  | function (fn : Nat)
  | method (m obj : Nat)
  deriving DecidableEq, Repr

/-- The hash code of a handler (evh:49-58): `H` hashes two words (deleg:111-117). -/
def Src.hash (H : Nat → Nat → Nat) : Src → Nat
  | .callable a => H a 0
  | .function f => H f 0
  | .method m o => H m o

/-- Calls of an event. Handlers are numbered. -/
inductive Op where
  | addHandler (h : Nat)
  | removeHandler (h : Nat)
  | clear
  | trigger
  | mute
  | unmute
  | muteListener (h : Nat)
  | unmuteListener (h : Nat)
  | freeze
  deriving DecidableEq, Repr

/-- The handlers: the hash code, the calls a handler makes when it is called and whether it then fails. -/
structure Env where
  hash : Nat → Nat
  prog : Nat → List Op
  fails : Nat → Bool

/-- `Handler` (eventh:61-65). -/
structure Entry where
  id : Nat
  muted : Bool
  deriving DecidableEq, Repr

/-- What is in progress, the innermost first. -/
inductive Frame where
  /-- in the loop of `trigger`, before index `i` is compared with the size; `own` are the handlers this call has called -/
  | loop (i : Nat) (own : List Nat)
  /-- handler `h` is called and will still do `rest` -/
  | body (h : Nat) (rest : List Op)
  deriving DecidableEq, Repr

/-- `EventImpl` (eventh:99-101), the call in progress, and for each `trigger` that returned the handlers it called and whether
it succeeded. -/
structure St where
  handlers : List Entry := []
  muted : Bool := false
  frozen : Bool := false
  stack : List Frame := []
  done : List (List Nat × Bool) := []
  deriving DecidableEq, Repr

inductive Res where
  | ok
  | frozen
  | ignored
  deriving DecidableEq, Repr

/-- The first entry with the hash code: its index (event:40-45, 180-185). -/
def find (E : Env) (code : Nat) (l : List Entry) : Nat := l.findIdx (fun e => E.hash e.id == code)

/-- `setMuted` (event:171-191). -/
def setMuted (E : Env) (l : List Entry) (h : Nat) (m : Bool) : List Entry :=
  l.modify (find E (E.hash h) l) (fun e => { e with muted := m })

/-- Start a call; `trigger` is then continued by `step`. -/
def begin_ (E : Env) (s : St) : Op → St × Res
  /- event:11-24 -/
  | .addHandler h => if s.frozen then (s, .frozen) else ({ s with handlers := s.handlers ++ [⟨h, false⟩] }, .ok)
  /- event:26-53 -/
  | .removeHandler h =>
    if s.frozen then (s, .frozen) else ({ s with handlers := s.handlers.eraseIdx (find E (E.hash h) s.handlers) }, .ok)
  /- event:55-67 -/
  | .clear => if s.frozen then (s, .frozen) else ({ s with handlers := [] }, .ok)
  /- event:93-100 -/
  | .trigger => if s.muted then ({ s with done := s.done ++ [([], true)] }, .ok) else ({ s with stack := .loop 0 [] :: s.stack }, .ok)
  /- event:141-155 -/
  | .mute => ({ s with muted := true }, .ok)
  | .unmute => ({ s with muted := false }, .ok)
  /- event:157-169 -/
  | .muteListener h => ({ s with handlers := setMuted E s.handlers h true }, .ok)
  | .unmuteListener h => ({ s with handlers := setMuted E s.handlers h false }, .ok)
  /- event:116-125 -/
  | .freeze => if s.frozen then (s, .ignored) else ({ s with frozen := true }, .ok)

/-- One step of the call in progress (event:102-113). -/
def step (E : Env) (s : St) : St :=
  match s.stack with
  | [] => s
  | .loop i own :: fs =>
    match s.handlers[i]? with
    | none => { s with stack := fs, done := s.done ++ [(own, true)] }
    | some e =>
      if e.muted then { s with stack := .loop (i + 1) own :: fs }
      else { s with stack := .body e.id (E.prog e.id) :: .loop (i + 1) (own ++ [e.id]) :: fs }
  | .body h (op :: rest) :: fs => (begin_ E { s with stack := .body h rest :: fs } op).1
  | .body h [] :: fs =>
    if E.fails h then
      match fs with
      | .loop _ own :: fs' => { s with stack := fs', done := s.done ++ [(own, false)] }
      | _ => { s with stack := fs }
    else { s with stack := fs }

/-- A number of steps. -/
def steps (E : Env) (s : St) : Nat → St
  | 0 => s
  | k + 1 => steps E (step E s) k

/-- A handler is destroyed when neither the event nor anybody else (`owned`) refers to it. -/
def destroyed (owned : Nat → Bool) (s : St) (h : Nat) : Bool := !owned h && s.handlers.all (fun e => e.id != h)

/-- The handlers that are being called. -/
def running (s : St) : List Nat := s.stack.filterMap (fun f => match f with | .body h _ => some h | .loop _ _ => none)

end Verif.Event
