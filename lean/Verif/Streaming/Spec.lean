import Verif.Streaming.Model

/-!
# Specification of subscriptions and packet distribution

Everything is defined from the observable history (calls and what they returned), newest call first.
-/

namespace Verif.Streaming

/-- Calls with their results, newest first. -/
abbrev Hist := List (Op × Out)

/-- The client has requested streaming and was not disconnected since. -/
def registered (c : Nat) : Hist → Bool
  | [] => false
  | (.init c' _, .done) :: h => if c' = c then true else registered c h
  | (.unregisterClient c', _) :: h => if c' = c then false else registered c h
  | _ :: h => registered c h

/-- The numeric id of a signal that was registered and not removed since. -/
def number (s : Nat) : Hist → Option Nat
  | [] => none
  | (.registerSignal s', .num n) :: h => if s' = s then some n else number s h
  | (.removeSignal s', .bool _) :: h => if s' = s then none else number s h
  | _ :: h => number s h

/-- The client has subscribed the signal and neither unsubscribed it nor was disconnected since, and
the signal was not removed. -/
def subscribed (s c : Nat) : Hist → Bool
  | [] => false
  | (.subscribe s' c', .bool _) :: h => if s' = s ∧ c' = c then true else subscribed s c h
  | (.unsubscribe s' c', .bool _) :: h => if s' = s ∧ c' = c then false else subscribed s c h
  | (.unregisterClient c', _) :: h =>
    if c' = c ∧ registered c h = true then false else subscribed s c h
  | (.removeSignal s', .bool _) :: h => if s' = s then false else subscribed s c h
  | _ :: h => subscribed s c h

/-- The most recent value and domain descriptor published for the signal since it was registered. -/
def descriptors (s : Nat) : Hist → Option Nat × Option Nat
  | [] => (none, none)
  | (.registerSignal s', .num _) :: h => if s' = s then (none, none) else descriptors s h
  | (.send s' (.desc v d), _) :: h =>
    if s' = s ∧ number s h ≠ none then
      (if v.isSome then v else (descriptors s h).1, if d.isSome then d else (descriptors s h).2)
    else descriptors s h
  | _ :: h => descriptors s h

/-- Nobody subscribes the signal. -/
def Idle (s : Nat) (h : Hist) : Prop := ∀ c, subscribed s c h = false

/-- Nobody but possibly `c` subscribes the signal. -/
def IdleBut (s c : Nat) (h : Hist) : Prop := ∀ c', c' ≠ c → subscribed s c' h = false

/-- Somebody subscribes the signal. -/
def busy (s : Nat) (h : Hist) : Bool := h.any fun e =>
  match e.1 with
  | .subscribe _ c => subscribed s c h
  | _ => false

/-- The packets a client is to receive since it requested streaming, oldest first: every packet
published for a signal while the client subscribes it; and, when it subscribes a signal others
subscribe already, the most recent descriptors. -/
def expects (c : Nat) : Hist → List (Nat × Pk)
  | [] => []
  | (.init c' _, .done) :: h => if c' = c then [] else expects c h
  | (.send s p, .done) :: h =>
    if subscribed s c h = true then expects c h ++ [((number s h).getD 0, p)] else expects c h
  | (.subscribe s c', .bool _) :: h =>
    if c' = c ∧ subscribed s c h = false ∧ busy s h = true ∧ (descriptors s h).1.isSome then
      expects c h ++ [((number s h).getD 0, .desc (descriptors s h).1 (descriptors s h).2)]
    else expects c h
  | _ :: h => expects c h

/-- No publishing call failed. -/
def NoFail (h : Hist) : Prop := ∀ e ∈ h, e.2 ≠ .noServer ∧ e.2 ≠ .noDescriptor

/-- Notifications of one call for a signal: `true` when it reports the signal as subscribed for the
first time, `false` when it reports it as no longer subscribed. -/
def notified (s : Nat) : Op × Out → List Bool
  | (.subscribe s' _, .bool true) => if s' = s then [true] else []
  | (.unsubscribe s' _, .bool true) => if s' = s then [false] else []
  | (.removeSignal s', .bool true) => if s' = s then [false] else []
  | (.unregisterClient _, .signals l) => if s ∈ l then [false] else []
  | _ => []

/-- All notifications for a signal; the calls are given oldest first. -/
def notifications (s : Nat) (t : List (Op × Out)) : List Bool := t.flatMap (notified s)

/-- Notifications alternate, starting with "subscribed", and the last one is the present state. -/
def Alternates (l : List Bool) (now : Bool) : Prop :=
  (∀ i b, l[i]? = some b → b = (i % 2 == 0)) ∧ now = (l.length % 2 == 1)

/-- Clients subscribe only while they take part in streaming. -/
def Orderly : Hist → Prop
  | [] => True
  | (.subscribe _ c, _) :: h => registered c h = true ∧ Orderly h
  | _ :: h => Orderly h

/-- A value descriptor was published for the signal after it was last subscribed by a first client. -/
def primed (s : Nat) : Hist → Bool
  | [] => false
  | (.send s' (.desc (some _) _), _) :: h => if s' = s ∧ number s h ≠ none then true else primed s h
  | (.subscribe s' _, .bool true) :: h => if s' = s then false else primed s h
  | (.registerSignal s', .num _) :: h => if s' = s then false else primed s h
  | _ :: h => primed s h

/-- A new subscription delivers a value descriptor first: data packets of a subscribed signal are only
published after one. -/
def DescriptorFirst : Hist → Prop
  | [] => True
  | (.send s (.data _), _) :: h => (Idle s h ∨ primed s h = true) ∧ DescriptorFirst h
  | _ :: h => DescriptorFirst h

/-- Signals announced by clients: who owns the string id (`none`: nobody). A client withdrawing a
signal, or going away, affects only its own signals. -/
def owner (s : Nat) : Hist → Option ClientSig
  | [] => none
  | (.clientAvailable n s' c, _) :: h =>
    if s' = s ∧ owner s h = none then some ⟨n, c⟩ else owner s h
  | (.clientUnavailable n s' c, _) :: h =>
    if s' = s ∧ owner s h = some ⟨n, c⟩ then none else owner s h
  | (.clientGone c, _) :: h =>
    match owner s h with
    | some x => if x.owner = c then none else some x
    | none => none
  | _ :: h => owner s h

/-- Clients withdraw only signals they announced themselves (with the same numeric id). -/
def OwnWithdrawals : Hist → Prop
  | [] => True
  | (.clientUnavailable n s c, _) :: h =>
    (owner s h = none ∨ owner s h = some ⟨n, c⟩) ∧ OwnWithdrawals h
  | _ :: h => OwnWithdrawals h

end Verif.Streaming
