import Mathlib.Data.List.Basic

/-!
# Timer threads

A thread that calls a function again and again, as it is compiled for Linux, beside a client that starts and
stops it.  Every act of the thread and of the client is a step; the clock goes on between them.  Seconds are
counted without bound, where the code casts those of intervals to 32 bits.

* `tt` = `shared/libraries/utils/src/timer_thread.cpp`
* `te` = `shared/libraries/utils/src/thread_ex.cpp`
-/

namespace Verif.Timer

/-- Nanoseconds in a second. -/
def K : Int := 1000000000

/-- `timespec`. -/
structure Ts where
  sec : Int
  nsec : Int
  deriving DecidableEq, Repr

/-- `timespecNormalise` (tt:137-140); division cuts off. -/
def Ts.norm (t : Ts) : Ts := ⟨t.sec + t.nsec.tdiv K, t.nsec.tmod K⟩

/-- `intervalToTimespec` (tt:142-149) of microseconds. -/
def ofMicros (m : Int) : Ts := ⟨m.tdiv 1000000, m.tmod 1000000 * 1000⟩

/-- `timespecAdd` (tt:151-155). -/
def Ts.add (a b : Ts) : Ts := (⟨a.sec + b.sec, a.nsec + b.nsec⟩ : Ts).norm

/-- `clock_gettime`, of a time in nanoseconds. -/
def ofClock (now : Nat) : Ts := ⟨(now : Int) / K, (now : Int) % K⟩

/-- Where the thread is: not there, begun, before the test of the loop, between the test and the wait,
waiting, calling, at its end. -/
inductive PC
  | idle | born | loop | checked | wait | calling | done
  deriving DecidableEq, Repr

/-- How far a call of `stop` is. -/
inductive Stop
  | none | flagged | notified
  deriving DecidableEq, Repr

/-- The timer: interval and delay in microseconds, whether the rate is fixed, the thread, and the clock in
nanoseconds. `birth`, `begun` and `ended` are the times at which the thread began and at which calls began
and ended since the last start; the code does not keep them. -/
structure State where
  interval : Int
  delay : Int
  rate : Bool
  started : Bool
  terminated : Bool
  stop : Stop
  pc : PC
  ts : Ts
  waitTs : Ts
  now : Nat
  birth : Nat
  count : Nat
  begun : List Nat
  ended : List Nat
  deriving DecidableEq, Repr

/-- A timer with times in microseconds; without delay it is the interval (tt:24-42). -/
def make (interval : Int) (delay : Option Int) (rate : Bool) (now : Nat) : State :=
  ⟨interval, delay.getD interval, rate, false, false, .none, .idle, ⟨0, 0⟩, ⟨0, 0⟩, now, 0, 0, [], []⟩

/-- A timer with times in milliseconds (tt:15-22). -/
def makeMs (interval delay : Int) (rate : Bool) (now : Nat) : State :=
  make (interval * 1000) (some (if delay = -1 then interval * 1000 else delay * 1000)) rate now

/-- What can happen: the clock goes on; the client sets an interval, a delay (in milliseconds) or the mode,
starts, or stops in three steps; the thread goes on. `wake` is the end of a wait without timeout: by no
reason, or because the time is no time. -/
inductive Op
  | tick (n : Nat)
  | setInterval (ms : Int)
  | setDelay (ms : Int)
  | setRate (b : Bool)
  | start
  | stop
  | notify
  | join
  | born
  | check
  | sleep
  | timeout
  | wake
  | finish
  deriving DecidableEq, Repr

/-- Whether a time can be waited for: else `pthread_cond_timedwait` answers `EINVAL`. -/
def Ts.ok (t : Ts) : Bool := decide (0 ≤ t.nsec ∧ t.nsec < K)

/-- Whether a time has come. -/
def Ts.past (t : Ts) (now : Nat) : Bool := decide (t.sec * K + t.nsec ≤ now)

/-- One step; a step that is not possible does nothing. `start` (tt:49-56, te:26-34, fails when started),
`stop` (tt:58-64) with `terminate`, `notify_one` and `join` (te:50-70), the setters (tt:71-89), and `execute`
(tt:111-185). -/
def State.step (s : State) : Op → State
  | .tick n => { s with now := s.now + n }
  | .setInterval ms => { s with interval := ms * 1000 }
  | .setDelay ms => { s with delay := ms * 1000 }
  | .setRate b => { s with rate := b }
  | .start =>
    if s.started = true ∨ s.stop ≠ .none then s
    else { s with started := true, terminated := false, pc := .born, count := 0, begun := [], ended := [] }
  | .stop => if s.stop = .none then { s with stop := .flagged, terminated := true } else s
  | .notify =>
    if s.stop = .flagged then { s with stop := .notified, pc := if s.pc = .wait then .loop else s.pc } else s
  | .join =>
    if s.stop = .notified ∧ (s.started = true → s.pc = .done) then
      { s with stop := .none, started := false, pc := .idle }
    else s
  | .born =>
    if s.pc = .born then
      { s with ts := (ofClock s.now).add (ofMicros s.delay), waitTs := ofMicros s.interval, birth := s.now,
               pc := .loop }
    else s
  | .check => if s.pc = .loop then { s with pc := if s.terminated then .done else .checked } else s
  | .sleep => if s.pc = .checked then { s with pc := .wait } else s
  | .timeout =>
    if s.pc = .wait ∧ s.ts.ok = true ∧ s.ts.past s.now = true then
      { s with count := s.count + 1, begun := s.begun ++ [s.now], pc := .calling }
    else s
  | .wake => if s.pc = .wait then { s with pc := .loop } else s
  | .finish =>
    if s.pc = .calling then
      { s with ended := s.ended ++ [s.now], ts := (if s.rate then s.ts else ofClock s.now).add s.waitTs,
               pc := .loop }
    else s

/-- Many steps. -/
def run : State → List Op → State
  | s, [] => s
  | s, op :: ops => run (s.step op) ops

end Verif.Timer
