/-!
# The scheduler

The main loop, in which works run one after the other on the thread that runs it; the awaitable, by
which the result of scheduled work is waited for; graphs of tasks; and what is left of a scheduler
that was stopped.

* `sch` = `core/opendaq/scheduler/src/scheduler_impl.cpp`
* `shd` = `core/opendaq/scheduler/include/opendaq/scheduler_impl.h`
* `wrk` = `core/opendaq/scheduler/include/opendaq/work_impl.h`
* `awt` = `core/opendaq/scheduler/src/awaitable_impl.cpp`
* `tsk` = `core/opendaq/scheduler/src/task_impl.cpp`
* `tgr` = `core/opendaq/scheduler/src/task_graph_impl.cpp`

The mutex of the main loop is released exactly while a work runs and while the loop waits for time
to pass; the steps of the model are the parts in between, and anything may be interleaved.  The
thread pool itself is the Taskflow library, which is not part of the repository.
-/

namespace Verif.Sched

/-! ## The main loop -/

/-- A work: it runs once, it may ask to be run again, or it is the work with which the loop is told
to stop.  sch:40-47, sch:54-57 -/
inductive Kind where
  | once | repeating | stop
  deriving DecidableEq, Repr

/-- A work that was scheduled; the number tells it from all others. -/
structure Item where
  tag : Nat
  kind : Kind
  deriving DecidableEq, Repr

/-- A call of `run` or `runIteration` that has not returned.  `cur` are the works still to be run in
this iteration (`none` while waiting for time to pass), `kept` those to be run again.
sch:101-117 -/
structure Frame where
  single : Bool
  cur : Option (List Item)
  kept : List Item
  deriving DecidableEq, Repr

/-- The main loop: what was scheduled, whether it counts as running, and the calls in progress
(`none`: returned).  shd:53-54 -/
structure St where
  queue : List Item
  running : Bool
  frames : List (Option Frame)
  next : Nat
  deriving DecidableEq, Repr

/-- The initial state. -/
def St.init : St := { queue := [], running := false, frames := [], next := 0 }

/-- What happens: a work is scheduled (from anywhere), `run` or `runIteration` is called, the wait
of a call is over, a call runs its next work (`again`: the work asks for more), a call ends its
iteration. -/
inductive Op where
  | post (k : Kind)
  | start (single : Bool)
  | wake (i : Nat)
  | exec (i : Nat) (again : Bool)
  | finish (i : Nat)
  deriving DecidableEq, Repr

/-- What can be seen: a work was accepted, a call began, a call was refused, a call ran a work
(which asked for more or not), a call returned. -/
inductive Ev where
  | posted (x : Item)
  | started (i : Nat) (single : Bool)
  | refused
  | ran (i : Nat) (x : Item) (again : Bool)
  | returned (i : Nat)
  deriving DecidableEq, Repr

/-- The call `i`, if it has not returned. -/
def St.frame (s : St) (i : Nat) : Option Frame := (s.frames[i]?).bind (·)

/-- `scheduleTask`.  sch:161-172 -/
def St.post (s : St) (k : Kind) : St × List Ev :=
  ({ s with queue := s.queue ++ [⟨s.next, k⟩], next := s.next + 1 }, [.posted ⟨s.next, k⟩])

/-- `run` up to its first wait, and `runIteration` up to its first work.  sch:119-127, sch:131-146 -/
def St.start (s : St) (single : Bool) : St × List Ev :=
  if s.running then (s, [.refused])
  else if single then
    ({ s with queue := [], running := true, frames := s.frames ++ [some ⟨true, some s.queue, []⟩] },
      [.started s.frames.length true])
  else
    ({ s with running := true, frames := s.frames ++ [some ⟨false, none, []⟩] },
      [.started s.frames.length false])

/-- The wait is over: the works scheduled so far are taken.  sch:146-148, sch:103-105 -/
def St.wake (s : St) (i : Nat) : St × List Ev :=
  match s.frame i with
  | some ⟨single, none, kept⟩ =>
    ({ s with queue := [], frames := s.frames.set i (some ⟨single, some s.queue, kept⟩) }, [])
  | _ => (s, [])

/-- The next work runs, with the mutex released.  sch:107-113, sch:49-57 -/
def St.exec (s : St) (i : Nat) (again : Bool) : St × List Ev :=
  match s.frame i with
  | some ⟨single, some (x :: r), kept⟩ =>
    let kept' := if x.kind = .repeating ∧ again then kept ++ [x] else kept
    ({ s with running := if x.kind = .stop then false else s.running
              frames := s.frames.set i (some ⟨single, some r, kept'⟩) }, [.ran i x again])
  | _ => (s, [])

/-- The iteration is over: what is to be run again is put behind what was scheduled meanwhile;
`runIteration` returns, `run` goes on if it still counts as running.
sch:115-116, sch:126-128, sch:144-152 -/
def St.finish (s : St) (i : Nat) : St × List Ev :=
  match s.frame i with
  | some ⟨single, some [], kept⟩ =>
    if single then
      ({ s with queue := s.queue ++ kept, running := false, frames := s.frames.set i none },
        [.returned i])
    else if s.running then
      ({ s with queue := s.queue ++ kept, frames := s.frames.set i (some ⟨false, none, []⟩) }, [])
    else
      ({ s with queue := s.queue ++ kept, running := false, frames := s.frames.set i none },
        [.returned i])
  | _ => (s, [])

/-- One step. -/
def St.step (s : St) : Op → St × List Ev
  | .post k => s.post k
  | .start b => s.start b
  | .wake i => s.wake i
  | .exec i a => s.exec i a
  | .finish i => s.finish i

/-- Many steps, and everything that was seen. -/
def St.run (s : St) : List Op → St × List Ev
  | [] => (s, [])
  | op :: ops => (((s.step op).1.run ops).1, (s.step op).2 ++ ((s.step op).1.run ops).2)

/-! ## Awaitables -/

/-- How the execution ended: with a value, or with an exception. -/
inductive Res where
  | value (n : Nat) | failed
  deriving DecidableEq, Repr

/-- An awaitable: whether it stands for a graph (which has no value), whether its future can still
be asked, the flag it keeps, and how the execution ended, if it did.  The future is that of the
standard library: it is valid until its result is taken.  awt:8-12 -/
structure Aw where
  graph : Bool
  valid : Bool
  completed : Bool
  done : Option Res
  deriving DecidableEq, Repr

/-- An awaitable as the scheduler makes it.  sch:235-240, sch:274 -/
def Aw.init (graph : Bool) : Aw := { graph := graph, valid := true, completed := false, done := none }

/-- What a call on an awaitable gives.  Taking the result of a future that is no longer valid is
undefined. -/
inductive AwOut where
  | ok | ignored | empty | blocks | null | value (n : Nat) | error | yes | no | undefined
  deriving DecidableEq, Repr

/-- Waiting.  awt:22-40 -/
def Aw.wait (a : Aw) : Aw × AwOut :=
  if a.completed then (a, .ignored)
  else if !a.valid then (a, .empty)
  else if a.done = none then (a, .blocks)
  else ({ a with completed := true }, .ok)

/-- Asking for the result.  awt:43-82 -/
def Aw.get (a : Aw) : Aw × AwOut :=
  if !a.completed && !a.valid then (a, .empty)
  else if !a.valid then (a, .undefined)
  else
    match a.done with
    | none => (a, .blocks)
    | some r =>
      if a.graph then ({ a with valid := false }, .null)
      else
        match r with
        | .value n => ({ a with valid := false, completed := true }, .value n)
        | .failed => ({ a with valid := false }, .error)

/-- Asking whether the execution is over.  awt:85-94 -/
def Aw.has (a : Aw) : AwOut := if !a.valid then .yes else .no

/-- The calls, and the end of the execution. -/
inductive AwOp where
  | done (r : Res) | wait | get | has
  deriving DecidableEq, Repr

/-- One step. -/
def Aw.step (a : Aw) : AwOp → Aw × Option AwOut
  | .done r => (if a.done = none then { a with done := some r } else a, none)
  | .wait => (a.wait.1, some a.wait.2)
  | .get => (a.get.1, some a.get.2)
  | .has => (a, some a.has)

/-- Many steps. -/
def Aw.run (a : Aw) : List AwOp → Aw × List (Option AwOut)
  | [] => (a, [])
  | op :: ops => (((a.step op).1.run ops).1, (a.step op).2 :: ((a.step op).1.run ops).2)

/-! ## Graphs of tasks -/

/-- The first task of a graph, or another task. -/
inductive Node where
  | root (g : Nat) | task (t : Nat)
  deriving DecidableEq, Repr

/-- Graphs (whether they still exist), tasks (the graph they were put into, if any), and the
order that was asked for.  tsk:13-26, tgr:10-25 -/
structure World where
  graphs : List Bool
  tasks : List (Option Nat)
  edges : List (Node × Node)
  deriving DecidableEq, Repr

/-- Nothing yet. -/
def World.init : World := { graphs := [], tasks := [], edges := [] }

/-- What `then` gives. -/
inductive ThenOut where
  | ok | notSupported | undefined
  deriving DecidableEq, Repr

/-- Whether a graph still exists. -/
def World.alive (w : World) (g : Nat) : Bool := w.graphs[g]? == some true

/-- The graph of a task. -/
def World.graphOf (w : World) : Node → Option Nat
  | .root g => some g
  | .task t => (w.tasks[t]?).bind (·)

/-- Putting a task into a graph.  tsk:104-123 -/
def World.put (w : World) (t g : Nat) : World := { w with tasks := w.tasks.set t (some g) }

/-- The last step of `then`: the order is noted, in the nodes of the graphs of both.
tsk:73, tgr:62 -/
def World.join (w : World) (a b : Node) : World × ThenOut :=
  match w.graphOf a, w.graphOf b with
  | some g, some h =>
    if w.alive g && w.alive h then ({ w with edges := w.edges ++ [(a, b)] }, .ok) else (w, .undefined)
  | _, _ => (w, .undefined)

/-- `then` of a graph, or of a task: a task that is in no graph is put into the graph of the other;
the graph of a task that is in none is a null pointer, and one that is gone is only an address.
tgr:46-65, tsk:56-76 -/
def World.andThen (w : World) (a b : Node) : World × ThenOut :=
  match b with
  | .root _ => (w, .notSupported)
  | .task t =>
    match w.graphOf (.task t), a with
    | none, .root g => if w.alive g then (w.put t g).join a b else (w, .undefined)
    | none, .task s =>
      match w.graphOf (.task s) with
      | some g => if w.alive g then (w.put t g).join a b else (w, .undefined)
      | none => (w, .undefined)
    | some _, .root _ => w.join a b
    | some h, .task s =>
      match w.graphOf (.task s) with
      | some _ => w.join a b
      | none => if w.alive h then (w.put s h).join a b else (w, .undefined)

/-- What users do with graphs and tasks: make them, order them, let go of a graph. -/
inductive GOp where
  | graph | task | andThen (a b : Node) | release (g : Nat)
  deriving DecidableEq, Repr

/-- Whether a node exists. -/
def World.has (w : World) : Node → Bool
  | .root g => w.alive g
  | .task t => t < w.tasks.length

/-- One step; `then` is called on and with what exists. -/
def World.step (w : World) : GOp → World × Option ThenOut
  | .graph => ({ w with graphs := w.graphs ++ [true] }, none)
  | .task => ({ w with tasks := w.tasks ++ [none] }, none)
  | .andThen a b =>
    if w.has a && w.has b then ((w.andThen a b).1, some (w.andThen a b).2) else (w, none)
  | .release g => ({ w with graphs := w.graphs.set g false }, none)

/-- Many steps. -/
def World.run (w : World) : List GOp → World × List (Option ThenOut)
  | [] => (w, [])
  | op :: ops => (((w.step op).1.run ops).1, (w.step op).2 :: ((w.step op).1.run ops).2)

/-- The node can be run: it is in the graph, has not been run, and all that was ordered before it
has been run (the documented behaviour of the library). -/
def World.ready (w : World) (g : Nat) (l : List Node) (n : Node) : Bool :=
  w.graphOf n == some g && w.has n && !l.contains n &&
    (w.edges.all fun e => e.2 != n || l.contains e.1)

/-- One execution of a graph: the choices of the thread pool decide which of the nodes that can be
run is run next; a choice that cannot be run is passed over. -/
def World.schedule (w : World) (g : Nat) : List Node → List Node → List Node
  | l, [] => l
  | l, n :: c => w.schedule g (if w.ready g l n then l ++ [n] else l) c

/-! ## The scheduler as a whole -/

/-- The scheduler: the threads of its pool, whether it was stopped, and its main loop.  sch:174-187 -/
structure Sch where
  workers : Nat
  stopped : Bool
  main : Option St
  deriving DecidableEq, Repr

/-- The calls of the scheduler; those of the main loop carry what happens in it. -/
inductive SOp where
  | schedule | waitAll | isMultiThreaded | stop | isMainLoopSet | main (op : Op)
  deriving DecidableEq, Repr

/-- What they give: `failed true` for `OPENDAQ_ERR_SCHEDULER_STOPPED`, `failed false` for
`OPENDAQ_ERR_NOT_SUPPORTED`. -/
inductive SOut where
  | ok | failed (stopped : Bool) | bool (b : Bool) | seen (l : List Ev) | undefined
  deriving DecidableEq, Repr

/-- No call of the main loop is in progress. -/
def St.idle (s : St) : Bool := s.frames.all (· == none)

/-- One call.  `stop` destroys the thread pool and the main loop, even one that is in use; the
calls that use the pool do not look whether it is there.
sch:195-227, sch:246-251, sch:280-325 -/
def Sch.step (s : Sch) : SOp → Sch × SOut
  | .schedule => (s, if s.stopped then .failed true else .ok)
  | .waitAll => (s, if s.stopped then .undefined else .ok)
  | .isMultiThreaded => (s, if s.stopped then .undefined else .bool (1 < s.workers))
  | .stop =>
    match s.main with
    | some m => if m.idle then ({ s with stopped := true, main := none }, .ok) else (s, .undefined)
    | none => ({ s with stopped := true, main := none }, .ok)
  | .isMainLoopSet => (s, .bool s.main.isSome)
  | .main op =>
    match s.main with
    | some m => ({ s with main := some (m.step op).1 }, .seen (m.step op).2)
    | none => (s, .failed false)

/-- Many calls, up to one that is undefined. -/
def Sch.run (s : Sch) : List SOp → Sch × List SOut
  | [] => (s, [])
  | op :: ops =>
    if (s.step op).2 = .undefined then (s, [.undefined])
    else (((s.step op).1.run ops).1, (s.step op).2 :: ((s.step op).1.run ops).2)

end Verif.Sched
