import Verif.Sched.Rest
/-!
# Properties of the scheduler
-/

namespace Verif.Sched.Props

open Spec

/-- A run of the main loop that a user may see: two works, the second asks to be run again once,
a third is scheduled while the first iteration runs, then the loop is told to stop. -/
def demo : List Op :=
  [.post .once, .post .repeating, .start false, .wake 0, .exec 0 false, .post .once, .exec 0 true,
    .finish 0, .post .stop, .wake 0, .exec 0 false, .exec 0 false, .exec 0 false, .finish 0]

/-! ## C190: scheduled work is run -/

/-- A work that does not ask for more runs at most once, and only what was scheduled runs. -/
theorem C190_once (ops : List Op) (x : Item) (hx : x ∈ ran (St.init.run ops).2) :
    x ∈ posted (St.init.run ops).2 ∧
      (x.kind ≠ .repeating → (ran (St.init.run ops).2).count x = 1) := by
  have b := books ops
  refine ⟨b.ran x hx, fun hk => ?_⟩
  have h1 := b.once x hk
  have h2 := List.nodup_iff_count_le_one.mp b.nodup x
  have h3 := List.count_pos_iff.mpr hx
  omega

/-- What was scheduled before a call of `runIteration` that found the loop quiet has run when the
call returns, whatever else happens meanwhile. -/
theorem C190_runs (ops ops' : List Op) (hq : Quiet (St.init.run ops).2) (x : Item)
    (hx : x ∈ posted (St.init.run ops).2) :
    ∃ i, ((St.init.run ops).1.step (.start true)).2 = [.started i true] ∧
      (.returned i ∈ (((St.init.run ops).1.step (.start true)).1.run ops').2 →
        x ∈ ran ((St.init.run ops).2 ++ (((St.init.run ops).1.step (.start true)).1.run ops').2)) := by
  generalize hs : (St.init.run ops).1 = s at *
  have hc : Calls s (St.init.run ops).2 := hs ▸ calls ops
  have hb : Books s (St.init.run ops).2 := hs ▸ books ops
  have hl : Live s := hs ▸ live ops
  have hi := (quiet_idle hc).mp hq
  have hr : s.running = false := by
    cases e : s.running with
    | false => rfl
    | true => obtain ⟨i, f, hf⟩ := hl e; exact absurd hf (hi i f)
  have e : s.step (.start true) = ((St.mk [] true (s.frames ++ [some ⟨true, some s.queue, []⟩]) s.next), [.started s.frames.length true]) := by
    change s.start true = _
    simp [St.start, hr]
  refine ⟨s.frames.length, by rw [e], ?_⟩
  rw [e]
  intro hret
  have h0 : Iter s.frames.length s.queue (St.mk [] true (s.frames ++ [some ⟨true, some s.queue, []⟩]) s.next) [] :=
    .inl ⟨s.queue, by simp [asked], by simp [ranBy], by simp⟩
  have := run_inv (Iter s.frames.length s.queue) (iter_step _ _) ops' _ [] h0
  simp only [List.nil_append] at this
  rcases this with ⟨c, _, _, h⟩ | ⟨_, h, _⟩
  · exact absurd hret h
  · rw [ran_append, List.mem_append]
    rcases hb.all x hx with h' | h' | h'
    · exact .inl h'
    · right
      rw [← h, ranBy_mem] at h'
      obtain ⟨b, hb'⟩ := h'
      exact ran_mem.mpr ⟨_, b, hb'⟩
    · rw [idle_held hi] at h'; simp at h'

example : ran (St.init.run demo).2 =
    [⟨0, .once⟩, ⟨1, .repeating⟩, ⟨2, .once⟩, ⟨1, .repeating⟩, ⟨3, .stop⟩] := by decide +kernel
example : Quiet (St.init.run (demo ++ [.post .once])).2 :=
  (quiet_idle (calls _)).mpr (by
    intro i f h
    have e : (St.init.run (demo ++ [.post .once])).1.frames = [none] := by decide +kernel
    rw [e] at h
    cases i <;> simp at h)

/-! ## C191: an iteration -/

/-- `runIteration` runs exactly the works that were waiting when it began, each once and in order;
whatever is scheduled meanwhile, by a work or by another thread, waits for the next one. -/
theorem C191_iteration (ops ops' : List Op) (i : Nat)
    (hst : ((St.init.run ops).1.step (.start true)).2 = [.started i true])
    (hret : .returned i ∈ (((St.init.run ops).1.step (.start true)).1.run ops').2) :
    ranBy i (((St.init.run ops).1.step (.start true)).1.run ops').2 = (St.init.run ops).1.queue := by
  generalize (St.init.run ops).1 = s at *
  have hr : s.running = false := by
    cases e : s.running with
    | false => rfl
    | true => change (s.start true).2 = _ at hst; simp [St.start, e] at hst
  have e : s.step (.start true) = ((St.mk [] true (s.frames ++ [some ⟨true, some s.queue, []⟩]) s.next), [.started s.frames.length true]) := by
    change s.start true = _
    simp [St.start, hr]
  rw [e] at hst hret ⊢
  simp at hst
  subst hst
  have h0 : Iter s.frames.length s.queue (St.mk [] true (s.frames ++ [some ⟨true, some s.queue, []⟩]) s.next) [] :=
    .inl ⟨s.queue, by simp [asked], by simp [ranBy], by simp⟩
  have := run_inv (Iter s.frames.length s.queue) (iter_step _ _) ops' _ [] h0
  simp only [List.nil_append] at this
  rcases this with ⟨c, _, _, h⟩ | ⟨_, h, _⟩
  · exact absurd hret h
  · exact h

/-- Then the works scheduled meanwhile are waiting, followed by those that asked to be run again, in
order, if no other call came in between. -/
theorem C191_next (ops ops' : List Op) (i : Nat) (hq : Quiet (St.init.run ops).2)
    (hst : ((St.init.run ops).1.step (.start true)).2 = [.started i true])
    (hn : NoStart (((St.init.run ops).1.step (.start true)).1.run ops').2)
    (hret : .returned i ∈ (((St.init.run ops).1.step (.start true)).1.run ops').2) :
    ∃ a b, (((St.init.run ops).1.step (.start true)).1.run ops').2 = a ++ .returned i :: b ∧
      (((St.init.run ops).1.step (.start true)).1.run ops').1.queue = posted a ++ asked i a ++ posted b := by
  have hi := (quiet_idle (calls ops)).mp hq
  generalize (St.init.run ops).1 = s at *
  have hr : s.running = false := by
    cases e : s.running with
    | false => rfl
    | true => change (s.start true).2 = _ at hst; simp [St.start, e] at hst
  have e : s.step (.start true) = ((St.mk [] true (s.frames ++ [some ⟨true, some s.queue, []⟩]) s.next), [.started s.frames.length true]) := by
    change s.start true = _
    simp [St.start, hr]
  rw [e] at hst hret hn ⊢
  simp at hst
  subst hst
  have h0 : IterAlone s.frames.length (St.mk [] true (s.frames ++ [some ⟨true, some s.queue, []⟩]) s.next) [] := by
    intro _
    refine .inl ⟨s.queue, by simp [asked], ?_, by simp [posted], by simp⟩
    intro j f hf
    rcases snoc_get hf with ⟨e, _⟩ | e
    · exact e
    · exact absurd e (hi j f)
  have := run_inv (IterAlone s.frames.length) (iterAlone_step _) ops' _ [] h0
  simp only [List.nil_append] at this
  rcases this hn with ⟨c, _, _, _, h⟩ | ⟨_, a, b, h1, h2, _⟩
  · exact absurd hret h
  · exact ⟨a, b, h1, h2⟩

example : (St.init.run [.post .repeating, .post .once, .start true, .exec 0 true, .post .once,
    .exec 0 false, .finish 0]).1.queue = [⟨2, .once⟩, ⟨0, .repeating⟩] := by decide +kernel

/-! ## C192: order -/

/-- Works run in the order in which they were scheduled (those that run more than once count with
their first time), as long as calls that run works follow one another.  Missing: calls that overlap,
which C193 is about. -/
theorem C192_order_partial (ops : List Op) (ha : Alone (St.init.run ops).2) :
    InOrder (St.init.run ops).2 := (line ops ha).1

/-- With two calls in progress, which is possible after a stop, a later work runs first. -/
theorem C192_violation_order : ∃ ops : List Op, ¬ InOrder (St.init.run ops).2 := by
  refine ⟨[.post .stop, .post .once, .start true, .exec 0 false, .post .once, .start true, .exec 1 false], ?_⟩
  intro h
  have e1 : posted (St.init.run [.post .stop, .post .once, .start true, .exec 0 false, .post .once,
      .start true, .exec 1 false]).2 = [⟨0, .stop⟩, ⟨1, .once⟩] ++ ⟨2, .once⟩ :: [] := by decide +kernel
  have e2 : ran (St.init.run [.post .stop, .post .once, .start true, .exec 0 false, .post .once,
      .start true, .exec 1 false]).2 = [⟨0, .stop⟩] ++ ⟨2, .once⟩ :: [] := by decide +kernel
  have := h _ _ _ _ _ ⟨1, .once⟩ e1 e2 (by simp)
  simp at this

/-! ## C193: one call at a time -/

/-- A call that runs works is refused while another is in progress, as long as no stop has run.
Missing: after a stop has run, the next call is let in although the works of the one before are
still running. -/
theorem C193_refused_partial (ops : List Op) (h : ¬ Stopped (St.init.run ops).2) :
    Alone (St.init.run ops).2 := unstopped_alone ops h

/-- After a stop has run, and before the call that ran it has returned, another call begins. -/
theorem C193_violation_overlap : ∃ ops : List Op, ¬ Alone (St.init.run ops).2 := by
  refine ⟨[.post .stop, .post .once, .start false, .wake 0, .exec 0 false, .start false], ?_⟩
  intro h
  have e : (St.init.run [.post .stop, .post .once, .start false, .wake 0, .exec 0 false,
      .start false]).2 = [.posted ⟨0, .stop⟩, .posted ⟨1, .once⟩, .started 0 false, .ran 0 ⟨0, .stop⟩ false]
        ++ .started 1 false :: [] := by decide +kernel
  have := h _ _ _ _ e 0 false (by simp)
  simp at this

example : (St.init.run [.post .once, .start false, .wake 0, .start true, .exec 0 false, .start false]).2 =
    [.posted ⟨0, .once⟩, .started 0 false, .refused, .ran 0 ⟨0, .once⟩ false, .refused] := by decide +kernel

/-! ## C194: stopping the loop -/

/-- `run` returns only after it has run a stop, as long as calls follow one another. -/
theorem C194_only_partial (ops : List Op) (ha : Alone (St.init.run ops).2) (i : Nat)
    (hs : .started i false ∈ (St.init.run ops).2) (hr : .returned i ∈ (St.init.run ops).2) :
    ∃ x b, .ran i x b ∈ (St.init.run ops).2 ∧ x.kind = .stop := (loops ops ha).2.2 i hs hr

/-- Once a call has run a stop, it runs nothing that is scheduled later, and unless it has returned
it returns after a number of works that is fixed by now, as long as calls follow one another. -/
theorem C194_ends_partial (ops : List Op) (ha : Alone (St.init.run ops).2) (l₁ l₂ : List Ev) (i : Nat)
    (x : Item) (a : Bool) (h : (St.init.run ops).2 = l₁ ++ .ran i x a :: l₂) (hx : x.kind = .stop) :
    (∀ y ∈ ranBy i l₂, y ∈ posted l₁) ∧
      (.returned i ∈ (St.init.run ops).2 ∨ ∃ n, ∀ as : List Bool, as.length = n →
        .returned i ∈ ((St.init.run ops).1.run (as.map (Op.exec i) ++ [.finish i])).2) := by
  rcases allEnd ops ha l₁ i x a l₂ h hx with ⟨hr, b, c, k, hi, hp⟩ | ⟨hi, hp⟩
  · exact ⟨fun y hy => hp y (by simp [hy]), .inr ⟨c.length, fun as hl =>
      finish_off i b c k _ as hi (.inr hr) hl⟩⟩
  · exact ⟨hp, .inl (((calls ops).2 i).mpr hi)⟩

/-- A stop that is asked for while no loop runs is kept, and ends the loop that is run next. -/
theorem C194_violation_early : ∃ ops ops' : List Op,
    (St.init.run ops).2 = [.posted ⟨0, .stop⟩] ∧ (∀ k, .post k ∉ ops') ∧
      ((St.init.run ops).1.run ops').2 =
        [.started 0 false, .ran 0 ⟨0, .stop⟩ false, .returned 0] :=
  ⟨[.post .stop], [.start false, .wake 0, .exec 0 false, .finish 0], by decide +kernel,
    by intro k; simp, by decide +kernel⟩

/-- A stop is undone by a call that begins before the stopped one has returned: the stopped loop
goes on, here with a work that is scheduled later. -/
theorem C194_violation_lost : ∃ ops : List Op, ∃ l₁ l₂,
    (St.init.run ops).2 = l₁ ++ .ran 0 ⟨0, .stop⟩ false :: l₂ ∧ ⟨2, .once⟩ ∈ ranBy 0 l₂ ∧
      ⟨2, .once⟩ ∉ posted l₁ :=
  ⟨[.post .stop, .post .once, .start false, .wake 0, .exec 0 false, .start false, .exec 0 false, .finish 0,
      .post .once, .wake 0, .exec 0 false],
    [.posted ⟨0, .stop⟩, .posted ⟨1, .once⟩, .started 0 false],
    [.started 1 false, .ran 0 ⟨1, .once⟩ false, .posted ⟨2, .once⟩, .ran 0 ⟨2, .once⟩ false],
    by decide +kernel, by decide +kernel, by decide +kernel⟩

example : .returned 0 ∈ (St.init.run demo).2 := by decide +kernel
example : (St.init.run demo).2 = (St.init.run demo).2.take 9 ++ .ran 0 ⟨3, .stop⟩ false :: [.returned 0] := by
  decide +kernel

/-! ## C195: an awaitable does not speak too early -/

/-- `wait` returns and `hasCompleted` says yes only when the execution is over. -/
theorem C195_over (g : Bool) (ops : List AwOp) :
    (((Aw.init g).run ops).1.wait.2 = .ok ∨ ((Aw.init g).run ops).1.wait.2 = .ignored ∨
      ((Aw.init g).run ops).1.has = .yes) → ∃ r, .done r ∈ ops := by
  intro h
  have inv := aw_inv g ops
  generalize ((Aw.init g).run ops).1 = a at *
  have key : a.done ≠ none → ∃ r, .done r ∈ ops := by
    intro hd
    cases e : a.done with
    | none => exact absurd e hd
    | some r => exact ⟨r, inv.done r e⟩
  apply key
  rcases h with h | h | h
  · intro hd
    unfold Aw.wait at h
    split at h
    · cases h
    · split at h
      · cases h
      · simp [hd] at h
  · unfold Aw.wait at h
    split at h
    · rename_i hc; exact inv.completed hc
    · split at h
      · cases h
      · split at h <;> cases h
  · unfold Aw.has at h
    split at h
    · rename_i hv; exact inv.valid (by simpa using hv)
    · cases h

example : ((Aw.init false).run [.wait, .has, .done (.value 3), .wait, .get, .has]).2 =
    [some .blocks, some .no, none, some .ok, some (.value 3), some .yes] := by decide +kernel

/-! ## C196: an awaitable says when the execution is over -/

/-- After its result was taken an awaitable says that the execution is over.  Missing: before that
it says that it is not, even after `wait` has returned. -/
theorem C196_completed_partial (g : Bool) (ops ops' : List AwOp)
    (h : ((Aw.init g).run ops).1.get.2 = .null ∨ ((Aw.init g).run ops).1.get.2 = .error ∨
      ∃ n, ((Aw.init g).run ops).1.get.2 = .value n) :
    (((Aw.init g).run ops).1.get.1.run ops').1.has = .yes := by
  have := aw_invalid_run ops' _ (aw_fetched _ h)
  simp [Aw.has, this]

/-- The execution is over, `wait` has returned, and `hasCompleted` still says no. -/
theorem C196_violation_waited : ∀ g : Bool, ((Aw.init g).run [.done (.value 3), .wait, .has, .wait, .has]).2 =
    [none, some .ok, some .no, some .ignored, some .no] := by decide +kernel

/-! ## C197: the result -/

/-- The first time the result is asked for, after the execution is over, it is given: the value or
the error of a function, nothing for a graph.  Missing: asking again. -/
theorem C197_result_partial (g : Bool) (ops : List AwOp) (hg : .get ∉ ops) (r : Res)
    (hd : .done r ∈ ops) (hu : ∀ r', .done r' ∈ ops → r' = r) :
    ((Aw.init g).run ops).1.get.2 =
      if g then .null else match r with | .value n => .value n | .failed => .error := by
  have inv := aw_inv g ops
  have hgr := aw_graph ops (Aw.init g)
  generalize ((Aw.init g).run ops).1 = a at *
  have hdone : a.done = some r := by
    cases e : a.done with
    | none => exact absurd hd (inv.none e r)
    | some r' => rw [hu r' (inv.done r' e)]
  rw [aw_first a r (inv.get hg) hdone, hgr]
  cases r <;> rfl

/-- Asking a second time is undefined for a function that gave a value, and an error for one that
failed and for a graph. -/
theorem C197_violation_again :
    ((Aw.init false).run [.done (.value 3), .get, .get]).2 = [none, some (.value 3), some .undefined] ∧
    ((Aw.init false).run [.done .failed, .get, .get]).2 = [none, some .error, some .empty] ∧
    ((Aw.init true).run [.done (.value 0), .get, .get]).2 = [none, some .null, some .empty] := by
  decide +kernel

/-! ## C198: graphs of tasks -/

/-- In every execution of a graph each task runs at most once, and after everything that was ordered
before it. -/
theorem C198_order (w : World) (g : Nat) (c : List Node) :
    (w.schedule g [] c).Nodup ∧ (∀ n ∈ w.schedule g [] c, Belongs w g n) ∧
      ∀ l₁ n l₂ a, w.schedule g [] c = l₁ ++ n :: l₂ → Before w a n → a ∈ l₁ := by
  have h : Good w g (w.schedule g [] c) := good_schedule w g c []
    ⟨by simp, by simp, by intro l₁ n l₂ a e; simp at e⟩
  exact ⟨h.1, h.2.1, fun l₁ n l₂ a e hb => good_before h hb l₁ l₂ e⟩

/-- When an execution can go no further, exactly those tasks of the graph have run that do not wait,
directly or not, for a task that waits for itself. -/
theorem C198_complete (w : World) (hi : Inside w) (g : Nat) (c : List Node)
    (hmax : ∀ n, ¬ CanRun w g (w.schedule g [] c) n) (n : Node) (hn : Belongs w g n) :
    n ∈ w.schedule g [] c ↔ ¬ Hopeless w n := by
  have h : Good w g (w.schedule g [] c) := good_schedule w g c []
    ⟨by simp, by simp, by intro l₁ n l₂ a e; simp at e⟩
  exact ⟨good_hope h, good_complete hi hmax hn⟩

/-- A graph with two tasks one after the other, and two that wait for each other. -/
def graphDemo : World :=
  (World.init.run [.graph, .task, .task, .task, .task, .andThen (.root 0) (.task 0),
    .andThen (.task 0) (.task 1), .andThen (.root 0) (.task 2), .andThen (.task 2) (.task 3),
    .andThen (.task 3) (.task 2)]).1

example : graphDemo.schedule 0 [] [.task 1, .task 0, .root 0, .task 0, .task 2, .task 1, .task 3] =
    [.root 0, .task 0, .task 1] := by decide +kernel
example : Hopeless graphDemo (.task 2) := by
  have h1 : Edge graphDemo (.task 2) (.task 3) := by unfold Edge; decide +kernel
  have h2 : Edge graphDemo (.task 3) (.task 2) := by unfold Edge; decide +kernel
  exact ⟨.task 2, .tail (.single h1) h2, .inl rfl⟩

/-! ## C199: ordering tasks -/

/-- `then` with a task works, and puts both into one graph, when one of them is in a graph already
and no graph has been released.  Missing: two tasks that are in no graph, graphs that are gone,
tasks of different graphs. -/
theorem C199_then_partial (ops : List GOp) (hr : ∀ g, .release g ∉ ops) (a : Node) (t g : Nat)
    (ha : (World.init.run ops).1.has a = true) (ht : (World.init.run ops).1.has (.task t) = true)
    (hg : Belongs (World.init.run ops).1 g a ∨ Belongs (World.init.run ops).1 g (.task t))
    (hs : ∀ k k', Belongs (World.init.run ops).1 k a → Belongs (World.init.run ops).1 k' (.task t) → k = k') :
    ((World.init.run ops).1.step (.andThen a (.task t))).2 = some .ok ∧
      Edge ((World.init.run ops).1.step (.andThen a (.task t))).1 a (.task t) ∧
      ∃ k, Belongs ((World.init.run ops).1.step (.andThen a (.task t))).1 k a ∧
        Belongs ((World.init.run ops).1.step (.andThen a (.task t))).1 k (.task t) := by
  have hp : Placed (World.init.run ops).1 :=
    run_placed ops _ (by intro t g h; simp [World.init] at h) hr
  generalize (World.init.run ops).1 = w at *
  obtain ⟨h1, h2, _, _, h5⟩ := andThen_ok hp ha ht hg
  have e : w.step (.andThen a (.task t)) = ((w.andThen a (.task t)).1, some (w.andThen a (.task t)).2) := by
    simp [World.step, ha, ht]
  rw [e]
  refine ⟨by rw [h1], ?_, h5 hs⟩
  unfold Edge
  rw [h2]; simp

/-- `then` is defined only if the graphs of both exist: with a task of a graph that is gone it is not. -/
theorem C199_gone (w : World) (a : Node) (t g h : Nat) (ha : w.graphOf a = some g) (hb : w.graphOf (.task t) = some h)
    (hd : w.graphs[g]? ≠ some true ∨ w.graphs[h]? ≠ some true) : w.andThen a (.task t) = (w, .undefined) := by
  have hal : (w.alive g && w.alive h) = false := by
    unfold World.alive
    rcases hd with e | e
    · have : (w.graphs[g]? == some true) = false := by simpa using e
      rw [this]; rfl
    · have : (w.graphs[h]? == some true) = false := by simpa using e
      rw [this, Bool.and_false]
  have hj : w.join a (.task t) = (w, .undefined) := by
    unfold World.join
    rw [ha, hb]
    dsimp only
    rw [hal]
    rfl
  unfold World.andThen
  dsimp only
  rw [hb]
  cases a with
  | root k => exact hj
  | task s =>
    dsimp only
    rw [ha]
    exact hj

example : ((World.init.run [.graph, .task, .task, .andThen (.root 0) (.task 0), .andThen (.task 0) (.task 1),
    .release 0]).1.andThen (.task 0) (.task 1)).2 = .undefined := by decide +kernel

/-- Two tasks that are in no graph yet: the graph is a null pointer. -/
theorem C199_violation_loose :
    (World.init.run [.graph, .task, .task, .andThen (.task 0) (.task 1)]).2 =
      [none, none, none, some .undefined] := by decide +kernel

/-- A task outlives its graph but not its place in it. -/
theorem C199_violation_released :
    (World.init.run [.graph, .task, .task, .andThen (.root 0) (.task 0), .release 0,
      .andThen (.task 0) (.task 1)]).2 = [none, none, none, some .ok, none, some .undefined] := by
  decide +kernel

/-- Tasks of different graphs are accepted; then a task waits for one that is not part of the
execution, and is never run. -/
theorem C199_violation_graphs : ∃ ops : List GOp,
    (World.init.run ops).2.getLast? = some (some .ok) ∧
    Belongs (World.init.run ops).1 1 (.task 1) ∧ ¬ Hopeless (World.init.run ops).1 (.task 1) ∧
      ∀ c, .task 1 ∉ (World.init.run ops).1.schedule 1 [] c := by
  refine ⟨[.graph, .graph, .task, .task, .andThen (.root 0) (.task 0), .andThen (.root 1) (.task 1),
    .andThen (.task 0) (.task 1)], by decide +kernel, ?_, ?_, ?_⟩
  · change (World.init.run _).1.tasks[1]? = _; decide +kernel
  · have e : (World.init.run [.graph, .graph, .task, .task, .andThen (.root 0) (.task 0),
        .andThen (.root 1) (.task 1), .andThen (.task 0) (.task 1)]).1.edges =
        [(.root 0, .task 0), (.root 1, .task 1), (.task 0, .task 1)] := by decide +kernel
    have rank : ∀ w : World, w.edges = [(.root 0, .task 0), (.root 1, .task 1), (.task 0, .task 1)] →
        ∀ a b, Before w a b → (match a with | .root _ => 0 | .task t => t + 1) <
          (match b with | .root _ => 0 | .task t => t + 1) := by
      intro w hw a b h
      induction h with
      | single h =>
        simp [Edge, hw] at h
        rcases h with ⟨rfl, rfl⟩ | ⟨rfl, rfl⟩ | ⟨rfl, rfl⟩ <;> simp
      | tail _ h ih =>
        simp [Edge, hw] at h
        rcases h with ⟨rfl, rfl⟩ | ⟨rfl, rfl⟩ | ⟨rfl, rfl⟩ <;> simp at ih ⊢ <;> omega
    rintro ⟨m, hm, _⟩
    exact Nat.lt_irrefl _ (rank _ e _ _ hm)
  · intro c h
    generalize hw : (World.init.run [.graph, .graph, .task, .task, .andThen (.root 0) (.task 0),
        .andThen (.root 1) (.task 1), .andThen (.task 0) (.task 1)]).1 = w at h
    have e : Edge w (.task 0) (.task 1) := by unfold Edge; rw [← hw]; decide +kernel
    have ht : w.tasks = [some 0, some 1] := by rw [← hw]; decide +kernel
    obtain ⟨_, h2, h3⟩ := C198_order w 1 c
    obtain ⟨u, v, huv⟩ := List.append_of_mem h
    have h0 := h3 u _ v _ huv (.single e)
    have := h2 (.task 0) (by rw [huv]; simp [h0])
    change w.tasks[0]? = some (some 1) at this
    rw [ht] at this; simp at this

example : (World.init.run [.graph, .task, .task, .andThen (.root 0) (.task 1), .andThen (.task 0) (.task 1)]).2 =
    [none, none, none, some .ok, some .ok] := by decide +kernel

/-! ## C200: a stopped scheduler takes no more work -/

theorem stopped_run (ops : List SOp) (s : Sch) (h : s.stopped = true) (hm : s.main = none) :
    ∀ p ∈ ops.zip (s.run ops).2,
      (p.1 = .schedule → p.2 = .failed true) ∧ ((∃ op, p.1 = .main op) → p.2 = .failed false) ∧
        (p.1 = .isMainLoopSet → p.2 = .bool false) := by
  induction ops generalizing s with
  | nil => simp
  | cons op ops ih =>
    have hs : (s.step op).1.stopped = true ∧ (s.step op).1.main = none := by
      cases op with
      | schedule => exact ⟨h, hm⟩
      | waitAll => exact ⟨h, hm⟩
      | isMultiThreaded => exact ⟨h, hm⟩
      | stop => simp [Sch.step, hm]
      | isMainLoopSet => exact ⟨h, hm⟩
      | main op => simp [Sch.step, hm, h]
    have first : ∀ q, q = (s.step op).2 → (op = .schedule → q = .failed true) ∧
        ((∃ o, op = .main o) → q = .failed false) ∧ (op = .isMainLoopSet → q = .bool false) := by
      rintro q rfl
      refine ⟨?_, ?_, ?_⟩
      · rintro rfl; simp [Sch.step, h]
      · rintro ⟨o, rfl⟩; simp [Sch.step, hm]
      · rintro rfl; simp [Sch.step, hm]
    intro p hp
    unfold Sch.run at hp
    split at hp
    · rename_i hu
      simp at hp
      subst hp
      exact first _ hu.symm
    · simp only [List.zip_cons_cons, List.mem_cons] at hp
      rcases hp with rfl | hp
      · exact first _ rfl
      · exact ih _ hs.1 hs.2 p hp

/-- Once `stop` has returned, every attempt to schedule something is refused, and the main loop is
gone. -/
theorem C200_refused (s : Sch) (ops : List SOp) (h : (s.step .stop).2 = .ok) :
    ∀ p ∈ ops.zip ((s.step .stop).1.run ops).2,
      (p.1 = .schedule → p.2 = .failed true) ∧ ((∃ op, p.1 = .main op) → p.2 = .failed false) ∧
        (p.1 = .isMainLoopSet → p.2 = .bool false) := by
  have : (s.step .stop).1.stopped = true ∧ (s.step .stop).1.main = none := by
    cases e : s.main with
    | none => simp [Sch.step, e]
    | some m =>
      by_cases hi : m.idle = true
      · simp [Sch.step, e, hi]
      · simp [Sch.step, e, hi] at h
  exact stopped_run ops _ this.1 this.2

/-- Until then nothing is refused for that reason. -/
theorem C200_accepted (s : Sch) (h : s.stopped = false) : (s.step .schedule).2 = .ok := by
  simp [Sch.step, h]

example : (Sch.run ⟨2, false, some St.init⟩ [.schedule, .main (.post .once), .stop, .schedule,
    .main (.post .once), .isMainLoopSet, .stop]).2 =
    [.ok, .seen [.posted ⟨0, .once⟩], .ok, .failed true, .failed false, .bool false, .ok] := by
  decide +kernel

/-! ## C201: every call is defined -/

/-- Calls are defined as long as the scheduler is not stopped, or only asked to schedule, about its
main loop, or to stop again; and `stop` is, when no call of the main loop is in progress. Missing:
the other calls after a stop, and stopping a scheduler whose main loop is in use. -/
theorem C201_defined_partial (s : Sch) (op : SOp)
    (h : s.stopped = false ∨ (op ≠ .waitAll ∧ op ≠ .isMultiThreaded))
    (hs : op = .stop → ∀ m, s.main = some m → Idle m) : (s.step op).2 ≠ .undefined := by
  cases op with
  | schedule => simp [Sch.step]; split <;> simp
  | waitAll =>
    rcases h with h | h
    · simp [Sch.step, h]
    · exact absurd rfl h.1
  | isMultiThreaded =>
    rcases h with h | h
    · simp [Sch.step, h]
    · exact absurd rfl h.2
  | stop =>
    cases e : s.main with
    | none => simp [Sch.step, e]
    | some m =>
      have hi := hs rfl m e
      have : m.idle = true := by
        simp only [St.idle, List.all_eq_true, beq_iff_eq]
        intro o ho
        obtain ⟨i, hi'⟩ := List.mem_iff_getElem?.mp ho
        cases o with
        | none => rfl
        | some f => exact absurd hi' (hi i f)
      simp [Sch.step, e, this]
  | isMainLoopSet => simp [Sch.step]
  | main op =>
    cases e : s.main with
    | none => simp [Sch.step, e]
    | some m => simp [Sch.step, e]

/-- Waiting for a stopped scheduler, or asking it how many threads it has, uses the pool that is
gone. -/
theorem C201_violation_stopped : ∀ w : Nat, ∀ m : Bool,
    (Sch.run ⟨w, false, if m then some St.init else none⟩ [.stop, .waitAll]).2 = [.ok, .undefined] ∧
    (Sch.run ⟨w, false, if m then some St.init else none⟩ [.stop, .isMultiThreaded]).2 =
      [.ok, .undefined] := by
  intro w m
  cases m <;> simp [Sch.run, Sch.step, St.init, St.idle]

/-- Stopping the scheduler while its main loop is running, for example from a work that the loop
runs, destroys the loop under its feet. -/
theorem C201_violation_loop : (Sch.run ⟨1, false, some St.init⟩
    [.main (.post .once), .main (.start false), .main (.wake 0), .stop]).2 =
    [.seen [.posted ⟨0, .once⟩], .seen [.started 0 false], .seen [], .undefined] := by decide +kernel

end Verif.Sched.Props
