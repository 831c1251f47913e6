import Verif.Journal.Demo

/-! # Properties of loggers -/

namespace Verif.Journal

theorem lookup_append (n : Name) (l : List (Name × Nat)) (x : Name × Nat) (i : Nat)
    (h : lookup n l = some i) : lookup n (l ++ [x]) = some i := by
  induction l with
  | nil => cases h
  | cons y l ih =>
    simp only [lookup, List.cons_append] at h ⊢
    split
    · next e => rw [if_pos e] at h; exact h
    · next e => rw [if_neg e] at h; exact ih h

theorem lookup_new (n : Name) (l : List (Name × Nat)) (i : Nat) (h : lookup n l = none) :
    lookup n (l ++ [(n, i)]) = some i := by
  induction l with
  | nil => simp [lookup]
  | cons y l ih =>
    simp only [lookup, List.cons_append] at h ⊢
    split
    · next e => rw [if_pos e] at h; cases h
    · next e => rw [if_neg e] at h; exact ih h

theorem lookup_mem (n : Name) (l : List (Name × Nat)) (i : Nat) (h : lookup n l = some i) : (n, i) ∈ l := by
  induction l with
  | nil => cases h
  | cons y l ih =>
    simp only [lookup] at h
    split at h
    · next e => cases h; cases y; cases e; exact List.mem_cons_self
    · exact List.mem_cons_of_mem _ (ih h)

theorem lookup_filter (n m : Name) (l : List (Name × Nat)) (h : m ≠ n) :
    lookup n (l.filter fun x => x.1 ≠ m) = lookup n l := by
  induction l with
  | nil => rfl
  | cons y l ih =>
    by_cases e : y.1 = m
    · rw [List.filter_cons_of_neg (by simp [e]), ih]
      simp [lookup, show ¬ y.1 = n from fun z => h (e.symm.trans z)]
    · rw [List.filter_cons_of_pos (by simp [e])]
      simp only [lookup, ih]

theorem lookup_removed (n : Name) (l : List (Name × Nat)) : lookup n (l.filter fun x => x.1 ≠ n) = none := by
  induction l with
  | nil => rfl
  | cons y l ih =>
    by_cases e : y.1 = n
    · rw [List.filter_cons_of_neg (by simp [e]), ih]
    · rw [List.filter_cons_of_pos (by simp [e])]
      simp only [lookup, if_neg e]
      exact ih

theorem lookup_none (n : Name) (l : List (Name × Nat)) (h : lookup n l = none) : n ∉ l.map Prod.fst := by
  induction l with
  | nil => simp
  | cons y l ih =>
    simp only [lookup] at h
    split at h
    · cases h
    · next e => simp only [List.map_cons, List.mem_cons, not_or]; exact ⟨fun z => e z.symm, ih h⟩

/-! ## C357: one component for each name -/

theorem lookup_step (env : Env) (s : State) (op : Op) (n : Name) (i : Nat) (h : lookup n s.named = some i)
    (k : op ≠ .remove n) : lookup n (s.step env op).1.named = some i := by
  have mk : ∀ m, lookup n (s.make env m).named = some i := fun m => lookup_append n _ _ i h
  cases op with
  | getOrAdd m =>
    simp only [State.step, State.getOrAdd]
    split
    · exact h
    · split
      · exact h
      · exact mk m
  | add m =>
    simp only [State.step, State.add]
    split
    · exact h
    · split
      · exact h
      · exact mk m
  | remove m =>
    simp only [State.step, State.remove]
    split
    · exact h
    · simp only
      rw [lookup_filter n m _ (fun z => k (by rw [z]))]
      exact h
  | log j m l =>
    simp only [State.step, State.log]
    split <;> exact h
  | _ => exact h

theorem lookup_run (env : Env) (n : Name) (i : Nat) (ops : List Op) : ∀ s : State, lookup n s.named = some i →
    (∀ op ∈ ops, op ≠ .remove n) → lookup n (run env s ops).named = some i := by
  induction ops with
  | nil => exact fun _ h _ => h
  | cons op ops ih =>
    exact fun s h k => ih _ (lookup_step env s op n i h (k op List.mem_cons_self))
      (fun o m => k o (List.mem_cons_of_mem _ m))

theorem got_lookup (env : Env) (s : State) (n : Name) (i : Nat) (h : (s.step env (.getOrAdd n)).2 = .comp i) :
    n ≠ [] ∧ lookup n (s.step env (.getOrAdd n)).1.named = some i := by
  simp only [State.step, State.getOrAdd] at h ⊢
  split at h
  · cases h
  · next e =>
    refine ⟨e, ?_⟩
    rw [if_neg e]
    cases q : lookup n s.named with
    | some j => rw [q] at h; cases h; exact q
    | none => rw [q] at h; cases h; exact lookup_new n _ _ q

/-- From the moment a component was got by a name until it is removed by that name, the same component is
got by the name, whatever else is done, and no other can be added. -/
theorem C357_same (env : Env) (s : State) (n : Name) (i : Nat) (ops : List Op)
    (h : (s.step env (.getOrAdd n)).2 = .comp i) (k : ∀ op ∈ ops, op ≠ .remove n) :
    ∀ t, t = run env (s.step env (.getOrAdd n)).1 ops →
      t.step env (.getOrAdd n) = (t, .comp i) ∧ t.step env (.get n) = (t, .comp i)
        ∧ t.step env (.add n) = (t, .exists) := by
  intro t e
  obtain ⟨a, b⟩ := got_lookup env s n i h
  have q := lookup_run env n i ops _ b k
  rw [← e] at q
  simp [State.step, State.getOrAdd, State.get, State.add, a, q]

example : ((run env (init 7 2) (used.take 9)).step env (.getOrAdd ['a'])).2 = .comp 0
    ∧ ((init 7 2).step env (.getOrAdd ['a'])).2 = .comp 0 := by decide

/-- After it was removed it is not found, and the next component of that name is a new one. -/
theorem C357_removed (env : Env) (s : State) (n : Name) (a : n ≠ []) (h : (s.step env (.remove n)).2 = .ok) :
    ((s.step env (.remove n)).1.step env (.get n)).2 = .notFound
      ∧ ((s.step env (.remove n)).1.step env (.remove n)).2 = .notFound
      ∧ ((s.step env (.remove n)).1.step env (.getOrAdd n)).2 = .comp s.comps.length
      ∧ ((s.step env (.remove n)).1.step env (.add n)).2 = .comp s.comps.length := by
  cases q : lookup n s.named with
  | none => simp [State.step, State.remove, q] at h
  | some i =>
    have r := lookup_removed n s.named
    have e : (s.step env (.remove n)).1 = { s with named := s.named.filter (fun x => x.1 ≠ n) } := by
      simp [State.step, State.remove, q]
    rw [e]
    simp only [State.step, State.get, State.remove, State.getOrAdd, State.add, r, if_neg a]
    exact ⟨trivial, trivial, trivial, trivial⟩

example : ((run env (init 7 2) used).step env (.get ['a'])).2 = .comp 2 := by decide

/-- What holds all the time. -/
structure Good (s : State) : Prop where
  name : ∀ x ∈ s.named, (s.comps[x.2]?).map Comp.name = some x.1
  nodup : (s.named.map Prod.fst).Nodup

theorem names_mapIdx (l : List Comp) (f : Nat → Comp → Comp) (h : ∀ j c, (f j c).name = c.name) (i : Nat) :
    ((l.mapIdx f)[i]?).map Comp.name = (l[i]?).map Comp.name := by
  rw [List.getElem?_mapIdx]
  cases l[i]? with
  | none => rfl
  | some c => exact congrArg some (h i c)

theorem good_make (env : Env) (s : State) (n : Name) (g : Good s) (h : lookup n s.named = none) :
    Good (s.make env n) := by
  refine ⟨fun x m => ?_, ?_⟩
  · simp only [State.make, List.mem_append, List.mem_singleton] at m
    rcases m with m | rfl
    · have := g.name x m
      have lt : x.2 < s.comps.length := by
        rcases Nat.lt_or_ge x.2 s.comps.length with a | a
        · exact a
        · rw [List.getElem?_eq_none a] at this; cases this
      simp only [State.make, List.getElem?_append_left lt]
      exact this
    · simp [State.make]
  · simp only [State.make, List.map_append, List.map_cons, List.map_nil]
    rw [List.nodup_append]
    refine ⟨g.nodup, (by simp), fun a m b mb e => ?_⟩
    rw [List.mem_singleton] at mb
    exact lookup_none n _ h (by rw [← mb, ← e]; exact m)

theorem good_step (env : Env) (s : State) (op : Op) (g : Good s) : Good (s.step env op).1 := by
  cases op with
  | getOrAdd m =>
    simp only [State.step, State.getOrAdd]
    split
    · exact g
    · split
      · exact g
      · next q => exact good_make env s m g q
  | add m =>
    simp only [State.step, State.add]
    split
    · exact g
    · split
      · exact g
      · next q => exact good_make env s m g q
  | remove m =>
    simp only [State.step, State.remove]
    split
    · exact g
    · exact ⟨fun x h => g.name x (List.mem_filter.mp h).1,
        g.nodup.sublist (List.filter_sublist.map _)⟩
  | flushOn l =>
    exact ⟨fun x m => (names_mapIdx _ _ (fun j c => by split <;> rfl) _).trans (g.name x m), g.nodup⟩
  | compLevel i l =>
    exact ⟨fun x m => (names_mapIdx _ _ (fun j c => by split <;> rfl) _).trans (g.name x m), g.nodup⟩
  | compFlush i l =>
    exact ⟨fun x m => (names_mapIdx _ _ (fun j c => by split <;> rfl) _).trans (g.name x m), g.nodup⟩
  | log j m l =>
    simp only [State.step, State.log]
    split
    · exact ⟨g.name, g.nodup⟩
    · exact g
  | setLevel l => exact ⟨g.name, g.nodup⟩
  | sinkLevel k l => exact ⟨g.name, g.nodup⟩
  | getLevel => exact g
  | get n => exact g
  | all => exact g
  | askLevel i => exact g
  | should i l => exact g

theorem good_run (env : Env) (ops : List Op) : ∀ s, Good s → Good (run env s ops) := by
  induction ops with
  | nil => exact fun _ g => g
  | cons op ops ih => exact fun s g => ih _ (good_step env s op g)

theorem good_init (l k : Nat) : Good (init l k) := ⟨nofun, List.nodup_nil⟩

/-- Whatever has happened, the component got by a name has that name, so that components got by different
names are different, and no name is listed twice. -/
theorem C357_name (env : Env) (l k : Nat) (ops : List Op) (n : Name) (i : Nat) :
    ∀ s, s = run env (init l k) ops → (s.step env (.getOrAdd n)).2 = .comp i →
      (((s.step env (.getOrAdd n)).1.comps)[i]?).map Comp.name = some n
        ∧ (s.named.map Prod.fst).Nodup ∧ (s.step env .all).2 = .comps (s.named.map Prod.snd) := by
  intro s e h
  have g : Good s := by rw [e]; exact good_run env ops _ (good_init l k)
  exact ⟨(good_step env s _ g).name _ (lookup_mem _ _ _ (got_lookup env s n i h).2), g.nodup, rfl⟩

example : ((run env (init 7 2) used).step env .all).2 = .comps [1, 2] := by decide

/-! ## C358: components inherit and keep their levels -/

/-- A new component has the level and the flush level that the logger has at that moment. -/
theorem C358_inherit (env : Env) (s : State) (n : Name) (a : n ≠ []) (h : (s.step env (.get n)).2 = .notFound) :
    (∀ op ∈ [Op.getOrAdd n, .add n], (s.step env op).2 = .comp s.comps.length
      ∧ (s.step env op).1.comps[s.comps.length]? = some ⟨n, resolve env n s.level, s.flush⟩) := by
  have q : lookup n s.named = none := by
    simp only [State.step, State.get] at h
    cases q : lookup n s.named with
    | none => rfl
    | some i => rw [q] at h; cases h
  intro op m
  simp only [List.mem_cons, List.not_mem_nil, or_false] at m
  rcases m with rfl | rfl <;> simp [State.step, State.getOrAdd, State.add, a, q, State.make]

example : ((init 3 1).step env (.add ['x'])).1.comps = [⟨['x'], 3, 6⟩] := by decide

theorem level_step (env : Env) (s : State) (op : Op) (i : Nat) (c : Comp) (h : s.comps[i]? = some c) :
    ∃ d, (s.step env op).1.comps[i]? = some d ∧ d.name = c.name
      ∧ d.level = (match given i [op] none with | none => c.level | some l => resolve env c.name l) := by
  have lt : i < s.comps.length := by
    rcases Nat.lt_or_ge i s.comps.length with a | a
    · exact a
    · rw [List.getElem?_eq_none a] at h; cases h
  have mk : ∀ m, (s.make env m).comps[i]? = some c := fun m => by
    simp only [State.make, List.getElem?_append_left lt]; exact h
  cases op with
  | getOrAdd m =>
    simp only [State.step, State.getOrAdd]
    split
    · exact ⟨c, h, rfl, rfl⟩
    · split
      · exact ⟨c, h, rfl, rfl⟩
      · exact ⟨c, mk m, rfl, rfl⟩
  | add m =>
    simp only [State.step, State.add]
    split
    · exact ⟨c, h, rfl, rfl⟩
    · split
      · exact ⟨c, h, rfl, rfl⟩
      · exact ⟨c, mk m, rfl, rfl⟩
  | remove m =>
    simp only [State.step, State.remove]
    split <;> exact ⟨c, h, rfl, rfl⟩
  | flushOn l =>
    simp only [State.step, State.flushOn, List.getElem?_mapIdx, h, Option.map_some, given]
    exact ⟨_, rfl, by split <;> rfl, by split <;> rfl⟩
  | compLevel j l =>
    simp only [State.step, State.change, List.getElem?_mapIdx, h, Option.map_some, given]
    by_cases e : j = i
    · subst e; exact ⟨_, rfl, by simp, by simp⟩
    · exact ⟨_, rfl, by simp [show ¬ i = j from fun z => e z.symm], by
        simp [show ¬ i = j from fun z => e z.symm, e]⟩
  | compFlush j l =>
    simp only [State.step, State.change, List.getElem?_mapIdx, h, Option.map_some, given]
    exact ⟨_, rfl, by split <;> rfl, by split <;> rfl⟩
  | log j m l =>
    simp only [State.step, State.log]
    split <;> exact ⟨c, h, rfl, rfl⟩
  | _ => exact ⟨c, h, rfl, rfl⟩

theorem given_cons (i : Nat) (op : Op) (ops : List Op) (o : Option Nat) :
    given i (op :: ops) o = given i ops (given i [op] o) := by
  cases op <;> rfl

theorem given_or (i : Nat) (ops : List Op) : ∀ o, given i ops o = (given i ops none).or o := by
  induction ops with
  | nil => intro o; cases o <;> rfl
  | cons op ops ih =>
    intro o
    cases op with
    | compLevel j l =>
      simp only [given]
      by_cases e : j = i
      · simp only [e, if_true]
        rw [ih (some l)]
        cases given i ops none <;> rfl
      · simp only [e, if_false]; exact ih o
    | _ => exact ih o

/-- Afterwards its level is the one last set on it, wherever it was got from — whether it was removed in
between or not —, and never changes otherwise: not with the level of the logger, and not with other
components. -/
theorem C358_own (env : Env) (ops : List Op) : ∀ (s : State) (i : Nat) (c : Comp), s.comps[i]? = some c →
    ∃ d, (run env s ops).comps[i]? = some d ∧ d.name = c.name
      ∧ d.level = (match given i ops none with | none => c.level | some l => resolve env c.name l) := by
  induction ops with
  | nil => exact fun s i c h => ⟨c, h, rfl, rfl⟩
  | cons op ops ih =>
    intro s i c h
    obtain ⟨d, a, b, e⟩ := level_step env s op i c h
    obtain ⟨d', a', b', e'⟩ := ih _ i d a
    refine ⟨d', a', b'.trans b, e'.trans ?_⟩
    rw [given_cons, given_or i ops (given i [op] none)]
    cases q : given i ops none with
    | some l => rw [b]; rfl
    | none => rw [e]; rfl

example : (run env (init 7 2) used).comps.map Comp.level = [1, 4, 3] := by decide

/-- After `flushOnLevel`, every component of the logger, also those made later, has that flush level, until
another one is set. -/
theorem C358_flush (env : Env) (l₀ s₀ l : Nat) (pre ops : List Op)
    (h : ∀ op ∈ ops, (∀ m, op ≠ .flushOn m) ∧ ∀ i m, op ≠ .compFlush i m) :
    ∀ x ∈ (run env ((run env (init l₀ s₀) pre).step env (.flushOn l)).1 ops).named,
      (((run env ((run env (init l₀ s₀) pre).step env (.flushOn l)).1 ops).comps)[x.2]?).map Comp.flush
        = some l := by
  have key : ∀ (ops : List Op) (s : State), s.flush = l →
      (∀ x ∈ s.named, ((s.comps)[x.2]?).map Comp.flush = some l) →
      (∀ op ∈ ops, (∀ m, op ≠ .flushOn m) ∧ ∀ i m, op ≠ .compFlush i m) →
      ∀ x ∈ (run env s ops).named, (((run env s ops).comps)[x.2]?).map Comp.flush = some l := by
    intro ops
    induction ops with
    | nil => exact fun s _ h _ => h
    | cons op ops ih =>
      intro s f g h
      have mk : ∀ m, ∀ x ∈ (s.make env m).named, (((s.make env m).comps)[x.2]?).map Comp.flush = some l := by
        intro m x mx
        simp only [State.make, List.mem_append, List.mem_singleton] at mx
        rcases mx with mx | rfl
        · have := g x mx
          have lt : x.2 < s.comps.length := by
            rcases Nat.lt_or_ge x.2 s.comps.length with a | a
            · exact a
            · rw [List.getElem?_eq_none a] at this; cases this
          simp only [State.make, List.getElem?_append_left lt]
          exact this
        · simp [State.make, f]
      have st : (s.step env op).1.flush = l
          ∧ ∀ x ∈ (s.step env op).1.named, (((s.step env op).1.comps)[x.2]?).map Comp.flush = some l := by
        cases op with
        | getOrAdd m =>
          simp only [State.step, State.getOrAdd]
          split
          · exact ⟨f, g⟩
          · split
            · exact ⟨f, g⟩
            · exact ⟨f, mk m⟩
        | add m =>
          simp only [State.step, State.add]
          split
          · exact ⟨f, g⟩
          · split
            · exact ⟨f, g⟩
            · exact ⟨f, mk m⟩
        | remove m =>
          simp only [State.step, State.remove]
          split
          · exact ⟨f, g⟩
          · exact ⟨f, fun x mx => g x (List.mem_filter.mp mx).1⟩
        | flushOn m => exact absurd rfl ((h _ List.mem_cons_self).1 m)
        | compFlush i m => exact absurd rfl ((h _ List.mem_cons_self).2 i m)
        | compLevel i m =>
          refine ⟨f, fun x mx => ?_⟩
          simp only [State.step, State.change, List.getElem?_mapIdx]
          have := g x mx
          cases q : s.comps[x.2]? with
          | none => rw [q] at this; cases this
          | some c =>
            rw [q] at this
            simp only [Option.map_some] at this ⊢
            rw [← this]
            split <;> rfl
        | log j m l =>
          simp only [State.step, State.log]
          split <;> exact ⟨f, g⟩
        | _ => exact ⟨f, g⟩
      exact ih _ st.1 st.2 (fun o m => h o (List.mem_cons_of_mem _ m))
  have g := good_run env pre _ (good_init l₀ s₀)
  refine key ops _ rfl (fun x mx => ?_) h
  have mx' : x ∈ (run env (init l₀ s₀) pre).named := mx
  have e := g.name x mx'
  simp only [State.step, State.flushOn, List.getElem?_mapIdx]
  cases q : (run env (init l₀ s₀) pre).comps[x.2]? with
  | none => rw [q] at e; cases e
  | some c => simp [List.mem_map_of_mem (f := Prod.snd) mx']

example : (run env (init 7 2) used).comps.map Comp.flush = [5, 5, 5] := by decide

/-! ## C359: messages come out where they should -/

theorem at_range (k i m l : Nat) (levels : List Nat) (n : Nat) :
    at' k ((List.range n).filterMap fun j => if levels.getD j 0 ≤ l then some (⟨j, i, m⟩ : Entry) else none)
      = if k < n ∧ levels.getD k 0 ≤ l then [(i, m)] else [] := by
  induction n with
  | zero => simp [at']
  | succ n ih =>
    simp only [at'] at ih ⊢
    rw [List.range_succ, List.filterMap_append, List.filter_append, List.map_append, ih]
    by_cases e : n = k
    · subst e
      by_cases v : levels.getD n 0 ≤ l
      · simp [List.filterMap_cons, v, -List.getD_eq_getElem?_getD]
      · simp [List.filterMap_cons, v, -List.getD_eq_getElem?_getD]
    · by_cases v : levels.getD n 0 ≤ l
      · simp only [List.filterMap_cons, v, if_true, List.filterMap_nil]
        simp only [List.filter_cons, e, decide_false, Bool.false_eq_true, if_false, List.filter_nil, List.map_nil,
          List.append_nil]
        by_cases w : k < n
        · simp [w, Nat.lt_succ_of_lt w]
        · simp [w, show ¬ k < n + 1 by omega]
      · simp only [List.filterMap_cons, v, if_false, List.filterMap_nil, List.filter_nil, List.map_nil,
          List.append_nil]
        by_cases w : k < n
        · simp [w, Nat.lt_succ_of_lt w]
        · simp [w, show ¬ k < n + 1 by omega]

/-- A message given to a component comes out at a sink, once and after all messages before, exactly if its
level is not below that of the component and not below that of the sink; no other call makes anything come
out, or disappear. -/
theorem C359_written (env : Env) (s : State) (k : Nat) :
    (∀ i m l c, s.comps[i]? = some c → at' k (s.step env (.log i m l)).1.out
      = at' k s.out ++ if c.level ≤ l ∧ k < s.sinks.length ∧ s.sinks.getD k 0 ≤ l then [(i, m)] else [])
      ∧ ∀ op, (∀ i m l, op ≠ .log i m l) → (s.step env op).1.out = s.out := by
  refine ⟨fun i m l c h => ?_, fun op h => ?_⟩
  · simp only [State.step, State.log, State.will, h]
    by_cases v : c.level ≤ l
    · simp only [v, decide_true, if_true, true_and]
      have := at_range k i m l s.sinks s.sinks.length
      rw [← this]
      simp [at', List.filter_append]
    · simp [v]
  · cases op with
    | log i m l => exact absurd rfl (h i m l)
    | getOrAdd m =>
      simp only [State.step, State.getOrAdd]
      split
      · rfl
      · split <;> rfl
    | add m =>
      simp only [State.step, State.add]
      split
      · rfl
      · split <;> rfl
    | remove m =>
      simp only [State.step, State.remove]
      split <;> rfl
    | _ => rfl

example : at' 0 (run env (init 7 2) used).out = [(0, 100), (1, 101), (0, 103), (0, 104)]
    ∧ at' 1 (run env (init 7 2) used).out = [(0, 103)] := by decide

/-- When a component says that it will not log a level, a message of that level changes nothing. -/
theorem C359_should (env : Env) (s : State) (i m l : Nat) (h : (s.step env (.should i l)).2 = .will false) :
    (s.step env (.log i m l)).1 = s := by
  have e : s.will i l = false := Out.will.inj h
  simp [State.step, State.log, e]

example : ((run env (init 7 2) used).step env (.should 1 3)).2 = .will false := by decide

/-! ## C360: a component that is off is silent -/

/-- A component whose level is off logs no message of the levels below.  Missing: messages of the level
off. -/
theorem C360_off_partial (env : Env) (s : State) (i m l : Nat) (c : Comp) (h : s.comps[i]? = some c)
    (o : c.level = off) (lt : l < off) : (s.step env (.log i m l)).1 = s := by
  have : ¬ c.level ≤ l := by omega
  simp [State.step, State.log, State.will, h, this]

example : ((run env (init 6 1) [.add ['x']]).step env (.log 0 1 5)).1.out = [] := by decide

/-- A message of the level off comes out of a component that is off. -/
theorem C360_off_violation :
    (run env (init 6 1) [.add ['x']]).comps.map Comp.level = [off]
      ∧ ((run env (init 6 1) [.add ['x']]).step env (.log 0 1 6)).1.out = [⟨0, 0, 1⟩] := by decide

/-! ## C361: default levels come from the environment -/

/-- The default level of a component is the one its own variable names, else the one the general variable
names, else the compiled one.  Missing: the own variable is a number above all levels. -/
theorem C361_env_partial (env : Env) (n : Name)
    (h : ∀ v, env.own (upper n) = some (some v) → v ≤ 6) : resolve env n dflt = wanted env n := by
  have g : ∀ o : Option (Option Int),
      (if read o < 0 ∨ (off : Int) < read o then env.compiled else (read o).toNat)
        = match valid o with | some l => l | none => env.compiled := by
    intro o
    have six : ((off : Nat) : Int) = 6 := rfl
    cases o with
    | none => rfl
    | some p =>
      cases p with
      | none => rfl
      | some v =>
        have r : read (some (some v)) = v := rfl
        rw [r, six]
        simp only [valid]
        by_cases a : 0 ≤ v ∧ v ≤ 6
        · rw [if_pos a, if_neg (by omega)]
        · rw [if_neg a, if_pos (by omega)]
  have u : resolve env n dflt
      = if (if read (env.own (upper n)) < 0 then read env.general else read (env.own (upper n))) < 0
          ∨ (off : Int) < (if read (env.own (upper n)) < 0 then read env.general else read (env.own (upper n)))
        then env.compiled
        else (if read (env.own (upper n)) < 0 then read env.general else read (env.own (upper n))).toNat := rfl
  rw [u]
  simp only [wanted]
  cases e : env.own (upper n) with
  | none => exact g env.general
  | some p =>
    cases p with
    | none => exact g env.general
    | some v =>
      have le := h v e
      have r : read (some (some v)) = v := rfl
      have six : ((off : Nat) : Int) = 6 := rfl
      by_cases a : v < 0
      · simp only [r, a, if_true, valid, if_neg (show ¬ (0 ≤ v ∧ v ≤ 6) by omega)]
        exact g env.general
      · simp only [r, if_neg a, valid, if_pos (show 0 ≤ v ∧ v ≤ 6 by omega), six]
        rw [if_neg (by omega)]

example : resolve env ['a'] dflt = 1 ∧ resolve env ['x'] dflt = 4 := by decide

/-- A number above all levels in the own variable hides the general one. -/
theorem C361_env_violation : resolve env ['b'] dflt = 2 ∧ wanted env ['b'] = 4 := by decide

/-! ## C362: components have real levels -/

/-- When all levels given are levels, the one for the default among them, the levels of components are
real ones at all times: the default is replaced at once. -/
theorem C362_real (env : Env) (ops : List Op) (l k : Nat) (he : env.compiled ≤ off) (hl : l ≤ dflt)
    (h : ∀ op ∈ ops, (∀ m, op = .setLevel m → m ≤ dflt) ∧ ∀ i m, op = .compLevel i m → m ≤ dflt) :
    ∀ c ∈ (run env (init l k) ops).comps, c.level ≤ off := by
  have d : ∀ n m, m ≤ dflt → resolve env n m ≤ off := by
    intro n m hm
    have q : ∀ b : Int, (if b < 0 ∨ (off : Int) < b then env.compiled else b.toNat) ≤ off := by
      intro b
      by_cases z : b < 0 ∨ (off : Int) < b
      · rw [if_pos z]; exact he
      · rw [if_neg z]; omega
    by_cases e : m = dflt
    · rw [resolve, if_pos e]; exact q _
    · rw [resolve, if_neg e]; simp only [dflt, off] at *; omega
  have key : ∀ (ops : List Op) (s : State), s.level ≤ dflt → (∀ c ∈ s.comps, c.level ≤ off) →
      (∀ op ∈ ops, (∀ m, op = .setLevel m → m ≤ dflt) ∧ ∀ i m, op = .compLevel i m → m ≤ dflt) →
      ∀ c ∈ (run env s ops).comps, c.level ≤ off := by
    intro ops
    induction ops with
    | nil => exact fun s _ h _ => h
    | cons op ops ih =>
      intro s a b h
      have ho := h op List.mem_cons_self
      have mk : ∀ m, ∀ c ∈ (s.make env m).comps, c.level ≤ off := by
        intro m c mc
        simp only [State.make, List.mem_append, List.mem_singleton] at mc
        rcases mc with mc | rfl
        · exact b c mc
        · exact d m _ a
      have mi : ∀ f : Nat → Comp → Comp, (∀ j c, c.level ≤ off → (f j c).level ≤ off) →
          ∀ c ∈ s.comps.mapIdx f, c.level ≤ off := by
        intro f hf c mc
        obtain ⟨j, hj, rfl⟩ := List.mem_mapIdx.mp mc
        exact hf _ _ (b _ (List.getElem_mem _))
      have st : (s.step env op).1.level ≤ dflt ∧ ∀ c ∈ (s.step env op).1.comps, c.level ≤ off := by
        cases op with
        | setLevel m => exact ⟨ho.1 m rfl, b⟩
        | getOrAdd m =>
          simp only [State.step, State.getOrAdd]
          split
          · exact ⟨a, b⟩
          · split
            · exact ⟨a, b⟩
            · exact ⟨a, mk m⟩
        | add m =>
          simp only [State.step, State.add]
          split
          · exact ⟨a, b⟩
          · split
            · exact ⟨a, b⟩
            · exact ⟨a, mk m⟩
        | remove m =>
          simp only [State.step, State.remove]
          split <;> exact ⟨a, b⟩
        | flushOn m => exact ⟨a, mi _ (fun j c q => by split <;> exact q)⟩
        | compFlush i m => exact ⟨a, mi _ (fun j c q => by split <;> exact q)⟩
        | compLevel i m =>
          refine ⟨a, mi _ (fun j c q => ?_)⟩
          split
          · exact d _ m (ho.2 i m rfl)
          · exact q
        | log j m l =>
          simp only [State.step, State.log]
          split <;> exact ⟨a, b⟩
        | _ => exact ⟨a, b⟩
      exact ih _ st.1 st.2 (fun o m => h o (List.mem_cons_of_mem _ m))
  exact key ops _ hl nofun h

example : (run env (init 7 2) used).comps.map Comp.level = [1, 4, 3] := by decide

end Verif.Journal
