import Verif.Boxes.DictContents
import Verif.Boxes.Owners
import Verif.Boxes.Demo

/-!
# Lists and dictionaries (C332 to C339)
-/

namespace Verif.Boxes

theorem plain_calm (cfg : Cfg) (s : Sys) (n : s.lst.own = none) (op : Op) : (s.step cfg op).2.calm := by
  by_cases on : op.onList = true
  · rw [(elements cfg s op on).1 n]
    unfold listCode
    split
    · exact ⟨by decide, by decide⟩
    · split
      all_goals (try split)
      all_goals exact ⟨by decide, by decide⟩
  · cases op with
    | create x => exact ⟨nofun, nofun⟩
    | copy x => exact ⟨nofun, nofun⟩
    | drop x => exact ⟨nofun, nofun⟩
    | get k =>
      simp only [Sys.step, Sys.dcall, Dict.get]
      cases k with
      | none => exact ⟨nofun, nofun⟩
      | some k => simp only; split <;> exact ⟨nofun, nofun⟩
    | set k v =>
      simp only [Sys.step, Sys.dcall, Dict.set]
      split
      · exact ⟨nofun, nofun⟩
      · cases k with
        | none => exact ⟨nofun, nofun⟩
        | some k => simp only; split <;> exact ⟨nofun, nofun⟩
    | remove k =>
      simp only [Sys.step, Sys.dcall, Dict.remove]
      split
      · exact ⟨nofun, nofun⟩
      · cases k with
        | none => exact ⟨nofun, nofun⟩
        | some k => simp only; split <;> exact ⟨nofun, nofun⟩
    | delete k =>
      simp only [Sys.step, Sys.dcall, Dict.delete]
      split
      · exact ⟨nofun, nofun⟩
      · cases k with
        | none => exact ⟨nofun, nofun⟩
        | some k => simp only; split <;> exact ⟨nofun, nofun⟩
    | clearD =>
      simp only [Sys.step, Sys.dcall, Dict.clear]
      split <;> exact ⟨nofun, nofun⟩
    | freezeD => exact ⟨nofun, nofun⟩
    | renewD b => exact ⟨nofun, nofun⟩
    | _ => exact absurd rfl on

theorem plain_calm_run (cfg : Cfg) : ∀ (ops : List Op) (s : Sys), s.lst.own = none → s.Live →
    Calm (s.run cfg ops).2
  | [], _, _, _ => ⟨nofun, nofun⟩
  | op :: ops, s, n, d => by
    obtain ⟨c1, c2⟩ := plain_calm cfg s n op
    obtain ⟨h1, h2⟩ := step_lst cfg s op d
    obtain ⟨r1, r2⟩ := plain_calm_run cfg ops _ (h1.trans n) h2
    refine ⟨fun m => ?_, fun m => ?_⟩
    · rcases List.mem_cons.mp m with m | m
      · exact c1 m.symm
      · exact r1 m
    · rcases List.mem_cons.mp m with m | m
      · exact c2 m.symm
      · exact r2 m

/-! ## C332: references -/

/-- However a client uses a list and a dictionary, every object has as many references as there are
pointers to it, and no destroyed object is touched: nothing leaks and nothing is destroyed in use. -/
theorem C332_counted (cfg : Cfg) (ops : List Op) (L : Always cfg Sys.Legal (Sys.init none) ops) :
    ((Sys.init none).run cfg ops).1.Sound :=
  (run_sound cfg ops _ (init_sound none).1 (init_sound none).2 L
    (plain_calm_run cfg ops _ rfl (init_sound none).2)).1

example : Always Demo.cfg Sys.Legal (Sys.init none) Demo.mixed
    ∧ ((Sys.init none).run Demo.cfg Demo.mixed).1.heap.refs 1 = 2
    ∧ ((Sys.init none).run Demo.cfg Demo.mixed).1.heap.refs 9 = 1
    ∧ ((Sys.init none).run Demo.cfg Demo.mixed).1.heap.refs 2 = 0
    ∧ ((Sys.init none).run Demo.cfg Demo.mixed).2 = List.replicate 19 .ok := by
  refine ⟨?_, rfl, rfl, rfl, rfl⟩
  simp only [Demo.mixed, Always, Sys.Legal, Sys.Has]
  refine ⟨⟨rfl, nofun⟩, ⟨rfl, nofun⟩, ⟨rfl, nofun⟩, ?_, ?_, nofun, ⟨?_, ?_⟩, ⟨rfl, nofun⟩, ⟨?_, ?_⟩, ?_, trivial, trivial,
    trivial, by decide, ?_, ?_, trivial, trivial, trivial, trivial⟩
  all_goals (intro x e; cases e; decide)

/-! ## C333: references and owning lists -/

/-- The same holds for owning lists as long as no call fails because of an owner. -/
theorem C333_counted_partial (cfg : Cfg) (own : Option Nat) (ops : List Op)
    (L : Always cfg Sys.Legal (Sys.init own) ops) (c : Calm ((Sys.init own).run cfg ops).2) :
    ((Sys.init own).run cfg ops).1.Sound :=
  (run_sound cfg ops _ (init_sound own).1 (init_sound own).2 L c).1

theorem Demo.owned_legal : Always Demo.soft Sys.Legal (Sys.init (some 0)) Demo.owned := by
  simp only [Demo.owned, Always, Sys.Legal, Sys.Has]
  refine ⟨⟨rfl, by decide⟩, ⟨rfl, by decide⟩, ⟨rfl, by decide⟩, ?_, ?_, ?_, trivial, ?_, trivial, ?_, trivial,
    trivial, ?_, trivial⟩
  all_goals (intro x e; cases e; decide)

example : Always Demo.soft Sys.Legal (Sys.init (some 0)) Demo.owned
    ∧ Calm ((Sys.init (some 0)).run Demo.soft Demo.owned).2
    ∧ ((Sys.init (some 0)).run Demo.soft Demo.owned).1.heap.refs 1 = 1
    ∧ ((Sys.init (some 0)).run Demo.soft Demo.owned).1.heap.refs 2 = 3 := by
  refine ⟨Demo.owned_legal, ⟨by decide, by decide⟩, rfl, rfl⟩

/-- Moving an object into a list whose owner is gone fails although the list keeps the pointer.  The
smart pointer releases the object, and the list has a pointer to a destroyed object. -/
theorem C333_violation_moved : Always Demo.cfg Sys.Legal (Sys.init (some 0)) Demo.lost
    ∧ ((Sys.init (some 0)).run Demo.cfg Demo.lost).2 = [.ok, .ok, .gone, .ok, .ok]
    ∧ ((Sys.init (some 0)).run Demo.cfg Demo.lost).1.heap.bad = true := by
  refine ⟨?_, rfl, rfl⟩
  simp only [Demo.lost, Always, Sys.Legal, Sys.Has]
  refine ⟨⟨rfl, nofun⟩, by decide, ?_, by decide, trivial, trivial⟩
  intro x e; cases e; decide

/-- Popping an input port fails although it was taken out: nobody releases the reference. -/
theorem C333_violation_popped : ((Sys.init (some 0)).run Demo.cfg Demo.port).2 = [.ok, .ok, .taken]
    ∧ ((Sys.init (some 0)).run Demo.cfg Demo.port).1.heap.refs 7 = 1
    ∧ ((Sys.init (some 0)).run Demo.cfg Demo.port).1.pointers 7 = 0 := ⟨rfl, rfl, rfl⟩

/-! ## C334: the elements -/

/-- Which code each call of a list answers. -/
theorem C334_codes (cfg : Cfg) (s : Sys) (op : Op) (on : op.onList = true) (n : s.lst.own = none) :
    (s.step cfg op).2 = listCode s.lst.frozen s.lst.items.length op := (elements cfg s op on).1 n

/-- What each successful call makes of the elements. -/
theorem C334_elements (cfg : Cfg) (s : Sys) (op : Op) (on : op.onList = true)
    (c : (s.step cfg op).2 = .ok) : Elements s.lst.items (s.step cfg op).1.lst.items op :=
  (elements cfg s op on).2.1 c

/-- Which element each successful call gives the client. -/
theorem C334_given (cfg : Cfg) (s : Sys) (op : Op) (o : Option Nat) (g : given s.lst.items op = some o)
    (c : (s.step cfg op).2 = .ok) (x : Nat) :
    (s.step cfg op).1.mine x = s.mine x + if o = some x then 1 else 0 := by
  rw [gives cfg s op o g c, gain_at]
  rfl

/-- A call of a list that is refused changes nothing at all. -/
theorem C334_refused (cfg : Cfg) (s : Sys) (op : Op) (on : op.onList = true) (n : s.lst.own = none)
    (c : (s.step cfg op).2 ≠ .ok) : (s.step cfg op).1 = s :=
  (elements cfg s op on).2.2 c (plain_calm cfg s n op)

/-- The acts that are not on the list leave its elements alone. -/
theorem C334_other (cfg : Cfg) (s : Sys) (op : Op) (on : op.onList = false) :
    (s.step cfg op).1.lst = s.lst := by
  cases op with
  | create x => rfl
  | copy x => rfl
  | drop x => rfl
  | get k => rfl
  | set k v => rfl
  | remove k => rfl
  | delete k => rfl
  | clearD => rfl
  | freezeD => rfl
  | renewD b => rfl
  | _ => cases on

example : listCode false 3 (.insertAt 3 none) = .range ∧ listCode false 3 (.insertAt 2 none) = .ok
    ∧ listCode true 3 (.insertAt 3 none) = .frozen ∧ given [none, some 4] .popBack = some (some 4) :=
  ⟨rfl, rfl, rfl, rfl⟩

/-! ## C335: frozen containers -/

/-- A frozen list, owning or not, refuses every change, and nothing is changed. -/
theorem C335_list (cfg : Cfg) (s : Sys) (f : s.lst.frozen = true) (op : Op) (h : op.changesList = true) :
    s.step cfg op = (s, .frozen) := by
  cases op with
  | setAt i o => simp only [Sys.step, Sys.plain, Lst.setAt, f, if_true]
  | pushBack o => simp only [Sys.step, Sys.plain, Lst.pushBack, f, if_true]
  | pushFront o => simp only [Sys.step, Sys.plain, Lst.pushFront, f, if_true]
  | moveBack o => simp only [Sys.step, Sys.giving, Lst.moveBack, f, if_true]; rfl
  | moveFront o => simp only [Sys.step, Sys.giving, Lst.moveFront, f, if_true]; rfl
  | popBack => simp only [Sys.step, Sys.taking, Lst.popBack, f, if_true]; rfl
  | popFront => simp only [Sys.step, Sys.taking, Lst.popFront, f, if_true]; rfl
  | insertAt i o => simp only [Sys.step, Sys.plain, Lst.insertAt, f, if_true]
  | removeAt i => simp only [Sys.step, Sys.taking, Lst.removeAt, f, if_true]; rfl
  | deleteAt i => simp only [Sys.step, Sys.plain, Lst.deleteAt, f, if_true]
  | clear => simp only [Sys.step, Sys.plain, Lst.clear, f, if_true]
  | _ => cases h

/-- A frozen dictionary refuses every change, and nothing is changed. -/
theorem C335_dict (cfg : Cfg) (s : Sys) (f : s.dict.frozen = true) (op : Op) (h : op.changesDict = true) :
    s.step cfg op = (s, .frozen) := by
  cases op with
  | set k v => simp only [Sys.step, Sys.dcall, Dict.set, f, if_true]; rfl
  | remove k => simp only [Sys.step, Sys.dcall, Dict.remove, f, if_true]; rfl
  | delete k => simp only [Sys.step, Sys.dcall, Dict.delete, f, if_true]; rfl
  | clearD => simp only [Sys.step, Sys.dcall, Dict.clear, f, if_true]; rfl
  | _ => cases h

/-- Whatever is done, a list that was frozen keeps its elements as long as it lives. -/
theorem C335_stays (cfg : Cfg) : ∀ (ops : List Op) (s : Sys), s.lst.frozen = true →
    (∀ b, Op.renew b ∉ ops) → (s.run cfg ops).1.lst = s.lst
  | [], _, _, _ => rfl
  | op :: ops, s, f, n => by
    have e : (s.step cfg op).1.lst = s.lst := by
      by_cases h : op.changesList = true
      · rw [C335_list cfg s f op h]
      · cases op with
        | renew b => exact absurd List.mem_cons_self (n b)
        | freeze => show { s.lst with frozen := true } = s.lst; rw [← f]
        | getAt i => simp only [Sys.step, Sys.taking, Lst.getAt]; split <;> rfl
        | create x => rfl
        | copy x => rfl
        | drop x => rfl
        | get k => rfl
        | set k v => rfl
        | remove k => rfl
        | delete k => rfl
        | clearD => rfl
        | freezeD => rfl
        | renewD b => rfl
        | _ => exact absurd rfl h
    show ((s.step cfg op).1.run cfg ops).1.lst = s.lst
    rw [C335_stays cfg ops _ (by rw [e]; exact f) (fun b m => n b (List.mem_cons_of_mem _ m)), e]

example : ((Sys.init none).run Demo.cfg [.create 1, .pushBack (some 1), .freeze, .clear, .popBack,
    .moveBack (some 1)]).2 = [.ok, .ok, .ok, .frozen, .frozen, .frozen] := rfl

/-! ## C336: the entries -/

/-- In every dictionary a client can make, no two keys are equal. -/
theorem C336_distinct (cfg : Cfg) (own : Option Nat) (ops : List Op) :
    Distinct cfg ((Sys.init own).run cfg ops).1.dict.entries :=
  run_distinct cfg ops _ List.nodup_nil

/-- Reading a key that is there gives its value. -/
theorem C336_get (cfg : Cfg) (s : Sys) (d : Distinct cfg s.dict.entries) (k : Nat) (v : Option Nat)
    (u : Under cfg s.dict.entries k v) :
    (s.step cfg (.get (some k))).2 = .ok
      ∧ (s.step cfg (.get (some k))).1.dict = s.dict
      ∧ ∀ x, (s.step cfg (.get (some k))).1.mine x = s.mine x + if v = some x then 1 else 0 := by
  cases f : s.dict.find cfg k with
  | none =>
    simp only [Sys.step, Sys.dcall, Dict.get, f]
    obtain ⟨e, m, h1, _⟩ := u
    exact absurd h1 (find_none cfg _ k f e m)
  | some e =>
    simp only [Sys.step, Sys.dcall, Dict.get, f]
    obtain ⟨m, q⟩ := find_some cfg _ k e f
    obtain ⟨e', m', h1, h2⟩ := u
    have := under_unique cfg _ d e m e' m' (q.trans h1.symm)
    subst this
    refine ⟨trivial, trivial, fun x => ?_⟩
    simp only [if_true, gain_at, h2]
    rfl

/-- What setting a key makes of a dictionary that is not frozen: the key has the value, the others keep
theirs, and the keys keep their order, a new one being the last. -/
theorem C336_set (cfg : Cfg) (s : Sys) (d : Distinct cfg s.dict.entries) (n : s.dict.frozen = false)
    (k : Nat) (v : Option Nat) :
    (s.step cfg (.set (some k) v)).2 = .ok
      ∧ (∀ k' v', Under cfg (s.step cfg (.set (some k) v)).1.dict.entries k' v' ↔
          if cfg.key k' = cfg.key k then v' = v else Under cfg s.dict.entries k' v')
      ∧ (s.step cfg (.set (some k) v)).1.dict.entries.map (·.1)
          = s.dict.entries.map (·.1) ++ (if s.dict.entries.any (fun e => cfg.key e.1 = cfg.key k) then [] else [k]) := by
  cases f : s.dict.find cfg k with
  | none =>
    simp only [Sys.step, Sys.dcall, Dict.set, n, Bool.false_eq_true, if_false, f]
    have no := find_none cfg _ k f
    refine ⟨trivial, fun k' v' => ⟨?_, ?_⟩, ?_⟩
    · rintro ⟨e, m, h1, h2⟩
      rcases List.mem_append.mp m with m | m
      · rw [if_neg (fun h => no e m (h1.trans h))]
        exact ⟨e, m, h1, h2⟩
      · rw [List.mem_singleton] at m
        subst m
        rw [if_pos h1.symm]
        exact h2.symm
    · intro h
      by_cases q : cfg.key k' = cfg.key k
      · rw [if_pos q] at h
        exact ⟨(k, v), List.mem_append_right _ List.mem_cons_self, q.symm, h.symm⟩
      · rw [if_neg q] at h
        obtain ⟨e, m, h1, h2⟩ := h
        exact ⟨e, List.mem_append_left _ m, h1, h2⟩
    · rw [List.map_append, if_neg]
      · rfl
      · intro a
        obtain ⟨e, m, h⟩ := List.any_eq_true.mp a
        exact no e m (by simpa using h)
  | some e =>
    simp only [Sys.step, Sys.dcall, Dict.set, n, Bool.false_eq_true, if_false, f]
    obtain ⟨m, q⟩ := find_some cfg _ k e f
    refine ⟨trivial, under_replace cfg k v _ d ⟨e, m, q⟩, ?_⟩
    rw [if_pos (List.any_eq_true.mpr ⟨e, m, by simpa using q⟩), List.append_nil]
    exact keys_replace cfg k v _

/-- Removing or deleting a key that is there: it is gone, the others stay in their order. -/
theorem C336_removed (cfg : Cfg) (s : Sys) (d : Distinct cfg s.dict.entries) (n : s.dict.frozen = false)
    (k : Nat) (v : Option Nat) (u : Under cfg s.dict.entries k v) :
    (s.step cfg (.remove (some k))).2 = .ok ∧ (s.step cfg (.delete (some k))).2 = .ok
      ∧ (s.step cfg (.remove (some k))).1.dict.entries
          = s.dict.entries.filter (fun e => cfg.key e.1 ≠ cfg.key k)
      ∧ (s.step cfg (.delete (some k))).1.dict.entries
          = s.dict.entries.filter (fun e => cfg.key e.1 ≠ cfg.key k)
      ∧ (∀ x, (s.step cfg (.remove (some k))).1.mine x = s.mine x + if v = some x then 1 else 0)
      ∧ (s.step cfg (.delete (some k))).1.mine = s.mine := by
  cases f : s.dict.find cfg k with
  | none =>
    simp only [Sys.step, Sys.dcall, Dict.remove, Dict.delete, n, Bool.false_eq_true, if_false, f]
    obtain ⟨e, m, h1, _⟩ := u
    exact absurd h1 (find_none cfg _ k f e m)
  | some e =>
    simp only [Sys.step, Sys.dcall, Dict.remove, Dict.delete, n, Bool.false_eq_true, if_false, f]
    obtain ⟨m, q⟩ := find_some cfg _ k e f
    obtain ⟨e', m', h1, h2⟩ := u
    have := under_unique cfg _ d e m e' m' (q.trans h1.symm)
    subst this
    refine ⟨trivial, trivial, erase_filter cfg k _ d, erase_filter cfg k _ d, fun x => ?_, rfl⟩
    simp only [if_true, gain_at, h2]
    rfl

/-- A key that is not there is not found, and nothing is changed. -/
theorem C336_missing (cfg : Cfg) (s : Sys) (n : s.dict.frozen = false) (k : Nat)
    (u : ∀ v, ¬ Under cfg s.dict.entries k v) :
    s.step cfg (.get (some k)) = (s, .missing) ∧ s.step cfg (.remove (some k)) = (s, .missing)
      ∧ s.step cfg (.delete (some k)) = (s, .missing) := by
  cases f : s.dict.find cfg k with
  | none =>
    simp only [Sys.step, Sys.dcall, Dict.get, Dict.remove, Dict.delete, n, Bool.false_eq_true, if_false, f]
    exact ⟨rfl, rfl, rfl⟩
  | some e =>
    simp only [Sys.step, Sys.dcall, Dict.get, Dict.remove, Dict.delete, n, Bool.false_eq_true, if_false, f]
    obtain ⟨m, q⟩ := find_some cfg _ k e f
    exact absurd ⟨e, m, q, rfl⟩ (u e.2)

/-- No key at all is refused; clearing leaves no entry. -/
theorem C336_other (cfg : Cfg) (s : Sys) (n : s.dict.frozen = false) (v : Option Nat) :
    s.step cfg (.get none) = (s, .noArg) ∧ s.step cfg (.set none v) = (s, .noArg)
      ∧ s.step cfg (.remove none) = (s, .noArg) ∧ s.step cfg (.delete none) = (s, .noArg)
      ∧ (s.step cfg .clearD).1.dict.entries = [] ∧ (s.step cfg .clearD).2 = .ok := by
  simp only [Sys.step, Sys.dcall, Dict.get, Dict.set, Dict.remove, Dict.delete, Dict.clear, n,
    Bool.false_eq_true, if_false]
  exact ⟨rfl, rfl, rfl, rfl, trivial, trivial⟩

/-- The acts on the list leave the dictionary alone. -/
theorem C336_apart (cfg : Cfg) (s : Sys) (op : Op) (on : op.onList = true) :
    (s.step cfg op).1.dict = s.dict := by
  cases op <;> first | rfl | cases on

example : ((Sys.init none).run Demo.cfg [.create 1, .create 2, .create 11, .set (some 1) (some 2),
    .set (some 2) none, .set (some 11) (some 1)]).1.dict.entries = [(1, some 1), (2, none)] := rfl

/-! ## C337: owners -/

/-- In an owning list of objects that take any owner, as long as no object is stored twice or replaced,
the list is not destroyed and the owner lives, the living objects that can be owned have the owner of the
list exactly while they are in it. -/
theorem C337_owned_partial (cfg : Cfg) (nb : ∀ x, cfg.kind x ≠ .bound) (p : Nat) (ops : List Op)
    (L : Always cfg Sys.Legal (Sys.init (some p)) ops) (O : Always cfg Once (Sys.init (some p)) ops)
    (c : Calm ((Sys.init (some p)).run cfg ops).2) :
    ((Sys.init (some p)).run cfg ops).1.Owned cfg p :=
  (run_tidy cfg nb p ops _ (init_sound _).1 (init_sound _).2 rfl
    ⟨fun x _ _ => by simp [Sys.init], fun x => by simp [Sys.init]⟩ L O c).1

example : Always Demo.soft Once (Sys.init (some 0)) Demo.owned
    ∧ (∀ x, Demo.soft.kind x ≠ .bound)
    ∧ ((Sys.init (some 0)).run Demo.soft Demo.owned).1.heap.owner 2 = some 0
    ∧ ((Sys.init (some 0)).run Demo.soft Demo.owned).1.heap.owner 1 = none
    ∧ ((Sys.init (some 0)).run Demo.soft (Demo.owned.take 4)).1.heap.owner 1 = some 0 := by
  refine ⟨?_, ?_, rfl, rfl, rfl⟩
  · simp only [Demo.owned, Always, Once]
    refine ⟨trivial, trivial, trivial, ?_, ?_, ?_, trivial, ?_, trivial, ?_, trivial, trivial, ?_, trivial⟩
    all_goals exact Or.inr (by decide)
  · intro x
    show (if x = 9 then Kind.plain else Kind.ownable) ≠ .bound
    split <;> decide

/-- An element that was replaced keeps the owner. -/
theorem C337_violation_replaced : ((Sys.init (some 0)).run Demo.soft Demo.swap).1.lst.items = [some 2]
    ∧ ((Sys.init (some 0)).run Demo.soft Demo.swap).1.heap.owner 1 = some 0 := ⟨rfl, rfl⟩

/-- An object that is in the list twice loses its owner when one of the two is removed. -/
theorem C337_violation_twice : ((Sys.init (some 0)).run Demo.soft Demo.twice).1.lst.items = [some 1]
    ∧ ((Sys.init (some 0)).run Demo.soft Demo.twice).1.heap.owner 1 = none := ⟨rfl, rfl⟩

/-- The elements keep the owner when the list is destroyed. -/
theorem C337_violation_destroyed : ((Sys.init (some 0)).run Demo.soft Demo.ended).1.lst.items = []
    ∧ ((Sys.init (some 0)).run Demo.soft Demo.ended).1.heap.refs 1 = 1
    ∧ ((Sys.init (some 0)).run Demo.soft Demo.ended).1.heap.owner 1 = some 0 := ⟨rfl, rfl, rfl⟩

/-! ## C338: refused calls of owning lists -/

/-- A call of an owning list that fails for another reason than an owner changes nothing. -/
theorem C338_refused_partial (cfg : Cfg) (s : Sys) (op : Op) (on : op.onList = true)
    (c : (s.step cfg op).2 ≠ .ok) (g : (s.step cfg op).2 ≠ .gone) (t : (s.step cfg op).2 ≠ .taken) :
    (s.step cfg op).1 = s :=
  (elements cfg s op on).2.2 c ⟨g, t⟩

example : (((Sys.init (some 0)).run Demo.soft Demo.owned).1.step Demo.soft (.deleteAt 5)).2 = .range := rfl

/-- Adding an element fails because the owner is gone, and the element is in the list. -/
theorem C338_violation_added :
    (((Sys.init (some 0)).run Demo.cfg Demo.late).1.step Demo.cfg (.pushBack (some 1))).2 = .gone
    ∧ (((Sys.init (some 0)).run Demo.cfg Demo.late).1.step Demo.cfg (.pushBack (some 1))).1.lst.items
      = [some 1] := ⟨rfl, rfl⟩

/-- Clearing fails because of an input port: all elements are still there, but the first has lost its
owner. -/
theorem C338_violation_cleared :
    (((Sys.init (some 0)).run Demo.cfg Demo.half).1.step Demo.cfg .clear).2 = .taken
    ∧ (((Sys.init (some 0)).run Demo.cfg Demo.half).1.step Demo.cfg .clear).1.lst.items = [some 1, some 7]
    ∧ ((Sys.init (some 0)).run Demo.cfg Demo.half).1.heap.owner 1 = some 0
    ∧ (((Sys.init (some 0)).run Demo.cfg Demo.half).1.step Demo.cfg .clear).1.heap.owner 1 = none :=
  ⟨rfl, rfl, rfl, rfl⟩

/-! ## C339: adding and taking out with an owner -/

/-- Adding an object that takes any owner to an owning list whose owner lives succeeds and gives it the
owner, whatever has happened before, and whichever owner it had. -/
theorem C339_added (cfg : Cfg) (s : Sys) (p x : Nat) (w : s.lst.own = some p) (f : s.lst.frozen = false)
    (k : cfg.kind x = .ownable) (hp : 0 < s.heap.refs p) (hx : 0 < s.heap.refs x) :
    (∀ op ∈ [Op.pushBack (some x), .pushFront (some x), .moveBack (some x), .moveFront (some x)],
      (s.step cfg op).2 = .ok ∧ (s.step cfg op).1.heap.owner x = some p) := by
  have e : ∀ (h : Heap) (l : Lst), l.own = some p → 0 < h.refs p → 0 < h.refs x →
      (Ret.thenGive cfg (some x) ⟨h, l, .ok, none⟩).code = .ok
        ∧ (Ret.thenGive cfg (some x) ⟨h, l, .ok, none⟩).heap.owner x = some p := by
    intro h l w hp hx
    simp only [Ret.thenGive, w, if_true, giveOwner, if_neg (show ¬ h.refs x = 0 by omega), k,
      if_neg (show ¬ h.refs p = 0 by omega), if_neg (show ¬ Kind.ownable = Kind.plain by decide),
      Heap.setOwner, upd, if_true]
    exact ⟨trivial, trivial⟩
  have a : ∀ y, 0 < s.heap.refs y → 0 < (s.heap.addRef (some x)).refs y := fun y hy => by
    simp only [Heap.addRef, if_neg (show ¬ s.heap.refs x = 0 by omega), upd]
    split
    · omega
    · exact hy
  intro op m
  simp only [List.mem_cons, List.not_mem_nil, or_false] at m
  rcases m with rfl | rfl | rfl | rfl
  · simp only [Sys.step, Sys.plain, Lst.pushBack, f, Bool.false_eq_true, if_false]
    exact e _ _ w (a p hp) (a x hx)
  · simp only [Sys.step, Sys.plain, Lst.pushFront, f, Bool.false_eq_true, if_false]
    exact e _ _ w (a p hp) (a x hx)
  · simp only [Sys.step, Sys.giving, Lst.moveBack, f, Bool.false_eq_true, if_false]
    exact e _ _ w hp hx
  · simp only [Sys.step, Sys.giving, Lst.moveFront, f, Bool.false_eq_true, if_false]
    exact e _ _ w hp hx

example : (((Sys.init (some 0)).run Demo.soft (Demo.owned.take 3)).1.step Demo.soft (.moveBack (some 2))).1.heap.owner 2
    = some 0 := rfl

/-- So does inserting it, and setting it in the place of another element, within the list, unless
that element is the last reference to the object or to the owner. -/
theorem C339_placed (cfg : Cfg) (s : Sys) (p x i : Nat) (w : s.lst.own = some p) (f : s.lst.frozen = false)
    (k : cfg.kind x = .ownable) (hp : 0 < s.heap.refs p) (hx : 0 < s.heap.refs x) (hi : i < s.lst.items.length)
    (n : ∀ y, y = x ∨ y = p → s.lst.items[i]? = some (some y) → 1 < s.heap.refs y) :
    (∀ op ∈ [Op.insertAt i (some x), .setAt i (some x)],
      (s.step cfg op).2 = .ok ∧ (s.step cfg op).1.heap.owner x = some p) := by
  have e : ∀ (h : Heap) (l : Lst), l.own = some p → 0 < h.refs p → 0 < h.refs x →
      (Ret.thenGive cfg (some x) ⟨h, l, .ok, none⟩).code = .ok
        ∧ (Ret.thenGive cfg (some x) ⟨h, l, .ok, none⟩).heap.owner x = some p := by
    intro h l w hp hx
    simp only [Ret.thenGive, w, if_true, giveOwner, if_neg (show ¬ h.refs x = 0 by omega), k,
      if_neg (show ¬ h.refs p = 0 by omega), if_neg (show ¬ Kind.ownable = Kind.plain by decide),
      Heap.setOwner, upd, if_true]
    exact ⟨trivial, trivial⟩
  have a : ∀ (h : Heap) y, 0 < h.refs x → 0 < h.refs y → 0 < (h.addRef (some x)).refs y := fun h y hx hy => by
    simp only [Heap.addRef, if_neg (show ¬ h.refs x = 0 by omega), upd]
    split
    · omega
    · exact hy
  have b : ∀ y, y = x ∨ y = p → 0 < s.heap.refs y → 0 < (s.heap.release (s.lst.items[i]?).join).refs y := by
    intro y my hy
    cases o : (s.lst.items[i]?).join with
    | none => exact hy
    | some z =>
      simp only [Heap.release]
      split
      · exact hy
      · simp only [upd]
        split
        · next q =>
          subst q
          have := n y my (Option.join_eq_some_iff.mp o)
          omega
        · exact hy
  intro op m
  simp only [List.mem_cons, List.not_mem_nil, or_false] at m
  rcases m with rfl | rfl
  · simp only [Sys.step, Sys.plain, Lst.insertAt, f, Bool.false_eq_true, if_false,
      if_neg (Nat.not_le.mpr hi)]
    exact e _ _ w (a _ p (by omega) (by omega)) (a _ x (by omega) (by omega))
  · simp only [Sys.step, Sys.plain, Lst.setAt, f, Bool.false_eq_true, if_false,
      if_neg (Nat.not_le.mpr hi)]
    exact e _ _ w (a _ p (b x (.inl rfl) hx) (b p (.inr rfl) hp)) (a _ x (b x (.inl rfl) hx) (b x (.inl rfl) hx))

example : (((Sys.init (some 0)).run Demo.soft (Demo.owned.take 4)).1.step Demo.soft (.setAt 0 (some 2))).1.heap.owner 2
    = some 0 := rfl

/-- An object that cannot be owned can be added to any owning list that is not frozen, also when the owner
is gone. -/
theorem C339_plain (cfg : Cfg) (s : Sys) (x : Nat) (f : s.lst.frozen = false)
    (k : cfg.kind x = .plain) (hx : 0 < s.heap.refs x) :
    (∀ op ∈ [Op.pushBack (some x), .pushFront (some x), .moveBack (some x), .moveFront (some x)],
      (s.step cfg op).2 = .ok) := by
  have e : ∀ (h : Heap) (l : Lst), 0 < h.refs x →
      (Ret.thenGive cfg (some x) ⟨h, l, .ok, none⟩).code = .ok := by
    intro h l hx
    cases w : l.own with
    | none => simp only [Ret.thenGive, w]
    | some p => simp only [Ret.thenGive, w, if_true, giveOwner, if_neg (show ¬ h.refs x = 0 by omega), k]
  have a : 0 < (s.heap.addRef (some x)).refs x := by
    simp only [Heap.addRef, if_neg (show ¬ s.heap.refs x = 0 by omega), upd, if_true]
    omega
  intro op m
  simp only [List.mem_cons, List.not_mem_nil, or_false] at m
  rcases m with rfl | rfl | rfl | rfl
  · simp only [Sys.step, Sys.plain, Lst.pushBack, f, Bool.false_eq_true, if_false]; exact e _ _ a
  · simp only [Sys.step, Sys.plain, Lst.pushFront, f, Bool.false_eq_true, if_false]; exact e _ _ a
  · simp only [Sys.step, Sys.giving, Lst.moveBack, f, Bool.false_eq_true, if_false]; exact e _ _ hx
  · simp only [Sys.step, Sys.giving, Lst.moveFront, f, Bool.false_eq_true, if_false]; exact e _ _ hx

example : (((Sys.init (some 0)).run Demo.soft [.create 9, .drop 0]).1.step Demo.soft (.pushBack (some 9))).2 = .ok
    ∧ (((Sys.init (some 0)).run Demo.soft [.create 1, .drop 0]).1.step Demo.soft (.pushBack (some 1))).2 = .gone :=
  ⟨rfl, rfl⟩

/-- Taking an object out of an owning list that is not frozen at either end succeeds, unless it is an
input port, and it has no owner afterwards if it can have one. -/
theorem C339_popped (cfg : Cfg) (s : Sys) (p x : Nat) (w : s.lst.own = some p) (f : s.lst.frozen = false)
    (k : cfg.kind x ≠ .bound) (hx : 0 < s.heap.refs x) (op : Op)
    (h : op = .popBack ∧ s.lst.items.getLast? = some (some x)
      ∨ op = .popFront ∧ s.lst.items.head? = some (some x)) :
    (s.step cfg op).2 = .ok ∧ (cfg.kind x = .ownable → (s.step cfg op).1.heap.owner x = none) := by
  have e : ∀ (l : Lst), l.own = some p →
      (Ret.thenFree cfg ⟨s.heap, l, .ok, some x⟩).code = .ok
        ∧ (cfg.kind x = .ownable → (Ret.thenFree cfg ⟨s.heap, l, .ok, some x⟩).heap.owner x = none) := by
    intro l w
    simp only [Ret.thenFree, w, if_true, Heap.setOwner, if_neg (show ¬ s.heap.refs x = 0 by omega)]
    cases q : cfg.kind x with
    | plain => exact ⟨rfl, nofun⟩
    | ownable => exact ⟨rfl, fun _ => by simp only [upd, if_true]⟩
    | bound => exact absurd q k
  rcases h with ⟨rfl, h⟩ | ⟨rfl, h⟩
  · have ne : ¬ s.lst.items = [] := fun z => by rw [z] at h; cases h
    simp only [Sys.step, Sys.taking, Lst.popBack, f, Bool.false_eq_true, if_false, if_neg ne, h]
    exact e _ w
  · cases i : s.lst.items with
    | nil => rw [i] at h; cases h
    | cons o os =>
      rw [i] at h
      cases h
      simp only [Sys.step, Sys.taking, Lst.popFront, f, Bool.false_eq_true, if_false, i]
      exact e _ w

example : (((Sys.init (some 0)).run Demo.soft (Demo.owned.take 6)).1.step Demo.soft .popBack).2 = .ok
    ∧ ((Sys.init (some 0)).run Demo.soft (Demo.owned.take 6)).1.lst.items.getLast? = some (some 9) := ⟨rfl, rfl⟩

end Verif.Boxes
