import Verif.Remote.Props
import Verif.Remote.Effect

/-!
# Changes on the server do what they say, and tell it (C146, C147)
-/

namespace Verif.Remote.Props
open Verif.Remote Spec

/-! ### C146: changes do what they say -/

/-- C146. A change of a component puts the changed component in the place of the old one and leaves
the rest of the tree as it is; its events carry the id of the component. -/
theorem C146_place (s : Forest) (p : List Nat) (op : Op) (d : Data) (i : Forest) (g : Ided s)
    (h : CompAt s p d i) :
    EditTree s p (d, i) (op.run (d, i)).1 (serve s p op).1 ∧
      (serve s p op).2 = (op.run (d, i)).2.map (fun e => (p, e)) := by
  have hf := Forest.ided_find g h
  unfold serve
  rw [hf]
  exact ⟨Forest.upd_edit hf _, rfl⟩

example : Ided (one objA) ∧ CompAt (one objA) [1] (plainData objA) .nil :=
  ⟨⟨trivial, by simp [itemIds], trivial⟩, Or.inl ⟨rfl, rfl, rfl⟩⟩

/-- C146. Without such a component nothing happens. -/
theorem C146_nowhere (s : Forest) (p : List Nat) (op : Op) (h : ∀ d i, ¬ CompAt s p d i) :
    serve s p op = (s, []) := by
  unfold serve
  cases hf : s.find p with
  | none => rfl
  | some c => exact absurd (Forest.find_compAt hf) (h _ _)

example : ∀ d i, ¬ CompAt (one objA) [2] d i := by
  intro d i h
  rcases h with ⟨h, _⟩ | ⟨p', h, h2⟩ | h
  · simp at h
  · exact h2
  · exact h

/-- C146. Events are triggered in the order of the changes. -/
theorem C146_order (s : Forest) (l k : List (List Nat × Op)) :
    history s (l ++ k) =
      ((history (history s l).1 k).1, (history s l).2 ++ (history (history s l).1 k).2) := by
  induction l generalizing s with
  | nil => rfl
  | cons a l ih =>
    obtain ⟨p, op⟩ := a
    simp only [List.cons_append, history, ih, List.append_assoc]

example : (history (one objA) [([1], .tagAdd 1), ([1], .tagAdd 2)]).2.length = 2 := by decide +kernel

/-- C146. Setting an attribute changes that attribute and nothing else; a locked attribute and one
that has the value already are left alone, without an event. -/
theorem C146_attribute (c : Comp) (a : Attr) (v : Nat) (up : Bool) :
    ((c.1.lock a = true ∨ (c.1.attr a = v ∧ a ≠ .visible)) → Op.run c (.attr a v up) = (c, [])) ∧
    (¬ (c.1.lock a = true ∨ (c.1.attr a = v ∧ a ≠ .visible)) → ∃ f,
      (∀ b, f b = if b = a then v else c.1.attr b) ∧
      Op.run c (.attr a v up) = (({ c.1 with attr := f }, c.2),
        .attr a v :: (if a = .active ∧ up = true then [.both v] else []))) := by
  constructor
  · intro h
    simp only [Op.run]
    rw [if_pos (Or.symm h)]
  · intro h
    simp only [Op.run]
    rw [if_neg (fun k => h (Or.symm k))]
    exact ⟨_, fun _ => rfl, rfl⟩

example : ¬ ((plainData objA).lock .name = true ∨ ((plainData objA).attr .name = 4 ∧ Attr.name ≠ .visible)) := by
  simp [plainData]

/-- C146. A locked attribute keeps its value through any changes other than unlocking it and loading
a configuration. -/
theorem C146_locked (a : Attr) (ops : List Op) : ∀ (c : Comp), c.1.lock a = true →
    (∀ op ∈ ops, op ≠ .lock a false ∧ ∀ x, op ≠ .update x) →
    (ops.foldl (fun c op => (Op.run c op).1) c).1.attr a = c.1.attr a := by
  suffices step : ∀ (c : Comp) (op : Op), c.1.lock a = true → op ≠ .lock a false →
      (∀ x, op ≠ .update x) → (Op.run c op).1.1.attr a = c.1.attr a ∧ (Op.run c op).1.1.lock a = true by
    induction ops with
    | nil => intro c _ _; rfl
    | cons op ops ih =>
      intro c hl hops
      obtain ⟨h1, h2⟩ := hops op List.mem_cons_self
      obtain ⟨k1, k2⟩ := step c op hl h1 h2
      rw [List.foldl_cons, ih _ k2 (fun o ho => hops o (List.mem_cons_of_mem _ ho)), k1]
  intro c op hl hne hup
  cases op with
  | attr b v up =>
    simp only [Op.run]
    split
    · exact ⟨rfl, hl⟩
    · rename_i hc
      refine ⟨?_, hl⟩
      have : a ≠ b := fun e => hc (Or.inr (e ▸ hl))
      simp [Data.setAttr, this]
  | lock b v =>
    refine ⟨rfl, ?_⟩
    simp only [Op.run]
    by_cases e : a = b
    · subst e
      cases v with
      | true => simp
      | false => exact absurd rfl hne
    · simp [e, hl]
  | tagAdd t => simp only [Op.run]; split <;> exact ⟨rfl, hl⟩
  | tagDel t => simp only [Op.run]; split <;> exact ⟨rfl, hl⟩
  | statAdd n v m => simp only [Op.run]; split <;> exact ⟨rfl, hl⟩
  | statSet n v m =>
    simp only [Op.run]
    split
    · exact ⟨rfl, hl⟩
    · split <;> exact ⟨rfl, hl⟩
  | write q w => simp only [Op.run]; split <;> exact ⟨rfl, hl⟩
  | batch q l => simp only [Op.run]; split <;> exact ⟨rfl, hl⟩
  | propAdd q n s =>
    simp only [Op.run]
    split
    · exact ⟨rfl, hl⟩
    · split <;> exact ⟨rfl, hl⟩
  | propDel q n =>
    simp only [Op.run]
    split
    · exact ⟨rfl, hl⟩
    · split <;> exact ⟨rfl, hl⟩
  | itemAdd k x => simp only [Op.run]; split <;> exact ⟨rfl, hl⟩
  | itemDel k => simp only [Op.run]; split <;> exact ⟨rfl, hl⟩
  | update x => exact absurd rfl (hup x)

example : (∀ op ∈ [Op.attr .name 3 true, .lock .desc false, .tagAdd 1],
    op ≠ .lock .name false ∧ ∀ x, op ≠ .update x) := by
  simp

/-- C146. Locks: the attribute's lock is set or taken, nothing else. -/
theorem C146_lock (c : Comp) (a : Attr) (b : Bool) : ∃ f,
    (∀ x, f x = if x = a then b else c.1.lock x) ∧
    Op.run c (.lock a b) = (({ c.1 with lock := f }, c.2), []) := ⟨_, fun _ => rfl, rfl⟩

/-- C146. Tags: a new tag comes last, a tag that is there is not added again; removing takes exactly
that tag; the event carries all the tags. -/
theorem C146_tags (c : Comp) (t : Nat) :
    (t ∈ c.1.tags → Op.run c (.tagAdd t) = (c, [])) ∧
    (t ∉ c.1.tags → Op.run c (.tagAdd t) =
      (({ c.1 with tags := c.1.tags ++ [t] }, c.2), [.tags (c.1.tags ++ [t])])) ∧
    (t ∉ c.1.tags → Op.run c (.tagDel t) = (c, [])) ∧
    (t ∈ c.1.tags → ∃ l, (∀ x, x ∈ l ↔ x ∈ c.1.tags ∧ x ≠ t) ∧ l.Sublist c.1.tags ∧
      Op.run c (.tagDel t) = (({ c.1 with tags := l }, c.2), [.tags l])) := by
  refine ⟨fun h => ?_, fun h => ?_, fun h => ?_, fun h => ?_⟩
  · simp only [Op.run]; rw [if_pos h]
  · simp only [Op.run]; rw [if_neg h]
  · simp only [Op.run]; rw [if_neg h]
  · refine ⟨c.1.tags.filter (fun x => x != t), ?_, List.filter_sublist, ?_⟩
    · intro x; simp
    · simp only [Op.run]; rw [if_pos h]

/-- C146. Statuses: a new one comes last and triggers no event; setting replaces the value of that
status, with an event if it is another one. -/
theorem C146_statuses (c : Comp) (n v m : Nat) :
    (n ∈ c.1.stat.map (·.1) → Op.run c (.statAdd n v m) = (c, [])) ∧
    (n ∉ c.1.stat.map (·.1) → Op.run c (.statAdd n v m) =
      (({ c.1 with stat := c.1.stat ++ [(n, (v, m))] }, c.2), [])) ∧
    (n ∉ c.1.stat.map (·.1) → Op.run c (.statSet n v m) = (c, [])) ∧
    (∀ l x r, c.1.stat = l ++ (n, x) :: r → n ∉ l.map (·.1) →
      (x = (v, m) → Op.run c (.statSet n v m) = (c, [])) ∧
      (x ≠ (v, m) → Op.run c (.statSet n v m) =
        (({ c.1 with stat := l ++ (n, (v, m)) :: r }, c.2), [.stat n v m]))) := by
  have look : ∀ l : List (Nat × (Nat × Nat)), (l.lookup n).isSome = true ↔ n ∈ l.map (·.1) := by
    intro l
    induction l with
    | nil => simp
    | cons a l ih =>
      obtain ⟨k, x⟩ := a
      by_cases e : n = k
      · subst e; simp
      · have : (n == k) = false := by simp [e]
        simp only [List.lookup_cons, this, ih, List.map_cons, List.mem_cons, e, false_or]
  refine ⟨fun h => ?_, fun h => ?_, fun h => ?_, fun l x r hl hn => ?_⟩
  · simp only [Op.run]; rw [if_pos ((look _).mpr h)]
  · simp only [Op.run]; rw [if_neg (fun k => h ((look _).mp k))]
  · simp only [Op.run]
    cases e : c.1.stat.lookup n with
    | none => rfl
    | some x => exact absurd ((look _).mp (by rw [e]; rfl)) h
  · have h1 : (l ++ (n, x) :: r).lookup n = some x := by
      clear hl
      induction l with
      | nil => simp
      | cons a l ih =>
        obtain ⟨k, y⟩ := a
        simp only [List.map_cons, List.mem_cons, not_or] at hn
        have : (n == k) = false := by simp [hn.1]
        simp only [List.cons_append, List.lookup_cons, this]
        exact ih hn.2
    have h2 : statPut (l ++ (n, x) :: r) n (v, m) = l ++ (n, (v, m)) :: r := by
      clear hl h1
      induction l with
      | nil => simp [statPut]
      | cons a l ih =>
        obtain ⟨k, y⟩ := a
        simp only [List.map_cons, List.mem_cons, not_or] at hn
        simp only [List.cons_append, statPut, if_neg (Ne.symm hn.1), ih hn.2]
    constructor
    · intro e
      simp only [Op.run]
      rw [hl, h1]
      dsimp only
      rw [if_pos e]
    · intro e
      simp only [Op.run]
      rw [hl, h1]
      dsimp only
      rw [if_neg e, h2]

/-- C146. Properties: a new one comes last, a value property without a value even if it came with
one; removing one takes exactly that one; everything else of the component stays. -/
theorem C146_properties (c : Comp) (q : List Nat) (x : Obj) (g : Named c.1.obj)
    (h : ObjAt c.1.obj q x) (n : Nat) :
    (n ∈ propNames x → ∀ s, Op.run c (.propAdd q n s) = (c, [])) ∧
    (n ∉ propNames x → ∀ s, ∃ y o, Edit c.1.obj q x y o ∧
      entries y = entries x ++ [(n, match s with | .val p => .val ⟨p.dflt, p.fix, none⟩ | .obj z => .obj z)] ∧
      Op.run c (.propAdd q n s) = (({ c.1 with obj := o }, c.2), [.propAdd q n s])) ∧
    (n ∉ propNames x → Op.run c (.propDel q n) = (c, [])) ∧
    (n ∈ propNames x → ∃ y o, Edit c.1.obj q x y o ∧
      entries y = (entries x).filter (fun e => e.1 != n) ∧
      Op.run c (.propDel q n) = (({ c.1 with obj := o }, c.2), [.propDel q n])) := by
  have hs := Obj.named_sub g h
  have gx := Obj.named_of_sub g hs
  have hh : x.has n = true ↔ n ∈ propNames x := by rw [Obj.propNames_eq]; exact Obj.has_iff x n
  refine ⟨fun k s => ?_, fun k s => ?_, fun k => ?_, fun k => ?_⟩
  · simp only [Op.run, hs]; rw [if_pos (hh.mpr k)]
  · refine ⟨x.append (s.fresh n), c.1.obj.setSub q (x.append (s.fresh n)), Obj.setSub_edit hs _, ?_, ?_⟩
    · rw [Obj.entries_append]
      cases s <;> rfl
    · simp only [Op.run, hs]; rw [if_neg (fun z => k (hh.mp z))]
  · simp only [Op.run, hs]; rw [if_neg (fun z => k (hh.mp z))]
  · refine ⟨x.erase n, c.1.obj.setSub q (x.erase n), Obj.setSub_edit hs _, Obj.entries_erase gx n, ?_⟩
    simp only [Op.run, hs]; rw [if_pos (hh.mpr k)]

theorem objA_named : Named objA := by
  refine ⟨by simp [propNames], by simp [propNames], ⟨by simp [propNames], trivial⟩, by simp [propNames],
    trivial⟩

example : Named (plainData objA).obj ∧
    ObjAt (plainData objA).obj [3] (.val 1 ⟨7, upTo10, some 8⟩ .nil) :=
  ⟨objA_named, Or.inr ⟨by simp, Or.inr ⟨by simp, Or.inr (Or.inl ⟨[], rfl, Or.inl ⟨rfl, rfl⟩⟩)⟩⟩⟩

/-- C146. Items: a new one comes last, an id that is taken is not added; removing takes exactly that
item with all below it. -/
theorem C146_items (c : Comp) (g : Ided c.2) (k : Nat) (x : Comp) :
    (k ∈ itemIds c.2 → Op.run c (.itemAdd k x) = (c, [])) ∧
    (k ∉ itemIds c.2 → ∃ f, items f = items c.2 ++ [(k, x)] ∧
      Op.run c (.itemAdd k x) = ((c.1, f), [.added k x])) ∧
    (k ∉ itemIds c.2 → Op.run c (.itemDel k) = (c, [])) ∧
    (k ∈ itemIds c.2 → ∃ f, items f = (items c.2).filter (fun e => e.1 != k) ∧
      Op.run c (.itemDel k) = ((c.1, f), [.removed k])) := by
  refine ⟨fun h => ?_, fun h => ?_, fun h => ?_, fun h => ?_⟩
  · simp only [Op.run]; rw [if_pos ((Forest.has_ids _ _).mpr h)]
  · refine ⟨_, Forest.items_add _ _ _, ?_⟩
    simp only [Op.run]; rw [if_neg (fun z => h ((Forest.has_ids _ _).mp z))]
  · simp only [Op.run]; rw [if_neg (fun z => h ((Forest.has_ids _ _).mp z))]
  · refine ⟨_, Forest.items_del g k, ?_⟩
    simp only [Op.run]; rw [if_pos ((Forest.has_ids _ _).mpr h)]

example : Ided (one objA) ∧ 1 ∈ itemIds (one objA) := ⟨⟨trivial, by simp [itemIds], trivial⟩, by simp [one, itemIds]⟩

/-- C146. A write changes only the object with the property; its events carry the path of that object. -/
theorem C146_write_place (c : Comp) (q : List Nat) (a : Act) (x : Obj) (g : Named c.1.obj)
    (h : ObjAt c.1.obj q x) : ∃ o, Edit c.1.obj q x (x.write a).1 o ∧
      Op.run c (.write q a) = (({ c.1 with obj := o }, c.2), (x.write a).2.map (fun t => .value q t)) := by
  have hs := Obj.named_sub g h
  refine ⟨c.1.obj.setSub q (x.write a).1, Obj.setSub_edit hs _, ?_⟩
  simp only [Op.run, hs]

/-- C146. A write that is refused, and one of the value the property has, change nothing and trigger
nothing; so does clearing a property without a stored value. -/
theorem C146_write_ignored (o : Obj) (a : Act) (g : Named o) (h : ∀ w u, ¬ Starts o a w u) :
    o.write a = (o, []) := by
  obtain ⟨h1, h2, h3⟩ := Obj.act_not_starts g h
  unfold Obj.write
  dsimp only
  rw [h1, h2]
  generalize (o.act a).2.2 = z at h3
  cases z with
  | bad => rfl
  | same => rfl
  | done v => exact absurd rfl (h3 v)

/-- C146. Any other write runs the handlers: what they set is set as by a user; then the property gets
its value and the event follows those of the handlers. -/
theorem C146_write_done (o x : Obj) (a : Act) (w : Option Nat) (u : Nat) (es : List Told) (g : Named o)
    (hs : Starts o a w u) (hr : Ran a.name o a.side x es true) (hrepl : a.repl = none ∨ a.repl = some u) :
    entries (o.write a).1 = (entries x).map (setVal a.name w) ∧ (o.write a).2 = es ++ [(a.name, w)] := by
  have hx : Named x := by
    have := (Obj.ran_sides a.name a.side g).2
    rw [Obj.ran_sides_eq g hr] at this
    exact this
  have hn : (if a.repl = some u then none else a.repl) = none := by
    rcases hrepl with e | e <;> simp [e]
  have ha := Obj.act_starts g hs hr
  rw [if_pos rfl, hn] at ha
  unfold Obj.write
  dsimp only
  rw [ha]
  exact ⟨Obj.entries_store hx _ _, rfl⟩

example : Starts objA { name := 1, want := some 6, side := [(2, 9), (1, 4), (2, 9)] } (some 6) 6 ∧
    Ran 1 objA [(2, 9), (1, 4), (2, 9)] (objA.store 2 (some 9)) [(2, some 9)] true := by
  refine ⟨⟨⟨3, upTo10, none⟩, by simp [objA, valueProps],
    Or.inl ⟨6, 6, rfl, rfl, by simp [value], rfl, rfl⟩⟩, ?_⟩
  refine Ran.set (x := objA.store 2 (some 9)) (w := 9) (by simp) ⟨⟨4, upTo10, some 5⟩, by simp [objA, valueProps], rfl⟩ ?_ rfl ?_
  · rintro ⟨p, hp, e⟩
    simp only [objA, valueProps, List.mem_cons, Prod.mk.injEq, List.not_mem_nil, or_false] at hp
    rcases hp with ⟨h, _⟩ | ⟨_, h⟩
    · simp at h
    · subst h; simp [value] at e
  · refine Ran.own (Ran.same (w := 9) (by simp) ?_ ?_ (Ran.nil _))
    · exact ⟨⟨4, upTo10, some 9⟩, by simp [objA, valueProps, Obj.store], rfl⟩
    · exact ⟨⟨4, upTo10, some 9⟩, by simp [objA, valueProps, Obj.store], rfl⟩

/-- C146. If the handlers put another value in place of the written one, that value is stored as a
user's write would store it. -/
theorem C146_write_replaced (o x : Obj) (a : Act) (w : Option Nat) (u r y : Nat) (es : List Told)
    (g : Named o) (hs : Starts o a w u) (hr : Ran a.name o a.side x es true) (he : a.repl = some r)
    (hne : r ≠ u) (ht : Admits x a.name r y) :
    (ReadsAs x a.name y → (o.write a).1 = x) ∧
    (¬ ReadsAs x a.name y → entries (o.write a).1 = (entries x).map (setVal a.name (some y))) ∧
    (o.write a).2 = es ++ [(a.name, some r)] := by
  have hx : Named x := by
    have := (Obj.ran_sides a.name a.side g).2
    rw [Obj.ran_sides_eq g hr] at this
    exact this
  have ha := Obj.act_starts g hs hr
  have hn : (if a.repl = some u then none else a.repl) = some r := by
    rw [he, if_neg (fun e => hne (Option.some.inj e))]
  obtain ⟨p, hp, hy⟩ := (Obj.named_admits hx).mp ht
  rw [if_pos rfl, hn] at ha
  have hput : x.put a.name r = if y = p.read then some x else some (x.store a.name (some y)) := by
    simp only [Obj.put, hp, hy]
  have hra := Obj.named_readsAs hx (v := y) hp
  unfold Obj.write
  dsimp only
  rw [ha]
  unfold Obj.finish
  by_cases e : y = p.read
  · rw [if_pos e] at hput
    dsimp only
    rw [hput]
    exact ⟨fun _ => rfl, fun k => absurd (hra.mpr e) k, rfl⟩
  · rw [if_neg e] at hput
    dsimp only
    rw [hput]
    exact ⟨fun k => absurd (hra.mp k) e, fun _ => Obj.entries_store hx _ _, rfl⟩

/-- C146. If a handler ends with an error, or the value it left is refused, what the handlers set
before stays, with its events; the property itself keeps its value and has no event. -/
theorem C146_write_failed (o x : Obj) (a : Act) (w : Option Nat) (u : Nat) (es : List Told) (b : Bool)
    (g : Named o) (hs : Starts o a w u) (hr : Ran a.name o a.side x es b)
    (hf : b = false ∨ ∃ r, a.repl = some r ∧ r ≠ u ∧ ∀ y, ¬ Admits x a.name r y) :
    o.write a = (x, es) := by
  have hx : Named x := by
    have := (Obj.ran_sides a.name a.side g).2
    rw [Obj.ran_sides_eq g hr] at this
    exact this
  have ha := Obj.act_starts g hs hr
  unfold Obj.write
  dsimp only
  rw [ha]
  cases b with
  | false => rfl
  | true =>
    rcases hf with h | ⟨r, h1, h2, h3⟩
    · cases h
    · have hn : (if a.repl = some u then none else a.repl) = some r := by
        rw [h1, if_neg (fun e => h2 (Option.some.inj e))]
      rw [if_pos rfl, hn]
      simp only [Obj.finish, (Obj.put_none hx).mpr h3]

/-- C146. Every write meets one of the cases above. -/
theorem C146_write_cases (o : Obj) (a : Act) (g : Named o) :
    (∀ w u, ¬ Starts o a w u) ∨ ∃ w u x es b, Starts o a w u ∧ Ran a.name o a.side x es b ∧
      (b = false ∨ (b = true ∧ (a.repl = none ∨ a.repl = some u ∨
        ∃ r, a.repl = some r ∧ r ≠ u ∧ ((∃ y, Admits x a.name r y) ∨ ∀ y, ¬ Admits x a.name r y)))) := by
  by_cases hs : ∃ w u, Starts o a w u
  · obtain ⟨w, u, hs⟩ := hs
    refine Or.inr ⟨w, u, _, _, _, hs, (Obj.ran_sides a.name a.side g).1, ?_⟩
    cases hb : (o.sides a.name a.side).2.2 with
    | false => exact Or.inl rfl
    | true =>
      refine Or.inr ⟨rfl, ?_⟩
      cases hr : a.repl with
      | none => exact Or.inl rfl
      | some r =>
        by_cases e : r = u
        · exact Or.inr (Or.inl (by rw [e]))
        · exact Or.inr (Or.inr ⟨r, rfl, e, Classical.em _ |>.imp id (fun h y k => h ⟨y, k⟩)⟩)
  · exact Or.inl (fun w u h => hs ⟨w, u, h⟩)

theorem batch_applied (l : List Act) : ∀ (o : Obj) (d : List (Nat × Nat)), Named o →
    Applied (fun o a => (o.write a).1) o l (o.batch l d).1 := by
  induction l with
  | nil => intro o d _; exact Applied.nil o
  | cons a l ih =>
    intro o d g
    have hb := Obj.act_bad (a := a) g
    unfold Obj.batch
    dsimp only
    cases hz : (o.act a).2.2 with
    | bad =>
      have := Applied.stop (go := fun o a => (o.write a).1) (l := l) (hb.mp hz)
      dsimp only at this ⊢
      rw [Obj.write_obj] at this
      exact this
    | same =>
      have hn : ¬ Fails o a := fun k => by rw [hb.mpr k] at hz; cases hz
      refine Applied.next hn ?_
      dsimp only
      rw [Obj.write_obj]
      exact ih _ _ (Obj.named_act g a)
    | done v =>
      have hn : ¬ Fails o a := fun k => by rw [hb.mpr k] at hz; cases hz
      refine Applied.next hn ?_
      dsimp only
      rw [Obj.write_obj]
      exact ih _ _ (Obj.named_act g a)

/-- C146. A batch does to the object what its writes would do one after the other, up to the first
that fails. -/
theorem C146_batch (c : Comp) (q : List Nat) (l : List Act) (x : Obj) (g : Named c.1.obj)
    (h : ObjAt c.1.obj q x) : ∃ y o es, Applied (fun o a => (o.write a).1) x l y ∧ Edit c.1.obj q x y o ∧
      Op.run c (.batch q l) = (({ c.1 with obj := o }, c.2), es) ∧ (l = [] → es = []) := by
  have hs := Obj.named_sub g h
  refine ⟨(x.batch l []).1, c.1.obj.setSub q (x.batch l []).1, (Op.run c (.batch q l)).2,
    batch_applied l x [] (Obj.named_of_sub g hs), Obj.setSub_edit hs _, ?_, ?_⟩
  · simp only [Op.run, hs]
  · rintro rfl
    simp only [Op.run, hs, Obj.batch, List.map_nil, List.append_nil]

/-! ### C147: events of values -/

/-- C147. After a write or clear, with handlers or not, every property has the value that the last
event about it tells, and the value it had before if there is no event about it, provided the
property takes a value that its handlers leave as it is. -/
theorem C147_events_tell_partial (o : Obj) (a : Act) (g : Named o)
    (hr : ∀ r p, a.repl = some r → (a.name, p) ∈ valueProps o → ∀ e, p.fix e r = some r)
    (m : Nat) (p : P) (hp : (m, p) ∈ valueProps o) :
    ∃ p', (m, p') ∈ valueProps (o.write a).1 ∧ p'.dflt = p.dflt ∧ p'.fix = p.fix ∧
      Truthful m (o.write a).2 p p' := by
  by_cases hs : ∃ w u, Starts o a w u
  · obtain ⟨w, u, hs⟩ := hs
    obtain ⟨hran, gx⟩ := Obj.ran_sides a.name a.side g
    obtain ⟨p1, f1, f2, f3, f4, f5⟩ := Obj.sides_truthful a.name a.side ((Obj.named_find g).mpr hp)
    have ha := Obj.act_starts g hs hran
    obtain ⟨p0, hp0, hst⟩ := hs
    obtain ⟨q, k1, k2, k3, k4, k5⟩ := Obj.sides_truthful a.name a.side ((Obj.named_find g).mpr hp0)
    obtain ⟨k5, _⟩ := k5 rfl
    subst k5
    generalize (o.sides a.name a.side).1 = x at *
    generalize (o.sides a.name a.side).2.1 = es at *
    generalize (o.sides a.name a.side).2.2 = b at *
    unfold Obj.write
    dsimp only
    rw [ha]
    cases b with
    | false => exact ⟨p1, (Obj.named_find gx).mp f1, f2, f3, f4⟩
    | true =>
      rw [if_pos rfl]
      -- after the handlers: the property itself, or another one
      have fin : ∀ (y : Obj) (v : Option Nat), Named y →
          (∀ n, n ≠ a.name → y.find n = x.find n) →
          (∃ q', y.find a.name = some q' ∧ q'.dflt = q.dflt ∧ q'.fix = q.fix ∧
            value q' = match v with | none => q'.dflt | some z => z) →
          ∃ p', (m, p') ∈ valueProps y ∧ p'.dflt = p.dflt ∧ p'.fix = p.fix ∧
            Truthful m (es ++ [(a.name, v)]) p p' := by
        intro y v gy h1 h2
        unfold Truthful
        rw [Obj.lastAbout_append]
        by_cases e : m = a.name
        · subst e
          obtain ⟨q', q1, q2, q3, q4⟩ := h2
          have hpq : p = q := by
            have := ((Obj.named_find g).mpr hp).symm.trans ((Obj.named_find g).mpr hp0)
            exact Option.some.inj this
          refine ⟨q', (Obj.named_find gy).mp q1, by rw [q2, hpq], by rw [q3, hpq], ?_⟩
          simp only [lastAbout, if_true]
          cases v <;> exact q4
        · refine ⟨p1, (Obj.named_find gy).mp ((h1 m e).trans f1), f2, f3, ?_⟩
          simp only [lastAbout, if_neg (Ne.symm e)]
          exact f4
      rcases Obj.finish_cases x a.name w (if a.repl = some u then none else a.repl) es with
        ⟨_, e⟩ | ⟨v, e1, e2, e⟩ | ⟨v, y, e1, e2, e⟩
      · rw [e]
        refine fin _ w (Obj.named_store gx _ _) (fun n hn => Obj.find_store_ne hn w) ?_
        refine ⟨_, Obj.find_store_self k1 w, rfl, rfl, ?_⟩
        cases w <;> rfl
      · rw [e]
        exact ⟨p1, (Obj.named_find gx).mp f1, f2, f3, f4⟩
      · rw [e]
        have e3 : a.repl = some v := by
          split at e1
          · cases e1
          · exact e1
        have hfix := hr v q e3 hp0
        have hput : x.put a.name v = if v = q.read then some x else some (x.store a.name (some v)) := by
          simp only [Obj.put, k1, hfix x.env]
        rw [hput] at e2
        by_cases e4 : v = q.read
        · rw [if_pos e4] at e2
          cases e2
          refine fin _ (some v) gx (fun _ _ => rfl) ⟨q, k1, rfl, rfl, ?_⟩
          rw [Obj.value_read]; exact e4.symm
        · rw [if_neg e4] at e2
          cases e2
          refine fin _ (some v) (Obj.named_store gx _ _) (fun n hn => Obj.find_store_ne hn _) ?_
          exact ⟨_, Obj.find_store_self k1 _, rfl, rfl, rfl⟩
  · rw [C146_write_ignored o a g (fun w u h => hs ⟨w, u, h⟩)]
    exact ⟨p, hp, rfl, rfl, rfl⟩

/-- Values above 10 become 10. -/
def cap10 : Fix := fun _ v => some (min v 10)

/-- One property with a limit. -/
def objC : Obj := .val 1 ⟨3, cap10, none⟩ (.val 2 ⟨4, upTo10, some 5⟩ .nil)

example : Named objC ∧ (∀ r p, (some 7 : Option Nat) = some r → (1, p) ∈ valueProps objC →
    ∀ e, p.fix e r = some r) ∧
    (objC.write { name := 1, want := some 6, repl := some 7, side := [(2, 9)] }).2 =
      [(2, some 9), (1, some 7)] := by
  refine ⟨⟨by simp [propNames], by simp [propNames], trivial⟩, ?_, by decide +kernel⟩
  intro r p hr hp e
  cases hr
  simp only [objC, valueProps, List.mem_cons, Prod.mk.injEq, List.not_mem_nil, or_false] at hp
  rcases hp with ⟨_, h⟩ | ⟨h, _⟩
  · subst h; rfl
  · simp at h

/-- C147. The event carries the value that the handlers left, before it is limited: here the property
has the value 10 and the event tells 20. -/
theorem C147_violation_replaced :
    (objC.write { name := 1, want := some 6, repl := some 20 }).2 = [(1, some 20)] ∧
    reads (objC.write { name := 1, want := some 6, repl := some 20 }).1 1 = 10 := by
  decide +kernel

end Verif.Remote.Props
