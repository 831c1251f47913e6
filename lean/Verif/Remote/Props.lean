import Verif.Remote.Follow

/-!
# A client of the configuration protocol follows the server (C110–C116)
-/

namespace Verif.Remote.Props
open Verif.Remote Spec

/-! ### Small trees for the examples -/

/-- Accepts values up to 10. -/
def upTo10 : Fix := fun _ v => if v ≤ 10 then some v else none

theorem upTo10_firm : Firm upTo10 := by
  intro e e' v w h
  unfold upTo10 at h ⊢
  split at h
  · cases h; rename_i hv; rw [if_pos hv]
  · simp at h

/-- Accepts values up to the value of property 2. -/
def upToB : Fix := fun e v => if v ≤ e 2 then some v else none

theorem upToB_stable : Stable upToB := by
  intro e v w h
  unfold upToB at h ⊢
  split at h
  · cases h; rename_i hv; rw [if_pos hv]
  · simp at h

/-- A component without locks. -/
def plainData (o : Obj) : Data :=
  { kind := 1, attr := fun _ => 0, lock := fun _ => false, tags := [], stat := [(1, (0, 0))],
    obj := o }

/-- A tree with one component. -/
def one (o : Obj) : Forest := .cons 1 (plainData o) .nil .nil

/-- Properties 1 and 2, and an object 3 with a property 1. -/
def objA : Obj :=
  .val 1 ⟨3, upTo10, none⟩ (.val 2 ⟨4, upTo10, some 5⟩ (.obj 3 (.val 1 ⟨7, upTo10, some 8⟩ .nil) .nil))

theorem objA_good : GoodObj objA := by
  refine ⟨upTo10_firm, by simp, by simp [propNames], upTo10_firm, ?_, by simp [propNames],
    ⟨upTo10_firm, ?_, by simp [propNames], trivial⟩, by simp [propNames], trivial⟩
  · intro v hv e; cases hv; rfl
  · intro v hv e; cases hv; rfl

theorem one_good {o : Obj} (h : GoodObj o) : Good (one o) :=
  ⟨h, trivial, by simp [itemIds], trivial⟩

/-- Values of a component's own properties 1 and 2 and of property 1 of object 3. -/
def readAt (f : Forest) (p q : List Nat) (n : Nat) : Option Nat :=
  match f.find p with
  | none => none
  | some c =>
    match c.1.obj.sub q with
    | none => none
    | some o => (o.find n).map P.read

/-- A history with writes, handlers, nested objects, properties, components, tags and statuses. -/
def histA : List (List Nat × Op) :=
  [([1], .write [] { name := 1, want := some 6, side := [(2, 9)] }),
   ([1], .write [3] { name := 1, want := none }),
   ([1], .write [] { name := 2, want := some 4, repl := some 2 }),
   ([1], .propAdd [3] 4 (.obj objA)),
   ([1], .itemAdd 5 (plainData objA, .nil)),
   ([1, 5], .write [3] { name := 1, want := some 1 }),
   ([1, 5], .tagAdd 3),
   ([1], .statSet 1 2 3),
   ([1, 5], .attr .active 1 true),
   ([1], .propDel [] 2)]

/-! ### C110: the client follows the server -/

/-- C110. A client that shows the tree of the server shows it again after it has handled the events
of any history of changes: attributes, tags, statuses, values (also set or replaced by handlers),
properties, nested objects, components. -/
theorem C110_client_follows (s c : Forest) (ops : List (List Nat × Op)) (hs : Good s) (hc : Free c)
    (h : view c = view s) (hp : ∀ x ∈ ops, Plain x.2) :
    view (handleAll c (history s ops).2) = view (history s ops).1 := by
  rw [Forest.view_eq_iff] at h ⊢
  exact (history_ok ops h.symm hc hs hp).1

/-- C110, with limits that depend on other properties: the same for changes of attributes, tags,
statuses and values, if handlers set no other properties. -/
theorem C110_client_follows_dependent (s c : Forest) (ops : List (List Nat × Op))
    (hs : StableTree s) (hc : Free c) (h : view c = view s) (hp : ∀ x ∈ ops, Simple x.2) :
    view (handleAll c (history s ops).2) = view (history s ops).1 := by
  rw [Forest.view_eq_iff] at h ⊢
  exact history_stable ops h.symm hc hs hp

theorem histA_plain : ∀ x ∈ histA, Plain x.2 := by
  intro x hx
  simp only [histA, List.mem_cons, List.not_mem_nil, or_false] at hx
  rcases hx with h | h | h | h | h | h | h | h | h | h <;> subst h
  all_goals first
    | trivial
    | exact objA_good
    | exact ⟨objA_good, trivial⟩

/-- Non-vacuity: a history that changes nearly everything. -/
example : view (handleAll (one objA) (history (one objA) histA).2) =
    view (history (one objA) histA).1 :=
  C110_client_follows _ _ _ (one_good objA_good) ⟨rfl, trivial, trivial⟩ rfl histA_plain

example : (history (one objA) histA).2.length = 12 ∧
    readAt (handleAll (one objA) (history (one objA) histA).2) [1] [] 1 = some 6 ∧
    readAt (handleAll (one objA) (history (one objA) histA).2) [1] [3] 1 = some 7 ∧
    readAt (handleAll (one objA) (history (one objA) histA).2) [1] [3, 4] 2 = some 5 ∧
    readAt (handleAll (one objA) (history (one objA) histA).2) [1, 5] [3] 1 = some 1 ∧
    readAt (handleAll (one objA) (history (one objA) histA).2) [1] [] 2 = none := by decide +kernel

/-- Properties 1 (at most the value of 2) and 2. -/
def objD : Obj := .val 1 ⟨3, upToB, none⟩ (.val 2 ⟨4, upTo10, some 5⟩ .nil)

theorem objD_stable : StableObj objD :=
  ⟨upToB_stable, fun e v w h => upTo10_firm e e v w h, trivial⟩

/-- Non-vacuity of the second theorem. -/
example : view (handleAll (one objD) (history (one objD)
      [([1], .write [] { name := 2, want := some 9 }), ([1], .write [] { name := 1, want := some 8 }),
       ([1], .write [] { name := 2, want := some 1 })]).2) =
    view (history (one objD)
      [([1], .write [] { name := 2, want := some 9 }), ([1], .write [] { name := 1, want := some 8 }),
       ([1], .write [] { name := 2, want := some 1 })]).1 :=
  C110_client_follows_dependent _ _ _ ⟨objD_stable, trivial, trivial⟩ ⟨rfl, trivial, trivial⟩ rfl
    (by
      intro x hx
      simp only [List.mem_cons, List.not_mem_nil, or_false] at hx
      rcases hx with h | h | h <;> subst h <;> rfl)

/-! ### C111: batches -/

/-- C111, in part: after a batch of writes and clears (`beginUpdate` … `endUpdate`) the client shows
the tree of the server if all of them are accepted, the handlers set no other properties and the
defaults are accepted too. -/
theorem C111_batch_partial (s c : Forest) (p q : List Nat) (l : List Act) (hs : Good s)
    (hc : Free c) (h : view c = view s)
    (ha : ∀ d i o, CompAt s p d i → ObjAt d.obj q o → DefaultsFit o ∧ ∀ a ∈ l, Accepted o a) :
    view (handleAll c (serve s p (.batch q l)).2) = view (serve s p (.batch q l)).1 := by
  rw [Forest.view_eq_iff] at h ⊢
  refine (serve_ok h.symm hc p (.batch q l) ?_).1
  intro x y hx _ _
  refine fine_batch (Forest.tree_find ((good_iff s).mp hs) hx).1 q l ?_
  intro o ho
  exact ha x.1 x.2 o (Forest.find_compAt hx) (Obj.sub_objAt ho)

/-- A batch on `objA`. -/
def batchA : List Act :=
  [{ name := 1, want := some 6 }, { name := 2, want := none }, { name := 1, want := some 2, repl := some 9 }]

/-- Non-vacuity. -/
example : view (handleAll (one objA) (serve (one objA) [1] (.batch [] batchA)).2) =
    view (serve (one objA) [1] (.batch [] batchA)).1 := by
  refine C111_batch_partial _ _ _ _ _ (one_good objA_good) ⟨rfl, trivial, trivial⟩ rfl ?_
  intro d i o h1 h2
  have e := Forest.compAt_find (one_good objA_good) h1
  have e1 : d = plainData objA := by
    have : (Forest.find (one objA) [1]) = some (plainData objA, .nil) := rfl
    rw [this] at e; cases e; rfl
  subst e1
  have e2 : o = objA := by
    have := Obj.objAt_sub objA_good h2
    simpa [Obj.sub] using this.symm
  subst e2
  refine ⟨⟨fun _ => rfl, fun _ => rfl, trivial⟩, ?_⟩
  have g6 : ∀ v, v ≤ 10 → ∀ e, upTo10 e v ≠ none := by
    intro v hv e; unfold upTo10; rw [if_pos hv]; simp
  intro a ha
  simp only [batchA, List.mem_cons, List.not_mem_nil, or_false] at ha
  rcases ha with h | h | h <;> subst h
  · refine ⟨rfl, ⟨3, upTo10, none⟩, by simp [objA, valueProps], ?_, ?_⟩
    · intro v hv; cases hv; exact g6 6 (by omega)
    · intro v hv; simp at hv
  · refine ⟨rfl, ⟨4, upTo10, some 5⟩, by simp [objA, valueProps], ?_, ?_⟩
    · intro v hv; simp at hv
    · intro v hv; simp at hv
  · refine ⟨rfl, ⟨3, upTo10, none⟩, by simp [objA, valueProps], ?_, ?_⟩
    · intro v hv; cases hv; exact g6 2 (by omega)
    · intro v hv; cases hv; exact g6 9 (by omega)

/-- C111 fails: a value in the middle of a batch is refused: what was written before it stays on the
server, but no event is triggered. -/
theorem C111_violation_refused_value :
    let op : Op := .batch [] [{ name := 1, want := some 6 }, { name := 2, want := some 99 }]
    let r := serve (one objA) [1] op
    r.2.length = 0 ∧ readAt r.1 [1] [] 1 = some 6 ∧
      readAt (handleAll (one objA) r.2) [1] [] 1 = some 3 := by decide +kernel

/-- C111 fails: a handler of a later element of the batch sets a property written before: the client
gets the new value first and then the one of the batch. -/
theorem C111_violation_handler :
    let op : Op := .batch [] [{ name := 1, want := some 6 },
      { name := 2, want := some 9, side := [(1, 7)] }]
    let r := serve (one objA) [1] op
    readAt r.1 [1] [] 1 = some 7 ∧ readAt (handleAll (one objA) r.2) [1] [] 1 = some 6 := by
  decide +kernel

/-- An object whose first property has a default above its limit. -/
def objW : Obj := .val 1 ⟨50, upTo10, some 5⟩ (.val 2 ⟨4, upTo10, none⟩ .nil)

/-- C111 fails: a batch clears a property with a default value that could not be written: the client
refuses the default and drops the rest of the batch. -/
theorem C111_violation_default :
    let op : Op := .batch [] [{ name := 1, want := none }, { name := 2, want := some 9 }]
    let r := serve (one objW) [1] op
    readAt r.1 [1] [] 1 = some 50 ∧ readAt r.1 [1] [] 2 = some 9 ∧
      readAt (handleAll (one objW) r.2) [1] [] 1 = some 5 ∧
      readAt (handleAll (one objW) r.2) [1] [] 2 = some 4 := by decide +kernel

/-! ### C112: connecting -/

/-- C112, in part: a client that connects succeeds and shows the tree of the server, and goes on
showing it, if no change falls between the serialization of the tree and the moment the client
accepts events. -/
theorem C112_connect_partial (s : Forest) (ops : List (List Nat × Op)) (hs : Good s)
    (hp : ∀ x ∈ ops, Plain x.2) :
    ∃ c, (connect s [] ops).2 = some c ∧ view c = view (connect s [] ops).1 := by
  obtain ⟨f, h1, h2, h3⟩ := Forest.load_ok hs
  have := history_ok ops h2.symm h3 hs hp
  refine ⟨_, by unfold connect; simp only [history, h1]; rfl, ?_⟩
  rw [Forest.view_eq_iff]
  exact this.1

/-- Non-vacuity. -/
example : ∃ c, (connect (one objA) [] histA).2 = some c ∧
    view c = view (connect (one objA) [] histA).1 :=
  C112_connect_partial _ _ (one_good objA_good) histA_plain

/-- C112 fails: stored values are set in the order of their names, so a limit that depends on a
property set later is the default one: the connection fails. -/
theorem C112_violation_dependent_limit :
    let s := (history (one objD) [([1], .write [] { name := 2, want := some 9 }),
      ([1], .write [] { name := 1, want := some 8 })]).1
    readAt s [1] [] 1 = some 8 ∧ readAt s [1] [] 2 = some 9 ∧
      (connect s [] []).2.isNone = true := by decide +kernel

/-- C112 fails: a value is coerced again when it is deserialized. -/
theorem C112_violation_coercer :
    let o : Obj := .val 1 ⟨3, fun _ v => some (v + 1), none⟩ .nil
    let s := (serve (one o) [1] (.write [] { name := 1, want := some 5 })).1
    readAt s [1] [] 1 = some 6 ∧
      ((connect s [] []).2.bind fun c => readAt c [1] [] 1) = some 7 := by decide +kernel

/-- C112 fails: events that arrive before the client accepts them are thrown away. -/
theorem C112_violation_early_event :
    let r := connect (one objA) [([1], .write [] { name := 1, want := some 6 })] []
    readAt r.1 [1] [] 1 = some 6 ∧ (r.2.bind fun c => readAt c [1] [] 1) = some 3 := by
  decide +kernel

/-! ### C113: updates and reconnection -/

/-- C113, in part: a component that is updated or sent again after a reconnection is on the client
what it is on the server, if its items and properties are those that the client knows, without some
of them and with new ones at the end (new properties only in the component itself and in nested
objects), and with the same tags. The component is then closed again and its events are not muted. -/
theorem C113_update_partial (s c : Comp) (g1 : GoodObj s.1.obj) (g2 : Good s.2)
    (h1 : nearData True s.1 c.1) (h2 : nearItems s.2 (itemsHaving (itemIds s.2) c.2)) :
    seenData (Comp.updateEnd s c).1 = seenData s.1 ∧ view (Comp.updateEnd s c).2 = view s.2 ∧
    (Comp.updateEnd s c).1.open_ = false ∧ (Comp.updateEnd s c).1.mute = c.1.mute := by
  obtain ⟨a, b⟩ := Comp.updateEnd_ok g1 g2 h1 h2
  refine ⟨?_, ?_, b⟩
  · rw [seenData_eq_iff]; exact congrArg Prod.fst a
  · rw [Forest.view_eq_iff]; exact congrArg Prod.snd a

/-- The object of `objA` after an update: property 1 gone, values changed, a new property in object 3
and two new properties. -/
def objU : Obj :=
  .val 2 ⟨4, upTo10, none⟩ (.obj 3 (.val 1 ⟨7, upTo10, some 2⟩ (.val 6 ⟨0, upTo10, some 1⟩ .nil))
    (.val 8 ⟨0, upTo10, some 9⟩ (.obj 9 objA .nil)))

theorem objU_good : GoodObj objU := by
  refine ⟨upTo10_firm, by simp, by simp [propNames], ⟨upTo10_firm, ?_, by simp [propNames],
    upTo10_firm, ?_, by simp [propNames], trivial⟩, by simp [propNames], upTo10_firm, ?_,
    by simp [propNames], objA_good, by simp [propNames], trivial⟩
  all_goals (intro v hv e; cases hv; rfl)

/-- A component with a child before and after an update. -/
def treeC : Comp := (plainData objA, .cons 4 (plainData objA) .nil (.cons 5 (plainData objD) .nil .nil))
def treeS : Comp :=
  ({ plainData objU with stat := [(1, (7, 7)), (2, (1, 1))], attr := fun _ => 3 },
    .cons 4 (plainData (.val 1 ⟨3, upTo10, some 9⟩ (.val 2 ⟨4, upTo10, none⟩ .nil))) .nil
      (.cons 6 (plainData objU) (one objA) .nil))

/-- Non-vacuity: everything the theorem allows happens. -/
example : seenData (Comp.updateEnd treeS treeC).1 = seenData treeS.1 ∧
    view (Comp.updateEnd treeS treeC).2 = view treeS.2 ∧
    (Comp.updateEnd treeS treeC).1.open_ = false ∧ (Comp.updateEnd treeS treeC).1.mute = false := by
  refine C113_update_partial treeS treeC objU_good ?_ ?_ ?_
  · refine ⟨?_, trivial, by simp [itemIds], objU_good, one_good objA_good, by simp [itemIds], trivial⟩
    refine ⟨upTo10_firm, ?_, by simp [propNames], upTo10_firm, by simp, by simp [propNames], trivial⟩
    intro v hv e; cases hv; rfl
  · refine ⟨rfl, rfl, by decide, by decide, ?_⟩
    simp [treeS, treeC, plainData, objU, objA, near, having, propNames]
  · have e : itemsHaving (itemIds treeS.2) treeC.2 = .cons 4 (plainData objA) .nil .nil := rfl
    rw [e]
    refine ⟨rfl, rfl, ⟨rfl, rfl, by decide, by decide, ?_⟩, trivial, trivial⟩
    simp [plainData, objA, near, having, propNames]

/-- C113 fails: a child component with a new property is not updated at all, and the update does not
report it. -/
theorem C113_violation_child_property :
    let old : Comp := (plainData .nil, .cons 4 (plainData objD) .nil .nil)
    let upd : Comp := (plainData .nil, .cons 4 (plainData
      (.val 1 ⟨3, upToB, none⟩ (.val 2 ⟨4, upTo10, some 9⟩ (.val 8 ⟨0, upTo10, none⟩ .nil)))) .nil .nil)
    readAt upd.2 [4] [] 2 = some 9 ∧ readAt (Comp.updateEnd upd old).2 [4] [] 2 = some 5 ∧
      (Comp.updateEnd upd old).1.open_ = false := by decide +kernel

/-- C113 fails: tags are not updated. -/
theorem C113_violation_tags :
    let old : Comp := (plainData .nil, .nil)
    let upd : Comp := ({ plainData .nil with tags := [3] }, .nil)
    (Comp.updateEnd upd old).1.tags = [] := by decide +kernel

/-- C113 fails: values are set in the order of the properties, so a limit that depends on a later
property is the old one. The update stops; the component accepts new properties from now on and its
events stay muted. -/
theorem C113_violation_dependent_limit :
    let old : Comp := (plainData objD, .nil)
    let upd : Comp := (plainData (.val 1 ⟨3, upToB, some 8⟩ (.val 2 ⟨4, upTo10, some 9⟩ .nil)), .nil)
    let r := Comp.updateEnd upd old
    readAt (.cons 1 r.1 .nil .nil) [1] [] 1 = some 3 ∧
      readAt (.cons 1 r.1 .nil .nil) [1] [] 2 = some 5 ∧ r.1.open_ = true ∧ r.1.mute = true := by
  decide +kernel

/-! ### C114: setting values through the client -/

/-- What the server and the client read after a write or a clear without handlers. -/
theorem both_read (s c : Forest) (p q : List Nat) (n : Nat) (want : Option Nat) (d : Data)
    (i : Forest) (o : Obj) (pr : P) (w : Nat) (hs : Good s) (hc : Free c) (h : view c = view s)
    (h1 : CompAt s p d i) (h2 : ObjAt d.obj q o) (h3 : (n, pr) ∈ valueProps o)
    (hw : (∃ v, want = some v ∧ ∀ e, pr.fix e v = some w) ∨ (want = none ∧ w = pr.dflt)) :
    let r := serve s p (.write q { name := n, want := want })
    view (handleAll c r.2) = view r.1 ∧
    (∃ d' i' o' p', CompAt r.1 p d' i' ∧ ObjAt d'.obj q o' ∧ (n, p') ∈ valueProps o' ∧
      value p' = w) ∧
    ∃ d' i' o' p', CompAt (handleAll c r.2) p d' i' ∧ ObjAt d'.obj q o' ∧
      (n, p') ∈ valueProps o' ∧ value p' = w := by
  dsimp only
  have hf := Forest.compAt_find hs h1
  have gx := Forest.tree_find ((good_iff s).mp hs) hf
  have hsub := Obj.objAt_sub gx.1 h2
  have go := Obj.good_sub gx.1 hsub
  have hfind := Obj.valueProps_find go h3
  have hv : view (handleAll c (serve s p (.write q { name := n, want := want })).2) =
      view (serve s p (.write q { name := n, want := want })).1 := by
    rw [Forest.view_eq_iff] at h ⊢
    exact (serve_ok h.symm hc p _ (fun x y hx _ _ => fine_plain
      (Forest.tree_find ((good_iff s).mp hs) hx).1 (op := .write q _) trivial)).1
  -- the object on the server after the write
  have hobj : ∃ p', ((o.write { name := n, want := want }).1).find n = some p' ∧ p'.read = w := by
    unfold Obj.write Obj.act
    simp only [hfind]
    rcases hw with ⟨v, e1, e2⟩ | ⟨e1, e2⟩
    · subst e1
      simp only [e2]
      by_cases hr : w = pr.read
      · rw [if_pos hr]; exact ⟨pr, hfind, hr.symm⟩
      · rw [if_neg hr]
        refine ⟨{ pr with val := some w }, ?_, rfl⟩
        simp only [Obj.sides, if_true, Obj.finish]
        exact Obj.find_store_self hfind (some w)
    · subst e1
      dsimp only
      by_cases hr : pr.val = none
      · rw [if_pos hr]
        refine ⟨pr, hfind, ?_⟩
        unfold P.read; rw [hr, e2]; rfl
      · rw [if_neg hr]
        refine ⟨{ pr with val := none }, ?_, e2.symm⟩
        simp only [Obj.sides, if_true, Obj.finish]
        exact Obj.find_store_self hfind none
  obtain ⟨p', hp', hread⟩ := hobj
  have hserver : (serve s p (.write q { name := n, want := want })).1.find p =
      some ({ d with obj := d.obj.setSub q (o.write { name := n, want := want }).1 }, i) := by
    unfold serve
    rw [hf]
    dsimp only
    rw [Forest.find_upd_self hf]
    simp only [Op.run, hsub]
  have hsub' : (d.obj.setSub q (o.write { name := n, want := want }).1).sub q =
      some (o.write { name := n, want := want }).1 := Obj.sub_setSub_self hsub _
  refine ⟨hv, ⟨_, _, _, p', Forest.find_compAt hserver, Obj.sub_objAt hsub',
    Obj.find_valueProps hp', by rw [P.value_eq]; exact hread⟩, ?_⟩
  rw [Forest.view_eq_iff] at hv
  rcases Forest.find_both hv.symm p with ⟨a, _⟩ | ⟨x, y, a, b, e⟩
  · rw [hserver] at a; simp at a
  · rw [hserver] at a
    cases a
    rcases Obj.sub_both (Comp.norm_obj e) q with ⟨a1, _⟩ | ⟨o1, o2, a1, a2, a3⟩
    · dsimp only at a1; rw [hsub'] at a1; simp at a1
    · dsimp only at a1
      rw [hsub'] at a1
      cases a1
      obtain ⟨p2, b1, _, _, b2⟩ := Obj.find_congr a3 hp'
      exact ⟨_, _, o2, p2, Forest.find_compAt b, Obj.sub_objAt a2, Obj.find_valueProps b1,
        by rw [P.value_eq, b2]; exact hread⟩

/-- C114. Setting a property through a client, of the component or of a nested object at any depth,
asks the server to set that very property; when the server's event has been handled, both show the
value that the property makes of it, and all the rest is the same on both sides too. -/
theorem C114_set_through_client (s c : Forest) (p q : List Nat) (n v w : Nat) (d : Data) (i : Forest)
    (o : Obj) (pr : P) (hs : Good s) (hc : Free c) (h : view c = view s) (h1 : CompAt s p d i)
    (h2 : ObjAt d.obj q o) (h3 : (n, pr) ∈ valueProps o) (hw : ∀ e, pr.fix e v = some w) :
    ∃ q' n' v', (Call.set q n v).effect = .request q' n' v' ∧
      let r := serve s p (.write q' { name := n', want := v' })
      view (handleAll c r.2) = view r.1 ∧
      (∃ d' i' o' p', CompAt r.1 p d' i' ∧ ObjAt d'.obj q o' ∧ (n, p') ∈ valueProps o' ∧
        value p' = w) ∧
      ∃ d' i' o' p', CompAt (handleAll c r.2) p d' i' ∧ ObjAt d'.obj q o' ∧
        (n, p') ∈ valueProps o' ∧ value p' = w :=
  ⟨q, n, some v, rfl, both_read s c p q n (some v) d i o pr w hs hc h h1 h2 h3 (Or.inl ⟨v, rfl, hw⟩)⟩

/-- C114: a value that the property refuses changes nothing on either side. -/
theorem C114_refused_value (s c : Forest) (p q : List Nat) (n v : Nat) (d : Data) (i : Forest)
    (o : Obj) (pr : P) (hs : Good s) (h1 : CompAt s p d i)
    (h2 : ObjAt d.obj q o) (h3 : (n, pr) ∈ valueProps o) (hw : ∀ e, pr.fix e v = none) :
    ∃ q' n' v', (Call.set q n v).effect = .request q' n' v' ∧
      let r := serve s p (.write q' { name := n', want := v' })
      r.1 = s ∧ handleAll c r.2 = c := by
  refine ⟨q, n, some v, rfl, ?_⟩
  have hf := Forest.compAt_find hs h1
  have gx := Forest.tree_find ((good_iff s).mp hs) hf
  have hsub := Obj.objAt_sub gx.1 h2
  have go := Obj.good_sub gx.1 hsub
  have hfind := Obj.valueProps_find go h3
  have hwr : o.write { name := n, want := some v } = (o, []) := by
    unfold Obj.write Obj.act
    simp only [hfind, hw]
  dsimp only
  unfold serve
  simp only [hf, Op.run, hsub, hwr, List.map_nil]
  rw [Obj.setSub_sub hsub]
  exact ⟨Forest.upd_find hf, rfl⟩

/-- Non-vacuity: a property of a nested object. -/
example : ∃ q' n' v', (Call.set [3] 1 10).effect = .request q' n' v' ∧
    let r := serve (one objA) [1] (.write q' { name := n', want := v' })
    view (handleAll (one objA) r.2) = view r.1 ∧
    (∃ d' i' o' p', CompAt r.1 [1] d' i' ∧ ObjAt d'.obj [3] o' ∧ (1, p') ∈ valueProps o' ∧
      value p' = 10) ∧
    ∃ d' i' o' p', CompAt (handleAll (one objA) r.2) [1] d' i' ∧ ObjAt d'.obj [3] o' ∧
      (1, p') ∈ valueProps o' ∧ value p' = 10 :=
  C114_set_through_client (one objA) (one objA) [1] [3] 1 10 10 (plainData objA) .nil
    (.val 1 ⟨7, upTo10, some 8⟩ .nil) ⟨7, upTo10, some 8⟩ (one_good objA_good) ⟨rfl, trivial, trivial⟩
    rfl (Or.inl ⟨rfl, rfl, rfl⟩)
    (Obj.sub_objAt (o := objA) (q := [3]) rfl) (by simp [valueProps])
    (fun e => rfl)

/-! ### C115: clearing and protected calls of nested objects -/

/-- C115, in part: the four calls on the component itself ask the server for what they say, and a
clear makes both sides read the default. -/
theorem C115_component_partial (n v : Nat) :
    (Call.clear [] n).effect = .request [] n none ∧
    (Call.setProtected [] n v).effect = .request [] n (some v) ∧
    (Call.clearProtected [] n).effect = .request [] n none ∧
    ∀ (s c : Forest) (p : List Nat) (d : Data) (i : Forest) (pr : P), Good s → Free c →
      view c = view s → CompAt s p d i → (n, pr) ∈ valueProps d.obj →
      let r := serve s p (.write [] { name := n, want := none })
      view (handleAll c r.2) = view r.1 ∧
      ∃ d' i' p', CompAt (handleAll c r.2) p d' i' ∧ (n, p') ∈ valueProps d'.obj ∧
        value p' = pr.dflt := by
  refine ⟨rfl, rfl, rfl, ?_⟩
  intro s c p d i pr hs hc h h1 h3
  obtain ⟨a1, _, d', i', o', p', b1, b2, b3, b4⟩ := both_read s c p [] n none d i d.obj pr pr.dflt
    hs hc h h1 (Obj.objAt_nil _) h3 (Or.inr ⟨rfl, rfl⟩)
  refine ⟨a1, d', i', p', b1, ?_, b4⟩
  have : o' = d'.obj := by
    cases hd : d'.obj with
    | nil => rw [hd] at b2; exact b2.2
    | val m q r =>
      rw [hd] at b2
      rcases b2 with ⟨_, h⟩ | ⟨h, _⟩
      · exact h
      · simp at h
    | obj m q r =>
      rw [hd] at b2
      rcases b2 with ⟨_, h⟩ | ⟨q', h, _⟩ | ⟨h, _⟩
      · exact h
      · simp at h
      · simp at h
  rw [this] at b3
  exact b3

/-- Non-vacuity. -/
example : CompAt (one objA) [1] (plainData objA) .nil ∧
    (2, (⟨4, upTo10, some 5⟩ : P)) ∈ valueProps (plainData objA).obj :=
  ⟨Or.inl ⟨rfl, rfl, rfl⟩, by simp [plainData, objA, valueProps]⟩

/-- The request that a call sends, done by the server and followed by the client. -/
def after (f : Forest) (p : List Nat) (k : Call) : Forest × Forest :=
  match k.effect with
  | .request q n v =>
    let r := serve f p (.write q { name := n, want := v })
    (r.1, handleAll f r.2)
  | .here => (f, f)

/-- C115 fails: clearing a property of a nested object asks the server to clear the property with the
same name of the component. -/
theorem C115_violation_clear_nested :
    let f := one (.val 1 ⟨3, upTo10, some 6⟩ (.obj 3 (.val 1 ⟨7, upTo10, some 8⟩ .nil) .nil))
    readAt (after f [1] (.clear [3] 1)).1 [1] [3] 1 = some 8 ∧
      readAt (after f [1] (.clear [3] 1)).1 [1] [] 1 = some 3 := by decide +kernel

/-- C115 fails: the protected calls on a nested object never reach the server. -/
theorem C115_violation_protected_nested (q : List Nat) (n v : Nat) (h : q ≠ []) :
    (Call.setProtected q n v).effect = .here ∧ (Call.clearProtected q n).effect = .here := by
  simp [Call.effect, h]

/-! ### C116: statuses and the active state -/

/-- C116, in part: changes of attributes and of statuses that the client knows reach it if the active
state is not locked there. -/
theorem C116_attributes_partial (x y : Comp) (op : Op) (h : seenData y.1 = seenData x.1)
    (hi : view y.2 = view x.2) (hl : y.1.lock .active = false)
    (ho : (∃ a v up, op = .attr a v up) ∨ (∃ n v m, op = .statSet n v m) ∨ (∃ a b, op = .lock a b)) :
    seenData ((op.run x).2.foldl Ev.apply y).1 = seenData (op.run x).1.1 := by
  rw [seenData_eq_iff] at h
  rw [Forest.view_eq_iff] at hi
  have e : Comp.norm x = Comp.norm y := by unfold Comp.norm; rw [h, hi]
  have hf : Fine x y op := by
    rcases ho with ⟨_, _, _, rfl⟩ | ⟨_, _, _, rfl⟩ | ⟨_, _, rfl⟩ <;> trivial
  rw [seenData_eq_iff]
  exact congrArg Prod.fst (run_norm e hl op hf)

/-- Non-vacuity. -/
example : seenData ((((Op.statSet 1 5 6).run (plainData objA, .nil)).2).foldl Ev.apply
    (plainData objA, .nil)).1 =
    seenData ((Op.statSet 1 5 6).run (plainData objA, .nil)).1.1 :=
  C116_attributes_partial _ _ _ rfl rfl rfl (Or.inr (Or.inl ⟨1, 5, 6, rfl⟩))

/-- Value of a status of component `[1]`. -/
def statAt (f : Forest) (n : Nat) : Option (Nat × Nat) :=
  match f.find [1] with
  | none => none
  | some c => c.1.stat.lookup n

/-- C116 fails: a status that is added later never reaches the client, nor do its changes. -/
theorem C116_violation_status_added :
    let h := history (one objA) [([1], .statAdd 2 7 0), ([1], .statSet 2 8 1)]
    statAt h.1 2 = some (8, 1) ∧ statAt (handleAll (one objA) h.2) 2 = none := by decide +kernel

/-- A client that locked the active state and the name. -/
def locked : Forest :=
  .cons 1 { plainData objA with lock := fun a => a = .active ∨ a = .name } .nil .nil

/-- C116 fails: below an inactive component a locked active state on the client is not lifted for the
event of the server, as it is below an active one and as other locked attributes are. -/
theorem C116_violation_active_locked :
    let h := fun up => history (one objA) [([1], .attr .active 1 up), ([1], .attr .name 9 up)]
    let r := fun f : Forest => (f.find [1]).map fun x => (x.1.attr .active, x.1.attr .name)
    r (h false).1 = some (1, 9) ∧ r (handleAll locked (h false).2) = some (0, 9) ∧
      r (handleAll locked (h true).2) = some (1, 9) := by decide +kernel

end Verif.Remote.Props
