import Verif.Config.Any
import Verif.Config.Demo

/-! # Saving and loading configurations: the properties (C167 to C179) -/

namespace Verif.Config.Props

open Verif.Config Spec Demo

/-! ## C167: values come back -/

/-- C167: loading the saved values of an object `a` into an object `b` with the same properties makes every property of `b`, nested ones
included, read what it read in `a`, whatever `b` had stored; provided that what is stored in `a` is accepted whatever the
properties after it are. -/
theorem C167_values (a b : Obj) (hd : Distinct a) (ha : Accepted [] a) (hs : SameProps a b) :
    (b.load [] a.save).2 = true ∧ vals (b.load [] a.save).1 = vals a :=
  let h := load_save a b [] a.save hd ha hs fun _ _ => rfl
  ⟨h.1, h.2.1⟩

/-- C167: it can be repeated: loading the same document again changes no value. -/
theorem C167_again (a b : Obj) (hd : Distinct a) (ha : Accepted [] a) (hs : SameProps a b) :
    ((b.load [] a.save).1.load [] a.save).2 = true ∧
    vals ((b.load [] a.save).1.load [] a.save).1 = vals (b.load [] a.save).1 := by
  have h := load_save a b [] a.save hd ha hs fun _ _ => rfl
  have h' := load_save a (b.load [] a.save).1 [] a.save hd ha h.2.2 fun _ _ => rfl
  exact ⟨h'.1, h'.2.1.trans h.2.1.symm⟩

theorem scaling_accepted (g u : Option Val) (hg : ∀ v, g = some v → v ≤ 10) : Accepted [] (scalingProps g u) := by
  refine ⟨?_, ⟨fun _ => ⟨fun _ _ _ => rfl, trivial⟩, trivial⟩⟩
  intro v hv later
  simp [upTo10, hg v hv]

theorem scaling_distinct (g u : Option Val) : Distinct (scalingProps g u) := by
  refine ⟨by simp [names], by simp [names], ⟨by simp [names], trivial⟩, trivial⟩

theorem scaling_same (g u g' u' : Option Val) : SameProps (scalingProps g u) (scalingProps g' u') :=
  ⟨rfl, rfl, rfl, rfl, rfl, by simp [SameProps], trivial⟩

example : Distinct (scalingProps (some 3) (some 7)) ∧ Accepted [] (scalingProps (some 3) (some 7)) ∧
    SameProps (scalingProps (some 3) (some 7)) (scalingProps (some 5) none) ∧
    vals (scalingProps (some 3) (some 7)) = [(["Gain"], 3), (["Output", "Unit"], 7)] :=
  ⟨scaling_distinct _ _, scaling_accepted _ _ (by simp), scaling_same _ _ _ _, rfl⟩

example : vals ((scalingProps (some 5) (some 9)).load [] (scalingProps none (some 7)).save).1 =
    [(["Gain"], 1), (["Output", "Unit"], 7)] := by decide +kernel

/-! ## C168: what success means -/

/-- C168: when the load of a document into a property object succeeds, every property named in the document reads what its check made of the
document's value, every other property is at its default, and so on in the nested objects; frozen ones are as they were. -/
theorem C168_follows (b : Obj) (d : Doc) (h : (b.load [] d).2 = true) : Follows d b (b.load [] d).1 :=
  load_follows b [] d h

example : ((scalingProps (some 5) none).load [] (.sub "Output" (.val "Unit" 4 .nil) .nil)).2 = true ∧
    vals ((scalingProps (some 5) none).load [] (.sub "Output" (.val "Unit" 4 .nil) .nil)).1 =
      [(["Gain"], 1), (["Output", "Unit"], 4)] := by decide +kernel

/-! ## C169: properties whose bounds come later -/

/-- C169 (violation): an object whose values are all accepted in it saves a document that the same object, fresh, refuses: the bound of
`Value` is the property `Max`, which comes after it and still has its default when `Value` is written. -/
theorem C169_violation_order :
    upToMax (bounded (some 50) (some 100)).env 50 = some 50 ∧
    ((bounded none none).load [] (bounded (some 50) (some 100)).save).2 = false ∧
    vals ((bounded none none).load [] (bounded (some 50) (some 100)).save).1 = [(["Value"], 1), (["Max"], 10)] := by
  decide +kernel

/-- C169: if every stored value is accepted whatever the properties after it are, the load succeeds. Missing: checks that look at properties
further down. -/
theorem C169_order_partial (a b : Obj) (hd : Distinct a) (ha : Accepted [] a) (hs : SameProps a b) :
    (b.load [] a.save).2 = true :=
  (C167_values a b hd ha hs).1

example : ((scalingProps none none).load [] (scalingProps (some 10) none).save).2 = true := by decide +kernel

/-! ## C170: the settings of a device come back -/

/-- C170: loading what a device `t` saved into a device `u` of the same make succeeds in setting every attribute, property and signal, and
leaves the function blocks of `t`, in their order, whichever function blocks had been added to `u`. -/
theorem C170_settings (e : Env) (t u : Dev) (hf : DevFits e t u) :
    (u.first e t.save).2.2 = true ∧ SameDev t (u.first e t.save).1 ∧
    ∀ n r ok, u.load e n t.save = .done r ok → ok = true ∧ SameDev t r := by
  have node := first_ok hf
  have h1 : (u.first e t.save).2.2 = true := node.ok
  have h2 : SameDev t (u.first e t.save).1 := ⟨node.head, node.kids⟩
  refine ⟨h1, h2, ?_⟩
  intro n r ok h
  obtain ⟨a, b, _, d⟩ := load_tree h
  exact ⟨d.trans h1, ⟨by rw [a]; exact h2.root, by rw [b]; exact h2.kids⟩⟩

theorem sigFits_refl (s : Sg) (p : Bool) (h : s.pubLocked = false) : SigFits s { s with pub := p } :=
  ⟨rfl, rfl, rfl, LockedSame.refl _ _, by simp [h]⟩

theorem unlocked (a b : Attrs) : LockedSame {} a b := by
  refine ⟨?_, ?_, ?_, ?_⟩ <;> intro h <;> cases h

theorem scaling_fits (i j g u a) (hg : ∀ v, g = some v → v ≤ 10) :
    HeadFits { scaling i g u with attrs := a } (scaling j none none) where
  typ := rfl
  cfg := rfl
  lock := rfl
  tags := rfl
  ports := rfl
  attrs := unlocked _ _
  distinct := scaling_distinct _ _
  accepted := scaling_accepted _ _ hg
  props := scaling_same _ _ _ _
  sigs := .cons (sigFits_refl _ true rfl) .nil
  sigIds := by simp [scaling]

theorem channel_fits (b : Bool) : HeadFits { channel with sigs := [{ id := "ai", pub := b }] } channel where
  typ := rfl
  cfg := rfl
  lock := rfl
  tags := rfl
  ports := rfl
  attrs := unlocked _ _
  distinct := trivial
  accepted := trivial
  props := trivial
  sigs := .cons (sigFits_refl _ true rfl) .nil
  sigIds := by simp

theorem root_fits (a b : Attrs) : HeadFits { root with attrs := a } { root with attrs := b } where
  typ := rfl
  cfg := rfl
  lock := rfl
  tags := rfl
  ports := rfl
  attrs := unlocked _ _
  distinct := trivial
  accepted := trivial
  props := trivial
  sigs := .cons (sigFits_refl _ true rfl) (.cons (sigFits_refl _ true rfl) .nil)
  sigIds := by simp [root]

theorem setup_fits (u : Dev) (a : Attrs) (hr : u.root = { root with attrs := a })
    (hk : stay env "Device" u.kids = .cons channel .nil .nil) : DevFits env setup u where
  root := by rw [hr]; exact root_fits _ _
  kids := by
    change Fits env setup.kids "Device" (stay env "Device" u.kids)
    rw [hk]
    have h2 : env.avail "Device" "Scaling" = some fun i _ => some (scaling i none none, .nil) := by simp [env]
    exact fits_built_in (by simp [env, channel]) (by simp [ids, scaling, channel]) rfl (channel_fits false) rfl
      (fits_added h2 (by simp [ids, scaling]) rfl rfl (scaling_fits _ _ _ _ _ (by simp)) rfl
        (fits_added h2 (by simp [ids]) rfl rfl (scaling_fits "s2" "s2" none none {} (by simp)) rfl rfl))

theorem stay_fresh : stay env "Device" fresh.kids = .cons channel .nil .nil := by
  have h1 : ¬ Removable env "Device" channel := fun h => h.1 (by simp [env, channel])
  simp [fresh, stay, h1]

theorem stay_used : stay env "Device" used.kids = .cons channel .nil .nil := by
  have h1 : ¬ Removable env "Device" channel := fun h => h.1 (by simp [env, channel])
  have h2 : Removable env "Device" (scaling "s2" (some 9) none) := ⟨by simp [env, scaling], rfl⟩
  simp [used, stay, h1, h2]

example : DevFits env setup used := setup_fits used _ rfl stay_used

example : (used.load env 9 setup.save |> dev).root.attrs = { name := "Bench" } ∧
    (used.load env 9 setup.save |> dev).kids.list.map (fun x => (x.1.id, x.1.attrs.active, vals x.1.props)) =
      [("ch", true, []), ("s1", false, [(["Gain"], 3), (["Output", "Unit"], 7)]),
       ("s2", true, [(["Gain"], 1), (["Output", "Unit"], 0)])] := by decide +kernel

/-! ## C171: the connections of a device come back -/

/-- C171: loading what a device `t` saved into a device `u` of the same make and local identifier comes to an end and leaves exactly the
connections of `t`, provided that they contain no loop, that all ports and signals connected are parts of the device, that a port takes
a signal when no connection but those of `t` is there, and that the only ports connected in `u` are those of added function blocks, those
connected to added function blocks, and those connected as in `t`. -/
theorem C171_connections (e : Env) (t u : Dev) (hf : DevFits e t u) (hid : u.root.id = t.root.id)
    (hport : ∀ x s, Connected t.conn x s → HasPort t.root t.kids x)
    (hsig : ∀ x s, Connected t.conn x s → HasSignal t.root t.kids s)
    (hloop : NoLoop t.conn)
    (hold : ∀ x ∈ u.conn, Added e u.kids u.root.typ [u.root.id] x.1.1 ∨ Added e u.kids u.root.typ [u.root.id] x.2.1
      ∨ Connected t.conn x.1 x.2)
    (hacc : ∀ c x s, (∀ y z, Connected c y z → Connected t.conn y z) → Connected t.conn x s → e.accepts c x s = true) :
    ∃ r : Dev, (∃ N, ∀ n, N ≤ n → u.load e n t.save = .done r true) ∧ SameDev t r ∧ r.root.id = t.root.id
      ∧ ∀ x s, Connected r.conn x s ↔ Connected t.conn x s :=
  load_round hf hid hport hsig hloop hold hacc

theorem setup_conn {x : Key} {s : SigId} (h : Connected setup.conn x s) :
    (x = (["dev", "s1"], "in") ∧ s = (["dev", "ch"], "ai")) ∨ (x = (["dev", "s2"], "in") ∧ s = (["dev", "s1"], "out")) := by
  have := connected_mem h
  simpa [setup] using this

/-- The channel of the device. -/
def ch' : Head := { channel with sigs := [{ id := "ai", pub := false }] }
/-- Its first scaling function block. -/
def s1' : Head := { scaling "s1" (some 3) (some 7) with attrs := { active := false } }

theorem setup_ch : At setup.root setup.kids ["dev"] ch' .nil ["dev", "ch"] :=
  .kid _ _ _ ch' .nil _ _ _ (.inl ⟨rfl, rfl⟩) (.here _ _ _)
theorem setup_s1 : At setup.root setup.kids ["dev"] s1' .nil ["dev", "s1"] :=
  .kid _ _ _ s1' .nil _ _ _ (.inr (.inl ⟨rfl, rfl⟩)) (.here _ _ _)
theorem setup_s2 : At setup.root setup.kids ["dev"] (scaling "s2" none none) .nil ["dev", "s2"] :=
  .kid _ _ _ (scaling "s2" none none) .nil _ _ _ (.inr (.inr (.inl ⟨rfl, rfl⟩))) (.here _ _ _)

theorem setup_ports (x s) (h : Connected setup.conn x s) : HasPort setup.root setup.kids x := by
  rcases setup_conn h with ⟨rfl, rfl⟩ | ⟨rfl, rfl⟩
  · exact ⟨_, _, setup_s1, ⟨"in", {}⟩, by simp [s1', scaling], rfl⟩
  · exact ⟨_, _, setup_s2, ⟨"in", {}⟩, by simp [scaling], rfl⟩

theorem setup_sigs (x s) (h : Connected setup.conn x s) : HasSignal setup.root setup.kids s := by
  rcases setup_conn h with ⟨rfl, rfl⟩ | ⟨rfl, rfl⟩
  · exact ⟨_, _, setup_ch, { id := "ai", pub := false }, by simp [ch'], rfl⟩
  · exact ⟨_, _, setup_s1, { id := "out" }, by simp [s1', scaling], rfl⟩

theorem setup_noLoop : NoLoop setup.conn := by
  refine ⟨fun p => if p = ["dev", "ch"] then 0 else if p = ["dev", "s1"] then 1 else 2, ?_⟩
  intro x s h
  rcases setup_conn h with ⟨rfl, rfl⟩ | ⟨rfl, rfl⟩ <;> decide

example : ∃ r : Dev, (∃ N, ∀ n, N ≤ n → used.load env n setup.save = .done r true) ∧ SameDev setup r ∧
    ∀ x s, Connected r.conn x s ↔ Connected setup.conn x s := by
  obtain ⟨r, h1, h2, _, h3⟩ := C171_connections env setup used (setup_fits used _ rfl stay_used) rfl setup_ports setup_sigs setup_noLoop
    (by
      intro x hx
      have : x = ((["dev", "s2"], "in"), (["dev", "dev"], "time")) := by simpa [used] using hx
      subst this
      left
      have h2 : Removable env "Device" (scaling "s2" (some 9) none) := ⟨by simp [env, scaling], rfl⟩
      exact .inr (.inl (by
        change if Removable env "Device" (scaling "s2" (some 9) none) then _ else _
        rw [if_pos h2]; exact ⟨[], rfl⟩)))
    (fun _ _ _ _ _ => rfl)
  exact ⟨r, h1, h2, h3⟩

/-! ## C172: ports that are connected already -/

/-- C172 (violation): a built-in port that is connected keeps its connection: after the load, which reports success, it is not connected to the
signal the document names. -/
theorem C172_violation_kept :
    (triggered "time").save.kids ≠ (triggered "status").save.kids ∧
    outcome ((triggered "status").load env 9 (triggered "time").save) =
      some (["ch"], [((["dev", "ch"], "trigger"), (["dev"], "status"))], true) := by decide +kernel

/-- C172 (violation): neither is it disconnected when it was not connected in the saved device. -/
theorem C172_violation_not_disconnected :
    outcome ((triggered "status").load env 9 fresh.save) =
      some (["ch"], [((["dev", "ch"], "trigger"), (["dev"], "status"))], true) := by decide +kernel

/-- C172: if everything is disconnected before, the connections come back whatever they were. Missing: devices with connected built-in
ports. -/
theorem C172_disconnected_partial (e : Env) (t u : Dev) (hf : DevFits e t u) (hid : u.root.id = t.root.id)
    (hport : ∀ x s, Connected t.conn x s → HasPort t.root t.kids x)
    (hsig : ∀ x s, Connected t.conn x s → HasSignal t.root t.kids s) (hloop : NoLoop t.conn)
    (hacc : ∀ c x s, (∀ y z, Connected c y z → Connected t.conn y z) → Connected t.conn x s → e.accepts c x s = true) :
    ∃ r : Dev, (∃ N, ∀ n, N ≤ n → { u with conn := [] }.load e n t.save = .done r true)
      ∧ ∀ x s, Connected r.conn x s ↔ Connected t.conn x s := by
  obtain ⟨r, h1, _, _, h2⟩ := load_round (u := { u with conn := [] }) ⟨hf.root, hf.kids⟩ hid hport hsig hloop (by simp) hacc
  exact ⟨r, h1, h2⟩

example : outcome ({ triggered "status" with conn := [] }.load env 9 (triggered "time").save) =
    some (["ch"], [((["dev", "ch"], "trigger"), (["dev"], "time"))], true) := by decide +kernel

/-! ## C173: attributes of ports, and tags -/

/-- C173 (violation): the attributes of an input port and the tags of a component are in the document but do not come back. -/
theorem C173_violation_lost :
    (match marked.save.kids with | .cons d _ _ => some (d.ports, d.tags) | .nil => none) =
      some ([⟨"trigger", { active := some false }, none⟩], ["x"]) ∧
    (fresh.load env 9 marked.save |> dev).kids.list.map (fun x => (x.1.ports, x.1.tags)) = [([⟨"trigger", {}⟩], [])] := by
  decide +kernel

/-- C173: whatever the document, the ports, their attributes and the tags of the device and of its built-in function blocks are the same after
a load as before. Missing: that they come back. -/
theorem C173_same_as_before_partial (e : Env) (n : Nat) (x : Dev) (d : DDev) (r : Dev) (ok : Bool) (h : x.load e n d = .done r ok) :
    r.root.ports = x.root.ports ∧ r.root.tags = x.root.tags ∧
    ∀ i y, (stay e x.root.typ x.kids).get i = some y →
      ∃ z, r.kids.get i = some z ∧ z.1.ports = y.1.ports ∧ z.1.tags = y.1.tags := by
  obtain ⟨h1, h2, _, _⟩ := load_tree h
  have hk := node_kept e [x.root.id] x.root x.kids d.root { conn := x.conn } (loadKids e d.kids)
  obtain ⟨c1, hc⟩ := node_kids e [x.root.id] x.root x.kids d.root { conn := x.conn } (loadKids e d.kids)
  refine ⟨by rw [h1]; exact hk.ports, by rw [h1]; exact hk.tags, ?_⟩
  intro i y hy
  obtain ⟨z, hz, hyz⟩ := kids_kept e d.kids x.root.typ [x.root.id] _ c1 i y hy
  refine ⟨z, ?_, hyz.ports, hyz.tags⟩
  rw [h2]
  change (loadNode e [x.root.id] x.root x.kids d.root { conn := x.conn } (loadKids e d.kids)).kids.get i = some z
  rw [hc]; exact hz

example : (marked.load env 9 fresh.save |> dev).kids.list.map (fun x => (x.1.ports, x.1.tags)) =
    [([⟨"trigger", { active := false }⟩], ["x"])] := by decide +kernel

/-! ## C174: a load that fails -/

/-- C174 (violation): a load that fails because one value is refused leaves the device without the function blocks it had and without those that
come after in the document, and with no connection. -/
theorem C174_violation_lost :
    outcome (setup.load env 9 setup.save) = some (["ch", "s1", "s2"], setup.conn, true) ∧
    outcome (setup.load env 9 wrongGain) = some (["ch", "s1"], [], false) := by decide +kernel

/-- C174 (violation): the properties of an object before the refused one are written, the ones after are not. -/
theorem C174_violation_half :
    let b : Obj := .val "A" 0 any (some 1) (.val "Gain" 1 upTo10 (some 2) (.val "B" 0 any (some 3) .nil))
    let r := b.load [] (.val "A" 7 (.val "Gain" 50 (.val "B" 9 .nil)))
    r.2 = false ∧ vals r.1 = [(["A"], 7), (["Gain"], 2), (["B"], 3)] := by decide +kernel

/-- C174: whatever the document and the outcome, the built-in function blocks of a device are there afterwards: of the same type and
configuration, with the same ports, signals, tags and locked attributes, and so is the device itself. Missing: the added function blocks, the
connections and the values. -/
theorem C174_built_in_partial (e : Env) (n : Nat) (x : Dev) (d : DDev) (r : Dev) (ok : Bool) (h : x.load e n d = .done r ok) :
    Kept x.root r.root ∧ ∀ i y, (stay e x.root.typ x.kids).get i = some y → ∃ z, r.kids.get i = some z ∧ Kept y.1 z.1 := by
  obtain ⟨h1, h2, _, _⟩ := load_tree h
  have hk := node_kept e [x.root.id] x.root x.kids d.root { conn := x.conn } (loadKids e d.kids)
  obtain ⟨c1, hc⟩ := node_kids e [x.root.id] x.root x.kids d.root { conn := x.conn } (loadKids e d.kids)
  refine ⟨by rw [h1]; exact hk, ?_⟩
  intro i y hy
  obtain ⟨z, hz, hyz⟩ := kids_kept e d.kids x.root.typ [x.root.id] _ c1 i y hy
  refine ⟨z, ?_, hyz⟩
  rw [h2]
  change (loadNode e [x.root.id] x.root x.kids d.root { conn := x.conn } (loadKids e d.kids)).kids.get i = some z
  rw [hc]; exact hz

example : ((stay env "Device" setup.kids).get "ch").isSome = true ∧
    ((setup.load env 9 wrongGain |> dev).kids.get "ch").isSome = true := by decide +kernel

/-! ## C175: a load comes to an end -/

theorem cyclic_first : fresh.first env cyclic =
    ({ root := root, kids := cyclicKids, conn := [], locked := none }, cyclicCtx, true) := by rfl

theorem cyclic_a (fin : Head → Fbs → Path → Fin) (h : fin (scaling "b" none none) .nil ["dev", "b"] cyclicCtx = none) :
    finNode env root cyclicKids fin (scaling "a" none none) .nil ["dev", "a"] cyclicCtx = none := by
  simp [finNode, cyclicCtx, scaling, finPort, Conns.get, resolve, findPath, findFb, root, cyclicKids, Fbs.get, channel] at h ⊢
  rw [h]

theorem cyclic_b (fin : Head → Fbs → Path → Fin) (h : fin (scaling "a" none none) .nil ["dev", "a"] cyclicCtx = none) :
    finNode env root cyclicKids fin (scaling "b" none none) .nil ["dev", "b"] cyclicCtx = none := by
  simp [finNode, cyclicCtx, scaling, finPort, Conns.get, resolve, findPath, findFb, root, cyclicKids, Fbs.get, channel] at h ⊢
  rw [h]

theorem cyclic_ab : ∀ n, endFb env root cyclicKids n (scaling "a" none none) .nil ["dev", "a"] cyclicCtx = none ∧
    endFb env root cyclicKids n (scaling "b" none none) .nil ["dev", "b"] cyclicCtx = none
  | 0 => ⟨rfl, rfl⟩
  | n + 1 => ⟨cyclic_a _ (cyclic_ab n).2, cyclic_b _ (cyclic_ab n).1⟩

/-- C175 (violation): the load of a document in which two function blocks are each connected to the other never returns: it calls itself without
end, so that no depth of nested calls suffices. -/
theorem C175_violation_cyclic (n : Nat) : (match fresh.load env n cyclic with | .tooDeep => true | .done _ _ => false) = true := by
  unfold Dev.load
  rw [cyclic_first]
  dsimp only
  have h : endFb env root cyclicKids n root cyclicKids [root.id] cyclicCtx = none := by
    cases n with
    | zero => rfl
    | succ n =>
      change finNode env root cyclicKids (endFb env root cyclicKids n) root cyclicKids ["dev"] cyclicCtx = none
      have hch : ∀ m, endFb env root cyclicKids m channel .nil ["dev", "ch"] cyclicCtx = none ∨
          endFb env root cyclicKids m channel .nil ["dev", "ch"] cyclicCtx = some cyclicCtx := by
        intro m
        cases m with
        | zero => exact .inl rfl
        | succ m => exact .inr rfl
      have hk : finNode env root cyclicKids (endFb env root cyclicKids n) root cyclicKids ["dev"] cyclicCtx =
          cyclicKids.list.foldlM (fun c x => endFb env root cyclicKids n x.1 x.2 (["dev"] ++ [x.1.id]) c) cyclicCtx := rfl
      rw [hk]
      change (List.foldlM _ _ [(channel, Fbs.nil), (scaling "a" none none, Fbs.nil), (scaling "b" none none, Fbs.nil)]) = none
      rw [List.foldlM_cons]
      change Option.bind (endFb env root cyclicKids n channel .nil ["dev", "ch"] cyclicCtx) _ = none
      rcases hch n with h | h
      · rw [h]; rfl
      · rw [h, Option.bind_some, List.foldlM_cons]
        change Option.bind (endFb env root cyclicKids n (scaling "a" none none) .nil ["dev", "a"] cyclicCtx) _ = none
        rw [(cyclic_ab n).1]; rfl
  rw [if_pos rfl, h]

/-- C175: the load of what a device saved comes to an end if its connections contain no loop. Missing: documents that no device saved. -/
theorem C175_ends_partial (e : Env) (t u : Dev) (hf : DevFits e t u) (hid : u.root.id = t.root.id)
    (hport : ∀ x s, Connected t.conn x s → HasPort t.root t.kids x)
    (hsig : ∀ x s, Connected t.conn x s → HasSignal t.root t.kids s)
    (hloop : NoLoop t.conn)
    (hold : ∀ x ∈ u.conn, Added e u.kids u.root.typ [u.root.id] x.1.1 ∨ Added e u.kids u.root.typ [u.root.id] x.2.1
      ∨ Connected t.conn x.1 x.2)
    (hacc : ∀ c x s, (∀ y z, Connected c y z → Connected t.conn y z) → Connected t.conn x s → e.accepts c x s = true) :
    ∃ N, ∀ n, N ≤ n → ∃ r, u.load e n t.save = .done r true := by
  obtain ⟨r, ⟨N, hN⟩, _⟩ := load_round hf hid hport hsig hloop hold hacc
  exact ⟨N, fun n hn => ⟨r, hN n hn⟩⟩

example : NoLoop setup.conn ∧ outcome (fresh.load env 4 setup.save) = some (["ch", "s1", "s2"], setup.conn, true) :=
  ⟨setup_noLoop, by decide +kernel⟩

/-! ## C176: the user lock -/

/-- C176 (violation): loading a configuration saved while the device was not locked unlocks a device locked by a user; loading one saved while
it was locked locks a device that was not. -/
theorem C176_violation_unlocks :
    ({ fresh with locked := some (some "ann") }.load env 9 fresh.save |> dev).locked = none ∧
    (fresh.load env 9 { fresh with locked := some (some "ann") }.save |> dev).locked = some none := by decide +kernel

/-- C176 (violation): a device locked by a user, loaded with its own configuration, stays locked, but without the user: anyone may unlock
it. -/
theorem C176_violation_anyone :
    ({ fresh with locked := some (some "ann") }.load env 9 { fresh with locked := some (some "ann") }.save |> dev).locked = some none := by
  decide +kernel

/-- C176: a load that succeeds leaves the device locked exactly if the saved one was. Missing: that a load leaves the lock alone. -/
theorem C176_as_saved_partial (e : Env) (t u : Dev) (hf : DevFits e t u) (n : Nat) (r : Dev) (ok : Bool)
    (h : u.load e n t.save = .done r ok) : r.locked.isSome = t.locked.isSome := by
  obtain ⟨_, _, h3, _⟩ := load_tree h
  have node := first_ok hf
  rw [h3]
  change (if (loadNode e [u.root.id] u.root u.kids t.save.root { conn := u.conn } (loadKids e t.save.kids)).inner then
    loadLock t.save.locked else u.locked).isSome = _
  rw [if_pos node.inner]
  change (loadLock t.locked).isSome = _
  cases t.locked <;> rfl

example : (fresh.load env 9 { setup with locked := some none }.save |> dev).locked = some none := by decide +kernel

/-! ## C177: a device with another local identifier -/

/-- C177 (violation): loaded into a device that differs only in its local identifier, the function blocks come back and the connections do not,
and success is reported. -/
theorem C177_violation_other_id :
    outcome ({ fresh with root := { root with id := "dev2" } }.load env 9 setup.save) = some (["ch", "s1", "s2"], [], true) := by
  decide +kernel

/-- C177: whatever the local identifiers, the settings come back. Missing: the connections. -/
theorem C177_settings_partial (e : Env) (t u : Dev) (hf : DevFits e t u) (i : String) :
    ({ u with root := { u.root with id := i } }.first e t.save).2.2 = true ∧
    SameDev t ({ u with root := { u.root with id := i } }.first e t.save).1 := by
  have hr := hf.root
  have h : DevFits e t { u with root := { u.root with id := i } } :=
    ⟨⟨hr.typ, hr.cfg, hr.lock, hr.tags, hr.ports, hr.attrs, hr.distinct, hr.accepted, hr.props, hr.sigs, hr.sigIds⟩, hf.kids⟩
  exact ⟨(C170_settings e t _ h).1, (C170_settings e t _ h).2.1⟩

example : DevFits env setup fresh := setup_fits fresh _ rfl stay_fresh

/-! ## C178: a connection goes to the port it names -/

/-- C178 (violation): a connection whose port the function block does not have is made with another port. -/
theorem C178_violation_other_port :
    outcome (fresh.load env 9 otherPort) = some (["ch", "a"], [((["dev", "a"], "in"), (["dev"], "time"))], true) := by
  decide +kernel

/-- C178: if every port named is there, the second pass makes no connection that was not asked for, whatever the order and the depth of the
calls. Missing: documents that name ports that are not there. -/
theorem C178_named_partial (e : Env) (root : Head) (kids : Fbs) (hd : DistinctIds kids) (c c' : Ctx)
    (hport : ∀ k s, ((k, s) ∈ c.pend ∨ Connected c.conn k s) → ∀ h kk, findPath root kids k.1 = some (h, kk) →
      (h.ports.any fun y => y.id = k.2) = true)
    (n : Nat) (h : endFb e root kids n root kids [root.id] c = some c') (k : Key) (s : SigId) (hk : Connected c'.conn k s) :
    (k, s) ∈ c.pend ∨ Connected c.conn k s := by
  have := endFb_from (e := e) (A := fun k s => (k, s) ∈ c.pend ∨ Connected c.conn k s) hd hport n [root.id] root kids
    (by simp [findPath, findFb]) c c' ⟨fun x hx => .inl hx, fun k s h => .inr ((get_iff k s _).mp h)⟩ h
  exact this.2 k s ((get_iff k s _).mpr hk)

example : outcome (fresh.load env 9 setup.save) = some (["ch", "s1", "s2"], setup.conn, true) := by decide +kernel

/-! ## C179: what the document does not name -/

/-- C179: whatever the document and the outcome, a built-in function block the document does not name is exactly as it was, with all that is
nested in it. -/
theorem C179_untouched (e : Env) (he : Honest e) (n : Nat) (x : Dev) (d : DDev) (r : Dev) (ok : Bool) (h : x.load e n d = .done r ok)
    (i : String) (hi : i ∉ docIds d.kids) : r.kids.get i = (stay e x.root.typ x.kids).get i := by
  obtain ⟨_, h2, _, _⟩ := load_tree h
  obtain ⟨c1, hc⟩ := node_kids e [x.root.id] x.root x.kids d.root { conn := x.conn } (loadKids e d.kids)
  rw [h2]
  change (loadNode e [x.root.id] x.root x.kids d.root { conn := x.conn } (loadKids e d.kids)).kids.get i = _
  rw [hc]
  exact kids_untouched he d.kids x.root.typ [x.root.id] _ c1 i hi

theorem env_honest : Honest env := by
  intro outer typ mk i n x h1 h2
  unfold env at h1
  dsimp only at h1
  split at h1
  · cases h1; cases h2; rfl
  · cases h1

example : Honest env ∧ "ch" ∉ docIds cyclic.kids ∧ "ch" ∈ ids (stay env "Device" fresh.kids) :=
  ⟨env_honest, by simp [cyclic, docIds], by rw [stay_fresh]; simp [ids, channel]⟩

end Verif.Config.Props
