import Verif.Search.Rec

/-!
# Properties of searches (C98–C104)
-/

namespace Verif.Search.Props

open Verif.Search Spec Relation

/-! ### A small system used in the examples -/

def sg (g l : Nat) (vis : Bool) : Comp := .mk ⟨g, l, .signal, vis, [], none⟩ []
def fo (g l : Nat) (r : Role) (cs : List Comp) : Comp :=
  .mk ⟨g, l, if r = .io then .ioFolder else .folder, true, [], some r⟩ cs
def block (g l : Nat) (k : Kind) (vis : Bool) (sigs fbs ips : List Comp) : Comp :=
  .mk ⟨g, l, k, vis, [], none⟩ [fo (g + 1) 1 .sig sigs, fo (g + 2) 2 .fb fbs, fo (g + 3) 3 .ip ips]
def device (g l : Nat) (vis : Bool) (io sigs fbs devs : List Comp) : Comp :=
  .mk ⟨g, l, .device, vis, [], none⟩
    [fo (g + 1) 1 .sig sigs, fo (g + 2) 2 .fb fbs, fo (g + 3) 4 .dev devs, fo (g + 4) 5 .io io]

/-- A function block in a function block. -/
def inner : Comp := block 130 9 .fb true [sg 134 20 true] [] []
def outer : Comp := block 120 8 .fb true [sg 124 20 true, sg 125 21 false] [inner] [.mk ⟨126, 30, .port, true, [], none⟩ []]
/-- A channel in an io folder of the device. -/
def chan : Comp := block 110 7 .channel true [sg 114 20 true] [] []
def ioSub : Comp := .mk ⟨109, 6, .ioFolder, true, [], none⟩ [chan]
def sub : Comp := device 140 12 false [] [sg 145 20 true] [block 150 8 .fb true [] [] []] []
def root : Comp := device 100 11 true [ioSub] [sg 105 20 true] [outer] [sub]

theorem root_distinct : DistinctIds root := by decide +kernel

/-- A check that implies `Typed`. -/
def fitsB : Role → Kind → Bool
  | .sig, k => decide (k = .signal)
  | .ip, k => decide (k = .port)
  | .fb, k => decide (k = .fb) || decide (k = .channel)
  | .dev, k => decide (k = .device)
  | .io, _ => true

def typedB (c : Comp) : Bool :=
  (nodes c).all fun n => match n.info.role with
    | none => true
    | some r => n.items.all fun d => fitsB r d.info.kind

theorem typed_of {c : Comp} (h : typedB c = true) : Typed c := by
  intro n hn r hr d hd
  have h1 := List.all_eq_true.mp h n (inside_nodes hn)
  rw [hr] at h1
  have h2 := List.all_eq_true.mp h1 d hd
  cases r <;> simpa [fitsB, Fits] using h2

theorem root_typed : Typed root := typed_of (by decide +kernel)

def gids (l : List Comp) : List Nat := l.map fun c => c.info.gid

/-! ### C98: what filters accept, and what they visit when there is no negation -/

/-- For every filter, however deeply combined, and every component: the filter accepts the component
exactly when the documentation says so. -/
theorem C98_accepts (f : Filter) (i : Info) : f.accepts i = true ↔ Wants f i := accepts_iff f i

example : (Filter.and (.required [1, 2]) (.not (.or (.excluded [3]) (.localId 5)))).accepts
    ⟨0, 4, .signal, true, [2, 3, 1], none⟩ = true := by decide

theorem entersWith_noNot (p q : Prop → Prop) (f : Filter) (h : NoNot f = true) (i : Info) :
    EntersWith p f i ↔ EntersWith q f i := by
  induction f with
  | any | visible | required | excluded | intf | localId => simp [EntersWith]
  | or l r hl hr =>
    simp only [NoNot, Bool.and_eq_true] at h
    simp [EntersWith, hl h.1, hr h.2]
  | and l r hl hr =>
    simp only [NoNot, Bool.and_eq_true] at h
    simp [EntersWith, hl h.1, hr h.2]
  | not f _ => simp [NoNot] at h
  | custom a v => cases v <;> simp [EntersWith]
  | recursive f hf => simpa [EntersWith] using hf (by simpa [NoNot] using h)

/-- A filter without a negation lets a search enter exactly what the documentation says. -/
theorem C98_visits (f : Filter) (h : NoNot f = true) (i : Info) : f.visit i = true ↔ DocEnters f i := by
  rw [visit_iff]; exact entersWith_noNot _ _ f h i

example : NoNot (.recursive (.and .visible (.or (.localId 3) (.required [1])))) = true := by decide

/-! ### C99: negations -/

/-- The documentation of the negation says that it does not negate the "visit children" result.  The code
drops the result: the negation of a filter that does not enter a hidden component enters it. -/
theorem C99_violation_not_enters : ∃ (f : Filter) (i : Info),
    (Filter.not f).visit i = true ∧ ¬ DocEnters (.not f) i := by
  refine ⟨.visible, ⟨0, 0, .folder, false, [], none⟩, rfl, ?_⟩
  simp [DocEnters, EntersWith]

/-- The effect on a search: with the negation of a filter that enters visible components only, a component
inside a hidden folder is returned. -/
theorem C99_violation_search : ∃ (f : Filter) (c d : Comp), DistinctIds c ∧
    d ∈ getItems (.recursive (.not f)) c ∧ ¬ Under (DocEnters (.recursive (.not f))) c d := by
  refine ⟨.and .visible (.localId 7),
    .mk ⟨1, 1, .folder, true, [], none⟩ [.mk ⟨2, 2, .folder, false, [], none⟩ [sg 3 3 true]], sg 3 3 true,
    by decide +kernel, ?_, ?_⟩
  · simp [getItems, below, Filter.accepts, Filter.visit, Filter.isRecursive, sg, Comp.info, Kind.supports,
      ordSet, insertC]
  · intro h
    cases h with
    | child h => simp [Comp.items, sg] at h
    | deeper he hv _ _ =>
      simp only [Comp.items, List.mem_singleton] at he
      subst he
      simp [DocEnters, EntersWith, Comp.info] at hv

theorem doc_enters_imp (f : Filter) (i : Info) (h : DocEnters f i) : Enters f i := by
  unfold DocEnters at h
  unfold Enters
  induction f with
  | any | visible | required | excluded | intf | localId => exact h
  | or l r hl hr => exact Or.imp hl hr h
  | and l r hl hr => exact ⟨hl h.1, hr h.2⟩
  | not f _ => trivial
  | custom a v => cases v <;> exact h
  | recursive f hf => exact hf h

/-- What holds: a search enters at least everything the documentation says, for every filter.  Missing: it
also enters what the filter under a negation does not. -/
theorem C99_enters_at_least_partial (f : Filter) (i : Info) (h : DocEnters f i) : f.visit i = true :=
  (visit_iff f i).mpr (doc_enters_imp f i h)

/-! ### C100: `getItems` -/

/-- A recursive search of a folder returns exactly the wanted components that can be reached through folders
the filter enters, at any depth. -/
theorem C100_exact (f : Filter) (c d : Comp) (h : DistinctIds c) :
    d ∈ getItems (.recursive f) c ↔ Wants f d.info ∧ Under (Enters f) c d := by
  rw [mem_getItems rfl (DistinctIds.unique h)]; rfl

/-- Every component is returned once, whatever the filter and the tree. -/
theorem C100_once (f : Filter) (c : Comp) : EachOnce (getItems f c) := by
  rw [getItems_eq]; exact ordSet_once _

/-- A filter that is not wrapped by `Recursive` on the outside looks at the items of the folder only, keeps
their order, and returns exactly the wanted ones. -/
theorem C100_flat (f : Filter) (hf : ∀ g, f ≠ .recursive g) (c : Comp) (h : DistinctIds c) :
    (getItems f c).Sublist c.items ∧ ∀ d, d ∈ getItems f c ↔ d ∈ c.items ∧ Wants f d.info := by
  have hr : f.isRecursive = false := by
    cases f <;> first | rfl | exact absurd rfl (hf _)
  have he : getItems f c = c.items.filter (fun x => f.accepts x.info) := by
    rw [getItems_eq, hr]
    simp only [Bool.false_eq_true, if_false, List.append_nil]
    exact ordSet_id (EachOnce.sublist h
      (List.filter_sublist.trans ((self_sublist _).trans (items_sublist c))))
  rw [he]
  exact ⟨List.filter_sublist, fun d => by rw [List.mem_filter, accepts_iff]⟩

theorem foldl_insert_prefix (l : List Comp) : ∀ s, s <+: l.foldl insertC s := by
  induction l with
  | nil => intro s; exact List.prefix_refl s
  | cons c l ih =>
    intro s
    refine List.IsPrefix.trans ?_ (ih _)
    unfold insertC
    split
    · exact List.prefix_refl s
    · exact List.prefix_append s [c]

/-- The wanted items of the folder itself come first, in the order of the folder. -/
theorem C100_own_first (f : Filter) (c : Comp) (h : DistinctIds c) :
    ∃ own, own <+: getItems (.recursive f) c ∧ own.Sublist c.items ∧
      ∀ d, d ∈ own ↔ d ∈ c.items ∧ Wants f d.info := by
  refine ⟨c.items.filter (fun x => f.accepts x.info), ?_, List.filter_sublist,
    fun d => by rw [List.mem_filter, accepts_iff]⟩
  have ho : EachOnce (c.items.filter (fun x => f.accepts x.info)) :=
    EachOnce.sublist h (List.filter_sublist.trans ((self_sublist _).trans (items_sublist c)))
  have hi := foldl_insert_id (c.items.filter (fun x => f.accepts x.info)) [] (by simpa using ho)
  rw [getItems_eq, ordSet, List.foldl_append]
  have : (c.items.filter fun x => (Filter.recursive f).accepts x.info) =
      c.items.filter (fun x => f.accepts x.info) := rfl
  rw [this, hi, List.nil_append]
  exact foldl_insert_prefix _ _

/-- Without a filter: the visible items. -/
theorem C100_no_filter (c d : Comp) : d ∈ visibleItems c ↔ d ∈ c.items ∧ d.info.visible = true := by
  cases c; simp [visibleItems, Comp.items]

example : gids (getItems (.recursive (.intf .signal)) root) = [105, 124, 125, 134, 145, 114] := by
  decide +kernel
example : gids (getItems (.recursive (.and (.intf .signal) .visible)) root) = [105, 124, 134, 114] := by
  decide +kernel
/-- `Recursive` inside another filter has no effect. -/
example : gids (getItems (.and (.recursive .any) .any) root) = [101, 102, 103, 104] := by decide +kernel

/-! ### C101: signals and input ports -/

/-- `getSignals(Recursive(f))` and `getSignalsRecursive(f)` return exactly the wanted signals of the device or
function block and of every function block, channel and device that can be reached through entered ones. -/
theorem C101_signals (f : Filter) (c d : Comp) (h : DistinctIds c) (ht : Typed c) :
    d ∈ getSignals c (some (.recursive f)) ↔
      Wants f d.info ∧ ∃ o, ReflTransGen (Step (Enters f)) c o ∧ Holds .sig o d := by
  have hu := DistinctIds.unique h
  have key := rec_iff (R := Step (Enters f)) (fun _ _ h => h.inside) (sigRec (.recursive f))
    (fun c d => d ∈ getItems (.recursive f) (part .sig c))
    (fun c d h => under_part_inside .sig c (getItems_sound _ _ (Nat.lt_succ_self _) d h).2)
    (sigRec_list (.recursive f))
  have hs : d ∈ getSignals c (some (.recursive f)) ↔
      ∃ o, ReflTransGen (Step (Enters f)) c o ∧ d ∈ getItems (.recursive f) (part .sig o) :=
    ⟨key.1 _ c (Nat.lt_succ_self _) d, key.2 c d hu⟩
  rw [hs]
  constructor
  · rintro ⟨o, ho, hd⟩
    have hi := Reach.inside ho
    have := (mem_part_leaf .sig sig_leaf (hu.sub hi) (ht.sub hi) d).mp hd
    exact ⟨this.1, o, ho, this.2⟩
  · rintro ⟨hw, o, ho, hd⟩
    have hi := Reach.inside ho
    exact ⟨o, ho, (mem_part_leaf .sig sig_leaf (hu.sub hi) (ht.sub hi) d).mpr ⟨hw, hd⟩⟩

/-- Each of them once. -/
theorem C101_signals_once (f : Filter) (c : Comp) : EachOnce (getSignals c (some f)) := by
  rw [getSignals]
  split
  · exact once_of_list (sigRec_list f c)
  · exact C100_once f _

/-- `getSignalsRecursive` is the recursive search; without a filter, the one for visible components. -/
theorem C101_signals_recursive (c : Comp) (o : Option Filter) :
    getSignalsRecursive c o = getSignals c (some (.recursive (o.getD .visible))) := by
  cases o <;> rfl

/-- Without a filter the own visible signals, with a plain filter the own wanted signals. -/
theorem C101_signals_own (c d : Comp) (h : DistinctIds c) (ht : Typed c) :
    (d ∈ getSignals c none ↔ Holds .sig c d ∧ d.info.visible = true) ∧
    ∀ f, (∀ g, f ≠ .recursive g) → (d ∈ getSignals c (some f) ↔ Holds .sig c d ∧ Wants f d.info) := by
  constructor
  · rw [getSignals, C100_no_filter, part_items]
  · intro f hf
    have hr : f.isRecursive = false := by
      cases f <;> first | rfl | exact absurd rfl (hf _)
    rw [getSignals, hr, if_neg (by simp), mem_part_leaf .sig sig_leaf (DistinctIds.unique h) ht]
    exact And.comm

/-- `getInputPorts(Recursive(f))` of a function block returns exactly the wanted ports of the function block and
of every function block reachable through entered ones. -/
theorem C101_ports (f : Filter) (c d : Comp) (h : DistinctIds c) (ht : Typed c) :
    d ∈ getInputPorts c (some (.recursive f)) ↔
      Wants f d.info ∧ ∃ o, ReflTransGen (FbStep (Enters f)) c o ∧ Holds .ip o d := by
  have hu := DistinctIds.unique h
  have key := rec_iff (R := FbStep (Enters f)) (fun _ _ h => ⟨h.1.inside, h.1.size⟩) (portRec (.recursive f))
    (fun c d => d ∈ getItems (.recursive f) (part .ip c))
    (fun c d h => under_part_inside .ip c (getItems_sound _ _ (Nat.lt_succ_self _) d h).2)
    (portRec_list (.recursive f))
  have hs : d ∈ getInputPorts c (some (.recursive f)) ↔
      ∃ o, ReflTransGen (FbStep (Enters f)) c o ∧ d ∈ getItems (.recursive f) (part .ip o) :=
    ⟨key.1 _ c (Nat.lt_succ_self _) d, key.2 c d hu⟩
  rw [hs]
  constructor
  · rintro ⟨o, ho, hd⟩
    have hi := FbReach.inside ho
    have := (mem_part_leaf .ip ip_leaf (hu.sub hi) (ht.sub hi) d).mp hd
    exact ⟨this.1, o, ho, this.2⟩
  · rintro ⟨hw, o, ho, hd⟩
    have hi := FbReach.inside ho
    exact ⟨o, ho, (mem_part_leaf .ip ip_leaf (hu.sub hi) (ht.sub hi) d).mpr ⟨hw, hd⟩⟩

theorem C101_ports_once (f : Filter) (c : Comp) : EachOnce (getInputPorts c (some f)) := by
  rw [getInputPorts]
  split
  · exact once_of_list (portRec_list f c)
  · exact C100_once f _

/-- Without a filter the own visible ports, with a plain filter the own wanted ports. -/
theorem C101_ports_own (c d : Comp) (h : DistinctIds c) (ht : Typed c) :
    (d ∈ getInputPorts c none ↔ Holds .ip c d ∧ d.info.visible = true) ∧
    ∀ f, (∀ g, f ≠ .recursive g) → (d ∈ getInputPorts c (some f) ↔ Holds .ip c d ∧ Wants f d.info) := by
  constructor
  · rw [getInputPorts, C100_no_filter, part_items]
  · intro f hf
    have hr : f.isRecursive = false := by
      cases f <;> first | rfl | exact absurd rfl (hf _)
    rw [getInputPorts, hr, if_neg (by simp), mem_part_leaf .ip ip_leaf (DistinctIds.unique h) ht]
    exact And.comm

example : gids (getSignals root (some (.recursive .any))) = [114, 105, 124, 125, 134, 145] := by decide +kernel
example : gids (getSignalsRecursive root none) = [114, 105, 124, 134] := by decide +kernel
example : gids (getInputPorts outer (some (.recursive .any))) = [126] := by decide +kernel

/-! ### C102: channels and devices -/

/-- `getChannels(f)`: the wanted channels of the io folder and of the io folders entered below it. -/
theorem C102_channels_own (f : Filter) (hf : ∀ g, f ≠ .recursive g) (c d : Comp) :
    d ∈ getChannels c (some f) ↔ HasChannel (Enters f) c d ∧ Wants f d.info := by
  have hr : f.isRecursive = false := by
    cases f <;> first | rfl | exact absurd rfl (hf _)
  rw [getChannels, hr, if_neg (by simp), channels_iff]

theorem C102_channels_no_filter (c d : Comp) :
    d ∈ getChannels c none ↔
      HasChannel (fun i => i.visible = true) c d ∧ d.info.visible = true := by
  rw [getChannels, channels_iff]; rfl

/-- `getChannels(Recursive(f))`: the wanted channels of the device and of every device reachable through entered
ones. -/
theorem C102_channels (f : Filter) (c d : Comp) (h : DistinctIds c) :
    d ∈ getChannels c (some (.recursive f)) ↔
      Wants f d.info ∧ ∃ o, ReflTransGen (DevStep (Enters f)) c o ∧ HasChannel (Enters f) o d := by
  have key := rec_iff (R := DevStep (Enters f)) (fun _ _ h => ⟨h.1.inside, h.1.size⟩) (chRec (.recursive f))
    (fun c d => HasChannel (Enters f) c d ∧ Wants f d.info) (fun c d h => h.1.inside.1)
    (chRec_list (.recursive f))
  have hs : d ∈ getChannels c (some (.recursive f)) ↔
      ∃ o, ReflTransGen (DevStep (Enters f)) c o ∧ (HasChannel (Enters f) o d ∧ Wants f d.info) :=
    ⟨key.1 _ c (Nat.lt_succ_self _) d, key.2 c d (DistinctIds.unique h)⟩
  rw [hs]
  exact ⟨fun ⟨o, h1, h2, h3⟩ => ⟨h3, o, h1, h2⟩, fun ⟨h3, o, h1, h2⟩ => ⟨o, h1, h2, h3⟩⟩

theorem C102_channels_once (o : Option Filter) (c : Comp) (h : DistinctIds c) :
    EachOnce (getChannels c o) := by
  have hs : ∀ f, EachOnce (channelsFrom f true (part .io c).items) := fun f =>
    EachOnce.sublist h ((channelsFrom_sublist f true _ _ (Nat.lt_succ_self _)).trans (part_nodes .io c))
  unfold getChannels
  split
  · exact hs _
  · split
    · exact once_of_list (chRec_list _ c)
    · exact hs _

theorem C102_channels_recursive (c : Comp) (o : Option Filter) :
    getChannelsRecursive c o = getChannels c (some (.recursive (o.getD .visible))) := by
  cases o <;> rfl

/-- `getDevices(Recursive(f))`: the wanted devices at any depth below entered devices. -/
theorem C102_devices (f : Filter) (c d : Comp) (h : DistinctIds c) :
    d ∈ getDevices c (some (.recursive f)) ↔
      Wants f d.info ∧ ∃ o, ReflTransGen (DevStep (Enters f)) c o ∧ Holds .dev o d := by
  have key := rec_iff (R := DevStep (Enters f)) (fun _ _ h => ⟨h.1.inside, h.1.size⟩) (devRec (.recursive f))
    (fun c d => Holds .dev c d ∧ Wants f d.info) (fun c d h => h.1.inside)
    (devRec_list (.recursive f))
  have hs : d ∈ getDevices c (some (.recursive f)) ↔
      ∃ o, ReflTransGen (DevStep (Enters f)) c o ∧ (Holds .dev o d ∧ Wants f d.info) :=
    ⟨key.1 _ c (Nat.lt_succ_self _) d, key.2 c d (DistinctIds.unique h)⟩
  rw [hs]
  exact ⟨fun ⟨o, h1, h2, h3⟩ => ⟨h3, o, h1, h2⟩, fun ⟨h3, o, h1, h2⟩ => ⟨o, h1, h2, h3⟩⟩

theorem C102_devices_once (f : Filter) (c : Comp) : EachOnce (getDevices c (some f)) := by
  rw [getDevices]
  split
  · exact once_of_list (devRec_list f c)
  · exact C100_once f _

theorem flat_part {f : Filter} (hr : f.isRecursive = false) (r : Role) {c : Comp} (h : DistinctIds c) (d : Comp) :
    d ∈ getItems f (part r c) ↔ Holds r c d ∧ Wants f d.info := by
  have he : getItems f (part r c) = (part r c).items.filter (fun x => f.accepts x.info) := by
    rw [getItems_eq, hr]
    simp only [Bool.false_eq_true, if_false, List.append_nil]
    exact ordSet_id (EachOnce.sublist (part_once r h) List.filter_sublist)
  rw [he, mem_part_filter]

theorem C102_devices_own (c d : Comp) (h : DistinctIds c) :
    (d ∈ getDevices c none ↔ Holds .dev c d ∧ d.info.visible = true) ∧
    ∀ f, (∀ g, f ≠ .recursive g) → (d ∈ getDevices c (some f) ↔ Holds .dev c d ∧ Wants f d.info) := by
  constructor
  · rw [getDevices, C100_no_filter, part_items]
  · intro f hf
    have hr : f.isRecursive = false := by
      cases f <;> first | rfl | exact absurd rfl (hf _)
    rw [getDevices, hr, if_neg (by simp), flat_part hr .dev h]

example : gids (getChannels root none) = [110] := by decide +kernel
example : gids (getChannels root (some (.recursive (.localId 7)))) = [110] := by decide +kernel
example : gids (getDevices root (some (.recursive .any))) = [140] := by decide +kernel
example : gids (getDevices root none) = [] := by decide +kernel

/-! ### C103: function blocks -/

/-- A device: `getFunctionBlocks(Recursive(Any()))` leaves out a function block inside a function block, although
the filter enters everything and a search for signals goes through it. -/
theorem C103_violation_device_nested : ∃ (c d : Comp) (l : List Comp), DistinctIds c ∧ Typed c ∧
    getFunctionBlocks c (some (.recursive .any)) = some l ∧ d ∉ l ∧
    ∃ o, ReflTransGen (Step (Enters .any)) c o ∧ Holds .fb o d := by
  refine ⟨root, inner, _, root_distinct, root_typed, rfl, ?_, outer, .single ?_, ?_⟩
  · intro h
    have hg : inner.info.gid ∈ gids (devFbRec (.recursive .any) root) := List.mem_map.mpr ⟨inner, h, rfl⟩
    revert hg
    decide +kernel
  · exact ⟨by simp [Enters, EntersWith], .inl ⟨_, rfl, List.mem_singleton.mpr rfl⟩⟩
  · exact ⟨_, rfl, List.mem_singleton.mpr rfl⟩

/-- The same for a function block inside a channel. -/
theorem C103_violation_device_channel : ∃ (c d : Comp), DistinctIds c ∧ Typed c ∧
    getFunctionBlocks c (some (.recursive .any)) = some [] ∧
    ∃ o, ReflTransGen (Step (Enters .any)) c o ∧ Holds .fb o d := by
  refine ⟨device 100 11 true [block 110 7 .channel true [] [inner] []] [] [] [], inner,
    by decide +kernel, typed_of (by decide +kernel), rfl, block 110 7 .channel true [] [inner] [], .single ?_, ?_⟩
  · refine ⟨by simp [Enters, EntersWith], .inr ⟨rfl, .inr ⟨_, rfl, .here (List.mem_singleton.mpr rfl) rfl⟩⟩⟩
  · exact ⟨_, rfl, List.mem_singleton.mpr rfl⟩

/-- A function block that holds another one: `getFunctionBlocks(Recursive(Any()))` fails, because the search of the
folder of function blocks also returns the folders inside the nested function block, and these are cast to
function blocks. -/
theorem C103_violation_throws : ∃ c, DistinctIds c ∧ Typed c ∧
    getFunctionBlocks c (some (.recursive .any)) = none ∧
    getFunctionBlocks c (some (.recursive .visible)) = none ∧
    getSignals c (some (.recursive .any)) ≠ [] := by
  refine ⟨outer, by decide +kernel, typed_of (by decide +kernel), ?_, ?_, ?_⟩
  · have : (getFunctionBlocks outer (some (.recursive .any))).isNone = true := by decide +kernel
    exact Option.isNone_iff_eq_none.mp this
  · have : (getFunctionBlocks outer (some (.recursive .visible))).isNone = true := by decide +kernel
    exact Option.isNone_iff_eq_none.mp this
  · intro h
    have : gids (getSignals outer (some (.recursive .any))) = [] := by rw [h]; rfl
    revert this
    decide +kernel

/-- What holds for a device: the wanted function blocks it holds itself, and those of the devices reachable through
entered ones, each once.  Missing: the function blocks inside function blocks and channels. -/
theorem C103_device_partial (f : Filter) (c d : Comp) (hk : c.info.kind = .device) (h : DistinctIds c) :
    ∃ l, getFunctionBlocks c (some (.recursive f)) = some l ∧ EachOnce l ∧
      (d ∈ l ↔ Wants f d.info ∧ ∃ o, ReflTransGen (DevStep (Enters f)) c o ∧ Holds .fb o d) := by
  have key := rec_iff (R := DevStep (Enters f)) (fun _ _ h => ⟨h.1.inside, h.1.size⟩) (devFbRec (.recursive f))
    (fun c d => Holds .fb c d ∧ Wants f d.info) (fun c d h => h.1.inside)
    (devFbRec_list (.recursive f))
  refine ⟨devFbRec (.recursive f) c, ?_, once_of_list (devFbRec_list _ c), ?_⟩
  · rw [getFunctionBlocks, if_pos (show (Filter.recursive f).isRecursive = true from rfl), if_pos ((device_iff _).mpr hk)]
  · have hs : d ∈ devFbRec (.recursive f) c ↔
        ∃ o, ReflTransGen (DevStep (Enters f)) c o ∧ (Holds .fb o d ∧ Wants f d.info) :=
      ⟨key.1 _ c (Nat.lt_succ_self _) d, key.2 c d (DistinctIds.unique h)⟩
    rw [hs]
    exact ⟨fun ⟨o, h1, h2, h3⟩ => ⟨h3, o, h1, h2⟩, fun ⟨h3, o, h1, h2⟩ => ⟨o, h1, h2, h3⟩⟩

/-- Without recursion nothing is missing: the own visible, or the own wanted function blocks. -/
theorem C103_own_partial (c d : Comp) (h : DistinctIds c) :
    (∃ l, getFunctionBlocks c none = some l ∧ (d ∈ l ↔ Holds .fb c d ∧ d.info.visible = true)) ∧
    ∀ f, (∀ g, f ≠ .recursive g) → ∃ l, getFunctionBlocks c (some f) = some l ∧ EachOnce l ∧
      (d ∈ l ↔ Holds .fb c d ∧ Wants f d.info) := by
  refine ⟨⟨_, rfl, by rw [C100_no_filter, part_items]⟩, fun f hf => ?_⟩
  have hr : f.isRecursive = false := by
    cases f <;> first | rfl | exact absurd rfl (hf _)
  refine ⟨getItems f (part .fb c), ?_, C100_once f _, flat_part hr .fb h d⟩
  rw [getFunctionBlocks, hr, if_neg (by simp)]

/-- A filter that wants function blocks only. -/
def FbsOnly (f : Filter) : Prop := ∀ i, Wants f i → i.kind = .fb ∨ i.kind = .channel

theorem castFbs_some {f : Filter} (hf : FbsOnly f) (c : Comp) :
    castFbs (getItems (.recursive f) c) = some (getItems (.recursive f) c) := by
  unfold castFbs
  rw [if_pos]
  rw [List.all_eq_true]
  intro x hx
  have := hf _ (getItems_sound _ _ (Nat.lt_succ_self _) x hx).1
  rcases this with h | h <;> rw [h] <;> rfl

theorem fbRec_list {f : Filter} (hf : FbsOnly f) (n : Nat) : ∀ c : Comp, sizeOf c < n →
    ∃ l, fbRec (.recursive f) c = some (ordSet l) ∧ ∀ d, d ∈ l ↔
      d ∈ getItems (.recursive f) (part .fb c) ∨
      ∃ e, FbStep (Enters f) c e ∧ ∃ r, fbRec (.recursive f) e = some r ∧ d ∈ r := by
  induction n with
  | zero => intro c h; omega
  | succ n ih =>
    intro c hn
    cases c with
    | mk i cs =>
      obtain ⟨l, hl, hm⟩ := fbPart_some (.recursive f) i cs fun e he hv => by
        obtain ⟨l, hl, _⟩ := ih e (by have := he.size; omega)
        rw [hl]; rfl
      refine ⟨getItems (.recursive f) (part .fb (.mk i cs)) ++ l, ?_, fun d => ?_⟩
      · rw [fbRec, castFbs_some hf, hl]
      · rw [List.mem_append, hm]
        simp only [FbStep, and_assoc]
        rfl

/-- What holds for a function block: with a filter that wants function blocks only the call succeeds; it returns
every wanted function block held by it or by function blocks reachable through entered ones, each once, and
nothing but wanted components inside it.  Missing: other filters. -/
theorem C103_block_partial (f : Filter) (hf : FbsOnly f) (c : Comp) (hk : c.info.kind ≠ .device)
    (h : DistinctIds c) :
    ∃ l, getFunctionBlocks c (some (.recursive f)) = some l ∧ EachOnce l ∧
      (∀ d, Wants f d.info → (∃ o, ReflTransGen (FbStep (Enters f)) c o ∧ Holds .fb o d) → d ∈ l) ∧
      (∀ d ∈ l, Wants f d.info ∧ Inside c d ∧ d ≠ c) := by
  have hg : getFunctionBlocks c (some (.recursive f)) = fbRec (.recursive f) c := by
    rw [getFunctionBlocks, if_pos (show (Filter.recursive f).isRecursive = true from rfl), if_neg (fun h => hk ((device_iff _).mp h))]
  let F : Comp → List Comp := fun c => (fbRec (.recursive f) c).getD []
  have hF : ∀ c, ∃ l, F c = ordSet l ∧ ∀ d, d ∈ l ↔
      d ∈ getItems (.recursive f) (part .fb c) ∨ ∃ e, FbStep (Enters f) c e ∧ d ∈ F e := by
    intro c
    obtain ⟨l, hl, hm⟩ := fbRec_list hf _ c (Nat.lt_succ_self _)
    refine ⟨l, by simp [F, hl], fun d => ?_⟩
    rw [hm]
    refine or_congr Iff.rfl ⟨?_, ?_⟩
    · rintro ⟨e, he, r, hr, hd⟩; exact ⟨e, he, by simpa [F, hr] using hd⟩
    · rintro ⟨e, he, hd⟩
      obtain ⟨l', hl', _⟩ := fbRec_list hf _ e (Nat.lt_succ_self _)
      exact ⟨e, he, _, hl', by simpa [F, hl'] using hd⟩
  have hown : ∀ c d, d ∈ getItems (.recursive f) (part .fb c) → Inside c d := fun c d h =>
    under_part_inside .fb c (getItems_sound _ _ (Nat.lt_succ_self _) d h).2
  have key := rec_iff (R := FbStep (Enters f)) (fun _ _ h => ⟨h.1.inside, h.1.size⟩) F
    (fun c d => d ∈ getItems (.recursive f) (part .fb c)) hown hF
  obtain ⟨l, hl, _⟩ := fbRec_list hf _ c (Nat.lt_succ_self _)
  have hFc : F c = ordSet l := by simp [F, hl]
  refine ⟨ordSet l, by rw [hg, hl], ordSet_once l, ?_, ?_⟩
  · rintro d hw ⟨o, ho, hd⟩
    rw [← hFc]
    refine key.2 c d (DistinctIds.unique h) ⟨o, ho, ?_⟩
    rw [mem_getItems rfl (part_unique .fb ((DistinctIds.unique h).sub (FbReach.inside ho)))]
    exact ⟨hw, .child ((part_items .fb o d).mpr hd)⟩
  · intro d hd
    rw [← hFc] at hd
    obtain ⟨o, ho, hg⟩ := key.1 _ c (Nat.lt_succ_self _) d hd
    have hs := getItems_sound _ _ (Nat.lt_succ_self _) d hg
    refine ⟨hs.1, (FbReach.inside ho).trans (hown o d hg), ?_⟩
    have h1 : sizeOf d < sizeOf o := by
      cases hs.2 with
      | child hc => exact ((part_items .fb o d).mp hc).size
      | deeper he _ _ hu =>
        have h1 := ((part_items .fb o _).mp he).size
        have h2 := hu.inside.size
        omega
    have h2 := (FbReach.inside ho).size
    intro hc
    rw [hc] at h1
    omega

example : FbsOnly (.and (.intf .functionBlock) .visible) := by
  rintro ⟨_, _, k, _, _, _⟩ h
  cases k <;> simp [Wants, Kind.supports] at h ⊢
example : (getFunctionBlocks outer (some (.recursive (.intf .functionBlock)))).map gids = some [130] := by
  decide +kernel
example : (getFunctionBlocks root (some (.recursive .any))).map gids = some [120, 150] := by decide +kernel

end Verif.Search.Props
