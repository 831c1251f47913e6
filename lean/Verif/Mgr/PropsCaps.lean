import Verif.Mgr.PropsConn
/-!
# The capabilities of a connected device
-/

namespace Verif.Mgr

open Verif

theorem get_snoc (c : Config) (p : Item) (n : Text) :
    Config.get (c ++ [p]) n = (c.get n).or (if p.name = n then some p.val else none) := by
  unfold Config.get
  rw [List.find?_append]
  cases c.find? (fun p => p.name == n) with
  | some x => rfl
  | none =>
    by_cases h : p.name = n
    · simp [h]
    · simp [h]

/-- One turn of `mergeProps`. -/
def mergeOne (m : Config) (p : Item) : Config :=
  match m.get p.name with
  | none => m ++ [p]
  | some _ => if p.val ≠ p.dflt then m.set p.name p.val else m

theorem mergeProps_eq (disc dev : Config) : mergeProps disc dev = disc.foldl mergeOne dev := rfl

theorem get_mergeOne_ne {m : Config} {p : Item} {n : Text} (h : p.name ≠ n) : (mergeOne m p).get n = m.get n := by
  unfold mergeOne
  cases m.get p.name with
  | none => simp only; rw [get_snoc, if_neg h, Option.or_none]
  | some v =>
    simp only
    split
    · rw [get_set, if_neg (Ne.symm h)]
    · rfl

theorem get_mergeOne (m : Config) (p : Item) :
    (mergeOne m p).get p.name = some (if p.val ≠ p.dflt then p.val else (m.get p.name).getD p.val) := by
  unfold mergeOne
  cases e : m.get p.name with
  | none =>
    simp only
    rw [get_snoc, e, if_pos rfl]
    split <;> rfl
  | some v =>
    simp only
    split
    · rw [get_set, if_pos rfl, e]; rfl
    · rw [e]; rfl

theorem get_merge_no {n : Text} : ∀ {disc m : Config}, (∀ p ∈ disc, p.name ≠ n) → (disc.foldl mergeOne m).get n = m.get n
  | [], _, _ => rfl
  | p :: disc, m, h => by
    change (disc.foldl mergeOne (mergeOne m p)).get n = _
    rw [get_merge_no (fun q hq => h q (List.mem_cons_of_mem _ hq)), get_mergeOne_ne (h p List.mem_cons_self)]

theorem get_merge : ∀ {disc m : Config} {p : Item}, (disc.map (·.name)).Nodup → p ∈ disc →
    (disc.foldl mergeOne m).get p.name = some (if p.val ≠ p.dflt then p.val else (m.get p.name).getD p.val)
  | [], _, _, _, h => nomatch h
  | q :: disc, m, p, hn, h => by
    change (disc.foldl mergeOne (mergeOne m q)).get p.name = _
    rw [List.map_cons, List.nodup_cons] at hn
    rcases List.mem_cons.mp h with rfl | h
    · rw [get_merge_no (fun x hx e => hn.1 (List.mem_map.mpr ⟨x, hx, e⟩)), get_mergeOne]
    · have hne : q.name ≠ p.name := fun e => hn.1 (e ▸ List.mem_map_of_mem h)
      rw [get_merge hn.2 h, get_mergeOne_ne hne]

/-- The capability with a protocol. -/
def Spec.capOf (caps : List PCap) (p : Text) : Option PCap := caps.find? fun x => x.proto == p

/-- What a capability says about a name, when `disc` was found on the network and `dev` is what the
device says: what was found, if that is not the default, else what the device says, else what was
found. -/
def Spec.better (disc dev : Config) (n : Text) : Option Nat :=
  match disc.find? fun p => p.name == n with
  | none => Spec.valueOf dev n
  | some p => if p.val ≠ p.dflt then some p.val else some ((Spec.valueOf dev n).getD p.val)

theorem merge_better {disc dev : Config} (h : (disc.map (·.name)).Nodup) (n : Text) :
    Spec.valueOf (mergeProps disc dev) n = Spec.better disc dev n := by
  rw [valueOf_eq, mergeProps_eq]
  unfold Spec.better
  cases e : disc.find? (fun p => p.name == n) with
  | none =>
    rw [get_merge_no]; rfl
    intro p hp
    have := List.find?_eq_none.mp e p hp
    simpa using this
  | some p =>
    have hp := found_name e
    rw [← hp, get_merge h (List.mem_of_find?_eq_some e)]
    simp only [valueOf_eq]
    split <;> rfl

theorem capOf_remove (caps : List PCap) (p q : Text) :
    Spec.capOf (removeCap caps p) q = if q = p then none else Spec.capOf caps q := by
  unfold Spec.capOf removeCap
  induction caps with
  | nil => by_cases h : q = p <;> simp [h]
  | cons x caps ih =>
    rw [List.filter_cons]
    by_cases hx : x.proto = p
    · rw [if_neg (by simp [hx]), ih]
      by_cases h : q = p
      · rw [if_pos h, if_pos h]
      · rw [if_neg h, if_neg h, List.find?_cons]
        have : (x.proto == q) = false := by simp [hx, Ne.symm h]
        rw [this]
    · rw [if_pos (by simp [hx]), List.find?_cons, List.find?_cons]
      by_cases hq : x.proto = q
      · have : (x.proto == q) = true := by simp [hq]
        rw [this]
        rw [if_neg (fun e => hx (hq.trans e))]
      · have : (x.proto == q) = false := by simp [hq]
        rw [this]; exact ih

theorem capOf_append (a b : List PCap) (q : Text) : Spec.capOf (a ++ b) q = (Spec.capOf a q).or (Spec.capOf b q) := by
  unfold Spec.capOf; rw [List.find?_append]

theorem capOf_single (c : PCap) (q : Text) : Spec.capOf [c] q = if c.proto = q then some c else none := by
  unfold Spec.capOf; rw [List.find?_cons]
  by_cases h : c.proto = q
  · simp [h]
  · have hb : (c.proto == q) = false := by simp [h]
    rw [hb, if_neg h]; rfl

/-- One turn of `mergeCaps`. -/
def capStep (caps : List PCap) (c : PCap) : List PCap :=
  match caps.find? (fun x => x.proto == c.proto) with
  | some x => removeCap caps c.proto ++ [{ c with props := mergeProps c.props x.props }]
  | none => caps ++ [c]

theorem mergeCaps_cons (caps : List PCap) (c : PCap) (cs : List PCap) :
    mergeCaps caps (c :: cs) = mergeCaps (capStep caps c) cs := by
  rw [mergeCaps]; unfold capStep
  cases caps.find? (fun x => x.proto == c.proto) <;> rfl

theorem capOf_step_ne {caps : List PCap} {c : PCap} {q : Text} (h : c.proto ≠ q) :
    Spec.capOf (capStep caps c) q = Spec.capOf caps q := by
  unfold capStep
  split
  · rw [capOf_append, capOf_remove, if_neg (Ne.symm h), capOf_single, if_neg h, Option.or_none]
  · rw [capOf_append, capOf_single, if_neg h, Option.or_none]

theorem capOf_step (caps : List PCap) (c : PCap) :
    Spec.capOf (capStep caps c) c.proto =
      some (match Spec.capOf caps c.proto with
        | some x => { c with props := mergeProps c.props x.props }
        | none => c) := by
  unfold capStep
  cases e : caps.find? (fun x => x.proto == c.proto) with
  | some x =>
    have e' : Spec.capOf caps c.proto = some x := e
    simp only [e']
    rw [capOf_append, capOf_remove, if_pos rfl, capOf_single, if_pos rfl]; rfl
  | none =>
    have e' : Spec.capOf caps c.proto = none := e
    simp only [e']
    rw [capOf_append, e', capOf_single, if_pos rfl]; rfl

theorem capOf_merge_no {q : Text} : ∀ {cs caps : List PCap}, (∀ c ∈ cs, c.proto ≠ q) →
    Spec.capOf (mergeCaps caps cs) q = Spec.capOf caps q
  | [], _, _ => rfl
  | c :: cs, caps, h => by
    rw [mergeCaps_cons, capOf_merge_no (fun x hx => h x (List.mem_cons_of_mem _ hx)),
      capOf_step_ne (h c List.mem_cons_self)]

theorem capOf_merge : ∀ {cs caps : List PCap} {c : PCap}, (cs.map (·.proto)).Nodup → c ∈ cs →
    Spec.capOf (mergeCaps caps cs) c.proto =
      some (match Spec.capOf caps c.proto with
        | some x => { c with props := mergeProps c.props x.props }
        | none => c)
  | [], _, _, _, h => nomatch h
  | d :: cs, caps, c, hn, h => by
    rw [List.map_cons, List.nodup_cons] at hn
    rw [mergeCaps_cons]
    rcases List.mem_cons.mp h with rfl | h
    · rw [capOf_merge_no (fun x hx e => hn.1 (List.mem_map.mpr ⟨x, hx, e⟩)), capOf_step]
    · have hne : d.proto ≠ c.proto := fun e => hn.1 (e ▸ List.mem_map_of_mem h)
      rw [capOf_merge hn.2 h, capOf_step_ne hne]

/-- C225: after connecting, a device has the capabilities that it names itself and those that were
found on the network, and of one that is both, each property has what was found if that is not the
default, else what the device says … -/
theorem C225_both {cs caps : List PCap} {c x : PCap} (hn : (cs.map (·.proto)).Nodup) (hc : c ∈ cs)
    (hp : (c.props.map (·.name)).Nodup) (hx : Spec.capOf caps c.proto = some x) :
    ∃ y, Spec.capOf (mergeCaps caps cs) c.proto = some y ∧
      ∀ n, Spec.valueOf y.props n = Spec.better c.props x.props n := by
  refine ⟨_, capOf_merge hn hc, fun n => ?_⟩
  rw [hx]
  exact merge_better hp n

/-- … one that was found only is added as it is … -/
theorem C225_found {cs caps : List PCap} {c : PCap} (hn : (cs.map (·.proto)).Nodup) (hc : c ∈ cs)
    (hx : Spec.capOf caps c.proto = none) : Spec.capOf (mergeCaps caps cs) c.proto = some c := by
  rw [capOf_merge hn hc, hx]

/-- … and one that was not stays as it is. -/
theorem C225_named {cs caps : List PCap} {p : Text} (h : ∀ c ∈ cs, c.proto ≠ p) :
    Spec.capOf (mergeCaps caps cs) p = Spec.capOf caps p := capOf_merge_no h

/-- Non-vacuity: the address was found, the port is what the device says, and one is found only. -/
example : mergeCaps [⟨"A".toList, [⟨"Port".toList, 1, 7⟩, ⟨"Address".toList, 0, 3⟩]⟩, ⟨"B".toList, []⟩]
    [⟨"A".toList, [⟨"Port".toList, 1, 1⟩, ⟨"Address".toList, 0, 5⟩, ⟨"Path".toList, 2, 2⟩]⟩, ⟨"C".toList, []⟩] =
    [⟨"B".toList, []⟩, ⟨"A".toList, [⟨"Port".toList, 1, 7⟩, ⟨"Address".toList, 0, 5⟩, ⟨"Path".toList, 2, 2⟩]⟩,
      ⟨"C".toList, []⟩] := by decide +kernel

/-- C226: a device with a capability under its old and under its new id cannot be added: replacing the
old id fails … -/
theorem C226_violation_both :
    renameAll [⟨"opendaq_native_streaming".toList, []⟩, ⟨"OpenDAQNativeStreaming".toList, []⟩]
      [⟨"opendaq_native_streaming".toList, []⟩, ⟨"OpenDAQNativeStreaming".toList, []⟩] = none := by decide +kernel

/-- … and so does one with two old ids of the same protocol. -/
theorem C226_violation_old :
    renameAll [⟨"opendaq_lt_streaming".toList, []⟩, ⟨"openDAQ LT Streaming".toList, []⟩]
      [⟨"opendaq_lt_streaming".toList, []⟩, ⟨"openDAQ LT Streaming".toList, []⟩] = none := by decide +kernel

/-- The capability with the id of today. -/
def Spec.modern (c : PCap) : PCap := { c with proto := Spec.today Spec.renamedProtocols c.proto }

theorem convert_today (x : Text) : convert oldProtocol x = Spec.today Spec.renamedProtocols x := by
  unfold convert Spec.today
  change _ = (List.lookup x oldProtocol).getD x
  generalize oldProtocol = t
  induction t with
  | nil => rfl
  | cons p t ih =>
    rw [List.find?_cons, List.lookup_cons]
    by_cases h : p.1 = x
    · have h1 : (p.1 == x) = true := by simp [h]
      have h2 : (x == p.1) = true := by simp [h]
      rw [h1, h2]; rfl
    · have h1 : (p.1 == x) = false := by simp [h]
      have h2 : (x == p.1) = false := by simp [Ne.symm h]
      rw [h1, h2]; exact ih

theorem lookup_mem {x v : Text} : ∀ {t : List (Text × Text)}, List.lookup x t = some v → (x, v) ∈ t
  | [], h => nomatch h
  | p :: t, h => by
    rw [List.lookup_cons] at h
    by_cases e : x = p.1
    · have : (x == p.1) = true := by simp [e]
      rw [this] at h; injection h with h
      rw [e, ← h]; exact List.mem_cons_self
    · have : (x == p.1) = false := by simp [e]
      rw [this] at h
      exact List.mem_cons_of_mem _ (lookup_mem h)

theorem today_twice (x : Text) :
    Spec.today Spec.renamedProtocols (Spec.today Spec.renamedProtocols x) = Spec.today Spec.renamedProtocols x := by
  cases e : List.lookup x Spec.renamedProtocols with
  | none =>
    have : Spec.today Spec.renamedProtocols x = x := by unfold Spec.today; rw [e]; rfl
    rw [this, this]
  | some v =>
    have h : Spec.today Spec.renamedProtocols x = v := by unfold Spec.today; rw [e]; rfl
    rw [h]
    have hall : ∀ p ∈ Spec.renamedProtocols, Spec.today Spec.renamedProtocols p.2 = p.2 := by decide +kernel
    exact hall _ (lookup_mem e)

theorem renameAll_spec : ∀ {rest done : List PCap}, ((rest ++ done).map (·.proto)).Nodup →
    ((rest ++ done).map fun c => (Spec.modern c).proto).Nodup → (∀ c ∈ done, Spec.modern c = c) →
    renameAll (rest ++ done) rest = some (done ++ rest.map Spec.modern)
  | [], done, _, _, _ => by rw [renameAll]; simp
  | c :: rest, done, h1, h2, h3 => by
    rw [renameAll]
    have hr : removeCap (c :: rest ++ done) c.proto = rest ++ done := by
      rw [List.cons_append, List.map_cons, List.nodup_cons] at h1
      unfold removeCap
      rw [List.cons_append, List.filter_cons, if_neg (by simp), List.filter_eq_self]
      intro x hx
      have : x.proto ≠ c.proto := fun e => h1.1 (e ▸ List.mem_map_of_mem hx)
      simp [this]
    have hne : ∀ x ∈ rest ++ done, x.proto ≠ (Spec.modern c).proto := by
      intro x hx e
      rw [List.cons_append, List.map_cons, List.nodup_cons] at h2
      refine h2.1 (List.mem_map.mpr ⟨x, hx, ?_⟩)
      change Spec.today Spec.renamedProtocols x.proto = (Spec.modern c).proto
      rw [e]; exact today_twice c.proto
    have ha : addCap (rest ++ done) (Spec.modern c) = some (rest ++ done ++ [Spec.modern c]) := by
      unfold addCap
      rw [if_neg]
      intro h
      obtain ⟨x, hx, e⟩ := List.any_eq_true.mp h
      exact hne x hx (by simpa using e)
    have hm : ({ c with proto := convert oldProtocol c.proto } : PCap) = Spec.modern c := by
      unfold Spec.modern; rw [convert_today]
    rw [hm, hr, ha]
    simp only
    rw [List.append_assoc, renameAll_spec (rest := rest) (done := done ++ [Spec.modern c])]
    · simp
    · rw [← List.append_assoc, List.map_append, List.nodup_append]
      rw [List.cons_append, List.map_cons, List.nodup_cons] at h1
      refine ⟨h1.2, by simp, ?_⟩
      intro a ha' b hb e
      obtain ⟨x, hx, rfl⟩ := List.mem_map.mp ha'
      simp only [List.map_cons, List.map_nil, List.mem_singleton] at hb
      exact hne x hx (e.trans hb)
    · rw [← List.append_assoc, List.map_append, List.nodup_append]
      rw [List.cons_append, List.map_cons, List.nodup_cons] at h2
      refine ⟨h2.2, by simp, ?_⟩
      intro a hx b hb e
      simp only [List.map_cons, List.map_nil, List.mem_singleton] at hb
      have hb' : b = (Spec.modern c).proto := hb.trans (today_twice c.proto)
      exact h2.1 (hb' ▸ e ▸ hx)
    · intro x hx
      rcases List.mem_append.mp hx with hx | hx
      · exact h3 x hx
      · rw [List.mem_singleton.mp hx]
        unfold Spec.modern
        rw [today_twice]

/-- Otherwise all old ids are replaced, and nothing else changes.  Missing: devices with several ids of
one protocol. -/
theorem C226_replaced_partial {caps : List PCap} (h1 : (caps.map (·.proto)).Nodup)
    (h2 : (caps.map fun c => (Spec.modern c).proto).Nodup) :
    renameAll caps caps = some (caps.map Spec.modern) := by
  have h := renameAll_spec (rest := caps) (done := []) (by rw [List.append_nil]; exact h1)
    (by rw [List.append_nil]; exact h2) (fun _ h => nomatch h)
  rw [List.append_nil, List.nil_append] at h
  exact h

example : renameAll [⟨"opendaq_native_config".toList, []⟩, ⟨"X".toList, []⟩, ⟨"OpenDAQOPCUA".toList, []⟩]
    [⟨"opendaq_native_config".toList, []⟩, ⟨"X".toList, []⟩, ⟨"OpenDAQOPCUA".toList, []⟩] =
    some [⟨"OpenDAQNativeConfiguration".toList, []⟩, ⟨"X".toList, []⟩, ⟨"OpenDAQOPCUA".toList, []⟩] := by decide +kernel

end Verif.Mgr
