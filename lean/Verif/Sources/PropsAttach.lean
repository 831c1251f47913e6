import Verif.Sources.Lemmas
/-!
# The streaming connections of a device (C233–C237)
-/
namespace Verif.Sources
open Spec

theorem pairwise_of_split {R : α → α → Prop} : ∀ {l : List α},
    (∀ pre y post, l = pre ++ y :: post → ∀ z ∈ pre, R z y) → l.Pairwise R
  | [], _ => .nil
  | a :: l, h => by
    rw [List.pairwise_cons]
    constructor
    · intro b hb
      obtain ⟨s, t, e⟩ := List.append_of_mem hb
      exact h (a :: s) b t (by rw [e]; rfl) a List.mem_cons_self
    · refine pairwise_of_split fun pre y post e z hz => ?_
      exact h (a :: pre) y post (by rw [e]; rfl) z (List.mem_cons_of_mem _ hz)

/-- All about one call. -/
theorem attach_spec (cfg : Cfg) {make : Text → Option Strm} (hf : Faithful make) (i : Info) (old : List Strm) :
    ∃ (sel : List (Cap × (Nat × Strm))) (new : List (Nat × Strm)),
      attach cfg make i old = (old ++ new.map (·.2), true) ∧
      sel.map (·.2) = pick cfg make i old i.caps [] ∧
      new.Perm (sel.map (·.2)) ∧ new.Pairwise (fun a b => a.1 ≤ b.1) ∧
      (∀ p, new.filter (fun y => y.1 == p) = (sel.map (·.2)).filter (fun y => y.1 == p)) ∧
      (sel.map (·.1)).Sublist i.caps ∧
      ∀ pre y post, sel = pre ++ y :: post →
        connect cfg make i (old ++ (pre.map (·.2)).map (·.2)) y.1 = some y.2 := by
  obtain ⟨sel, h1, h2, h3⟩ := pick_from cfg make i old i.caps []
  rw [List.nil_append] at h1
  obtain ⟨p1, p2, p3⟩ := sort_spec (pick cfg make i old i.caps []) [] List.Pairwise.nil
  rw [List.nil_append] at p1
  have hconn : ∀ pre y post, sel = pre ++ y :: post →
      (∀ z ∈ old, z.conn ≠ y.2.2.conn) ∧ ∀ z ∈ pre, z.2.2.conn ≠ y.2.2.conn := by
    intro pre y post e
    obtain ⟨_, _, s, _, h4, h5⟩ := (connect_some ..).mp (h3 pre y post e)
    have hs := hf _ _ h5
    constructor
    · intro z hz
      rw [hs]; exact h4 z (List.mem_append_left _ hz)
    · intro z hz
      rw [hs]
      refine h4 z.2.2 (List.mem_append_right _ ?_)
      rw [List.nil_append, List.map_map]
      exact List.mem_map.mpr ⟨z, hz, rfl⟩
  refine ⟨sel, sort (pick cfg make i old i.caps []) [], ?_, h1.symm, by rw [← h1]; exact p1, p2, ?_, h2, ?_⟩
  · unfold attach
    refine addAll_spec _ _ ?_ ?_
    · intro x hx y hy
      obtain ⟨z, hz, rfl⟩ := List.mem_map.mp hx
      have hz := p1.mem_iff.mp hz
      rw [h1] at hz
      obtain ⟨w, hw, rfl⟩ := List.mem_map.mp hz
      obtain ⟨s, t, e⟩ := List.append_of_mem hw
      exact (hconn s w t e).1 y hy
    · have : ((sel.map (·.2)).map (fun x => x.2.conn)).Nodup := by
        rw [List.map_map, List.nodup_iff_pairwise_ne, List.pairwise_map]
        exact pairwise_of_split fun pre y post e z hz => (hconn pre y post e).2 z hz
      rw [List.map_map]
      rw [← h1] at this
      exact (p1.map _).nodup_iff.mpr this
  · intro p
    rw [p3 p, List.nil_append, h1]
  · intro pre y post e
    simpa using h3 pre y post e

/-! ## C233 -/

/-- C233: new sources are put after those there are, sorted by the priority of their protocols and then
as the capabilities are; each is for a capability that can be used. -/
theorem C233_sources (cfg : Cfg) {make : Text → Option Strm} (hf : Faithful make) (i : Info) (old : List Strm) :
    ∃ (sel : List (Cap × (Nat × Strm))) (new : List (Nat × Strm)),
      attach cfg make i old = (old ++ new.map (·.2), true) ∧ (sel.map (·.1)).Sublist i.caps ∧
      new.Perm (sel.map (·.2)) ∧ new.Pairwise (fun a b => a.1 ≤ b.1) ∧
      (∀ p, new.filter (fun y => y.1 == p) = (sel.map (·.2)).filter (fun y => y.1 == p)) ∧
      ∀ y ∈ sel, Eligible cfg y.1 y.2.1 ∧ ∃ s, choose cfg i y.1 = some s ∧ make s = some y.2.2 := by
  obtain ⟨sel, new, h1, _, h2, h3, h4, h5, h6⟩ := attach_spec cfg hf i old
  refine ⟨sel, new, h1, h5, h2, h3, h4, fun y hy => ?_⟩
  obtain ⟨s, t, e⟩ := List.append_of_mem hy
  obtain ⟨he, _, c, hc, _, hm⟩ := (connect_some ..).mp (h6 s y t e)
  exact ⟨he, c, hc, hm⟩

/-- C233: no two sources have one connection string. -/
theorem C233_distinct (cfg : Cfg) {make : Text → Option Strm} (hf : Faithful make) (i : Info) {old : List Strm}
    (ho : (old.map (·.conn)).Nodup) : ((attach cfg make i old).1.map (·.conn)).Nodup := by
  obtain ⟨sel, new, h1, _, h2, _, _, _, h6⟩ := attach_spec cfg hf i old
  rw [h1, List.map_append, List.map_map]
  have hconn : ∀ pre y post, sel = pre ++ y :: post →
      (∀ z ∈ old, z.conn ≠ y.2.2.conn) ∧ ∀ z ∈ pre, z.2.2.conn ≠ y.2.2.conn := by
    intro pre y post e
    obtain ⟨_, _, s, _, h4, h5⟩ := (connect_some ..).mp (h6 pre y post e)
    have hs := hf _ _ h5
    refine ⟨fun z hz => by rw [hs]; exact h4 z (List.mem_append_left _ hz), fun z hz => ?_⟩
    rw [hs]
    refine h4 z.2.2 (List.mem_append_right _ ?_)
    rw [List.map_map]
    exact List.mem_map.mpr ⟨z, hz, rfl⟩
  have hn : ((sel.map (·.2)).map (fun x => x.2.conn)).Nodup := by
    rw [List.map_map, List.nodup_iff_pairwise_ne, List.pairwise_map]
    exact pairwise_of_split fun pre y post e z hz => (hconn pre y post e).2 z hz
  rw [List.nodup_append]
  refine ⟨ho, (h2.map _).nodup_iff.mpr hn, ?_⟩
  intro a ha b hb
  obtain ⟨x, hx, rfl⟩ := List.mem_map.mp ha
  obtain ⟨y, hy, rfl⟩ := List.mem_map.mp hb
  obtain ⟨w, hw, rfl⟩ := List.mem_map.mp (h2.mem_iff.mp hy)
  obtain ⟨s, t, e⟩ := List.append_of_mem hw
  exact (hconn s w t e).1 x hx

/-- After the call nothing is left to connect. -/
theorem attach_closed (cfg : Cfg) {make : Text → Option Strm} (hf : Faithful make) (i : Info) (old : List Strm)
    {c : Cap} (hc : c ∈ i.caps) : connect cfg make i (attach cfg make i old).1 c = none := by
  obtain ⟨sel, new, h1, h0, h2, _⟩ := attach_spec cfg hf i old
  refine pick_closed cfg hf i old i.caps [] _ ?_ c hc
  intro y hy
  rw [h1]
  rcases List.mem_append.mp hy with hy | hy
  · exact List.mem_append_left _ hy
  · refine List.mem_append_right _ ?_
    rw [← h0] at hy
    exact (h2.map _).mem_iff.mpr hy

/-- C233: every capability that can be used and is of no group is connected, if a module makes the
streaming. -/
theorem C233_complete (cfg : Cfg) {make : Text → Option Strm} (hf : Faithful make) (i : Info) (old : List Strm)
    {c : Cap} (hc : c ∈ i.caps) {p : Nat} (he : Eligible cfg c p) (hg : c.group = []) {s : Text}
    (hs : choose cfg i c = some s) {x : Strm} (hm : make s = some x) :
    ∃ y ∈ (attach cfg make i old).1, y.conn = s := by
  refine Decidable.byContradiction fun h => ?_
  have := (connect_some cfg make i (attach cfg make i old).1 c (p, x)).mpr
    ⟨he, fun h => absurd hg h, s, hs, fun y hy e => h ⟨y, hy, e⟩, hm⟩
  rw [attach_closed cfg hf i old hc] at this
  cases this

/-- C233: doing it again changes nothing. -/
theorem C233_again (cfg : Cfg) {make : Text → Option Strm} (hf : Faithful make) (i : Info) (old : List Strm) :
    attach cfg make i (attach cfg make i old).1 = ((attach cfg make i old).1, true) := by
  have hnone : ∀ c ∈ i.caps, connect cfg make i (attach cfg make i old).1 c = none :=
    fun c hc => attach_closed cfg hf i old hc
  generalize (attach cfg make i old).1 = o at *
  have : ∀ l : List Cap, (∀ c ∈ l, connect cfg make i o c = none) → pick cfg make i o l [] = [] := by
    intro l
    induction l with
    | nil => intro _; rfl
    | cons c l ih =>
      intro h
      unfold pick
      have h0 := h c List.mem_cons_self
      rw [List.map_nil, List.append_nil, h0]
      exact ih fun d hd => h d (List.mem_cons_of_mem _ hd)
  unfold attach
  rw [this i.caps hnone]
  rfl

def tx (s : String) : Text := s.toList

/-- A module makes everything but what contains an exclamation mark. -/
def demoMake (s : Text) : Option Strm :=
  if '!' ∈ s then none else some ⟨s, if s.take 1 = tx "g" then tx "G" else [], s.take 1 = tx "g"⟩

def demoCap (proto group conn : String) (addrs : List Addr) : Cap := ⟨true, tx proto, tx group, some (tx conn), addrs⟩

def demoAddr (a ty conn : String) (r : Reach) : Addr := ⟨tx a, tx ty, tx conn, r⟩

def demoCfg : Cfg := ⟨false, tx "IPv4", [], [tx "P", tx "Q", tx "R"]⟩

def demoInfo : Info :=
  ⟨[demoCap "R" "" "r://0" [], demoCap "Q" "G" "g2://0" [], demoCap "P" "G" "g1://0" [], demoCap "X" "" "x://0" [],
    demoCap "Q" "" "q://0" [demoAddr "1.1" "IPv4" "q://1.1" .unknown]], [], none, none⟩

theorem demoFaithful : Faithful demoMake := by
  intro s x h
  unfold demoMake at h
  split at h
  · cases h
  · rw [← Option.some.inj h]

example : (attach demoCfg demoMake demoInfo []).1.map (·.conn) = [tx "g1://0", tx "q://1.1", tx "r://0"] := by
  decide +kernel

/-! ## C234 -/

/-- C234: no two sources are of one protocol group. -/
theorem C234_group (cfg : Cfg) {make : Text → Option Strm} (hf : Faithful make) {i : Info}
    (hg : Grouped cfg make i) {old : List Strm} (ho : OnePerGroup old) : OnePerGroup (attach cfg make i old).1 := by
  obtain ⟨sel, new, h1, _, h2, _, _, h5, h6⟩ := attach_spec cfg hf i old
  rw [h1]
  have hgrp : ∀ pre y post, sel = pre ++ y :: post → y.2.2.group = y.1.group ∧
      (y.2.2.group ≠ [] → (∀ z ∈ old, z.group ≠ y.2.2.group) ∧ ∀ z ∈ pre, z.2.2.group ≠ y.2.2.group) := by
    intro pre y post e
    obtain ⟨_, hb, s, hs, _, hm⟩ := (connect_some ..).mp (h6 pre y post e)
    have hy : y.1 ∈ i.caps := h5.subset (List.mem_map.mpr ⟨y, by rw [e]; simp, rfl⟩)
    have eq := hg y.1 hy s y.2.2 hs hm
    refine ⟨eq, fun hne => ?_⟩
    rw [eq] at hne ⊢
    obtain ⟨_, h⟩ := hb hne
    refine ⟨fun z hz => h z (List.mem_append_left _ hz), fun z hz => h z.2.2 (List.mem_append_right _ ?_)⟩
    rw [List.map_map]
    exact List.mem_map.mpr ⟨z, hz, rfl⟩
  have hp : (sel.map (fun x => x.2.2)).Pairwise (fun a b => (a.group ≠ [] → a.group ≠ b.group)) := by
    rw [List.pairwise_map]
    refine pairwise_of_split fun pre y post e z hz hne eq => ?_
    rw [eq] at hne
    exact ((hgrp pre y post e).2 hne).2 z hz eq
  have hp' : (new.map (·.2)).Pairwise (fun a b => (a.group ≠ [] → a.group ≠ b.group)) := by
    have hperm : (new.map (·.2)).Perm (sel.map (fun x => x.2.2)) := by
      have := h2.map (·.2)
      rwa [List.map_map] at this
    refine hperm.symm.pairwise hp ?_
    intro a b hab hne e
    rw [e] at hne
    exact hab hne e.symm
  unfold OnePerGroup
  rw [List.pairwise_append]
  refine ⟨ho, hp', ?_⟩
  intro a ha b hb hne e
  obtain ⟨y, hy, rfl⟩ := List.mem_map.mp hb
  obtain ⟨w, hw, rfl⟩ := List.mem_map.mp (h2.mem_iff.mp hy)
  obtain ⟨s, t, es⟩ := List.append_of_mem hw
  rw [e] at hne
  exact ((hgrp s w t es).2 hne).1 a ha e

/-- C234: a new source of a group is for the most preferred protocol of the group that can be used. -/
theorem C234_preferred (cfg : Cfg) {make : Text → Option Strm} (hf : Faithful make) {i : Info}
    (hg : Grouped cfg make i) {old : List Strm} {x : Strm} (hx : x ∈ (attach cfg make i old).1) (ho : x ∉ old)
    (hne : x.group ≠ []) :
    ∃ c ∈ i.caps, ∃ p s, c.group = x.group ∧ Eligible cfg c p ∧ choose cfg i c = some s ∧ make s = some x ∧
      ∀ d ∈ i.caps, d.group = x.group → ∀ q, Eligible cfg d q → p ≤ q := by
  obtain ⟨sel, new, h1, _, h2, _, _, h5, h6⟩ := attach_spec cfg hf i old
  rw [h1] at hx
  rcases List.mem_append.mp hx with hx | hx
  · exact absurd hx ho
  · obtain ⟨y, hy, rfl⟩ := List.mem_map.mp hx
    obtain ⟨w, hw, rfl⟩ := List.mem_map.mp (h2.mem_iff.mp hy)
    obtain ⟨s, t, e⟩ := List.append_of_mem hw
    obtain ⟨he, hb, c, hc, _, hm⟩ := (connect_some ..).mp (h6 s w t e)
    have hin : w.1 ∈ i.caps := h5.subset (List.mem_map.mpr ⟨w, hw, rfl⟩)
    have eq := hg w.1 hin c w.2.2 hc hm
    rw [eq] at hne ⊢
    refine ⟨w.1, hin, w.2.1, c, rfl, he, hc, hm, ?_⟩
    exact ((best_spec cfg w.1.group i.caps w.2.1).mp (hb hne).1).2

/-- Attaching several times, whatever is known about the device each time. -/
def attachMany (cfg : Cfg) (make : Text → Option Strm) (old : List Strm) : List Info → List Strm
  | [] => old
  | i :: l => attachMany cfg make (attach cfg make i old).1 l

/-- C234: also after any number of updates. -/
theorem C234_always (cfg : Cfg) {make : Text → Option Strm} (hf : Faithful make) :
    ∀ {l : List Info} {old : List Strm}, (∀ i ∈ l, Grouped cfg make i) → OnePerGroup old →
      (old.map (·.conn)).Nodup →
      OnePerGroup (attachMany cfg make old l) ∧ ((attachMany cfg make old l).map (·.conn)).Nodup
  | [], _, _, h, h' => ⟨h, h'⟩
  | i :: rest, _, hg, h, h' =>
    C234_always cfg hf (l := rest) (fun _ hj => hg _ (List.mem_cons_of_mem i hj))
      (C234_group cfg hf (hg i List.mem_cons_self) h) (C233_distinct cfg hf i h')

example : Grouped demoCfg demoMake demoInfo := by
  intro c hc s x hs hm
  simp only [demoInfo, List.mem_cons, List.not_mem_nil, or_false] at hc
  have h : ∀ c, c ∈ demoInfo.caps →
      ((choose demoCfg demoInfo c).bind demoMake).all (fun x => decide (x.group = c.group)) = true := by
    decide +kernel
  have := h c (by simp only [demoInfo, List.mem_cons, List.not_mem_nil, or_false]; exact hc)
  rw [hs, Option.bind_some, hm] at this
  simpa using this

/-! ## C235 -/

/-- C235, violated: the most preferred protocol of a group cannot be connected, and so the group is not
connected, although another protocol of it could be. -/
theorem C235_violation :
    let i : Info := ⟨[demoCap "P" "G" "g!" [], demoCap "Q" "G" "g2" []], [], none, none⟩
    attach demoCfg demoMake i [] = ([], true) ∧
    (attach demoCfg demoMake ⟨[demoCap "Q" "G" "g2" []], [], none, none⟩ []).1.map (·.conn) = [tx "g2"] := by
  decide +kernel

/-- C235: a group is connected if a module makes the streaming for a most preferred protocol of it.
Missing: when modules make only others. -/
theorem C235_group_partial (cfg : Cfg) {make : Text → Option Strm} (hf : Faithful make) {i : Info}
    (old : List Strm) {c : Cap} (hc : c ∈ i.caps) {p : Nat} (he : Eligible cfg c p)
    (hmin : ∀ d ∈ i.caps, d.group = c.group → ∀ q, Eligible cfg d q → p ≤ q) {s : Text}
    (hs : choose cfg i c = some s) {x : Strm} (hm : make s = some x) :
    ∃ y ∈ (attach cfg make i old).1, y.group = c.group ∨ y.conn = s := by
  refine Decidable.byContradiction fun h => ?_
  have := (connect_some cfg make i (attach cfg make i old).1 c (p, x)).mpr
    ⟨he, fun _ => ⟨(best_spec cfg c.group i.caps p).mpr ⟨⟨c, hc, rfl, he⟩, hmin⟩, fun y hy e => h ⟨y, hy, .inl e⟩⟩,
      s, hs, fun y hy e => h ⟨y, hy, .inr e⟩, hm⟩
  rw [attach_closed cfg hf i old hc] at this
  cases this

example : ∃ s x, choose demoCfg demoInfo (demoCap "P" "G" "g1://0" []) = some s ∧ demoMake s = some x :=
  ⟨_, _, rfl, rfl⟩

/-! ## C236 -/

theorem getLast?_filter {f : α → Bool} {l : List α} {d : α} (h : (l.filter f).getLast? = some d) :
    ∃ before after, l = before ++ d :: after ∧ f d = true ∧ ∀ e ∈ after, f e = false := by
  induction l with
  | nil => cases h
  | cons a l ih =>
    rw [List.filter_cons] at h
    by_cases hn : l.filter f = []
    · split at h
      · rename_i ha
        rw [hn] at h
        obtain rfl := Option.some.inj h
        refine ⟨[], l, rfl, ha, fun e he => ?_⟩
        have := List.filter_eq_nil_iff.mp hn e he
        simpa using this
      · rw [hn] at h; cases h
    · have h' : (l.filter f).getLast? = some d := by
        split at h
        · rwa [List.getLast?_cons_of_ne_nil hn] at h
        · exact h
      obtain ⟨b, c, e, h1, h2⟩ := ih h'
      exact ⟨a :: b, c, by rw [e]; rfl, h1, h2⟩

theorem available (i : Info) (c : Cap) : Available i c ((foundAddrs i c.proto).getD c.addrs) := by
  unfold foundAddrs
  cases h : (i.found.filter fun d => d.streaming && d.proto == c.proto).getLast? with
  | none =>
    right
    refine ⟨fun e he hs hp => ?_, rfl⟩
    rw [List.getLast?_eq_none_iff, List.filter_eq_nil_iff] at h
    exact h e he (by simp [hs, hp])
  | some d =>
    left
    obtain ⟨b, a, e, h1, h2⟩ := getLast?_filter h
    simp only [Bool.and_eq_true, beq_iff_eq] at h1
    refine ⟨b, d, a, e, h1.1, h1.2, rfl, fun x hx hs hp => ?_⟩
    have := h2 x hx
    simp [hs, hp] at this

theorem available_unique {i : Info} {c : Cap} {l l' : List Addr} (h : Available i c l) (h' : Available i c l') : l = l' := by
  rcases h with ⟨b, d, a, e, h1, h2, h3, h4⟩ | ⟨h1, h2⟩
  · rcases h' with ⟨b', d', a', e', h1', h2', h3', h4'⟩ | ⟨h1', _⟩
    · have : d = d' := by
        rw [e] at e'
        rcases List.append_eq_append_iff.mp e' with ⟨m, em, em'⟩ | ⟨m, em, em'⟩
        · cases m with
          | nil => exact (List.cons.inj em').1
          | cons x m =>
            obtain ⟨rfl, em2⟩ := List.cons.inj em'
            exact absurd h2' (h4 d' (by rw [em2]; exact List.mem_append_right _ List.mem_cons_self) h1')
        · cases m with
          | nil => exact (List.cons.inj em').1.symm
          | cons x m =>
            obtain ⟨rfl, em2⟩ := List.cons.inj em'
            exact absurd h2 (h4' d (by rw [em2]; exact List.mem_append_right _ List.mem_cons_self) h1)
      rw [← h3, ← h3', this]
    · exact absurd h2 (h1' d (by rw [e]; simp) h1)
  · rcases h' with ⟨b', d', a', e', h1', h2', h3', h4'⟩ | ⟨_, h2'⟩
    · exact absurd h2' (h1 d' (by rw [e']; simp) h1')
    · rw [h2, h2']

/-- C236: the connection string is that of an available address, or that of the capability itself if
none fits. -/
theorem C236_from (cfg : Cfg) (i : Info) (c : Cap) {l : List Addr} (hl : Available i c l) :
    (∃ a ∈ l, choose cfg i c = some a.conn) ∨ choose cfg i c = c.conn := by
  have := available_unique (available i c) hl
  unfold choose
  rw [this]
  have hsame : ∀ d a, sameAddr l d = some a → a ∈ l := by
    intro d a h
    unfold sameAddr at h
    cases d with
    | none => cases h
    | some d => exact List.mem_of_find?_eq_some h
  cases h : findAddr cfg.primary l (deviceAddr i) with
  | none => exact .inr rfl
  | some a =>
    refine .inl ⟨a, ?_, rfl⟩
    unfold findAddr at h
    split at h
    · split at h
      · rename_i b e
        obtain rfl := Option.some.inj h
        split at e
        · exact hsame _ _ e
        · cases e
      · split at h
        · rename_i e
          obtain rfl := Option.some.inj h
          exact List.mem_of_find?_eq_some e
        · exact hsame _ _ h
    · exact hsame _ _ h

theorem findAddr_type {primary : Text} {l : List Addr} {dev : Option Addr}
    (hw : primary = "IPv4".toList ∨ primary = "IPv6".toList) (ht : ∀ d, dev = some d → Typed l d)
    (hx : ∃ a ∈ l, a.type = primary) : ∃ a ∈ l, a.type = primary ∧ findAddr primary l dev = some a := by
  obtain ⟨b, hb, hbt⟩ := hx
  have hf : ∃ a ∈ l, a.type = primary ∧ (l.find? fun a => a.type == primary) = some a := by
    cases e : l.find? fun a => a.type == primary with
    | none =>
      have := List.find?_eq_none.mp e b hb
      simp [hbt] at this
    | some a => exact ⟨a, List.mem_of_find?_eq_some e, by simpa using List.find?_some e, rfl⟩
  obtain ⟨a, ha, hat, hfa⟩ := hf
  unfold findAddr
  rw [if_pos hw, hfa]
  by_cases h : dev.map (·.type) = some primary
  · rw [if_pos h]
    cases e : sameAddr l dev with
    | none => exact ⟨a, ha, hat, rfl⟩
    | some x =>
      cases dev with
      | none => cases h
      | some d =>
        unfold sameAddr at e
        have hin := List.mem_of_find?_eq_some e
        refine ⟨x, hin, ?_, rfl⟩
        rw [ht d rfl x hin (by simpa using List.find?_some e)]
        exact Option.some.inj h
  · rw [if_neg h]
    exact ⟨a, ha, hat, rfl⟩

/-- C236: if there is an address of the wanted type, one of that type is used. -/
theorem C236_type (cfg : Cfg) (i : Info) (c : Cap) {l : List Addr} (hl : Available i c l)
    (hw : cfg.primary = "IPv4".toList ∨ cfg.primary = "IPv6".toList) (ht : ∀ d, deviceAddr i = some d → Typed l d)
    (hx : ∃ a ∈ l, a.type = cfg.primary) :
    ∃ a ∈ l, a.type = cfg.primary ∧ choose cfg i c = some a.conn := by
  have := available_unique (available i c) hl
  unfold choose
  rw [this]
  obtain ⟨a, ha, hat, e⟩ := findAddr_type hw ht hx
  rw [e]
  exact ⟨a, ha, hat, rfl⟩

/-- C236: the address of the device connection is used again, if it can be and is of the wanted type or
no type is wanted or none of that type is there. -/
theorem C236_same (cfg : Cfg) (i : Info) (c : Cap) {l : List Addr} (hl : Available i c l) {d : Addr}
    (hd : deviceAddr i = some d) (hin : ∃ a ∈ l, a.addr = d.addr)
    (hw : (cfg.primary = "IPv4".toList ∨ cfg.primary = "IPv6".toList) →
      d.type = cfg.primary ∨ ∀ a ∈ l, a.type ≠ cfg.primary) :
    ∃ a ∈ l, a.addr = d.addr ∧ choose cfg i c = some a.conn := by
  have := available_unique (available i c) hl
  unfold choose
  rw [this, hd]
  obtain ⟨b, hb, hbd⟩ := hin
  have hs : ∃ a ∈ l, a.addr = d.addr ∧ sameAddr l (some d) = some a := by
    unfold sameAddr
    cases e : l.find? fun a => a.addr == d.addr with
    | none =>
      have := List.find?_eq_none.mp e b hb
      simp [hbd] at this
    | some a => exact ⟨a, List.mem_of_find?_eq_some e, by simpa using List.find?_some e, e⟩
  obtain ⟨a, ha, hda, hsame⟩ := hs
  have : findAddr cfg.primary l (some d) = some a := by
    unfold findAddr
    by_cases hp : cfg.primary = "IPv4".toList ∨ cfg.primary = "IPv6".toList
    · rw [if_pos hp]
      rcases hw hp with h | h
      · rw [if_pos (by rw [← h]; rfl), hsame]
      · by_cases h' : (some d).map (·.type) = some cfg.primary
        · rw [if_pos h', hsame]
        · rw [if_neg h']
          have : (l.find? fun a => a.type == cfg.primary) = none := by
            rw [List.find?_eq_none]
            intro x hx
            simpa using h x hx
          rw [this]; exact hsame
    · rw [if_neg hp]; exact hsame
  rw [this]
  exact ⟨a, ha, hda, rfl⟩

/-- C236: the address of the device connection is the one with the connection string that the device was
connected with. -/
theorem C236_device {i : Info} {d : Addr} (h : deviceAddr i = some d) :
    ∃ c l, i.config = some (c, l) ∧ d ∈ l ∧
      ((∃ s, i.conn = some s ∧ s ≠ [] ∧ d.conn = s) ∨ ((i.conn = none ∨ i.conn = some []) ∧ d.conn = c)) := by
  unfold deviceAddr at h
  cases hc : i.config with
  | none => rw [hc] at h; cases h
  | some x =>
    obtain ⟨c, l⟩ := x
    rw [hc] at h
    dsimp only at h
    have h1 := List.mem_of_find?_eq_some h
    have h2 := List.find?_some h
    refine ⟨c, l, rfl, h1, ?_⟩
    cases hi : i.conn with
    | none => rw [hi] at h2; exact .inr ⟨.inl rfl, by simpa using h2⟩
    | some s =>
      rw [hi] at h2
      dsimp only at h2
      by_cases he : s = []
      · rw [if_pos he] at h2; exact .inr ⟨.inr (by rw [he]), by simpa using h2⟩
      · rw [if_neg he] at h2; exact .inl ⟨s, rfl, he, by simpa using h2⟩

/-- A device connected over its second address. -/
def demoInfo2 (found : List Cap) : Info :=
  ⟨[demoCap "Q" "" "q://0" []], found, some (tx "d://1.2"),
    some (tx "d://0", [demoAddr "1.1" "IPv4" "d://1.1" .unknown, demoAddr "1.2" "IPv4" "d://1.2" .unknown])⟩

example : choose demoCfg (demoInfo2 [demoCap "Q" "" "" [demoAddr "[1]" "IPv6" "q://[1]" .unknown,
      demoAddr "1.1" "IPv4" "q://1.1" .unknown, demoAddr "1.2" "IPv4" "q://1.2" .unknown]])
      (demoCap "Q" "" "q://0" []) = some (tx "q://1.2") ∧
    choose demoCfg (demoInfo2 []) (demoCap "Q" "" "q://0" []) = some (tx "q://0") := by
  decide +kernel

/-! ## C237 -/

/-- C237, violated: an address that is known not to answer is used, although one of the same type
answers. -/
theorem C237_violation :
    choose demoCfg ⟨[], [], none, none⟩ (demoCap "Q" "" "q://0" [demoAddr "1.1" "IPv4" "q://1.1" .unreachable,
      demoAddr "1.2" "IPv4" "q://1.2" .reachable]) = some (tx "q://1.1") := by
  decide +kernel

/-- C237: the address used answers, if the first of the wanted type does and the device is not connected
over another one.  Missing: lists in which an address that does not answer comes first. -/
theorem C237_first_partial (cfg : Cfg) (i : Info) (c : Cap) {l : List Addr} (hl : Available i c l)
    (hw : cfg.primary = "IPv4".toList ∨ cfg.primary = "IPv6".toList)
    (hd : ∀ d, deviceAddr i = some d → ∀ a ∈ l, a.addr ≠ d.addr)
    {before after : List Addr} {a : Addr} (e : l = before ++ a :: after) (ha : a.type = cfg.primary)
    (hb : ∀ b ∈ before, b.type ≠ cfg.primary) (hr : a.reach ≠ .unreachable) :
    ∃ b ∈ l, choose cfg i c = some b.conn ∧ b.type = cfg.primary ∧ b.reach ≠ .unreachable := by
  refine ⟨a, by rw [e]; exact List.mem_append_right _ List.mem_cons_self, ?_, ha, hr⟩
  have := available_unique (available i c) hl
  unfold choose
  rw [this]
  have hs : sameAddr l (deviceAddr i) = none := by
    unfold sameAddr
    cases h : deviceAddr i with
    | none => rfl
    | some d =>
      dsimp only
      rw [List.find?_eq_none]
      intro x hx
      simpa using hd d h x hx
  have hf : (l.find? fun x => x.type == cfg.primary) = some a := by
    rw [e, List.find?_append, List.find?_eq_none.mpr (fun x hx => by simpa using hb x hx)]
    simp [ha]
  unfold findAddr
  rw [if_pos hw, hs]
  have : (if (deviceAddr i).map (·.type) = some cfg.primary then (none : Option Addr) else none) = none := by
    split <;> rfl
  rw [this, hf]

end Verif.Sources
