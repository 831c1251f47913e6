import Verif.Sources.Tree
import Verif.Sources.PropsAttach
/-!
# What is streamed (C238–C240)
-/
namespace Verif.Sources
open Spec

theorem served_congr {cfg : Cfg} {owner : Path} {t t' : Tree} (h : ∀ q l, Has t' q l ↔ Has t q l) {x : Path}
    {ok : Strm → Bool} {old new : List Text} {act act' : Option Text}
    (hs : Served cfg owner t x ok old act new act') : Served cfg owner t' x ok old act new act' := by
  have hw : ∀ s, Wanted cfg owner t' x s ↔ Wanted cfg owner t x s := by
    intro s
    constructor
    · rintro ⟨q, l, h1, h2⟩; exact ⟨q, l, (h q l).mp h1, h2⟩
    · rintro ⟨q, l, h1, h2⟩; exact ⟨q, l, (h q l).mpr h1, h2⟩
  have hp : ∀ c, Preferred cfg owner t' x ok c ↔ Preferred cfg owner t x ok c := by
    intro c
    constructor
    · rintro ⟨q, l, s, r, h1, h2, h3, h4, h5⟩
      exact ⟨q, l, s, r, (h q l).mp h1, h2, h3, h4, fun q' l' h' => h5 q' l' ((h q' l').mpr h')⟩
    · rintro ⟨q, l, s, r, h1, h2, h3, h4, h5⟩
      exact ⟨q, l, s, r, (h q l).mpr h1, h2, h3, h4, fun q' l' h' => h5 q' l' ((h q' l').mp h')⟩
  refine ⟨fun c => ?_, hs.kept, fun e c => ?_⟩
  · rw [hs.all c]
    constructor
    · rintro (h | ⟨s, h1, h2⟩)
      · exact .inl h
      · exact .inr ⟨s, (hw s).mpr h1, h2⟩
    · rintro (h | ⟨s, h1, h2⟩)
      · exact .inl h
      · exact .inr ⟨s, (hw s).mp h1, h2⟩
  · rw [hs.chosen e c, hp c]

theorem after_touch {cfg : Cfg} {owner : Path} {t : Tree} (ho : Ordered t) {F : Node → Node} (hF : Keeps F)
    {n : Node} (hn : n ∈ t) {q0 : Path} (h0 : q0 <+: n.path)
    (hnear : cfg.minHops = true → ∀ q, isDevice t q = true → owner <+: q → q <+: n.path → q <+: q0)
    (hFn : F n = touch cfg owner t n q0) : After cfg owner (t.map F) n := by
  have hin : touch cfg owner t n q0 ∈ t.map F := List.mem_map.mpr ⟨n, hn, hFn⟩
  unfold touch at hin
  rw [if_pos (List.isPrefixOf_iff_prefix.mpr h0)] at hin
  have hh := fun q l => has_map hF t q l
  obtain ⟨x, k⟩ := n
  unfold After
  cases k with
  | device i l => trivial
  | folder => exact hin
  | signal pub d old act =>
    cases pub with
    | false => exact hin
    | true =>
      refine ⟨_, _, hin, ?_⟩
      have := served_congr hh (served ho h0 hnear (fun _ => true) old act)
      rwa [List.filter_eq_self.mpr (fun _ _ => rfl)] at this
  | port old act => exact ⟨_, _, hin, served_congr hh (served ho h0 hnear (fun s => s.toDevice) old act)⟩

theorem complete_eq (cfg : Cfg) (make : Text → Option Strm) (t : Tree) (p : Path) :
    ∃ G : Node → Node, complete cfg make t p = t.map G ∧ (∀ n, (G n).path = n.path) ∧
      (∀ n, (G n).kind.isDevice = n.kind.isDevice) ∧ (∀ n, n.kind.isDevice = false → G n = n) := by
  refine ⟨_, rfl, ?_, ?_, ?_⟩
  · intro n; split <;> rfl
  · intro n
    split
    · cases h : n.kind <;> rfl
    · rfl
  · intro n hn
    split
    · obtain ⟨x, k⟩ := n
      cases k with
      | device i l => cases hn
      | _ => rfl
    · rfl

theorem ordered_map {t : Tree} (h : Ordered t) {G : Node → Node} (hG : ∀ n, (G n).path = n.path) : Ordered (t.map G) := by
  unfold Ordered at *
  rw [List.pairwise_map]
  refine h.imp fun hab => ?_
  rw [hG, hG]; exact hab

theorem not_device {n : Node} (h : ∀ i l, n.kind ≠ .device i l) : n.kind.isDevice = false := by
  cases hk : n.kind with
  | device i l => exact absurd hk (h i l)
  | _ => rfl

theorem after_of_device {cfg : Cfg} {owner : Path} {t : Tree} {n : Node} (h : n.kind.isDevice = true) :
    After cfg owner t n := by
  obtain ⟨x, k⟩ := n
  cases k with
  | device i l => trivial
  | folder => cases h
  | signal _ _ _ _ => cases h
  | port _ _ => cases h

/-- The lower devices come first. -/
theorem devicesBelow_order {t : Tree} (h : Ordered t) (p : Path) :
    (devicesBelow t p).Pairwise (fun a b => ¬ a <+: b ∨ a = b) := by
  unfold devicesBelow
  rw [List.pairwise_reverse, List.pairwise_map]
  exact (h.filter _).imp fun hab => .inl hab

theorem mem_devicesBelow {t : Tree} (h : Ordered t) {p q : Path} :
    q ∈ devicesBelow t p ↔ isDevice t q = true ∧ p <+: q := by
  unfold devicesBelow
  rw [List.mem_reverse, List.mem_map]
  constructor
  · rintro ⟨n, hn, rfl⟩
    rw [List.mem_filter, Bool.and_eq_true, List.isPrefixOf_iff_prefix] at hn
    refine ⟨?_, hn.2.2⟩
    unfold isDevice
    rw [look_mem h hn.1]; exact hn.2.1
  · rintro ⟨h1, h2⟩
    obtain ⟨n, hn, hp, i, hk⟩ := sources_has h1
    refine ⟨n, List.mem_filter.mpr ⟨hn, ?_⟩, hp⟩
    rw [hk, hp, Bool.and_eq_true, List.isPrefixOf_iff_prefix]
    exact ⟨rfl, h2⟩

theorem isDevice_of_mem {t : Tree} (h : Ordered t) {n : Node} (hn : n ∈ t) : isDevice t n.path = n.kind.isDevice := by
  unfold isDevice
  rw [look_mem h hn]

theorem keeps_none {cfg : Cfg} {owner : Path} {t : Tree} {p : Path} {n : Node} (h : ¬ p <+: n.path) :
    touch cfg owner t n p = n := by
  unfold touch
  rw [if_neg]
  rw [List.isPrefixOf_iff_prefix]; exact h

/-- The first tree of `added`, and what is done to its components. -/
theorem added_eq (cfg : Cfg) (make : Text → Option Strm) {owner p : Path} (hop : owner <+: p) {t : Tree} (ho : Ordered t) :
    ∃ (G F : Node → Node), added cfg make owner t p = (t.map G).map F ∧ Ordered (t.map G) ∧ Keeps F ∧
      (∀ n, (G n).path = n.path) ∧ (∀ n, (G n).kind.isDevice = n.kind.isDevice) ∧
      (∀ n, n.kind.isDevice = false → G n = n) ∧
      (if isDevice t p = true ∧ (p = owner ∨ cfg.minHops = true) then t.map G = complete cfg make t p else G = id) ∧
      (if isDevice t p = true ∧ cfg.minHops = true then
        F = fun n => (devicesBelow (t.map G) p).foldl (touch cfg owner (t.map G)) n
       else F = fun n => touch cfg owner (t.map G) n p) := by
  unfold added
  rw [if_neg (by rw [Bool.not_eq_false, List.isPrefixOf_iff_prefix]; exact hop)]
  by_cases hd : isDevice t p = true
  · rw [if_pos hd]
    have h1 : ∃ G : Node → Node, (if p = owner ∨ cfg.minHops = true then complete cfg make t p else t) = t.map G ∧
        (∀ n, (G n).path = n.path) ∧ (∀ n, (G n).kind.isDevice = n.kind.isDevice) ∧
        (∀ n, n.kind.isDevice = false → G n = n) ∧
        (if isDevice t p = true ∧ (p = owner ∨ cfg.minHops = true) then t.map G = complete cfg make t p else G = id) := by
      by_cases hc : p = owner ∨ cfg.minHops = true
      · rw [if_pos hc]
        obtain ⟨G, h1, h2, h3, h4⟩ := complete_eq cfg make t p
        exact ⟨G, h1, h2, h3, h4, by rw [if_pos ⟨hd, hc⟩]; exact h1.symm⟩
      · rw [if_neg hc]
        exact ⟨id, (List.map_id t).symm, fun _ => rfl, fun _ => rfl, fun _ _ => rfl, by rw [if_neg (fun h => hc h.2)]⟩
    obtain ⟨G, h1, h2, h3, h4, h5⟩ := h1
    have ho1 := ordered_map ho h2
    dsimp only
    rw [h1]
    by_cases hm : cfg.minHops = true
    · rw [if_pos hm]
      refine ⟨G, _, enableAll_eq cfg owner (t.map G) _ _ (fun _ => rfl), ho1, keeps_fold cfg owner _ _, h2, h3, h4, h5, ?_⟩
      rw [if_pos ⟨hd, hm⟩]
    · rw [if_neg hm]
      refine ⟨G, _, enable_eq cfg owner _ p, ho1, keeps_touch cfg owner _ p, h2, h3, h4, h5, ?_⟩
      rw [if_neg (fun h => hm h.2)]
  · rw [if_neg hd]
    refine ⟨id, fun n => touch cfg owner (t.map id) n p, ?_, by rwa [List.map_id], keeps_touch cfg owner _ p,
      fun _ => rfl, fun _ => rfl, fun _ _ => rfl, ?_, ?_⟩
    · rw [enable_eq, List.map_id]
    · rw [if_neg (fun h => hd h.1)]
    · rw [if_neg (fun h => hd h.1)]

/-! ## C238 -/

/-- C238: when a component is added, every public signal and every input port at or below it gets all
sources that it should use, the right one is active if none was, and private signals are left alone. -/
theorem C238_added (cfg : Cfg) (make : Text → Option Strm) {owner p : Path} (hop : owner <+: p) {t : Tree}
    (ho : Ordered t) (hp : isDevice t p = true ∨ ∀ q, isDevice t q = true → ¬ p <+: q)
    {n : Node} (hn : n ∈ t) (hnp : p <+: n.path) : After cfg owner (added cfg make owner t p) n := by
  by_cases hdev : n.kind.isDevice = true
  · exact after_of_device hdev
  have hdev : n.kind.isDevice = false := by simpa using hdev
  obtain ⟨G, F, e, ho1, hF, hG1, hG2, hG3, _, hFe⟩ := added_eq cfg make hop ho
  rw [e]
  have hn1 : n ∈ t.map G := List.mem_map.mpr ⟨n, hn, hG3 n hdev⟩
  have hd1 : ∀ q, isDevice (t.map G) q = true ↔ isDevice t q = true := by
    intro q
    have key : ∀ {s : Tree}, Ordered s → ∀ q, isDevice s q = true ↔ ∃ m ∈ s, m.path = q ∧ m.kind.isDevice = true := by
      intro s hs q
      constructor
      · intro h
        obtain ⟨m, hm, hq, i, hk⟩ := sources_has h
        exact ⟨m, hm, hq, by rw [hk]; rfl⟩
      · rintro ⟨m, hm, rfl, hk⟩
        rw [isDevice_of_mem hs hm]; exact hk
    rw [key ho1, key ho]
    constructor
    · rintro ⟨m, hm, hq, hk⟩
      obtain ⟨m', hm', rfl⟩ := List.mem_map.mp hm
      exact ⟨m', hm', (hG1 m').symm.trans hq, (hG2 m').symm.trans hk⟩
    · rintro ⟨m, hm, hq, hk⟩
      exact ⟨G m, List.mem_map.mpr ⟨m, hm, rfl⟩, (hG1 m).trans hq, (hG2 m).trans hk⟩
  by_cases hc : isDevice t p = true ∧ cfg.minHops = true
  · rw [if_pos hc] at hFe
    have hmem := fun q => mem_devicesBelow ho1 (p := p) (q := q)
    obtain ⟨q0, h1, h2, h3, h4⟩ := fold_first cfg owner (t.map G) n (devicesBelow (t.map G) p)
      (devicesBelow_order ho1 p) ⟨p, (hmem p).mpr ⟨(hd1 p).mpr hc.1, List.prefix_refl _⟩, hnp⟩
    refine after_touch ho1 hF hn1 h2 ?_ (by rw [hFe]; exact h4)
    intro _ q hq hoq hqn
    rcases List.prefix_or_prefix_of_prefix hnp hqn with h | h
    · exact h3 q ((hmem q).mpr ⟨hq, h⟩) hqn
    · exact h.trans ((hmem q0).mp h1).2
  · rw [if_neg hc] at hFe
    refine after_touch ho1 hF hn1 hnp ?_ (by rw [hFe])
    intro hm q hq hoq hqn
    rcases hp with hp | hp
    · exact absurd ⟨hp, hm⟩ hc
    · rcases List.prefix_or_prefix_of_prefix hnp hqn with h | h
      · exact absurd h (hp q ((hd1 q).mp hq))
      · exact h

/-- C238: nothing else changes: components elsewhere stay as they are, and if the new component is not
below the owner, all do. -/
theorem C238_elsewhere (cfg : Cfg) (make : Text → Option Strm) (owner : Path) {t : Tree} (ho : Ordered t) {p : Path}
    {n : Node} (hn : n ∈ t) (hnp : ¬ p <+: n.path ∨ ¬ owner <+: p) : n ∈ added cfg make owner t p := by
  by_cases hop : owner <+: p
  · have hnp := hnp.resolve_right (fun h => h hop)
    obtain ⟨G, F, e, ho1, hF, hG1, hG2, hG3, hGe, hFe⟩ := added_eq cfg make hop ho
    have hG : G n = n := by
      split at hGe
      · have h0 : G n ∈ complete cfg make t p := by rw [← hGe]; exact List.mem_map.mpr ⟨n, hn, rfl⟩
        have h1 : n ∈ complete cfg make t p := by
          unfold complete
          refine List.mem_map.mpr ⟨n, hn, ?_⟩
          rw [if_neg]
          rintro (h | ⟨_, h⟩)
          · exact hnp (by rw [h]; exact List.prefix_refl _)
          · rw [List.isPrefixOf_iff_prefix] at h; exact hnp h
        rw [← hGe] at h1
        exact ordered_unique ho1 (List.mem_map.mpr ⟨n, hn, rfl⟩) h1 (hG1 n)
      · rw [hGe]; rfl
    rw [e, List.mem_map]
    refine ⟨n, List.mem_map.mpr ⟨n, hn, hG⟩, ?_⟩
    split at hFe
    · rw [hFe]
      refine fold_skip cfg owner _ _ n fun q hq hqn => ?_
      exact hnp (((mem_devicesBelow ho1).mp hq).2.trans hqn)
    · rw [hFe]; exact keeps_none hnp
  · unfold added
    rw [if_pos]
    · exact hn
    · cases h : owner.isPrefixOf p with
      | false => rfl
      | true => rw [List.isPrefixOf_iff_prefix] at h; exact absurd h hop

/-- C238: which devices get connections: the owner when it is added itself, and with MinHops all added
devices. -/
theorem C238_devices (cfg : Cfg) (make : Text → Option Strm) {owner p : Path} (hop : owner <+: p) {t : Tree}
    (ho : Ordered t) {q : Path} {i : Info} {l : List Strm} (hq : ⟨q, .device i l⟩ ∈ t) (hp : isDevice t p = true) :
    (((q = p ∧ p = owner) ∨ (cfg.minHops = true ∧ p <+: q)) →
      ⟨q, .device i (attach cfg make i l).1⟩ ∈ added cfg make owner t p) ∧
    (¬ ((q = p ∧ p = owner) ∨ (cfg.minHops = true ∧ p <+: q)) → ⟨q, .device i l⟩ ∈ added cfg make owner t p) := by
  obtain ⟨G, F, e, ho1, hF, hG1, hG2, hG3, hGe, hFe⟩ := added_eq cfg make hop ho
  have hFd : ∀ m : Node, m.kind.isDevice = true → F m = m := by
    intro m hm
    cases hk : m.kind with
    | device i' l' =>
      have h1 := hF.path m
      have h2 := (hF.sources m i' l').mpr hk
      cases hfm : F m with
      | mk x k =>
        cases m with
        | mk y k' =>
          rw [hfm] at h1 h2
          change x = y at h1
          change k = _ at h2
          change k' = _ at hk
          rw [h1, h2, hk]
    | folder => rw [hk] at hm; cases hm
    | signal _ _ _ _ => rw [hk] at hm; cases hm
    | port _ _ => rw [hk] at hm; cases hm
  have hin : ∀ m : Node, m ∈ t.map G → m.kind.isDevice = true → m ∈ added cfg make owner t p := by
    intro m hm hd
    rw [e, List.mem_map]
    exact ⟨m, hm, hFd m hd⟩
  constructor
  · intro h
    have hc : isDevice t p = true ∧ (p = owner ∨ cfg.minHops = true) :=
      ⟨hp, h.imp (·.2) (·.1)⟩
    rw [if_pos hc] at hGe
    refine hin _ ?_ rfl
    rw [hGe]
    unfold complete
    refine List.mem_map.mpr ⟨_, hq, ?_⟩
    rw [if_pos]
    · rfl
    · rcases h with h | h
      · exact .inl h.1
      · exact .inr ⟨h.1, List.isPrefixOf_iff_prefix.mpr h.2⟩
  · intro h
    refine hin _ ?_ rfl
    split at hGe
    · rename_i hc
      rw [hGe]
      unfold complete
      refine List.mem_map.mpr ⟨_, hq, ?_⟩
      rw [if_neg]
      rintro (h' | ⟨h1, h2⟩)
      · refine h ?_
        rcases hc.2 with h3 | h3
        · exact .inl ⟨h', h3⟩
        · exact .inr ⟨h3, by rw [← h']; exact List.prefix_refl _⟩
      · exact h (.inr ⟨h1, List.isPrefixOf_iff_prefix.mp h2⟩)
    · rw [hGe, List.map_id]; exact hq

def demoStrm (c : String) (b : Bool) : Strm := ⟨tx c, [], b⟩

/-- A device with a sub-device, with signals and a port. -/
def demoTree : Tree :=
  [⟨[], .device demoInfo []⟩, ⟨[1], .device ⟨[demoCap "Q" "" "q://5" []], [], none, none⟩ []⟩,
   ⟨[1, 2], .folder⟩, ⟨[1, 2, 3], .signal true true [] none⟩, ⟨[1, 2, 4], .signal false false [] none⟩,
   ⟨[5], .signal true false [] none⟩, ⟨[6], .port [] none⟩]

example : look (added { demoCfg with minHops := true } demoMake [] demoTree []) [1, 2, 3] =
    some (.signal true true [tx "q://5", tx "g1://0", tx "q://1.1", tx "r://0"] (some (tx "q://5"))) ∧
  look (added demoCfg demoMake [] demoTree []) [1, 2, 3] =
    some (.signal true true [tx "g1://0", tx "q://1.1", tx "r://0"] (some (tx "g1://0"))) ∧
  look (added demoCfg demoMake [] demoTree []) [6] = some (.port [tx "g1://0"] (some (tx "g1://0"))) ∧
  look (added demoCfg demoMake [] demoTree []) [1, 2, 4] = some (.signal false false [] none) := by decide +kernel

instance (t : Tree) : Decidable (Ordered t) := by unfold Ordered; infer_instance

example : Ordered demoTree := by decide +kernel

/-! ## C239 -/

theorem mem_newSignals {t : Tree} {p q : Path} {b : Bool} :
    q ∈ newSignals b t p ↔ p <+: q ∧ ∃ n ∈ t, n.path = q ∧ ∃ pub act, n.kind = .signal pub b [] act := by
  unfold newSignals
  rw [List.mem_map]
  constructor
  · rintro ⟨n, hn, rfl⟩
    rw [List.mem_filter, Bool.and_eq_true, List.isPrefixOf_iff_prefix] at hn
    refine ⟨hn.2.1, n, hn.1, rfl, ?_⟩
    have h := hn.2.2
    obtain ⟨x, k⟩ := n
    cases k with
    | signal pub d src act =>
      cases src with
      | nil => exact ⟨pub, act, by simpa using h⟩
      | cons _ _ => cases h
    | device _ _ => cases h
    | folder => cases h
    | port _ _ => cases h
  · rintro ⟨h1, n, hn, rfl, pub, act, hk⟩
    refine ⟨n, List.mem_filter.mpr ⟨hn, ?_⟩, rfl⟩
    rw [hk, Bool.and_eq_true, List.isPrefixOf_iff_prefix]
    exact ⟨h1, by simp⟩

theorem enableUpdated_spec {cfg : Cfg} {owner p : Path} {t : Tree} (ho : Ordered t) (hl : Leaves t)
    {n : Node} (hn : n ∈ t) (hdev : n.kind.isDevice = false) (hp : ∃ k, look t p = some k) :
    ((∃ pub d act, n.kind = .signal pub d [] act) → p <+: n.path → After cfg owner (enableUpdated cfg owner t p) n) ∧
    ((¬ (∃ pub d act, n.kind = .signal pub d [] act) ∨ ¬ p <+: n.path) → n ∈ enableUpdated cfg owner t p) := by
  have leaf : ∀ {m : Node}, m ∈ t → (∃ a b c d, m.kind = .signal a b c d) → ∀ {x : Node}, x ∈ t → m.path <+: x.path → x = m := by
    rintro m hm ⟨a, b, c, d, hk⟩ x hx h
    exact hl m hm x hx h (by rw [hk]; exact fun _ _ h => nomatch h) (by rw [hk]; exact fun h => nomatch h)
  obtain ⟨k, hk⟩ := hp
  obtain ⟨m, hm, hmp, hmk⟩ := look_some hk
  have hfolder : enableUpdated cfg owner t p = enableAll cfg owner t (newSignals false t p ++ newSignals true t p) →
      ((∃ pub d act, n.kind = .signal pub d [] act) → p <+: n.path → After cfg owner (enableUpdated cfg owner t p) n) ∧
      ((¬ (∃ pub d act, n.kind = .signal pub d [] act) ∨ ¬ p <+: n.path) → n ∈ enableUpdated cfg owner t p) := by
    intro e
    rw [e, enableAll_eq cfg owner t _ t (fun _ => rfl)]
    have hL : ∀ q ∈ newSignals false t p ++ newSignals true t p,
        p <+: q ∧ ∃ m ∈ t, m.path = q ∧ ∃ pub b act, m.kind = .signal pub b [] act := by
      intro q hq
      rcases List.mem_append.mp hq with hq | hq
      · obtain ⟨h1, m, h2, h3, pub, act, h4⟩ := mem_newSignals.mp hq
        exact ⟨h1, m, h2, h3, pub, _, act, h4⟩
      · obtain ⟨h1, m, h2, h3, pub, act, h4⟩ := mem_newSignals.mp hq
        exact ⟨h1, m, h2, h3, pub, _, act, h4⟩
    have hrel : ∀ q ∈ newSignals false t p ++ newSignals true t p, q <+: n.path → q = n.path ∧ p <+: n.path ∧
        ∃ pub b act, n.kind = .signal pub b [] act := by
      intro q hq hqn
      obtain ⟨h1, m, h2, rfl, pub, b, act, h4⟩ := hL q hq
      have := leaf h2 ⟨pub, b, [], act, h4⟩ hn hqn
      subst this
      exact ⟨rfl, h1, pub, b, act, h4⟩
    constructor
    · rintro ⟨pub, d, act, hsig⟩ hpn
      have hin : n.path ∈ newSignals false t p ++ newSignals true t p := by
        cases d with
        | false => exact List.mem_append_left _ (mem_newSignals.mpr ⟨hpn, n, hn, rfl, pub, act, hsig⟩)
        | true => exact List.mem_append_right _ (mem_newSignals.mpr ⟨hpn, n, hn, rfl, pub, act, hsig⟩)
      have hf : ∀ L : List Path, (∀ q ∈ L, q <+: n.path → q = n.path) → n.path ∈ L →
          L.foldl (touch cfg owner t) n = touch cfg owner t n n.path := by
        intro L
        induction L with
        | nil => intro _ h; cases h
        | cons q L ih =>
          intro h hm
          by_cases hq : q <+: n.path
          · have := h q List.mem_cons_self hq
            subst this
            rw [List.foldl_cons]
            refine fold_same cfg owner t n n.path (List.prefix_refl _) L fun q' hq' h' => h'
          · rw [List.foldl_cons, keeps_none hq]
            refine ih (fun q' hq' => h q' (List.mem_cons_of_mem _ hq')) ?_
            rcases List.mem_cons.mp hm with e | hm
            · exact absurd (by rw [e]; exact List.prefix_refl _) hq
            · exact hm
      refine after_touch ho (keeps_fold cfg owner t _) hn (List.prefix_refl _) (fun _ q _ _ h => h)
        (hf _ (fun q hq h => (hrel q hq h).1) hin)
    · intro h
      refine List.mem_map.mpr ⟨n, hn, fold_skip cfg owner t _ n fun q hq hqn => ?_⟩
      obtain ⟨_, h1, pub, b, act, h2⟩ := hrel q hq hqn
      rcases h with h | h
      · exact h ⟨pub, b, act, h2⟩
      · exact h h1
  cases k with
  | device i l => exact hfolder (by unfold enableUpdated; rw [hk])
  | folder => exact hfolder (by unfold enableUpdated; rw [hk])
  | port src act =>
    have e : enableUpdated cfg owner t p = t := by unfold enableUpdated; rw [hk]
    rw [e]
    refine ⟨fun hs hpn => ?_, fun _ => hn⟩
    have := hl m hm n hn (by rw [hmp]; exact hpn) (by rw [hmk]; exact fun _ _ h => nomatch h)
      (by rw [hmk]; exact fun h => nomatch h)
    obtain ⟨pub, d, act, hsig⟩ := hs
    rw [this, hmk] at hsig; cases hsig
  | signal pub d src act =>
    have hleaf := fun h => leaf hm ⟨pub, d, src, act, hmk⟩ hn h
    rw [hmp] at hleaf
    by_cases hs : src = []
    · have e : enableUpdated cfg owner t p = enable cfg owner t p := by
        unfold enableUpdated; rw [hk]; dsimp only; rw [if_pos hs]
      rw [e, enable_eq]
      constructor
      · intro _ hpn
        have := hleaf hpn
        refine after_touch ho (keeps_touch cfg owner t p) hn hpn (fun _ q _ _ h => ?_) rfl
        rw [this, hmp] at h; exact h
      · intro h
        refine List.mem_map.mpr ⟨n, hn, keeps_none fun hpn => ?_⟩
        rcases h with h | h
        · exact h ⟨pub, d, act, by rw [hleaf hpn, hmk, hs]⟩
        · exact h hpn
    · have e : enableUpdated cfg owner t p = t := by
        unfold enableUpdated; rw [hk]; dsimp only; rw [if_neg hs]
      rw [e]
      refine ⟨fun hsig hpn => ?_, fun _ => hn⟩
      obtain ⟨pub', d', act', hsig⟩ := hsig
      rw [hleaf hpn, hmk] at hsig
      obtain ⟨_, _, h, _⟩ := Kind.signal.inj hsig
      exact absurd h hs

theorem leaves_map {t : Tree} (hl : Leaves t) {G : Node → Node} (h1 : ∀ n, (G n).path = n.path)
    (h2 : ∀ n, (G n).kind.isDevice = n.kind.isDevice) (h3 : ∀ n, n.kind.isDevice = false → G n = n) :
    Leaves (t.map G) := by
  intro n hn m hm hp hd hf
  obtain ⟨n', hn', rfl⟩ := List.mem_map.mp hn
  obtain ⟨m', hm', rfl⟩ := List.mem_map.mp hm
  have hd' : n'.kind.isDevice = false := by
    rw [← h2]; exact not_device hd
  rw [h3 n' hd'] at hd hf
  rw [h1, h1] at hp
  rw [hl n' hn' m' hm' hp hd hf]

/-- C239: when the owner, something above it, or something below it is updated, every public signal in
there that has no sources gets all that it should use, the right one active; everything else stays as it
is, but for the devices. -/
theorem C239_updated (cfg : Cfg) (make : Text → Option Strm) {owner p : Path} {t t' : Tree} (ho : Ordered t)
    (hl : Leaves t) (h : updated cfg make owner t p = some t') {i : Info} {src : List Strm}
    (hown : ⟨owner, .device i src⟩ ∈ t) (hp : p <+: owner ∨ ∃ m ∈ t, m.path = p ∧ owner <+: p) {n : Node} (hn : n ∈ t) :
    ((∃ d act, n.kind = .signal true d [] act) → p <+: n.path → owner <+: n.path → After cfg owner t' n) ∧
    (n.kind.isDevice = false →
      (¬ (∃ d act, n.kind = .signal true d [] act) ∨ ¬ p <+: n.path ∨ ¬ owner <+: n.path) → n ∈ t') := by
  have key : ∀ (s : Tree) (q : Path), Ordered s → Leaves s → n ∈ s → n.kind.isDevice = false →
      (∃ k, look s q = some k) →
      ((∃ d act, n.kind = .signal true d [] act) → q <+: n.path → After cfg owner (enableUpdated cfg owner s q) n) ∧
      ((¬ (∃ d act, n.kind = .signal true d [] act) ∨ ¬ q <+: n.path) → n ∈ enableUpdated cfg owner s q) := by
    intro s q hs1 hs2 hns hdev hlook
    obtain ⟨h1, h2⟩ := enableUpdated_spec (cfg := cfg) (owner := owner) hs1 hs2 hns hdev hlook
    refine ⟨fun ⟨d, act, e⟩ hq => h1 ⟨true, d, act, e⟩ hq, fun hh => ?_⟩
    by_cases hx : (∃ pub d act, n.kind = .signal pub d [] act) ∧ q <+: n.path
    · obtain ⟨⟨pub, d, act, e⟩, hq⟩ := hx
      cases pub with
      | true =>
        rcases hh with hh | hh
        · exact absurd ⟨d, act, e⟩ hh
        · exact absurd hq hh
      | false =>
        have := h1 ⟨false, d, act, e⟩ hq
        unfold After at this
        rw [e] at this
        exact this
    · refine h2 ?_
      by_cases h3 : ∃ pub d act, n.kind = .signal pub d [] act
      · exact .inr fun h4 => hx ⟨h3, h4⟩
      · exact .inl h3
  have hnd : (∃ d act, n.kind = .signal true d [] act) → n.kind.isDevice = false := by
    rintro ⟨d, act, e⟩; rw [e]; rfl
  unfold updated at h
  by_cases hpo : p <+: owner
  · rw [if_pos (List.isPrefixOf_iff_prefix.mpr hpo)] at h
    obtain rfl := Option.some.inj h
    obtain ⟨G, e, h1, h2, h3⟩ := complete_eq cfg make t owner
    rw [e]
    have hlook : ∃ k, look (t.map G) owner = some k := by
      refine ⟨(G ⟨owner, .device i src⟩).kind, ?_⟩
      have := look_mem (ordered_map ho h1) (List.mem_map.mpr ⟨_, hown, rfl⟩)
      rwa [h1] at this
    have hk := fun hdev => key (t.map G) owner (ordered_map ho h1) (leaves_map hl h1 h2 h3)
      (List.mem_map.mpr ⟨n, hn, h3 n hdev⟩) hdev hlook
    refine ⟨fun hs _ hon => (hk (hnd hs)).1 hs hon, fun hdev hh => (hk hdev).2 ?_⟩
    rcases hh with hh | hh | hh
    · exact .inl hh
    · exact .inr fun hon => hh (hpo.trans hon)
    · exact .inr hh
  · rw [if_neg (by rw [List.isPrefixOf_iff_prefix]; exact hpo)] at h
    obtain ⟨m, hm, hmp, hop⟩ := hp.resolve_left hpo
    rw [if_pos (List.isPrefixOf_iff_prefix.mpr hop)] at h
    split at h
    · cases h
    · obtain rfl := Option.some.inj h
      have hlook : ∃ k, look t p = some k := ⟨m.kind, by rw [← hmp]; exact look_mem ho hm⟩
      have hk := fun hdev => key t p ho hl hn hdev hlook
      refine ⟨fun hs hpn _ => (hk (hnd hs)).1 hs hpn, fun hdev hh => (hk hdev).2 ?_⟩
      rcases hh with hh | hh | hh
      · exact .inl hh
      · exact .inr hh
      · exact .inr fun hpn => hh (hop.trans hpn)

/-- C239: an update elsewhere changes nothing. -/
theorem C239_elsewhere (cfg : Cfg) (make : Text → Option Strm) {owner p : Path} (t : Tree) (h1 : ¬ p <+: owner)
    (h2 : ¬ owner <+: p) : updated cfg make owner t p = some t := by
  unfold updated
  rw [if_neg (by rw [List.isPrefixOf_iff_prefix]; exact h1), if_neg (by rw [List.isPrefixOf_iff_prefix]; exact h2)]

/-- C239: after an update of the owner or of something above it, the owner has the connections that can
be made, with MinHops all devices below it too. -/
theorem C239_devices (cfg : Cfg) (make : Text → Option Strm) {owner p : Path} {t t' : Tree}
    (h : updated cfg make owner t p = some t') (hp : p <+: owner) (ho : Ordered t) {q : Path} {i : Info} {l : List Strm}
    (hq : ⟨q, .device i l⟩ ∈ t) :
    ⟨q, .device i (if q = owner ∨ (cfg.minHops = true ∧ owner <+: q) then (attach cfg make i l).1 else l)⟩ ∈ t' := by
  unfold updated at h
  rw [if_pos (List.isPrefixOf_iff_prefix.mpr hp)] at h
  obtain rfl := Option.some.inj h
  have hin : ⟨q, .device i (if q = owner ∨ (cfg.minHops = true ∧ owner <+: q) then (attach cfg make i l).1 else l)⟩ ∈
      complete cfg make t owner := by
    unfold complete
    refine List.mem_map.mpr ⟨_, hq, ?_⟩
    by_cases hc : q = owner ∨ (cfg.minHops = true ∧ owner <+: q)
    · rw [if_pos hc, if_pos (hc.imp id fun h => ⟨h.1, List.isPrefixOf_iff_prefix.mpr h.2⟩)]; rfl
    · rw [if_neg hc, if_neg fun h' => hc (h'.imp id fun h => ⟨h.1, List.isPrefixOf_iff_prefix.mp h.2⟩)]
  have hkeep : ∀ (s : Tree) (x : Path), ∃ F, Keeps F ∧ enableUpdated cfg owner s x = s.map F := by
    intro s x
    have hid : Keeps (fun n : Node => n) := ⟨fun _ => rfl, fun _ => rfl, fun _ _ _ => Iff.rfl⟩
    have hsame : ∃ F, Keeps F ∧ s = s.map F := ⟨_, hid, (List.map_id s).symm⟩
    unfold enableUpdated
    split
    · split
      · exact ⟨_, keeps_touch cfg owner s x, enable_eq ..⟩
      · exact hsame
    · exact hsame
    · exact hsame
    · exact ⟨_, keeps_fold cfg owner s _, enableAll_eq cfg owner s _ s (fun _ => rfl)⟩
  obtain ⟨F, hF, e⟩ := hkeep (complete cfg make t owner) owner
  rw [e]
  refine List.mem_map.mpr ⟨_, hin, ?_⟩
  have h1 := hF.path ⟨q, .device i (if q = owner ∨ (cfg.minHops = true ∧ owner <+: q) then (attach cfg make i l).1 else l)⟩
  have h2 := (hF.sources ⟨q, .device i (if q = owner ∨ (cfg.minHops = true ∧ owner <+: q) then (attach cfg make i l).1 else l)⟩ i _).mpr rfl
  generalize F _ = x at *
  cases x with
  | mk a b =>
    change a = q at h1
    change b = _ at h2
    rw [h1, h2]

/-! ## C240 -/

/-- A device that is connected, with a port and a signal that are streamed. -/
def demoBefore : Tree :=
  [⟨[], .device ⟨[demoCap "Q" "" "g://1" [], demoCap "R" "" "r://1" []], [], none, none⟩ [⟨tx "g://1", tx "G", true⟩]⟩,
   ⟨[1], .device ⟨[demoCap "Q" "" "q://5" []], [], none, none⟩ []⟩,
   ⟨[2], .signal true true [tx "g://1"] (some (tx "g://1"))⟩, ⟨[3], .port [] none⟩]

/-- C240, violated: a new input port gets no sources when the device is updated, though it does when it
is added. -/
theorem C240_violation_port :
    (updated demoCfg demoMake [] demoBefore []).map (look · [3]) = some (some (.port [] none)) ∧
    look (added demoCfg demoMake [] demoBefore [3]) [3] = some (.port [tx "g://1"] (some (tx "g://1"))) := by
  decide +kernel

/-- C240, violated: a signal that has a source does not get the connection that the update brings. -/
theorem C240_violation_old :
    (updated demoCfg demoMake [] demoBefore []).map (fun t => ((sourcesOf t []).map (·.conn), look t [2])) =
      some ([tx "g://1", tx "r://1"], some (.signal true true [tx "g://1"] (some (tx "g://1")))) := by
  decide +kernel

/-- C240, violated: with MinHops, a nested device gets no connections when it is updated, though it does
when it is added. -/
theorem C240_violation_nested :
    (updated { demoCfg with minHops := true } demoMake [] demoBefore [1]).map (sourcesOf · [1]) = some [] ∧
    (sourcesOf (added { demoCfg with minHops := true } demoMake [] demoBefore [1]) [1]).map (·.conn) = [tx "q://5"] := by
  decide +kernel

/-- C240, violated: with MinHops, an updated signal gives an exception. -/
theorem C240_violation_signal : updated { demoCfg with minHops := true } demoMake [] demoBefore [2] = none := by
  decide +kernel

/-- C240: an update does what adding would do, if there are no ports, all signals are new, and with MinHops
nothing below the owner is updated.  Missing: the rest. -/
theorem C240_all_partial (cfg : Cfg) (make : Text → Option Strm) {owner p : Path} {t : Tree} (ho : Ordered t)
    (hl : Leaves t) {i : Info} {src : List Strm} (hown : ⟨owner, .device i src⟩ ∈ t)
    (hp : p <+: owner ∨ (cfg.minHops = false ∧ ∃ m ∈ t, m.path = p ∧ owner <+: p))
    (hnew : ∀ n ∈ t, owner <+: n.path → n.kind = .folder ∨ n.kind.isDevice = true ∨
      ∃ pub d act, n.kind = .signal pub d [] act) :
    ∃ t', updated cfg make owner t p = some t' ∧
      ∀ n ∈ t, p <+: n.path → owner <+: n.path → After cfg owner t' n := by
  have hx : ∃ t', updated cfg make owner t p = some t' := by
    unfold updated
    by_cases h : p <+: owner
    · rw [if_pos (List.isPrefixOf_iff_prefix.mpr h)]; exact ⟨_, rfl⟩
    · obtain ⟨hm, _⟩ := hp.resolve_left h
      rw [if_neg (by rw [List.isPrefixOf_iff_prefix]; exact h)]
      split
      · rw [if_neg (by rw [hm]; simp)]; exact ⟨_, rfl⟩
      · exact ⟨_, rfl⟩
  obtain ⟨t', e⟩ := hx
  refine ⟨t', e, fun n hn hpn hon => ?_⟩
  obtain ⟨h1, h2⟩ := C239_updated cfg make ho hl e hown (hp.imp id (·.2)) hn
  rcases hnew n hn hon with hk | hk | ⟨pub, d, act, hk⟩
  · have : n ∈ t' := h2 (by rw [hk]; rfl) (.inl (by rintro ⟨_, _, h⟩; rw [hk] at h; cases h))
    unfold After
    rw [hk]; exact this
  · exact after_of_device hk
  · cases pub with
    | true => exact h1 ⟨d, act, hk⟩ hpn hon
    | false =>
      have : n ∈ t' := h2 (by rw [hk]; rfl) (.inl (by rintro ⟨_, _, h⟩; rw [hk] at h; cases h))
      unfold After
      rw [hk]; exact this

example : ∀ n ∈ demoTree.take 6, n.kind = .folder ∨ n.kind.isDevice = true ∨
    ∃ pub d act, n.kind = .signal pub d [] act := by
  intro n hn
  simp only [demoTree, List.take, List.mem_cons, List.not_mem_nil, or_false] at hn
  rcases hn with rfl | rfl | rfl | rfl | rfl | rfl
  · exact .inr (.inl rfl)
  · exact .inr (.inl rfl)
  · exact .inl rfl
  · exact .inr (.inr ⟨_, _, _, rfl⟩)
  · exact .inr (.inr ⟨_, _, _, rfl⟩)
  · exact .inr (.inr ⟨_, _, _, rfl⟩)

end Verif.Sources
