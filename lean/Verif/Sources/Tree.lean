import Verif.Sources.Lemmas
/-!
# Lemmas about trees of components
-/
namespace Verif.Sources
open Spec

/-! ## Adding sources -/

theorem addTo_mem (c : Text) : ∀ (all : List Strm) (l : List Text),
    c ∈ addTo all l ↔ c ∈ l ∨ ∃ s ∈ all, s.conn = c
  | [], l => by simp [addTo]
  | x :: all, l => by
    unfold addTo
    split
    · rename_i h
      rw [addTo_mem c all l]
      constructor
      · rintro (h | ⟨s, hs, e⟩)
        · exact .inl h
        · exact .inr ⟨s, List.mem_cons_of_mem _ hs, e⟩
      · rintro (h | ⟨s, hs, e⟩)
        · exact .inl h
        · rcases List.mem_cons.mp hs with rfl | hs
          · exact .inl (e ▸ h)
          · exact .inr ⟨s, hs, e⟩
    · rw [addTo_mem c all (l ++ [x.conn])]
      constructor
      · rintro (h | ⟨s, hs, e⟩)
        · rcases List.mem_append.mp h with h | h
          · exact .inl h
          · exact .inr ⟨x, List.mem_cons_self, (List.mem_singleton.mp h).symm⟩
        · exact .inr ⟨s, List.mem_cons_of_mem _ hs, e⟩
      · rintro (h | ⟨s, hs, e⟩)
        · exact .inl (List.mem_append_left _ h)
        · rcases List.mem_cons.mp hs with rfl | hs
          · exact .inl (List.mem_append_right _ (by rw [e]; exact List.mem_singleton.mpr rfl))
          · exact .inr ⟨s, hs, e⟩

theorem addTo_same : ∀ (all : List Strm) (l : List Text), (∀ s ∈ all, s.conn ∈ l) → addTo all l = l
  | [], _, _ => rfl
  | x :: all, l, h => by
    unfold addTo
    rw [if_pos (h x List.mem_cons_self)]
    exact addTo_same all l fun s hs => h s (List.mem_cons_of_mem _ hs)

theorem activate_eq (all : List Strm) (l : List Text) (act : Option Text) :
    activate all (addTo all l) act = act.or (all.head?.map (·.conn)) := by
  cases act with
  | some a => rfl
  | none =>
    change (all.find? _).map _ = _
    cases all with
    | nil => rfl
    | cons x all =>
      have : x.conn ∈ addTo (x :: all) l := (addTo_mem _ _ _).mpr (.inr ⟨x, List.mem_cons_self, rfl⟩)
      rw [List.find?_cons]
      simp [this]

theorem activate_again {all all' : List Strm} (h : ∀ s ∈ all', s ∈ all) (l : List Text) (act : Option Text) :
    activate all' (addTo all l) (activate all (addTo all l) act) = activate all (addTo all l) act := by
  rw [activate_eq]
  cases act with
  | some a => rfl
  | none =>
    cases all with
    | nil =>
      cases all' with
      | nil => rfl
      | cons x all' => exact absurd (h x List.mem_cons_self) (by simp)
    | cons x all => rfl

theorem setup_again {all all' : List Strm} (h : ∀ s ∈ all', s ∈ all) (k : Kind) :
    (k.setup all).setup all' = k.setup all := by
  have key : ∀ (a a' : List Strm) (l : List Text) (act : Option Text), (∀ s ∈ a', s ∈ a) →
      addTo a' (addTo a l) = addTo a l ∧
      activate a' (addTo a' (addTo a l)) (activate a (addTo a l) act) = activate a (addTo a l) act := by
    intro a a' l act h
    have h1 : addTo a' (addTo a l) = addTo a l :=
      addTo_same _ _ fun s hs => (addTo_mem _ _ _).mpr (.inr ⟨s, h s hs, rfl⟩)
    exact ⟨h1, by rw [h1]; exact activate_again h l act⟩
  cases k with
  | device i l => rfl
  | folder => rfl
  | signal pub d l act =>
    cases pub with
    | false => rfl
    | true =>
      obtain ⟨h1, h2⟩ := key all all' l act h
      change Kind.signal true d (addTo all' (addTo all l)) (activate all' (addTo all' (addTo all l)) (activate all (addTo all l) act)) =
        Kind.signal true d (addTo all l) (activate all (addTo all l) act)
      rw [h2, h1]
  | port l act =>
    have h' : ∀ s ∈ all'.filter (·.toDevice), s ∈ all.filter (·.toDevice) := by
      intro s hs
      rw [List.mem_filter] at *
      exact ⟨h s hs.1, hs.2⟩
    obtain ⟨h1, h2⟩ := key (all.filter (·.toDevice)) (all'.filter (·.toDevice)) l act h'
    change Kind.port (addTo (all'.filter (·.toDevice)) (addTo (all.filter (·.toDevice)) l))
      (activate _ (addTo (all'.filter (·.toDevice)) (addTo (all.filter (·.toDevice)) l))
        (activate (all.filter (·.toDevice)) (addTo (all.filter (·.toDevice)) l) act)) = _
    rw [h2, h1]
    rfl

theorem setup_nil (k : Kind) : k.setup [] = k := by
  cases k with
  | device i l => rfl
  | folder => rfl
  | signal pub d l act =>
    cases pub with
    | false => rfl
    | true => cases act <;> rfl
  | port l act => cases act <;> rfl

theorem setup_device (all : List Strm) (k : Kind) :
    (k.setup all).isDevice = k.isDevice ∧ (∀ i l, k.setup all = .device i l ↔ k = .device i l) := by
  cases k with
  | device i l => exact ⟨rfl, fun i' l' => Iff.rfl⟩
  | folder => exact ⟨rfl, fun i' l' => Iff.rfl⟩
  | signal pub d l act =>
    cases pub with
    | false => exact ⟨rfl, fun i' l' => Iff.rfl⟩
    | true => exact ⟨rfl, fun i' l' => ⟨(fun h => nomatch h), (fun h => nomatch h)⟩⟩
  | port l act => exact ⟨rfl, fun i' l' => ⟨(fun h => nomatch h), (fun h => nomatch h)⟩⟩

/-! ## One component of a tree -/

/-- What enabling the components at `q` does to one component. -/
def touch (cfg : Cfg) (owner : Path) (t : Tree) (n : Node) (q : Path) : Node :=
  if q.isPrefixOf n.path = true then { n with kind := n.kind.setup (allSources cfg owner t q) } else n

theorem touch_path (cfg : Cfg) (owner : Path) (t : Tree) (n : Node) (q : Path) :
    (touch cfg owner t n q).path = n.path := by
  unfold touch; split <;> rfl

theorem touch_device (cfg : Cfg) (owner : Path) (t : Tree) (n : Node) (q : Path) :
    (touch cfg owner t n q).kind.isDevice = n.kind.isDevice ∧
    ∀ i l, (touch cfg owner t n q).kind = .device i l ↔ n.kind = .device i l := by
  unfold touch; split
  · exact setup_device _ _
  · exact ⟨rfl, fun _ _ => Iff.rfl⟩

theorem enable_eq (cfg : Cfg) (owner : Path) (t : Tree) (p : Path) :
    enable cfg owner t p = t.map fun n => touch cfg owner t n p := by
  unfold enable
  by_cases h : allSources cfg owner t p = []
  · rw [if_pos h]
    unfold touch
    rw [h]
    have : (fun n : Node => if p.isPrefixOf n.path = true then { n with kind := n.kind.setup [] } else n) = _root_.id := by
      funext n
      split
      · rw [setup_nil]; rfl
      · rfl
    rw [this, List.map_id]
  · rw [if_neg h]; rfl

/-- Keeps the places and the devices. -/
structure Keeps (f : Node → Node) : Prop where
  path : ∀ n, (f n).path = n.path
  device : ∀ n, (f n).kind.isDevice = n.kind.isDevice
  sources : ∀ n i l, (f n).kind = .device i l ↔ n.kind = .device i l

theorem keeps_look {f : Node → Node} (h : Keeps f) (t : Tree) (q : Path) :
    isDevice (t.map f) q = isDevice t q ∧ sourcesOf (t.map f) q = sourcesOf t q := by
  have hl : ∀ t : Tree, ((t.map f).find? fun n => n.path == q) = (t.find? fun n => n.path == q).map f := by
    intro t
    induction t with
    | nil => rfl
    | cons a t ih =>
      rw [List.map_cons, List.find?_cons, List.find?_cons, h.path, ih]
      cases a.path == q <;> rfl
  unfold isDevice sourcesOf look
  rw [hl]
  cases t.find? fun n => n.path == q with
  | none => exact ⟨rfl, rfl⟩
  | some n =>
    refine ⟨h.device n, ?_⟩
    change (match (some (f n).kind) with | some (Kind.device _ l) => l | _ => []) = _
    change _ = (match (some n.kind) with | some (Kind.device _ l) => l | _ => [])
    cases hk : n.kind with
    | device i l => rw [(h.sources n i l).mpr hk]
    | folder =>
      cases hk' : (f n).kind with
      | device i l => rw [(h.sources n i l).mp hk'] at hk; cases hk
      | _ => rfl
    | signal a b c d =>
      cases hk' : (f n).kind with
      | device i l => rw [(h.sources n i l).mp hk'] at hk; cases hk
      | _ => rfl
    | port c d =>
      cases hk' : (f n).kind with
      | device i l => rw [(h.sources n i l).mp hk'] at hk; cases hk
      | _ => rfl

theorem keeps_all {f : Node → Node} (h : Keeps f) (cfg : Cfg) (owner : Path) (t : Tree) (q : Path) :
    allSources cfg owner (t.map f) q = allSources cfg owner t q := by
  unfold allSources ancestors
  have h1 : isDevice (t.map f) = isDevice t := funext fun q => (keeps_look h t q).1
  have h2 : sourcesOf (t.map f) = sourcesOf t := funext fun q => (keeps_look h t q).2
  rw [h1, h2]

theorem keeps_touch (cfg : Cfg) (owner : Path) (t : Tree) (q : Path) : Keeps fun n => touch cfg owner t n q :=
  ⟨fun n => touch_path cfg owner t n q, fun n => (touch_device cfg owner t n q).1,
    fun n => (touch_device cfg owner t n q).2⟩

theorem keeps_fold (cfg : Cfg) (owner : Path) (t : Tree) : ∀ L : List Path,
    Keeps fun n => L.foldl (touch cfg owner t) n
  | [] => ⟨fun _ => rfl, fun _ => rfl, fun _ _ _ => Iff.rfl⟩
  | q :: L => by
    have h1 := keeps_touch cfg owner t q
    have h2 := keeps_fold cfg owner t L
    exact ⟨fun n => (h2.path _).trans (h1.path n), fun n => (h2.device _).trans (h1.device n),
      fun n i l => (h2.sources _ i l).trans (h1.sources n i l)⟩

theorem enableAll_eq (cfg : Cfg) (owner : Path) (t0 : Tree) : ∀ (L : List Path) (t : Tree),
    (∀ q, allSources cfg owner t q = allSources cfg owner t0 q) →
    enableAll cfg owner t L = t.map fun n => L.foldl (touch cfg owner t0) n
  | [], t, _ => by simp [enableAll]
  | q :: L, t, h => by
    have htouch : ∀ n, touch cfg owner t n q = touch cfg owner t0 n q := by
      intro n; unfold touch; rw [h q]
    unfold enableAll
    rw [enableAll_eq cfg owner t0 L, enable_eq, List.map_map]
    · congr 1
      funext n
      change L.foldl _ (touch cfg owner t n q) = L.foldl _ (touch cfg owner t0 n q)
      rw [htouch]
    · intro q'
      rw [enable_eq, keeps_all (keeps_touch cfg owner t q), h]

theorem has_map {f : Node → Node} (h : Keeps f) (t : Tree) (q : Path) (l : List Strm) :
    Has (t.map f) q l ↔ Has t q l := by
  constructor
  · rintro ⟨n, hn, hp, i, hk⟩
    obtain ⟨m, hm, rfl⟩ := List.mem_map.mp hn
    exact ⟨m, hm, (h.path m).symm.trans hp, i, (h.sources m i l).mp hk⟩
  · rintro ⟨n, hn, hp, i, hk⟩
    exact ⟨f n, List.mem_map.mpr ⟨n, hn, rfl⟩, (h.path n).trans hp, i, (h.sources n i l).mpr hk⟩

/-! ## The sources for a component -/

theorem ordered_unique {t : Tree} (h : Ordered t) : ∀ {a b : Node}, a ∈ t → b ∈ t → a.path = b.path → a = b := by
  unfold Ordered at h
  induction t with
  | nil => intro a b ha; cases ha
  | cons x t ih =>
    rw [List.pairwise_cons] at h
    intro a b ha hb e
    rcases List.mem_cons.mp ha with h1 | h1
    · rcases List.mem_cons.mp hb with h2 | h2
      · rw [h1, h2]
      · exact absurd (by rw [← h1, e]; exact List.prefix_refl _) (h.1 b h2)
    · rcases List.mem_cons.mp hb with h2 | h2
      · exact absurd (by rw [← h2, ← e]; exact List.prefix_refl _) (h.1 a h1)
      · exact ih h.2 h1 h2 e

theorem look_mem {t : Tree} (h : Ordered t) {n : Node} (hn : n ∈ t) : look t n.path = some n.kind := by
  unfold look
  cases e : t.find? fun m => m.path == n.path with
  | none =>
    have := List.find?_eq_none.mp e n hn
    simp at this
  | some m =>
    have hp : m.path = n.path := by simpa using List.find?_some e
    rw [ordered_unique h (List.mem_of_find?_eq_some e) hn hp]; rfl

theorem look_some {t : Tree} {q : Path} {k : Kind} (h : look t q = some k) : ∃ n ∈ t, n.path = q ∧ n.kind = k := by
  unfold look at h
  cases e : t.find? fun m => m.path == q with
  | none => rw [e] at h; cases h
  | some m =>
    rw [e] at h
    exact ⟨m, List.mem_of_find?_eq_some e, by simpa using List.find?_some e, Option.some.inj h⟩

theorem has_sources {t : Tree} (h : Ordered t) {q : Path} {l : List Strm} (hq : Has t q l) :
    sourcesOf t q = l ∧ isDevice t q = true := by
  obtain ⟨n, hn, rfl, i, hk⟩ := hq
  unfold sourcesOf isDevice
  rw [look_mem h hn, hk]
  exact ⟨rfl, rfl⟩

theorem sources_has {t : Tree} {q : Path} (h : isDevice t q = true) : Has t q (sourcesOf t q) := by
  unfold isDevice at h
  unfold sourcesOf
  cases e : look t q with
  | none => rw [e] at h; cases h
  | some k =>
    rw [e] at h
    obtain ⟨n, hn, hp, hk⟩ := look_some e
    cases k with
    | device i l => exact ⟨n, hn, hp, i, hk⟩
    | folder => cases h
    | signal _ _ _ _ => cases h
    | port _ _ => cases h

theorem sources_device {t : Tree} {q : Path} (h : sourcesOf t q ≠ []) : isDevice t q = true := by
  unfold sourcesOf at h
  unfold isDevice
  cases e : look t q with
  | none => rw [e] at h; exact absurd rfl h
  | some k =>
    rw [e] at h
    cases k with
    | device i l => rfl
    | folder => exact absurd rfl h
    | signal _ _ _ _ => exact absurd rfl h
    | port _ _ => exact absurd rfl h

theorem mem_ancestors (cfg : Cfg) (owner : Path) (t : Tree) (p q : Path) :
    q ∈ ancestors cfg owner t p ↔
      q = owner ∨ (cfg.minHops = true ∧ owner <+: q ∧ q <+: p ∧ isDevice t q = true) ∧ q ≠ owner := by
  unfold ancestors
  rw [List.mem_cons]
  by_cases hq : q = owner
  · simp [hq]
  · simp only [hq, false_or, ne_eq, not_false_eq_true, and_true]
    by_cases hm : cfg.minHops = true
    · rw [if_pos hm, List.mem_filter, List.mem_map]
      simp only [hm, Bool.and_eq_true, List.isPrefixOf_iff_prefix, bne_iff_ne, ne_eq, true_and, List.mem_range]
      constructor
      · rintro ⟨⟨k, _, rfl⟩, ⟨h1, _⟩, h2⟩
        exact ⟨h1, List.take_prefix _ _, h2⟩
      · rintro ⟨h1, h2, h3⟩
        refine ⟨⟨q.length, Nat.lt_succ_of_le h2.length_le, ?_⟩, ⟨h1, fun e => hq e.symm⟩, h3⟩
        exact (List.prefix_iff_eq_take.mp h2).symm
    · rw [if_neg hm]; simp [hm]

theorem ancestors_chain (cfg : Cfg) (owner : Path) (t : Tree) (p : Path) :
    (ancestors cfg owner t p).Pairwise (· <+: ·) := by
  unfold ancestors
  rw [List.pairwise_cons]
  constructor
  · intro q hq
    split at hq
    · rw [List.mem_filter] at hq
      simp only [Bool.and_eq_true, List.isPrefixOf_iff_prefix] at hq
      exact hq.2.1.1
    · cases hq
  · split
    · refine List.Pairwise.filter _ ?_
      rw [List.pairwise_map]
      exact List.pairwise_lt_range.imp fun h => List.take_prefix_take_left (Nat.le_of_lt h)
    · exact .nil

/-- The first source of the closest device that has any. -/
theorem head_flat {f : Path → List Strm} {s : Strm} : ∀ {Q : List Path}, Q.Pairwise (fun a b => b <+: a) →
    ((((Q.map f).flatten).head? = some s) ↔ ∃ q ∈ Q, ∃ r, f q = s :: r ∧ ∀ q' ∈ Q, f q' ≠ [] → q' <+: q)
  | [], _ => by simp
  | q0 :: Q, h => by
    rw [List.pairwise_cons] at h
    rw [List.map_cons, List.flatten_cons]
    cases hf : f q0 with
    | nil =>
      rw [List.nil_append, head_flat h.2]
      constructor
      · rintro ⟨q, hq, r, e, h2⟩
        refine ⟨q, List.mem_cons_of_mem _ hq, r, e, fun q' hq' hne => ?_⟩
        rcases List.mem_cons.mp hq' with rfl | hq'
        · exact absurd hf hne
        · exact h2 q' hq' hne
      · rintro ⟨q, hq, r, e, h2⟩
        rcases List.mem_cons.mp hq with rfl | hq
        · rw [hf] at e; cases e
        · exact ⟨q, hq, r, e, fun q' hq' => h2 q' (List.mem_cons_of_mem _ hq')⟩
    | cons s0 r0 =>
      rw [List.cons_append, List.head?_cons]
      constructor
      · intro e
        obtain rfl := Option.some.inj e
        refine ⟨q0, List.mem_cons_self, r0, hf, fun q' hq' _ => ?_⟩
        rcases List.mem_cons.mp hq' with rfl | hq'
        · exact List.prefix_refl _
        · exact h.1 q' hq'
      · rintro ⟨q, hq, r, e, h2⟩
        have h3 := h2 q0 List.mem_cons_self (by rw [hf]; exact List.cons_ne_nil _ _)
        have : q = q0 := by
          rcases List.mem_cons.mp hq with rfl | hq
          · rfl
          · exact (h.1 q hq).eq_of_length (Nat.le_antisymm (h.1 q hq).length_le h3.length_le)
        rw [this, hf] at e
        rw [(List.cons.inj e).1]

theorem mem_allSources (cfg : Cfg) (owner : Path) (t : Tree) (p : Path) (s : Strm) :
    s ∈ allSources cfg owner t p ↔
      ∃ q, s ∈ sourcesOf t q ∧ (q = owner ∨ (cfg.minHops = true ∧ owner <+: q ∧ q <+: p)) := by
  unfold allSources
  rw [List.mem_flatten]
  constructor
  · rintro ⟨l, hl, hs⟩
    rw [List.mem_reverse] at hl
    obtain ⟨q, hq, rfl⟩ := List.mem_map.mp hl
    rcases (mem_ancestors ..).mp hq with h | ⟨⟨h1, h2, h3, _⟩, _⟩
    · exact ⟨q, hs, .inl h⟩
    · exact ⟨q, hs, .inr ⟨h1, h2, h3⟩⟩
  · rintro ⟨q, hs, h⟩
    refine ⟨sourcesOf t q, List.mem_reverse.mpr (List.mem_map.mpr ⟨q, (mem_ancestors ..).mpr ?_, rfl⟩), hs⟩
    by_cases e : q = owner
    · exact .inl e
    · rcases h with h | ⟨h1, h2, h3⟩
      · exact absurd h e
      · exact .inr ⟨⟨h1, h2, h3, sources_device (List.ne_nil_of_mem hs)⟩, e⟩

theorem allSources_mono {cfg : Cfg} {owner : Path} {t : Tree} {q q0 : Path} (h : q <+: q0) {s : Strm}
    (hs : s ∈ allSources cfg owner t q) : s ∈ allSources cfg owner t q0 := by
  rw [mem_allSources] at *
  obtain ⟨d, hd, h1⟩ := hs
  exact ⟨d, hd, h1.imp id fun ⟨a, b, c⟩ => ⟨a, b, c.trans h⟩⟩

/-- What a component has after its sources are added once, from the right place. -/
theorem served {cfg : Cfg} {owner : Path} {t : Tree} (ho : Ordered t) {x q0 : Path} (hx : q0 <+: x)
    (hnear : cfg.minHops = true → ∀ q, isDevice t q = true → owner <+: q → q <+: x → q <+: q0)
    (ok : Strm → Bool) (old : List Text) (act : Option Text) :
    Served cfg owner t x ok old act (addTo ((allSources cfg owner t q0).filter ok) old)
      (activate ((allSources cfg owner t q0).filter ok) (addTo ((allSources cfg owner t q0).filter ok) old) act) := by
  have hcounts : ∀ q, isDevice t q = true → (Counts cfg owner x q ↔ q ∈ ancestors cfg owner t q0) := by
    intro q hd
    rw [mem_ancestors]
    unfold Counts
    constructor
    · rintro (h | ⟨h1, h2, h3⟩)
      · exact .inl h
      · by_cases e : q = owner
        · exact .inl e
        · exact .inr ⟨⟨h1, h2, hnear h1 q hd h2 h3, hd⟩, e⟩
    · rintro (h | ⟨⟨h1, h2, h3, _⟩, _⟩)
      · exact .inl h
      · exact .inr ⟨h1, h2, h3.trans hx⟩
  constructor
  · intro c
    rw [addTo_mem]
    refine or_congr Iff.rfl ?_
    constructor
    · rintro ⟨s, hs, e⟩
      rw [List.mem_filter] at hs
      obtain ⟨q, h1, h2⟩ := (mem_allSources ..).mp hs.1
      have hd := sources_device (List.ne_nil_of_mem h1)
      refine ⟨s, ⟨q, _, sources_has hd, h1, ?_⟩, hs.2, e⟩
      exact h2.imp id fun ⟨a, b, c⟩ => ⟨a, b, c.trans hx⟩
    · rintro ⟨s, ⟨q, l, hq, hs, hc⟩, hok, e⟩
      obtain ⟨h1, h2⟩ := has_sources ho hq
      refine ⟨s, List.mem_filter.mpr ⟨?_, hok⟩, e⟩
      unfold allSources
      rw [List.mem_flatten]
      exact ⟨l, List.mem_reverse.mpr (List.mem_map.mpr ⟨q, (hcounts q h2).mp hc, h1⟩), hs⟩
  · rintro a rfl
    rfl
  · rintro rfl c
    rw [activate_eq, Option.none_or]
    have hfil : (allSources cfg owner t q0).filter ok =
        (((ancestors cfg owner t q0).reverse.map fun q => (sourcesOf t q).filter ok)).flatten := by
      unfold allSources
      rw [List.filter_flatten, ← List.map_reverse, List.map_map]
      rfl
    have hch : (ancestors cfg owner t q0).reverse.Pairwise (fun a b => b <+: a) := by
      rw [List.pairwise_reverse]; exact ancestors_chain cfg owner t q0
    rw [hfil]
    constructor
    · intro h
      obtain ⟨s, hs, e⟩ := Option.map_eq_some_iff.mp h
      obtain ⟨q, hq, r, h1, h2⟩ := (head_flat hch).mp hs
      rw [List.mem_reverse] at hq
      have hne : sourcesOf t q ≠ [] := fun e0 => by rw [e0] at h1; cases h1
      have hd := sources_device hne
      refine ⟨q, _, s, r, sources_has hd, (hcounts q hd).mpr hq, h1, e, ?_⟩
      intro q' l' hq' hc' hl'
      obtain ⟨e1, e2⟩ := has_sources ho hq'
      refine h2 q' (List.mem_reverse.mpr ((hcounts q' e2).mp hc')) ?_
      rw [e1]; exact hl'
    · rintro ⟨q, l, s, r, hq, hc, hl, rfl, h2⟩
      obtain ⟨e1, e2⟩ := has_sources ho hq
      have : ((((ancestors cfg owner t q0).reverse.map fun q => (sourcesOf t q).filter ok)).flatten).head? = some s := by
        refine (head_flat hch).mpr ⟨q, List.mem_reverse.mpr ((hcounts q e2).mp hc), r, by rw [e1]; exact hl, ?_⟩
        intro q' hq' hne
        have hne' : sourcesOf t q' ≠ [] := fun e0 => by rw [e0] at hne; exact hne rfl
        have hd' := sources_device hne'
        exact h2 q' _ (sources_has hd') ((hcounts q' hd').mpr (List.mem_reverse.mp hq')) hne
      rw [this]; rfl

/-! ## One component and a list of places -/

theorem fold_skip (cfg : Cfg) (owner : Path) (t : Tree) : ∀ (L : List Path) (n : Node),
    (∀ q ∈ L, ¬ q <+: n.path) → L.foldl (touch cfg owner t) n = n
  | [], _, _ => rfl
  | q :: L, n, h => by
    have : touch cfg owner t n q = n := by
      unfold touch
      rw [if_neg]
      rw [List.isPrefixOf_iff_prefix]; exact h q List.mem_cons_self
    rw [List.foldl_cons, this]
    exact fold_skip cfg owner t L n fun q hq => h q (List.mem_cons_of_mem _ hq)

theorem fold_same (cfg : Cfg) (owner : Path) (t : Tree) (n : Node) (q0 : Path) (h0 : q0 <+: n.path) :
    ∀ L : List Path, (∀ q ∈ L, q <+: n.path → q <+: q0) →
      L.foldl (touch cfg owner t) (touch cfg owner t n q0) = touch cfg owner t n q0
  | [], _ => rfl
  | q :: L, h => by
    have : touch cfg owner t (touch cfg owner t n q0) q = touch cfg owner t n q0 := by
      unfold touch
      rw [if_pos (List.isPrefixOf_iff_prefix.mpr h0)]
      by_cases hq : q <+: n.path
      · rw [if_pos (List.isPrefixOf_iff_prefix.mpr hq)]
        rw [setup_again (fun s hs => allSources_mono (h q List.mem_cons_self hq) hs)]
      · rw [if_neg]
        rw [List.isPrefixOf_iff_prefix]; exact hq
    rw [List.foldl_cons, this]
    exact fold_same cfg owner t n q0 h0 L fun q hq => h q (List.mem_cons_of_mem _ hq)

/-- The lowest place that comes first counts. -/
theorem fold_first (cfg : Cfg) (owner : Path) (t : Tree) (n : Node) : ∀ L : List Path,
    L.Pairwise (fun a b => ¬ a <+: b ∨ a = b) → (∃ q ∈ L, q <+: n.path) →
    ∃ q0 ∈ L, q0 <+: n.path ∧ (∀ q ∈ L, q <+: n.path → q <+: q0) ∧
      L.foldl (touch cfg owner t) n = touch cfg owner t n q0
  | [], _, h => by obtain ⟨q, hq, _⟩ := h; cases hq
  | q :: L, hp, h => by
    rw [List.pairwise_cons] at hp
    by_cases hq : q <+: n.path
    · have hall : ∀ q' ∈ L, q' <+: n.path → q' <+: q := by
        intro q' hq' hp'
        rcases List.prefix_or_prefix_of_prefix hq hp' with h1 | h1
        · rcases hp.1 q' hq' with h2 | h2
          · exact absurd h1 h2
          · rw [h2]; exact List.prefix_refl _
        · exact h1
      refine ⟨q, List.mem_cons_self, hq, ?_, ?_⟩
      · intro q' hq' hp'
        rcases List.mem_cons.mp hq' with rfl | hq'
        · exact List.prefix_refl _
        · exact hall q' hq' hp'
      · rw [List.foldl_cons]
        exact fold_same cfg owner t n q hq L hall
    · have ht : touch cfg owner t n q = n := by
        unfold touch
        rw [if_neg]
        rw [List.isPrefixOf_iff_prefix]; exact hq
      obtain ⟨q', hq', hp'⟩ := h
      have hin : q' ∈ L := by
        rcases List.mem_cons.mp hq' with rfl | h
        · exact absurd hp' hq
        · exact h
      obtain ⟨q0, h1, h2, h3, h4⟩ := fold_first cfg owner t n L hp.2 ⟨q', hin, hp'⟩
      refine ⟨q0, List.mem_cons_of_mem _ h1, h2, ?_, ?_⟩
      · intro r hr hrp
        rcases List.mem_cons.mp hr with rfl | hr
        · exact absurd hrp hq
        · exact h3 r hr hrp
      · rw [List.foldl_cons, ht]; exact h4

end Verif.Sources
