import Verif.Search.Spec
import Mathlib.Data.List.Nodup

/-! Helper lemmas: filters, the ordered set, and the loops over default folders. -/

namespace Verif.Search

open Spec

theorem accepts_iff (f : Filter) (i : Info) : f.accepts i = true ↔ Wants f i := by
  induction f with
  | any => simp [Filter.accepts, Wants]
  | visible => simp [Filter.accepts, Wants]
  | required ts => simp [Filter.accepts, Wants]
  | excluded ts =>
    simp only [Filter.accepts, Wants, Bool.not_eq_true', List.any_eq_false, List.contains_iff_mem]
    exact ⟨fun h t ht hi => h t hi ht, fun h t ht hi => h t hi ht⟩
  | intf x => simp [Filter.accepts, Wants]
  | localId n => simp [Filter.accepts, Wants]
  | or l r hl hr => simp [Filter.accepts, Wants, hl, hr]
  | and l r hl hr => simp [Filter.accepts, Wants, hl, hr]
  | not f hf => simp [Filter.accepts, Wants, ← hf]
  | custom a v => simp [Filter.accepts, Wants]
  | recursive f hf => simpa [Filter.accepts, Wants] using hf

theorem visit_iff (f : Filter) (i : Info) : f.visit i = true ↔ Enters f i := by
  unfold Enters
  induction f with
  | any => simp [Filter.visit, EntersWith]
  | visible => simp [Filter.visit, EntersWith]
  | required ts => simp [Filter.visit, EntersWith]
  | excluded ts => simp [Filter.visit, EntersWith]
  | intf x => simp [Filter.visit, EntersWith]
  | localId n => simp [Filter.visit, EntersWith]
  | or l r hl hr => simp [Filter.visit, EntersWith, hl, hr]
  | and l r hl hr => simp [Filter.visit, EntersWith, hl, hr]
  | not f hf => simp [Filter.visit, EntersWith]
  | custom a v => cases v <;> simp [Filter.visit, EntersWith]
  | recursive f hf => simpa [Filter.visit, EntersWith] using hf

theorem channel_iff (k : Kind) : k.supports .channel = true ↔ k = .channel := by
  cases k <;> simp [Kind.supports]

theorem device_iff (k : Kind) : k.supports .device = true ↔ k = .device := by
  cases k <;> simp [Kind.supports]

theorem ioFolder_iff (k : Kind) : k.supports .ioFolder = true ↔ k = .ioFolder := by
  cases k <;> simp [Kind.supports]

/-! ### The ordered set -/

theorem mem_foldl_insert (l : List Comp) : ∀ s x, x ∈ l.foldl insertC s → x ∈ s ∨ x ∈ l := by
  induction l with
  | nil => intro s x h; exact .inl h
  | cons c l ih =>
    intro s x h
    rcases ih _ x h with h | h
    · unfold insertC at h
      split at h
      · exact .inl h
      · rcases List.mem_append.mp h with h | h
        · exact .inl h
        · exact .inr (by rw [List.mem_singleton.mp h]; exact List.mem_cons_self)
    · exact .inr (List.mem_cons_of_mem _ h)

theorem mem_ordSet {l : List Comp} {x : Comp} (h : x ∈ ordSet l) : x ∈ l := by
  rcases mem_foldl_insert l [] x h with h | h
  · exact absurd h (by simp)
  · exact h

theorem foldl_insert_keeps (l : List Comp) : ∀ s x, x ∈ s → x ∈ l.foldl insertC s := by
  induction l with
  | nil => intro s x h; exact h
  | cons c l ih =>
    intro s x h
    apply ih
    unfold insertC
    split
    · exact h
    · exact List.mem_append_left _ h

theorem foldl_insert_covers (l : List Comp) :
    ∀ s x, x ∈ l → ∃ y ∈ l.foldl insertC s, y.info.gid = x.info.gid := by
  induction l with
  | nil => intro s x h; exact absurd h (by simp)
  | cons c l ih =>
    intro s x h
    rcases List.mem_cons.mp h with rfl | h
    · by_cases ha : s.any (fun y => y.info.gid == x.info.gid) = true
      · obtain ⟨y, hy, he⟩ := List.any_eq_true.mp ha
        refine ⟨y, foldl_insert_keeps l _ y ?_, by simpa using he⟩
        unfold insertC; rw [if_pos ha]; exact hy
      · refine ⟨x, foldl_insert_keeps l _ x ?_, rfl⟩
        unfold insertC; rw [if_neg ha]; exact List.mem_append_right _ (by simp)
    · exact ih _ x h

theorem ordSet_covers {l : List Comp} {x : Comp} (h : x ∈ l) :
    ∃ y ∈ ordSet l, y.info.gid = x.info.gid := foldl_insert_covers l [] x h

theorem foldl_insert_once (l : List Comp) : ∀ s, EachOnce s → EachOnce (l.foldl insertC s) := by
  induction l with
  | nil => intro s h; exact h
  | cons c l ih =>
    intro s h
    apply ih
    unfold insertC
    split
    · exact h
    · rename_i hn
      unfold EachOnce
      rw [List.map_append, List.nodup_append]
      refine ⟨h, by simp, ?_⟩
      intro a ha b hb hab
      simp only [List.map_cons, List.map_nil, List.mem_singleton] at hb
      obtain ⟨y, hy, rfl⟩ := List.mem_map.mp ha
      exact hn (List.any_eq_true.mpr ⟨y, hy, by simpa using hab.trans hb⟩)

theorem ordSet_once (l : List Comp) : EachOnce (ordSet l) :=
  foldl_insert_once l [] (by simp [EachOnce])

theorem foldl_insert_id (l : List Comp) :
    ∀ s, EachOnce (s ++ l) → l.foldl insertC s = s ++ l := by
  induction l with
  | nil => intro s _; simp
  | cons c l ih =>
    intro s h
    have hn : ¬ (s.any (fun y => y.info.gid == c.info.gid) = true) := by
      intro ha
      obtain ⟨y, hy, he⟩ := List.any_eq_true.mp ha
      unfold EachOnce at h
      rw [List.map_append, List.nodup_append] at h
      exact h.2.2 _ (List.mem_map.mpr ⟨y, hy, rfl⟩) c.info.gid (by simp) (by simpa using he)
    have hi : insertC s c = s ++ [c] := by unfold insertC; rw [if_neg hn]
    rw [List.foldl_cons, hi, ih _ (by simpa using h)]
    simp

theorem ordSet_id {l : List Comp} (h : EachOnce l) : ordSet l = l := by
  have := foldl_insert_id l [] (by simpa using h)
  simpa [ordSet] using this

/-- Membership in the set is membership in the list when ids identify the elements. -/
theorem mem_ordSet_iff {c : Comp} (hu : UniqueIds c) {l : List Comp}
    (hl : ∀ x ∈ l, Inside c x) (x : Comp) : x ∈ ordSet l ↔ x ∈ l := by
  refine ⟨mem_ordSet, fun h => ?_⟩
  obtain ⟨y, hy, he⟩ := ordSet_covers h
  exact hu y x (hl y (mem_ordSet hy)) (hl x h) he ▸ hy

/-! ### The tree -/

theorem Spec.Inside.trans {a b c : Comp} (h : Inside a b) (h' : Inside b c) : Inside a c := by
  induction h with
  | self => exact h'
  | step he _ ih => exact .step he (ih h')

theorem inside_item {c e : Comp} (h : e ∈ c.items) : Inside c e := .step h .self

theorem Spec.Under.inside {v : Info → Prop} {c d : Comp} (h : Under v c d) : Inside c d := by
  induction h with
  | child h => exact inside_item h
  | deeper he _ _ _ ih => exact .step he ih

theorem Spec.UniqueIds.sub {c e : Comp} (h : UniqueIds c) (he : Inside c e) : UniqueIds e :=
  fun a b ha hb => h a b (he.trans ha) (he.trans hb)

theorem Spec.Typed.sub {c e : Comp} (h : Typed c) (he : Inside c e) : Typed e :=
  fun n hn => h n (he.trans hn)

theorem size_item {c e : Comp} (h : e ∈ c.items) : sizeOf e < sizeOf c := by
  cases c with
  | mk i cs =>
    have := List.sizeOf_lt_of_mem (show e ∈ cs from h)
    simp only [Comp.mk.sizeOf_spec]
    omega

theorem Spec.Inside.size {c d : Comp} (h : Inside c d) : sizeOf d ≤ sizeOf c := by
  induction h with
  | self => exact Nat.le_refl _
  | step he _ ih => have := size_item he; omega

theorem find_mem {l : List Comp} {p : Comp → Bool} {x : Comp} (h : l.find? p = some x) : x ∈ l :=
  List.mem_of_find?_eq_some h

theorem find_congr (l : List Comp) (r : Role) :
    l.find? (fun x => x.info.role == some r) = l.find? (fun x => decide (x.info.role = some r)) := by
  congr 1; funext x; by_cases h : x.info.role = some r <;> simp [h]

theorem part_items (r : Role) (c d : Comp) : d ∈ (part r c).items ↔ Holds r c d := by
  unfold part Holds
  rw [find_congr]
  cases h : c.items.find? (fun x => decide (x.info.role = some r)) with
  | none => simp [Comp.items]
  | some x => simp

theorem Spec.Holds.inside {r : Role} {c d : Comp} (h : Holds r c d) : Inside c d := by
  obtain ⟨fo, hf, hd⟩ := h
  exact .step (find_mem hf) (inside_item hd)

theorem Spec.Holds.size {r : Role} {c d : Comp} (h : Holds r c d) : sizeOf d < sizeOf c := by
  obtain ⟨fo, hf, hd⟩ := h
  have h1 := size_item hd
  have h2 := size_item (find_mem hf)
  omega

theorem Spec.Holds.fits {r : Role} {c d : Comp} (ht : Typed c) (h : Holds r c d) :
    Fits r d.info.kind := by
  obtain ⟨fo, hf, hd⟩ := h
  have hr : fo.info.role = some r := by simpa using List.find?_some hf
  exact ht fo (inside_item (find_mem hf)) r hr d hd

theorem Spec.IoChannel.inside {v : Info → Prop} {l : List Comp} {ch : Comp} (h : IoChannel v l ch) :
    ∃ e ∈ l, Inside e ch := by
  induction h with
  | here h _ => exact ⟨_, h, .self⟩
  | deeper he _ _ _ ih =>
    obtain ⟨e', he', hi⟩ := ih
    exact ⟨_, he, .step he' hi⟩

theorem Spec.IoChannel.kind {v : Info → Prop} {l : List Comp} {ch : Comp} (h : IoChannel v l ch) :
    ch.info.kind = .channel := by
  induction h with
  | here _ h => exact h
  | deeper _ _ _ _ ih => exact ih

theorem Spec.HasChannel.inside {v : Info → Prop} {c ch : Comp} (h : HasChannel v c ch) :
    Inside c ch ∧ sizeOf ch < sizeOf c := by
  obtain ⟨fo, hf, hc⟩ := h
  obtain ⟨e, he, hi⟩ := hc.inside
  have h1 := size_item he
  have h2 := size_item (find_mem hf)
  have h3 := hi.size
  exact ⟨.step (find_mem hf) (.step he hi), by omega⟩

theorem Spec.Step.inside {v : Info → Prop} {c e : Comp} (h : Step v c e) :
    Inside c e ∧ sizeOf e < sizeOf c := by
  rcases h.2 with h | ⟨_, h | h⟩
  · exact ⟨h.inside, h.size⟩
  · exact ⟨h.inside, h.size⟩
  · exact h.inside

theorem Reach.inside {v : Info → Prop} {c o : Comp} (h : Relation.ReflTransGen (Step v) c o) :
    Inside c o := by
  induction h using Relation.ReflTransGen.head_induction_on with
  | refl => exact .self
  | head h _ ih => exact h.inside.1.trans ih

theorem DevReach.inside {v : Info → Prop} {c o : Comp} (h : Relation.ReflTransGen (DevStep v) c o) :
    Inside c o := by
  induction h using Relation.ReflTransGen.head_induction_on with
  | refl => exact .self
  | head h _ ih => exact h.1.inside.trans ih

theorem FbReach.inside {v : Info → Prop} {c o : Comp} (h : Relation.ReflTransGen (FbStep v) c o) :
    Inside c o := by
  induction h using Relation.ReflTransGen.head_induction_on with
  | refl => exact .self
  | head h _ ih => exact h.1.inside.trans ih

/-! ### `getItems` -/

theorem mem_below (f : Filter) (d : Comp) (cs : List Comp) :
    d ∈ below f cs ↔ ∃ e ∈ cs, Enters f e.info ∧ e.info.kind.supports .folder = true ∧
      d ∈ getItems f e := by
  induction cs with
  | nil => simp [below]
  | cons c cs ih =>
    rw [below, List.mem_append, ih]
    simp only [List.exists_mem_cons_iff]
    refine or_congr ?_ Iff.rfl
    rw [← visit_iff]
    by_cases hv : f.visit c.info = true <;> by_cases hk : c.info.kind.supports .folder = true <;>
      simp [hv, hk]

theorem getItems_eq (f : Filter) (c : Comp) : getItems f c =
    ordSet (c.items.filter (fun x => f.accepts x.info) ++
      (if f.isRecursive then below f c.items else [])) := by
  cases c; rw [getItems]; rfl

theorem getItems_sound {f : Filter} (n : Nat) : ∀ c : Comp, sizeOf c < n → ∀ d,
    d ∈ getItems f c → Wants f d.info ∧ Under (Enters f) c d := by
  induction n with
  | zero => intro c h; omega
  | succ n ih =>
    intro c hn d hd
    rw [getItems_eq] at hd
    rcases List.mem_append.mp (mem_ordSet hd) with h | h
    · obtain ⟨h1, h2⟩ := List.mem_filter.mp h
      exact ⟨(accepts_iff f _).mp h2, .child h1⟩
    · split at h
      · obtain ⟨e, he, hv, hk, hg⟩ := (mem_below f d c.items).mp h
        obtain ⟨h1, h2⟩ := ih e (by have := size_item he; omega) d hg
        exact ⟨h1, .deeper he hv hk h2⟩
      · exact absurd h (by simp)

theorem getItems_inside {f : Filter} {c d : Comp} (h : d ∈ getItems f c) : Inside c d :=
  (getItems_sound _ c (Nat.lt_succ_self _) d h).2.inside

theorem getItems_list_inside (f : Filter) (c : Comp) : ∀ x ∈ c.items.filter (fun x => f.accepts x.info) ++
      (if f.isRecursive then below f c.items else []), Inside c x := by
  intro x hx
  rcases List.mem_append.mp hx with h | h
  · exact inside_item (List.mem_filter.mp h).1
  · split at h
    · obtain ⟨e, he, _, _, hg⟩ := (mem_below f x c.items).mp h
      exact .step he (getItems_inside hg)
    · exact absurd h (by simp)

theorem getItems_complete {f : Filter} (hr : f.isRecursive = true) {c d : Comp}
    (h : Under (Enters f) c d) (hw : Wants f d.info) (hu : UniqueIds c) : d ∈ getItems f c := by
  induction h with
  | child h =>
    rw [getItems_eq, mem_ordSet_iff hu (getItems_list_inside f _)]
    exact List.mem_append_left _ (List.mem_filter.mpr ⟨h, (accepts_iff f _).mpr hw⟩)
  | deeper he hv hk _ ih =>
    rw [getItems_eq, mem_ordSet_iff hu (getItems_list_inside f _)]
    refine List.mem_append_right _ ?_
    rw [if_pos hr, mem_below]
    exact ⟨_, he, hv, hk, ih hw (hu.sub (inside_item he))⟩

theorem mem_getItems {f : Filter} (hr : f.isRecursive = true) {c : Comp} (hu : UniqueIds c) (d : Comp) :
    d ∈ getItems f c ↔ Wants f d.info ∧ Under (Enters f) c d :=
  ⟨getItems_sound _ c (Nat.lt_succ_self _) d, fun h => getItems_complete hr h.2 h.1 hu⟩

theorem part_inside (r : Role) (c : Comp) {d : Comp} (h : Inside (part r c) d) (hne : d ≠ part r c) :
    Inside c d := by
  cases h with
  | self => exact absurd rfl hne
  | step he hi => exact ((part_items r c _).mp he).inside.trans hi

/-- Everything under the folder a member points to is inside the component. -/
theorem under_part_inside {v : Info → Prop} (r : Role) (c : Comp) {d : Comp} (h : Under v (part r c) d) :
    Inside c d := by
  cases h with
  | child h => exact ((part_items r c _).mp h).inside
  | deeper he _ _ hu => exact ((part_items r c _).mp he).inside.trans hu.inside

theorem part_or (r : Role) (c : Comp) : part r c ∈ c.items ∨ (part r c).items = [] := by
  unfold part
  cases h : c.items.find? (fun x => x.info.role == some r) with
  | none => exact .inr rfl
  | some x => exact .inl (find_mem h)

theorem part_unique (r : Role) {c : Comp} (hu : UniqueIds c) : UniqueIds (part r c) := by
  rcases part_or r c with h | h
  · exact hu.sub (inside_item h)
  · intro a b ha hb _
    have hs : ∀ x, Inside (part r c) x → x = part r c := by
      intro x hx
      cases hx with
      | self => rfl
      | step he _ => rw [h] at he; exact absurd he (by simp)
    rw [hs a ha, hs b hb]

/-- In a folder of signals or ports a search sees the items and nothing else. -/
theorem mem_part_leaf {f : Filter} (r : Role) (hleaf : ∀ k, Fits r k → k.supports .folder = false)
    {c : Comp} (hu : UniqueIds c) (ht : Typed c) (d : Comp) :
    d ∈ getItems f (part r c) ↔ Wants f d.info ∧ Holds r c d := by
  constructor
  · intro h
    obtain ⟨h1, h2⟩ := getItems_sound _ _ (Nat.lt_succ_self _) d h
    refine ⟨h1, ?_⟩
    cases h2 with
    | child h => exact (part_items r c d).mp h
    | deeper he _ hk _ =>
      have := hleaf _ (Holds.fits ht ((part_items r c _).mp he))
      rw [this] at hk; exact absurd hk (by simp)
  · rintro ⟨h1, h2⟩
    rw [getItems_eq, mem_ordSet_iff (part_unique r hu) (getItems_list_inside f _)]
    exact List.mem_append_left _
      (List.mem_filter.mpr ⟨(part_items r c d).mpr h2, (accepts_iff f _).mpr h1⟩)

theorem sig_leaf : ∀ k, Fits .sig k → k.supports .folder = false := by
  intro k h; cases h; rfl

theorem ip_leaf : ∀ k, Fits .ip k → k.supports .folder = false := by
  intro k h; cases h; rfl

end Verif.Search
