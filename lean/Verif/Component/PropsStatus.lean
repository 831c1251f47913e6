import Verif.Component.StatusSpec
import Mathlib.Data.List.Perm.Subperm
import Mathlib.Tactic.ByContra

/-! # C37 and C38: tags and statuses -/

namespace Verif.Component.Tags

theorem mem_insert (t : Tags) (n x : Str) : x ∈ insert t n ↔ x = n ∨ x ∈ t := by
  unfold insert
  split
  · rename_i h
    have h : n ∈ t := by simpa using h
    constructor
    · exact .inr
    · rintro (rfl | h')
      · exact h
      · exact h'
  · simp [or_comm]

theorem nodup_insert {t : Tags} (h : t.Nodup) (n : Str) : (insert t n).Nodup := by
  unfold insert
  split
  · exact h
  · rename_i hn
    rw [List.nodup_append]
    refine ⟨h, by simp, ?_⟩
    intro a ha b hb e
    simp at hb
    subst hb; subst e
    exact hn (by simpa using ha)

theorem foldl_insert (l : List Str) : ∀ t : Tags, t.Nodup →
    (l.foldl insert t).Nodup ∧ ∀ x, x ∈ l.foldl insert t ↔ x ∈ t ∨ x ∈ l := by
  induction l with
  | nil => intro t h; exact ⟨h, fun x => by simp⟩
  | cons a l ih =>
    intro t h
    obtain ⟨h1, h2⟩ := ih (insert t a) (nodup_insert h a)
    refine ⟨h1, fun x => ?_⟩
    rw [List.foldl_cons, h2, mem_insert]
    simp only [List.mem_cons]
    constructor
    · rintro ((h | h) | h)
      · exact .inr (.inl h)
      · exact .inl h
      · exact .inr (.inr h)
    · rintro (h | h | h)
      · exact .inl (.inr h)
      · exact .inl (.inl h)
      · exact .inr h

theorem step_mem (t : Tags) (ht : t.Nodup) (op : Op) :
    (step t op).1.Nodup ∧ ∀ x, x ∈ (step t op).1 ↔ after (fun y => y ∈ t) [op] x := by
  cases op with
  | add n =>
    unfold step
    simp only [after]
    split
    · rename_i h
      have h : n ∈ t := by simpa using h
      refine ⟨ht, fun x => ⟨.inr, ?_⟩⟩
      rintro (rfl | h')
      · exact h
      · exact h'
    · exact ⟨nodup_insert ht n, mem_insert t n⟩
  | remove n =>
    unfold step
    simp only [after]
    split
    · refine ⟨ht.filter _, fun x => ?_⟩
      rw [List.mem_filter]
      simp [and_comm]
    · rename_i h
      have h : n ∉ t := by simpa using h
      exact ⟨ht, fun x => ⟨fun hx => ⟨fun e => h (e ▸ hx), hx⟩, fun hx => hx.2⟩⟩
  | replace l =>
    unfold step
    simp only [after]
    obtain ⟨h1, h2⟩ := foldl_insert l [] List.nodup_nil
    exact ⟨h1, fun x => by rw [h2]; simp⟩

theorem after_congr {M M' : Str → Prop} (h : ∀ x, M x ↔ M' x) (ops : List Op) : ∀ x, after M ops x ↔ after M' ops x := by
  have : M = M' := funext fun x => propext (h x)
  subst this
  exact fun _ => Iff.rfl

theorem after_append (ops : List Op) (op : Op) : ∀ M, after M (ops ++ [op]) = after (after M ops) [op] := by
  induction ops with
  | nil => intro M; rfl
  | cons o ops ih =>
    intro M
    cases o <;> exact ih _

/-- **C37** After any calls, the list of tags has no duplicates, and a tag is contained exactly if it is a member of the
set that the calls describe. -/
theorem C37_set (ops : List Op) (n : Str) :
    (exec ops).1.Nodup ∧ (contains (exec ops).1 n = true ↔ after (fun _ => False) ops n) ∧
    (n ∈ (exec ops).1 ↔ contains (exec ops).1 n = true) := by
  have h : ∀ ops : List Op, (exec ops).1.Nodup ∧ ∀ x, x ∈ (exec ops).1 ↔ after (fun _ => False) ops x := by
    intro ops
    unfold exec
    induction ops using list_snoc_induction with
    | nil => exact ⟨List.nodup_nil, fun x => by simp [runTrace, after]⟩
    | snoc ops op ih =>
      rw [runTrace_snoc]
      obtain ⟨h1, h2⟩ := step_mem _ ih.1 op
      refine ⟨h1, fun x => ?_⟩
      rw [h2 x, after_append]
      exact after_congr ih.2 [op] x
  have hc : contains (exec ops).1 n = true ↔ n ∈ (exec ops).1 := by simp [contains]
  exact ⟨(h ops).1, by rw [hc]; exact (h ops).2 n, hc.symm⟩

example : contains (exec [.add ['a'], .add ['b'], .remove ['a'], .add ['b']]).1 ['b'] = true ∧
    contains (exec [.add ['a'], .add ['b'], .remove ['a'], .add ['b']]).1 ['a'] = false := by decide

/-- **C37** Adding a tag that is present or removing one that is absent is ignored and raises no event; any other call
succeeds and raises an event that carries the new tags. -/
theorem C37_events (ops : List Op) (op : Op) :
    (((∃ n, op = .add n ∧ contains (exec ops).1 n = true) ∨ (∃ n, op = .remove n ∧ contains (exec ops).1 n = false)) →
      step (exec ops).1 op = ((exec ops).1, .ignored, none)) ∧
    (¬ ((∃ n, op = .add n ∧ contains (exec ops).1 n = true) ∨ (∃ n, op = .remove n ∧ contains (exec ops).1 n = false)) →
      (step (exec ops).1 op).2 = (.success, some (step (exec ops).1 op).1)) := by
  generalize (exec ops).1 = t
  constructor
  · rintro (⟨n, rfl, h⟩ | ⟨n, rfl, h⟩)
    · unfold contains at h; unfold step; dsimp only; rw [if_pos h]
    · unfold contains at h; unfold step; dsimp only; rw [if_neg (by rw [h]; exact Bool.false_ne_true)]
  · intro h
    cases op with
    | add n =>
      have : ¬ t.contains n = true := fun e => h (.inl ⟨n, rfl, e⟩)
      unfold step; dsimp only; rw [if_neg this]
    | remove n =>
      have : t.contains n = true := by
        by_cases e : t.contains n = true
        · exact e
        · exact absurd (.inr ⟨n, rfl, by simpa [contains] using e⟩) h
      unfold step; dsimp only; rw [if_pos this]
    | replace l => rfl

/-- Lists without duplicates of the same length, one within the other, have the same members. -/
theorem subset_of_length {a b : List Str} (ha : a.Nodup) (hl : a.length = b.length) (h : ∀ x ∈ a, x ∈ b) : ∀ x ∈ b, x ∈ a := by
  induction a generalizing b with
  | nil => intro x hx; cases b with
    | nil => cases hx
    | cons _ _ => simp at hl
  | cons y a ih =>
    intro x hx
    obtain ⟨hy, ha'⟩ := List.nodup_cons.mp ha
    have hyb : y ∈ b := h y List.mem_cons_self
    by_cases e : x = y
    · subst e; exact List.mem_cons_self
    · have := ih ha' (b := b.erase y) (by rw [List.length_erase_of_mem hyb]; simp at hl; omega) (by
        intro z hz
        have hzy : z ≠ y := fun e => hy (e ▸ hz)
        exact (List.mem_erase_of_ne hzy).mpr (h z (List.mem_cons_of_mem _ hz))) x ((List.mem_erase_of_ne e).mpr hx)
      exact List.mem_cons_of_mem _ this

/-- **C37** Two tags objects are equal exactly when they have the same tags. -/
theorem C37_equals (ops ops' : List Op) :
    equals (exec ops).1 (exec ops').1 = true ↔ ∀ n, n ∈ (exec ops).1 ↔ n ∈ (exec ops').1 := by
  have h1 := (C37_set ops []).1
  have h2 := (C37_set ops' []).1
  revert h1 h2
  generalize (exec ops).1 = a
  generalize (exec ops').1 = b
  intro h1 h2
  unfold equals
  rw [Bool.and_eq_true, beq_iff_eq, List.all_eq_true]
  constructor
  · rintro ⟨hl, h⟩ n
    have h : ∀ x ∈ b, x ∈ a := fun x hx => by simpa using h x hx
    exact ⟨subset_of_length h2 hl h n, h n⟩
  · intro h
    refine ⟨?_, fun x hx => by simpa using (h x).mpr hx⟩
    have s1 : b.length ≤ a.length := (List.subperm_of_subset h2 (fun x hx => (h x).mpr hx)).length_le
    have s2 : a.length ≤ b.length := (List.subperm_of_subset h1 (fun x hx => (h x).mp hx)).length_le
    omega

/-- **C37** Writing the tags out and reading them back gives the same tags, in whatever order they were written. -/
theorem C37_roundTrip (ops : List Op) (l : List Str) (h : ∀ n, n ∈ l ↔ n ∈ (exec ops).1) :
    (deserialize l).Nodup ∧ ∀ n, n ∈ deserialize l ↔ n ∈ (exec ops).1 := by
  have : ∀ l : List Str, ∀ t : Tags, l.foldl (fun t n => (step t (.add n)).1) t = l.foldl insert t := by
    intro l
    induction l with
    | nil => intro t; rfl
    | cons a l ih =>
      intro t
      rw [List.foldl_cons, List.foldl_cons, ih]
      congr 1
      unfold step insert
      dsimp only
      split <;> rfl
  unfold deserialize
  rw [this]
  obtain ⟨h1, h2⟩ := foldl_insert l [] List.nodup_nil
  exact ⟨h1, fun n => by rw [h2, ← h]; simp⟩

/-- **C37** A client that starts with the same tags and is sent the events has the same tags after any further calls. -/
theorem C37_client (ops : List Op) (t c : Tags) (h : ∀ n, n ∈ c ↔ n ∈ t) :
    ∀ n, n ∈ replay c (runTrace step t ops).2 ↔ n ∈ (runTrace step t ops).1 := by
  induction ops generalizing t c with
  | nil => exact h
  | cons op ops ih =>
    intro n
    show n ∈ replay (clientEvent c (step t op).2.2) (runTrace step (step t op).1 ops).2 ↔ n ∈ (runTrace step (step t op).1 ops).1
    refine ih _ _ ?_ n
    intro x
    have key : (step t op).2.2 = none ∧ (step t op).1 = t ∨ (step t op).2.2 = some (step t op).1 := by
      cases op <;> unfold step <;> dsimp only <;> try split
      all_goals simp
    rcases key with ⟨e1, e2⟩ | e
    · rw [e1, e2]; exact h x
    · rw [e]
      show x ∈ (step t op).1.foldl insert [] ↔ _
      rw [(foldl_insert _ [] List.nodup_nil).2]; simp

example : replay [['x']] (runTrace step [['x']] [.add ['a'], .remove ['x'], .add ['a']]).2 = [['a']] := by decide

end Verif.Component.Tags

namespace Verif.Component.Status
open Verif.AList

structure Inv (b : Box) : Prop where
  paired : ∀ n, (b.statuses.get n).isSome = (b.messages.get n).isSome
  nodup : (b.statuses.map (·.1)).Nodup
  noEmpty : b.statuses.get [] = none

theorem nodup_put {l : AList Str Enu} (h : (l.map (·.1)).Nodup) (n : Str) (v : Enu) : ((l.put n v).map (·.1)).Nodup := by
  unfold AList.put AList.del
  rw [List.map_cons, List.nodup_cons]
  refine ⟨?_, List.Nodup.sublist (List.filter_sublist.map _) h⟩
  intro hm
  obtain ⟨⟨a, b⟩, hm, rfl⟩ := List.mem_map.mp hm
  have := (List.mem_filter.mp hm).2
  simp at this

theorem view_none {b : Box} (h : Inv b) (n : Str) : view b n = none ↔ b.statuses.get n = none := by
  unfold view getStatus getMessage
  have := h.paired n
  cases h1 : b.statuses.get n <;> cases h2 : b.messages.get n <;> rw [h1, h2] at this <;> simp at this ⊢

theorem view_some {b : Box} {n : Str} {v : Enu} {m : Str} :
    view b n = some (v, m) ↔ b.statuses.get n = some v ∧ b.messages.get n = some m := by
  unfold view getStatus getMessage
  cases b.statuses.get n <;> cases b.messages.get n <;> simp

theorem inv_add {b : Box} (h : Inv b) (n : Str) (v : Enu) (m : Str) : Inv (add b n v m).1 := by
  unfold add
  split
  · exact h
  · rename_i hn
    have hn : n ≠ [] := by simpa using hn
    split
    · exact h
    · refine ⟨?_, nodup_put h.nodup n v, ?_⟩
      · intro k
        show ((b.statuses.put n v).get k).isSome = ((b.messages.put n m).get k).isSome
        rw [get_put, get_put]
        split
        · rfl
        · exact h.paired k
      · show (b.statuses.put n v).get [] = none
        rw [get_put, if_neg (fun e => hn e.symm)]; exact h.noEmpty

theorem inv_set {b : Box} (h : Inv b) (n : Str) (v : Enu) (m : Str) : Inv (set b n v m).1 := by
  unfold set
  split
  · exact h
  · rename_i hn
    have hn : n ≠ [] := by simpa using hn
    split
    · rename_i old om ho hm
      have hs : ∀ k, ((b.statuses.put n v).get k).isSome = (b.statuses.get k).isSome := by
        intro k; rw [get_put]; split
        · rename_i e; rw [e, ho]; rfl
        · rfl
      have hs2 : ∀ k, ((b.messages.put n m).get k).isSome = (b.messages.get k).isSome := by
        intro k; rw [get_put]; split
        · rename_i e; rw [e, hm]; rfl
        · rfl
      have he : (b.statuses.put n v).get [] = none := by
        rw [get_put, if_neg (fun e => hn e.symm)]; exact h.noEmpty
      split
      · exact h
      · split
        · split
          · exact h
          · exact ⟨fun k => (h.paired k).trans (hs2 k).symm, h.nodup, h.noEmpty⟩
        · split
          · exact ⟨fun k => (hs k).trans ((h.paired k).trans (hs2 k).symm), nodup_put h.nodup n v, he⟩
          · exact ⟨fun k => (hs k).trans (h.paired k), nodup_put h.nodup n v, he⟩
    · exact h

theorem inv_step {b : Box} (h : Inv b) (op : Op) : Inv (step b op).1 := by
  cases op with
  | add n v m => exact inv_add h n v m
  | addPlain n v => exact inv_add h n v []
  | set n v m => exact inv_set h n v m
  | setPlain n v => exact inv_set h n v []

theorem inv_init : Inv {} := ⟨fun _ => rfl, List.nodup_nil, rfl⟩

theorem inv_exec (ops : List Op) : Inv (exec ops).1 := by
  unfold exec
  induction ops using list_snoc_induction with
  | nil => exact inv_init
  | snoc ops op ih => rw [runTrace_snoc]; exact inv_step ih op

/-- Adding in terms of what is seen. -/
theorem add_view {b : Box} (h : Inv b) (n : Str) (v : Enu) (m : Str) :
    (n = [] → add b n v m = (b, .error .invalidParameter)) ∧
    (n ≠ [] → view b n ≠ none → add b n v m = (b, .error .alreadyExists)) ∧
    (n ≠ [] → view b n = none → (add b n v m).2 = .success ∧
      ∀ k, view (add b n v m).1 k = if k = n then some (v, m) else view b k) := by
  refine ⟨?_, ?_, ?_⟩
  · rintro rfl; rfl
  · intro hn hv
    unfold add
    rw [if_neg (by simpa using hn), if_pos]
    unfold AList.has
    by_contra hc
    exact hv ((view_none h n).mpr (by simpa using hc))
  · intro hn hv
    have hv := (view_none h n).mp hv
    unfold add
    rw [if_neg (by simpa using hn), if_neg (by unfold AList.has; rw [hv]; simp)]
    refine ⟨rfl, fun k => ?_⟩
    simp only [view, getStatus, getMessage, get_put]
    by_cases e : k = n
    · simp only [if_pos e]
    · simp only [if_neg e]

/-- Setting in terms of what is seen. -/
theorem set_view {b : Box} (h : Inv b) (n : Str) (v : Enu) (m : Str) :
    (n = [] → set b n v m = (b, .error .invalidParameter, none)) ∧
    (n ≠ [] → view b n = none → set b n v m = (b, .error .notFound, none)) ∧
    (∀ o om, view b n = some (o, om) →
      (v.ty ≠ o.ty → set b n v m = (b, .error .invalidType, none)) ∧
      (v = o → m = om → set b n v m = (b, .ignored, none)) ∧
      (v.ty = o.ty → (v, m) ≠ (o, om) → (set b n v m).2 = (.success, some (eventParams n v m)) ∧
        ∀ k, view (set b n v m).1 k = if k = n then some (v, m) else view b k)) := by
  refine ⟨?_, ?_, ?_⟩
  · rintro rfl; rfl
  · intro hn hv
    have hv := (view_none h n).mp hv
    unfold set
    rw [if_neg (by simpa using hn), hv]
  · intro o om hv
    obtain ⟨h1, h2⟩ := view_some.mp hv
    have hn : n ≠ [] := by rintro rfl; rw [h.noEmpty] at h1; cases h1
    unfold set
    rw [if_neg (by simpa using hn), h1, h2]
    dsimp only
    refine ⟨?_, ?_, ?_⟩
    · intro ht; rw [if_pos (by simpa using ht)]
    · rintro rfl rfl; simp
    · intro ht hne
      rw [if_neg (by simpa using ht)]
      split
      · rename_i e
        have e : v = o := by simpa using e
        subst e
        have hm : om ≠ m := fun e => hne (by rw [e])
        rw [if_neg (by simpa using hm)]
        refine ⟨rfl, fun k => ?_⟩
        simp only [view, getStatus, getMessage, get_put]
        by_cases e : k = n
        · simp only [e, h1, if_true]
        · simp only [if_neg e]
      · split
        · refine ⟨rfl, fun k => ?_⟩
          simp only [view, getStatus, getMessage, get_put]
          by_cases e : k = n
          · simp only [if_pos e]
          · simp only [if_neg e]
        · rename_i hm
          have hm : om = m := by simpa using hm
          subst hm
          refine ⟨rfl, fun k => ?_⟩
          simp only [view, getStatus, getMessage, get_put]
          by_cases e : k = n
          · simp only [e, h2, if_true]
          · simp only [if_neg e]

/-- **C38** Adding a status: an empty name and a taken one are refused and change nothing, otherwise the status is seen
with its value and message and the others are as before. No event is raised. -/
theorem C38_add (ops : List Op) (n : Str) (v : Enu) (m : Str) :
    (step (exec ops).1 (.add n v m)).2.2 = none ∧
    (n = [] → step (exec ops).1 (.add n v m) = ((exec ops).1, .error .invalidParameter, none)) ∧
    (n ≠ [] → view (exec ops).1 n ≠ none → step (exec ops).1 (.add n v m) = ((exec ops).1, .error .alreadyExists, none)) ∧
    (n ≠ [] → view (exec ops).1 n = none → (step (exec ops).1 (.add n v m)).2.1 = .success ∧
      ∀ k, view (step (exec ops).1 (.add n v m)).1 k = if k = n then some (v, m) else view (exec ops).1 k) := by
  obtain ⟨h1, h2, h3⟩ := add_view (inv_exec ops) n v m
  refine ⟨rfl, ?_, ?_, h3⟩
  · intro e; unfold step; dsimp only; rw [h1 e]
  · intro e e'; unfold step; dsimp only; rw [h2 e e']

/-- **C38** Setting a status: an empty name, an unknown one and a value of another enumeration type are refused and change
nothing; the present value with the present message is ignored; otherwise the status is seen with the new value and
message, the others are as before, and one event is raised. -/
theorem C38_set (ops : List Op) (n : Str) (v : Enu) (m : Str) :
    (n = [] → step (exec ops).1 (.set n v m) = ((exec ops).1, .error .invalidParameter, none)) ∧
    (n ≠ [] → view (exec ops).1 n = none → step (exec ops).1 (.set n v m) = ((exec ops).1, .error .notFound, none)) ∧
    (∀ o om, view (exec ops).1 n = some (o, om) →
      (v.ty ≠ o.ty → step (exec ops).1 (.set n v m) = ((exec ops).1, .error .invalidType, none)) ∧
      (v = o → m = om → step (exec ops).1 (.set n v m) = ((exec ops).1, .ignored, none)) ∧
      (v.ty = o.ty → (v, m) ≠ (o, om) → (step (exec ops).1 (.set n v m)).2.1 = .success ∧
        (step (exec ops).1 (.set n v m)).2.2 ≠ none ∧
        ∀ k, view (step (exec ops).1 (.set n v m)).1 k = if k = n then some (v, m) else view (exec ops).1 k)) := by
  obtain ⟨h1, h2, h3⟩ := set_view (inv_exec ops) n v m
  refine ⟨h1, h2, fun o om hv => ?_⟩
  obtain ⟨h4, h5, h6⟩ := h3 o om hv
  refine ⟨h4, h5, fun ht hne => ?_⟩
  obtain ⟨h7, h8⟩ := h6 ht hne
  have e : step (exec ops).1 (.set n v m) = set (exec ops).1 n v m := rfl
  rw [e]
  exact ⟨by rw [h7], by rw [h7]; simp, h8⟩

/-- **C38** The calls without a message are those with the empty message. -/
theorem C38_plain (b : Box) (n : Str) (v : Enu) :
    step b (.addPlain n v) = step b (.add n v "".toList) ∧ step b (.setPlain n v) = step b (.set n v "".toList) := ⟨rfl, rfl⟩

example : view (exec [.add ['s'] ⟨1, 0⟩ ['m'], .set ['s'] ⟨1, 2⟩ ['e']]).1 ['s'] = some (⟨1, 2⟩, ['e']) ∧
    (step (exec [.add ['s'] ⟨1, 0⟩ ['m']]).1 (.set ['s'] ⟨2, 2⟩ ['e'])).2.1 = .error .invalidType := by decide

theorem step_keeps {b : Box} (h : Inv b) (op : Op) (n : Str) (o : Enu × Str) (hv : view b n = some o) :
    ∃ o', view (step b op).1 n = some o' ∧ o'.1.ty = o.1.ty := by
  have hadd : ∀ k v m, ∃ o', view (add b k v m).1 n = some o' ∧ o'.1.ty = o.1.ty := by
    intro k v m
    obtain ⟨h1, h2, h3⟩ := add_view h k v m
    by_cases hk : k = []
    · rw [h1 hk]; exact ⟨o, hv, rfl⟩
    · by_cases hn : view b k = none
      · rw [(h3 hk hn).2 n]
        split
        · rename_i e; rw [← e, hv] at hn; cases hn
        · exact ⟨o, hv, rfl⟩
      · rw [h2 hk hn]; exact ⟨o, hv, rfl⟩
  have hset : ∀ k v m, ∃ o', view (set b k v m).1 n = some o' ∧ o'.1.ty = o.1.ty := by
    intro k v m
    obtain ⟨h1, h2, h3⟩ := set_view h k v m
    by_cases hk : k = []
    · rw [h1 hk]; exact ⟨o, hv, rfl⟩
    · cases hn : view b k with
      | none => rw [h2 hk hn]; exact ⟨o, hv, rfl⟩
      | some p =>
        obtain ⟨p, pm⟩ := p
        obtain ⟨h4, h5, h6⟩ := h3 p pm hn
        by_cases ht : v.ty = p.ty
        · by_cases he : (v, m) = (p, pm)
          · rw [h5 (Prod.mk.inj he).1 (Prod.mk.inj he).2]; exact ⟨o, hv, rfl⟩
          · rw [(h6 ht he).2 n]
            split
            · rename_i e
              rw [e, hn] at hv
              cases hv
              exact ⟨(v, m), rfl, ht⟩
            · exact ⟨o, hv, rfl⟩
        · rw [h4 ht]; exact ⟨o, hv, rfl⟩
  cases op with
  | add k v m => exact hadd k v m
  | addPlain k v => exact hadd k v []
  | set k v m => exact hset k v m
  | setPlain k v => exact hset k v []

/-- **C38** Once added, a status stays, and its value is of the enumeration type with which it was added, whatever calls
follow. -/
theorem C38_type (before later : List Op) (n : Str) (o : Enu × Str) (h : view (exec before).1 n = some o) :
    ∃ o', view (exec (before ++ later)).1 n = some o' ∧ o'.1.ty = o.1.ty := by
  induction later using list_snoc_induction with
  | nil => rw [List.append_nil]; exact ⟨o, h, rfl⟩
  | snoc later op ih =>
    obtain ⟨o1, h1, h2⟩ := ih
    have := step_keeps (inv_exec (before ++ later)) op n o1 h1
    unfold exec at this ⊢
    rw [← List.append_assoc, runTrace_snoc]
    obtain ⟨o2, h3, h4⟩ := this
    exact ⟨o2, h3, h4.trans h2⟩

/-! ## Reading back, and the client -/

theorem fold_add {b : Box} (hb : Inv b) (l : AList Str Enu) : ∀ r, Inv r → (∀ e ∈ l, b.statuses.get e.1 = some e.2) →
    (l.map (·.1)).Nodup → (∀ e ∈ l, view r e.1 = none) →
    Inv (l.foldl (fun r e => (add r e.1 e.2 ((b.messages.get e.1).getD [])).1) r) ∧
    ∀ n, view (l.foldl (fun r e => (add r e.1 e.2 ((b.messages.get e.1).getD [])).1) r) n =
      if n ∈ l.map (·.1) then view b n else view r n := by
  induction l with
  | nil => intro r hr _ _ _; exact ⟨hr, fun n => by simp⟩
  | cons e l ih =>
    intro r hr hl hn hv
    obtain ⟨k, v⟩ := e
    rw [List.map_cons, List.nodup_cons] at hn
    have hkb : b.statuses.get k = some v := hl (k, v) List.mem_cons_self
    have hk : k ≠ [] := by rintro rfl; rw [hb.noEmpty] at hkb; cases hkb
    obtain ⟨m, hm⟩ : ∃ m, b.messages.get k = some m := by
      have := hb.paired k
      rw [hkb] at this
      exact Option.isSome_iff_exists.mp this.symm
    obtain ⟨-, -, h3⟩ := add_view hr k v ((b.messages.get k).getD [])
    have hview := (h3 hk (hv (k, v) List.mem_cons_self)).2
    obtain ⟨i1, i2⟩ := ih (add r k v ((b.messages.get k).getD [])).1 (inv_add hr k v _)
      (fun e he => hl e (List.mem_cons_of_mem _ he)) hn.2 (by
        intro e he
        rw [hview]
        split
        · rename_i ek
          exact absurd (List.mem_map.mpr ⟨e, he, ek⟩) hn.1
        · exact hv e (List.mem_cons_of_mem _ he))
    refine ⟨i1, fun n => ?_⟩
    rw [List.foldl_cons]
    rw [i2 n]
    rw [List.map_cons]
    by_cases hnl : n ∈ l.map (·.1)
    · rw [if_pos hnl, if_pos (List.mem_cons_of_mem _ hnl)]
    · rw [if_neg hnl, hview]
      by_cases hnk : n = k
      · subst hnk
        rw [if_pos rfl, if_pos List.mem_cons_self, hm]
        exact (view_some.mpr ⟨hkb, hm⟩).symm
      · rw [if_neg hnk, if_neg (by simp only [List.mem_cons]; rintro (h | h); exacts [hnk h, hnl h])]

theorem get_of_mem' {l : AList Str Enu} (hn : (l.map (·.1)).Nodup) {e : Str × Enu} (h : e ∈ l) : AList.get l e.1 = some e.2 := by
  induction l with
  | nil => cases h
  | cons a l ih =>
    obtain ⟨x, y⟩ := a
    simp only [List.map_cons, List.nodup_cons] at hn
    rw [get_cons]
    rcases List.mem_cons.mp h with e' | h
    · rw [e', if_pos rfl]
    · have : e.1 ≠ x := fun e' => hn.1 (e' ▸ List.mem_map.mpr ⟨e, h, rfl⟩)
      rw [if_neg this]
      exact ih hn.2 h

theorem deserialize_view {b : Box} (h : Inv b) : Inv (deserialize b) ∧ ∀ n, view (deserialize b) n = view b n := by
  obtain ⟨h1, h2⟩ := fold_add h b.statuses {} inv_init (fun e he => get_of_mem' h.nodup he) h.nodup (fun _ _ => rfl)
  refine ⟨h1, fun n => (h2 n).trans ?_⟩
  split
  · rfl
  · rename_i hn
    have : b.statuses.get n = none := by
      cases hg : b.statuses.get n with
      | none => rfl
      | some v => exact absurd (List.mem_map.mpr ⟨_, mem_of_get hg, rfl⟩) hn
    exact ((view_none h n).mpr this).symm

/-- **C38** Writing the statuses out and reading them back gives the same statuses and messages. -/
theorem C38_roundTrip (ops : List Op) (n : Str) : view (deserialize (exec ops).1) n = view (exec ops).1 n :=
  (deserialize_view (inv_exec ops)).2 n

theorem clientEvent_eq (c : Box) (n : Str) (v : Enu) (m : Str) (hn : n ≠ messageKey) :
    clientEvent c (eventParams n v m) = (set c n v m).1 := by
  have hp : eventParams n v m = [(messageKey, .text m), (n, .enum v)] := by
    unfold eventParams AList.put AList.del
    simp [hn]
  have hg : AList.get (eventParams n v m) messageKey = some (.text m) := by
    rw [hp, get_cons, if_pos rfl]
  unfold clientEvent
  rw [hg, hp]
  dsimp only
  unfold clientLoop clientLoop
  split
  · rename_i h; rw [h]
  · rename_i b' r e h1 h2
    rw [h2]; unfold clientLoop; rfl

/-- The client knows no status other than the server's, and those it knows are as at the server. -/
def Agree (c b : Box) : Prop := ∀ n, view c n = none ∨ view c n = view b n

theorem agree_set {c b : Box} (hc : Inv c) (hb : Inv b) (ha : Agree c b) (n : Str) (v : Enu) (m : Str) (hn : n ≠ messageKey) :
    Inv (match (set b n v m).2.2 with | none => c | some ps => clientEvent c ps) ∧
    Agree (match (set b n v m).2.2 with | none => c | some ps => clientEvent c ps) (set b n v m).1 ∧
    ∀ k, view (match (set b n v m).2.2 with | none => c | some ps => clientEvent c ps) k = none ↔ view c k = none := by
  obtain ⟨h1, h2, h3⟩ := set_view hb n v m
  by_cases hne : n = []
  · rw [h1 hne]; exact ⟨hc, ha, fun _ => Iff.rfl⟩
  · cases hv : view b n with
    | none => rw [h2 hne hv]; exact ⟨hc, ha, fun _ => Iff.rfl⟩
    | some o =>
      obtain ⟨o, om⟩ := o
      obtain ⟨h4, h5, h6⟩ := h3 o om hv
      by_cases ht : v.ty = o.ty
      · by_cases he : (v, m) = (o, om)
        · rw [h5 (Prod.mk.inj he).1 (Prod.mk.inj he).2]; exact ⟨hc, ha, fun _ => Iff.rfl⟩
        · obtain ⟨h7, h8⟩ := h6 ht he
          rw [h7]
          dsimp only
          rw [clientEvent_eq c n v m hn]
          refine ⟨inv_set hc n v m, ?_⟩
          obtain ⟨-, c2, c3⟩ := set_view hc n v m
          rcases ha n with hcn | hcn
          · rw [c2 hne hcn]
            refine ⟨fun k => ?_, fun _ => Iff.rfl⟩
            rw [h8 k]
            split
            · rename_i e; rw [e]; exact .inl hcn
            · exact ha k
          · rw [hv] at hcn
            obtain ⟨-, -, c6⟩ := c3 o om hcn
            have c8 := (c6 ht he).2
            refine ⟨fun k => ?_, fun k => ?_⟩
            · rw [h8 k, c8 k]
              split
              · exact .inr rfl
              · exact ha k
            · rw [c8 k]
              split
              · rename_i e; rw [e, hcn]; simp
              · exact Iff.rfl
      · rw [h4 ht]; exact ⟨hc, ha, fun _ => Iff.rfl⟩

theorem agree_add {c b : Box} (hb : Inv b) (ha : Agree c b) (n : Str) (v : Enu) (m : Str) : Agree c (add b n v m).1 := by
  obtain ⟨h1, h2, h3⟩ := add_view hb n v m
  by_cases hne : n = []
  · rw [h1 hne]; exact ha
  · by_cases hv : view b n = none
    · intro k
      rw [(h3 hne hv).2 k]
      split
      · rename_i e
        subst e
        rcases ha k with h | h
        · exact .inl h
        · exact .inl (h.trans hv)
      · exact ha k
    · rw [h2 hne hv]; exact ha

theorem messageKey_eq : messageKey = "Message".toList := by decide

/-- **C38** A client that has read the statuses and is sent the events afterwards sees, whatever is done at the server as
long as no status is called "Message", the present value and message of every status there was when it read them; and
no other. -/
theorem C38_client_partial (before later : List Op) (hl : ∀ op ∈ later, NotMessage op) (n : Str) :
    view (replay (deserialize (exec before).1) (runTrace step (exec before).1 later).2) n =
      if view (exec before).1 n = none then none else view (runTrace step (exec before).1 later).1 n := by
  have hb := inv_exec before
  revert hb
  generalize (exec before).1 = b
  intro hb
  obtain ⟨hc, hv⟩ := deserialize_view hb
  have ha : Agree (deserialize b) b := fun n => .inr (hv n)
  have hdom : ∀ k, view (deserialize b) k = none ↔ view b k = none := fun k => by rw [hv k]
  have hkeep : ∀ k, view b k ≠ none → view b k ≠ none := fun _ h => h
  have key : ∀ (later : List Op), (∀ op ∈ later, NotMessage op) → ∀ b c, Inv b → Inv c → Agree c b →
      Agree (replay c (runTrace step b later).2) (runTrace step b later).1 ∧
      ∀ k, view (replay c (runTrace step b later).2) k = none ↔ view c k = none := by
    intro later
    induction later with
    | nil => intro _ b c _ _ ha; exact ⟨ha, fun _ => Iff.rfl⟩
    | cons op ops ih =>
      intro hl b c hb hc ha
      have hop : NotMessage op := hl op List.mem_cons_self
      have hstep : Inv (match (step b op).2.2 with | none => c | some ps => clientEvent c ps) ∧
          Agree (match (step b op).2.2 with | none => c | some ps => clientEvent c ps) (step b op).1 ∧
          ∀ k, view (match (step b op).2.2 with | none => c | some ps => clientEvent c ps) k = none ↔ view c k = none := by
        cases op with
        | add n v m => exact ⟨hc, agree_add hb ha n v m, fun _ => Iff.rfl⟩
        | addPlain n v => exact ⟨hc, agree_add hb ha n v [], fun _ => Iff.rfl⟩
        | set n v m => exact agree_set hc hb ha n v m (by rw [messageKey_eq]; exact hop)
        | setPlain n v => exact agree_set hc hb ha n v [] (by rw [messageKey_eq]; exact hop)
      obtain ⟨k1, k2⟩ := ih (fun o ho => hl o (List.mem_cons_of_mem _ ho)) (step b op).1 _ (inv_step hb op) hstep.1 hstep.2.1
      exact ⟨k1, fun k => (k2 k).trans (hstep.2.2 k)⟩
  obtain ⟨k1, k2⟩ := key later hl b (deserialize b) hb hc ha
  by_cases hn : view b n = none
  · rw [if_pos hn]; exact (k2 n).mpr ((hdom n).mpr hn)
  · rw [if_neg hn]
    rcases k1 n with h | h
    · exact absurd ((hdom n).mp ((k2 n).mp h)) hn
    · exact h

example : (∀ op ∈ [Op.set ['s'] ⟨1, 2⟩ ['e']], NotMessage op) ∧
    view (replay (deserialize (exec [.add ['s'] ⟨1, 0⟩ ['m']]).1)
      (runTrace step (exec [.add ['s'] ⟨1, 0⟩ ['m']]).1 [.set ['s'] ⟨1, 2⟩ ['e']]).2) ['s'] = some (⟨1, 2⟩, ['e']) := by
  constructor
  · intro op h; simp at h; subst h; unfold NotMessage; decide
  · decide

/-- **C38 (violation)** The event for a status called "Message" carries the message in place of the value: the client
keeps the old value. -/
theorem C38_violation_message :
    (let before : List Op := [.add "Message".toList ⟨1, 0⟩ []]
     let later : List Op := [.set "Message".toList ⟨1, 5⟩ ['m']]
     view (runTrace step (exec before).1 later).1 "Message".toList = some (⟨1, 5⟩, ['m']) ∧
     view (replay (deserialize (exec before).1) (runTrace step (exec before).1 later).2) "Message".toList = some (⟨1, 0⟩, [])) := by
  decide

/-- **C38 (violation)** No event tells the client of an added status, and it refuses the later changes of that status. -/
theorem C38_violation_added :
    (let later : List Op := [.add ['s'] ⟨1, 0⟩ [], .set ['s'] ⟨1, 5⟩ ['m']]
     view (runTrace step (exec []).1 later).1 ['s'] = some (⟨1, 5⟩, ['m']) ∧
     view (replay (deserialize (exec []).1) (runTrace step (exec []).1 later).2) ['s'] = none) := by
  decide

end Verif.Component.Status
