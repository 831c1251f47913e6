import Verif.Common
import Verif.Values.Eq

/-! # Dictionaries -/

namespace Verif.Values

open Spec

variable {hd : Fl → Nat}

theorem lookup_eq (hh : HashOk hd) (k : V) (hk : (keyOf k).isSome) (l : KL) (hl : ∀ p ∈ l.toList, (keyOf p.1).isSome) :
    l.lookup hd k = some ((l.toList.find? fun p => sameKey p.1 k).map Prod.snd) := by
  have hn : k ≠ .null := by rintro rfl; simp [keyOf] at hk
  unfold KL.lookup
  simp only [hn, if_false]
  exact findM_plain hh k hk l hl

theorem push_toList (l : KL) (k v : V) : (l.push k v).toList = l.toList ++ [(k, v)] := by
  match l with
  | .nil => rfl
  | .cons k' v' r => simp [KL.push, KL.toList, push_toList r]

theorem map_other (l : List (V × V)) (k v : V) (h : ∀ p ∈ l, ¬ keyOf p.1 = keyOf k) :
    (l.map fun p => if sameKey p.1 k then (p.1, v) else p) = l := by
  induction l with
  | nil => rfl
  | cons p l ih =>
    simp only [List.mem_cons, forall_eq_or_imp] at h
    rw [List.map_cons, ih h.2]
    simp [sameKey, h.1]

theorem filter_other (l : List (V × V)) (k : V) (h : ∀ p ∈ l, ¬ keyOf p.1 = keyOf k) :
    (l.filter fun p => !sameKey p.1 k) = l := by
  rw [List.filter_eq_self]
  intro p hp
  simp [sameKey, h p hp]

theorem update_toList (hh : HashOk hd) (k v : V) (hk : (keyOf k).isSome) (l : KL) (hl : ∀ p ∈ l.toList, (keyOf p.1).isSome)
    (hn : (l.toList.map fun p => keyOf p.1).Nodup) :
    (l.update hd k v).toList = l.toList.map fun p => if sameKey p.1 k then (p.1, v) else p := by
  match l with
  | .nil => rfl
  | .cons k' v' r =>
    simp only [KL.toList, List.mem_cons, forall_eq_or_imp] at hl
    simp only [KL.toList, List.map_cons, List.nodup_cons] at hn
    simp only [KL.update, keyHit_eqv hh hk hl.1]
    by_cases e : keyOf k' = keyOf k
    · have := map_other r.toList k v (fun p hp e' => hn.1 (List.mem_map.mpr ⟨p, hp, e'.trans e.symm⟩))
      simp only [e, decide_true, if_true, KL.toList, List.map_cons]
      rw [this]
      simp [sameKey, e]
    · simp only [e, decide_false, Option.some.injEq, Bool.false_eq_true, if_false, KL.toList, List.map_cons]
      rw [update_toList hh k v hk r hl.2 hn.2]
      simp [sameKey, e]

theorem erase_toList (hh : HashOk hd) (k : V) (hk : (keyOf k).isSome) (l : KL) (hl : ∀ p ∈ l.toList, (keyOf p.1).isSome)
    (hn : (l.toList.map fun p => keyOf p.1).Nodup) :
    (l.erase hd k).toList = l.toList.filter fun p => !sameKey p.1 k := by
  match l with
  | .nil => rfl
  | .cons k' v' r =>
    simp only [KL.toList, List.mem_cons, forall_eq_or_imp] at hl
    simp only [KL.toList, List.map_cons, List.nodup_cons] at hn
    simp only [KL.erase, keyHit_eqv hh hk hl.1]
    by_cases e : keyOf k' = keyOf k
    · have := filter_other r.toList k (fun p hp e' => hn.1 (List.mem_map.mpr ⟨p, hp, e'.trans e.symm⟩))
      simp only [e, decide_true, if_true, KL.toList]
      rw [List.filter_cons_of_neg (by simp [sameKey, e]), this]
    · simp only [e, decide_false, Option.some.injEq, Bool.false_eq_true, if_false, KL.toList]
      rw [List.filter_cons_of_pos (by simp [sameKey, e]), erase_toList hh k hk r hl.2 hn.2]

/-- The dictionary stands for the map, and its keys are proper and different. -/
structure Rep (d : Dict) (m : Map) : Prop where
  items : d.entries.toList = m.items
  frozen : d.frozen = m.frozen
  keys : ∀ p ∈ m.items, (keyOf p.1).isSome
  nodup : (m.items.map fun p => keyOf p.1).Nodup

theorem rep_init : Rep .init ⟨[], false⟩ := ⟨rfl, rfl, by simp, by simp⟩

theorem find_none {l : List (V × V)} {k : V} (h : (l.find? fun p => sameKey p.1 k) = none) : ∀ p ∈ l, ¬ keyOf p.1 = keyOf k := by
  rw [List.find?_eq_none] at h
  intro p hp e
  exact h p hp (by simp [sameKey, e])

theorem rep_step (hh : HashOk hd) {d : Dict} {m : Map} (h : Rep d m) (o : DOp) (ho : KeyOk o) :
    Rep (d.step hd o).1 (m.step o).1 ∧ (d.step hd o).2 = (m.step o).2 := by
  obtain ⟨hi, hf, hk, hn⟩ := h
  have hk' : ∀ p ∈ d.entries.toList, (keyOf p.1).isSome := by rw [hi]; exact hk
  have hn' : (d.entries.toList.map fun p => keyOf p.1).Nodup := by rw [hi]; exact hn
  have hrep : Rep d m := ⟨hi, hf, hk, hn⟩
  have look : ∀ k, (keyOf k).isSome → d.entries.lookup hd k = some (m.find k) := by
    intro k hkk
    rw [lookup_eq hh k hkk _ hk', hi]; rfl
  have hdel : ∀ k, (keyOf k).isSome → Rep { d with entries := d.entries.erase hd k } ⟨m.items.filter fun p => !sameKey p.1 k, m.frozen⟩ := by
    intro k hkk
    refine ⟨by rw [← hi]; exact erase_toList hh k hkk _ hk' hn', hf, ?_, ?_⟩
    · exact fun p hp => hk p (List.mem_filter.mp hp).1
    · exact (List.filter_sublist.map _).nodup hn
  cases o with
  | get k =>
    refine ⟨hrep, ?_⟩
    simp only [Dict.step, Dict.get, Map.step]
    by_cases e : k = .null
    · simp only [e, if_true]
    · simp only [e, if_false]
      rw [look k (ho.resolve_left e)]
      cases m.find k <;> rfl
  | set k v =>
    simp only [Dict.step, Dict.set, Map.step]
    rw [hf]
    by_cases hfr : m.frozen = true
    · simp only [hfr, if_true]; exact ⟨hrep, by trivial⟩
    · simp only [hfr, Bool.false_eq_true, if_false]
      by_cases e : k = .null
      · simp only [e, if_true]; exact ⟨hrep, by trivial⟩
      · simp only [e, if_false]
        have hkk := ho.resolve_left e
        rw [look k hkk]
        cases hq : m.find k with
        | none =>
          simp only [Option.isSome_none, Bool.false_eq_true, if_false]
          have hno : ∀ p ∈ m.items, ¬ keyOf p.1 = keyOf k := by
            unfold Map.find at hq
            exact find_none (by simpa using hq)
          refine ⟨⟨by rw [← hi]; exact push_toList _ _ _, rfl, ?_, ?_⟩, by trivial⟩
          · intro p hp
            rcases List.mem_append.mp hp with hp | hp
            · exact hk p hp
            · rw [List.mem_singleton.mp hp]; exact hkk
          · simp only [List.map_append, List.map_cons, List.map_nil]
            rw [List.nodup_append]
            refine ⟨hn, by simp, ?_⟩
            intro a ha b hb hab
            obtain ⟨p, hp, rfl⟩ := List.mem_map.mp ha
            rw [List.mem_singleton] at hb
            exact hno p hp (hab.trans hb)
        | some w =>
          simp only [Option.isSome_some, if_true]
          refine ⟨⟨by rw [← hi]; exact update_toList hh k v hkk _ hk' hn', rfl, ?_, ?_⟩, by trivial⟩
          · intro p hp
            obtain ⟨q, hq, rfl⟩ := List.mem_map.mp hp
            split <;> exact hk q hq
          · have : ((m.items.map fun p => if sameKey p.1 k then (p.1, v) else p).map fun p => keyOf p.1) = m.items.map fun p => keyOf p.1 := by
              rw [List.map_map]
              apply List.map_congr_left
              intro p _
              simp only [Function.comp]
              split <;> rfl
            rw [this]; exact hn
  | remove k =>
    simp only [Dict.step, Dict.remove, Map.step]
    rw [hf]
    by_cases hfr : m.frozen = true
    · simp only [hfr, if_true]; exact ⟨hrep, by trivial⟩
    · simp only [hfr, Bool.false_eq_true, if_false]
      by_cases e : k = .null
      · simp only [e, if_true]; exact ⟨hrep, by trivial⟩
      · simp only [e, if_false]
        have hkk := ho.resolve_left e
        rw [look k hkk]
        have hx := hdel k hkk
        have hfr' : m.frozen = false := by simpa using hfr
        rw [hf, hfr'] at hx
        cases m.find k with
        | none => exact ⟨hrep, rfl⟩
        | some w => exact ⟨hx, rfl⟩
  | deleteItem k =>
    simp only [Dict.step, Dict.remove, Map.step]
    rw [hf]
    by_cases hfr : m.frozen = true
    · simp only [hfr, if_true]; exact ⟨hrep, by trivial⟩
    · simp only [hfr, Bool.false_eq_true, if_false]
      by_cases e : k = .null
      · simp only [e, if_true]; exact ⟨hrep, by trivial⟩
      · simp only [e, if_false]
        have hkk := ho.resolve_left e
        rw [look k hkk]
        have hx := hdel k hkk
        have hfr' : m.frozen = false := by simpa using hfr
        rw [hf, hfr'] at hx
        cases m.find k with
        | none => exact ⟨hrep, rfl⟩
        | some w => exact ⟨hx, rfl⟩
  | clear =>
    simp only [Dict.step, Map.step]
    rw [hf]
    by_cases hfr : m.frozen = true
    · simp only [hfr, if_true]; exact ⟨hrep, by trivial⟩
    · simp only [hfr, Bool.false_eq_true, if_false]
      exact ⟨⟨rfl, rfl, by simp, by simp⟩, by trivial⟩
  | count => exact ⟨hrep, by simp only [Dict.step, Map.step]; rw [KL.length_eq, hi]⟩
  | hasKey k =>
    refine ⟨hrep, ?_⟩
    simp only [Dict.step, Map.step]
    rw [look k ho]
  | keys => exact ⟨hrep, by simp only [Dict.step, Map.step]; rw [hi]⟩
  | values => exact ⟨hrep, by simp only [Dict.step, Map.step]; rw [hi]⟩
  | freeze =>
    simp only [Dict.step, Map.step]
    rw [hf]
    by_cases hfr : m.frozen = true
    · simp only [hfr, if_true]; exact ⟨hrep, by trivial⟩
    · simp only [hfr, Bool.false_eq_true, if_false]
      exact ⟨⟨hi, rfl, hk, hn⟩, by trivial⟩
  | isFrozen => exact ⟨hrep, by simp only [Dict.step, Map.step]; rw [hf]⟩

/-- The state reached by a history of calls, and what the calls returned. -/
theorem rep_run (hh : HashOk hd) (ops : List DOp) (ho : ∀ o ∈ ops, KeyOk o) {d : Dict} {m : Map} (h : Rep d m) :
    Rep (runTrace (Dict.step hd) d ops).1 (runTrace Map.step m ops).1 ∧
      (runTrace (Dict.step hd) d ops).2 = (runTrace Map.step m ops).2 := by
  induction ops generalizing d m with
  | nil => exact ⟨h, rfl⟩
  | cons o ops ih =>
    obtain ⟨h1, h2⟩ := rep_step hh h o (ho o List.mem_cons_self)
    obtain ⟨h3, h4⟩ := ih (fun o' h' => ho o' (List.mem_cons_of_mem _ h')) h1
    exact ⟨h3, by simp only [runTrace]; rw [h2, h4]⟩

end Verif.Values
