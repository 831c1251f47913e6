import Verif.Boxes.Contents

/-!
# The entries after each act
-/

namespace Verif.Boxes

theorem find_none (cfg : Cfg) (es : List (Nat × Option Nat)) (k : Nat)
    (h : es.find? (fun e => cfg.key e.1 = cfg.key k) = none) (e : Nat × Option Nat) (m : e ∈ es) :
    cfg.key e.1 ≠ cfg.key k := by
  have := List.find?_eq_none.mp h e m
  simpa using this

theorem find_some (cfg : Cfg) (es : List (Nat × Option Nat)) (k : Nat) (e : Nat × Option Nat)
    (h : es.find? (fun e => cfg.key e.1 = cfg.key k) = some e) : e ∈ es ∧ cfg.key e.1 = cfg.key k :=
  ⟨List.mem_of_find?_eq_some h, by simpa using List.find?_some h⟩

theorem under_unique (cfg : Cfg) : ∀ (es : List (Nat × Option Nat)), Distinct cfg es →
    ∀ a ∈ es, ∀ b ∈ es, cfg.key a.1 = cfg.key b.1 → a = b
  | [], _, a, ma, _, _, _ => by cases ma
  | e :: es, d, a, ma, b, mb, q => by
    unfold Distinct at d
    rw [List.map_cons, List.nodup_cons] at d
    rcases List.mem_cons.mp ma with rfl | ma'
    · rcases List.mem_cons.mp mb with rfl | mb
      · rfl
      · exact absurd (List.mem_map.mpr ⟨b, mb, q.symm⟩) d.1
    · rcases List.mem_cons.mp mb with rfl | mb'
      · exact absurd (List.mem_map.mpr ⟨a, ma', q⟩) d.1
      · exact under_unique cfg es d.2 a ma' b mb' q

theorem keys_replace (cfg : Cfg) (k : Nat) (v : Option Nat) : ∀ (es : List (Nat × Option Nat)),
    (replace cfg k v es).map (·.1) = es.map (·.1)
  | [] => rfl
  | e :: es => by
    simp only [replace]
    split
    · rfl
    · rw [List.map_cons, List.map_cons, keys_replace cfg k v es]

theorem distinct_of_keys {cfg : Cfg} {a b : List (Nat × Option Nat)} (h : a.map (·.1) = b.map (·.1))
    (d : Distinct cfg b) : Distinct cfg a := by
  unfold Distinct at d ⊢
  have e : ∀ l : List (Nat × Option Nat), l.map (fun e => cfg.key e.1) = (l.map (·.1)).map cfg.key := by
    intro l; rw [List.map_map]; rfl
  rw [e] at d ⊢
  rw [h]
  exact d

theorem under_replace (cfg : Cfg) (k : Nat) (v : Option Nat) : ∀ (es : List (Nat × Option Nat)),
    Distinct cfg es → (∃ e ∈ es, cfg.key e.1 = cfg.key k) → ∀ k' v',
    Under cfg (replace cfg k v es) k' v' ↔ if cfg.key k' = cfg.key k then v' = v else Under cfg es k' v'
  | [], _, h, _, _ => by obtain ⟨e, m, _⟩ := h; cases m
  | e :: es, d, h, k', v' => by
    have d' := d
    unfold Distinct at d'
    rw [List.map_cons, List.nodup_cons] at d'
    simp only [replace]
    by_cases q : cfg.key e.1 = cfg.key k
    · rw [if_pos q]
      constructor
      · rintro ⟨e', m, h1, h2⟩
        rcases List.mem_cons.mp m with rfl | m
        · rw [if_pos (by exact h1.symm.trans q)]; exact h2.symm
        · have : ¬ cfg.key k' = cfg.key k := fun h3 =>
            d'.1 (List.mem_map.mpr ⟨e', m, h1.trans (h3.trans q.symm)⟩)
          rw [if_neg this]
          exact ⟨e', List.mem_cons_of_mem _ m, h1, h2⟩
      · intro hh
        by_cases p : cfg.key k' = cfg.key k
        · rw [if_pos p] at hh
          exact ⟨(e.1, v), List.mem_cons_self, q.trans p.symm, hh.symm⟩
        · rw [if_neg p] at hh
          obtain ⟨e', m, h1, h2⟩ := hh
          rcases List.mem_cons.mp m with rfl | m
          · exact absurd (h1.symm.trans q) p
          · exact ⟨e', List.mem_cons_of_mem _ m, h1, h2⟩
    · rw [if_neg q]
      have h' : ∃ e ∈ es, cfg.key e.1 = cfg.key k := by
        obtain ⟨e', m, h1⟩ := h
        rcases List.mem_cons.mp m with rfl | m
        · exact absurd h1 q
        · exact ⟨e', m, h1⟩
      have ih := under_replace cfg k v es d'.2 h' k' v'
      constructor
      · rintro ⟨e', m, h1, h2⟩
        rcases List.mem_cons.mp m with rfl | m
        · rw [if_neg (fun p => q (h1.trans p))]
          exact ⟨e', List.mem_cons_self, h1, h2⟩
        · have := ih.mp ⟨e', m, h1, h2⟩
          split at this
          · rename_i p; rw [if_pos p]; exact this
          · rename_i p; rw [if_neg p]
            obtain ⟨e'', m, h1, h2⟩ := this
            exact ⟨e'', List.mem_cons_of_mem _ m, h1, h2⟩
      · intro hh
        by_cases p : cfg.key k' = cfg.key k
        · rw [if_pos p] at hh
          obtain ⟨e'', m, h1, h2⟩ := ih.mpr (by rw [if_pos p]; exact hh)
          exact ⟨e'', List.mem_cons_of_mem _ m, h1, h2⟩
        · rw [if_neg p] at hh
          obtain ⟨e', m, h1, h2⟩ := hh
          rcases List.mem_cons.mp m with rfl | m
          · exact ⟨e', List.mem_cons_self, h1, h2⟩
          · obtain ⟨e'', m, h1, h2⟩ := ih.mpr (by rw [if_neg p]; exact ⟨e', m, h1, h2⟩)
            exact ⟨e'', List.mem_cons_of_mem _ m, h1, h2⟩

theorem erase_filter (cfg : Cfg) (k : Nat) : ∀ (es : List (Nat × Option Nat)), Distinct cfg es →
    es.eraseP (fun e => cfg.key e.1 = cfg.key k) = es.filter (fun e => cfg.key e.1 ≠ cfg.key k)
  | [], _ => rfl
  | e :: es, d => by
    unfold Distinct at d
    rw [List.map_cons, List.nodup_cons] at d
    by_cases q : cfg.key e.1 = cfg.key k
    · rw [List.eraseP_cons_of_pos (by simpa using q), List.filter_cons_of_neg (by simpa using q)]
      symm
      rw [List.filter_eq_self]
      intro e' m
      simp only [ne_eq, decide_eq_true_eq]
      exact fun h => d.1 (List.mem_map.mpr ⟨e', m, h.trans q.symm⟩)
    · rw [List.eraseP_cons_of_neg (by simpa using q), List.filter_cons_of_pos (by simpa using q),
        erase_filter cfg k es d.2]

theorem distinct_erase {cfg : Cfg} {es : List (Nat × Option Nat)} (d : Distinct cfg es)
    (p : Nat × Option Nat → Bool) : Distinct cfg (es.eraseP p) :=
  List.Nodup.sublist ((List.eraseP_sublist).map _) d

theorem distinct_append {cfg : Cfg} {es : List (Nat × Option Nat)} (d : Distinct cfg es) (k : Nat)
    (v : Option Nat) (h : ∀ e ∈ es, cfg.key e.1 ≠ cfg.key k) : Distinct cfg (es ++ [(k, v)]) := by
  unfold Distinct at d ⊢
  rw [List.map_append, List.nodup_append]
  refine ⟨d, by simp, ?_⟩
  intro a ma b mb
  obtain ⟨e, me, rfl⟩ := List.mem_map.mp ma
  simp only [List.map_cons, List.map_nil, List.mem_singleton] at mb
  subst mb
  exact h e me

/-- The keys stay different. -/
theorem step_distinct (cfg : Cfg) (s : Sys) (op : Op) (d : Distinct cfg s.dict.entries) :
    Distinct cfg (s.step cfg op).1.dict.entries := by
  cases op with
  | get k =>
    simp only [Sys.step, Sys.dcall, Dict.get]
    cases k with
    | none => exact d
    | some k => simp only; split <;> exact d
  | set k v =>
    simp only [Sys.step, Sys.dcall, Dict.set]
    split
    · exact d
    · cases k with
      | none => exact d
      | some k =>
        simp only
        split
        · rename_i h
          exact distinct_append d k v (find_none cfg _ k h)
        · exact distinct_of_keys (keys_replace cfg k v _) d
  | remove k =>
    simp only [Sys.step, Sys.dcall, Dict.remove]
    split
    · exact d
    · cases k with
      | none => exact d
      | some k =>
        simp only
        split
        · exact d
        · exact distinct_erase d _
  | delete k =>
    simp only [Sys.step, Sys.dcall, Dict.delete]
    split
    · exact d
    · cases k with
      | none => exact d
      | some k =>
        simp only
        split
        · exact d
        · exact distinct_erase d _
  | clearD =>
    simp only [Sys.step, Sys.dcall, Dict.clear]
    split
    · exact d
    · exact List.nodup_nil
  | renewD b => exact List.nodup_nil
  | create x => exact d
  | copy x => exact d
  | drop x => exact d
  | getAt i => exact d
  | setAt i o => exact d
  | pushBack o => exact d
  | pushFront o => exact d
  | moveBack o => exact d
  | moveFront o => exact d
  | popBack => exact d
  | popFront => exact d
  | insertAt i o => exact d
  | removeAt i => exact d
  | deleteAt i => exact d
  | clear => exact d
  | freeze => exact d
  | renew b => exact d
  | freezeD => exact d

theorem run_distinct (cfg : Cfg) : ∀ (ops : List Op) (s : Sys), Distinct cfg s.dict.entries →
    Distinct cfg (s.run cfg ops).1.dict.entries
  | [], _, d => d
  | op :: ops, s, d => run_distinct cfg ops _ (step_distinct cfg s op d)

end Verif.Boxes
