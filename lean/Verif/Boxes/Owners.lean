import Verif.Boxes.DictSteps

/-!
# Who owns the elements of an owning list
-/

namespace Verif.Boxes

/-- The owner of a list of objects that can be owned, and that no object is in it twice. -/
def Sys.Tidy (cfg : Cfg) (s : Sys) (p : Nat) : Prop :=
  s.Owned cfg p ∧ ∀ x, s.lst.items.count (some x) ≤ 1

theorem dcall_tidy {cfg : Cfg} {s : Sys} {p : Nat} (r : DRet) (T : s.Tidy cfg p)
    (o : r.heap.owner = s.heap.owner) (q : ∀ x, 0 < r.heap.refs x → 0 < s.heap.refs x) :
    (s.dcall r).1.Tidy cfg p :=
  ⟨fun x h k => by
    show r.heap.owner x = _
    rw [o]
    exact T.1 x (q x h) k, T.2⟩

theorem same_tidy {cfg : Cfg} {s : Sys} {p : Nat} (T : s.Tidy cfg p) (c : Code) :
    (s.plain ⟨s.heap, s.lst, c, none⟩).1.Tidy cfg p := T

theorem none_or_owner (cfg : Cfg) (nb : ∀ x, cfg.kind x ≠ .bound) (h : Heap) (o p : Option Nat)
    (x : Nat) (k : cfg.kind x = .ownable) (hx : 0 < h.refs x) :
    (h.setOwner cfg o p).1.owner x = if o = some x then p else h.owner x := by
  cases o with
  | none => simp [Heap.setOwner]
  | some y =>
    simp only [Heap.setOwner]
    by_cases e : y = x
    · subst e
      rw [if_neg (show ¬ h.refs y = 0 by omega), k]
      simp [upd]
    · rw [if_neg (show ¬ some y = some x from fun h => e (Option.some.inj h))]
      split
      · rfl
      · cases kk : cfg.kind y with
        | plain => rfl
        | ownable => simp only [upd]; rw [if_neg (fun h => e h.symm)]
        | bound => exact absurd kk (nb y)

theorem setOwner_calm (cfg : Cfg) (nb : ∀ x, cfg.kind x ≠ .bound) (h : Heap) (o p : Option Nat) :
    (h.setOwner cfg o p).2 = .ok := by
  cases o with
  | none => rfl
  | some y =>
    simp only [Heap.setOwner]
    split
    · rfl
    · cases kk : cfg.kind y with
      | plain => rfl
      | ownable => rfl
      | bound => exact absurd kk (nb y)

theorem give_owner (cfg : Cfg) (nb : ∀ x, cfg.kind x ≠ .bound) (h : Heap) (o : Option Nat) (p : Nat)
    (c : (giveOwner cfg h p o).2.calm) (x : Nat) (k : cfg.kind x = .ownable) (hx : 0 < h.refs x) :
    (giveOwner cfg h p o).1.owner x = if o = some x then some p else h.owner x := by
  cases o with
  | none => simp [giveOwner]
  | some y =>
    revert c
    simp only [giveOwner]
    split
    · rename_i h0
      intro _
      rw [if_neg]
      intro e; cases e; omega
    · split
      · rename_i hk
        intro _
        rw [if_neg]
        intro e; cases e; rw [k] at hk; cases hk
      · split
        · exact fun c => absurd rfl c.1
        · exact fun _ => none_or_owner cfg nb h (some y) (some p) x k hx

/-- Storing an element that was not in the list. -/
theorem give_tidy {cfg : Cfg} {s : Sys} {p : Nat} (nb : ∀ x, cfg.kind x ≠ .bound) (T : s.Tidy cfg p)
    (w : s.lst.own = some p) (h : Heap) (l : Lst) (wl : l.own = s.lst.own) (o : Option Nat)
    (n : o = none ∨ o ∉ s.lst.items) (ho : h.owner = s.heap.owner)
    (hr : ∀ x, 0 < h.refs x → 0 < s.heap.refs x)
    (e : ∀ x, l.items.count (some x) = s.lst.items.count (some x) + one o x)
    (m : Nat → Nat) (c : (Ret.thenGive cfg o ⟨h, l, .ok, none⟩).code.calm)
    (P : ∀ x, 0 < (giveOwner cfg h p o).1.refs x → 0 < h.refs x) :
    Sys.Tidy cfg ⟨(Ret.thenGive cfg o ⟨h, l, .ok, none⟩).heap, m,
      (Ret.thenGive cfg o ⟨h, l, .ok, none⟩).lst, s.dict⟩ p := by
  have wl' : l.own = some p := wl.trans w
  simp only [Ret.thenGive, wl', if_true] at c ⊢
  refine ⟨fun x hx k => ?_, fun x => ?_⟩
  · have hx' := P x hx
    show (giveOwner cfg h p o).1.owner x = if some x ∈ l.items then some p else none
    rw [give_owner cfg nb h o p c x k hx', ho]
    have ee := e x
    by_cases q : o = some x
    · rw [if_pos q, if_pos]
      rw [one_le _ _ q] at ee
      exact List.count_pos_iff.mp (by omega)
    · rw [if_neg q]
      have z : one o x = 0 := if_neg q
      have : (some x ∈ l.items) ↔ (some x ∈ s.lst.items) := by
        rw [← List.count_pos_iff, ← List.count_pos_iff, ee, z, Nat.add_zero]
      simp only [this]
      exact T.1 x (hr x hx') k
  · show l.items.count (some x) ≤ 1
    rw [e x]
    have := T.2 x
    by_cases q : o = some x
    · rw [one_le _ _ q]
      rcases n with n | n
      · rw [n] at q; cases q
      · rw [q] at n
        have := List.count_eq_zero.mpr n
        omega
    · have z : one o x = 0 := if_neg q
      omega

/-- Taking an element out of a list in which it is once. -/
theorem free_tidy {cfg : Cfg} {s : Sys} {p : Nat} (nb : ∀ x, cfg.kind x ≠ .bound) (T : s.Tidy cfg p)
    (h : Heap) (l : Lst) (o : Option Nat) (ho : h.owner = s.heap.owner)
    (hr : ∀ x, 0 < h.refs x → 0 < s.heap.refs x)
    (e : ∀ x, s.lst.items.count (some x) = l.items.count (some x) + one o x)
    (m : Nat → Nat) (P : ∀ x, 0 < (h.setOwner cfg o none).1.refs x → 0 < h.refs x) :
    Sys.Tidy cfg ⟨(h.setOwner cfg o none).1, m, l, s.dict⟩ p := by
  refine ⟨fun x hx k => ?_, fun x => ?_⟩
  · have hx' := P x hx
    show (h.setOwner cfg o none).1.owner x = if some x ∈ l.items then some p else none
    rw [none_or_owner cfg nb h o none x k hx', ho]
    have ee := e x
    by_cases q : o = some x
    · rw [if_pos q, if_neg]
      rw [one_le _ _ q] at ee
      have := T.2 x
      exact List.count_eq_zero.mp (by omega)
    · rw [if_neg q]
      have z : one o x = 0 := if_neg q
      have : (some x ∈ l.items) ↔ (some x ∈ s.lst.items) := by
        rw [← List.count_pos_iff, ← List.count_pos_iff, ee, z, Nat.add_zero]
      simp only [this]
      exact T.1 x (hr x hx') k
  · show l.items.count (some x) ≤ 1
    have := e x
    have := T.2 x
    omega

theorem freeAll_owner (cfg : Cfg) (nb : ∀ x, cfg.kind x ≠ .bound) : ∀ (os : List (Option Nat)) (h : Heap),
    h.bad = false → (∀ x, some x ∈ os → 0 < h.refs x) → ∀ x, cfg.kind x = .ownable → 0 < h.refs x →
    (freeAll cfg h os).2 = .ok
      ∧ (freeAll cfg h os).1.owner x = if some x ∈ os then none else h.owner x
  | [], h, _, _, x, _, _ => ⟨rfl, by simp [freeAll]⟩
  | o :: os, h, b, l, x, k, hx => by
    obtain ⟨b1, r1⟩ := setOwner_spec cfg b (o := o) (fun x e => l x (e ▸ List.mem_cons_self)) none
    have c := setOwner_calm cfg nb h o none
    simp only [freeAll, if_pos c]
    obtain ⟨h1, h2⟩ := freeAll_owner cfg nb os _ b1 (fun y m => by
      rw [r1]; exact l y (List.mem_cons_of_mem _ m)) x k (by rw [r1]; exact hx)
    refine ⟨h1, ?_⟩
    rw [h2, none_or_owner cfg nb h o none x k hx]
    by_cases m : some x ∈ os
    · rw [if_pos m, if_pos (List.mem_cons_of_mem _ m)]
    · rw [if_neg m]
      by_cases q : o = some x
      · rw [if_pos q, if_pos (q ▸ List.mem_cons_self)]
      · rw [if_neg q, if_neg]
        intro h
        rcases List.mem_cons.mp h with h | h
        · exact q h.symm
        · exact m h

theorem setOwner_refs (cfg : Cfg) (h : Heap) (o p : Option Nat) : (h.setOwner cfg o p).1.refs = h.refs := by
  cases o with
  | none => rfl
  | some y =>
    simp only [Heap.setOwner]
    split
    · rfl
    · cases cfg.kind y with
      | plain => rfl
      | ownable => rfl
      | bound => simp only; split <;> rfl

theorem giveOwner_refs (cfg : Cfg) (h : Heap) (p : Nat) (o : Option Nat) :
    (giveOwner cfg h p o).1.refs = h.refs := by
  cases o with
  | none => rfl
  | some y =>
    simp only [giveOwner]
    split
    · rfl
    · split
      · rfl
      · split
        · rfl
        · exact setOwner_refs cfg h (some y) (some p)

theorem addRef_owner (h : Heap) (o : Option Nat) : (h.addRef o).owner = h.owner := by
  cases o with
  | none => rfl
  | some x => simp only [Heap.addRef]; split <;> rfl

theorem release_owner (h : Heap) (o : Option Nat) : (h.release o).owner = h.owner := by
  cases o with
  | none => rfl
  | some x => simp only [Heap.release]; split <;> rfl

theorem addRef_pos (h : Heap) (o : Option Nat) (x : Nat) (p : 0 < (h.addRef o).refs x) : 0 < h.refs x := by
  cases o with
  | none => exact p
  | some y =>
    revert p
    simp only [Heap.addRef]
    split
    · exact fun h => h
    · simp only [upd]
      split
      · rename_i h0 e; subst e; intro _; omega
      · exact fun h => h

theorem release_pos (h : Heap) (o : Option Nat) (x : Nat) (p : 0 < (h.release o).refs x) : 0 < h.refs x := by
  cases o with
  | none => exact p
  | some y =>
    revert p
    simp only [Heap.release]
    split
    · exact fun h => h
    · simp only [upd]
      split
      · rename_i h0 e; subst e; intro _; omega
      · exact fun h => h

theorem releaseEntries_keeps : ∀ (es : List (Nat × Option Nat)) (h : Heap),
    (h.releaseEntries es).owner = h.owner ∧ ∀ x, 0 < (h.releaseEntries es).refs x → 0 < h.refs x
  | [], _ => ⟨rfl, fun _ h => h⟩
  | e :: es, h => by
    obtain ⟨h1, h2⟩ := releaseEntries_keeps es ((h.release (some e.1)).release e.2)
    refine ⟨?_, fun x p => release_pos _ _ _ (release_pos _ _ _ (h2 x p))⟩
    simp only [Heap.releaseEntries]
    rw [h1, release_owner, release_owner]

theorem releaseAll_keeps : ∀ (es : List (Option Nat)) (h : Heap),
    (h.releaseAll es).owner = h.owner ∧ ∀ x, 0 < (h.releaseAll es).refs x → 0 < h.refs x
  | [], _ => ⟨rfl, fun _ h => h⟩
  | e :: es, h => by
    obtain ⟨h1, h2⟩ := releaseAll_keeps es (h.release e)
    refine ⟨?_, fun x p => release_pos _ _ _ (h2 x p)⟩
    simp only [Heap.releaseAll]
    rw [h1, release_owner]

theorem keep_tidy {cfg : Cfg} {s : Sys} {p : Nat} (T : s.Tidy cfg p) (h : Heap) (m : Nat → Nat) (d : Dict)
    (o : h.owner = s.heap.owner) (q : ∀ x, 0 < h.refs x → 0 < s.heap.refs x) :
    Sys.Tidy cfg ⟨h, m, s.lst, d⟩ p :=
  ⟨fun x hx k => by
    show h.owner x = _
    rw [o]
    exact T.1 x (q x hx) k, T.2⟩

theorem step_tidy (cfg : Cfg) (nb : ∀ x, cfg.kind x ≠ .bound) {s : Sys} {p : Nat} (S : s.Sound)
    (d : s.Live) (w : s.lst.own = some p) (T : s.Tidy cfg p) (op : Op) (L : s.Legal op) (O : Once s op)
    (c : (s.step cfg op).2.calm) : (s.step cfg op).1.Tidy cfg p := by
  cases op with
  | setAt i o => cases O
  | renew b => cases O
  | freeze => exact T
  | freezeD => exact T
  | create x =>
    have h0 : s.heap.refs x = 0 := L.1
    refine ⟨fun y hy k => ?_, T.2⟩
    have hy' : 0 < upd s.heap.refs x 1 y := hy
    show upd s.heap.owner x none y = if some y ∈ s.lst.items then some p else none
    unfold upd at hy' ⊢
    by_cases e : y = x
    · subst e
      rw [if_pos rfl, if_neg]
      intro m
      have := refs_pos_item S m
      omega
    · rw [if_neg e] at hy' ⊢
      exact T.1 y hy' k
  | copy x => exact keep_tidy T _ _ _ (addRef_owner _ _) (fun y h => addRef_pos _ _ y h)
  | drop x => exact keep_tidy T _ _ _ (release_owner _ _) (fun y h => release_pos _ _ y h)
  | getAt i =>
    simp only [Sys.step, Sys.taking, Lst.getAt]
    split
    · exact T
    · exact keep_tidy T _ _ _ (addRef_owner _ _) (fun y h => addRef_pos _ _ y h)
  | pushBack o =>
    revert c
    simp only [Sys.step, Sys.plain, Lst.pushBack]
    split
    · exact fun _ => T
    · exact fun c => give_tidy nb T w _ { s.lst with items := s.lst.items ++ [o] }
        rfl o O (addRef_owner _ _) (fun y h => addRef_pos _ _ y h)
        (fun x => by simp only; rw [count_append, count_cons_one, List.count_nil, Nat.zero_add]) _ c
        (fun x h => by rw [giveOwner_refs] at h; exact h)
  | pushFront o =>
    revert c
    simp only [Sys.step, Sys.plain, Lst.pushFront]
    split
    · exact fun _ => T
    · exact fun c => give_tidy nb T w _ { s.lst with items := o :: s.lst.items }
        rfl o O (addRef_owner _ _) (fun y h => addRef_pos _ _ y h)
        (fun x => count_cons_one _ _ x) _ c (fun x h => by rw [giveOwner_refs] at h; exact h)
  | insertAt i o =>
    revert c
    simp only [Sys.step, Sys.plain, Lst.insertAt]
    split
    · exact fun _ => T
    · split
      · exact fun _ => T
      · exact fun c => give_tidy nb T w _ { s.lst with items := s.lst.items.take i ++ o :: s.lst.items.drop i }
          rfl o O (addRef_owner _ _) (fun y h => addRef_pos _ _ y h)
          (fun x => by
            simp only
            rw [count_append, count_cons_one, count_split s.lst.items i x]
            omega) _ c (fun x h => by rw [giveOwner_refs] at h; exact h)
  | moveBack o =>
    revert c
    simp only [Sys.step, Sys.giving, Lst.moveBack]
    split
    · exact fun _ => T
    · exact fun c => give_tidy nb T w _ { s.lst with items := s.lst.items ++ [o] }
        rfl o O rfl (fun y h => h)
        (fun x => by simp only; rw [count_append, count_cons_one, List.count_nil, Nat.zero_add]) _ c
        (fun x h => by rw [giveOwner_refs] at h; exact h)
  | moveFront o =>
    revert c
    simp only [Sys.step, Sys.giving, Lst.moveFront]
    split
    · exact fun _ => T
    · exact fun c => give_tidy nb T w _ { s.lst with items := o :: s.lst.items }
        rfl o O rfl (fun y h => h)
        (fun x => count_cons_one _ _ x) _ c (fun x h => by rw [giveOwner_refs] at h; exact h)
  | popBack =>
    simp only [Sys.step, Sys.taking, Lst.popBack]
    split
    · exact T
    · split
      · exact T
      · rename_i h
        simp only [Ret.thenFree, w, if_true]
        exact free_tidy nb T s.heap ⟨s.lst.items.dropLast, s.lst.frozen, s.lst.disposed, some p⟩ _ rfl
          (fun _ h => h) (fun x => count_last _ h x) _ (fun x h => by rw [setOwner_refs] at h; exact h)
  | popFront =>
    simp only [Sys.step, Sys.taking, Lst.popFront]
    split
    · exact T
    · split
      · exact T
      · rename_i o os h
        simp only [Ret.thenFree, w, if_true]
        exact free_tidy nb T s.heap ⟨os, s.lst.frozen, s.lst.disposed, some p⟩ _ rfl
          (fun _ h => h) (fun x => by rw [h]; exact count_cons_one o os x) _
          (fun x h => by rw [setOwner_refs] at h; exact h)
  | removeAt i =>
    simp only [Sys.step, Sys.taking, Lst.removeAt]
    split
    · exact T
    · split
      · exact T
      · rename_i hl
        have hi : i < s.lst.items.length := by omega
        simp only [w]
        exact free_tidy nb T s.heap ⟨s.lst.items.take i ++ s.lst.items.drop (i + 1), s.lst.frozen,
            s.lst.disposed, some p⟩ _ rfl (fun _ h => h)
          (fun x => by simp only; rw [count_append, count_at s.lst.items i hi x]; omega) _
          (fun x h => by rw [setOwner_refs] at h; exact h)
  | deleteAt i =>
    simp only [Sys.step, Sys.plain, Lst.deleteAt]
    split
    · exact T
    · split
      · exact T
      · rename_i hl
        have hi : i < s.lst.items.length := by omega
        have cnt : ∀ x, s.lst.items.count (some x)
            = (s.lst.items.take i ++ s.lst.items.drop (i + 1)).count (some x)
              + one (s.lst.items[i]?).join x := fun x => by
          rw [count_append, count_at s.lst.items i hi x]; omega
        simp only [w]
        split
        · rename_i hd
          refine ⟨fun x hx k => ?_, fun x => ?_⟩
          · simp only at hx ⊢
            rw [release_owner, T.1 x (release_pos _ _ _ hx) k]
            have q : ¬ (s.lst.items[i]?).join = some x := fun q => by
              rw [q] at hd hx
              simp only [Heap.dead, decide_eq_true_eq] at hd
              omega
            have ee := cnt x
            have z : one (s.lst.items[i]?).join x = 0 := if_neg q
            have : (some x ∈ s.lst.items.take i ++ s.lst.items.drop (i + 1)) ↔ (some x ∈ s.lst.items) := by
              rw [← List.count_pos_iff, ← List.count_pos_iff]
              omega
            simp only [this]
          · have := cnt x
            have := T.2 x
            simp only
            omega
        · exact free_tidy nb T (s.heap.release (s.lst.items[i]?).join)
            ⟨s.lst.items.take i ++ s.lst.items.drop (i + 1), s.lst.frozen, s.lst.disposed, some p⟩ _
            (release_owner _ _) (fun x h => release_pos _ _ _ h) cnt _
            (fun x h => by rw [setOwner_refs] at h; exact h)
  | clear =>
    simp only [Sys.step, Sys.plain, Lst.clear]
    split
    · exact T
    · simp only [w]
      have pos : ∀ x, some x ∈ s.lst.items → 0 < s.heap.refs x := fun x m => refs_pos_item S m
      obtain ⟨_, r1⟩ := freeAll_spec cfg s.lst.items s.heap S.1 pos
      split
      · refine ⟨fun x hx k => ?_, fun x => by simp⟩
        simp only at hx ⊢
        obtain ⟨k1, k2⟩ := releaseAll_keeps s.lst.items (freeAll cfg s.heap s.lst.items).1
        have hx' : 0 < s.heap.refs x := by
          have := k2 x hx
          rw [r1] at this
          exact this
        rw [k1, (freeAll_owner cfg nb _ _ S.1 pos x k hx').2, T.1 x hx' k]
        by_cases m : some x ∈ s.lst.items
        · simp [m]
        · simp [m]
      · rename_i hc
        refine ⟨fun x hx k => ?_, T.2⟩
        simp only at hx
        rw [r1] at hx
        exact absurd (freeAll_owner cfg nb _ _ S.1 pos x k hx).1 hc
  | get k =>
    refine dcall_tidy _ T ?_ ?_ <;> unfold Dict.get <;> cases k with
    | none => first | rfl | exact fun _ h => h
    | some k =>
      simp only
      cases Dict.find cfg s.dict k with
      | none => first | rfl | exact fun _ h => h
      | some e => first | exact addRef_owner _ _ | exact fun y h => addRef_pos _ _ y h
  | set k v =>
    refine dcall_tidy _ T ?_ ?_ <;> unfold Dict.set <;> split
    · rfl
    · cases k with
      | none => rfl
      | some k =>
        simp only
        cases Dict.find cfg s.dict k with
        | none => exact (addRef_owner _ _).trans (addRef_owner _ _)
        | some e => exact (addRef_owner _ _).trans (release_owner _ _)
    · exact fun _ h => h
    · cases k with
      | none => exact fun _ h => h
      | some k =>
        simp only
        cases Dict.find cfg s.dict k with
        | none => exact fun y h => addRef_pos _ _ y (addRef_pos _ _ y h)
        | some e => exact fun y h => release_pos _ _ y (addRef_pos _ _ y h)
  | remove k =>
    refine dcall_tidy _ T ?_ ?_ <;> unfold Dict.remove <;> split
    · rfl
    · cases k with
      | none => rfl
      | some k =>
        simp only
        cases Dict.find cfg s.dict k with
        | none => rfl
        | some e => exact release_owner _ _
    · exact fun _ h => h
    · cases k with
      | none => exact fun _ h => h
      | some k =>
        simp only
        cases Dict.find cfg s.dict k with
        | none => exact fun _ h => h
        | some e => exact fun y h => release_pos _ _ y h
  | delete k =>
    refine dcall_tidy _ T ?_ ?_ <;> unfold Dict.delete <;> split
    · rfl
    · cases k with
      | none => rfl
      | some k =>
        simp only
        cases Dict.find cfg s.dict k with
        | none => rfl
        | some e => exact (release_owner _ _).trans (release_owner _ _)
    · exact fun _ h => h
    · cases k with
      | none => exact fun _ h => h
      | some k =>
        simp only
        cases Dict.find cfg s.dict k with
        | none => exact fun _ h => h
        | some e => exact fun y h => release_pos _ _ y (release_pos _ _ y h)
  | clearD =>
    simp only [Sys.step, Sys.dcall, Dict.clear]
    split
    · exact T
    · obtain ⟨h1, h2⟩ := releaseEntries_keeps s.dict.entries s.heap
      exact keep_tidy T _ _ _ h1 h2
  | renewD b =>
    obtain ⟨h1, h2⟩ := releaseEntries_keeps s.dict.entries s.heap
    have e : (s.step cfg (.renewD b)).1.heap = s.heap.releaseEntries s.dict.entries := by
      cases b with
      | true => simp only [Sys.step, if_true, Dict.dispose, Dict.destroy, d.2, Bool.false_eq_true, if_false]
      | false => simp only [Sys.step, Dict.destroy, d.2, Bool.false_eq_true, if_false]
    refine ⟨fun x hx k => ?_, T.2⟩
    rw [e] at hx ⊢
    rw [h1]
    exact T.1 x (h2 x hx) k

theorem run_tidy (cfg : Cfg) (nb : ∀ x, cfg.kind x ≠ .bound) (p : Nat) : ∀ (ops : List Op) (s : Sys),
    s.Sound → s.Live → s.lst.own = some p → s.Tidy cfg p → Always cfg Sys.Legal s ops →
    Always cfg Once s ops → Calm (s.run cfg ops).2 → (s.run cfg ops).1.Tidy cfg p
  | [], _, _, _, _, T, _, _, _ => T
  | op :: ops, s, S, d, w, T, L, O, c => by
    obtain ⟨c1, c2⟩ := calm_cons c
    obtain ⟨h1, h2⟩ := step_lst cfg s op d
    exact run_tidy cfg nb p ops _ (step_sound cfg S d op L.1 c1) h2 (h1.trans w)
      (step_tidy cfg nb S d w T op L.1 O.1 c1) L.2 O.2 c2

end Verif.Boxes
