import Verif.Boxes.Steps

/-!
# The dictionary keeps the counts, too
-/

namespace Verif.Boxes

theorem count_keys_cons (e : Nat × Option Nat) (es : List (Nat × Option Nat)) (x : Nat) :
    ((e :: es).map (·.1)).count x = (es.map (·.1)).count x + one (some e.1) x := by
  rw [List.map_cons, List.count_cons]
  unfold one
  by_cases h : e.1 = x <;> simp [h]

theorem count_vals_cons (e : Nat × Option Nat) (es : List (Nat × Option Nat)) (x : Nat) :
    ((e :: es).map (·.2)).count (some x) = (es.map (·.2)).count (some x) + one e.2 x := by
  rw [List.map_cons]
  exact count_cons_one _ _ _

theorem releaseEntries_spec : ∀ (es : List (Nat × Option Nat)) (h : Heap), h.bad = false →
    (∀ x, (es.map (·.1)).count x + (es.map (·.2)).count (some x) ≤ h.refs x) →
    (h.releaseEntries es).bad = false
      ∧ (∀ y, h.refs y = (h.releaseEntries es).refs y + (es.map (·.1)).count y
          + (es.map (·.2)).count (some y))
      ∧ (h.releaseEntries es).owner = h.owner
  | [], h, b, _ => ⟨b, fun y => by simp [Heap.releaseEntries], rfl⟩
  | e :: es, h, b, l => by
    have l0 := fun x => l x
    simp only [count_keys_cons, count_vals_cons] at l0
    obtain ⟨b1, r1, w1⟩ := release_spec (o := some e.1) b (fun x q => by
      have := l0 x
      rw [one_le _ _ q] at this
      omega)
    obtain ⟨b2, r2, w2⟩ := release_spec (o := e.2) b1 (fun x q => by
      have := l0 x
      have := r1 x
      have := one_le _ _ q
      omega)
    obtain ⟨b3, r3, w3⟩ := releaseEntries_spec es _ b2 (fun x => by
      have := l0 x
      have := r1 x
      have := r2 x
      omega)
    refine ⟨b3, fun y => ?_, w3.trans (w2.trans w1)⟩
    simp only [count_keys_cons, count_vals_cons, Heap.releaseEntries]
    have := r1 y
    have := r2 y
    have := r3 y
    omega

theorem erase_count (cfg : Cfg) (k : Nat) : ∀ (es : List (Nat × Option Nat)) (e : Nat × Option Nat),
    es.find? (fun e => cfg.key e.1 = cfg.key k) = some e → ∀ x,
    (es.map (·.1)).count x
        = ((es.eraseP (fun e => cfg.key e.1 = cfg.key k)).map (·.1)).count x + one (some e.1) x
      ∧ (es.map (·.2)).count (some x)
        = ((es.eraseP (fun e => cfg.key e.1 = cfg.key k)).map (·.2)).count (some x) + one e.2 x
  | [], _, h, _ => by cases h
  | e' :: es, e, h, x => by
    by_cases q : cfg.key e'.1 = cfg.key k
    · rw [List.find?_cons_of_pos (by simpa using q)] at h
      cases h
      rw [List.eraseP_cons_of_pos (by simpa using q)]
      exact ⟨count_keys_cons e' es x, count_vals_cons e' es x⟩
    · rw [List.find?_cons_of_neg (by simpa using q)] at h
      rw [List.eraseP_cons_of_neg (by simpa using q)]
      obtain ⟨h1, h2⟩ := erase_count cfg k es e h x
      simp only [count_keys_cons, count_vals_cons]
      omega

theorem replace_count (cfg : Cfg) (k : Nat) (v : Option Nat) :
    ∀ (es : List (Nat × Option Nat)) (e : Nat × Option Nat),
    es.find? (fun e => cfg.key e.1 = cfg.key k) = some e → ∀ x,
    ((replace cfg k v es).map (·.1)).count x = (es.map (·.1)).count x
      ∧ ((replace cfg k v es).map (·.2)).count (some x) + one e.2 x
        = (es.map (·.2)).count (some x) + one v x
  | [], _, h, _ => by cases h
  | e' :: es, e, h, x => by
    by_cases q : cfg.key e'.1 = cfg.key k
    · rw [List.find?_cons_of_pos (by simpa using q)] at h
      cases h
      simp only [replace, if_pos q, count_keys_cons, count_vals_cons, true_and]
      omega
    · rw [List.find?_cons_of_neg (by simpa using q)] at h
      obtain ⟨h1, h2⟩ := replace_count cfg k v es e h x
      simp only [replace, if_neg q, count_keys_cons, count_vals_cons]
      omega

theorem sound_dcall {s : Sys} {r : DRet} (S : s.Sound) (b : r.heap.bad = false) (c : r.code = .ok)
    (e : ∀ x, r.heap.refs x + (s.dict.entries.map (·.1)).count x + (s.dict.entries.map (·.2)).count (some x)
      = s.heap.refs x + (r.dict.entries.map (·.1)).count x + (r.dict.entries.map (·.2)).count (some x)
        + one r.out x) :
    (s.dcall r).1.Sound := by
  refine ⟨b, fun x => ?_⟩
  have h1 := S.2 x
  have h2 := e x
  unfold Sys.pointers at h1 ⊢
  simp only [Sys.dcall, if_pos c, gain_at]
  omega

theorem sound_dcall_no {s : Sys} (S : s.Sound) {c : Code} (n : c ≠ .ok) :
    (s.dcall ⟨s.heap, s.dict, c, none⟩).1.Sound := by
  refine ⟨S.1, fun x => ?_⟩
  have h1 := S.2 x
  unfold Sys.pointers at h1 ⊢
  simp only [Sys.dcall, if_neg n]
  exact h1

theorem entry_refs {s : Sys} (S : s.Sound) {cfg : Cfg} {k : Nat} {e : Nat × Option Nat}
    (h : s.dict.find cfg k = some e) (x : Nat) : one (some e.1) x + one e.2 x ≤ s.heap.refs x := by
  obtain ⟨h1, h2⟩ := erase_count cfg k _ e h x
  have h3 := S.2 x
  unfold Sys.pointers at h3
  omega

theorem get_sound (cfg : Cfg) {s : Sys} (S : s.Sound) (k : Option Nat) :
    (s.dcall (s.dict.get cfg s.heap k)).1.Sound := by
  unfold Dict.get
  cases k with
  | none => exact sound_dcall_no S (by decide)
  | some k =>
    simp only
    split
    · exact sound_dcall_no S (by decide)
    · rename_i e h
      obtain ⟨b, r, _⟩ := addRef_spec (o := e.2) S.1 (fun x q => by
        have := entry_refs S h x
        have := one_le _ _ q
        omega)
      refine sound_dcall S b rfl (fun x => ?_)
      have := r x
      simp only
      omega

theorem set_sound (cfg : Cfg) {s : Sys} (S : s.Sound) {k v : Option Nat} (hk : s.Has k) (hv : s.Has v) :
    (s.dcall (s.dict.set cfg s.heap k v)).1.Sound := by
  unfold Dict.set
  split
  · exact sound_dcall_no S (by decide)
  · cases k with
    | none => exact sound_dcall_no S (by decide)
    | some k =>
      simp only
      split
      · have pk := refs_pos_mine S hk
        have pv := refs_pos_mine S hv
        obtain ⟨b1, r1, _⟩ := addRef_spec S.1 pk
        obtain ⟨b2, r2, _⟩ := addRef_spec (o := v) b1 (fun x q => by
          have := r1 x
          have := pv x q
          omega)
        refine sound_dcall S b2 rfl (fun x => ?_)
        have h1 := r1 x
        have h2 := r2 x
        have h3 := count_keys_cons (k, v) [] x
        have h4 := count_vals_cons (k, v) [] x
        simp only [List.map_append, List.count_append]
        simp only [List.map_nil, List.count_nil] at h3 h4
        rw [h3, h4]
        have : one none x = 0 := rfl
        omega
      · rename_i e h
        have pv := fun x q => hv x q
        obtain ⟨b1, r1, _⟩ := release_spec (o := e.2) S.1 (fun x q => by
          have := entry_refs S h x
          have := one_le _ _ q
          omega)
        obtain ⟨b2, r2, _⟩ := addRef_spec (o := v) b1 (fun x q => by
          have h1 := r1 x
          have h2 := pv x q
          have h3 := S.2 x
          have h4 := (erase_count cfg k _ e h x).2
          unfold Sys.pointers at h3
          omega)
        refine sound_dcall S b2 rfl (fun x => ?_)
        obtain ⟨h1, h2⟩ := replace_count cfg k v _ e h x
        simp only
        rw [h1]
        have := r1 x
        have := r2 x
        have : one none x = 0 := rfl
        omega

theorem remove_sound (cfg : Cfg) {s : Sys} (S : s.Sound) (k : Option Nat) :
    (s.dcall (s.dict.remove cfg s.heap k)).1.Sound := by
  unfold Dict.remove
  split
  · exact sound_dcall_no S (by decide)
  · cases k with
    | none => exact sound_dcall_no S (by decide)
    | some k =>
      simp only
      split
      · exact sound_dcall_no S (by decide)
      · rename_i e h
        obtain ⟨b1, r1, _⟩ := release_spec (o := some e.1) S.1 (fun x q => by
          have := entry_refs S h x
          have := one_le _ _ q
          omega)
        refine sound_dcall S b1 rfl (fun x => ?_)
        obtain ⟨h1, h2⟩ := erase_count cfg k _ e h x
        have := r1 x
        simp only [Dict.erase]
        omega

theorem delete_sound (cfg : Cfg) {s : Sys} (S : s.Sound) (k : Option Nat) :
    (s.dcall (s.dict.delete cfg s.heap k)).1.Sound := by
  unfold Dict.delete
  split
  · exact sound_dcall_no S (by decide)
  · cases k with
    | none => exact sound_dcall_no S (by decide)
    | some k =>
      simp only
      split
      · exact sound_dcall_no S (by decide)
      · rename_i e h
        obtain ⟨b1, r1, _⟩ := release_spec (o := some e.1) S.1 (fun x q => by
          have := entry_refs S h x
          have := one_le _ _ q
          omega)
        obtain ⟨b2, r2, _⟩ := release_spec (o := e.2) b1 (fun x q => by
          have := entry_refs S h x
          have := one_le _ _ q
          have := r1 x
          omega)
        refine sound_dcall S b2 rfl (fun x => ?_)
        obtain ⟨h1, h2⟩ := erase_count cfg k _ e h x
        have := r1 x
        have := r2 x
        have : one none x = 0 := rfl
        simp only [Dict.erase]
        omega

theorem entries_refs {s : Sys} (S : s.Sound) (x : Nat) :
    (s.dict.entries.map (·.1)).count x + (s.dict.entries.map (·.2)).count (some x) ≤ s.heap.refs x := by
  rw [S.2 x]
  unfold Sys.pointers
  omega

theorem clearD_sound {s : Sys} (S : s.Sound) : (s.dcall (s.dict.clear s.heap)).1.Sound := by
  unfold Dict.clear
  split
  · exact sound_dcall_no S (by decide)
  · obtain ⟨b, r, _⟩ := releaseEntries_spec s.dict.entries s.heap S.1 (entries_refs S)
    refine sound_dcall S b rfl (fun x => ?_)
    have := r x
    have : one none x = 0 := rfl
    simp only [List.map_nil, List.count_nil]
    omega

/-- Nothing that is in use has been disposed of. -/
def Sys.Live (s : Sys) : Prop := s.lst.disposed = false ∧ s.dict.disposed = false

theorem thenGive_lst (cfg : Cfg) (o : Option Nat) (r : Ret) : (r.thenGive cfg o).lst = r.lst := by
  unfold Ret.thenGive
  split
  · rfl
  · split <;> rfl

theorem thenFree_lst (cfg : Cfg) (r : Ret) : (r.thenFree cfg).lst = r.lst := by
  unfold Ret.thenFree
  split
  · rfl
  · split <;> rfl

/-- What no act changes: the kind of list, and that nothing in use is disposed of. -/
theorem step_lst (cfg : Cfg) (s : Sys) (op : Op) (d : s.Live) :
    (s.step cfg op).1.lst.own = s.lst.own ∧ (s.step cfg op).1.Live := by
  obtain ⟨d1, d2⟩ := d
  unfold Sys.Live
  cases op with
  | getAt i => simp only [Sys.step, Sys.taking, Lst.getAt]; split <;> exact ⟨rfl, d1, d2⟩
  | setAt i o =>
    simp only [Sys.step, Sys.plain, Lst.setAt]
    split
    · exact ⟨rfl, d1, d2⟩
    · split
      · exact ⟨rfl, d1, d2⟩
      · rw [thenGive_lst]; exact ⟨rfl, d1, d2⟩
  | insertAt i o =>
    simp only [Sys.step, Sys.plain, Lst.insertAt]
    split
    · exact ⟨rfl, d1, d2⟩
    · split
      · exact ⟨rfl, d1, d2⟩
      · rw [thenGive_lst]; exact ⟨rfl, d1, d2⟩
  | pushBack o =>
    simp only [Sys.step, Sys.plain, Lst.pushBack]
    split
    · exact ⟨rfl, d1, d2⟩
    · rw [thenGive_lst]; exact ⟨rfl, d1, d2⟩
  | pushFront o =>
    simp only [Sys.step, Sys.plain, Lst.pushFront]
    split
    · exact ⟨rfl, d1, d2⟩
    · rw [thenGive_lst]; exact ⟨rfl, d1, d2⟩
  | moveBack o =>
    simp only [Sys.step, Sys.giving, Lst.moveBack]
    split
    · exact ⟨rfl, d1, d2⟩
    · rw [thenGive_lst]; exact ⟨rfl, d1, d2⟩
  | moveFront o =>
    simp only [Sys.step, Sys.giving, Lst.moveFront]
    split
    · exact ⟨rfl, d1, d2⟩
    · rw [thenGive_lst]; exact ⟨rfl, d1, d2⟩
  | popBack =>
    simp only [Sys.step, Sys.taking, Lst.popBack]
    split
    · exact ⟨rfl, d1, d2⟩
    · split
      · exact ⟨rfl, d1, d2⟩
      · rw [thenFree_lst]; exact ⟨rfl, d1, d2⟩
  | popFront =>
    simp only [Sys.step, Sys.taking, Lst.popFront]
    split
    · exact ⟨rfl, d1, d2⟩
    · split
      · exact ⟨rfl, d1, d2⟩
      · rw [thenFree_lst]; exact ⟨rfl, d1, d2⟩
  | removeAt i =>
    simp only [Sys.step, Sys.taking, Lst.removeAt]
    split
    · exact ⟨rfl, d1, d2⟩
    · split
      · exact ⟨rfl, d1, d2⟩
      · split <;> exact ⟨rfl, d1, d2⟩
  | deleteAt i =>
    simp only [Sys.step, Sys.plain, Lst.deleteAt]
    split
    · exact ⟨rfl, d1, d2⟩
    · split
      · exact ⟨rfl, d1, d2⟩
      · split
        · exact ⟨rfl, d1, d2⟩
        · split <;> exact ⟨rfl, d1, d2⟩
  | clear =>
    simp only [Sys.step, Sys.plain, Lst.clear]
    split
    · exact ⟨rfl, d1, d2⟩
    · split
      · exact ⟨rfl, d1, d2⟩
      · split <;> exact ⟨rfl, d1, d2⟩
  | get k =>
    simp only [Sys.step, Sys.dcall, Dict.get]
    cases k with
    | none => exact ⟨trivial, d1, d2⟩
    | some k => simp only; split <;> exact ⟨trivial, d1, d2⟩
  | set k v =>
    simp only [Sys.step, Sys.dcall, Dict.set]
    split
    · exact ⟨trivial, d1, d2⟩
    · cases k with
      | none => exact ⟨trivial, d1, d2⟩
      | some k => simp only; split <;> exact ⟨trivial, d1, d2⟩
  | remove k =>
    simp only [Sys.step, Sys.dcall, Dict.remove]
    split
    · exact ⟨trivial, d1, d2⟩
    · cases k with
      | none => exact ⟨trivial, d1, d2⟩
      | some k => simp only; split <;> exact ⟨trivial, d1, d2⟩
  | delete k =>
    simp only [Sys.step, Sys.dcall, Dict.delete]
    split
    · exact ⟨trivial, d1, d2⟩
    · cases k with
      | none => exact ⟨trivial, d1, d2⟩
      | some k => simp only; split <;> exact ⟨trivial, d1, d2⟩
  | clearD => simp only [Sys.step, Sys.dcall, Dict.clear]; split <;> exact ⟨trivial, d1, d2⟩
  | renewD b => exact ⟨rfl, d1, rfl⟩
  | renew b => exact ⟨rfl, rfl, d2⟩
  | create x => exact ⟨rfl, d1, d2⟩
  | copy x => exact ⟨rfl, d1, d2⟩
  | drop x => exact ⟨rfl, d1, d2⟩
  | freeze => exact ⟨rfl, d1, d2⟩
  | freezeD => exact ⟨rfl, d1, d2⟩

theorem renew_sound {s : Sys} (S : s.Sound) (d : s.Live) (cfg : Cfg) (b : Bool) :
    (s.step cfg (.renew b)).1.Sound := by
  obtain ⟨b1, r, _⟩ := releaseAll_spec s.lst.items s.heap S.1 (refs_count S)
  have e : (s.step cfg (.renew b)).1.heap = s.heap.releaseAll s.lst.items := by
    cases b with
    | true => simp only [Sys.step, if_true, Lst.dispose, Lst.destroy, d.1, Bool.false_eq_true, if_false]
    | false => simp only [Sys.step, Lst.destroy, d.1, Bool.false_eq_true, if_false]
  refine ⟨by rw [e]; exact b1, fun x => ?_⟩
  rw [e]
  have h1 := S.2 x
  have := r x
  unfold Sys.pointers at h1 ⊢
  simp only [Sys.step, List.count_nil]
  omega

theorem renewD_sound {s : Sys} (S : s.Sound) (d : s.Live) (cfg : Cfg) (b : Bool) :
    (s.step cfg (.renewD b)).1.Sound := by
  obtain ⟨b1, r, _⟩ := releaseEntries_spec s.dict.entries s.heap S.1 (entries_refs S)
  have e : (s.step cfg (.renewD b)).1.heap = s.heap.releaseEntries s.dict.entries := by
    cases b with
    | true => simp only [Sys.step, if_true, Dict.dispose, Dict.destroy, d.2, Bool.false_eq_true, if_false]
    | false => simp only [Sys.step, Dict.destroy, d.2, Bool.false_eq_true, if_false]
  refine ⟨by rw [e]; exact b1, fun x => ?_⟩
  rw [e]
  have h1 := S.2 x
  have := r x
  unfold Sys.pointers at h1 ⊢
  simp only [Sys.step, List.map_nil, List.count_nil]
  omega

theorem frozen_plain {s : Sys} (S : s.Sound) {r : Ret} (e : r = ⟨s.heap, s.lst, .frozen, none⟩) :
    (s.plain r).1.Sound := by subst e; exact sound_same S _

/-- Every legal act that is not answered by an error about owners keeps the counts. -/
theorem step_sound (cfg : Cfg) {s : Sys} (S : s.Sound) (d : s.Live) (op : Op) (L : s.Legal op)
    (c : (s.step cfg op).2.calm) : (s.step cfg op).1.Sound := by
  cases op with
  | create x =>
    refine ⟨S.1, fun y => ?_⟩
    have h1 := S.2 y
    have h0 : s.heap.refs x = 0 := L.1
    unfold Sys.pointers at h1 ⊢
    simp only [Sys.step, gain_at, upd]
    by_cases e : y = x
    · subst e
      rw [if_pos rfl]
      have : one (some y) y = 1 := if_pos rfl
      omega
    · rw [if_neg e]
      have : one (some x) y = 0 := if_neg (fun h => e (Option.some.inj h).symm)
      omega
  | copy x =>
    have hx : 0 < s.mine x := L
    obtain ⟨b, r, _⟩ := addRef_spec (o := some x) S.1 (fun y e => by
      cases e
      have := S.2 x
      unfold Sys.pointers at this
      omega)
    refine ⟨b, fun y => ?_⟩
    have h1 := S.2 y
    have := r y
    unfold Sys.pointers at h1 ⊢
    simp only [Sys.step, gain_at]
    omega
  | drop x =>
    have hx : 0 < s.mine x := L
    obtain ⟨b, r, _⟩ := release_spec (o := some x) S.1 (fun y e => by
      cases e
      have := S.2 x
      unfold Sys.pointers at this
      omega)
    refine ⟨b, fun y => ?_⟩
    have h1 := S.2 y
    have := r y
    have := lose_at s.mine (some x) (fun y e => by cases e; exact hx) y
    unfold Sys.pointers at h1 ⊢
    simp only [Sys.step]
    omega
  | getAt i => exact getAt_sound S i
  | setAt i o => exact setAt_sound cfg S i L
  | pushBack o =>
    simp only [Sys.step, Lst.pushBack]
    split
    · exact sound_same S _
    · exact push_sound cfg S L _ (fun x => by
        simp only
        rw [count_append, count_cons_one, List.count_nil, Nat.zero_add])
  | pushFront o =>
    simp only [Sys.step, Lst.pushFront]
    split
    · exact sound_same S _
    · exact push_sound cfg S L _ (fun x => count_cons_one _ _ x)
  | insertAt i o =>
    simp only [Sys.step, Lst.insertAt]
    split
    · exact sound_same S _
    · split
      · exact sound_same S _
      · exact push_sound cfg S L _ (fun x => by
          simp only
          rw [count_append, count_cons_one, count_split s.lst.items i x]
          omega)
  | moveBack o =>
    revert c
    simp only [Sys.step, Lst.moveBack]
    split
    · exact fun _ => sound_giving_no S o (by decide)
    · exact fun c => move_sound cfg S L _ (fun x => by
        simp only
        rw [count_append, count_cons_one, List.count_nil, Nat.zero_add]) c
  | moveFront o =>
    revert c
    simp only [Sys.step, Lst.moveFront]
    split
    · exact fun _ => sound_giving_no S o (by decide)
    · exact fun c => move_sound cfg S L _ (fun x => count_cons_one _ _ x) c
  | popBack => exact popBack_sound cfg S c
  | popFront => exact popFront_sound cfg S c
  | removeAt i => exact removeAt_sound cfg S i
  | deleteAt i => exact deleteAt_sound cfg S i
  | clear => exact clear_sound cfg S
  | freeze => exact S
  | renew b => exact renew_sound S d cfg b
  | get k => exact get_sound cfg S k
  | set k v => exact set_sound cfg S L.1 L.2
  | remove k => exact remove_sound cfg S k
  | delete k => exact delete_sound cfg S k
  | clearD => exact clearD_sound S
  | freezeD => exact S
  | renewD b => exact renewD_sound S d cfg b

theorem calm_cons {c : Code} {cs : List Code} (h : Calm (c :: cs)) : c.calm ∧ Calm cs :=
  ⟨⟨fun e => h.1 (e ▸ List.mem_cons_self), fun e => h.2 (e ▸ List.mem_cons_self)⟩,
    fun m => h.1 (List.mem_cons_of_mem _ m), fun m => h.2 (List.mem_cons_of_mem _ m)⟩

theorem run_sound (cfg : Cfg) : ∀ (ops : List Op) (s : Sys), s.Sound → s.Live →
    Always cfg Sys.Legal s ops → Calm (s.run cfg ops).2 →
    (s.run cfg ops).1.Sound ∧ (s.run cfg ops).1.Live
  | [], _, S, d, _, _ => ⟨S, d⟩
  | op :: ops, s, S, d, L, c => by
    obtain ⟨c1, c2⟩ := calm_cons c
    exact run_sound cfg ops _ (step_sound cfg S d op L.1 c1) (step_lst cfg s op d).2 L.2 c2

theorem init_sound (own : Option Nat) : (Sys.init own).Sound ∧ (Sys.init own).Live :=
  ⟨⟨rfl, fun x => by simp [Sys.pointers, Sys.init]⟩, rfl, rfl⟩

end Verif.Boxes
