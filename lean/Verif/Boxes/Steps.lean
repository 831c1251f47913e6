import Verif.Boxes.Count

/-!
# Every act keeps the counts
-/

namespace Verif.Boxes

theorem refs_pos_mine {s : Sys} (S : s.Sound) {o : Option Nat} (h : s.Has o) :
    ∀ x, o = some x → 0 < s.heap.refs x := fun x e => by
  have := h x e
  rw [S.2 x]
  unfold Sys.pointers
  omega

theorem refs_pos_item {s : Sys} (S : s.Sound) {x : Nat} (h : some x ∈ s.lst.items) : 0 < s.heap.refs x := by
  have := List.count_pos_iff.mpr h
  rw [S.2 x]
  unfold Sys.pointers
  omega

theorem refs_count {s : Sys} (S : s.Sound) (x : Nat) : s.lst.items.count (some x) ≤ s.heap.refs x := by
  rw [S.2 x]
  unfold Sys.pointers
  omega

theorem item_join {l : List (Option Nat)} {i x : Nat} (h : (l[i]?).join = some x) : some x ∈ l := by
  cases e : l[i]? with
  | none => rw [e] at h; cases h
  | some o =>
    rw [e] at h
    simp only [Option.join_some] at h
    subst h
    exact List.mem_of_getElem? e

theorem last_join {l : List (Option Nat)} {x : Nat} (h : l.getLast?.join = some x) : some x ∈ l := by
  cases e : l.getLast? with
  | none => rw [e] at h; cases h
  | some o =>
    rw [e] at h
    simp only [Option.join_some] at h
    subst h
    exact List.mem_of_getLast? e

theorem sound_plain {s : Sys} {r : Ret} (S : s.Sound) (b : r.heap.bad = false)
    (e : ∀ x, r.heap.refs x + s.lst.items.count (some x) = s.heap.refs x + r.lst.items.count (some x)) :
    (s.plain r).1.Sound := by
  refine ⟨b, fun x => ?_⟩
  have h1 := S.2 x
  have h2 := e x
  unfold Sys.pointers at h1 ⊢
  simp only [Sys.plain]
  omega

theorem sound_same {s : Sys} (S : s.Sound) (c : Code) : (s.plain ⟨s.heap, s.lst, c, none⟩).1.Sound :=
  sound_plain S S.1 (fun _ => rfl)

theorem sound_taking {s : Sys} {r : Ret} (S : s.Sound) (b : r.heap.bad = false) (c : r.code = .ok)
    (e : ∀ x, r.heap.refs x + s.lst.items.count (some x)
      = s.heap.refs x + r.lst.items.count (some x) + one r.out x) :
    (s.taking r).1.Sound := by
  refine ⟨b, fun x => ?_⟩
  have h1 := S.2 x
  have h2 := e x
  unfold Sys.pointers at h1 ⊢
  simp only [Sys.taking, if_pos c, gain_at]
  omega

theorem sound_giving {s : Sys} {o : Option Nat} {r : Ret} (S : s.Sound) (H : s.Has o)
    (b : r.heap.bad = false) (c : r.code = .ok)
    (e : ∀ x, r.heap.refs x + s.lst.items.count (some x) + one o x
      = s.heap.refs x + r.lst.items.count (some x)) :
    (s.giving o r).1.Sound := by
  refine ⟨b, fun x => ?_⟩
  have h1 := S.2 x
  have h2 := e x
  have h3 := lose_at s.mine o H x
  unfold Sys.pointers at h1 ⊢
  simp only [Sys.giving, if_pos c]
  omega

theorem sound_taking_no {s : Sys} (S : s.Sound) {c : Code} (n : c ≠ .ok) :
    (s.taking ⟨s.heap, s.lst, c, none⟩).1.Sound := by
  refine ⟨S.1, fun x => ?_⟩
  have h1 := S.2 x
  unfold Sys.pointers at h1 ⊢
  simp only [Sys.taking, if_neg n]
  exact h1

theorem sound_giving_no {s : Sys} (S : s.Sound) (o : Option Nat) {c : Code} (n : c ≠ .ok) :
    (s.giving o ⟨s.heap, s.lst, c, none⟩).1.Sound := by
  refine ⟨S.1, fun x => ?_⟩
  have h1 := S.2 x
  unfold Sys.pointers at h1 ⊢
  simp only [Sys.giving, if_neg n]
  exact h1

/-- The code is one that has nothing to do with owners. -/
def Code.calm (c : Code) : Prop := c ≠ .gone ∧ c ≠ .taken

theorem getAt_sound {s : Sys} (S : s.Sound) (i : Nat) : (s.taking (s.lst.getAt s.heap i)).1.Sound := by
  unfold Lst.getAt
  split
  · exact sound_taking_no S (by decide)
  · obtain ⟨b, r, _⟩ := addRef_spec (h := s.heap) S.1 (o := (s.lst.items[i]?).join)
      (fun x e => refs_pos_item S (item_join e))
    refine sound_taking S b rfl (fun x => ?_)
    have := r x
    simp only
    omega

theorem setAt_sound (cfg : Cfg) {s : Sys} (S : s.Sound) (i : Nat) {o : Option Nat} (H : s.Has o) :
    (s.plain (s.lst.setAt cfg s.heap i o)).1.Sound := by
  unfold Lst.setAt
  split
  · exact sound_same S _
  · split
    · exact sound_same S _
    · rename_i hl
      have hi : i < s.lst.items.length := by omega
      obtain ⟨b, r, _⟩ := release_spec (h := s.heap) S.1 (o := (s.lst.items[i]?).join)
        (fun x e => refs_pos_item S (item_join e))
      have p2 : ∀ x, o = some x → 0 < (s.heap.release (s.lst.items[i]?).join).refs x := fun x e => by
        have h1 := r x
        have h2 := S.2 x
        have h3 := H x e
        have h4 := count_at s.lst.items i hi x
        unfold Sys.pointers at h2
        omega
      obtain ⟨b2, r2, _⟩ := addRef_spec b p2
      obtain ⟨b3, r3, l3, _⟩ := thenGive_spec cfg o
        ⟨(s.heap.release (s.lst.items[i]?).join).addRef o,
          { s.lst with items := s.lst.items.take i ++ o :: s.lst.items.drop (i + 1) }, .ok, none⟩ b2
        (fun x e => by
          have := r2 x
          have := p2 x e
          show 0 < ((s.heap.release (s.lst.items[i]?).join).addRef o).refs x
          omega)
      refine sound_plain S b3 (fun x => ?_)
      rw [l3, congrFun r3 x]
      simp only
      rw [count_append, count_cons_one, count_at s.lst.items i hi x]
      have := r x
      have := r2 x
      omega

/-- Storing an element with a reference of its own. -/
theorem push_sound (cfg : Cfg) {s : Sys} (S : s.Sound) {o : Option Nat} (H : s.Has o) (l : Lst)
    (e : ∀ x, l.items.count (some x) = s.lst.items.count (some x) + one o x) :
    (s.plain (Ret.thenGive cfg o ⟨s.heap.addRef o, l, .ok, none⟩)).1.Sound := by
  have p := refs_pos_mine S H
  obtain ⟨b2, r2, _⟩ := addRef_spec S.1 p
  obtain ⟨b3, r3, l3, _⟩ := thenGive_spec cfg o ⟨s.heap.addRef o, l, .ok, none⟩ b2
    (fun x h => by
      have := r2 x
      have := p x h
      show 0 < (s.heap.addRef o).refs x
      omega)
  refine sound_plain S b3 (fun x => ?_)
  rw [l3, congrFun r3 x]
  simp only
  have := r2 x
  have := e x
  omega

/-- Storing an element with the reference of the client. -/
theorem move_sound (cfg : Cfg) {s : Sys} (S : s.Sound) {o : Option Nat} (H : s.Has o) (l : Lst)
    (e : ∀ x, l.items.count (some x) = s.lst.items.count (some x) + one o x)
    (c : (Ret.thenGive cfg o ⟨s.heap, l, .ok, none⟩).code.calm) :
    (s.giving o (Ret.thenGive cfg o ⟨s.heap, l, .ok, none⟩)).1.Sound := by
  have p := refs_pos_mine S H
  obtain ⟨b3, r3, l3, _⟩ := thenGive_spec cfg o ⟨s.heap, l, .ok, none⟩ S.1 p
  have ck : (Ret.thenGive cfg o ⟨s.heap, l, .ok, none⟩).code = .ok := by
    rcases thenGive_code cfg o ⟨s.heap, l, .ok, none⟩ rfl with h | h | h
    · exact h
    · exact absurd h c.1
    · exact absurd h c.2
  refine sound_giving S H b3 ck (fun x => ?_)
  rw [l3, congrFun r3 x]
  simp only
  have := e x
  omega

/-- Taking an element out, with the reference of the list. -/
theorem pop_sound (cfg : Cfg) {s : Sys} (S : s.Sound) (o : Option Nat) (l : Lst)
    (m : ∀ x, o = some x → some x ∈ s.lst.items)
    (e : ∀ x, s.lst.items.count (some x) = l.items.count (some x) + one o x)
    (c : (Ret.thenFree cfg ⟨s.heap, l, .ok, o⟩).code.calm) :
    (s.taking (Ret.thenFree cfg ⟨s.heap, l, .ok, o⟩)).1.Sound := by
  obtain ⟨b3, r3, l3, o3⟩ := thenFree_spec cfg ⟨s.heap, l, .ok, o⟩ S.1
    (fun x h => refs_pos_item S (m x h))
  have ck : (Ret.thenFree cfg ⟨s.heap, l, .ok, o⟩).code = .ok := by
    rcases thenFree_code cfg ⟨s.heap, l, .ok, o⟩ rfl with h | h
    · exact h
    · exact absurd h c.2
  refine sound_taking S b3 ck (fun x => ?_)
  rw [l3, o3, congrFun r3 x]
  simp only
  have := e x
  omega

theorem popBack_sound (cfg : Cfg) {s : Sys} (S : s.Sound) (c : (s.lst.popBack cfg s.heap).code.calm) :
    (s.taking (s.lst.popBack cfg s.heap)).1.Sound := by
  revert c
  unfold Lst.popBack
  split
  · exact fun _ => sound_taking_no S (by decide)
  · split
    · exact fun _ => sound_taking_no S (by decide)
    · rename_i h
      exact pop_sound cfg S _ _ (fun x e => last_join e) (fun x => count_last _ h x)

theorem popFront_sound (cfg : Cfg) {s : Sys} (S : s.Sound) (c : (s.lst.popFront cfg s.heap).code.calm) :
    (s.taking (s.lst.popFront cfg s.heap)).1.Sound := by
  revert c
  unfold Lst.popFront
  split
  · exact fun _ => sound_taking_no S (by decide)
  · split
    · exact fun _ => sound_taking_no S (by decide)
    · rename_i o os h
      refine pop_sound cfg S _ _ (fun x e => ?_) (fun x => ?_)
      · rw [h, e]; exact List.mem_cons_self
      · rw [h]; exact count_cons_one o os x

theorem removeAt_sound (cfg : Cfg) {s : Sys} (S : s.Sound) (i : Nat) :
    (s.taking (s.lst.removeAt cfg s.heap i)).1.Sound := by
  unfold Lst.removeAt
  split
  · exact sound_taking_no S (by decide)
  · split
    · exact sound_taking_no S (by decide)
    · rename_i hl
      have hi : i < s.lst.items.length := by omega
      simp only
      split
      · refine sound_taking S S.1 rfl (fun x => ?_)
        simp only
        rw [count_append, count_at s.lst.items i hi x]
        omega
      · obtain ⟨b, r⟩ := setOwner_spec cfg S.1 (o := (s.lst.items[i]?).join)
          (fun x e => refs_pos_item S (item_join e)) none
        refine sound_taking S b rfl (fun x => ?_)
        simp only
        rw [r, count_append, count_at s.lst.items i hi x]
        omega

theorem deleteAt_sound (cfg : Cfg) {s : Sys} (S : s.Sound) (i : Nat) :
    (s.plain (s.lst.deleteAt cfg s.heap i)).1.Sound := by
  unfold Lst.deleteAt
  split
  · exact sound_same S _
  · split
    · exact sound_same S _
    · rename_i hl
      have hi : i < s.lst.items.length := by omega
      obtain ⟨b, r, _⟩ := release_spec (h := s.heap) S.1 (o := (s.lst.items[i]?).join)
        (fun x e => refs_pos_item S (item_join e))
      have key : ∀ x, (s.heap.release (s.lst.items[i]?).join).refs x + s.lst.items.count (some x)
          = s.heap.refs x + (s.lst.items.take i ++ s.lst.items.drop (i + 1)).count (some x) := fun x => by
        rw [count_append, count_at s.lst.items i hi x]
        have := r x
        omega
      simp only
      split
      · exact sound_plain S b key
      · split
        · exact sound_plain S b key
        · rename_i hd
          obtain ⟨b2, r2⟩ := setOwner_spec cfg b (o := (s.lst.items[i]?).join)
            (fun x e => by
              rw [e] at hd ⊢
              simp only [Heap.dead, decide_eq_true_eq] at hd
              omega) none
          refine sound_plain S b2 (fun x => ?_)
          simp only
          rw [r2]
          exact key x

theorem clear_sound (cfg : Cfg) {s : Sys} (S : s.Sound) :
    (s.plain (s.lst.clear cfg s.heap)).1.Sound := by
  unfold Lst.clear
  split
  · exact sound_same S _
  · split
    · obtain ⟨b, r, _⟩ := releaseAll_spec s.lst.items s.heap S.1 (refs_count S)
      refine sound_plain S b (fun x => ?_)
      have := r x
      simp only [List.count_nil]
      omega
    · obtain ⟨b1, r1⟩ := freeAll_spec cfg s.lst.items s.heap S.1 (fun x m => refs_pos_item S m)
      simp only
      split
      · obtain ⟨b, r, _⟩ := releaseAll_spec s.lst.items _ b1 (fun x => by rw [r1]; exact refs_count S x)
        refine sound_plain S b (fun x => ?_)
        have := r x
        rw [r1] at this
        simp only [List.count_nil]
        omega
      · refine sound_plain S b1 (fun x => ?_)
        rw [r1]

end Verif.Boxes
