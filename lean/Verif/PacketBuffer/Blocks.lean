import Verif.PacketBuffer.Spec

/-! # The blocks of the ring -/

namespace Verif.PacketBuffer

/-- What a block is: memory of a packet, memory given back, memory given back whose entry has become wrong. -/
inductive Kind where
  | live | back | lost
  deriving DecidableEq

/-- A block. Positions go on counting after the end of the buffer. -/
structure Blk where
  pos : Nat
  size : Nat
  kind : Kind

/-- The entry of a block among the memory given back. -/
def Blk.entry (N : Nat) (b : Blk) : Option (Nat × Nat) :=
  match b.kind with
  | .live => none
  | .back => some (b.pos, b.size)
  | .lost => some (b.pos + N, b.size)

/-- The memory of the packet. -/
def Blk.mem (N : Nat) (b : Blk) : Option (Nat × Nat) :=
  match b.kind with
  | .live => some (if b.pos < N then b.pos else b.pos - N, b.size)
  | _ => none

/-- The blocks follow each other. -/
def Chain : Nat → List Blk → Nat → Prop
  | r, [], e => e = r
  | r, b :: bs, e => b.pos = r ∧ 0 < b.size ∧ Chain (r + b.size) bs e

theorem chain_le {r e : Nat} {bs : List Blk} (h : Chain r bs e) : r ≤ e := by
  induction bs generalizing r with
  | nil => exact Nat.le_of_eq h.symm
  | cons b bs ih => have := ih h.2.2; have := h.2.1; omega

theorem chain_pos {r e : Nat} {bs : List Blk} (h : Chain r bs e) : ∀ b ∈ bs, r ≤ b.pos ∧ 0 < b.size ∧ b.pos + b.size ≤ e := by
  induction bs generalizing r with
  | nil => intro b hb; cases hb
  | cons b bs ih =>
    intro c hc
    rcases List.mem_cons.mp hc with rfl | hc
    · have := chain_le h.2.2; have := h.1; have := h.2.1; omega
    · have := ih h.2.2 c hc; omega

theorem chain_empty {r : Nat} {bs : List Blk} (h : Chain r bs r) : bs = [] := by
  cases bs with
  | nil => rfl
  | cons b bs => have := chain_le h.2.2; have := h.2.1; omega

theorem chain_append {r e : Nat} {l1 l2 : List Blk} : Chain r (l1 ++ l2) e ↔ ∃ m, Chain r l1 m ∧ Chain m l2 e := by
  induction l1 generalizing r with
  | nil => simp [Chain]
  | cons b l ih =>
    simp only [List.cons_append, Chain, ih]
    constructor
    · rintro ⟨a, b, m, c, d⟩; exact ⟨m, ⟨a, b, c⟩, d⟩
    · rintro ⟨m, ⟨a, b, c⟩, d⟩; exact ⟨a, b, m, c, d⟩

theorem chain_pairwise {r e : Nat} {bs : List Blk} (h : Chain r bs e) : bs.Pairwise fun a b => a.pos + a.size ≤ b.pos := by
  induction bs generalizing r with
  | nil => exact .nil
  | cons b bs ih =>
    refine .cons (fun c hc => ?_) (ih h.2.2)
    have := chain_pos h.2.2 c hc
    have := h.1
    omega

theorem top_none {l : List (Nat × Nat)} (h : top l = none) : l = [] := by
  cases l with
  | nil => rfl
  | cons a l =>
    rw [top] at h
    split at h
    · cases h
    · split at h <;> cases h

theorem top_mem {l : List (Nat × Nat)} {t : Nat × Nat} (h : top l = some t) : t ∈ l := by
  induction l generalizing t with
  | nil => cases h
  | cons a l ih =>
    rw [top] at h
    split at h
    · cases h; simp
    · rename_i b hb
      split at h
      · cases h; simp
      · cases h; simp [ih hb]

theorem top_le {l : List (Nat × Nat)} {t : Nat × Nat} (h : top l = some t) : ∀ a ∈ l, t.1 ≤ a.1 := by
  induction l generalizing t with
  | nil => cases h
  | cons a l ih =>
    intro c hc
    rw [top] at h
    split at h
    · rename_i hn
      cases h
      rw [top_none hn] at hc
      rw [List.mem_singleton.mp hc]
      exact Nat.le_refl _
    · rename_i b hb
      split at h
      · rename_i hle
        cases h
        have hab : a.1 ≤ b.1 := by
          unfold pairLe at hle
          simp only [Bool.or_eq_true, decide_eq_true_eq, Bool.and_eq_true, beq_iff_eq] at hle
          omega
        rcases List.mem_cons.mp hc with rfl | hc
        · exact Nat.le_refl _
        · exact Nat.le_trans hab (ih hb c hc)
      · rename_i hle
        cases h
        rcases List.mem_cons.mp hc with rfl | hc
        · unfold pairLe at hle
          simp only [Bool.or_eq_true, decide_eq_true_eq, Bool.and_eq_true, beq_iff_eq] at hle
          omega
        · exact ih hb c hc

/-- What holds while memory is cleaned up; `r0` is where reading was before. -/
structure Mid (N r0 : Nat) (s : St) (bs : List Blk) (e : Nat) : Prop where
  size : s.size = N
  chain : Chain s.r bs e
  fits : ∀ b ∈ bs, b.pos + b.size ≤ N ∨ N ≤ b.pos
  lost : ∀ b ∈ bs, b.kind = .lost → b.pos < N
  pos : r0 < N
  start : r0 ≤ s.r
  stop : e ≤ r0 + N
  oos : s.oos.Perm (bs.filterMap (Blk.entry N))
  full : s.full = true ↔ e = s.r + N

theorem entry_of_pos {N r0 e : Nat} {s : St} {bs : List Blk} (h : Mid N r0 s bs e) {t : Nat × Nat} (ht : t ∈ s.oos) (hr : t.1 = s.r) :
    ∃ b l, bs = b :: l ∧ b.kind = .back ∧ t = (b.pos, b.size) := by
  obtain ⟨b, hb, he⟩ := List.mem_filterMap.mp (h.oos.mem_iff.mp ht)
  have hp := chain_pos h.chain b hb
  have hN := h.pos
  unfold Blk.entry at he
  split at he
  · cases he
  · rename_i hk
    cases he
    cases bs with
    | nil => cases hb
    | cons c l =>
      refine ⟨c, l, rfl, ?_⟩
      rcases List.mem_cons.mp hb with rfl | hb
      · exact ⟨hk, rfl⟩
      · have := chain_pos h.chain.2.2 b hb
        have := h.chain.2.1
        dsimp only at hr
        omega
  · cases he
    dsimp only at hr
    omega

/-- One round of the loop removes the first block. -/
theorem mid_pop {N r0 e : Nat} {s : St} {b : Blk} {bs : List Blk} (h : Mid N r0 s (b :: bs) e) (hk : b.kind = .back) :
    Mid N r0 { s with full := false, r := s.r + b.size, oos := s.oos.erase (b.pos, b.size) } bs e where
  size := h.size
  chain := h.chain.2.2
  fits := fun c hc => h.fits c (List.mem_cons_of_mem _ hc)
  lost := fun c hc => h.lost c (List.mem_cons_of_mem _ hc)
  pos := h.pos
  start := by have := h.start; dsimp only; omega
  stop := h.stop
  oos := by
    have h1 := h.oos
    rw [List.filterMap_cons] at h1
    have he : b.entry N = some (b.pos, b.size) := by unfold Blk.entry; rw [hk]
    rw [he] at h1
    have := h1.erase (b.pos, b.size)
    rw [List.erase_cons_head] at this
    exact this
  full := by
    have := h.stop
    have := h.start
    have := h.chain.2.1
    constructor
    · intro h; cases h
    · intro h; dsimp only at h; omega

theorem mid_loop {N r0 e : Nat} : ∀ (k : Nat) (s : St) (bs : List Blk), Mid N r0 s bs e → s.oos.length ≤ k →
    ∃ pre bs' r f o, cleanLoop k s = { s with full := f, r := r, oos := o } ∧ bs = pre ++ bs' ∧ (∀ b ∈ pre, b.kind = .back) ∧
      Mid N r0 { s with full := f, r := r, oos := o } bs' e ∧ (∀ b l, bs' = b :: l → b.kind ≠ .back) := by
  intro k
  induction k with
  | zero =>
    intro s bs h hk
    refine ⟨[], bs, s.r, s.full, s.oos, rfl, rfl, by simp, h, ?_⟩
    rintro b l rfl hb
    have h1 := h.oos
    have he : b.entry N = some (b.pos, b.size) := by unfold Blk.entry; rw [hb]
    rw [List.filterMap_cons, he] at h1
    have h2 := h1.length_eq
    simp only [List.length_cons] at h2
    omega
  | succ k ih =>
    intro s bs h hk
    have hstay : (∀ b l, bs = b :: l → b.kind ≠ .back) → cleanLoop (k + 1) s = s →
        ∃ pre bs' r f o, cleanLoop (k + 1) s = { s with full := f, r := r, oos := o } ∧ bs = pre ++ bs' ∧
          (∀ b ∈ pre, b.kind = .back) ∧ Mid N r0 { s with full := f, r := r, oos := o } bs' e ∧
          (∀ b l, bs' = b :: l → b.kind ≠ .back) := by
      intro h1 h2
      exact ⟨[], bs, s.r, s.full, s.oos, h2, rfl, by simp, h, h1⟩
    have hback : ∀ b l, bs = b :: l → b.kind = .back → (b.pos, b.size) ∈ s.oos := by
      rintro b l rfl hb
      refine h.oos.mem_iff.mpr (List.mem_filterMap.mpr ⟨b, by simp, ?_⟩)
      unfold Blk.entry; rw [hb]
    cases ht : top s.oos with
    | none =>
      refine hstay ?_ (by rw [cleanLoop, ht])
      intro b l hbl hb
      have := hback b l hbl hb
      rw [top_none ht] at this
      cases this
    | some t =>
      by_cases hr : s.r = t.1
      · obtain ⟨b, l, hbl, hb, htb⟩ := entry_of_pos h (top_mem ht) hr.symm
        subst hbl
        have hlen : (s.oos.erase t).length ≤ k := by
          rw [List.length_erase_of_mem (top_mem ht)]; omega
        subst htb
        obtain ⟨pre, bs', r, f, o, e1, e2, e3, e4, e5⟩ := ih _ l (mid_pop h hb) hlen
        refine ⟨b :: pre, bs', r, f, o, ?_, by rw [e2]; rfl, ?_, e4, e5⟩
        · rw [cleanLoop, ht]
          dsimp only
          rw [if_neg (by intro h; exact h hr)]
          exact e1
        · intro c hc
          rcases List.mem_cons.mp hc with rfl | hc
          · exact hb
          · exact e3 c hc
      · refine hstay ?_ (by rw [cleanLoop, ht]; dsimp only; rw [if_pos hr])
        intro b l hbl hb
        have h1 := top_le ht _ (hback b l hbl hb)
        obtain ⟨c, hc, hce⟩ := List.mem_filterMap.mp (h.oos.mem_iff.mp (top_mem ht))
        have h2 := chain_pos h.chain c hc
        have h3 : b.pos = s.r := by subst hbl; exact h.chain.1
        unfold Blk.entry at hce
        dsimp only at h1
        split at hce
        · cases hce
        · cases hce; dsimp only at h1 hr; omega
        · cases hce; have := h.pos; dsimp only at h1 hr; omega

/-- The same block one round earlier. -/
def Blk.shift (N : Nat) (b : Blk) : Blk := ⟨b.pos - N, b.size, if b.kind = .live then .live else .lost⟩

theorem shift_entry {N : Nat} {b : Blk} (h : N ≤ b.pos) (hl : b.kind ≠ .lost) : (b.shift N).entry N = b.entry N := by
  unfold Blk.entry Blk.shift
  cases hk : b.kind with
  | live => rfl
  | back => simp; omega
  | lost => exact absurd hk hl

theorem shift_mem {N : Nat} {b : Blk} (h : N ≤ b.pos) (h2 : b.pos < 2 * N) : (b.shift N).mem N = b.mem N := by
  unfold Blk.mem Blk.shift
  cases hk : b.kind with
  | live => simp [show b.pos - N < N by omega, show ¬ b.pos < N by omega]
  | back => rfl
  | lost => rfl

theorem chain_shift {N r e : Nat} {bs : List Blk} (h : Chain r bs e) (hr : N ≤ r) : Chain (r - N) (bs.map (Blk.shift N)) (e - N) := by
  induction bs generalizing r with
  | nil => change e = r at h; change e - N = r - N; rw [h]
  | cons b bs ih =>
    refine ⟨by change b.pos - N = r - N; rw [h.1], h.2.1, ?_⟩
    have := ih h.2.2 (by omega)
    change Chain (r - N + b.size) _ _
    rw [show r - N + b.size = r + b.size - N by omega]
    exact this

theorem filterMap_congr_mem {α β : Type} {f g : α → Option β} {l : List α} (h : ∀ a ∈ l, f a = g a) : l.filterMap f = l.filterMap g := by
  induction l with
  | nil => rfl
  | cons a l ih =>
    rw [List.filterMap_cons, List.filterMap_cons, h a (by simp), ih fun b hb => h b (by simp [hb])]

/-- The blocks of the buffer between two operations. -/
structure Good (N : Nat) (s : St) (bs : List Blk) (e : Nat) : Prop where
  mid : Mid N s.r s bs e
  w : s.w = if e < N then e else e - N

/-- Cleaning up: the blocks in front that were given back are gone; if this passes the end of the buffer, counting begins
anew. -/
theorem mid_clean {N r0 e : Nat} {s : St} {bs : List Blk} (h : Mid N r0 s bs e) :
    ∃ pre bs1 bs' e' r f o, clean s = { s with full := f, r := r, oos := o } ∧ bs = pre ++ bs1 ∧ (∀ b ∈ pre, b.kind = .back) ∧
      (∀ b l, bs1 = b :: l → b.kind ≠ .back) ∧
      Mid N r { s with full := f, r := r, oos := o } bs' e' ∧ bs'.filterMap (Blk.mem N) = bs1.filterMap (Blk.mem N) ∧
      ((bs' = bs1 ∧ e' = e ∧ r0 ≤ r) ∨ (bs' = bs1.map (Blk.shift N) ∧ e' = e - N ∧ N ≤ e ∧ ∀ b ∈ bs1, N ≤ b.pos)) := by
  obtain ⟨pre, bs1, r, f, o, e1, e2, e3, e4, e5⟩ := mid_loop s.oos.length s bs h (Nat.le_refl _)
  have hN := h.pos
  have hstop := h.stop
  by_cases hw : N ≤ r
  · have hpos : ∀ b ∈ bs1, N ≤ b.pos ∧ b.pos < 2 * N := by
      intro b hb
      have := chain_pos e4.chain b hb
      dsimp only at this
      omega
    have hnl : ∀ b ∈ bs1, b.kind ≠ .lost := by
      intro b hb hk
      have := e4.lost b hb hk
      have := hpos b hb
      omega
    have hre : r ≤ e := chain_le e4.chain
    refine ⟨pre, bs1, bs1.map (Blk.shift N), e - N, r - N, f, o, ?_, e2, e3, e5, ?_, ?_,
      Or.inr ⟨rfl, rfl, by omega, fun b hb => (hpos b hb).1⟩⟩
    · unfold clean
      rw [e1]
      dsimp only
      rw [h.size, if_pos hw]
    · refine ⟨h.size, chain_shift e4.chain hw, ?_, ?_, by omega, Nat.le_refl _, by omega, ?_, ?_⟩
      · intro b hb
        obtain ⟨c, hc, rfl⟩ := List.mem_map.mp hb
        have h1 := hpos c hc
        have h2 := chain_pos e4.chain c hc
        left
        change c.pos - N + c.size ≤ N
        omega
      · intro b hb _
        obtain ⟨c, hc, rfl⟩ := List.mem_map.mp hb
        have h1 := hpos c hc
        change c.pos - N < N
        omega
      · have := e4.oos
        rw [List.filterMap_map, filterMap_congr_mem (g := Blk.entry N)]
        · exact this
        · intro b hb
          exact shift_entry (hpos b hb).1 (hnl b hb)
      · have := e4.full
        dsimp only at this ⊢
        rw [this]
        omega
    · rw [List.filterMap_map]
      refine filterMap_congr_mem fun b hb => ?_
      exact shift_mem (hpos b hb).1 (hpos b hb).2
  · refine ⟨pre, bs1, bs1, e, r, f, o, ?_, e2, e3, e5, ?_, rfl, Or.inl ⟨rfl, rfl, e4.start⟩⟩
    · unfold clean
      rw [e1]
      dsimp only
      rw [h.size, if_neg hw]
    · have hrs : r0 ≤ r := e4.start
      exact ⟨h.size, e4.chain, e4.fits, e4.lost, by omega, Nat.le_refl _, by omega, e4.oos, e4.full⟩

end Verif.PacketBuffer
