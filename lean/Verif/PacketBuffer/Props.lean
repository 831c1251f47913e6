import Verif.PacketBuffer.Steps

/-! # Packets from a packet buffer (C59-C61) -/

namespace Verif.PacketBuffer

open Spec

/-- What holds between two operations. `X` is a condition on the blocks and the packets. -/
def Holds (X : Nat → List Blk → List (Nat × Nat) → Prop) (s : St) : Prop :=
  (s.size = 0 ∧ s.r = 0 ∧ s.w = 0 ∧ s.full = false ∧ s.oos = [] ∧ s.live = []) ∨
  ∃ bs e, Good s.size s bs e ∧ X s.size bs s.live

def AnyOrder (N : Nat) (bs : List Blk) (live : List (Nat × Nat)) : Prop := live.Perm (bs.filterMap (Blk.mem N))

def Ordered (N : Nat) (bs : List Blk) (live : List (Nat × Nat)) : Prop := live = bs.filterMap (Blk.mem N) ∧ Fifo N bs

theorem good_fresh {s : St} (h0 : 0 < s.size) (hr : s.r = 0) (hw : s.w = 0) (hf : s.full = false) (ho : s.oos = []) :
    Good s.size s [] 0 := by
  refine ⟨⟨rfl, hr.symm, by simp, by simp, by omega, Nat.le_refl _, by omega, by rw [ho]; exact .nil, ?_⟩, by rw [if_pos h0, hw]⟩
  rw [hf, hr]
  simp
  omega

theorem fifo_nil (N : Nat) : Fifo N [] := ⟨by simp, by simp, by simp⟩

theorem holds_fresh {X : Nat → List Blk → List (Nat × Nat) → Prop} {s : St} (hX : X s.size [] []) (hr : s.r = 0) (hw : s.w = 0)
    (hf : s.full = false) (ho : s.oos = []) (hl : s.live = []) : Holds X s := by
  by_cases h0 : s.size = 0
  · exact Or.inl ⟨h0, hr, hw, hf, ho, hl⟩
  · exact Or.inr ⟨[], 0, good_fresh (by omega) hr hw hf ho, by rw [hl]; exact hX⟩

/-- Nothing is in use when the positions agree and the buffer is not full. -/
theorem good_empty {N e : Nat} {s : St} {bs : List Blk} (h : Good N s bs e) (hr : s.r = s.w) (hf : s.full = false) :
    bs = [] ∧ s.oos = [] := by
  have hm := h.mid
  have hN := hm.pos
  have h1 := chain_le hm.chain
  have h2 := hm.stop
  have h3 := h.w
  have h4 := hm.full
  rw [hf] at h4
  have h5 : e ≠ s.r + N := fun he => by simpa using h4.mpr he
  have h6 : e = s.r := by
    split at h3 <;> omega
  have h7 : bs = [] := by
    have := hm.chain
    rw [h6] at this
    exact chain_empty this
  refine ⟨h7, ?_⟩
  have := hm.oos
  rw [h7] at this
  exact this.eq_nil

theorem empty_good {N e : Nat} {s : St} {bs : List Blk} (h : Good N s bs e) (hb : bs = []) : s.r = s.w ∧ s.full = false := by
  subst hb
  have hm := h.mid
  have hN := hm.pos
  have h1 : e = s.r := hm.chain
  have h2 := h.w
  rw [h1, if_pos hN] at h2
  refine ⟨h2.symm, ?_⟩
  cases hf : s.full with
  | false => rfl
  | true => have := hm.full.mp hf; omega

/-- `resize` takes effect only when no packet exists. -/
theorem holds_finish {X : Nat → List Blk → List (Nat × Nat) → Prop} (hX0 : ∀ N, X N [] []) (hXl : ∀ N l, X N [] l → l = []) {s : St}
    (h : Holds X s) : Holds X (finishResize s) ∧ (finishResize s).live = s.live ∧
      (∀ n, s.waiting = some n → (finishResize s).waiting = none → (finishResize s).live = [] ∧ (finishResize s).size = n) := by
  unfold finishResize
  cases hw : s.waiting with
  | none => exact ⟨h, rfl, fun n h => by cases h⟩
  | some n =>
    dsimp only
    split
    · rename_i hc
      have hlive : s.live = [] ∧ s.oos = [] := by
        rcases h with h | ⟨bs, e, hg, hx⟩
        · exact ⟨h.2.2.2.2.2, h.2.2.2.2.1⟩
        · obtain ⟨h1, h2⟩ := good_empty hg hc.1 hc.2
          subst h1
          exact ⟨hXl _ _ hx, h2⟩
      refine ⟨holds_fresh (hX0 _) rfl rfl hc.2 hlive.2 hlive.1, rfl, ?_⟩
      intro m hm _
      exact ⟨hlive.1, by injection hm⟩
    · exact ⟨h, rfl, fun m _ hn => by rw [hw] at hn; cases hn⟩

theorem mem_split {N : Nat} {bs : List Blk} {p : Nat × Nat} (h : p ∈ bs.filterMap (Blk.mem N)) :
    ∃ l1 b l2, bs = l1 ++ b :: l2 ∧ b.mem N = some p := by
  obtain ⟨b, hb, he⟩ := List.mem_filterMap.mp h
  obtain ⟨l1, l2, e⟩ := List.append_of_mem hb
  exact ⟨l1, b, l2, e, he⟩

theorem good_live {N e : Nat} {s : St} {bs : List Blk} (h : Good N s bs e) (l : List (Nat × Nat)) : Good N { s with live := l } bs e :=
  ⟨⟨h.mid.size, h.mid.chain, h.mid.fits, h.mid.lost, h.mid.pos, h.mid.start, h.mid.stop, h.mid.oos, h.mid.full⟩, h.w⟩

theorem good_waiting {N e : Nat} {s : St} {bs : List Blk} (h : Good N s bs e) (l : Option Nat) : Good N { s with waiting := l } bs e :=
  ⟨⟨h.mid.size, h.mid.chain, h.mid.fits, h.mid.lost, h.mid.pos, h.mid.start, h.mid.stop, h.mid.oos, h.mid.full⟩, h.w⟩

theorem write_zero {s : St} {n : Nat} (h0 : s.size = 0) (hr : s.r = 0) (hw : s.w = 0) (hf : s.full = false) (hn : 0 < n) :
    write s n = .error .invalidParameter := by
  unfold write available
  rw [hr, hw, hf, h0]
  simp [hn]

/-- Creating a packet keeps what holds. -/
theorem holds_create {X : Nat → List Blk → List (Nat × Nat) → Prop}
    (hX : ∀ N bs bs' live p, bs'.filterMap (Blk.mem N) = bs.filterMap (Blk.mem N) ++ [p] → (Fifo N bs → Fifo N bs') →
      ((∃ b ∈ bs, b.kind = .lost) → ∃ b ∈ bs', b.kind = .lost) → X N bs live → X N bs' (live ++ [p]))
    {s : St} (h : Holds X s) (ex : Bool) (count raw : Nat) (hs : Sized (.create ex count raw)) :
    Holds X (step s (.create ex count raw)).1 := by
  obtain ⟨hs1, hs2⟩ := hs
  unfold step
  dsimp only
  rw [Nat.mod_eq_of_lt hs2]
  split
  · exact h
  · split
    · exact h
    · cases hw : write s (count * raw) with
      | error e => exact h
      | ok x =>
        obtain ⟨pos, s1⟩ := x
        dsimp only
        rcases h with h | ⟨bs, e, hg, hx⟩
        · rw [write_zero h.1 h.2.1 h.2.2.1 h.2.2.2.1 hs1] at hw
          cases hw
        · obtain ⟨h1, -, bs', e', h3, h4, h5, h6⟩ := good_write hg hs1 hw
          have hsz : s1.size = s.size := h3.mid.size
          refine Or.inr ⟨bs', e', ?_, ?_⟩
          · rw [← hsz] at h3
            exact good_live h3 _
          · dsimp only
            rw [hsz, h1]
            exact hX _ _ _ _ _ h4 h5 h6 hx

/-- Releasing a packet keeps what holds. -/
theorem holds_giveBack {X : Nat → List Blk → List (Nat × Nat) → Prop} {s : St} (h : Holds X s) (i : Nat) (p : Nat × Nat)
    (hp : s.live[i]? = some p)
    (hsplit : ∀ N bs, X N bs s.live → ∃ l1 b l2, bs = l1 ++ b :: l2 ∧ b.mem N = some p ∧
      ∀ bs', bs'.filterMap (Blk.mem N) = l1.filterMap (Blk.mem N) ++ l2.filterMap (Blk.mem N) →
        (Fifo N bs → l1.filterMap (Blk.mem N) = [] → Fifo N bs') →
        ((∃ b ∈ bs, b.kind = .lost) → ∃ b ∈ bs', b.kind = .lost) → X N bs' (s.live.eraseIdx i)) :
    Holds X (giveBack { s with live := s.live.eraseIdx i } p.1 p.2) ∧
      (giveBack { s with live := s.live.eraseIdx i } p.1 p.2).waiting = s.waiting ∧
      (giveBack { s with live := s.live.eraseIdx i } p.1 p.2).live = s.live.eraseIdx i := by
  rcases h with h | ⟨bs, e, hg, hx⟩
  · rw [h.2.2.2.2.2] at hp
    cases hp
  · obtain ⟨l1, b, l2, hb, hbm, hX⟩ := hsplit _ _ hx
    subst hb
    obtain ⟨h1, h2, bs', e', h3, h4, h5, h6⟩ := good_giveBack (good_live hg (s.live.eraseIdx i)) hbm
    refine ⟨Or.inr ⟨bs', e', ?_, ?_⟩, h2, h1⟩
    · rw [h3.mid.size]
      exact h3
    · rw [h3.mid.size, h1]
      exact hX bs' h4 h5 h6

theorem erase_perm {l : List (Nat × Nat)} {i : Nat} {p : Nat × Nat} (h : l[i]? = some p) : l.Perm (p :: l.eraseIdx i) := by
  obtain ⟨hi, e⟩ := List.getElem?_eq_some_iff.mp h
  subst e
  clear h
  induction l generalizing i with
  | nil => cases hi
  | cons a l ih =>
    cases i with
    | zero => exact .refl _
    | succ i =>
      have h1 := ih (i := i) (by simpa using hi)
      exact (h1.cons a).trans (.swap _ _ _)

/-- Any order: everything the operations need. -/
theorem anyOrder_step {s : St} (h : Holds AnyOrder s) (op : Op) (hs : Sized op) :
    Holds AnyOrder (step s op).1 ∧
      (∀ n, (s.waiting = some n ∧ ¬ (∃ m, op = .resize m)) ∨ op = .resize n → (step s op).1.waiting = none →
        (step s op).1.live = [] ∧ (step s op).1.size = n) := by
  have hX0 : ∀ N, AnyOrder N [] [] := fun N => .nil
  have hXl : ∀ N l, AnyOrder N [] l → l = [] := fun N l h => List.Perm.eq_nil h
  cases op with
  | create ex count raw =>
    refine ⟨holds_create ?_ h ex count raw hs, ?_⟩
    · intro N bs bs' live p h1 _ _ h2
      unfold AnyOrder
      rw [h1]
      exact List.Perm.append_right _ h2
    · rintro n (⟨hw, -⟩ | hn) h1
      · exfalso
        unfold step at h1
        dsimp only at h1
        rw [hw] at h1
        simp only [Option.isSome_some, if_true] at h1
        split at h1 <;> (dsimp only at h1; rw [hw] at h1; cases h1)
      · cases hn
  | release i =>
    unfold step
    dsimp only
    cases hp : s.live[i]? with
    | none =>
      refine ⟨h, ?_⟩
      rintro n (⟨hw, -⟩ | hn) h1
      · dsimp only at h1; rw [hw] at h1; cases h1
      · cases hn
    | some p =>
      dsimp only
      obtain ⟨h1, h2, h3⟩ := holds_giveBack h i p hp (by
        intro N bs hx
        have hmem : p ∈ bs.filterMap (Blk.mem N) := hx.mem_iff.mp (List.mem_of_getElem? hp)
        obtain ⟨l1, b, l2, hb, hbm⟩ := mem_split hmem
        refine ⟨l1, b, l2, hb, hbm, ?_⟩
        intro bs' h4 _ _
        unfold AnyOrder
        rw [h4]
        have h5 := (erase_perm hp).symm.trans hx
        rw [hb, List.filterMap_append, List.filterMap_cons, hbm] at h5
        exact (h5.trans List.perm_middle).cons_inv)
      obtain ⟨h4, h5, h6⟩ := holds_finish hX0 hXl h1
      refine ⟨h4, ?_⟩
      rintro n (⟨hw, -⟩ | hn) h7
      · exact h6 n (by rw [h2]; exact hw) h7
      · cases hn
  | resize n =>
    have hw : Holds AnyOrder { s with waiting := some n } := by
      rcases h with h | ⟨bs, e, hg, hx⟩
      · exact Or.inl h
      · exact Or.inr ⟨bs, e, good_waiting hg _, hx⟩
    obtain ⟨h4, h5, h6⟩ := holds_finish hX0 hXl hw
    refine ⟨h4, ?_⟩
    rintro m (⟨-, hm⟩ | hm) h7
    · exact absurd ⟨n, rfl⟩ hm
    · injection hm with hm
      subst hm
      exact h6 _ rfl h7

theorem anyOrder_run {s : St} (h : Holds AnyOrder s) (ops : List Op) (hs : ∀ op ∈ ops, Sized op) : Holds AnyOrder (run s ops) := by
  induction ops generalizing s with
  | nil => exact h
  | cons op ops ih =>
    exact ih (anyOrder_step h op (hs op (by simp))).1 fun o ho => hs o (by simp [ho])

theorem anyOrder_init (n : Nat) : Holds AnyOrder { size := n } :=
  holds_fresh (.nil : AnyOrder n [] []) rfl rfl rfl rfl rfl

theorem separate_of {N e : Nat} {s : St} {bs : List Blk} (h : Good N s bs e) : Separate N (bs.filterMap (Blk.mem N)) := by
  have hm := h.mid
  have hN := hm.pos
  have hstop := hm.stop
  constructor
  · intro p hp
    obtain ⟨b, hb, he⟩ := List.mem_filterMap.mp hp
    have h1 := hm.fits b hb
    have h2 := chain_pos hm.chain b hb
    unfold Blk.mem at he
    split at he
    · cases he
      dsimp only
      split <;> omega
    · cases he
  · rw [List.pairwise_filterMap]
    have h1 : bs.Pairwise fun a b => a.pos + a.size ≤ b.pos ∧ s.r ≤ a.pos ∧ b.pos + b.size ≤ e ∧ 0 < a.size ∧
        (a.pos + a.size ≤ N ∨ N ≤ a.pos) ∧ (b.pos + b.size ≤ N ∨ N ≤ b.pos) := by
      refine (List.Pairwise.and_mem.mp (chain_pairwise hm.chain)).imp ?_
      rintro a b ⟨ha, hb, hab⟩
      have h2 := chain_pos hm.chain a ha
      have h3 := chain_pos hm.chain b hb
      exact ⟨hab, h2.1, h3.2.2, h2.2.1, hm.fits a ha, hm.fits b hb⟩
    refine h1.imp ?_
    rintro a b ⟨h2, h3, h4, h5, h6, h7⟩ p hp q hq
    unfold Blk.mem at hp hq
    split at hp
    · split at hq
      · cases hp; cases hq
        unfold Apart
        dsimp only
        split <;> split <;> omega
      · cases hq
    · cases hp

theorem separate_perm {N : Nat} {l l' : List (Nat × Nat)} (h : l.Perm l') (hs : Separate N l') : Separate N l := by
  refine ⟨fun p hp => hs.1 p (h.mem_iff.mp hp), ?_⟩
  exact (h.pairwise_iff (fun {a b} hab => hab.symm)).mpr hs.2

/-- **C59** The packets of a buffer never share memory and lie in the buffer: after every history of creating packets (of at
least one byte), releasing them in any order, and resizing. -/
theorem C59_separate (n : Nat) (ops : List Op) (hs : ∀ op ∈ ops, Sized op) :
    Separate (run { size := n } ops).size (run { size := n } ops).live := by
  rcases anyOrder_run (anyOrder_init n) ops hs with h | ⟨bs, e, hg, hx⟩
  · rw [h.2.2.2.2.2]
    exact ⟨by simp, .nil⟩
  · exact separate_perm hx (separate_of hg)

/-- **C59** A packet gets as much memory as asked for, none of which belongs to another packet. -/
theorem C59_packet (n : Nat) (ops : List Op) (hs : ∀ op ∈ ops, Sized op) (ex : Bool) (count raw : Nat)
    (ho : Sized (.create ex count raw)) (pos size : Nat)
    (h : (step (run { size := n } ops) (.create ex count raw)).2 = .packet pos size) :
    size = count * raw ∧ (pos, size) ∈ (step (run { size := n } ops) (.create ex count raw)).1.live ∧
    pos + size ≤ (run { size := n } ops).size ∧ ∀ p ∈ (run { size := n } ops).live, Apart p (pos, size) := by
  have hinv := anyOrder_run (anyOrder_init n) ops hs
  generalize run { size := n } ops = s at *
  unfold step at h ⊢
  dsimp only at h ⊢
  rw [Nat.mod_eq_of_lt ho.2] at h ⊢
  split at h
  · cases h
  · rename_i h1
    split at h
    · cases h
    · rename_i h2
      rw [if_neg h1, if_neg h2]
      cases hw : write s (count * raw) with
      | error e => rw [hw] at h; cases h
      | ok x =>
        obtain ⟨q, s1⟩ := x
        rw [hw] at h
        injection h with h3 h4
        dsimp only
        subst h3; subst h4
        rcases hinv with hi | ⟨bs, e, hg, hx⟩
        · rw [write_zero hi.1 hi.2.1 hi.2.2.1 hi.2.2.2.1 ho.1] at hw
          cases hw
        · obtain ⟨-, -, bs', e', h3, h4, -, -⟩ := good_write hg ho.1 hw
          have hsep := separate_of h3
          rw [h4] at hsep
          refine ⟨rfl, by simp, hsep.1 (q, count * raw) (by simp), ?_⟩
          intro p hp
          have := hx.mem_iff.mp hp
          exact (List.pairwise_append.mp hsep.2).2.2 p this _ (by simp)

/-- **C59** A resize takes effect only when no packet exists, and then the buffer has the new size. -/
theorem C59_resize (n : Nat) (ops : List Op) (hs : ∀ op ∈ ops, Sized op) (op : Op) (ho : Sized op) (m : Nat)
    (hw : ((run { size := n } ops).waiting = some m ∧ ¬ ∃ k, op = .resize k) ∨ op = .resize m)
    (h : (step (run { size := n } ops) op).1.waiting = none) :
    (step (run { size := n } ops) op).1.live = [] ∧ (step (run { size := n } ops) op).1.size = m :=
  (anyOrder_step (anyOrder_run (anyOrder_init n) ops hs) op ho).2 m hw h

/-- Three packets, the second released first; the fourth is laid over the second's place. -/
def wrapOps : List Op :=
  [.create true 5 1, .create true 5 1, .create true 10 1, .release 0, .release 0, .create true 2 2, .create true 3 2]

example : (∀ op ∈ wrapOps, Sized op) ∧ (run { size := 20 } wrapOps).live = [(10, 10), (0, 4), (4, 6)] := by
  refine ⟨?_, by decide⟩
  simp [wrapOps, Sized]

/-- **C59 (violation)** An empty packet that is released late lets the buffer believe that all its memory is free: a new packet
lies over an existing one. -/
theorem C59_violation_empty :
    (run { size := 20 } [.create true 5 1, .create true 0 1, .create true 15 1, .release 0, .create true 5 1, .release 0,
      .create true 15 1]).live = [(5, 15), (0, 5), (5, 15)] := by decide

/-- **C59 (violation)** The size of a packet is computed modulo 2^64: a packet of 2^61 samples of eight bytes gets no memory. -/
theorem C59_violation_overflow :
    (step { size := 20 } (.create true (2 ^ 61) 8)).2 = .packet 0 0 := by decide

theorem cleanLoop_keeps (k : Nat) (s : St) : (cleanLoop k s).live = s.live ∧ (cleanLoop k s).waiting = s.waiting := by
  induction k generalizing s with
  | zero => exact ⟨rfl, rfl⟩
  | succ k ih =>
    unfold cleanLoop
    split
    · exact ⟨rfl, rfl⟩
    · split
      · exact ⟨rfl, rfl⟩
      · exact ⟨(ih _).1, (ih _).2⟩

theorem clean_keeps (s : St) : (clean s).live = s.live ∧ (clean s).waiting = s.waiting := by
  unfold clean
  dsimp only
  split
  · exact cleanLoop_keeps _ _
  · exact cleanLoop_keeps _ _

theorem write_keeps {s s1 : St} {n pos : Nat} (h : write s n = .ok (pos, s1)) : s1.live = s.live ∧ s1.waiting = s.waiting := by
  unfold write at h
  split at h
  · cases h
  · split at h
    · split at h
      · cases h
      · split at h
        · cases h
        · cases h
          exact clean_keeps _
    · cases h
      exact ⟨rfl, rfl⟩

theorem finish_keeps (s : St) : (finishResize s).live = s.live := by
  unfold finishResize
  split
  · rfl
  · split <;> rfl

/-- **C59** Which packets exist: those created and not released. A call that creates no packet changes nothing; while a resize
waits, and for a descriptor without explicit values, no packet is created. -/
theorem C59_live (s : St) :
    (∀ ex count raw pos size, (step s (.create ex count raw)).2 = .packet pos size →
      ex = true ∧ s.waiting = none ∧ (step s (.create ex count raw)).1.live = s.live ++ [(pos, size)] ∧
      (step s (.create ex count raw)).1.waiting = none) ∧
    (∀ ex count raw, (∀ pos size, (step s (.create ex count raw)).2 ≠ .packet pos size) →
      (step s (.create ex count raw)).1 = s ∧ ∃ e, (step s (.create ex count raw)).2 = .err e) ∧
    (∀ i, (step s (.release i)).1.live = s.live.eraseIdx i ∧ (step s (.release i)).2 = .done) ∧
    (∀ n, (step s (.resize n)).1.live = s.live ∧
      ((step s (.resize n)).2 = .done ↔ (step s (.resize n)).1.waiting = none) ∧
      ((step s (.resize n)).2 = .waits ↔ (step s (.resize n)).1.waiting ≠ none)) := by
  refine ⟨?_, ?_, ?_, ?_⟩
  · intro ex count raw pos size h
    unfold step at h ⊢
    dsimp only at h ⊢
    split at h
    · cases h
    · rename_i h1
      split at h
      · cases h
      · rename_i h2
        rw [if_neg h1, if_neg h2]
        cases hw : write s (count * raw % 2 ^ 64) with
        | error e => rw [hw] at h; cases h
        | ok x =>
          obtain ⟨q, s1⟩ := x
          rw [hw] at h
          injection h with h3 h4
          subst h3; subst h4
          have h5 := write_keeps hw
          have h6 : s.waiting = none := by cases hc : s.waiting <;> simp_all
          exact ⟨by simpa using h1, h6, by dsimp only; rw [h5.1], by rw [← h6]; exact h5.2⟩
  · intro ex count raw h
    unfold step at h ⊢
    dsimp only at h ⊢
    split
    · exact ⟨rfl, _, rfl⟩
    · rename_i h1
      split
      · exact ⟨rfl, _, rfl⟩
      · rename_i h2
        rw [if_neg h1, if_neg h2] at h
        cases hw : write s (count * raw % 2 ^ 64) with
        | error e => exact ⟨rfl, _, rfl⟩
        | ok x =>
          obtain ⟨q, s1⟩ := x
          rw [hw] at h
          exact absurd rfl (h q _)
  · intro i
    unfold step
    dsimp only
    cases hp : s.live[i]? with
    | none =>
      have : s.live.length ≤ i := by simpa using hp
      exact ⟨by rw [List.eraseIdx_of_length_le this], rfl⟩
    | some p =>
      dsimp only
      refine ⟨?_, rfl⟩
      rw [finish_keeps]
      unfold giveBack
      rw [(clean_keeps _).1]
  · intro n
    unfold step
    dsimp only
    refine ⟨by rw [finish_keeps], ?_, ?_⟩ <;> cases (finishResize { s with waiting := some n }).waiting <;> simp

/-- **C60** The reported number of samples is exact: so many samples can be created as one packet, and not more. -/
theorem C60_max (s : St) (hs : s.waiting = none) (count raw : Nat) (ho : Sized (.create true count raw)) (m : Nat)
    (hm : maxCount s raw = some m) :
    (∃ pos, (step s (.create true count raw)).2 = .packet pos (count * raw)) ↔ count ≤ m := by
  obtain ⟨h1, h2⟩ := ho
  have hraw : 0 < raw := Nat.pos_of_mul_pos_left h1
  have key : ∀ a, count ≤ a / raw ↔ count * raw ≤ a := fun a => Nat.le_div_iff_mul_le hraw
  unfold maxCount at hm
  rw [if_neg (by omega)] at hm
  unfold step
  dsimp only
  rw [hs, Nat.mod_eq_of_lt h2]
  simp only [Bool.not_true, Bool.false_eq_true, if_false, Option.isSome_none]
  unfold write available
  generalize count * raw = n at *
  by_cases hwr : s.w < s.r
  · rw [if_pos hwr] at hm
    injection hm with hm
    subst hm
    simp only [if_pos hwr, key]
    by_cases hlt : s.r - s.w < n
    · simp only [if_pos hlt]
      simp
      omega
    · simp only [if_neg hlt]
      simp
      omega
  · rw [if_neg hwr] at hm
    simp only [if_neg hwr]
    by_cases hfull : (s.w == s.r && s.full) = true
    · rw [if_pos hfull] at hm
      injection hm with hm
      subst hm
      rw [Bool.and_comm] at hfull
      simp only [if_pos hfull]
      simp
      intro h
      subst h
      have := key 0
      simp at this
      omega
    · rw [if_neg hfull] at hm
      rw [Bool.and_comm] at hfull
      simp only [if_neg hfull]
      by_cases hside : s.r ≤ s.size - s.w
      · rw [if_pos hside] at hm
        injection hm with hm
        subst hm
        rw [key]
        by_cases hlt : s.size - s.w < n
        · simp only [if_pos hlt, if_pos (show n > s.r by omega)]
          simp
          omega
        · simp only [if_neg hlt]
          simp
          omega
      · rw [if_neg hside] at hm
        injection hm with hm
        subst hm
        rw [key]
        by_cases hlt : s.size - s.w < n
        · simp only [if_pos hlt]
          by_cases hr : n > s.r
          · simp only [if_pos hr]
            simp
            omega
          · simp only [if_neg hr]
            simp
            omega
        · simp only [if_neg hlt]
          simp
          omega

example : maxCount (run { size := 20 } wrapOps.dropLast) 2 = some 3 ∧ Sized (.create true 3 2) ∧ (run { size := 20 } wrapOps.dropLast).waiting = none := by
  refine ⟨by decide, ?_, by decide⟩
  simp [Sized]

/-- **C60 (violation)** The other query, which is to give the space at the end of the buffer, counts from the position of
reading: it reports samples that cannot be created. -/
theorem C60_violation_available :
    availableCount (run { size := 20 } [.create true 15 1]) 1 = some 20 ∧
    (step (run { size := 20 } [.create true 15 1]) (.create true 6 1)).2 = .err .invalidParameter := by decide

/-! ## All memory becomes available again -/

theorem ordered_step {s : St} (h : Holds Ordered s) (hwt : s.waiting.isSome → s.live ≠ []) (op : Op) (hs : Sized op) (ho : InOrder op) :
    Holds Ordered (step s op).1 ∧ ((step s op).1.waiting.isSome → (step s op).1.live ≠ []) := by
  have hX0 : ∀ N, Ordered N [] [] := fun N => ⟨rfl, fifo_nil N⟩
  have hXl : ∀ N l, Ordered N [] l → l = [] := fun N l h => h.1
  have hfin : ∀ s : St, Holds Ordered s → (finishResize s).waiting.isSome → (finishResize s).live ≠ [] := by
    intro s hs
    unfold finishResize
    cases hw : s.waiting with
    | none => intro h; dsimp only at h; rw [hw] at h; cases h
    | some n =>
      dsimp only
      split
      · intro h; cases h
      · rename_i hc
        intro _ hl
        refine hc ?_
        rcases hs with h | ⟨bs, e, hg, hx, hF⟩
        · exact ⟨by rw [h.2.1, h.2.2.1], h.2.2.2.1⟩
        · refine empty_good hg ?_
          cases bs with
          | nil => rfl
          | cons b bs =>
            exfalso
            rw [hl] at hx
            have h1 := hF.head b bs rfl
            have h2 := hF.lost b (by simp)
            have h3 : b.kind = .live := by cases hc : b.kind <;> simp_all
            rw [List.filterMap_cons] at hx
            unfold Blk.mem at hx
            rw [h3] at hx
            cases hx
  cases op with
  | create ex count raw =>
    refine ⟨holds_create ?_ h ex count raw hs, ?_⟩
    · intro N bs bs' live p h1 h2 _ h3
      exact ⟨by rw [h1, h3.1], h2 h3.2⟩
    · unfold step
      dsimp only
      split
      · exact hwt
      · split
        · exact hwt
        · rename_i hn
          split
          · exact hwt
          · intro _
            simp
  | release i =>
    change i = 0 at ho
    subst ho
    unfold step
    dsimp only
    cases hp : s.live[0]? with
    | none =>
      exact ⟨h, hwt⟩
    | some p =>
      dsimp only
      obtain ⟨h1, h2, h3⟩ := holds_giveBack h 0 p hp (by
        intro N bs hx
        obtain ⟨hx, hF⟩ := hx
        cases bs with
        | nil => rw [hx] at hp; cases hp
        | cons b bs =>
          have h1 := hF.head b bs rfl
          have h2 := hF.lost b (by simp)
          have h3 : b.kind = .live := by cases hc : b.kind <;> simp_all
          have h4 : ∃ q, b.mem N = some q := by unfold Blk.mem; rw [h3]; exact ⟨_, rfl⟩
          obtain ⟨q, hq⟩ := h4
          rw [List.filterMap_cons, hq] at hx
          have hpq : q = p := by rw [hx] at hp; injection hp
          subst hpq
          refine ⟨[], b, bs, rfl, hq, ?_⟩
          intro bs' h4 h5 _
          refine ⟨?_, h5 hF rfl⟩
          rw [h4, hx]
          rfl)
      obtain ⟨h4, h5, h6⟩ := holds_finish hX0 hXl h1
      exact ⟨h4, hfin _ h1⟩
  | resize n =>
    have hw : Holds Ordered { s with waiting := some n } := by
      rcases h with h | ⟨bs, e, hg, hx⟩
      · exact Or.inl h
      · exact Or.inr ⟨bs, e, good_waiting hg _, hx⟩
    obtain ⟨h4, h5, h6⟩ := holds_finish hX0 hXl hw
    exact ⟨h4, hfin _ hw⟩

theorem ordered_run {s : St} (h : Holds Ordered s) (hwt : s.waiting.isSome → s.live ≠ []) (ops : List Op) (hs : ∀ op ∈ ops, Sized op ∧ InOrder op) :
    Holds Ordered (run s ops) ∧ ((run s ops).waiting.isSome → (run s ops).live ≠ []) := by
  induction ops generalizing s with
  | nil => exact ⟨h, hwt⟩
  | cons op ops ih =>
    have := ordered_step h hwt op (hs op (by simp)).1 (hs op (by simp)).2
    exact ih this.1 this.2 fun o ho => hs o (by simp [ho])

/-- **C61** When packets are released in the order of their creation and none exists any more, all memory is available again:
no resize is waiting, a resize takes effect at once, and a packet of up to half the buffer can be created. Missing: packets
released in another order, and packets of more than half the buffer, for which it fails (`C61_violation_order`,
`C61_violation_half`). -/
theorem C61_reclaimed_partial (n : Nat) (ops : List Op) (hs : ∀ op ∈ ops, Sized op ∧ InOrder op)
    (hl : (run { size := n } ops).live = []) :
    (run { size := n } ops).waiting = none ∧
    (∀ m, (step (run { size := n } ops) (.resize m)).2 = .done) ∧
    ∀ count raw, Sized (.create true count raw) → 2 * (count * raw) ≤ (run { size := n } ops).size →
      ∃ pos, (step (run { size := n } ops) (.create true count raw)).2 = .packet pos (count * raw) := by
  obtain ⟨h1, h2⟩ := ordered_run (s := { size := n }) (holds_fresh ⟨rfl, fifo_nil _⟩ rfl rfl rfl rfl rfl) (by simp) ops hs
  generalize run { size := n } ops = s at *
  have hw : s.waiting = none := by
    cases hc : s.waiting with
    | none => rfl
    | some m => exact absurd hl (h2 (by rw [hc]; rfl))
  have hempty : s.r = s.w ∧ s.full = false ∧ s.w ≤ s.size := by
    rcases h1 with h | ⟨bs, e, hg, hx, hF⟩
    · exact ⟨by rw [h.2.1, h.2.2.1], h.2.2.2.1, by rw [h.2.2.1]; omega⟩
    · have hb : bs = [] := by
        cases bs with
        | nil => rfl
        | cons b bs =>
          exfalso
          rw [hl] at hx
          have h1 := hF.head b bs rfl
          have h2 := hF.lost b (by simp)
          have h3 : b.kind = .live := by cases hc : b.kind <;> simp_all
          rw [List.filterMap_cons] at hx
          unfold Blk.mem at hx
          rw [h3] at hx
          cases hx
      have h3 := empty_good hg hb
      exact ⟨h3.1, h3.2, by have := hg.mid.pos; omega⟩
  obtain ⟨hr, hf, hle⟩ := hempty
  refine ⟨hw, ?_, ?_⟩
  · intro m
    unfold step finishResize
    dsimp only
    simp [hr, hf]
  · intro count raw ho h2
    have hraw : 0 < raw := Nat.pos_of_mul_pos_left ho.1
    have hm : ∃ m, maxCount s raw = some m ∧ count ≤ m := by
      unfold maxCount
      rw [if_neg (by omega), if_neg (by omega), if_neg (by rw [hf]; simp)]
      split
      · exact ⟨_, rfl, (Nat.le_div_iff_mul_le hraw).mpr (by omega)⟩
      · exact ⟨_, rfl, (Nat.le_div_iff_mul_le hraw).mpr (by omega)⟩
    obtain ⟨m, hm1, hm2⟩ := hm
    exact (C60_max s hw count raw ho m hm1).mpr hm2

example : (∀ op ∈ wrapOps ++ [Op.release 0, .release 0, .release 0], Sized op ∧ InOrder op) ∧
    (run { size := 20 } (wrapOps ++ [.release 0, .release 0, .release 0])).live = [] := by
  refine ⟨?_, by decide⟩
  simp [wrapOps, Sized, InOrder]

/-- Three packets fill the second half of the buffer and, after the first half was released, the first half again; the last
one is released first. -/
def lostOps : List Op :=
  [.create true 5 1, .create true 5 1, .create true 10 1, .release 0, .release 0, .create true 5 1, .create true 5 1,
   .release 2, .release 0, .release 0]

/-- **C61 (violation)** Packets released out of order around the end of the buffer: all packets are gone, but memory is still
taken, so that a resize waits. -/
theorem C61_violation_order :
    (run { size := 20 } lostOps).live = [] ∧ (step (run { size := 20 } lostOps) (.resize 30)).2 = .waits ∧
    maxCount (run { size := 20 } lostOps) 1 = some 10 := by decide

/-- A block that is lost. -/
def HasLost (N : Nat) (bs : List Blk) (live : List (Nat × Nat)) : Prop :=
  live.Perm (bs.filterMap (Blk.mem N)) ∧ ∃ b ∈ bs, b.kind = .lost

/-- A block is lost for good. -/
def Stuck (s : St) : Prop := ∃ bs e, Good s.size s bs e ∧ HasLost s.size bs s.live

theorem stuck_finish {s : St} (h : Stuck s) : finishResize s = s := by
  obtain ⟨bs, e, hg, -, b, hb, -⟩ := h
  unfold finishResize
  cases s.waiting with
  | none => rfl
  | some n =>
    dsimp only
    rw [if_neg]
    rintro ⟨h1, h2⟩
    rw [(good_empty hg h1 h2).1] at hb
    cases hb

theorem stuck_waiting {s : St} (h : Stuck s) (l : Option Nat) : Stuck { s with waiting := l } := by
  obtain ⟨bs, e, hg, hx⟩ := h
  exact ⟨bs, e, good_waiting hg _, hx⟩

theorem stuck_size {s : St} (h : Stuck s) : s.size ≠ 0 := by
  obtain ⟨bs, e, hg, -⟩ := h
  have := hg.mid.pos
  omega

theorem stuck_of_holds {s : St} (h0 : s.size ≠ 0) (h : Holds HasLost s) : Stuck s := by
  rcases h with h | h
  · exact absurd h.1 h0
  · exact h

theorem stuck_step {s : St} (h : Stuck s) (op : Op) (hs : Sized op) : Stuck (step s op).1 ∧ (step s op).1.size = s.size := by
  have hh : Holds HasLost s := Or.inr h
  cases op with
  | create ex count raw =>
    have h1 : Holds HasLost (step s (.create ex count raw)).1 := by
      refine holds_create ?_ hh ex count raw hs
      intro N bs bs' live p h1 _ h3 h4
      refine ⟨?_, h3 h4.2⟩
      rw [h1]
      exact List.Perm.append_right _ h4.1
    have h2 : (step s (.create ex count raw)).1.size = s.size := by
      unfold step
      dsimp only
      split
      · rfl
      · split
        · rfl
        · split
          · rfl
          · rename_i pos s1 hw
            obtain ⟨bs, e, hg, -⟩ := h
            rw [Nat.mod_eq_of_lt hs.2] at hw
            obtain ⟨-, -, bs', e', h3, -⟩ := good_write hg hs.1 hw
            exact h3.mid.size
    exact ⟨stuck_of_holds (by rw [h2]; exact stuck_size h) h1, h2⟩
  | release i =>
    unfold step
    dsimp only
    cases hp : s.live[i]? with
    | none => exact ⟨h, rfl⟩
    | some p =>
      dsimp only
      obtain ⟨h1, -, -⟩ := holds_giveBack hh i p hp (by
        intro N bs hx
        have hmem : p ∈ bs.filterMap (Blk.mem N) := hx.1.mem_iff.mp (List.mem_of_getElem? hp)
        obtain ⟨l1, b, l2, hb, hbm⟩ := mem_split hmem
        refine ⟨l1, b, l2, hb, hbm, ?_⟩
        intro bs' h4 _ h6
        refine ⟨?_, h6 hx.2⟩
        rw [h4]
        have h5 := (erase_perm hp).symm.trans hx.1
        rw [hb, List.filterMap_append, List.filterMap_cons, hbm] at h5
        exact (h5.trans List.perm_middle).cons_inv)
      have h2 : (giveBack { s with live := s.live.eraseIdx i } p.1 p.2).size = s.size := by
        obtain ⟨bs, e, hg, hx⟩ := h
        have hmem : p ∈ bs.filterMap (Blk.mem s.size) := hx.1.mem_iff.mp (List.mem_of_getElem? hp)
        obtain ⟨l1, b, l2, hb, hbm⟩ := mem_split hmem
        subst hb
        obtain ⟨-, -, bs', e', h3, -⟩ := good_giveBack (good_live hg (s.live.eraseIdx i)) hbm
        exact h3.mid.size
      have h3 := stuck_of_holds (by rw [h2]; exact stuck_size h) h1
      rw [stuck_finish h3]
      exact ⟨h3, h2⟩
  | resize n =>
    have h1 := stuck_waiting h (some n)
    unfold step
    dsimp only
    rw [stuck_finish h1]
    exact ⟨h1, rfl⟩

theorem stuck_run {s : St} (h : Stuck s) (ops : List Op) (hs : ∀ op ∈ ops, Sized op) :
    Stuck (run s ops) ∧ (run s ops).size = s.size := by
  induction ops generalizing s with
  | nil => exact ⟨h, rfl⟩
  | cons op ops ih =>
    have h1 := stuck_step h op (hs op (by simp))
    have h2 := ih h1.1 fun o ho => hs o (by simp [ho])
    exact ⟨h2.1, by rw [← h1.2]; exact h2.2⟩

/-- **C61 (violation)** The memory is lost for good: whatever happens afterwards, no resize of that buffer ever takes effect. -/
theorem C61_violation_forever (ops : List Op) (hs : ∀ op ∈ ops, Sized op) (m : Nat) :
    (step (run { size := 20 } (lostOps ++ ops)) (.resize m)).2 = .waits := by
  have hrun : run { size := 20 } (lostOps ++ ops) = run (run { size := 20 } lostOps) ops := by
    have : ∀ (l : List Op) (s : St), run s (l ++ ops) = run (run s l) ops := by
      intro l
      induction l with
      | nil => intro s; rfl
      | cons a l ih => intro s; exact ih _
    exact this _ _
  have h0 : Stuck (run { size := 20 } lostOps) := by
    refine ⟨[⟨5, 5, .lost⟩], 10, ?_, ?_⟩
    · have e : run { size := 20 } lostOps = { size := 20, r := 5, w := 10, oos := [(25, 5)] } := by decide
      rw [e]
      refine ⟨⟨rfl, ⟨rfl, by decide, rfl⟩, by simp, by simp, by decide, Nat.le_refl _, by decide, .refl _, by decide⟩, rfl⟩
    · exact ⟨by decide, _, List.mem_singleton.mpr rfl, rfl⟩
  rw [hrun]
  have h1 := stuck_waiting (stuck_run h0 ops hs).1 (some m)
  unfold step
  dsimp only
  rw [stuck_finish h1]
  rfl

/-- **C61 (violation)** A buffer without packets refuses a packet that would fit, because reading and writing are in the middle. -/
theorem C61_violation_half :
    (run { size := 20 } [.create true 10 1, .release 0]).live = [] ∧
    (step (run { size := 20 } [.create true 10 1, .release 0]) (.create true 15 1)).2 = .err .invalidParameter := by decide

/-- **C61 (violation)** An empty packet makes an empty buffer full. -/
theorem C61_violation_full :
    (step (run { size := 20 } [.create true 0 8]) (.create true 1 1)).2 = .err .bufferFull := by decide

end Verif.PacketBuffer
