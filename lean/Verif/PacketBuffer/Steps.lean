import Verif.PacketBuffer.Blocks

/-! # The operations on the blocks -/

namespace Verif.PacketBuffer

/-- The blocks when packets are released in order: nothing is lost, and only the rest at the end of the buffer is given back
behind a packet. -/
structure Fifo (N : Nat) (bs : List Blk) : Prop where
  lost : ∀ b ∈ bs, b.kind ≠ .lost
  back : ∀ b ∈ bs, b.kind = .back → b.pos + b.size = N
  head : ∀ b l, bs = b :: l → b.kind ≠ .back

theorem mem_none_of_back {N : Nat} {pre : List Blk} (h : ∀ b ∈ pre, b.kind = .back) : pre.filterMap (Blk.mem N) = [] := by
  rw [List.filterMap_eq_nil_iff]
  intro b hb
  unfold Blk.mem
  rw [h b hb]

/-- A block is appended. -/
theorem mid_snoc {N r0 e n : Nat} {s : St} {bs : List Blk} {k : Kind} {f : Bool} {o : List (Nat × Nat)} {w : Nat}
    (h : Mid N r0 s bs e) (hn : 0 < n) (hfit : e + n ≤ N ∨ N ≤ e) (hk : k ≠ .lost) (hstop : e + n ≤ r0 + N)
    (ho : o.Perm (bs.filterMap (Blk.entry N) ++ (Blk.entry N ⟨e, n, k⟩).toList)) (hf : f = true ↔ e + n = s.r + N) :
    Mid N r0 { s with full := f, oos := o, w := w } (bs ++ [⟨e, n, k⟩]) (e + n) where
  size := h.size
  chain := by
    rw [chain_append]
    exact ⟨e, h.chain, rfl, hn, rfl⟩
  fits := by
    intro b hb
    rcases List.mem_append.mp hb with hb | hb
    · exact h.fits b hb
    · rw [List.mem_singleton.mp hb]; exact hfit
  lost := by
    intro b hb hl
    rcases List.mem_append.mp hb with hb | hb
    · exact h.lost b hb hl
    · rw [List.mem_singleton.mp hb] at hl; exact absurd hl hk
  pos := h.pos
  start := h.start
  stop := hstop
  oos := by
    dsimp only
    rw [List.filterMap_append]
    refine ho.trans (.of_eq ?_)
    congr 1
  full := hf

theorem fifo_snoc {N e n : Nat} {bs : List Blk} (h : Fifo N bs) : Fifo N (bs ++ [⟨e, n, .live⟩]) where
  lost := by
    intro b hb
    rcases List.mem_append.mp hb with hb | hb
    · exact h.lost b hb
    · rw [List.mem_singleton.mp hb]; simp
  back := by
    intro b hb
    rcases List.mem_append.mp hb with hb | hb
    · exact h.back b hb
    · rw [List.mem_singleton.mp hb]; simp
  head := by
    intro b l hbl
    cases bs with
    | nil => injection hbl with h1; rw [← h1]; simp
    | cons c bs => injection hbl with h1; exact h1 ▸ h.head c bs rfl

theorem lost_snoc {bs : List Blk} {c : Blk} (h : ∃ b ∈ bs, b.kind = .lost) : ∃ b ∈ bs ++ [c], b.kind = .lost := by
  obtain ⟨b, hb, hk⟩ := h
  exact ⟨b, List.mem_append_left _ hb, hk⟩

/-- Cleaning up does not get past a block that is lost. -/
theorem lost_clean {N : Nat} {bs pre bs1 bs' : List Blk} (hlost : ∀ b ∈ bs, b.kind = .lost → b.pos < N) (h2 : bs = pre ++ bs1)
    (h3 : ∀ b ∈ pre, b.kind = .back) (h : bs' = bs1 ∨ (bs' = bs1.map (Blk.shift N) ∧ ∀ b ∈ bs1, N ≤ b.pos))
    (hl : ∃ b ∈ bs, b.kind = .lost) : ∃ b ∈ bs', b.kind = .lost := by
  obtain ⟨b, hb, hk⟩ := hl
  have hp := hlost b hb hk
  rw [h2] at hb
  rcases List.mem_append.mp hb with h4 | h4
  · rw [h3 b h4] at hk; cases hk
  · rcases h with rfl | ⟨_, hN⟩
    · exact ⟨b, h4, hk⟩
    · have := hN b h4; omega

/-- Cleaning up keeps the order. -/
theorem fifo_clean {N : Nat} {bs1 bs' : List Blk} (hlost : ∀ b ∈ bs1, b.kind ≠ .lost)
    (hback : ∀ b ∈ bs1, b.kind = .back → b.pos + b.size = N) (hsize : ∀ b ∈ bs1, 0 < b.size)
    (hhead : ∀ b l, bs1 = b :: l → b.kind ≠ .back)
    (h : bs' = bs1 ∨ (bs' = bs1.map (Blk.shift N) ∧ ∀ b ∈ bs1, N ≤ b.pos)) : Fifo N bs' := by
  rcases h with rfl | ⟨rfl, hp⟩
  · exact ⟨hlost, hback, hhead⟩
  · have hlive : ∀ b ∈ bs1, b.kind = .live := by
      intro b hb
      cases hk : b.kind with
      | live => rfl
      | back => have := hback b hb hk; have := hp b hb; have := hsize b hb; omega
      | lost => exact absurd hk (hlost b hb)
    have hlive' : ∀ b ∈ bs1.map (Blk.shift N), b.kind = .live := by
      intro b hb
      obtain ⟨c, hc, rfl⟩ := List.mem_map.mp hb
      unfold Blk.shift
      simp [hlive c hc]
    refine ⟨(fun b hb => by rw [hlive' b hb]; simp), (fun b hb h => by rw [hlive' b hb] at h; cases h), fun b l hbl => ?_⟩
    rw [hlive' b (by rw [hbl]; simp)]
    simp

/-- A packet is created. -/
theorem good_write {N e n pos : Nat} {s s1 : St} {bs : List Blk} (h : Good N s bs e) (hn : 0 < n) (hw : write s n = .ok (pos, s1)) :
    s1.live = s.live ∧ s1.waiting = s.waiting ∧ ∃ bs' e', Good N s1 bs' e' ∧
      bs'.filterMap (Blk.mem N) = bs.filterMap (Blk.mem N) ++ [(pos, n)] ∧ (Fifo N bs → Fifo N bs') ∧
      ((∃ b ∈ bs, b.kind = .lost) → ∃ b ∈ bs', b.kind = .lost) := by
  have hsz := h.mid.size
  subst hsz
  have hm := h.mid
  have hN := hm.pos
  have hstop := hm.stop
  have hre := chain_le hm.chain
  have hwp := h.w
  have hfull := hm.full
  unfold write at hw
  cases ha : available s with
  | error e => rw [ha] at hw; cases hw
  | ok a =>
    rw [ha] at hw
    dsimp only at hw
    unfold available at ha
    by_cases hwr : s.w < s.r
    · -- the free space is in the middle
      rw [if_pos hwr] at ha
      cases ha
      have heN : s.size ≤ e := by
        by_cases h1 : e < s.size
        · rw [if_pos h1] at hwp; omega
        · omega
      rw [if_neg (by omega)] at hwp
      split at hw
      · first | rw [if_pos hwr] at hw | skip
        cases hw
      · rename_i hle
        have hne : ¬ s.w + n = s.size := by omega
        rw [if_neg hne] at hw
        injection hw with hw
        injection hw with hw1 hw2
        subst hw1; subst hw2
        refine ⟨rfl, rfl, bs ++ [⟨e, n, .live⟩], e + n, ⟨?_, ?_⟩, ?_, fifo_snoc, lost_snoc⟩
        · refine mid_snoc hm hn (Or.inr heN) (by simp) (by show e + n ≤ s.r + s.size; omega) ?_ ?_
          · simpa [Blk.entry] using hm.oos
          · split
            · simp; omega
            · rw [hfull]; omega
        · dsimp only
          rw [if_neg (by omega)]
          omega
        · rw [List.filterMap_append]
          congr 1
          have hq : ¬ e < s.size := by omega
          simp [Blk.mem, hq, hwp]
    · rw [if_neg hwr] at ha
      split at ha
      · cases ha
      · rename_i hnf
        cases ha
        have heN : e < s.size := by
          by_cases h1 : e < s.size
          · exact h1
          · rw [if_neg h1] at hwp
            exfalso
            have h2 : e = s.r + s.size := by omega
            have h3 := hfull.mpr h2
            have h4 : s.w = s.r := by omega
            rw [h3, h4] at hnf
            simp at hnf
        rw [if_pos heN] at hwp
        split at hw
        · -- the rest at the end is skipped
          rename_i hlt
          try rw [if_neg hwr] at hw
          split at hw
          · cases hw
          · rename_i hnr
            injection hw with hw
            injection hw with hw1 hw2
            have hfill : Mid s.size s.r { s with oos := (s.w, s.size - s.w) :: s.oos } (bs ++ [⟨e, s.size - e, .back⟩]) (e + (s.size - e)) := by
              have h0 := mid_snoc (w := s.w) (f := s.full) (o := (s.w, s.size - s.w) :: s.oos) (k := .back) (n := s.size - e) hm (by omega)
                (Or.inl (by omega)) (by simp) (by omega) ?_ ?_
              · exact h0
              · simp only [Blk.entry, Option.toList, hwp]
                exact (hm.oos.cons _).trans (List.perm_append_comm (l₁ := [(e, s.size - e)]))
              · rw [hfull]; omega
            rw [show e + (s.size - e) = s.size by omega] at hfill
            obtain ⟨pre, bs1, bs', e', r, f, o, c1, c2, c3, c4, c5, c6, c7⟩ := mid_clean hfill
            rw [c1] at hw2
            dsimp only at hw2
            have hmem : bs1.filterMap (Blk.mem s.size) = bs.filterMap (Blk.mem s.size) := by
              have : (bs ++ [(⟨e, s.size - e, .back⟩ : Blk)]).filterMap (Blk.mem s.size) = (pre ++ bs1).filterMap (Blk.mem s.size) := by rw [c2]
              rw [List.filterMap_append, List.filterMap_append, mem_none_of_back c3] at this
              simpa [List.filterMap_cons, Blk.mem] using this.symm
            have hfifo : Fifo s.size bs → Fifo s.size bs' := by
              intro hF
              have hsub : ∀ b ∈ bs1, b ∈ bs ++ [(⟨e, s.size - e, .back⟩ : Blk)] := by
                intro b hb; rw [c2]; exact List.mem_append_right _ hb
              refine fifo_clean (bs1 := bs1) ?_ ?_ ?_ c4 ?_
              · intro b hb
                rcases List.mem_append.mp (hsub b hb) with h1 | h1
                · exact hF.lost b h1
                · rw [List.mem_singleton.mp h1]; simp
              · intro b hb
                rcases List.mem_append.mp (hsub b hb) with h1 | h1
                · exact hF.back b h1
                · rw [List.mem_singleton.mp h1]; intro _; dsimp only; omega
              · intro b hb
                exact (chain_pos hfill.chain b (hsub b hb)).2.1
              · rcases c7 with c7 | c7
                · exact Or.inl c7.1
                · exact Or.inr ⟨c7.1, c7.2.2.2⟩
            subst hw1; subst hw2
            refine ⟨rfl, rfl, bs' ++ [⟨e', n, .live⟩], e' + n, ?_, ?_, fun hF => fifo_snoc (hfifo hF), fun hl => lost_snoc ?_⟩
            · rcases c7 with ⟨_, rfl, c7⟩ | ⟨_, rfl, _, _⟩
              · refine ⟨?_, ?_⟩
                · refine mid_snoc (s := { s with full := f, r := r, oos := o }) c5 hn (Or.inr (Nat.le_refl _)) (by simp) (by dsimp only; omega) ?_ ?_
                  · simpa [Blk.entry] using c5.oos
                  · have := c5.full
                    dsimp only at this ⊢
                    split
                    · simp; omega
                    · rw [this]; omega
                · dsimp only
                  rw [if_neg (by omega)]
                  omega
              · have hr0 : r = 0 := by
                  have := chain_le c5.chain
                  dsimp only at this
                  omega
                refine ⟨?_, ?_⟩
                · refine mid_snoc (s := { s with full := f, r := r, oos := o }) c5 hn (Or.inl (by omega)) (by simp) (by dsimp only; omega) ?_ ?_
                  · simpa [Blk.entry] using c5.oos
                  · have := c5.full
                    dsimp only at this ⊢
                    split
                    · simp; omega
                    · rw [this]; omega
                · dsimp only
                  rw [if_pos (by omega)]
                  omega
            · rw [List.filterMap_append, c6, hmem]
              congr 1
              rcases c7 with ⟨_, rfl, _⟩ | ⟨_, rfl, _, _⟩ <;> simp [Blk.mem]
            · obtain ⟨b, hb, hk⟩ := hl
              exact lost_clean hfill.lost c2 c3 (c7.imp (·.1) (fun c => ⟨c.1, c.2.2.2⟩)) ⟨b, by simp [hb], hk⟩
        · rename_i hge
          injection hw with hw
          injection hw with hw1 hw2
          subst hw1; subst hw2
          refine ⟨rfl, rfl, bs ++ [⟨e, n, .live⟩], e + n, ⟨?_, ?_⟩, ?_, fifo_snoc, lost_snoc⟩
          · refine mid_snoc hm hn (Or.inl (by omega)) (by simp) (by show e + n ≤ s.r + s.size; omega) ?_ ?_
            · simpa [Blk.entry] using hm.oos
            · by_cases hend : s.w + n = s.size
              · rw [if_pos hend]
                split
                · simp; omega
                · rw [hfull]; omega
              · rw [if_neg hend, if_neg (by omega), hfull]; omega
          · dsimp only
            by_cases hend : s.w + n = s.size
            · rw [if_pos hend, if_neg (by omega)]; omega
            · rw [if_neg hend, if_pos (by omega)]; omega
          · rw [List.filterMap_append]
            congr 1
            simp [Blk.mem, heN, hwp]

/-- A packet gives its memory back. -/
theorem good_giveBack {N e pos n : Nat} {s : St} {l1 l2 : List Blk} {b : Blk} (h : Good N s (l1 ++ b :: l2) e)
    (hb : b.mem N = some (pos, n)) :
    (giveBack s pos n).live = s.live ∧ (giveBack s pos n).waiting = s.waiting ∧ ∃ bs' e', Good N (giveBack s pos n) bs' e' ∧
      bs'.filterMap (Blk.mem N) = l1.filterMap (Blk.mem N) ++ l2.filterMap (Blk.mem N) ∧
      (Fifo N (l1 ++ b :: l2) → l1.filterMap (Blk.mem N) = [] → Fifo N bs') ∧
      ((∃ c ∈ l1 ++ b :: l2, c.kind = .lost) → ∃ c ∈ bs', c.kind = .lost) := by
  have hm := h.mid
  have hN := hm.pos
  have hstop := hm.stop
  have hbin : b ∈ l1 ++ b :: l2 := by simp
  have hbp := chain_pos hm.chain b hbin
  have hk : b.kind = .live := by
    unfold Blk.mem at hb
    split at hb
    · assumption
    · cases hb
  have hpn : (if b.pos < N then b.pos else b.pos - N) = pos ∧ b.size = n := by
    unfold Blk.mem at hb
    rw [hk] at hb
    injection hb with hb
    injection hb with h1 h2
    exact ⟨h1, h2⟩
  have hent : (if pos < s.r then pos + s.size else pos) = b.pos := by
    rw [hm.size, ← hpn.1]
    by_cases h1 : b.pos < N
    · rw [if_pos h1, if_neg (by omega)]
    · rw [if_neg h1, if_pos (by omega)]; omega
  have hmid : Mid N s.r { s with oos := (if pos < s.r then pos + s.size else pos, n) :: s.oos }
      (l1 ++ ⟨b.pos, b.size, .back⟩ :: l2) e := by
    refine ⟨hm.size, ?_, ?_, ?_, hN, Nat.le_refl _, hstop, ?_, hm.full⟩
    · obtain ⟨m, c1, c2⟩ := chain_append.mp hm.chain
      exact chain_append.mpr ⟨m, c1, c2.1, c2.2.1, c2.2.2⟩
    · intro c hc
      rcases List.mem_append.mp hc with h1 | h1
      · exact hm.fits c (List.mem_append_left _ h1)
      · rcases List.mem_cons.mp h1 with rfl | h1
        · exact hm.fits b hbin
        · exact hm.fits c (by simp [h1])
    · intro c hc hl
      rcases List.mem_append.mp hc with h1 | h1
      · exact hm.lost c (List.mem_append_left _ h1) hl
      · rcases List.mem_cons.mp h1 with rfl | h1
        · cases hl
        · exact hm.lost c (by simp [h1]) hl
    · rw [hent]
      have h0 := hm.oos
      have e1 : b.entry N = none := by unfold Blk.entry; rw [hk]
      have e2 : Blk.entry N ⟨b.pos, b.size, .back⟩ = some (b.pos, n) := by unfold Blk.entry; rw [hpn.2]
      rw [List.filterMap_append, List.filterMap_cons, e1] at h0
      rw [List.filterMap_append, List.filterMap_cons, e2]
      exact (h0.cons _).trans (List.perm_middle.symm)
  obtain ⟨pre, bs1, bs', e', r, f, o, c1, c2, c3, c4, c5, c6, c7⟩ := mid_clean hmid
  have hgb : giveBack s pos n = { s with full := f, r := r, oos := o } := by unfold giveBack; rw [c1]
  rw [hgb]
  refine ⟨rfl, rfl, bs', e', ⟨c5, ?_⟩, ?_, ?_, ?_⟩
  · have hw := h.w
    dsimp only
    rcases c7 with ⟨_, rfl, _⟩ | ⟨_, rfl, c8, _⟩
    · exact hw
    · rw [if_neg (by omega)] at hw
      rw [if_pos (by omega)]
      exact hw
  · rw [c6]
    have : (l1 ++ (⟨b.pos, b.size, .back⟩ : Blk) :: l2).filterMap (Blk.mem N) = (pre ++ bs1).filterMap (Blk.mem N) := by rw [c2]
    rw [List.filterMap_append, List.filterMap_append, mem_none_of_back c3] at this
    simpa [List.filterMap_cons, Blk.mem] using this.symm
  · intro hF hnone
    have hl1 : l1 = [] := by
      cases l1 with
      | nil => rfl
      | cons c l =>
        exfalso
        have h1 := hF.head c (l ++ b :: l2) rfl
        have h2 := hF.lost c (by simp)
        have h3 : c.kind = .live := by cases hc : c.kind <;> simp_all
        rw [List.filterMap_eq_nil_iff] at hnone
        have := hnone c (by simp)
        unfold Blk.mem at this
        rw [h3] at this
        cases this
    subst hl1
    have hsub : ∀ c ∈ bs1, c ∈ l2 := by
      intro c hc
      cases pre with
      | nil =>
        rw [List.nil_append, List.nil_append] at c2
        exact absurd rfl (c4 _ _ c2.symm)
      | cons d pre =>
        injection c2 with c2 c2'
        rw [c2']
        exact List.mem_append_right _ hc
    refine fifo_clean (bs1 := bs1) ?_ ?_ ?_ c4 ?_
    · intro c hc; exact hF.lost c (by simp [hsub c hc])
    · intro c hc; exact hF.back c (by simp [hsub c hc])
    · intro c hc; exact (chain_pos hm.chain c (by simp [hsub c hc])).2.1
    · rcases c7 with c7 | c7
      · exact Or.inl c7.1
      · exact Or.inr ⟨c7.1, c7.2.2.2⟩
  · rintro ⟨c, hc, hl⟩
    refine lost_clean hmid.lost c2 c3 (c7.imp (·.1) (fun c => ⟨c.1, c.2.2.2⟩)) ⟨c, ?_, hl⟩
    rcases List.mem_append.mp hc with h1 | h1
    · exact List.mem_append_left _ h1
    · rcases List.mem_cons.mp h1 with rfl | h1
      · rw [hk] at hl; cases hl
      · exact List.mem_append_right _ (List.mem_cons_of_mem _ h1)

end Verif.PacketBuffer
