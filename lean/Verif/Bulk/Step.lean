import Verif.Bulk.Life

/-!
# Giving the block back: every step keeps the invariant
-/

namespace Verif.Bulk

theorem setCall_eq (s : St) (i : Nat) (c : List Frame) : s.setCall i c = { s with calls := putCall s.calls i c } := rfl

theorem upd_self {α : Type} (f : Nat → α) (x : Nat) (a : α) : upd f x a x = a := if_pos rfl
theorem upd_ne {α : Type} (f : Nat → α) {x y : Nat} (a : α) (h : y ≠ x) : upd f x a y = f y := if_neg h

variable {offsets : Bool} {s : St} {i x : Nat} {r : List Frame}

/-- A step that changes only references: no counter becomes zero, and nothing else happens. -/
theorem Inv.same {s' : St} (h : Inv offsets s) (h1 : s'.n = s.n) (h2 : s'.blk = s.blk) (h3 : s'.freed = s.freed)
    (h4 : s'.destroyed = s.destroyed) (h5 : s'.child = s.child) (h6 : s'.ub = false)
    (h7 : ∀ y, 0 < s'.count y ↔ 0 < s.count y) (h8 : ∀ y, sumC (dd y) s'.calls = sumC (dd y) s.calls)
    (h9 : ∀ y, sumC (dsp y) s'.calls = sumC (dsp y) s.calls) (h10 : sumC nd s'.calls = sumC nd s.calls)
    (h11 : ∀ y, s'.count y = s'.held y + sumC (tok y) s'.calls + par s y)
    (h12 : ∀ a b, .got a b ∈ s'.calls.flatten → a < s.n ∧ child0 offsets a = some b) (h13 : ∀ c ∈ s'.calls, c ≠ []) :
    Inv offsets s' := by
  have hp : ∀ y, par s' y = par s y := fun y => by unfold par; rw [h5]
  have ha : ∀ y, alive s' y = alive s y := fun y => by
    unfold alive; rw [h8]; have := h7 y; omega
  refine ⟨h6, fun y => by rw [hp]; exact h11 y, fun y => by rw [h8]; exact h.dd1 y,
    fun y hy => by rw [h8]; exact h.dd0 y ((h7 y).mp hy), fun y hy => ?_, fun y => ?_, ?_, by rw [h10]; exact h.nd1,
    by rw [h3, h10, h2]; exact h.live, by rw [h3, h10, h2]; exact h.dead, by rw [h1]; exact h12,
    by rw [h4, h3, h1]; exact h.destr, h13, by rw [h1]; exact h.npos⟩
  · rw [h1] at hy
    have := h.out y hy
    have h' := h7 y
    rw [h8]; omega
  · rw [h5, h.ch y, h9, h1]; unfold chk; simp only [h7]
  · rw [h1, h2, bsum_congr ha]; exact h.blk

theorem step_rel (h : Inv offsets s) (hc : s.calls[i]? = some (.rel x :: r)) : Inv offsets (s.advance i (.rel x) r) := by
  have ht : 1 ≤ sumC (tok x) s.calls := by have := sumC_pos (g := tok x) hc; simpa [tok] using this
  have hcx := h.cnt x
  have hpos : 0 < s.count x := by omega
  obtain ⟨hf, hn, hb⟩ := h.not_freed (.inl hpos)
  have hdx := h.dd0 x hpos
  have hne : (s.count x == 0) = false := by simp; omega
  by_cases h1 : s.count x = 1
  · have e : s.advance i (.rel x) r =
        { s with count := upd s.count x 0, calls := putCall s.calls i ([.disp x] ++ r) } := by
      simp only [St.advance, St.touch, St.dec, setCall_eq, hf, h.ub, Bool.or_false, hne, upd_self, h1]
      simp
    rw [e]
    have hS := fun g => sumC_put g s.calls i (.rel x) r [.disp x] hc
    simp only [List.map_cons, List.map_nil, List.sum_cons, List.sum_nil, Nat.add_zero] at hS
    generalize hcs : putCall s.calls i ([.disp x] ++ r) = cs at hS
    have al : ∀ y, alive { s with count := upd s.count x 0, calls := cs } y = alive s y := by
      intro y
      have := hS (dd y)
      simp only [dd] at this
      unfold alive
      dsimp only
      by_cases hy : y = x
      · subst hy; rw [upd_self]; simp at this; omega
      · rw [upd_ne _ _ hy]; simp [Ne.symm hy] at this; omega
    refine ⟨h.ub, ?_, ?_, ?_, ?_, ?_, ?_, ?_, ?_, ?_, ?_, h.destr, ?_, h.npos⟩ <;> dsimp only
    · intro y
      have h2 := hS (tok y)
      have h3 := h.cnt y
      simp only [tok] at h2
      show upd s.count x 0 y = s.held y + sumC (tok y) cs + par s y
      by_cases hy : y = x
      · subst hy; rw [upd_self]; simp at h2; omega
      · rw [upd_ne _ _ hy]; simp [Ne.symm hy] at h2; omega
    · intro y
      have h2 := hS (dd y); simp only [dd] at h2
      have := h.dd1 y
      by_cases hy : y = x
      · subst hy; simp at h2; omega
      · simp [Ne.symm hy] at h2; omega
    · intro y hy'
      have h2 := hS (dd y); simp only [dd] at h2
      by_cases hy : y = x
      · subst hy; rw [upd_self] at hy'; omega
      · rw [upd_ne _ _ hy] at hy'; have := h.dd0 y hy'; simp [Ne.symm hy] at h2; omega
    · intro y hyn
      have hy : y ≠ x := by omega
      have h2 := hS (dd y); simp only [dd] at h2
      have := h.out y hyn
      rw [upd_ne _ _ hy]; simp [Ne.symm hy] at h2; omega
    · intro y
      have h2 := hS (dsp y); simp only [dsp] at h2
      rw [h.ch y]
      by_cases hy : y = x
      · subst hy; simp at h2; rw [upd_self]
        unfold chk
        rw [if_pos ⟨hn, .inl hpos⟩, if_pos ⟨hn, .inr (by omega)⟩]
      · rw [upd_ne _ _ hy]; simp [Ne.symm hy] at h2; rw [h2]
    · rw [bsum_congr al]; exact h.blk
    · have h2 := hS nd; simp only [nd] at h2; have := h.nd1; omega
    · intro _
      have h2 := hS nd; simp only [nd] at h2; have := h.live hf; rw [← this]; omega
    · intro hf'; rw [hf] at hf'; simp at hf'
    · intro a b hab
      rw [← hcs] at hab
      rcases mem_put hc hab with h' | h'
      · simp at h'
      · exact h.got a b h'
    · rw [← hcs]; exact put_ne h.ne
  · have e : s.advance i (.rel x) r =
        { s with count := upd s.count x (s.count x - 1), calls := putCall s.calls i ([] ++ r) } := by
      have : s.count x - 1 ≠ 0 := by omega
      simp only [St.advance, St.touch, St.dec, setCall_eq, hf, h.ub, Bool.or_false, hne, upd_self]
      rw [if_neg this]; simp
    rw [e]
    have hS := fun g => sumC_put g s.calls i (.rel x) r [] hc
    simp only [List.map_nil, List.sum_nil, Nat.add_zero] at hS
    refine h.same rfl rfl rfl rfl rfl h.ub ?_ (fun y => ?_) (fun y => ?_) ?_ (fun y => ?_) ?_ (put_ne h.ne)
    · intro y
      dsimp only
      by_cases hy : y = x
      · subst hy; rw [upd_self]; omega
      · rw [upd_ne _ _ hy]
    · have := hS (dd y); simpa [dd] using this
    · have := hS (dsp y); simpa [dsp] using this
    · have := hS nd; simpa [nd] using this
    · have h2 := hS (tok y)
      have h3 := h.cnt y
      simp only [tok] at h2
      show upd s.count x (s.count x - 1) y = s.held y + sumC (tok y) (putCall s.calls i ([] ++ r)) + par s y
      by_cases hy : y = x
      · subst hy; rw [upd_self]; simp only [if_pos] at h2; omega
      · rw [upd_ne _ _ hy]; rw [if_neg (Ne.symm hy)] at h2; omega
    · intro a b hab
      rcases mem_put hc hab with h' | h'
      · simp at h'
      · exact h.got a b h'

theorem step_disp (h : Inv offsets s) (hc : s.calls[i]? = some (.disp x :: r)) : Inv offsets (s.advance i (.disp x) r) := by
  have ht : 1 ≤ sumC (dd x) s.calls := by have := sumC_pos (g := dd x) hc; simpa [dd] using this
  have ht' : 1 ≤ sumC (dsp x) s.calls := by have := sumC_pos (g := dsp x) hc; simpa [dsp] using this
  have hle := dsp_le_dd x s.calls
  have hd1 := h.dd1 x
  obtain ⟨hf, hn, hb⟩ := h.not_freed (.inr ht)
  have hz : s.count x = 0 := by
    by_contra hc'
    have := h.dd0 x (by omega); omega
  have hch := h.ch x
  unfold chk at hch
  rw [if_pos ⟨hn, .inr ht'⟩] at hch
  cases hx : child0 offsets x with
  | none =>
    rw [hx] at hch
    have e : s.advance i (.disp x) r = { s with calls := putCall s.calls i ([.drop x] ++ r) } := by
      simp only [St.advance, hch, St.touch, setCall_eq, hf, h.ub, Bool.or_false]; simp
    rw [e]
    have hS := fun g => sumC_put g s.calls i (.disp x) r [.drop x] hc
    simp only [List.map_cons, List.map_nil, List.sum_cons, List.sum_nil, Nat.add_zero] at hS
    have hS0 : ∀ y, sumC (dd y) (putCall s.calls i ([.drop x] ++ r)) = sumC (dd y) s.calls := by
      intro y; have := hS (dd y); simp only [dd] at this; omega
    have hSn : sumC nd (putCall s.calls i ([.drop x] ++ r)) = sumC nd s.calls := by
      have := hS nd; simpa only [nd, Nat.add_zero] using this
    generalize hcs : putCall s.calls i ([.drop x] ++ r) = cs at *
    refine ⟨h.ub, ?_, ?_, ?_, ?_, ?_, ?_, ?_, ?_, ?_, ?_, h.destr, ?_, h.npos⟩ <;> dsimp only
    · intro y
      have h2 := hS (tok y)
      have h3 := h.cnt y
      simp only [tok] at h2
      show s.count y = s.held y + sumC (tok y) cs + par s y
      omega
    · intro y; rw [hS0]; exact h.dd1 y
    · intro y; rw [hS0]; exact h.dd0 y
    · intro y; rw [hS0]; exact h.out y
    · intro y
      have h2 := hS (dsp y); simp only [dsp] at h2
      by_cases hy : y = x
      · subst hy
        rw [hch]; unfold chk; rw [hx]; split <;> rfl
      · rw [if_neg (Ne.symm hy)] at h2
        rw [h.ch y, show sumC (dsp y) cs = sumC (dsp y) s.calls by omega]
    · rw [bsum_congr (h := alive { s with calls := cs }) (h' := alive s) (fun y => by unfold alive; dsimp only; rw [hS0])]
      exact h.blk
    · rw [hSn]; exact h.nd1
    · rw [hSn]; exact h.live
    · rw [hSn]; exact h.dead
    · intro a b hab
      rw [← hcs] at hab
      rcases mem_put hc hab with h' | h'
      · simp at h'
      · exact h.got a b h'
    · rw [← hcs]; exact put_ne h.ne
  | some y =>
    rw [hx] at hch
    have hxy := child0_some hx
    have e : s.advance i (.disp x) r =
        { s with child := upd s.child x none, calls := putCall s.calls i ([.rel y, .drop x] ++ r) } := by
      simp only [St.advance, hch, St.touch, setCall_eq, hf, h.ub, Bool.or_false]; simp
    rw [e]
    have hS := fun g => sumC_put g s.calls i (.disp x) r [.rel y, .drop x] hc
    simp only [List.map_cons, List.map_nil, List.sum_cons, List.sum_nil, Nat.add_zero] at hS
    have hS0 : ∀ z, sumC (dd z) (putCall s.calls i ([.rel y, .drop x] ++ r)) = sumC (dd z) s.calls := by
      intro z; have := hS (dd z); simp only [dd] at this; omega
    have hSn : sumC nd (putCall s.calls i ([.rel y, .drop x] ++ r)) = sumC nd s.calls := by
      have := hS nd; simpa only [nd, Nat.add_zero] using this
    generalize hcs : putCall s.calls i ([.rel y, .drop x] ++ r) = cs at *
    refine ⟨h.ub, ?_, ?_, ?_, ?_, ?_, ?_, ?_, ?_, ?_, ?_, h.destr, ?_, h.npos⟩ <;> dsimp only
    · intro z
      have h2 := hS (tok z)
      have h3 := h.cnt z
      simp only [tok] at h2
      have hp : par { s with child := upd s.child x none, calls := cs } z + (if y = z then 1 else 0) = par s z := by
        unfold par
        dsimp only
        by_cases hz : y = z
        · subst hz; rw [← hxy, upd_self, hch]; simp [pts]
        · rw [upd_ne _ _ (show z + 1 ≠ x by omega), if_neg hz]; rfl
      omega
    · intro z; rw [hS0]; exact h.dd1 z
    · intro z; rw [hS0]; exact h.dd0 z
    · intro z; rw [hS0]; exact h.out z
    · intro z
      have h2 := hS (dsp z); simp only [dsp] at h2
      by_cases hy : z = x
      · subst hy
        simp only [if_pos] at h2
        rw [upd_self]; unfold chk; rw [if_neg (by omega)]
      · rw [if_neg (Ne.symm hy)] at h2
        rw [upd_ne _ _ hy, h.ch z, show sumC (dsp z) cs = sumC (dsp z) s.calls by omega]
    · rw [bsum_congr (h := alive { s with child := upd s.child x none, calls := cs }) (h' := alive s)
        (fun y => by unfold alive; dsimp only; rw [hS0])]
      exact h.blk
    · rw [hSn]; exact h.nd1
    · rw [hSn]; exact h.live
    · rw [hSn]; exact h.dead
    · intro a b hab
      rw [← hcs] at hab
      rcases mem_put hc hab with h' | h'
      · simp at h'
      · exact h.got a b h'
    · rw [← hcs]; exact put_ne h.ne

/-- The counter of the block is decremented; `a` is nothing, or `destroy` when it reached zero. -/
theorem drop_aux (h : Inv offsets s) (hc : s.calls[i]? = some (.drop x :: r)) (a : List Frame)
    (ha : a = if s.blk - 1 = 0 then [.destroy] else []) :
    Inv offsets { s with blk := s.blk - 1, calls := putCall s.calls i (a ++ r) } := by
  have ht : 1 ≤ sumC (dd x) s.calls := by have := sumC_pos (g := dd x) hc; simpa [dd] using this
  have hd1 := h.dd1 x
  obtain ⟨hf, hn, hb⟩ := h.not_freed (.inr ht)
  have hz : s.count x = 0 := by
    by_contra hc'
    have := h.dd0 x (by omega); omega
  have hS := fun g => sumC_put g s.calls i (.drop x) r a hc
  have hA : ∀ z, (a.map (tok z)).sum = 0 ∧ (a.map (dd z)).sum = 0 ∧ (a.map (dsp z)).sum = 0 := by
    intro z; rw [ha]; split <;> simp [tok, dd, dsp]
  have hN : (a.map nd).sum = if s.blk - 1 = 0 then 1 else 0 := by rw [ha]; split <;> simp [nd]
  have hndz : sumC nd s.calls = 0 := by
    have := (h.live hf); have := h.nd1; omega
  have hSn := hS nd
  rw [hN, hndz] at hSn
  simp only [nd] at hSn
  generalize hcs : putCall s.calls i (a ++ r) = cs at *
  refine ⟨h.ub, ?_, ?_, ?_, ?_, ?_, ?_, ?_, ?_, ?_, ?_, h.destr, ?_, h.npos⟩ <;> dsimp only
  · intro z
    have h2 := hS (tok z)
    rw [(hA z).1] at h2
    have h3 := h.cnt z
    simp only [tok] at h2
    show s.count z = s.held z + sumC (tok z) cs + par s z
    omega
  · intro z
    have h2 := hS (dd z); rw [(hA z).2.1] at h2
    have := h.dd1 z; omega
  · intro z hz
    have h2 := hS (dd z); rw [(hA z).2.1] at h2
    have := h.dd0 z hz; omega
  · intro z hz
    have h2 := hS (dd z); rw [(hA z).2.1] at h2
    have := h.out z hz; omega
  · intro z
    have h2 := hS (dsp z); rw [(hA z).2.2] at h2
    simp only [dsp] at h2
    rw [h.ch z, show sumC (dsp z) cs = sumC (dsp z) s.calls by omega]
  · have hu := bsum_upd (h := alive s) (h' := alive { s with blk := s.blk - 1, calls := cs }) x s.n ?_ hn
    · have h2 := hS (dd x); rw [(hA x).2.1] at h2
      have e1 : alive s x = 1 := by unfold alive; rw [hz]; omega
      have e2 : alive { s with blk := s.blk - 1, calls := cs } x = 0 := by
        unfold alive; dsimp only; rw [hz]; simp only [dd, if_pos] at h2; omega
      rw [e1, e2] at hu
      have := h.blk
      omega
    · intro z hzx
      have h2 := hS (dd z); rw [(hA z).2.1] at h2
      simp only [dd, if_neg (Ne.symm hzx)] at h2
      unfold alive; dsimp only; omega
  · split at hSn <;> omega
  · intro _; split at hSn <;> omega
  · intro hf'; rw [hf] at hf'; simp at hf'
  · intro a' b hab
    rw [← hcs] at hab
    rcases mem_put hc hab with h' | h'
    · rw [ha] at h'; split at h' <;> simp at h'
    · exact h.got a' b h'
  · rw [← hcs]; exact put_ne h.ne

theorem step_drop (h : Inv offsets s) (hc : s.calls[i]? = some (.drop x :: r)) : Inv offsets (s.advance i (.drop x) r) := by
  have ht : 1 ≤ sumC (dd x) s.calls := by have := sumC_pos (g := dd x) hc; simpa [dd] using this
  obtain ⟨hf, hn, hb⟩ := h.not_freed (.inr ht)
  have := drop_aux h hc _ rfl
  have e : s.advance i (.drop x) r =
      { s with blk := s.blk - 1, calls := putCall s.calls i ((if s.blk - 1 = 0 then [.destroy] else []) ++ r) } := by
    simp only [St.advance, St.touch, hf, h.ub, Bool.or_false]
    split <;> simp [setCall_eq, hf, h.ub]
  rw [e]; exact this

theorem step_destroy (h : Inv offsets s) (hc : s.calls[i]? = some (.destroy :: r)) :
    Inv offsets (s.advance i .destroy r) := by
  have ht : 1 ≤ sumC nd s.calls := by have := sumC_pos (g := nd) hc; simpa [nd] using this
  have hf : s.freed = false := by
    cases hf : s.freed with
    | false => rfl
    | true => have := (h.dead hf).1; omega
  have hn1 := h.nd1
  have hb : s.blk = 0 := (h.live hf).mp (by omega)
  have e : s.advance i .destroy r = { s with destroyed := List.range s.n, freed := true, calls := putCall s.calls i ([] ++ r) } := by
    simp only [St.advance, St.touch, setCall_eq, hf, h.ub, Bool.or_false, h.destr]; simp
  rw [e]
  have hS := fun g => sumC_put g s.calls i .destroy r [] hc
  simp only [List.map_nil, List.sum_nil, Nat.add_zero] at hS
  have hSn := hS nd
  simp only [nd] at hSn
  have hS0 : ∀ z, sumC (dd z) (putCall s.calls i ([] ++ r)) = sumC (dd z) s.calls := by
    intro z; have := hS (dd z); simpa only [dd, Nat.add_zero] using this
  generalize hcs : putCall s.calls i ([] ++ r) = cs at *
  refine ⟨h.ub, ?_, ?_, ?_, ?_, ?_, ?_, ?_, ?_, ?_, ?_, ?_, ?_, h.npos⟩ <;> dsimp only
  · intro z
    have h2 := hS (tok z)
    have h3 := h.cnt z
    simp only [tok] at h2
    show s.count z = s.held z + sumC (tok z) cs + par s z
    omega
  · intro z; rw [hS0]; exact h.dd1 z
  · intro z; rw [hS0]; exact h.dd0 z
  · intro z; rw [hS0]; exact h.out z
  · intro z
    have h2 := hS (dsp z)
    simp only [dsp] at h2
    rw [h.ch z, show sumC (dsp z) cs = sumC (dsp z) s.calls by omega]
  · rw [bsum_congr (h := alive { s with destroyed := List.range s.n, freed := true, calls := cs }) (h' := alive s)
      (fun y => by unfold alive; dsimp only; rw [hS0])]
    exact h.blk
  · omega
  · intro hf'; simp at hf'
  · intro _; exact ⟨by omega, hb⟩
  · intro a' b hab
    rw [← hcs] at hab
    rcases mem_put hc hab with h' | h'
    · simp at h'
    · exact h.got a' b h'
  · rfl
  · rw [← hcs]; exact put_ne h.ne

theorem step_ask (h : Inv offsets s) (hc : s.calls[i]? = some (.ask x :: r)) : Inv offsets (s.advance i (.ask x) r) := by
  have ht : 1 ≤ sumC (tok x) s.calls := by have := sumC_pos (g := tok x) hc; simpa [tok] using this
  have hcx := h.cnt x
  have hpos : 0 < s.count x := by omega
  obtain ⟨hf, hn, hb⟩ := h.not_freed (.inl hpos)
  have hch := h.ch x
  unfold chk at hch
  rw [if_pos ⟨hn, .inl hpos⟩] at hch
  cases hx : s.child x with
  | none =>
    have e : s.advance i (.ask x) r =
        { s with held := upd s.held x (s.held x + 1), calls := putCall s.calls i ([] ++ r) } := by
      simp only [St.advance, hx, St.touch, setCall_eq, hf, h.ub, Bool.or_false]; simp
    rw [e]
    have hS := fun g => sumC_put g s.calls i (.ask x) r [] hc
    simp only [List.map_nil, List.sum_nil, Nat.add_zero] at hS
    refine h.same rfl rfl rfl rfl rfl h.ub (fun y => Iff.rfl) (fun y => ?_) (fun y => ?_) ?_ (fun y => ?_) ?_ (put_ne h.ne)
    · have := hS (dd y); simpa [dd] using this
    · have := hS (dsp y); simpa [dsp] using this
    · have := hS nd; simpa [nd] using this
    · have h2 := hS (tok y)
      have h3 := h.cnt y
      simp only [tok] at h2
      show s.count y = upd s.held x (s.held x + 1) y + sumC (tok y) (putCall s.calls i ([] ++ r)) + par s y
      by_cases hy : y = x
      · subst hy; rw [upd_self]; simp only [if_pos] at h2; omega
      · rw [upd_ne _ _ hy]; rw [if_neg (Ne.symm hy)] at h2; omega
    · intro a b hab
      rcases mem_put hc hab with h' | h'
      · simp at h'
      · exact h.got a b h'
  | some y =>
    have e : s.advance i (.ask x) r = { s with calls := putCall s.calls i ([.got x y] ++ r) } := by
      simp only [St.advance, hx, St.touch, setCall_eq, hf, h.ub, Bool.or_false]; simp
    rw [e]
    have hS := fun g => sumC_put g s.calls i (.ask x) r [.got x y] hc
    simp only [List.map_cons, List.map_nil, List.sum_cons, List.sum_nil, Nat.add_zero] at hS
    refine h.same rfl rfl rfl rfl rfl h.ub (fun y => Iff.rfl) (fun y => ?_) (fun y => ?_) ?_ (fun z => ?_) ?_ (put_ne (i := i) (c := [.got x y] ++ r) h.ne)
    · have := hS (dd y); simpa [dd] using this
    · have := hS (dsp y); simpa [dsp] using this
    · have := hS nd; simpa [nd] using this
    · have h2 := hS (tok z)
      have h3 := h.cnt z
      simp only [tok] at h2
      show s.count z = s.held z + sumC (tok z) (putCall s.calls i ([.got x y] ++ r)) + par s z
      omega
    · intro a b hab
      rcases mem_put (a := [.got x y]) hc hab with h' | h'
      · simp at h'
        obtain ⟨rfl, rfl⟩ := h'
        exact ⟨hn, by rw [← hch, hx]⟩
      · exact h.got a b h'

theorem step_got {y : Nat} (h : Inv offsets s) (hc : s.calls[i]? = some (.got x y :: r)) :
    Inv offsets (s.advance i (.got x y) r) := by
  have ht : 1 ≤ sumC (tok x) s.calls := by have := sumC_pos (g := tok x) hc; simpa [tok] using this
  have hcx := h.cnt x
  have hpos : 0 < s.count x := by omega
  obtain ⟨hf, hn, hb⟩ := h.not_freed (.inl hpos)
  have hg := h.got x y (List.mem_flatten.mpr ⟨_, List.mem_of_getElem? hc, by simp⟩)
  have hxy := child0_some hg.2
  have hch := h.ch x
  unfold chk at hch
  rw [if_pos ⟨hn, .inl hpos⟩, hg.2] at hch
  have hpar : par s y = 1 := by unfold par; rw [← hxy, hch]; exact if_pos rfl
  have hcy := h.cnt y
  have e : s.advance i (.got x y) r = { s with count := upd s.count y (s.count y + 1)
                                               held := upd (upd s.held x (s.held x + 1)) y (upd s.held x (s.held x + 1) y + 1)
                                               calls := putCall s.calls i ([] ++ r) } := by
    simp only [St.advance, St.touch, setCall_eq, hf, h.ub, Bool.or_false]; simp
  rw [e]
  have hS := fun g => sumC_put g s.calls i (.got x y) r [] hc
  simp only [List.map_nil, List.sum_nil, Nat.add_zero] at hS
  refine h.same rfl rfl rfl rfl rfl h.ub (fun z => ?_) (fun z => ?_) (fun z => ?_) ?_ (fun z => ?_) ?_ (put_ne h.ne)
  · dsimp only
    by_cases hz : z = y
    · subst hz; rw [upd_self]; omega
    · rw [upd_ne _ _ hz]
  · have := hS (dd z); simpa [dd] using this
  · have := hS (dsp z); simpa [dsp] using this
  · have := hS nd; simpa [nd] using this
  · have h2 := hS (tok z)
    have h3 := h.cnt z
    simp only [tok] at h2
    show upd s.count y (s.count y + 1) z = upd (upd s.held x (s.held x + 1)) y (upd s.held x (s.held x + 1) y + 1) z +
      sumC (tok z) (putCall s.calls i ([] ++ r)) + par s z
    by_cases hz : z = y
    · subst hz
      rw [upd_self, upd_self, upd_ne _ _ (show z ≠ x by omega)]
      rw [if_neg (by omega)] at h2; omega
    · rw [upd_ne _ _ hz, upd_ne _ _ hz]
      by_cases hzx : z = x
      · subst hzx; rw [upd_self]; simp only [if_pos] at h2; omega
      · rw [upd_ne _ _ hzx]; rw [if_neg (Ne.symm hzx)] at h2; omega
  · intro a b hab
    rcases mem_put hc hab with h' | h'
    · simp at h'
    · exact h.got a b h'

/-- A new call that takes over a reference. -/
theorem step_call (h : Inv offsets s) (f : Frame) (hx : s.held x ≠ 0) (h1 : ∀ y, tok y f = if x = y then 1 else 0)
    (h2 : ∀ y, dd y f = 0) (h3 : ∀ y, dsp y f = 0) (h4 : nd f = 0) (h5 : ∀ a b, f ≠ .got a b) :
    Inv offsets { s with held := upd s.held x (s.held x - 1), calls := s.calls ++ [[f]] } := by
  have hS : ∀ g, sumC g (s.calls ++ [[f]]) = sumC g s.calls + g f := by
    intro g; rw [sumC_append]; simp [sumC]
  refine h.same rfl rfl rfl rfl rfl h.ub (fun y => Iff.rfl) (fun y => ?_) (fun y => ?_) ?_ (fun z => ?_) ?_ ?_
  · dsimp only; rw [hS, h2]; rfl
  · dsimp only; rw [hS, h3]; rfl
  · dsimp only; rw [hS, h4]; rfl
  · have h6 := h.cnt z
    show s.count z = upd s.held x (s.held x - 1) z + sumC (tok z) (s.calls ++ [[f]]) + par s z
    rw [hS, h1]
    by_cases hz : z = x
    · subst hz; rw [upd_self, if_pos rfl]; omega
    · rw [upd_ne _ _ hz, if_neg (Ne.symm hz)]; omega
  · intro a b hab
    dsimp only at hab
    rw [List.flatten_append, List.mem_append] at hab
    rcases hab with h' | h'
    · exact h.got a b h'
    · simp at h'; exact absurd h'.symm (h5 a b)
  · intro c hc
    rcases List.mem_append.mp hc with h' | h'
    · exact h.ne c h'
    · simp at h'; subst h'; simp

theorem inv_step (h : Inv offsets s) (o : Op) : Inv offsets (s.step o) := by
  cases o with
  | addRef x =>
    simp only [St.step]
    split
    · exact h
    · rename_i hx
      have hcx := h.cnt x
      have hpos : 0 < s.count x := by omega
      obtain ⟨hf, hn, hb⟩ := h.not_freed (.inl hpos)
      refine h.same rfl rfl rfl rfl rfl (by simp [St.touch, hf, h.ub]) (fun y => ?_) (fun y => rfl) (fun y => rfl) rfl
        (fun z => ?_) h.got h.ne
      · dsimp only [St.touch]
        by_cases hy : y = x
        · subst hy; rw [upd_self]; omega
        · rw [upd_ne _ _ hy]
      · have h6 := h.cnt z
        show upd s.count x (s.count x + 1) z = upd s.held x (s.held x + 1) z + sumC (tok z) s.calls + par s z
        by_cases hz : z = x
        · subst hz; rw [upd_self, upd_self]; omega
        · rw [upd_ne _ _ hz, upd_ne _ _ hz]; omega
  | release x =>
    simp only [St.step]
    split
    · exact h
    · exact step_call h _ ‹_› (fun y => rfl) (fun y => rfl) (fun y => rfl) rfl (fun a b => by simp)
  | getChild x =>
    simp only [St.step]
    split
    · exact h
    · exact step_call h _ ‹_› (fun y => rfl) (fun y => rfl) (fun y => rfl) rfl (fun a b => by simp)
  | step i =>
    simp only [St.step]
    split
    · rename_i f r hc
      cases f with
      | rel x => exact step_rel h hc
      | disp x => exact step_disp h hc
      | drop x => exact step_drop h hc
      | destroy => exact step_destroy h hc
      | ask x => exact step_ask h hc
      | got x y => exact step_got h hc
    · exact h

theorem inv_run (h : Inv offsets s) (ops : List Op) : Inv offsets (s.run ops) := by
  induction ops generalizing s with
  | nil => exact h
  | cons o ops ih => exact ih (inv_step h o)

end Verif.Bulk
