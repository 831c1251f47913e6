import Verif.Multi.Run

/-! # How much is read -/

namespace Verif.Multi

open Spec

theorem live_avail {s : Sig} (h : Live s) :
    (if s.isFirst.1.cur.isNone then 0 else s.isFirst.1.avail false) = (pending s).length * s.div := by
  obtain ⟨h1, h2, h3, h4⟩ := isFirst_live h
  rw [← h3, ← h4]
  by_cases hc : s.isFirst.1.cur.isNone = true
  · rw [if_pos hc]
    have hn : pending s.isFirst.1 = [] := by
      unfold Sig.isFirst at hc ⊢
      rcases Option.eq_none_or_eq_some s.cur with hs | ⟨p, hs⟩
      · rw [hs] at hc ⊢
        dsimp only at hc ⊢
        cases hq : s.queue with
        | nil => unfold pending; simp [hs, hq, front]
        | cons y q =>
          obtain ⟨p, rfl⟩ := h.data y (by rw [hq]; simp)
          rw [hq] at hc
          simp at hc
      · rw [hs] at hc
        simp [hs] at hc
    rw [hn]
    simp
  · rw [if_neg hc, avail_false h2.within]

theorem minAvail_live {sigs : List Sig} (h : ∀ s ∈ sigs, Live s) : minAvail (sigs.map fun s => s.isFirst.1) = inCommon sigs := by
  unfold minAvail inCommon
  dsimp only
  rw [List.map_map]
  congr 1
  exact List.map_congr_left fun s hs => live_avail (h s hs)

theorem foldl_min_mono {f g : Sig → Nat} {l : List Sig} (h : ∀ s ∈ l, f s ≤ g s) :
    ∀ {a b : Nat}, a ≤ b → (l.map f).foldl min a ≤ (l.map g).foldl min b := by
  induction l with
  | nil => intro a b hab; exact hab
  | cons s l ih =>
    intro a b hab
    have := h s (by simp)
    exact ih (fun t ht => h t (List.mem_cons_of_mem _ ht)) (by omega)

theorem minAvail_le_inCommon {sigs : List Sig} (h : ∀ s ∈ sigs, Within s) : minAvail sigs ≤ inCommon sigs := by
  refine foldl_min_mono (fun s hs => ?_) (Nat.le_refl _)
  split
  · exact Nat.zero_le _
  · rw [avail_false (h s hs)]
    exact Nat.le_refl _

theorem inCommon_pos {sigs : List Sig} (h : ∀ s ∈ sigs, 0 < s.div ∧ pending s ≠ []) : 0 < inCommon sigs := by
  refine foldl_min_pos ?_ (by decide)
  intro y hy
  obtain ⟨s, hs, rfl⟩ := List.mem_map.mp hy
  exact Nat.mul_pos (List.length_pos_iff.mpr (h s hs).2) (h s hs).1

/-- What a call of `read` reports while data flows. -/
theorem read_amount {cfg : Cfg} {m : MR} (h : Flowing m) (d : Bool) {c : Nat} (hc : cfg.minRead ≤ c) :
    ∃ w b, (read cfg m d c false).2 = .read (min (c / m.lcm * m.lcm) (inCommon m.sigs)) [] w b := by
  unfold read
  rw [if_neg (by simp; omega), if_neg (by rw [h.quiet]; decide), if_neg (by rw [h.valid]; decide), if_neg (by have := h.unit; omega),
    if_neg (by simp)]
  dsimp only
  obtain ⟨m', w, k, h1, h2, h3, h4, h5, h6, h7, h8⟩ := readPackets_live (cfg := cfg)
    (flowing_prep h (c / m.lcm * m.lcm) (some m.calls))
  rw [if_neg (by decide), h1]
  dsimp only
  refine ⟨w, m'.buf, ?_⟩
  have : c / m.lcm * m.lcm - m'.remaining = k := by
    rw [h4]
    exact Nat.sub_sub_self h3
  rw [this, h8]
  show Res.read (min (c / m.lcm * m.lcm) (minAvail (m.sigs.map fun s => s.isFirst.1))) [] w m'.buf = _
  rw [minAvail_live h.live]

theorem early_amount {cfg : Cfg} {x : Int × Int × Int} {D : Nat → Dom} {T : Int} {δ : Nat → Int} {L : Nat → List (Tok × Int)}
    {m : MR} (h : Early cfg x D T δ L m) (hg : AllGood D T δ L m.sigs.length)
    (hall : ∀ i, i < m.sigs.length → (L i).dropWhile (before (D i) T) ≠ []) (d : Bool) {c : Nat} (hc : cfg.minRead ≤ c)
    (hu : m.lcm ≤ c) : ∃ k ev w b, (read cfg m d c false).2 = .read k ev w b ∧ 0 < k := by
  unfold read
  rw [if_neg (by simp; omega), if_neg (by rw [h.pre.quiet]; decide), if_neg (by rw [h.pre.valid]; decide),
    if_neg (by have := h.pre.unit; omega), if_neg (by simp)]
  dsimp only
  rw [if_neg (by decide)]
  have h' := h.prep (c / m.lcm * m.lcm) (some m.calls)
  obtain ⟨m', a, st, hs⟩ := h'.synchronize (cfg := cfg) hg
  obtain ⟨s1, s2, s3, s4, s5, s6⟩ := hs.same
  rcases readPackets_pre h'.pre hs with ⟨hn, _⟩ | ⟨hf, hl, e⟩
  · exact absurd (hs.full hall) hn
  · obtain ⟨m2, w, k2, e1, e2, e3, e4, e5, e6, e7, e8⟩ := readPackets_live (cfg := cfg) hf
    rw [e1] at e
    rw [e]
    refine ⟨_, _, _, _, rfl, ?_⟩
    rw [e4, e8, s2, minAvail_live hf.live]
    show 0 < c / m.lcm * m.lcm - (c / m.lcm * m.lcm - min (c / m.lcm * m.lcm) (inCommon m'.sigs))
    have h1 : 0 < c / m.lcm * m.lcm := Nat.mul_pos (Nat.div_pos hu h.pre.unit) h.pre.unit
    have h2 : 0 < inCommon m'.sigs := inCommon_pos fun s hm => by
      obtain ⟨i, hi⟩ := List.mem_iff_getElem?.mp hm
      obtain ⟨l1, l2⟩ := hl i s hi
      exact ⟨(hf.live s hm).div, by rw [l1]; exact l2⟩
    omega

end Verif.Multi
