import Verif.Multi.Run
import Mathlib.Tactic.LinearCombination
import Mathlib.Tactic.Linarith
import Mathlib.Tactic.FieldSimp
import Mathlib.Tactic.Ring
import Mathlib.Tactic.Positivity
import Mathlib.Data.Rat.Cast.Order
import Mathlib.Algebra.Order.Field.Rat

/-! # The common start -/

namespace Verif.Multi

open Spec

/-- What `startInfo` gives. -/
structure Info (sigs : List Sig) (x : Int × Int × Int) : Prop where
  num_pos : 0 < x.2.1
  den_pos : 0 < x.2.2
  mem : ∃ s ∈ sigs, ∃ d, s.dom = some d ∧ d.num = x.2.1 ∧ d.den = x.2.2
  memE : ∃ s ∈ sigs, ∃ d, s.dom = some d ∧ d.epoch = x.1
  least : ∀ s ∈ sigs, ∀ d, s.dom = some d → x.2.1 * d.den ≤ d.num * x.2.2 ∧ x.1 ≤ d.epoch

def infoStep (a : Option (Int × Int × Int)) (t : Sig) : Option (Int × Int × Int) := match a, t.dom with
  | some a, some e => some (if e.epoch < a.1 then e.epoch else a.1,
      if e.num * a.2.2 < a.2.1 * e.den then e.num else a.2.1,
      if e.num * a.2.2 < a.2.1 * e.den then e.den else a.2.2)
  | _, _ => none

theorem ratio_trans {a b c d e f : Int} (hd : 0 < d) (hb : 0 < b) (hf : 0 < f) (h1 : a * d ≤ c * b) (h2 : c * f ≤ e * d) :
    a * f ≤ e * b := by
  have h3 : a * d * f ≤ c * b * f := Int.mul_le_mul_of_nonneg_right h1 (le_of_lt hf)
  have h4 : c * f * b ≤ e * d * b := Int.mul_le_mul_of_nonneg_right h2 (le_of_lt hb)
  have h5 : d * (a * f) ≤ d * (e * b) := by linarith
  exact le_of_mul_le_mul_left h5 hd

theorem info_fold {r : List Sig} (hr : ∀ t ∈ r, ∃ d, t.dom = some d ∧ 0 < d.num ∧ 0 < d.den) : ∀ {l : List Sig} {x : Int × Int × Int},
    (∀ t ∈ l, ∀ d, t.dom = some d → 0 < d.num ∧ 0 < d.den) →
    Info l x → ∃ y, r.foldl infoStep (some x) = some y ∧ Info (l ++ r) y := by
  induction r with
  | nil => intro l x _ h; exact ⟨x, rfl, by rw [List.append_nil]; exact h⟩
  | cons t r ih =>
    intro l x hl h
    obtain ⟨e, he, hn, hd⟩ := hr t (by simp)
    have hl' : ∀ t' ∈ l ++ [t], ∀ d, t'.dom = some d → 0 < d.num ∧ 0 < d.den := by
      intro t' ht' d hd'
      rcases List.mem_append.mp ht' with ht' | ht'
      · exact hl t' ht' d hd'
      · rw [List.mem_singleton.mp ht', he] at hd'
        cases hd'
        exact ⟨hn, hd⟩
    have hstep : ∃ y, infoStep (some x) t = some y ∧ Info (l ++ [t]) y := by
      refine ⟨_, by unfold infoStep; rw [he], ?_⟩
      obtain ⟨s0, m0, d0, q0, q1, q2⟩ := h.mem
      obtain ⟨s1, m1, d1, q3, q4⟩ := h.memE
      have pE : ∃ s ∈ l ++ [t], ∃ d, s.dom = some d ∧ d.epoch = if e.epoch < x.1 then e.epoch else x.1 := by
        by_cases hc : e.epoch < x.1
        · exact ⟨t, by simp, e, he, by rw [if_pos hc]⟩
        · exact ⟨s1, by simp [m1], d1, q3, by rw [if_neg hc]; exact q4⟩
      have lE : ∀ s ∈ l ++ [t], ∀ d, s.dom = some d → (if e.epoch < x.1 then e.epoch else x.1) ≤ d.epoch := by
        intro s hs d hd
        rcases List.mem_append.mp hs with hs | hs
        · have := (h.least s hs d hd).2
          split <;> omega
        · rw [List.mem_singleton.mp hs, he] at hd
          cases hd
          split <;> omega
      by_cases hc : e.num * x.2.2 < x.2.1 * e.den
      · simp only [if_pos hc]
        refine ⟨hn, hd, ⟨t, by simp, e, he, rfl, rfl⟩, pE, ?_⟩
        intro s hs d hd'
        refine ⟨?_, lE s hs d hd'⟩
        obtain ⟨hdn, hdd⟩ := hl' s hs d hd'
        rcases List.mem_append.mp hs with hs | hs
        · have := (h.least s hs d hd').1
          exact ratio_trans h.den_pos hd hdd (le_of_lt hc) this
        · rw [List.mem_singleton.mp hs, he] at hd'
          cases hd'
          exact le_refl _
      · simp only [if_neg hc]
        refine ⟨h.num_pos, h.den_pos, ⟨s0, by simp [m0], d0, q0, q1, q2⟩, pE, ?_⟩
        intro s hs d hd'
        refine ⟨?_, lE s hs d hd'⟩
        rcases List.mem_append.mp hs with hs | hs
        · exact (h.least s hs d hd').1
        · rw [List.mem_singleton.mp hs, he] at hd'
          cases hd'
          exact not_lt.mp hc
    obtain ⟨y, hy, hi⟩ := hstep
    obtain ⟨z, hz, hiz⟩ := ih (fun t' ht' => hr t' (List.mem_cons_of_mem _ ht')) hl' hi
    refine ⟨z, ?_, ?_⟩
    · rw [List.foldl_cons, hy]; exact hz
    · rw [List.append_assoc] at hiz; exact hiz

theorem startInfo_info {sigs : List Sig} (hne : sigs ≠ []) (h : ∀ t ∈ sigs, ∃ d, t.dom = some d ∧ 0 < d.num ∧ 0 < d.den) :
    ∃ x, startInfo sigs = some x ∧ Info sigs x := by
  cases sigs with
  | nil => exact absurd rfl hne
  | cons s r =>
    obtain ⟨d, hd, hn, hdd⟩ := h s (by simp)
    have h0 : Info [s] (d.epoch, d.num, d.den) := by
      refine ⟨hn, hdd, ⟨s, by simp, d, hd, rfl, rfl⟩, ⟨s, by simp, d, hd, rfl⟩, ?_⟩
      intro t ht e he
      rw [List.mem_singleton.mp ht, hd] at he
      cases he
      exact ⟨le_refl _, le_refl _⟩
    obtain ⟨y, hy, hi⟩ := info_fold (fun t ht => h t (List.mem_cons_of_mem _ ht)) (l := [s]) (by
      intro t ht e he
      rw [List.mem_singleton.mp ht, hd] at he
      cases he
      exact ⟨hn, hdd⟩) h0
    refine ⟨y, ?_, hi⟩
    rw [← hy]
    unfold startInfo
    dsimp only
    rw [hd]
    rfl

/-- The origin and resolution found are those of the specification. -/
theorem info_common {sigs : List Sig} {x : Int × Int × Int} {num den epoch : Int} (h : Info sigs x) (hc : Common sigs num den epoch) :
    x.1 = epoch ∧ x.2.1 * den = num * x.2.2 := by
  constructor
  · obtain ⟨s, hs, d, hd, e⟩ := hc.earliest
    obtain ⟨s', hs', d', hd', e'⟩ := h.memE
    have h1 := (h.least s hs d hd).2
    have h2 := (hc.each s' hs' d' hd').2.2.1
    omega
  · obtain ⟨s, hs, d, hd, e⟩ := hc.finest
    obtain ⟨s', hs', d', hd', e1, e2⟩ := h.mem
    obtain ⟨a1, a2, a3, ⟨k, hk⟩, a5⟩ := hc.each s' hs' d' hd'
    obtain ⟨b1, b2, _⟩ := hc.each s hs d hd
    have h1 := (h.least s hs d hd).1
    have hkp : 1 ≤ k := by
      by_contra hcon
      have : k * (d'.den * num) ≤ 0 := mul_nonpos_of_nonpos_of_nonneg (by omega) (le_of_lt (mul_pos a2 hc.num_pos))
      have : 0 < d'.num * den := mul_pos a1 hc.den_pos
      omega
    have h2 : d'.den * num ≤ d'.num * den := by
      rw [hk]
      have := mul_pos a2 hc.num_pos
      nlinarith
    have h3 : x.2.1 * den ≤ num * x.2.2 := by
      -- x ≤ d = num / den
      refine ratio_trans b2 h.den_pos hc.den_pos h1 ?_
      linarith
    rw [e1, e2] at h2
    linarith

theorem simplify_one {a k : Int} (ha : 0 < a) : simplify a (k * a) = (1, k) := by
  unfold simplify
  have hg : Int.gcd a (k * a) = a.natAbs := by
    simp [Int.gcd, Int.natAbs_mul]
  rw [hg, Int.natAbs_of_nonneg (le_of_lt ha), Int.tdiv_self (ne_of_gt ha), Int.mul_tdiv_cancel _ (ne_of_gt ha)]

theorem simplify_one' {a k : Int} (ha : 0 < a) : simplify (k * a) a = (k, 1) := by
  unfold simplify
  have hg : Int.gcd (k * a) a = a.natAbs := by
    simp [Int.gcd, Int.natAbs_mul]
  rw [hg, Int.natAbs_of_nonneg (le_of_lt ha), Int.tdiv_self (ne_of_gt ha), Int.mul_tdiv_cancel _ (ne_of_gt ha)]

theorem adjust_whole {d : Dom} {e n dn M O : Int} (hd : 0 < d.den) (hn : 0 < n) (h1 : d.num * dn = M * (d.den * n))
    (h2 : (d.epoch - e) * dn = O * (1000000000 * n)) :
    d.adjust e n dn = { d with off := O, mulNum := M, mulDen := 1 } := by
  unfold Dom.adjust
  dsimp only
  rw [h1, simplify_one' (mul_pos hd hn), h2]
  have h3 : (0 : Int) < 1000000000 * n := by positivity
  have : (if d.epoch - e = 0 then 0 else (O * (1000000000 * n)).tdiv (1000000000 * n)) = O := by
    split
    · rename_i hz
      rw [hz, zero_mul] at h2
      rcases Int.mul_eq_zero.mp h2.symm with h | h
      · exact h.symm
      · omega
    · exact Int.mul_tdiv_cancel _ (ne_of_gt h3)
  rw [this]

/-- The time of a tick of the signal in ticks of the common resolution. -/
theorem time_whole {num den epoch e n dn M O : Int} (hd : 0 < den) (hdn : 0 < dn) (h1 : num * dn = M * (den * n))
    (h2 : (epoch - e) * dn = O * (1000000000 * n)) (t : Int) : time num den epoch t = time n dn e (t * M + O) := by
  unfold time
  have q1 : (num : Rat) * dn = M * (den * n) := by exact_mod_cast h1
  have q2 : ((epoch : Rat) - e) * dn = O * (1000000000 * n) := by exact_mod_cast h2
  have hd' : (den : Rat) ≠ 0 := by exact_mod_cast ne_of_gt hd
  have hdn' : (dn : Rat) ≠ 0 := by exact_mod_cast ne_of_gt hdn
  push_cast
  have e1 : (t : Rat) * num / den = t * M * n / dn := by
    rw [div_eq_div_iff hd' hdn']
    linear_combination (t : Rat) * q1
  have e2 : (epoch : Rat) / 1000000000 = e / 1000000000 + O * n / dn := by
    field_simp
    linear_combination q2
  rw [e1, e2]
  ring

theorem time_lt {n dn e a b : Int} (hn : 0 < n) (hdn : 0 < dn) : time n dn e a < time n dn e b ↔ a < b := by
  unfold time
  have hn' : (0 : Rat) < n := by exact_mod_cast hn
  have hdn' : (0 : Rat) < dn := by exact_mod_cast hdn
  rw [add_lt_add_iff_left, div_lt_div_iff_of_pos_right hdn', mul_lt_mul_iff_left₀ hn']
  exact Int.cast_lt

theorem time_le {n dn e a b : Int} (hn : 0 < n) (hdn : 0 < dn) : time n dn e a ≤ time n dn e b ↔ a ≤ b := by
  rw [← not_lt, ← not_lt, time_lt hn hdn]

/-- Rounding up to whole multiples of `k` ticks. -/
theorem roundUp_whole {n dn a b k : Int} (hn : 0 < n) (hdn : 0 < dn) (ha : 0 < a) (hb : 0 < b) (h : a * dn = k * n * b) (v : Int) :
    ∃ t, roundUp (n, dn) (a, b) v = some t ∧ v ≤ t ∧ k ∣ t ∧ 0 < k ∧ (0 ≤ v → ∀ t', k ∣ t' → v ≤ t' → t ≤ t') := by
  have hnb : 0 < n * b := mul_pos hn hb
  have hk : 0 < k := by
    by_contra hcon
    have h1 : k * (n * b) ≤ 0 := mul_nonpos_of_nonpos_of_nonneg (by omega) (le_of_lt hnb)
    have h2 := mul_pos ha hdn
    rw [h, mul_assoc] at h2
    omega
  have e : dn * a = k * (n * b) := by linarith
  refine ⟨(v + k - 1).tdiv k * k, ?_, ?_, Dvd.intro_left _ rfl, hk, ?_⟩
  · unfold roundUp
    dsimp only
    rw [e, simplify_one hnb]
    dsimp only
    rw [if_neg (by rw [Int.emod_one]; simp), Int.tdiv_one, mul_one]
  · have h1 : (v + k - 1) / k ≤ (v + k - 1).tdiv k := by
      rw [Int.tdiv_eq_ediv, Int.sign_eq_one_of_pos hk]
      split <;> omega
    have h2 : (v + k - 1) / k * k ≤ (v + k - 1).tdiv k * k := Int.mul_le_mul_of_nonneg_right h1 (le_of_lt hk)
    have h3 := Int.mul_ediv_add_emod (v + k - 1) k
    have h4 := Int.emod_lt_of_pos (v + k - 1) hk
    rw [mul_comm] at h3
    omega
  · intro hv t' ⟨c, hc⟩ hvt
    rw [Int.tdiv_eq_ediv_of_nonneg (by omega)]
    have h5 : (v + k - 1) / k ≤ c := by
      have : (v + k - 1) / k < c + 1 := by
        rw [Int.ediv_lt_iff_lt_mul hk]
        rw [add_mul, mul_comm c k, ← hc]
        omega
      omega
    rw [hc, mul_comm k c]
    exact Int.mul_le_mul_of_nonneg_right h5 (le_of_lt hk)

theorem latest_some {sigs : List Sig} {f : Sig → Int} (h : ∀ s ∈ sigs, s.startTick = some (f s)) : ∀ (a : Int),
    ∃ v, latest (some a) sigs = some v ∧ a ≤ v ∧ (∀ s ∈ sigs, f s ≤ v) ∧ (v = a ∨ ∃ s ∈ sigs, v = f s) := by
  induction sigs with
  | nil => intro a; exact ⟨a, rfl, le_refl _, (fun s hs => by cases hs), Or.inl rfl⟩
  | cons s r ih =>
    intro a
    obtain ⟨v, e, h1, h2, h3⟩ := ih (fun t ht => h t (List.mem_cons_of_mem _ ht)) (if a < f s then f s else a)
    refine ⟨v, ?_, ?_, ?_, ?_⟩
    · rw [← e]
      unfold latest
      rw [List.foldl_cons, h s (by simp)]
    · split at h1 <;> omega
    · intro t ht
      rcases List.mem_cons.mp ht with rfl | ht
      · split at h1 <;> omega
      · exact h2 t ht
    · rcases h3 with h3 | ⟨t, ht, h3⟩
      · split at h3
        · exact Or.inr ⟨s, by simp, h3⟩
        · exact Or.inl h3
      · exact Or.inr ⟨t, by simp [ht], h3⟩

theorem latest_none {sigs : List Sig} {f : Sig → Int} (hne : sigs ≠ []) (h : ∀ s ∈ sigs, s.startTick = some (f s)) :
    ∃ v, latest none sigs = some v ∧ (∀ s ∈ sigs, f s ≤ v) ∧ ∃ s ∈ sigs, v = f s := by
  cases sigs with
  | nil => exact absurd rfl hne
  | cons s r =>
    obtain ⟨v, e, h1, h2, h3⟩ := latest_some (fun t ht => h t (List.mem_cons_of_mem _ ht)) (f s)
    refine ⟨v, ?_, ?_, ?_⟩
    · rw [← e]
      unfold latest
      rw [List.foldl_cons, h s (by simp)]
    · intro t ht
      rcases List.mem_cons.mp ht with rfl | ht
      · exact h1
      · exact h2 t ht
    · rcases h3 with h3 | ⟨t, ht, h3⟩
      · exact ⟨s, by simp, h3⟩
      · exact ⟨t, by simp [ht], h3⟩

theorem small_fits {num den M : Int} {d : Dom} (hd : 0 < d.den) (hn : 0 < num) (h : d.num * den = M * (d.den * num)) {t : Int}
    (ht : Small num den d t) : (t * M).natAbs < 2 ^ 53 := by
  unfold Small at ht
  rw [h, ← mul_assoc, Int.natAbs_mul] at ht
  have : 0 < (d.den * num).natAbs := Int.natAbs_pos.mpr (ne_of_gt (mul_pos hd hn))
  exact lt_of_mul_lt_mul_right ht (Nat.zero_le _)

/-- The numbers of a signal with respect to the common resolution. -/
structure Conv (x : Int × Int × Int) (num den epoch : Int) (d D : Dom) : Prop where
  whole : Whole D
  eq : d.adjust x.1 x.2.1 x.2.2 = D
  small : ∀ t, Small num den d t → Fits D t
  time : ∀ t, time d.num d.den d.epoch t = time num den epoch (t * D.mulNum + D.off)

theorem conv {sigs : List Sig} {x : Int × Int × Int} {num den epoch : Int} (hi : Info sigs x) (hc : Common sigs num den epoch)
    {s : Sig} (hs : s ∈ sigs) {d : Dom} (hd : s.dom = some d) : Conv x num den epoch d (d.adjust x.1 x.2.1 x.2.2) := by
  obtain ⟨he, hr⟩ := info_common hi hc
  obtain ⟨a1, a2, a3, ⟨M, hM⟩, ⟨O, hO⟩⟩ := hc.each s hs d hd
  have hMp : 0 < M := by
    by_contra hcon
    have h1 : M * (d.den * num) ≤ 0 := mul_nonpos_of_nonpos_of_nonneg (by omega) (le_of_lt (mul_pos a2 hc.num_pos))
    have h2 := mul_pos a1 hc.den_pos
    omega
  have h1 : d.num * x.2.2 = M * (d.den * x.2.1) := by
    have : den * (d.num * x.2.2) = den * (M * (d.den * x.2.1)) := by linear_combination x.2.2 * hM - M * d.den * hr
    exact mul_left_cancel₀ (ne_of_gt hc.den_pos) this
  have h2 : (d.epoch - x.1) * x.2.2 = O * (1000000000 * x.2.1) := by
    rw [he]
    have : den * ((d.epoch - epoch) * x.2.2) = den * (O * (1000000000 * x.2.1)) := by
      linear_combination x.2.2 * hO - O * 1000000000 * hr
    exact mul_left_cancel₀ (ne_of_gt hc.den_pos) this
  rw [adjust_whole a2 hi.num_pos h1 h2]
  refine ⟨⟨rfl, hMp⟩, adjust_whole a2 hi.num_pos h1 h2, ?_, ?_⟩
  · intro t ht
    exact small_fits a2 hc.num_pos hM ht
  · intro t
    exact time_whole a2 hc.den_pos hM hO t

theorem conv_before {x : Int × Int × Int} {num den epoch : Int} {d D : Dom} (h : Conv x num den epoch d D) (hn : 0 < num)
    (hd : 0 < den) (T : Int) (y : Tok × Int) :
    before D T y = decide (time d.num d.den d.epoch y.2 < time num den epoch T) := by
  unfold before
  rw [h.time, decide_eq_decide, time_lt hn hd]

/-- The samples of a signal in a reader. -/
def allOf (m : MR) (i : Nat) : List (Tok × Int) := match m.sigs[i]? with
  | some s => whole s
  | none => []

theorem ready_waiting {cfg : Cfg} {m : MR} {ops : List Op} {num den epoch : Int} {P : Nat → DP} {Dm : Nat → Dom} {δ : Nat → Int}
    (h : Ready cfg m ops num den epoch P Dm δ) :
    ∃ x D t, Waiting cfg x D t δ (allOf m) m ∧ AllGood D t δ (fun i => allOf m i ++ given i ops) m.sigs.length ∧
      (∀ (i : Nat) (s : Sig), m.sigs[i]? = some s → next s (P i) (Dm i) ≤ time num den epoch t) ∧
      (∃ z : Int, time num den epoch t = (epoch : Rat) / 1000000000 + z * raster cfg m) ∧
      ((∃ i s, m.sigs[i]? = some s ∧ (epoch : Rat) / 1000000000 ≤ next s (P i) (Dm i)) → ∀ T' : Rat,
        (∀ (i : Nat) (s : Sig), m.sigs[i]? = some s → next s (P i) (Dm i) ≤ T') →
        (∃ z : Int, T' = (epoch : Rat) / 1000000000 + z * raster cfg m) → time num den epoch t ≤ T') ∧
      ∀ (i : Nat) (s : Sig), m.sigs[i]? = some s → (allOf m i ++ given i ops).dropWhile (before (D i) t) =
        fromTime (time (Dm i).num (Dm i).den (Dm i).epoch) (time num den epoch t) (pending s ++ given i ops) := by
  have hc := h.common
  have hdoms : ∀ t ∈ m.sigs, ∃ d, t.dom = some d ∧ 0 < d.num ∧ 0 < d.den := by
    intro s hs
    obtain ⟨i, hi⟩ := List.mem_iff_getElem?.mp hs
    have hd := (h.sigs i s hi).dom
    obtain ⟨a1, a2, _⟩ := hc.each s hs _ hd
    exact ⟨_, hd, a1, a2⟩
  obtain ⟨x, hx, hinfo⟩ := startInfo_info h.nonempty hdoms
  obtain ⟨hxe, hxr⟩ := info_common hinfo hc
  have hconv : ∀ (i : Nat) (s : Sig), m.sigs[i]? = some s →
      Conv x num den epoch (Dm i) ((Dm i).adjust x.1 x.2.1 x.2.2) := fun i s hi =>
    conv hinfo hc (List.mem_of_getElem? hi) (h.sigs i s hi).dom
  -- the next ticks
  have hall : ∀ (i : Nat) (s : Sig), m.sigs[i]? = some s → allOf m i = packets (P i) s.queue := by
    intro i s hi
    unfold allOf
    rw [hi]
    unfold whole pending
    dsimp only
    rw [(h.sigs i s hi).cur]
    rfl
  have hpd : ∀ (i : Nat) (s : Sig), m.sigs[i]? = some s → (P i).delta = δ i := fun i s hi => (h.sigs i s hi).deltas _ (by simp)
  have htick : ∀ (i : Nat) (s : Sig), m.sigs[i]? = some s → ((adj x m.sigs)[i]?.bind Sig.startTick) =
      some (((P i).first + (P i).delta * s.prev) * ((Dm i).adjust x.1 x.2.1 x.2.2).mulNum + ((Dm i).adjust x.1 x.2.1 x.2.2).off) := by
    intro i s hi
    have hs := h.sigs i s hi
    have hcv := hconv i s hi
    unfold adj
    rw [List.getElem?_map, hi]
    show Sig.startTick { s with dom := s.dom.map fun d => d.adjust x.1 x.2.1 x.2.2, sync := .unsync } = _
    unfold Sig.startTick
    dsimp only
    rw [hs.cur, hs.dom]
    dsimp only [Option.map_some]
    rw [comp_whole hcv.whole (hcv.small _ ?_)]
    refine hs.small (((P i).id, s.prev), (P i).first + (P i).delta * s.prev) ?_
    refine List.mem_append_left _ (List.mem_append_left _ ?_)
    exact List.mem_iff_getElem?.mpr ⟨s.prev, samples_get hs.within⟩
  have htick2 : ∀ u ∈ adj x m.sigs, u.startTick = some (u.startTick.getD 0) := by
    intro u hu
    obtain ⟨i, hi⟩ := List.mem_iff_getElem?.mp hu
    have : ∃ s, m.sigs[i]? = some s := by
      unfold adj at hi
      rw [List.getElem?_map] at hi
      obtain ⟨s, hs, _⟩ := Option.map_eq_some_iff.mp hi
      exact ⟨s, hs⟩
    obtain ⟨s, hs⟩ := this
    have := htick i s hs
    rw [hi] at this
    change u.startTick = _ at this
    rw [this]
    rfl
  have hadj : adj x m.sigs ≠ [] := by
    unfold adj
    simpa using h.nonempty
  have hget : ∀ (i : Nat) (s : Sig), m.sigs[i]? = some s → ∃ u ∈ adj x m.sigs, u.startTick.getD 0 =
      ((P i).first + (P i).delta * s.prev) * ((Dm i).adjust x.1 x.2.1 x.2.2).mulNum + ((Dm i).adjust x.1 x.2.1 x.2.2).off := by
    intro i s hi
    have ht := htick i s hi
    cases hu : (adj x m.sigs)[i]? with
    | none => rw [hu] at ht; cases ht
    | some u =>
      rw [hu] at ht
      change u.startTick = _ at ht
      exact ⟨u, List.mem_of_getElem? hu, by rw [ht]; rfl⟩
  have hnext : ∀ (i : Nat) (s : Sig), m.sigs[i]? = some s → next s (P i) (Dm i) = time num den epoch
      (((P i).first + (P i).delta * s.prev) * ((Dm i).adjust x.1 x.2.1 x.2.2).mulNum + ((Dm i).adjust x.1 x.2.1 x.2.2).off) :=
    fun i s hi => (hconv i s hi).time _
  have hlatest : ∃ v, latest m.start (adj x m.sigs) = some v ∧ (∀ u ∈ adj x m.sigs, u.startTick.getD 0 ≤ v) ∧
      ∃ u ∈ adj x m.sigs, v = u.startTick.getD 0 := by
    cases hs : m.start with
    | none => exact latest_none (f := fun u => u.startTick.getD 0) hadj htick2
    | some t0 =>
      obtain ⟨v, e, q1, q2, q3⟩ := latest_some (sigs := adj x m.sigs) (f := fun u => u.startTick.getD 0) htick2 t0
      refine ⟨v, e, q2, ?_⟩
      rcases q3 with q3 | q3
      · obtain ⟨i, s, hi, hle⟩ := h.start t0 hs
        change _ ≤ next s (P i) (Dm i) at hle
        rw [hnext i s hi, time_le hc.num_pos hc.den_pos] at hle
        obtain ⟨u, hu, eu⟩ := hget i s hi
        have := q2 u hu
        refine ⟨u, hu, ?_⟩
        omega
      · exact q3
  obtain ⟨v, hv, hv1, hv2⟩ := hlatest
  have hle : ∀ (i : Nat) (s : Sig), m.sigs[i]? = some s →
      ((P i).first + (P i).delta * s.prev) * ((Dm i).adjust x.1 x.2.1 x.2.2).mulNum + ((Dm i).adjust x.1 x.2.1 x.2.2).off ≤ v := by
    intro i s hi
    obtain ⟨u, hu, e⟩ := hget i s hi
    rw [← e]
    exact hv1 u hu
  have hva : ∃ i s, m.sigs[i]? = some s ∧ next s (P i) (Dm i) = time num den epoch v := by
    obtain ⟨u, hu, e⟩ := hv2
    obtain ⟨i, hi⟩ := List.mem_iff_getElem?.mp hu
    have : ∃ s, m.sigs[i]? = some s := by
      unfold adj at hi
      rw [List.getElem?_map] at hi
      obtain ⟨s, hs, _⟩ := Option.map_eq_some_iff.mp hi
      exact ⟨s, hs⟩
    obtain ⟨s, hs⟩ := this
    refine ⟨i, s, hs, ?_⟩
    have ht := htick i s hs
    rw [hi] at ht
    change u.startTick = _ at ht
    rw [hnext i s hs, e, ht]
    rfl
  -- the interval
  obtain ⟨a, b, ha, hb, hiv, hab⟩ : ∃ a b : Int, 0 < a ∧ 0 < b ∧
      (if cfg.fullUnit then (1, 1) else simplify m.lcm m.common) = (a, b) ∧ raster cfg m = (a : Rat) / b := by
    unfold raster
    by_cases hf : cfg.fullUnit = true
    · refine ⟨1, 1, by omega, by omega, by rw [if_pos hf], by rw [if_pos hf]; norm_num⟩
    · rw [if_neg hf, if_neg hf]
      have hg : 0 < Int.gcd (m.lcm : Int) m.common := Int.gcd_pos_of_ne_zero_left _ (by have := h.lcm_pos; omega)
      have d1 : ((Int.gcd (m.lcm : Int) m.common : Nat) : Int) ∣ m.lcm := Int.gcd_dvd_left ..
      have d2 : ((Int.gcd (m.lcm : Int) m.common : Nat) : Int) ∣ m.common := Int.gcd_dvd_right ..
      generalize hG : Int.gcd (m.lcm : Int) m.common = g at *
      obtain ⟨a, ha⟩ := d1
      obtain ⟨b, hb⟩ := d2
      have hg' : (0 : Int) < g := by exact_mod_cast hg
      have hl : (0 : Int) < m.lcm := by exact_mod_cast h.lcm_pos
      have hcm : (0 : Int) < m.common := by exact_mod_cast h.common_pos
      have ha0 : 0 < a := by
        rw [ha] at hl
        exact (mul_pos_iff_of_pos_left hg').mp hl
      have hb0 : 0 < b := by
        rw [hb] at hcm
        exact (mul_pos_iff_of_pos_left hg').mp hcm
      refine ⟨a, b, ha0, hb0, ?_, ?_⟩
      · unfold simplify
        rw [hG, ha, hb, Int.mul_tdiv_cancel_left _ (ne_of_gt hg'), Int.mul_tdiv_cancel_left _ (ne_of_gt hg')]
      · have q1 : (m.lcm : Rat) = g * a := by exact_mod_cast ha
        have q2 : (m.common : Rat) = g * b := by exact_mod_cast hb
        have : (g : Rat) ≠ 0 := by exact_mod_cast ne_of_gt hg'
        rw [q1, q2, mul_div_mul_left _ _ this]
  obtain ⟨k, hk⟩ := h.whole
  have hnumR : (0 : Rat) < num := by exact_mod_cast hc.num_pos
  have hdenR : (0 : Rat) < den := by exact_mod_cast hc.den_pos
  have hk2 : a * x.2.2 = k * x.2.1 * b := by
    rw [hab, div_eq_div_iff (by exact_mod_cast ne_of_gt hb) (ne_of_gt hdenR)] at hk
    have hk' : a * den = k * num * b := by exact_mod_cast hk
    have : num * (a * x.2.2) = num * (k * x.2.1 * b) := by linear_combination x.2.1 * hk' - a * hxr
    exact mul_left_cancel₀ (ne_of_gt hc.num_pos) this
  obtain ⟨t, ht, ht1, ⟨c, ht2⟩, hkp, ht3⟩ := roundUp_whole hinfo.num_pos hinfo.den_pos ha hb hk2 v
  have hraster : ∀ z : Int, time num den epoch (k * z) = (epoch : Rat) / 1000000000 + z * raster cfg m := by
    intro z
    unfold time
    rw [hk]
    push_cast
    ring
  refine ⟨x, fun i => (Dm i).adjust x.1 x.2.1 x.2.2, t, ?_, ?_, ?_, ?_, ?_, ?_⟩
  · refine ⟨h.nonempty, h.valid, h.quiet, h.lcm_pos, hx, ⟨v, hv, ?_⟩, ?_, ?_⟩
    · rw [hiv]
      exact ht
    · intro i s hi
      have hs := h.sigs i s hi
      refine ⟨⟨P i, hs.cur, hs.within, hpd i s hi⟩, ?_, hs.data, hs.div, hs.valid, fun p hp => hs.deltas p (List.mem_cons_of_mem _ hp), ?_⟩
      · rw [hs.dom]; rfl
      · unfold allOf; rw [hi]
    · obtain ⟨s, hs, hu⟩ := h.unsync
      cases hm : m.sigs with
      | nil => rw [hm] at hs; cases hs
      | cons a r =>
        rw [hm] at hs
        rw [status_cons, if_pos]
        exact List.any_eq_true.mpr ⟨s, hs, by rw [hu]; rfl⟩
  · intro i hi
    have hi' := List.getElem?_eq_getElem hi
    generalize m.sigs[i] = s at hi'
    have hs := h.sigs i s hi'
    have hcv := hconv i s hi'
    dsimp only
    rw [hall i s hi']
    have hhead : ∀ y, (packets (P i) s.queue ++ given i ops).head? = some y → y.2 = (P i).first := by
      intro y hy
      obtain ⟨r, hr⟩ := samples_cons_ne (p := P i) (by have := hs.within; omega)
      unfold packets at hy
      rw [hr] at hy
      cases hy
      rfl
    refine ⟨hcv.whole, hs.pos, hs.regular, ⟨hcv.small _ hs.dist_small, fun y hy => hcv.small _ (hs.small y hy), ?_⟩, ?_⟩
    · intro y hy
      rw [hhead y hy]
      exact hcv.small _ hs.first_small
    · intro y hy
      unfold before
      refine decide_eq_true ?_
      dsimp only
      rw [hhead y hy]
      refine lt_of_lt_of_le ?_ (le_trans (hle i s hi') ht1)
      have h1 : (P i).first - δ i < (P i).first + (P i).delta * s.prev := by
        have h2 : 0 ≤ (P i).delta * (s.prev : Int) := mul_nonneg (by rw [hpd i s hi']; exact le_of_lt hs.pos) (by omega)
        have := hs.pos
        omega
      have := mul_lt_mul_of_pos_right h1 hcv.whole.pos
      omega
  · intro i s hi
    rw [hnext i s hi, time_le hc.num_pos hc.den_pos]
    exact le_trans (hle i s hi) ht1
  · exact ⟨c, by rw [ht2, hraster]⟩
  · rintro ⟨i, s, hi, h0⟩ T' hT' ⟨z, hz⟩
    have hv0 : 0 ≤ v := by
      have h1 : (epoch : Rat) / 1000000000 = time num den epoch 0 := by unfold time; simp
      rw [h1, hnext i s hi, time_le hc.num_pos hc.den_pos] at h0
      exact le_trans h0 (hle i s hi)
    rw [hz, ← hraster, time_le hc.num_pos hc.den_pos]
    refine ht3 hv0 _ (Dvd.intro _ rfl) ?_
    obtain ⟨i', s', hi', e'⟩ := hva
    have := hT' i' s' hi'
    rw [e', hz, ← hraster, time_le hc.num_pos hc.den_pos] at this
    exact this
  · intro i s hi
    have hs := h.sigs i s hi
    have hcv := hconv i s hi
    have hb : before ((Dm i).adjust x.1 x.2.1 x.2.2) t = fun y : Tok × Int =>
        decide (time (Dm i).num (Dm i).den (Dm i).epoch y.2 < time num den epoch t) := by
      funext y
      exact conv_before hcv hc.num_pos hc.den_pos t y
    unfold fromTime
    dsimp only
    rw [← hb, hall i s hi]
    have hsplit : packets (P i) s.queue = (samples (P i)).take s.prev ++ pending s := by
      unfold packets pending
      rw [hs.cur]
      dsimp only
      rw [← List.append_assoc, List.take_append_drop]
    rw [hsplit, List.append_assoc]
    refine dropWhile_all_append ?_
    intro y hy
    obtain ⟨j, hj⟩ := List.mem_iff_getElem?.mp hy
    rw [List.getElem?_take] at hj
    split at hj
    · rename_i hlt
      rw [samples_get (by have := hs.within; omega)] at hj
      cases hj
      unfold before
      refine decide_eq_true ?_
      refine lt_of_lt_of_le ?_ (le_trans (hle i s hi) ht1)
      have hpos : 0 < (P i).delta := by rw [hpd i s hi]; exact hs.pos
      have h1 : (P i).first + (P i).delta * (j : Int) < (P i).first + (P i).delta * s.prev := by
        have := mul_lt_mul_of_pos_left (show (j : Int) < s.prev by omega) hpos
        omega
      have := mul_lt_mul_of_pos_right h1 hcv.whole.pos
      show ((P i).first + (P i).delta * (j : Int)) * _ + _ < _
      omega
    · cases hj

end Verif.Multi
