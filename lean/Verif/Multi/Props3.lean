import Verif.Multi.Fresh
import Verif.Multi.Props

/-! # New readers -/

namespace Verif.Multi.Props3

open Spec Props

/-- C63: the common rate of a new reader is the required one or the least common multiple of the rates of the signals; the reader is
valid, each signal contributes its share of the samples at the common rate, and the unit of reading is the least number of samples
at the common rate of which each signal has a whole number. -/
theorem C63_rates {cfg : Cfg} {L : List Input} {num den epoch : Int} {ops : List Op} (h : Inputs cfg L ops num den epoch)
    {divs : List Nat} (hl : divs.length = L.length) :
    let m := (run cfg (fresh divs) (setup L)).1
    m.invalid = false ∧ 0 < m.common ∧ (0 < cfg.required → m.common = cfg.required) ∧ (∀ x ∈ L, x.rate ∣ m.common) ∧
      (cfg.required = 0 → ∀ n, (∀ x ∈ L, x.rate ∣ n) → m.common ∣ n) ∧
      (∀ (i : Nat) (x : Input), L[i]? = some x → ∃ s, m.sigs[i]? = some s ∧ s.div * x.rate = m.common ∧ s.div ∣ m.lcm) ∧
      ∀ n, (∀ s ∈ m.sigs, s.div ∣ n) → m.lcm ∣ n := by
  intro m
  have em : m = taken cfg L := setup_state h hl
  obtain ⟨hc0, hcd⟩ := rateFor_spec h
  obtain ⟨_, hl2, _, hl4⟩ := foldl_lcm (l := L.map fun x => rateFor cfg L / x.rate) (a := 1)
  rw [em]
  refine ⟨rfl, hc0, ?_, hcd, ?_, ?_, ?_⟩
  · intro hr
    simp [taken, rateFor, hr]
  · intro hr n hn
    have e : (taken cfg L).common = lcmOf (L.map fun x => x.rate) := by simp [taken, rateFor, hr]
    rw [e]
    refine (foldl_lcm (l := L.map fun x => x.rate) (a := 1)).2.2.2 n (Nat.one_dvd _) fun r hr => ?_
    obtain ⟨x, hx, rfl⟩ := List.mem_map.mp hr
    exact hn x hx
  · intro i x hi
    have hx := List.mem_of_getElem? hi
    exact ⟨sigFor (rateFor cfg L) x, by simp [taken, hi], Nat.div_mul_cancel (hcd x hx), hl2 _ (List.mem_map_of_mem hx)⟩
  · intro n hn
    refine hl4 n (Nat.one_dvd _) fun r hr => ?_
    obtain ⟨x, hx, rfl⟩ := List.mem_map.mp hr
    exact hn _ (List.mem_map_of_mem (f := sigFor (rateFor cfg L)) hx)

/-- C62: a new reader that has taken the descriptors and got the first packets is as `C62_start` requires. -/
theorem C62_ready {cfg : Cfg} {L : List Input} {num den epoch : Int} {ops : List Op} (h : Inputs cfg L ops num den epoch)
    {divs : List Nat} (hl : divs.length = L.length) :
    Ready cfg (run cfg (fresh divs) (setup L ++ firstPackets L)).1 ops num den epoch (firstOf L) (domainOf L) (deltaOf L) := by
  rw [started_state h hl]
  exact started_ready h

/-- C62 for a new reader: after the descriptors and the first packets there is one instant from which all signals are delivered. It
is not before the first sample of any signal; it lies a whole number of seconds, or of the shortest time after which all signals
have a sample again, from the earliest origin, and is the first such instant; and each signal delivers its samples from there on. -/
theorem C62_new {cfg : Cfg} {L : List Input} {num den epoch : Int} {ops : List Op} (h : Inputs cfg L ops num den epoch)
    {divs : List Nat} (hl : divs.length = L.length) (hf : ∀ op ∈ ops, Flow op) :
    let x := run cfg (run cfg (fresh divs) (setup L ++ firstPackets L)).1 ops
    let at' := fun (y : Input) (t : Int) => time y.desc.num y.desc.den y.desc.epoch t
    ∃ (T R : Rat) (c : Nat), (cfg.fullUnit = true → R = 1) ∧
      (cfg.fullUnit = false → Period L R ∧ ∀ R', Period L R' → R ≤ R') ∧
      (∀ y ∈ L, at' y y.first.first ≤ T) ∧ (∃ z : Int, T = (epoch : Rat) / 1000000000 + z * R) ∧
      ((∃ y ∈ L, (epoch : Rat) / 1000000000 ≤ at' y y.first.first) → ∀ T' : Rat, (∀ y ∈ L, at' y y.first.first ≤ T') →
        (∃ z : Int, T' = (epoch : Rat) / 1000000000 + z * R) → T ≤ T') ∧
      (∀ b, .bad b ∉ x.2) ∧ (∀ y ∈ L, y.rate ∣ c) ∧
      ∀ (i : Nat) (y : Input), L[i]? = some y →
        let l := fromTime (at' y) T (samples y.first ++ given i ops)
        let k := ((counts x.2).map (· / (c / y.rate))).sum
        k ≤ l.length ∧ delivered i x.2 = toks (l.take k) := by
  intro x at'
  have hr := C62_ready h hl
  obtain ⟨T, t1, t2, t3, t4, t5, _⟩ := C62_start hr hf
  have es := started_state h hl
  obtain ⟨hc0, hcd⟩ := rateFor_spec h
  have hsig : ∀ (i : Nat) (y : Input), L[i]? = some y → (run cfg (fresh divs) (setup L ++ firstPackets L)).1.sigs[i]? =
      some { sigFor (rateFor cfg L) y with cur := some y.first } := by
    intro i y hy
    rw [es]
    simp [started, hy]
  have hgis : ∀ (i : Nat) (s : Sig), (run cfg (fresh divs) (setup L ++ firstPackets L)).1.sigs[i]? = some s →
      ∃ y, L[i]? = some y ∧ s = { sigFor (rateFor cfg L) y with cur := some y.first } := by
    intro i s hs
    rw [es] at hs
    have hi' : (L[i]?).map (fun x => ({ sigFor (rateFor cfg L) x with cur := some x.first } : Sig)) = some s := by
      rw [← List.getElem?_map]
      exact hs
    obtain ⟨y, hy, e⟩ := Option.map_eq_some_iff.mp hi'
    exact ⟨y, hy, e.symm⟩
  have hnext : ∀ (i : Nat) (y : Input), L[i]? = some y →
      next { sigFor (rateFor cfg L) y with cur := some y.first } (firstOf L i) (domainOf L i) = at' y y.first.first := by
    intro i y hy
    simp [next, firstOf, domainOf, hy, sigFor, at', domain]
  refine ⟨T, raster cfg (run cfg (fresh divs) (setup L ++ firstPackets L)).1, rateFor cfg L, ?_, ?_, ?_, t2, ?_, t4, hcd, ?_⟩
  · intro hu
    simp [raster, hu]
  · intro hu
    have e : raster cfg (run cfg (fresh divs) (setup L ++ firstPackets L)).1 =
        ((lcmOf (L.map fun x => rateFor cfg L / x.rate) : Nat) : Rat) / (rateFor cfg L : Nat) := by
      rw [es]
      simp [raster, hu, started, taken]
    obtain ⟨_, hl2, hl3, hl4⟩ := foldl_lcm (l := L.map fun x => rateFor cfg L / x.rate) (a := 1)
    have hlpos : 0 < lcmOf (L.map fun x => rateFor cfg L / x.rate) := hl3 (by decide) fun r hr => by
      obtain ⟨x, hx, rfl⟩ := List.mem_map.mp hr
      exact Nat.div_pos (Nat.le_of_dvd hc0 (hcd x hx)) (h.each x hx).rate_pos
    rw [e]
    have hc0' : (0 : Rat) < (rateFor cfg L : Nat) := by exact_mod_cast hc0
    refine ⟨⟨by have : (0 : Rat) < (lcmOf (L.map fun x => rateFor cfg L / x.rate) : Nat) := by exact_mod_cast hlpos
                exact div_pos this hc0', ?_⟩, ?_⟩
    · intro y hy
      obtain ⟨q, hq⟩ := hl2 _ (List.mem_map_of_mem (f := fun x => rateFor cfg L / x.rate) hy)
      have hm : rateFor cfg L / y.rate * y.rate = rateFor cfg L := Nat.div_mul_cancel (hcd y hy)
      refine ⟨q, ?_⟩
      have hq' : lcmOf (L.map fun x => rateFor cfg L / x.rate) = rateFor cfg L / y.rate * q := hq
      have e2 : lcmOf (L.map fun x => rateFor cfg L / x.rate) * y.rate = rateFor cfg L * q := by
        rw [hq', Nat.mul_right_comm, hm]
      have e3 : ((lcmOf (L.map fun x => rateFor cfg L / x.rate) : Nat) : Rat) * y.rate = (rateFor cfg L : Nat) * q := by exact_mod_cast e2
      rw [div_mul_eq_mul_div, e3]
      have := hc0'.ne'
      push_cast
      field_simp
    · intro R' hR
      obtain ⟨hR0, hR⟩ := hR
      -- the number of samples at the common rate
      have hex : ∃ n : Nat, R' * (rateFor cfg L : Nat) = n := by
        obtain ⟨y, hy⟩ : ∃ y, y ∈ L := by
          cases hL : L with
          | nil => exact absurd hL h.nonempty
          | cons x l => exact ⟨x, by simp⟩
        obtain ⟨k, hk⟩ := hR y hy
        have hk0 : 0 ≤ k := by
          have : (0 : Rat) ≤ R' * y.rate := mul_nonneg hR0.le (by positivity)
          rw [hk] at this
          exact_mod_cast this
        obtain ⟨n, rfl⟩ := Int.eq_ofNat_of_zero_le hk0
        obtain ⟨t, ht⟩ := hcd y hy
        refine ⟨n * t, ?_⟩
        rw [ht]
        push_cast
        rw [← mul_assoc, hk]
        push_cast
        ring
      obtain ⟨n, hn⟩ := hex
      have hdv : lcmOf (L.map fun x => rateFor cfg L / x.rate) ∣ n := by
        refine hl4 n (Nat.one_dvd _) fun r hr => ?_
        obtain ⟨y, hy, rfl⟩ := List.mem_map.mp hr
        obtain ⟨k, hk⟩ := hR y hy
        have hm : rateFor cfg L / y.rate * y.rate = rateFor cfg L := Nat.div_mul_cancel (hcd y hy)
        have : ((rateFor cfg L / y.rate : Nat) : Int) ∣ (n : Int) := by
          refine ⟨k, ?_⟩
          have e4 : (n : Rat) = (rateFor cfg L / y.rate : Nat) * k := by
            rw [← hn, ← hk]
            have : ((rateFor cfg L : Nat) : Rat) = (rateFor cfg L / y.rate : Nat) * (y.rate : Nat) := by exact_mod_cast hm.symm
            rw [this]
            ring
          apply Int.cast_injective (α := Rat)
          rw [Int.cast_mul, Int.cast_natCast, Int.cast_natCast]
          exact e4
        exact_mod_cast this
      have hn0 : 0 < n := by
        have : (0 : Rat) < R' * (rateFor cfg L : Nat) := mul_pos hR0 hc0'
        rw [hn] at this
        exact_mod_cast this
      have hle := Nat.le_of_dvd hn0 hdv
      rw [div_le_iff₀ hc0', hn]
      exact_mod_cast hle
  · intro y hy
    obtain ⟨i, hi⟩ := List.mem_iff_getElem?.mp hy
    have := t1 i _ (hsig i y hi)
    rw [hnext i y hi] at this
    exact this
  · rintro ⟨y, hy, hy2⟩ T' hT hz
    obtain ⟨i, hi⟩ := List.mem_iff_getElem?.mp hy
    refine t3 ⟨i, _, hsig i y hi, by rw [hnext i y hi]; exact hy2⟩ T' ?_ hz
    intro j s hs
    obtain ⟨w, hw, rfl⟩ := hgis j s hs
    rw [hnext j w hw]
    exact hT w (List.mem_of_getElem? hw)
  · intro i y hi
    have key := t5 i _ (hsig i y hi)
    have e1 : domainOf L i = domain y := by simp [domainOf, hi]
    have e2 : pending { sigFor (rateFor cfg L) y with cur := some y.first } = samples y.first := by
      simp [pending, sigFor, front]
    rw [e1, e2] at key
    exact key

/-- 1000 Hz and 500 Hz; the origin of the second signal is one second later. -/
def pair : List Input := [⟨⟨1, 1000, 0, 1, true⟩, 1000, ⟨1, 5, 1000, 1⟩⟩, ⟨⟨1, 500, 1000000000, 1, true⟩, 500, ⟨2, 4, 2, 1⟩⟩]

theorem pair_inputs : Inputs {} pair after 1 1000 0 := by
  refine ⟨by decide, ?_, by decide, fun _ => .inl rfl, by decide, by decide, ⟨_, List.mem_cons_self, by decide⟩,
    ⟨_, List.mem_cons_self, by decide⟩, ?_, ?_, ?_⟩
  · intro x hx
    rcases List.mem_cons.mp hx with rfl | hx
    · exact ⟨rfl, by decide, by decide, by decide, by decide, by decide, by decide⟩
    · rcases List.mem_cons.mp hx with rfl | hx
      · exact ⟨rfl, by decide, by decide, by decide, by decide, by decide, by decide⟩
      · cases hx
  · intro x hx
    rcases List.mem_cons.mp hx with rfl | hx
    · exact ⟨by decide, ⟨1, by decide⟩, 0, by decide⟩
    · rcases List.mem_cons.mp hx with rfl | hx
      · exact ⟨by decide, ⟨2, by decide⟩, 1000, by decide⟩
      · cases hx
  · intro i x hi
    rcases i with _ | _ | i
    · cases hi
      refine ⟨?_, by decide, by decide, by decide⟩
      simp [Regular, samples, given, after, data, List.range_succ]
    · cases hi
      refine ⟨?_, by decide, by decide, by decide⟩
      simp [Regular, samples, given, after, data, List.range_succ]
    · cases hi
  · intro i x p hi hp
    simp [after, data] at hp
    obtain ⟨rfl, rfl⟩ := hp
    cases hi
    rfl

example : (run {} (fresh [7, 9]) (setup pair)).1.invalid = false ∧ (run {} (fresh [7, 9]) (setup pair)).1.common = 1000 := by
  refine ⟨(C63_rates pair_inputs rfl).1, by decide +kernel⟩

example : ∃ T : Rat, (1004 : Rat) / 1000 ≤ T := by
  obtain ⟨T, _, _, _, _, h, _⟩ := C62_new pair_inputs (divs := [7, 9]) rfl (by simp [after, Flow, data])
  have := h _ (List.mem_cons_of_mem _ List.mem_cons_self)
  refine ⟨T, le_trans (le_of_eq ?_) this⟩
  norm_num [time]

end Verif.Multi.Props3
