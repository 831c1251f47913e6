import Verif.Multi.Buffers
import Verif.Multi.Fresh
import Mathlib.Tactic.LinearCombination

/-! # Events at the front of the queues -/

namespace Verif.Multi

open Spec

theorem lastGiven_cons {α : Type} (a : Option α) (l : List (Option α)) (v : Option α) :
    (lastGiven (a :: l)).or v = (lastGiven l).or (a.or v) := by
  show (match lastGiven l with | some x => some x | none => a).or v = _
  cases lastGiven l <;> rfl

theorem collect_gap_step (q : List Pkt) (v : Option Bool) (d : Option DomDesc) : collect (.event .gap :: q) v d =
    if v.isNone && d.isNone then (q, none, true, v, d) else (.event .gap :: q, none, false, v, d) := rfl

theorem leading_event (e : Ev) (q : List Pkt) : leading (.event e :: q) = e :: leading q := rfl

theorem takeWhile_gap (l : List Ev) : (Ev.gap :: l).takeWhile (· != .gap) = [] := by
  rw [List.takeWhile_cons, if_neg (by decide)]

theorem takeWhile_desc (v : Option Bool) (d : Option DomDesc) (l : List Ev) :
    (Ev.desc v d :: l).takeWhile (· != .gap) = .desc v d :: l.takeWhile (· != .gap) := by
  rw [List.takeWhile_cons, if_pos (by simp)]

theorem takeWhile_other (l : List Ev) : (Ev.other :: l).takeWhile (· != .gap) = .other :: l.takeWhile (· != .gap) := by
  rw [List.takeWhile_cons, if_pos (by decide)]

/-- What is found in front of the data. -/
theorem collect_found (q : List Pkt) : ∀ (v : Option Bool) (d : Option DomDesc),
    (collect q v d).2.2.2.1 = (lastGiven (((leading q).takeWhile (· != .gap)).map valOf)).or v ∧
    (collect q v d).2.2.2.2 = (lastGiven (((leading q).takeWhile (· != .gap)).map domOf)).or d ∧
    ((collect q v d).2.2.1 = true ↔ .gap ∈ leading q ∧ (collect q v d).2.2.2.1 = none ∧ (collect q v d).2.2.2.2 = none) := by
  induction q with
  | nil => intro v d; exact ⟨rfl, rfl, by simp [collect, leading]⟩
  | cons a q ih =>
    intro v d
    match a with
    | .data p => exact ⟨rfl, rfl, by simp [collect, leading]⟩
    | .event .gap =>
      rw [leading_event, takeWhile_gap, collect_gap_step]
      refine ⟨?_, ?_, ?_⟩
      · split <;> rfl
      · split <;> rfl
      · cases v <;> cases d <;> simp
    | .event (.desc v' d') =>
      obtain ⟨h1, h2, h3⟩ := ih (v'.or v) (d'.or d)
      have e : collect (.event (.desc v' d') :: q) v d = collect q (v'.or v) (d'.or d) := rfl
      rw [e, leading_event, takeWhile_desc, List.map_cons, List.map_cons, lastGiven_cons, lastGiven_cons, h1, h2]
      refine ⟨rfl, rfl, ?_⟩
      rw [h3, h1, h2]
      simp
    | .event .other =>
      obtain ⟨h1, h2, h3⟩ := ih v d
      have e : collect (.event .other :: q) v d = collect q v d := rfl
      rw [e, leading_event, takeWhile_other, List.map_cons, List.map_cons, lastGiven_cons, lastGiven_cons, h1, h2]
      refine ⟨rfl, rfl, ?_⟩
      rw [h3, h1, h2]
      simp [valOf, domOf]

/-- When a gap is reported, reading goes on behind it. -/
theorem collect_gap {q : List Pkt} : ∀ {v : Option Bool} {d : Option DomDesc}, (collect q v d).2.2.1 = true →
    (collect q v d).2.1 = none ∧ ∃ pre : List Ev, q = pre.map Pkt.event ++ .event .gap :: (collect q v d).1 ∧ Ev.gap ∉ pre := by
  induction q with
  | nil => intro v d h; cases h
  | cons a q ih =>
    intro v d h
    match a with
    | .data p => cases h
    | .event .gap =>
      rw [collect_gap_step] at h ⊢
      split at h
      · rename_i hc
        rw [if_pos hc]
        exact ⟨rfl, [], rfl, by simp⟩
      · cases h
    | .event (.desc v' d') =>
      obtain ⟨h1, pre, h2, h3⟩ := ih (v := v'.or v) (d := d'.or d) h
      exact ⟨h1, .desc v' d' :: pre, congrArg _ h2, by simp [h3]⟩
    | .event .other =>
      obtain ⟨h1, pre, h2, h3⟩ := ih (v := v) (d := d) h
      exact ⟨h1, .other :: pre, congrArg _ h2, by simp [h3]⟩

/-- Resolution and origin. -/
def resOf (s : Sig) : Option (Int × Int × Int) := s.dom.map fun d => (d.num, d.den, d.epoch)

/-- A signal takes what it has to report. -/
structure Took (s s' : Sig) : Prop where
  div : s'.div = s.div
  usable : ∀ e, report s = some e → ¬ Unusable s.rate e → s.invalid = false → s'.invalid = false
  unusable : ∀ e, report s = some e → Unusable s.rate e → s'.invalid = true
  nothing : report s = none → s'.invalid = s.invalid ∧ s'.rate = s.rate
  rate : ∀ r, (∀ e, report s = some e → ¬ Unusable s.rate e) → RateAfter s r → s'.rate = r
  dom : ∀ v x, report s = some (.desc v (some x)) → x.ok = true → resOf s' = some (x.num, x.den, x.epoch)
  gap : report s = some .gap → s'.cur = none ∧ s'.sync = .unsync ∧
    ∃ pre : List Ev, s.queue = pre.map Pkt.event ++ .event .gap :: s'.queue ∧ Ev.gap ∉ pre

theorem rateOf_iff (d : DomDesc) (r : Int) : rateOf d = some r ↔ HasRate d r := by
  unfold rateOf simplify HasRate
  dsimp only
  by_cases hn : d.num = 0
  · rw [hn]; simp
  · by_cases hd : d.delta = 0
    · rw [hd]; simp
    · have hg : Int.gcd d.num d.den ≠ 0 := fun h0 => hn (Int.gcd_eq_zero_iff.mp h0).1
      obtain ⟨a, ha⟩ : ((Int.gcd d.num d.den : Nat) : Int) ∣ d.num := Int.gcd_dvd_left ..
      obtain ⟨b, hb⟩ : ((Int.gcd d.num d.den : Nat) : Int) ∣ d.den := Int.gcd_dvd_right ..
      generalize Int.gcd d.num d.den = g at *
      have hg' : (g : Int) ≠ 0 := by exact_mod_cast hg
      have ha0 : a ≠ 0 := fun h0 => hn (by rw [ha, h0, mul_zero])
      have had : a * d.delta ≠ 0 := mul_ne_zero ha0 hd
      rw [ha, hb, Int.mul_tdiv_cancel_left _ hg', Int.mul_tdiv_cancel_left _ hg', if_neg had]
      have hR : ((g : Int) * a * d.delta ≠ 0 ∧ (g : Int) * b = r * (g * a * d.delta)) ↔ b = r * (a * d.delta) := by
        constructor
        · rintro ⟨_, h⟩
          have : (g : Int) * b = g * (r * (a * d.delta)) := by rw [h]; ring
          exact mul_left_cancel₀ hg' this
        · rintro rfl
          exact ⟨by rw [mul_assoc]; exact mul_ne_zero hg' had, by ring⟩
      rw [hR]
      constructor
      · intro h
        split at h
        · rename_i hm
          cases h
          exact (Int.ediv_mul_cancel (Int.dvd_of_emod_eq_zero hm)).symm
        · cases h
      · rintro rfl
        rw [if_pos (by simp), Int.mul_ediv_cancel _ had]

theorem rateOf_none (d : DomDesc) : rateOf d = none ↔ ∀ r, ¬ HasRate d r := by
  constructor
  · intro h r hr
    rw [(rateOf_iff d r).mpr hr] at h
    cases h
  · intro h
    cases e : rateOf d with
    | none => rfl
    | some r => exact absurd ((rateOf_iff d r).mp e) (h r)

/-- Taking new descriptors. -/
theorem handleDesc_facts (s : Sig) (v : Option Bool) (d : Option DomDesc) :
    (Unusable s.rate (.desc v d) → (s.handleDesc v d).invalid = true) ∧
    (¬ Unusable s.rate (.desc v d) → (v.isSome ∨ s.invalid = false) → (s.handleDesc v d).invalid = false) ∧
    (¬ Unusable s.rate (.desc v d) → ∀ r, (match d with | some x => HasRate x r ∧ (s.rate = -1 ∨ s.rate = r) | none => s.rate = r) →
      (s.handleDesc v d).rate = r) := by
  have hval : s.handleDesc v d =
      ({ s with invalid := match v with | some ok => !ok | none => s.invalid } : Sig).handleDesc none d := by
    cases v <;> rfl
  rw [hval]
  generalize hi : (match v with | some ok => !ok | none => s.invalid) = iv
  have hbad : v = some false → iv = true := by rintro rfl; exact hi.symm
  have hgood : v ≠ some false → (v.isSome ∨ s.invalid = false) → iv = false := by
    intro h1 h2
    rw [← hi]
    match v with
    | some true => rfl
    | some false => exact absurd rfl h1
    | none => exact h2.resolve_left (by simp)
  unfold Sig.handleDesc
  dsimp only
  cases d with
  | none =>
    refine ⟨?_, ?_, ?_⟩
    · rintro (h | ⟨x, h, _⟩)
      · exact hbad h
      · cases h
    · intro h h2
      exact hgood (fun h0 => h (Or.inl h0)) h2
    · intro _ r hr
      exact hr
  | some x =>
    dsimp only
    cases hok : x.ok with
    | false =>
      rw [if_pos (show (!false) = true from rfl)]
      have hu : Unusable s.rate (.desc v (some x)) := Or.inr ⟨x, rfl, Or.inl hok⟩
      exact ⟨fun _ => rfl, fun h => absurd hu h, fun h => absurd hu h⟩
    | true =>
      rw [if_neg (by decide)]
      cases hr : rateOf x with
      | none =>
        have hu : Unusable s.rate (.desc v (some x)) := Or.inr ⟨x, rfl, Or.inr (Or.inl ((rateOf_none x).mp hr))⟩
        exact ⟨fun _ => rfl, fun h => absurd hu h, fun h => absurd hu h⟩
      | some r =>
        have hr' := (rateOf_iff x r).mp hr
        have huniq : ∀ r', HasRate x r' → r' = r := fun r' h' => by
          rw [(rateOf_iff x r').mpr h'] at hr
          exact Option.some.inj hr
        dsimp only
        by_cases h1 : s.rate = -1
        · rw [if_pos h1]
          refine ⟨?_, fun h h2 => hgood (fun h0 => h (Or.inl h0)) h2, fun _ r' h' => (huniq r' h'.1).symm⟩
          rintro (h | ⟨y, hy, h | h | h⟩)
          · exact hbad h
          · cases hy; rw [hok] at h; cases h
          · cases hy; exact absurd hr' (h r)
          · exact absurd h1 h.1
        · rw [if_neg h1]
          by_cases h2 : s.rate = r
          · rw [if_neg (by simp [h2])]
            refine ⟨?_, fun h h2 => hgood (fun h0 => h (Or.inl h0)) h2, fun _ r' h' => h2.trans (huniq r' h'.1).symm⟩
            rintro (h | ⟨y, hy, h | h | h⟩)
            · exact hbad h
            · cases hy; rw [hok] at h; cases h
            · cases hy; exact absurd hr' (h r)
            · cases hy; exact absurd (h2 ▸ hr') h.2
          · rw [if_pos h2]
            have hu : Unusable s.rate (.desc v (some x)) :=
              Or.inr ⟨x, rfl, Or.inr (Or.inr ⟨h1, fun hc => h2 (huniq _ hc)⟩)⟩
            exact ⟨fun _ => rfl, fun h => absurd hu h, fun h => absurd hu h⟩

theorem handleDesc_res (s : Sig) (v : Option Bool) {x : DomDesc} (h : x.ok = true) :
    resOf (s.handleDesc v (some x)) = some (x.num, x.den, x.epoch) := by
  have hval : s.handleDesc v (some x) =
      ({ s with invalid := match v with | some ok => !ok | none => s.invalid } : Sig).handleDesc none (some x) := by
    cases v <;> rfl
  rw [hval]
  generalize (match v with | some ok => !ok | none => s.invalid) = iv
  unfold Sig.handleDesc resOf
  dsimp only
  rw [if_neg (by rw [h]; decide)]
  have hd : ∀ o : Option Dom, (some (match o with
      | some o => { o with num := x.num, den := x.den, epoch := x.epoch }
      | none => { num := x.num, den := x.den, epoch := x.epoch }) : Option Dom).map (fun d => (d.num, d.den, d.epoch)) =
      some (x.num, x.den, x.epoch) := by
    intro o; cases o <;> rfl
  cases rateOf x with
  | none => exact hd s.dom
  | some r =>
    dsimp only
    split
    · exact hd s.dom
    · split
      · exact hd s.dom
      · exact hd s.dom

theorem news_data (p : DP) (q : List Pkt) : news (.data p :: q) = none := by
  simp [news, leading, lastGiven]

theorem news_nil : news [] = none := by
  simp [news, leading, lastGiven]

theorem readUntil_took (s : Sig) : s.readUntil.2 = report s ∧ Took s s.readUntil.1 := by
  unfold Sig.readUntil Sig.isFirst report
  rcases Option.eq_none_or_eq_some s.cur with hc | ⟨c, hc⟩
  · have hrep : report s = news s.queue := by unfold report; rw [hc]
    rw [hc]
    match hq : s.queue with
    | [] =>
      rw [hq, news_nil] at hrep
      refine ⟨news_nil.symm, rfl, ?_, ?_, fun _ => ⟨rfl, rfl⟩, ?_, ?_, ?_⟩
      · intro e he; rw [hrep] at he; cases he
      · intro e he; rw [hrep] at he; cases he
      · intro r _ h; unfold RateAfter at h; rw [hrep] at h; exact h
      · intro v x he; rw [hrep] at he; cases he
      · intro he; rw [hrep] at he; cases he
    | .data p :: q =>
      rw [hq, news_data] at hrep
      refine ⟨(news_data p q).symm, rfl, ?_, ?_, fun _ => ⟨rfl, rfl⟩, ?_, ?_, ?_⟩
      · intro e he; rw [hrep] at he; cases he
      · intro e he; rw [hrep] at he; cases he
      · intro r _ h; unfold RateAfter at h; rw [hrep] at h; exact h
      · intro v x he; rw [hrep] at he; cases he
      · intro he; rw [hrep] at he; cases he
    | .event e0 :: q0 =>
      dsimp only
      rw [if_neg (by decide), hq]
      rw [hq] at hrep
      generalize hQ : Pkt.event e0 :: q0 = Q at *
      obtain ⟨h1, h2, h3⟩ := collect_found Q none none
      have h4 := @collect_gap Q none none
      rw [Option.or_none] at h1 h2
      generalize hC : collect Q none none = C at *
      obtain ⟨rest, dp, g, v, d⟩ := C
      dsimp only at h1 h2 h3 h4 ⊢
      have hn : news Q = if v.isSome || d.isSome then some (.desc v d) else if .gap ∈ leading Q then some .gap else none := by
        rw [h1, h2]; rfl
      rw [← hrep]
      rw [hn] at hrep
      have hg : g = true ↔ .gap ∈ leading Q ∧ v = none ∧ d = none := h3
      cases hgb : g with
      | true =>
        obtain ⟨g1, rfl, rfl⟩ := hg.mp hgb
        obtain ⟨rfl, pre, k1, k2⟩ := h4 hgb
        rw [if_neg (by simp), if_pos g1] at hrep
        refine ⟨hrep.symm, rfl, ?_, ?_, ?_, ?_, (fun v x he => by rw [hrep] at he; cases he), fun _ => ⟨hc, rfl, pre, hq.trans k1, k2⟩⟩
        · intro e _ _ hi; exact hi
        · intro e he hu; rw [hrep] at he; cases he; exact absurd hu id
        · intro h0; rw [hrep] at h0; cases h0
        · intro r _ h; unfold RateAfter at h; rw [hrep] at h; exact h
      | false =>
        rw [if_neg (by decide)]
        by_cases hsome : (v.isSome || d.isSome) = true
        · rw [if_pos hsome] at hrep ⊢
          refine ⟨hrep.symm, ?_, ?_, ?_, ?_, ?_, (fun v' x he hok => by rw [hrep] at he; cases he; exact handleDesc_res _ _ hok), ?_⟩
          · rw [handleDesc_div]; cases dp <;> rfl
          · intro e he hu hi
            rw [hrep] at he
            cases he
            refine (handleDesc_facts _ v d).2.1 ?_ (Or.inr ?_)
            · cases dp <;> exact hu
            · cases dp <;> exact hi
          · intro e he hu
            rw [hrep] at he
            cases he
            refine (handleDesc_facts _ v d).1 ?_
            cases dp <;> exact hu
          · intro h0; rw [hrep] at h0; cases h0
          · intro r hu h
            unfold RateAfter at h
            rw [hrep] at h
            refine (handleDesc_facts _ v d).2.2 ?_ r ?_
            · have := hu _ hrep
              cases dp <;> exact this
            · cases dp <;> cases d <;> exact h
          · intro h0; rw [hrep] at h0; cases h0
        · have hv : v = none ∧ d = none := by cases v <;> cases d <;> simp at hsome ⊢
          obtain ⟨rfl, rfl⟩ := hv
          have hng : .gap ∉ leading Q := fun hm => by
            rw [hgb] at hg
            exact absurd (hg.mpr ⟨hm, rfl, rfl⟩) (by decide)
          rw [if_neg hsome, if_neg hng] at hrep
          rw [if_neg hsome]
          refine ⟨hrep.symm, ?_, ?_, ?_, fun _ => ?_, ?_, (fun v x he => by rw [hrep] at he; cases he), ?_⟩
          · cases dp <;> rfl
          · intro e he; rw [hrep] at he; cases he
          · intro e he; rw [hrep] at he; cases he
          · cases dp <;> exact ⟨rfl, rfl⟩
          · intro r _ h; unfold RateAfter at h; rw [hrep] at h; cases dp <;> exact h
          · intro he; rw [hrep] at he; cases he
  · have hrep : report s = none := by unfold report; rw [hc]
    rw [hc]
    refine ⟨rfl, rfl, ?_, ?_, fun _ => ⟨rfl, rfl⟩, ?_, ?_, ?_⟩
    · intro e he; rw [hrep] at he; cases he
    · intro e he; rw [hrep] at he; cases he
    · intro r _ h; unfold RateAfter at h; rw [hrep] at h; exact h
    · intro v x he; rw [hrep] at he; cases he
    · intro he; rw [hrep] at he; cases he

end Verif.Multi
