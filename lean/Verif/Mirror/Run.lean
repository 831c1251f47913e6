import Verif.Mirror.Step2

/-! # Histories that keep the rules -/

namespace Verif.Mirror
open Verif.Component (Str idEndsWith)
open Spec

variable {n : Nat} {remote : Nat → Str} {P : Str → Prop}

theorem withdraw_nodup {s : Src} {a : Str} {f : Nat → Str} (h : s.avail.Nodup) : (s.withdraw f a).1.avail.Nodup := by
  unfold Src.withdraw
  split
  · unfold Src.remapUnavailable
    split
    · exact h.filter _
    · split
      · exact h.filter _
      · exact h.filter _
  · exact h

theorem step_ok (D : Dist n remote P) {w : W} (i : Inv n remote P none w) {o : Op} (h : Rule P w o) : Inv n remote P none (step w o).1 := by
  have hn := i.g.hn
  cases o with
  | addSignals t vs =>
    unfold step
    dsimp only
    split
    · next ha => exact addSignals_ok D vs w i ha (hn ▸ h)
    · exact i
  | removeSignals t vs =>
    unfold step
    dsimp only
    split
    · next ha => exact removeSignals_ok D vs w i ha fun v hv => ⟨hn ▸ (h v hv).1, i.freeDomain (h v hv).2⟩
    · exact i
  | removeAll t =>
    unfold step
    dsimp only
    split
    · next ha => exact (removeAll_ok D i ha).1
    · exact i
  | destroy t =>
    unfold step
    dsimp only
    split
    · next ha => exact destroy_ok D i ha
    · exact i
  | setSourceActive t b =>
    refine i.same' (fun _ => .rfl) (fun _ => rfl) rfl rfl fun ha => ?_
    have k := i.g.k t ha
    exact ⟨⟨k.key, k.nodup, k.avail, k.deny, k.offer, k.serve, k.sens⟩, i.g.nd t ha⟩
  | setActive v t => exact (setActive_ok D i h.2).1
  | deactivate v => exact (deactivate_ok D i v).1
  | setStreamed v b => exact (setStreamed_ok D i b (hn ▸ h.1) h.2).1
  | connect v => exact (connect_ok D i (hn ▸ h.1) h.2.1 h.2.2).1
  | disconnect v => exact (disconnect_ok D i v).1
  | setDomain v d =>
    have hw : w.want v = none := by
      cases e : w.want v with
      | none => rfl
      | some t => exact absurd ((i.inUse t v).mpr e) (h.2.1 t)
    show Inv n remote P none (w.setSig v { w.sig v with domain := d })
    refine ⟨i.toLists.setSig v _ (i.src v) (fun t => i.back t v) (i.act v) (i.nd v) (i.rem v) (i.lis v), ?_⟩
    refine i.g.congr rfl rfl ?_ ?_ ?_ (want_setSig_eq rfl rfl rfl)
    · intro u; rw [sig_setSig]; split
      · next e => rw [e]
      · rfl
    · intro u t hu
      have huv : u ≠ v := by intro e; rw [e, hw] at hu; cases hu
      have hrm : ∀ x, ((w.setSig v { w.sig v with domain := d }).sig x).removed = (w.sig x).removed := by
        intro x; rw [sig_setSig]; split
        · next e => rw [e]
        · rfl
      unfold W.dom
      rw [sig_setSig, if_neg huv]
      cases (w.sig u).domain with
      | none => rfl
      | some x => simp only [hrm]
    · intro u x hu hx
      rw [sig_setSig] at hx
      split at hx
      · next e => rw [e]; have := h.2.2 x hx; rw [hn] at this; exact this
      · exact i.g.dom u x hu hx
  | remove v => exact remove_ok D i (hn ▸ h.1) h.2
  | offer t a =>
    unfold step
    dsimp only
    split
    · next ha =>
      obtain ⟨k, s, hnd⟩ := offer_ok D (i.g.k t ha) h
      exact i.same s fun _ => ⟨k, hnd (i.g.nd t ha)⟩
    · exact i
  | withdraw t a =>
    unfold step
    dsimp only
    split
    · next ha =>
      rw [i.g.hr]
      obtain ⟨k, s⟩ := withdraw_ok D (i.g.k t ha) a
      exact i.same s fun _ => ⟨k, withdraw_nodup (i.g.nd t ha)⟩
    · exact i
  | lost t =>
    unfold step
    dsimp only
    split
    · next ha =>
      rw [i.g.hr]
      obtain ⟨k, s⟩ := lost_ok D (i.g.k t ha) (i.g.nd t ha)
      exact i.same s fun _ => ⟨k, List.nodup_nil⟩
    · exact i
  | connected t =>
    unfold step
    dsimp only
    split
    · next ha =>
      unfold Src.connected
      split
      · have k := i.g.k t ha
        exact i.same ⟨fun _ => .rfl, fun _ => rfl, rfl, rfl, rfl⟩ fun _ =>
          ⟨⟨k.key, k.nodup, k.avail, k.deny, k.offer, k.serve, k.sens⟩, i.g.nd t ha⟩
      · exact i.same (Same.refl _) fun _ => ⟨i.g.k t ha, i.g.nd t ha⟩
    · exact i
  | packet t a x =>
    unfold step
    dsimp only
    split
    · split
      · exact i
      · next v _ =>
        exact ⟨i.toLists.setSig v _ (i.src v) (fun t => i.back t v) (i.act v) (i.nd v) (i.rem v) (i.lis v),
          i.g.setSig v _ rfl rfl rfl (want_setSig_eq rfl rfl rfl)⟩
    · exact i
  | deny t l =>
    have hl : l = [] := h
    subst hl
    refine i.same ⟨fun _ => .rfl, fun _ => rfl, rfl, rfl, rfl⟩ fun ha => ?_
    have k := i.g.k t ha
    exact ⟨⟨k.key, k.nodup, k.avail, rfl, k.offer, k.serve, k.sens⟩, i.g.nd t ha⟩

theorem run_ok (D : Dist n remote P) : ∀ (os : List Op) (w : W), Inv n remote P none w → Ruled P w os → Inv n remote P none (run w os) := by
  intro os
  induction os with
  | nil => intro w i _; exact i
  | cons o os ih => intro w i h; exact ih _ (step_ok D i h.1) h.2

theorem Spec.Distinct.dist {w : W} (d : Distinct w P) : Dist w.n w.remote P := ⟨d.one, d.only, d.ends, d.remote⟩

theorem Spec.Fresh.inv {w : W} (f : Fresh w) : Inv w.n w.remote P none w := by
  have hw : ∀ v, w.want v = none := by
    intro v
    unfold W.want
    rw [(f.sig v).2.2.1]
    rfl
  have hno : ∀ t u, ¬ (w.src t).has u := fun t u => not_has_nil (f.src t).1 u
  refine ⟨⟨?_, ?_, ?_, ?_, ?_, ?_⟩, ⟨rfl, rfl, ?_, ?_, ?_, ?_, f.domain⟩⟩
  · intro s t h; rw [(f.sig s).1] at h; cases h
  · intro t s _ _ h; exact absurd h (hno t s)
  · intro s t h; rw [(f.sig s).2.1] at h; cases h
  · intro s; rw [(f.sig s).1]; exact List.nodup_nil
  · intro s h; rw [(f.sig s).2.2.2.2] at h; cases h
  · intro s _; rw [(f.sig s).2.2.1, (f.sig s).2.2.2.1]; simp
  · intro t _
    obtain ⟨h1, h2, h3, h4⟩ := f.src t
    refine ⟨by simp [h1], by simp [h1], by simp [h2], h3, ?_, ?_, by rw [h4]; trivial⟩
    · intro a; rw [h4, h2]; simp [offered]
    · intro a; rw [h4, h2]; simp [served]
  · intro t _; rw [(f.src t).2.1]; exact List.nodup_nil
  · intro v t h; rw [hw] at h; cases h
  · intro t s _
    rw [count_none (hno t s), due_zero]
    intro u hu; rw [hw] at hu; cases hu

theorem Inv.needed {w : W} (i : Inv n remote P none w) {t s : Nat} :
    Needed w t s ↔ 0 < due n (w.src t).skipDomain w.want w.dom t s := by
  rw [due_pos]
  unfold Needed
  constructor
  · rintro (h | ⟨hs, v, h1, h2⟩)
    · exact ⟨s, i.g.hn ▸ h.1, (i.inUse t s).mp h, .inl rfl⟩
    · exact ⟨v, i.g.hn ▸ h1.1, (i.inUse t v).mp h1, .inr ⟨hs, (w.dom_iff v s).mpr h2⟩⟩
  · rintro ⟨v, _, h1, h2 | h2⟩
    · exact .inl (h2 ▸ (i.inUse t v).mpr h1)
    · exact .inr ⟨h2.1, v, (i.inUse t v).mpr h1, (w.dom_iff v s).mp h2.2⟩

theorem Inv.right (D : Dist n remote P) {w : W} (i : Inv n remote P none w) : RightlyServed w := by
  intro t ha
  have k := i.g.k t ha
  have hrem : ∀ s, (w.sig s).remote = remote s := fun s => by rw [← i.g.hr]; rfl
  refine ⟨k.sens, fun a => ?_⟩
  rw [k.serve, k.offer]
  refine and_congr_right fun hav => ?_
  constructor
  · rintro ⟨j, hj, rfl, hc⟩
    have hk := k.key j hj
    refine ⟨j.sig, i.g.hn ▸ hk.1, ?_, ?_⟩
    · rw [hrem]
      rcases hk.2 with h | h
      · exact h.2
      · rw [h.2]; exact ends_refl _
    · rw [i.needed, ← i.g.count t j.sig ha, k.count_eq hj]; exact hc
  · rintro ⟨s, hs, he, hn⟩
    rw [i.g.hn] at hs
    rw [hrem] at he
    rw [i.needed, ← i.g.count t s ha] at hn
    have hhas : (w.src t).has s := by
      by_cases h : (w.src t).has s
      · exact h
      · rw [count_none h] at hn; omega
    obtain ⟨j, hj, rfl⟩ := hhas
    refine ⟨j, hj, D.key_unique k.avail hs (k.key j hj).2 (.inl ⟨hav, he⟩), ?_⟩
    rw [k.count_eq hj] at hn; exact hn

end Verif.Mirror
