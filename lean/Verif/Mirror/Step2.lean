import Verif.Mirror.Step

/-! # Signals added, removed and destroyed sources -/

namespace Verif.Mirror
open Verif.Component (Str idEndsWith)
open Spec

variable {n : Nat} {remote : Nat → Str} {P : Str → Prop}

theorem dom_eq {w w' : W} (h1 : ∀ u, (w'.sig u).domain = (w.sig u).domain) (h2 : ∀ u, (w'.sig u).removed = (w.sig u).removed) :
    w'.dom = w.dom := by
  funext u
  unfold W.dom
  rw [h1]
  cases (w.sig u).domain with
  | none => rfl
  | some d => simp only [h2]

/-! ## Replacing a source -/

theorem want_setSrc {w : W} {t : Nat} {s' : Src} (h : s'.alive = (w.src t).alive) : (w.setSrc t s').want = w.want := by
  funext u
  refine want_congr_sig rfl rfl rfl fun x => ?_
  rw [src_setSrc]
  split
  · next e => rw [h, e]
  · rfl

/-- One source is replaced by one with the same counts. -/
theorem InvG.swap {w : W} {want : Nat → Option Nat} (g : InvG n remote P w want) {t : Nat} {s' : Src}
    (hal : s'.alive = (w.src t).alive) (hsk : s'.skipDomain = (w.src t).skipDomain)
    (hk : (w.src t).alive = true → K n remote P s' ∧ s'.avail.Nodup ∧ ∀ u, s'.count u = (w.src t).count u)
    (hw : ∀ v, want v = some t → s'.has v ∧ ∀ d, w.dom v = some d → (w.src t).skipDomain = false → s'.has d) :
    InvG n remote P (w.setSrc t s') want := by
  refine ⟨g.hn, g.hr, ?_, ?_, ?_, ?_, g.dom⟩
  · intro x hx
    rw [src_setSrc] at hx ⊢
    split
    · next e => rw [if_pos e, hal] at hx; exact (hk hx).1
    · next e => rw [if_neg e] at hx; exact g.k x hx
  · intro x hx
    rw [src_setSrc] at hx ⊢
    split
    · next e => rw [if_pos e, hal] at hx; exact (hk hx).2.1
    · next e => rw [if_neg e] at hx; exact g.nd x hx
  · intro v x h
    have := g.wt v x h
    rw [src_setSrc]
    split
    · next e =>
      subst e
      refine ⟨this.1, hal.trans this.2.1, (hw v h).1, ?_⟩
      intro d h1 h2
      exact (hw v h).2 d h1 (hsk ▸ h2)
    · exact this
  · intro x s hx
    show _ = due n _ want w.dom x s
    rw [src_setSrc] at hx ⊢
    split
    · next e =>
      subst e
      rw [if_pos rfl, hal] at hx
      rw [(hk hx).2.2, hsk]
      exact g.count x s hx
    · next e => rw [if_neg e] at hx; exact g.count x s hx

/-- A list that is being cleared of a source says nothing about that source. -/
theorem Lists.setSrc {w : W} {t : Nat} (i : Lists n (some t) w) (s' : Src) : Lists n (some t) (w.setSrc t s') := by
  refine ⟨?_, ?_, i.act, i.nd, i.rem, i.lis⟩
  · intro s x h
    have := i.src s x h
    rw [src_setSrc]
    split
    · next e => exact ⟨this.1, .inl (by rw [e])⟩
    · exact this
  · intro x s h1 h2 h3
    have : x ≠ t := fun e => h1 (by rw [e])
    rw [src_setSrc, if_neg this] at h2 h3
    exact i.back x s h1 h2 h3

/-- The source is off the lists, or on those of its signals. -/
theorem Lists.close {w : W} {t : Nat} (i : Lists n (some t) w)
    (h1 : ∀ s, t ∈ (w.sig s).sources → (w.src t).alive = true ∧ (w.src t).has s)
    (h2 : ∀ s, (w.src t).alive = true → (w.src t).has s → t ∈ (w.sig s).sources) : Lists n none w := by
  refine ⟨?_, ?_, i.act, i.nd, i.rem, i.lis⟩
  · intro s x h
    refine ⟨(i.src s x h).1, .inr ?_⟩
    rcases (i.src s x h).2 with e | e
    · cases e; exact h1 s h
    · exact e
  · intro x s _ ha hh
    by_cases e : x = t
    · subst e; exact h2 s ha hh
    · exact i.back x s (by simpa using e) ha hh

/-- A source is replaced by one that has the same signals. -/
theorem Inv.same' {w : W} (i : Inv n remote P none w) {t : Nat} {s' : Src} (hh : ∀ u, s'.has u ↔ (w.src t).has u)
    (hc : ∀ u, s'.count u = (w.src t).count u) (hsk : s'.skipDomain = (w.src t).skipDomain) (hal : s'.alive = (w.src t).alive)
    (hk : (w.src t).alive = true → K n remote P s' ∧ s'.avail.Nodup) : Inv n remote P none (w.setSrc t s') := by
  refine ⟨Lists.close (Lists.setSrc (Inv.weaken i).toLists s') ?_ ?_, ?_⟩
  · intro s hs
    rw [src_setSrc, if_pos rfl, hal, hh]
    rcases (i.src s t hs).2 with e | e
    · cases e
    · exact e
  · intro s h1 h2
    rw [src_setSrc, if_pos rfl] at h1 h2
    rw [hal] at h1
    rw [hh] at h2
    exact i.back t s (by simp) h1 h2
  · rw [want_setSrc hal]
    refine i.g.swap hal hsk (fun ha => ⟨(hk ha).1, (hk ha).2, hc⟩) fun v hv => ?_
    have := i.g.wt v t hv
    exact ⟨(hh v).mpr this.2.2.1, fun d h1 h2 => (hh d).mpr (this.2.2.2 d h1 h2)⟩

theorem Inv.same {w : W} (i : Inv n remote P none w) {t : Nat} {s' : Src} (h : Same (w.src t) s')
    (hk : (w.src t).alive = true → K n remote P s' ∧ s'.avail.Nodup) : Inv n remote P none (w.setSrc t s') :=
  i.same' h.has h.count h.skip h.alive hk

/-! ## A source is taken off the list of a signal -/

structure Taken (w w' : W) (v t : Nat) : Prop where
  other : ∀ u, u ≠ v → w'.sig u = w.sig u
  sources : (w'.sig v).sources = (w.sig v).sources.erase t
  dom : w'.dom = w.dom
  alive : ∀ y, (w'.src y).alive = (w.src y).alive
  skip : ∀ y, (w'.src y).skipDomain = (w.src y).skipDomain
  has : ∀ y u, (w'.src y).has u ↔ (w.src y).has u
  want : ∀ u y, w'.want u = some y → w.want u = some y

theorem taken {w w' : W} {x : Option Nat} {v t : Nat} (i : Inv n remote P x w) (hx : x = none ∨ x = some t) (a : Option Nat)
    (ha : a = none ∨ (a = (w.sig v).active ∧ a ≠ some t))
    (hs : ∀ u, w'.sig u = if u = v then { w.sig v with sources := (w.sig v).sources.erase t, active := a } else w.sig u)
    (hal : ∀ y, (w'.src y).alive = (w.src y).alive) (hsk : ∀ y, (w'.src y).skipDomain = (w.src y).skipDomain)
    (hh : ∀ y u, (w'.src y).has u ↔ (w.src y).has u) (g : InvG n remote P w' w'.want) :
    Inv n remote P (some t) w' ∧ Taken w w' v t := by
  have hv := hs v
  rw [if_pos rfl] at hv
  have hu : ∀ u, u ≠ v → w'.sig u = w.sig u := fun u h => by rw [hs, if_neg h]
  refine ⟨⟨⟨?_, ?_, ?_, ?_, ?_, ?_⟩, g⟩, ⟨hu, by rw [hv], ?_, hal, hsk, hh, ?_⟩⟩
  · intro s y h
    have hm : y ∈ (w.sig s).sources := by
      by_cases e : s = v
      · subst e; rw [hv] at h; exact List.mem_of_mem_erase h
      · rw [hu s e] at h; exact h
    have := i.src s y hm
    rw [hal, hh]
    refine ⟨this.1, ?_⟩
    rcases this.2 with e | e
    · rcases hx with rfl | rfl
      · cases e
      · exact .inl e
    · exact .inr e
  · intro y s h1 h2 h3
    rw [hal] at h2
    rw [hh] at h3
    have hyt : y ≠ t := fun e => h1 (by rw [e])
    have hm := i.back y s (by rcases hx with rfl | rfl; simp; exact h1) h2 h3
    by_cases e : s = v
    · subst e; rw [hv]; exact (List.mem_erase_of_ne hyt).mpr hm
    · rw [hu s e]; exact hm
  · intro s y h
    by_cases e : s = v
    · subst e
      rw [hv] at h ⊢
      rcases ha with rfl | ⟨ha, hne⟩
      · cases h
      · have h' : a = some y := h
        have hyt : y ≠ t := fun e => hne (by rw [h', e])
        exact (List.mem_erase_of_ne hyt).mpr (i.act s y (ha ▸ h'))
    · rw [hu s e] at h ⊢; exact i.act s y h
  · intro s
    by_cases e : s = v
    · subst e; rw [hv]; exact (i.nd s).erase t
    · rw [hu s e]; exact i.nd s
  · intro s h
    by_cases e : s = v
    · subst e
      rw [hv] at h ⊢
      have := i.rem s h
      exact ⟨by show (w.sig s).sources.erase t = []; rw [this.1]; rfl, this.2⟩
    · rw [hu s e] at h ⊢; exact i.rem s h
  · intro s h
    by_cases e : s = v
    · subst e; rw [hv] at h ⊢; exact i.lis s h
    · rw [hu s e] at h ⊢; exact i.lis s h
  · refine dom_eq ?_ ?_ <;> intro u <;> by_cases e : u = v
    · subst e; rw [hv]
    · rw [hu u e]
    · subst e; rw [hv]
    · rw [hu u e]
  · intro u y h
    rw [want_some] at h ⊢
    rw [hal] at h
    by_cases e : u = v
    · subst e
      rw [hv] at h
      rcases ha with rfl | ⟨ha, hne⟩
      · exact absurd h.2.2.1 (by simp)
      · exact ⟨h.1, h.2.1, ha ▸ h.2.2.1, h.2.2.2⟩
    · rw [hu u e] at h; exact h

theorem removeSource_ok (D : Dist n remote P) {w : W} {x : Option Nat} {v t : Nat} (i : Inv n remote P x w) (hx : x = none ∨ x = some t)
    (hm : t ∈ (w.sig v).sources) :
    ∃ w', w.removeSource v t = (w', .ok) ∧ Inv n remote P (some t) w' ∧ Taken w w' v t := by
  unfold W.removeSource
  rw [if_pos (by simpa using hm)]
  simp only []
  generalize hy : ({ w.sig v with sources := (w.sig v).sources.erase t } : Sig) = y
  have g1 : InvG n remote P (w.setSig v y) (w.setSig v y).want := by
    subst hy
    exact i.g.setSig v _ rfl rfl rfl (want_setSig_eq rfl rfl rfl)
  have hyv : (w.setSig v y).sig v = y := by rw [sig_setSig, if_pos rfl]
  rw [hyv]
  have hya : y.active = (w.sig v).active := by rw [← hy]
  cases ha : (w.sig v).active with
  | none =>
    rw [hya, ha]
    refine ⟨_, rfl, ?_⟩
    refine taken i hx none (.inl rfl) ?_ (fun _ => rfl) (fun _ => rfl) (fun _ _ => .rfl) g1
    intro u
    rw [sig_setSig, ← hy, ← ha]
  | some q =>
    rw [hya, ha]
    simp only []
    have hset : ∀ (w' : W), w'.sig = (w.setSig v y).sig → ∀ u, (w'.setSig v { w'.sig v with active := none }).sig u =
        if u = v then { w.sig v with sources := (w.sig v).sources.erase t, active := none } else w.sig u := by
      intro w' e u
      rw [sig_setSig]
      split
      · rw [e, hyv, ← hy]
      · next h => rw [e, sig_setSig, if_neg h]
    by_cases hdead : ((w.setSig v y).src q).alive = false
    · rw [if_pos hdead]
      refine ⟨_, rfl, ?_⟩
      have hs1 := hset (w.setSig v y) rfl
      rw [hyv] at hs1
      refine taken i hx none (.inl rfl) hs1 (fun _ => rfl) (fun _ => rfl) (fun _ _ => .rfl) ?_
      refine g1.setSig v _ (by rw [hyv]) (by rw [hyv]) (by rw [hyv]) fun u => ?_
      by_cases e : u = v
      · subst e
        have h1 : (w.setSig u y).want u = none := by
          cases h : (w.setSig u y).want u with
          | none => rfl
          | some z =>
            rw [want_some, hyv, hya, ha] at h
            cases h.2.2.1
            rw [h.2.2.2] at hdead; cases hdead
        rw [h1]
        cases h : ((w.setSig u y).setSig u { y with active := none }).want u with
        | none => rfl
        | some z =>
          rw [want_some, sig_setSig, if_pos rfl] at h
          cases h.2.2.1
      · exact want_setSig_ne e
    · rw [if_neg hdead]
      by_cases hq : q = t
      · rw [if_pos hq]
        obtain ⟨w', r, e, hr, g', f⟩ := stop_ok D g1 v
        rw [e]
        simp only [hr, Bool.false_eq_true, if_false]
        refine ⟨_, rfl, ?_⟩
        refine taken i hx none (.inl rfl) (hset w' f.sig) (fun y => f.alive y) (fun y => f.skip y) (fun y u => f.has y u) ?_
        exact (give_up f g').2
      · rw [if_neg hq]
        refine ⟨_, rfl, ?_⟩
        refine taken i hx (some q) (.inr ⟨ha.symm, by simpa using hq⟩) ?_ (fun _ => rfl) (fun _ => rfl) (fun _ _ => .rfl) g1
        intro u
        rw [sig_setSig, ← hy, ← ha]

/-! ## Adding signals -/

theorem addSignals_ok (D : Dist n remote P) {t : Nat} : ∀ (vs : List Nat) (w : W), Inv n remote P none w → (w.src t).alive = true →
    (∀ v ∈ vs, v < n ∧ (w.sig v).removed = false) → Inv n remote P none (w.addSignals t vs).1 := by
  intro vs
  induction vs with
  | nil => intro w i _ _; exact i
  | cons v vs ih =>
    intro w i ha hv
    unfold W.addSignals
    by_cases hp : (w.sig v).pub = true
    · rw [if_pos hp]
      have hvn := hv v (by simp)
      have k := i.g.k t ha
      have hrem : w.remote v = remote v := by rw [i.g.hr]
      simp only []
      cases hf : (w.src t).find ((w.src t).key (w.remote v)) with
      | some j => exact i
      | none =>
        simp only []
        have hnot : ¬ (w.src t).has v := by
          intro hh
          obtain ⟨j, _, _, _, h4⟩ := k.find_some D hvn.1 hh
          rw [← hrem, hf] at h4
          cases h4
        obtain ⟨k', hh', hc'⟩ := add_ok D k hvn.1 hnot
        rw [hrem]
        have hnc : t ∉ (w.sig v).sources := by
          intro hm
          rcases (i.src v t hm).2 with e | e
          · cases e
          · exact hnot e.2
        generalize hs' : ({ w.src t with items := (w.src t).items ++ [⟨(w.src t).key (remote v), 0, v⟩] } : Src) = s' at *
        have hal : s'.alive = (w.src t).alive := by rw [← hs']
        have hsk : s'.skipDomain = (w.src t).skipDomain := by rw [← hs']
        have hav : s'.avail = (w.src t).avail := by rw [← hs']
        have hadd : (w.setSrc t s').addSource v t =
            ((w.setSrc t s').setSig v { w.sig v with sources := (w.sig v).sources ++ [t] }, .ok) := by
          unfold W.addSource
          rw [sig_setSrc]
          exact if_neg (by simpa using hnc)
        rw [hadd]
        simp only [R.failed, Bool.false_eq_true, if_false]
        refine ih _ ?_ ?_ ?_
        · refine ⟨?_, ?_⟩
          · refine Lists.close (t := t) (Lists.setSig (Lists.setSrc (Inv.weaken i).toLists s') v _ ?_ ?_ ?_ ?_ ?_ ?_) ?_ ?_
            · intro x hx
              refine ⟨hvn.1, ?_⟩
              rcases List.mem_append.mp hx with h | h
              · rcases (i.src v x h).2 with e | e
                · cases e
                · by_cases hxt : x = t
                  · exact .inl (by rw [hxt])
                  · right; rw [src_setSrc, if_neg hxt]; exact e
              · exact .inl (by rw [List.mem_singleton.mp h])
            · intro x h1 h2 h3
              have hxt : x ≠ t := fun e => h1 (by rw [e])
              rw [src_setSrc, if_neg hxt] at h2 h3
              exact List.mem_append_left _ (i.back x v (by simp) h2 h3)
            · intro x h; exact List.mem_append_left _ (i.act v x h)
            · show ((w.sig v).sources ++ [t]).Nodup
              rw [List.nodup_append]
              exact ⟨i.nd v, by simp, by intro a h b hb; rw [List.mem_singleton.mp hb]; exact fun e => hnc (e ▸ h)⟩
            · intro h
              have : (w.sig v).removed = true := h
              rw [hvn.2] at this; cases this
            · exact i.lis v
            · intro s h
              rw [src_setSig, src_setSrc, if_pos rfl, hal, hh']
              refine ⟨ha, ?_⟩
              rw [sig_setSig] at h
              split at h
              · next e => exact .inr e
              · rcases (i.src s t h).2 with e | e
                · cases e
                · exact .inl e.2
            · intro s _ h
              rw [src_setSig, src_setSrc, if_pos rfl, hh'] at h
              rw [sig_setSig]
              split
              · exact List.mem_append_right _ (by simp)
              · next e =>
                rcases h with h | h
                · exact i.back t s (by simp) ha h
                · exact absurd h e
          · refine InvG.setSig (w := w.setSrc t s') (want := w.want) ?_ v _ rfl rfl rfl ?_
            · refine i.g.swap hal hsk (fun _ => ⟨k', hav ▸ i.g.nd t ha, hc'⟩) fun u hu => ?_
              have := i.g.wt u t hu
              exact ⟨(hh' u).mpr (.inl this.2.2.1), fun d h1 h2 => (hh' d).mpr (.inl (this.2.2.2 d h1 h2))⟩
            · intro u
              rw [← want_setSrc (w := w) (t := t) hal]
              exact want_setSig_eq (w := w.setSrc t s') (by rfl) (by rfl) (by rfl) u
        · rw [src_setSig, src_setSrc, if_pos rfl, hal]; exact ha
        · intro u hu
          refine ⟨(hv u (by simp [hu])).1, ?_⟩
          rw [sig_setSig]
          split
          · exact hvn.2
          · exact (hv u (by simp [hu])).2
    · rw [if_neg hp]
      exact ih w i ha fun u hu => hv u (by simp [hu])

/-! ## Removing signals from a source -/

theorem due_zero {skip : Bool} {want dom : Nat → Option Nat} {t s : Nat}
    (h : ∀ u, want u = some t → u ≠ s ∧ dom u ≠ some s) : due n skip want dom t s = 0 := by
  rcases Nat.eq_zero_or_pos (due n skip want dom t s) with e | e
  · exact e
  · obtain ⟨u, _, h1, h2⟩ := due_pos.mp e
    have := h u h1
    rcases h2 with h2 | h2
    · exact absurd h2 this.1
    · exact absurd h2.2 this.2

theorem removeSignals_ok (D : Dist n remote P) {t : Nat} : ∀ (vs : List Nat) (w : W), Inv n remote P none w → (w.src t).alive = true →
    (∀ v ∈ vs, v < n ∧ ∀ u, w.want u = some t → w.dom u ≠ some v) → Inv n remote P none (w.removeSignals t vs).1 := by
  intro vs
  induction vs with
  | nil => intro w i _ _; exact i
  | cons v vs ih =>
    intro w i ha hv
    unfold W.removeSignals
    by_cases hm : t ∈ (w.sig v).sources
    · obtain ⟨w1, e, i1, T⟩ := removeSource_ok D i (.inl rfl) hm
      rw [e]
      simp only [R.failed, Bool.false_eq_true, if_false]
      have ha1 : (w1.src t).alive = true := (T.alive t).trans ha
      have k := i1.g.k t ha1
      have hvn := hv v (by simp)
      have hrem : w1.remote v = remote v := by rw [i1.g.hr]
      have hhas : (w1.src t).has v := by
        rw [T.has]
        rcases (i.src v t hm).2 with e | e
        · cases e
        · exact e.2
      have hnw : w1.want v ≠ some t := by
        intro h
        have := i1.act v t (want_some.mp h).2.2.1
        rw [T.sources] at this
        exact ((i.nd v).mem_erase_iff.mp this).1 rfl
      obtain ⟨j, hj, _, _, hf⟩ := k.find_some D hvn.1 hhas
      rw [hrem, hf]
      simp only []
      have hjk : j.key = (w1.src t).key (remote v) := by
        have := List.find?_some hf
        simpa using this
      rw [hjk]
      have h0 : (w1.src t).count v = 0 := by
        rw [i1.g.count t v ha1]
        refine due_zero fun u hu => ⟨fun e => hnw (e ▸ hu), ?_⟩
        rw [T.dom]
        exact hvn.2 u (T.want u t hu)
      obtain ⟨k', hh', hc'⟩ := erase_ok D k hvn.1 h0
      generalize hs' : (w1.src t).erase ((w1.src t).key (remote v)) = s' at *
      have hal : s'.alive = (w1.src t).alive := by rw [← hs']; rfl
      have hsk : s'.skipDomain = (w1.src t).skipDomain := by rw [← hs']; rfl
      have hav : s'.avail = (w1.src t).avail := by rw [← hs']; rfl
      refine ih _ ?_ ?_ ?_
      · refine ⟨Lists.close (i1.toLists.setSrc s') ?_ ?_, ?_⟩
        · intro s h
          rw [src_setSrc, if_pos rfl, hal, hh', T.has]
          rw [sig_setSrc] at h
          have hsv : s ≠ v := by
            intro e
            rw [e, T.sources] at h
            exact ((i.nd v).mem_erase_iff.mp h).1 rfl
          rw [T.other s hsv] at h
          refine ⟨ha1, ?_, hsv⟩
          rcases (i.src s t h).2 with e | e
          · cases e
          · exact e.2
        · intro s _ h
          rw [src_setSrc, if_pos rfl, hh', T.has] at h
          rw [sig_setSrc, T.other s h.2]
          exact i.back t s (by simp) ha h.1
        · rw [want_setSrc hal]
          refine i1.g.swap hal hsk (fun _ => ⟨k', hav ▸ i1.g.nd t ha1, hc'⟩) fun u hu => ?_
          have := i1.g.wt u t hu
          refine ⟨(hh' u).mpr ⟨this.2.2.1, fun e => hnw (e ▸ hu)⟩, fun d h1 h2 => (hh' d).mpr ⟨this.2.2.2 d h1 h2, ?_⟩⟩
          intro e
          rw [T.dom, e] at h1
          exact hvn.2 u (T.want u t hu) h1
      · rw [src_setSrc, if_pos rfl, hal]; exact ha1
      · intro u hu
        refine ⟨(hv u (by simp [hu])).1, fun z hz => ?_⟩
        rw [want_setSrc hal] at hz
        rw [dom_congr (sig_setSrc _ _ _), T.dom]
        exact (hv u (by simp [hu])).2 z (T.want z t hz)
    · have : w.removeSource v t = (w, .notFound) := by
        unfold W.removeSource
        rw [if_neg (by simpa using hm)]
      rw [this]
      exact i

/-! ## A source gives up all its signals -/

structure TakenAll (w w' : W) (l : List Nat) (t : Nat) : Prop where
  sources : ∀ u, t ∈ (w'.sig u).sources ↔ t ∈ (w.sig u).sources ∧ u ∉ l
  dom : w'.dom = w.dom
  alive : ∀ y, (w'.src y).alive = (w.src y).alive
  skip : ∀ y, (w'.src y).skipDomain = (w.src y).skipDomain
  has : ∀ y u, (w'.src y).has u ↔ (w.src y).has u

theorem removeFromAll_ok (D : Dist n remote P) {t : Nat} : ∀ (l : List Nat) (w : W) (x : Option Nat), Inv n remote P x w → (x = none ∨ x = some t) →
    l.Nodup → (∀ v ∈ l, t ∈ (w.sig v).sources) →
    ∃ w', w.removeFromAll t l = (w', .ok) ∧ Inv n remote P (if l = [] then x else some t) w' ∧ TakenAll w w' l t := by
  intro l
  induction l with
  | nil =>
    intro w x i _ _ _
    exact ⟨w, rfl, i, ⟨by simp, rfl, fun _ => rfl, fun _ => rfl, fun _ _ => .rfl⟩⟩
  | cons v l ih =>
    intro w x i hx hn hm
    rw [List.nodup_cons] at hn
    obtain ⟨w1, e, i1, T⟩ := removeSource_ok D i hx (hm v (by simp))
    unfold W.removeFromAll
    rw [e]
    simp only [R.failed, Bool.false_eq_true, if_false]
    obtain ⟨w', e', i', T'⟩ := ih w1 (some t) i1 (.inr rfl) hn.2 fun u hu => by
      have : u ≠ v := fun e => hn.1 (e ▸ hu)
      rw [T.other u this]
      exact hm u (by simp [hu])
    refine ⟨w', by simpa using e', ?_, ?_⟩
    · simpa using i'
    · refine ⟨?_, T'.dom.trans T.dom, fun y => (T'.alive y).trans (T.alive y), fun y => (T'.skip y).trans (T.skip y),
        fun y u => (T'.has y u).trans (T.has y u)⟩
      intro u
      rw [T'.sources]
      by_cases huv : u = v
      · subst huv
        rw [T.sources, (i.nd u).mem_erase_iff]
        simp
      · rw [T.other u huv]
        simp [huv]

theorem clear_ok {s : Src} (k : K n remote P s) (h : ∀ v, s.count v = 0) : K n remote P { s with items := [] } := by
  refine ⟨by simp, by simp, k.avail, k.deny, k.offer, ?_, k.sens⟩
  intro a
  constructor
  · intro ha
    obtain ⟨_, i, hi, _, hc⟩ := (k.serve a).mp ha
    have := h i.sig
    rw [k.count_eq hi] at this
    omega
  · rintro ⟨_, i, hi, _⟩
    cases hi

theorem not_has_nil {s : Src} (h : s.items = []) (u : Nat) : ¬ s.has u := by
  rintro ⟨i, hi, _⟩
  rw [h] at hi
  cases hi

theorem removeAll_ok (D : Dist n remote P) {t : Nat} {w : W} (i : Inv n remote P none w) (ha : (w.src t).alive = true) :
    Inv n remote P none (w.removeAll t).1 ∧ (w.removeAll t).2 = .ok := by
  have k0 := i.g.k t ha
  obtain ⟨w', e, i', T⟩ := removeFromAll_ok D _ w none i (.inl rfl) k0.nodup (fun v hv => by
    obtain ⟨j, hj, rfl⟩ := List.mem_map.mp hv
    exact i.back t j.sig (by simp) ha ⟨j, hj, rfl⟩)
  have i2 : Inv n remote P (some t) w' := by
    split at i'
    · exact Inv.weaken i'
    · exact i'
  have hnot : ∀ u, t ∉ (w'.sig u).sources := by
    intro u hu
    have := (T.sources u).mp hu
    rcases (i.src u t this.1).2 with e | e
    · cases e
    · obtain ⟨j, hj, rfl⟩ := e.2
      exact this.2 (List.mem_map.mpr ⟨j, hj, rfl⟩)
  have hnw : ∀ u, w'.want u ≠ some t := fun u h => hnot u (i2.act u t (want_some.mp h).2.2.1)
  have ha' : (w'.src t).alive = true := (T.alive t).trans ha
  have hc : ∀ v, (w'.src t).count v = 0 := by
    intro v
    rw [i2.g.count t v ha']
    exact due_zero fun u hu => absurd hu (hnw u)
  unfold W.removeAll
  rw [e]
  simp only [R.failed, Bool.false_eq_true, if_false]
  refine ⟨?_, by simp⟩
  show Inv n remote P none (w'.setSrc t { w'.src t with items := [] })
  refine ⟨Lists.close (i2.toLists.setSrc _) ?_ ?_, ?_⟩
  · intro s h; exact absurd h (hnot s)
  · intro s _ h
    rw [src_setSrc, if_pos rfl] at h
    exact absurd h (not_has_nil rfl s)
  · rw [want_setSrc (by rfl)]
    refine i2.g.swap (by rfl) (by rfl) (fun _ => ⟨clear_ok (i2.g.k t ha') hc, i2.g.nd t ha', fun u => ?_⟩) fun u hu => absurd hu (hnw u)
    rw [hc, count_none (not_has_nil rfl u)]

/-- A source that dies, before it is taken off the lists. -/
theorem destroy_start {t : Nat} {w : W} (i : Inv n remote P none w) :
    Inv n remote P (some t) (w.setSrc t { w.src t with alive := false }) := by
  generalize hs : ({ w.src t with alive := false } : Src) = s'
  have hw1 : ∀ u y, (w.setSrc t s').want u = some y ↔ w.want u = some y ∧ y ≠ t := by
    intro u y
    rw [want_some, want_some, src_setSrc, sig_setSrc]
    split
    · next e =>
      subst e; rw [← hs]; simp
    · next e => simp [e]
  show Inv n remote P (some t) (w.setSrc t s')
  refine ⟨(Inv.weaken i).toLists.setSrc s', ⟨i.g.hn, i.g.hr, ?_, ?_, ?_, ?_, i.g.dom⟩⟩
  · intro x hx
    rw [src_setSrc] at hx ⊢
    split
    · next e => rw [if_pos e, ← hs] at hx; cases hx
    · next e => rw [if_neg e] at hx; exact i.g.k x hx
  · intro x hx
    rw [src_setSrc] at hx ⊢
    split
    · next e => rw [if_pos e, ← hs] at hx; cases hx
    · next e => rw [if_neg e] at hx; exact i.g.nd x hx
  · intro v x h
    rw [hw1] at h
    rw [src_setSrc, if_neg h.2]
    exact i.g.wt v x h.1
  · intro x s hx
    rw [src_setSrc] at hx ⊢
    split
    · next e => rw [if_pos e, ← hs] at hx; cases hx
    · next e =>
      rw [if_neg e] at hx
      rw [i.g.count x s hx]
      refine due_congr fun u _ => ?_
      unfold counts
      have : (w.want u == some x) = ((w.setSrc t s').want u == some x) := by
        have := hw1 u x
        rw [Bool.eq_iff_iff, beq_iff_eq, beq_iff_eq, this]
        simp [e]
      rw [this]
      rfl

theorem destroy_ok (D : Dist n remote P) {t : Nat} {w : W} (i : Inv n remote P none w) (ha : (w.src t).alive = true) :
    Inv n remote P none (w.destroy t).1 := by
  have k0 := i.g.k t ha
  unfold W.destroy
  simp only []
  have i1 : Inv n remote P (some t) (w.setSrc t { w.src t with alive := false }) := destroy_start i
  generalize hs : ({ w.src t with alive := false } : Src) = s' at *
  have hit : ((w.setSrc t s').src t).items = (w.src t).items := by rw [src_setSrc, if_pos rfl, ← hs]
  rw [hit]
  obtain ⟨w', e, i', T⟩ := removeFromAll_ok D _ (w.setSrc t s') (some t) i1 (.inr rfl) k0.nodup (fun v hv => by
    obtain ⟨j, hj, rfl⟩ := List.mem_map.mp hv
    exact i.back t j.sig (by simp) ha ⟨j, hj, rfl⟩)
  have i2 : Inv n remote P (some t) w' := by
    split at i'
    · exact i'
    · exact i'
  rw [e]
  show Inv n remote P none (w'.setSrc t { w'.src t with items := [] })
  have hnot : ∀ u, t ∉ (w'.sig u).sources := by
    intro u hu
    have := (T.sources u).mp hu
    rcases (i.src u t this.1).2 with e | e
    · cases e
    · obtain ⟨j, hj, rfl⟩ := e.2
      exact this.2 (List.mem_map.mpr ⟨j, hj, rfl⟩)
  have hdead : (w'.src t).alive = false := by
    rw [T.alive, src_setSrc, if_pos rfl, ← hs]
  refine ⟨Lists.close (i2.toLists.setSrc _) ?_ ?_, ?_⟩
  · intro s h; exact absurd h (hnot s)
  · intro s h _
    rw [src_setSrc, if_pos rfl] at h
    rw [show ({ w'.src t with items := [] } : Src).alive = (w'.src t).alive from rfl, hdead] at h
    cases h
  · rw [want_setSrc (by rfl)]
    refine i2.g.swap (by rfl) (by rfl) (fun h => by rw [hdead] at h; cases h) fun u hu => ?_
    exact absurd (i2.act u t (want_some.mp hu).2.2.1) (hnot u)

theorem destroy_rest (D : Dist n remote P) {t : Nat} {w : W} (i : Inv n remote P none w) (ha : (w.src t).alive = true) :
    ∃ w', (w.setSrc t { w.src t with alive := false }).removeFromAll t ((w.src t).items.map (·.sig)) = (w', .ok) ∧
      TakenAll (w.setSrc t { w.src t with alive := false }) w' ((w.src t).items.map (·.sig)) t := by
  obtain ⟨w', e, _, T⟩ := removeFromAll_ok D _ (w.setSrc t { w.src t with alive := false }) (some t) (destroy_start i) (.inr rfl)
    (i.g.k t ha).nodup (fun v hv => by
      obtain ⟨j, hj, rfl⟩ := List.mem_map.mp hv
      exact i.back t j.sig (by simp) ha ⟨j, hj, rfl⟩)
  exact ⟨w', e, T⟩

/-! ## A signal is removed -/

theorem detachAll_ok (D : Dist n remote P) {v : Nat} (hv : v < n) : ∀ (l : List Nat) (w : W), InvG n remote P w w.want →
    (w.sig v).removed = true → w.want v = none →
    InvG n remote P (w.detachAll v l) (w.detachAll v l).want ∧ (w.detachAll v l).sig = w.sig ∧
    (∀ y, ((w.detachAll v l).src y).alive = (w.src y).alive) ∧
    ∀ y u, (w.src y).alive = true → (((w.detachAll v l).src y).has u ↔ (w.src y).has u ∧ ¬ (u = v ∧ y ∈ l)) := by
  intro l
  induction l with
  | nil => intro w g _ _; exact ⟨g, rfl, fun _ => rfl, fun _ _ _ => by show (w.src _).has _ ↔ _; simp⟩
  | cons t l ih =>
    intro w g hr hw
    unfold W.detachAll
    simp only []
    by_cases ha : (w.src t).alive = true
    · rw [if_pos ha]
      have k := g.k t ha
      have hrem : w.remote v = remote v := by rw [g.hr]
      rw [hrem]
      have h0 : (w.src t).count v = 0 := by
        rw [g.count t v ha]
        refine due_zero fun u hu => ⟨fun e => ?_, ?_⟩
        · rw [e, hw] at hu; cases hu
        · intro e
          have := ((w.dom_iff u v).mp e).2
          rw [hr] at this; cases this
      obtain ⟨k', hh', hc'⟩ := erase_ok D k hv h0
      generalize hs' : (w.src t).erase ((w.src t).key (remote v)) = s' at *
      have hal : s'.alive = (w.src t).alive := by rw [← hs']; rfl
      have hsk : s'.skipDomain = (w.src t).skipDomain := by rw [← hs']; rfl
      have hav : s'.avail = (w.src t).avail := by rw [← hs']; rfl
      have g1 : InvG n remote P (w.setSrc t s') (w.setSrc t s').want := by
        rw [want_setSrc hal]
        refine g.swap hal hsk (fun _ => ⟨k', hav ▸ g.nd t ha, hc'⟩) fun u hu => ?_
        have := g.wt u t hu
        refine ⟨(hh' u).mpr ⟨this.2.2.1, fun e => ?_⟩, fun d h1 h2 => (hh' d).mpr ⟨this.2.2.2 d h1 h2, fun e => ?_⟩⟩
        · rw [e, hw] at hu; cases hu
        · have := ((w.dom_iff u d).mp h1).2
          rw [e, hr] at this; cases this
      obtain ⟨h1, h2, h3, h4⟩ := ih (w.setSrc t s') g1 hr (by rw [want_setSrc hal]; exact hw)
      have hal' : ∀ y, ((w.setSrc t s').src y).alive = (w.src y).alive := by
        intro y; rw [src_setSrc]; split
        · next e => rw [hal, e]
        · rfl
      refine ⟨h1, h2, fun y => (h3 y).trans (hal' y), fun y u hy => ?_⟩
      rw [h4 y u ((hal' y).trans hy), src_setSrc]
      split
      · next e =>
        subst e
        rw [hh']
        simp only [List.mem_cons, true_or, and_true]
        constructor
        · rintro ⟨h, _⟩; exact h
        · rintro ⟨h1, h2⟩; exact ⟨⟨h1, h2⟩, fun h => h2 h.1⟩
      · next e => simp [e]
    · rw [if_neg ha]
      obtain ⟨h1, h2, h3, h4⟩ := ih w g hr hw
      refine ⟨h1, h2, h3, fun y u hy => ?_⟩
      have : y ≠ t := fun e => ha (e ▸ hy)
      rw [h4 y u hy]
      simp [this]

theorem remove_ok (D : Dist n remote P) {v : Nat} {w : W} (i : Inv n remote P none w) (hv : v < n) (hf : ∀ t, FreeDomain w t v) :
    Inv n remote P none (w.remove v).1 := by
  unfold W.remove
  by_cases hr : (w.sig v).removed = true
  · rw [if_pos hr]; exact i
  · rw [if_neg hr]
    simp only []
    generalize hy : ({ w.sig v with removed := true } : Sig) = y
    have hyv : (w.setSig v y).sig v = y := by rw [sig_setSig, if_pos rfl]
    have hw0 : ∀ u, (w.setSig v y).want u = w.want u := by
      rw [← hy]; exact want_setSig_eq rfl rfl rfl
    have g0 : InvG n remote P (w.setSig v y) (w.setSig v y).want := by
      refine i.g.congr rfl rfl ?_ ?_ ?_ hw0
      · intro u; rw [sig_setSig]; split
        · next e => rw [← hy, e]
        · rfl
      · intro u t hu
        have hdo : ((w.setSig v y).sig u).domain = (w.sig u).domain := by
          rw [sig_setSig]; split
          · next e => rw [← hy, e]
          · rfl
        have hfree := i.freeDomain (hf t) u hu
        unfold W.dom at hfree ⊢
        rw [hdo]
        cases hd : (w.sig u).domain with
        | none => rfl
        | some d =>
          rw [hd] at hfree
          simp only [] at hfree ⊢
          have : d ≠ v := by
            intro e
            subst e
            rw [if_neg hr] at hfree
            exact hfree rfl
          rw [sig_setSig, if_neg this]
      · intro u d hu h
        have : (w.sig u).domain = some d := by
          rw [sig_setSig] at h; split at h
          · next e => rw [← hy] at h; rw [e]; exact h
          · exact h
        exact i.g.dom u d hu this
    obtain ⟨w1, r, e, hrf, g1, f⟩ := stop_ok D g0 v
    rw [e]
    simp only []
    have hG := give_up f g1
    generalize hw2 : w1.setSig v { w1.sig v with active := none } = w2 at *
    have hs2v : w2.sig v = { y with active := none } := by rw [← hw2, sig_setSig, if_pos rfl, f.sig, hyv]
    have hs2u : ∀ u, u ≠ v → w2.sig u = w.sig u := by
      intro u hu
      rw [← hw2, sig_setSig, if_neg hu, f.sig, sig_setSig, if_neg hu]
    have hal2 : ∀ x, (w2.src x).alive = (w.src x).alive := by intro x; rw [← hw2, src_setSig, f.alive, src_setSig]
    have hh2 : ∀ x u, (w2.src x).has u ↔ (w.src x).has u := by intro x u; rw [← hw2, src_setSig, f.has, src_setSig]
    have hsrc2 : (w2.sig v).sources = (w.sig v).sources := by rw [hs2v, ← hy]
    obtain ⟨h1, h2, h3, h4⟩ := detachAll_ok D hv (w2.sig v).sources w2 hG.2 (by rw [hs2v, ← hy])
      (by rw [hG.1]; unfold upd; rw [if_pos rfl])
    rw [hsrc2] at h1 h2 h3 h4 ⊢
    generalize w2.detachAll v (w.sig v).sources = w3 at *
    have hs3u : ∀ u, u ≠ v → w3.sig u = w.sig u := fun u hu => by rw [h2, hs2u u hu]
    refine ⟨⟨?_, ?_, ?_, ?_, ?_, ?_⟩, ?_⟩
    · intro s t h
      rw [sig_setSig] at h
      split at h
      · cases h
      · next e =>
        rw [hs3u s e] at h
        have := i.src s t h
        refine ⟨this.1, .inr ?_⟩
        rcases this.2 with hx | hx
        · cases hx
        · rw [src_setSig, h3, hal2, h4 t s ((hal2 t).trans hx.1), hh2]
          exact ⟨hx.1, hx.2, fun h => e h.1⟩
    · intro t s _ ha hh
      rw [src_setSig] at ha hh
      rw [h3, hal2] at ha
      rw [h4 t s ((hal2 t).trans ha), hh2] at hh
      have hm := i.back t s (by simp) ha hh.1
      rw [sig_setSig]
      split
      · next e => subst e; exact absurd ⟨rfl, hm⟩ hh.2
      · next e => rw [hs3u s e]; exact hm
    · intro s t h
      rw [sig_setSig] at h ⊢
      split
      · next e =>
        rw [if_pos e] at h
        have : (w3.sig v).active = some t := h
        rw [h2, hs2v] at this
        cases this
      · next e =>
        rw [if_neg e, hs3u s e] at h
        rw [hs3u s e]; exact i.act s t h
    · intro s
      rw [sig_setSig]
      split
      · exact List.nodup_nil
      · next e => rw [hs3u s e]; exact i.nd s
    · intro s h
      rw [sig_setSig] at h ⊢
      split
      · exact ⟨rfl, rfl⟩
      · next e => rw [if_neg e, hs3u s e] at h; rw [hs3u s e]; exact i.rem s h
    · intro s h
      rw [sig_setSig] at h ⊢
      split
      · next e =>
        rw [if_pos e] at h
        have : (w3.sig v).removed = false := h
        rw [h2, hs2v, ← hy] at this
        cases this
      · next e => rw [if_neg e, hs3u s e] at h; rw [hs3u s e]; exact i.lis s h
    · exact h1.setSig v _ rfl rfl rfl (want_setSig_eq rfl rfl rfl)

end Verif.Mirror
