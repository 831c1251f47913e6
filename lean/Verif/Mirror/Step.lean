import Verif.Mirror.Inv

/-! # Every call that keeps the rules keeps the invariant -/

namespace Verif.Mirror
open Verif.Component (Str idEndsWith)
open Spec

variable {n : Nat} {remote : Nat → Str} {P : Str → Prop}

/-- The lists of sources, the active sources and the connections fit together. `x` is a source that is being taken
off the lists of the signals. -/
structure Lists (n : Nat) (x : Option Nat) (w : W) : Prop where
  src : ∀ s t, t ∈ (w.sig s).sources → s < n ∧ (some t = x ∨ ((w.src t).alive = true ∧ (w.src t).has s))
  back : ∀ t s, some t ≠ x → (w.src t).alive = true → (w.src t).has s → t ∈ (w.sig s).sources
  act : ∀ s t, (w.sig s).active = some t → t ∈ (w.sig s).sources
  nd : ∀ s, (w.sig s).sources.Nodup
  rem : ∀ s, (w.sig s).removed = true → (w.sig s).sources = [] ∧ (w.sig s).conns = 0
  lis : ∀ s, (w.sig s).removed = false → ((w.sig s).listened = true ↔ 0 < (w.sig s).conns)

/-- The invariant. -/
structure Inv (n : Nat) (remote : Nat → Str) (P : Str → Prop) (x : Option Nat) (w : W) : Prop extends Lists n x w where
  g : InvG n remote P w w.want

theorem Inv.weaken {w : W} {x : Option Nat} (i : Inv n remote P none w) : Inv n remote P x w :=
  ⟨⟨fun s t h => ⟨(i.src s t h).1, .inr (by rcases (i.src s t h).2 with h | h; cases h; exact h)⟩,
    fun t s _ => i.back t s (by simp), i.act, i.nd, i.rem, i.lis⟩, i.g⟩

theorem activeSrc_some {w : W} {v t : Nat} : w.activeSrc v = some t ↔ (w.sig v).active = some t ∧ (w.src t).alive = true := by
  unfold W.activeSrc
  cases h : (w.sig v).active with
  | none => simp
  | some u =>
    simp only []
    split
    · next hu =>
      constructor
      · intro e; cases e; exact ⟨rfl, hu⟩
      · rintro ⟨e, _⟩; exact e
    · next hu =>
      constructor
      · intro e; cases e
      · rintro ⟨e, h2⟩; cases e; exact absurd h2 hu

theorem want_some {w : W} {v t : Nat} :
    w.want v = some t ↔ (w.sig v).listened = true ∧ (w.sig v).streamed = true ∧ (w.sig v).active = some t ∧ (w.src t).alive = true := by
  unfold W.want
  by_cases h : ((w.sig v).listened && (w.sig v).streamed) = true
  · rw [if_pos h, activeSrc_some]
    rw [Bool.and_eq_true] at h
    simp [h]
  · rw [if_neg h]
    rw [Bool.and_eq_true] at h
    constructor
    · intro h; cases h
    · rintro ⟨h1, h2, _⟩; exact absurd ⟨h1, h2⟩ h

theorem want_congr_sig {w w' : W} {u : Nat} (h1 : (w'.sig u).listened = (w.sig u).listened) (h2 : (w'.sig u).streamed = (w.sig u).streamed)
    (h3 : (w'.sig u).active = (w.sig u).active) (h4 : ∀ t, (w'.src t).alive = (w.src t).alive) : w'.want u = w.want u := by
  unfold W.want W.activeSrc
  rw [h1, h2, h3]
  cases (w.sig u).active with
  | none => rfl
  | some t => simp only [h4]

theorem Frame.want {w w' : W} (f : Frame w w') : w'.want = w.want := by
  funext u
  exact want_congr_sig (by rw [f.sig]) (by rw [f.sig]) (by rw [f.sig]) f.alive

/-- Being in use, in terms of the invariant. -/
theorem Inv.inUse {w : W} (i : Inv n remote P none w) (t v : Nat) : InUse w t v ↔ w.want v = some t := by
  rw [want_some]
  constructor
  · rintro ⟨hv, hr, hc, hs, ha⟩
    rcases (i.src v t (i.act v t ha)).2 with h | h
    · cases h
    · exact ⟨(i.lis v hr).mpr hc, hs, ha, h.1⟩
  · rintro ⟨hl, hs, ha, _⟩
    have hm := i.act v t ha
    have hr : (w.sig v).removed = false := by
      cases h : (w.sig v).removed with
      | false => rfl
      | true => rw [(i.rem v h).1] at hm; cases hm
    exact ⟨i.g.hn ▸ (i.src v t hm).1, hr, (i.lis v hr).mp hl, hs, ha⟩

theorem Inv.freeDomain {w : W} (i : Inv n remote P none w) {t d : Nat} (h : FreeDomain w t d) (v : Nat) (hw : w.want v = some t) :
    w.dom v ≠ some d := fun e => h v ((i.inUse t v).mpr hw) ((w.dom_iff v d).mp e)

theorem Inv.domainIn {w : W} (i : Inv n remote P none w) {t v : Nat} (h : DomainIn w t v) (d : Nat) (hd : w.dom v = some d)
    (hs : (w.src t).skipDomain = false) : (w.src t).has d := by
  rcases h with h | h
  · rw [hs] at h; cases h
  · rcases (i.src d t (h d ((w.dom_iff v d).mp hd))).2 with h | h
    · cases h
    · exact h.2

/-! ## Replacing a signal -/

/-- A signal is replaced; what the lists ask of it is given. -/
theorem Lists.setSig {w : W} {x : Option Nat} (i : Lists n x w) (v : Nat) (y : Sig)
    (hsrc : ∀ t, t ∈ y.sources → v < n ∧ (some t = x ∨ ((w.src t).alive = true ∧ (w.src t).has v)))
    (hback : ∀ t, some t ≠ x → (w.src t).alive = true → (w.src t).has v → t ∈ y.sources)
    (hact : ∀ t, y.active = some t → t ∈ y.sources) (hnd : y.sources.Nodup)
    (hrem : y.removed = true → y.sources = [] ∧ y.conns = 0)
    (hlis : y.removed = false → (y.listened = true ↔ 0 < y.conns)) : Lists n x (w.setSig v y) := by
  refine ⟨?_, ?_, ?_, ?_, ?_, ?_⟩
  · intro s t h
    rw [sig_setSig] at h
    split at h
    · next e => subst e; exact hsrc t h
    · exact i.src s t h
  · intro t s h1 h2 h3
    rw [sig_setSig]
    split
    · next e => subst e; exact hback t h1 h2 h3
    · exact i.back t s h1 h2 h3
  · intro s t h
    rw [sig_setSig] at h ⊢
    split
    · next e => rw [if_pos e] at h; exact hact t h
    · next e => rw [if_neg e] at h; exact i.act s t h
  · intro s
    rw [sig_setSig]
    split
    · exact hnd
    · exact i.nd s
  · intro s h
    rw [sig_setSig] at h ⊢
    split
    · next e => rw [if_pos e] at h; exact hrem h
    · next e => rw [if_neg e] at h; exact i.rem s h
  · intro s h
    rw [sig_setSig] at h ⊢
    split
    · next e => rw [if_pos e] at h; exact hlis h
    · next e => rw [if_neg e] at h; exact i.lis s h

/-- Only the active source of a signal changes. -/
theorem Lists.setActive {w : W} {x : Option Nat} (i : Lists n x w) (v : Nat) (a : Option Nat)
    (h : ∀ t, a = some t → t ∈ (w.sig v).sources) : Lists n x (w.setSig v { w.sig v with active := a }) :=
  i.setSig v _ (i.src v) (fun t => i.back t v) h (i.nd v) (i.rem v) (i.lis v)

theorem want_setSig_ne {w : W} {v u : Nat} {y : Sig} (h : u ≠ v) : (w.setSig v y).want u = w.want u :=
  want_congr_sig (by rw [sig_setSig, if_neg h]) (by rw [sig_setSig, if_neg h]) (by rw [sig_setSig, if_neg h]) fun _ => rfl

theorem want_setSig_eq {w : W} {v : Nat} {y : Sig} (h1 : y.listened = (w.sig v).listened) (h2 : y.streamed = (w.sig v).streamed)
    (h3 : y.active = (w.sig v).active) (u : Nat) : (w.setSig v y).want u = w.want u := by
  by_cases h : u = v
  · subst h
    exact want_congr_sig (by rw [sig_setSig, if_pos rfl, h1]) (by rw [sig_setSig, if_pos rfl, h2]) (by rw [sig_setSig, if_pos rfl, h3])
      fun _ => rfl
  · exact want_setSig_ne h

/-- The lists of a state whose subscriptions changed. -/
theorem Lists.frame {w w' : W} {x : Option Nat} (i : Lists n x w) (f : Frame w w') : Lists n x w' := by
  refine ⟨?_, ?_, ?_, ?_, ?_, ?_⟩
  · intro s t h
    rw [f.sig] at h
    rw [f.alive, f.has]
    exact i.src s t h
  · intro t s h1 h2 h3
    rw [f.sig]
    rw [f.alive] at h2
    rw [f.has] at h3
    exact i.back t s h1 h2 h3
  · rw [f.sig]; exact i.act
  · rw [f.sig]; exact i.nd
  · rw [f.sig]; exact i.rem
  · rw [f.sig]; exact i.lis

/-! ## A signal stops and starts -/

theorem stop_ok (D : Dist n remote P) {w : W} (g : InvG n remote P w w.want) (v : Nat) :
    ∃ w' r, w.stop v = (w', r) ∧ r.failed = false ∧ InvG n remote P w' (upd w.want v none) ∧ Frame w w' := by
  unfold W.stop
  by_cases h : ((w.sig v).listened && (w.sig v).streamed) = true
  · rw [if_pos h]
    have hwa : w.want v = w.activeSrc v := by unfold W.want; rw [if_pos h]
    cases ha : w.activeSrc v with
    | none =>
      refine ⟨w, .ignored, by unfold W.unsubscribeInternal; rw [ha], rfl, ?_, Frame.refl w⟩
      have : upd w.want v none = w.want := by
        funext u; unfold upd; split
        · next e => rw [e, hwa, ha]
        · rfl
      rw [this]; exact g
    | some t =>
      obtain ⟨w', e, g', f⟩ := unsubscribeInternal_ok D g (hwa.trans ha) ha
      exact ⟨w', .ok, e, rfl, g', f⟩
  · rw [if_neg h]
    have hwa : w.want v = none := by unfold W.want; rw [if_neg h]
    refine ⟨w, .ok, rfl, rfl, ?_, Frame.refl w⟩
    have : upd w.want v none = w.want := by
      funext u; unfold upd; split
      · next e => rw [e, hwa]
      · rfl
    rw [this]; exact g

theorem activeSrc_setSig {w : W} {v : Nat} {y : Sig} : (w.setSig v y).activeSrc v =
    match y.active with
    | none => none
    | some t => if (w.src t).alive then some t else none := by
  unfold W.activeSrc
  rw [sig_setSig, if_pos rfl]
  rfl

/-- Giving up the active source after the subscription was undone. -/
theorem give_up {w w1 : W} {v : Nat} (f : Frame w w1) (g1 : InvG n remote P w1 (upd w.want v none)) :
    (∀ u, (w1.setSig v { w1.sig v with active := none }).want u = upd w.want v none u) ∧
    InvG n remote P (w1.setSig v { w1.sig v with active := none }) (w1.setSig v { w1.sig v with active := none }).want := by
  have hw : ∀ u, (w1.setSig v { w1.sig v with active := none }).want u = upd w.want v none u := by
    intro u
    unfold upd
    split
    · next e =>
      subst e
      unfold W.want
      rw [activeSrc_setSig]
      simp
    · next e => rw [want_setSig_ne e, f.want]
  refine ⟨hw, ?_⟩
  exact g1.setSig v _ rfl rfl rfl hw

theorem deactivate_ok (D : Dist n remote P) {w : W} (i : Inv n remote P none w) (v : Nat) :
    Inv n remote P none (w.deactivate v).1 ∧ (w.deactivate v).2 = .ok := by
  obtain ⟨w1, r, e, hr, g1, f⟩ := stop_ok D i.g v
  unfold W.deactivate
  rw [e]
  simp only [hr]
  exact ⟨⟨(i.toLists.frame f).setActive v none (by simp), (give_up f g1).2⟩, by simp⟩

/-- A signal that has a new active source starts. -/
theorem activate {w w1 : W} {v t : Nat} (D : Dist n remote P) (f : Frame w w1) (g1 : InvG n remote P w1 (upd w.want v none))
    (hv : v < n) (hal : (w.src t).alive = true) (hh : (w.src t).has v)
    (hd : ∀ d, w.dom v = some d → (w.src t).skipDomain = false → (w.src t).has d) :
    ∃ w' r, (w1.setSig v { w1.sig v with active := some t }).start v = (w', r) ∧ r.failed = false ∧
      InvG n remote P w' w'.want ∧ Frame (w1.setSig v { w1.sig v with active := some t }) w' := by
  generalize hw2 : w1.setSig v { w1.sig v with active := some t } = w2
  have hdom : w2.dom = w.dom := by
    rw [← dom_congr f.sig, ← hw2]
    funext u
    unfold W.dom
    have h1 : ∀ u, ((w1.setSig v { w1.sig v with active := some t }).sig u).domain = (w1.sig u).domain := by
      intro u; rw [sig_setSig]; split
      · next e => rw [e]
      · rfl
    have h2 : ∀ u, ((w1.setSig v { w1.sig v with active := some t }).sig u).removed = (w1.sig u).removed := by
      intro u; rw [sig_setSig]; split
      · next e => rw [e]
      · rfl
    rw [h1]
    cases (w1.sig u).domain with
    | none => rfl
    | some d => simp only [h2]
  have g2 : InvG n remote P w2 (upd w.want v none) := hw2 ▸ g1.setSig v _ rfl rfl rfl fun _ => rfl
  have hsrc : w2.src = w1.src := by rw [← hw2]; rfl
  have ha2 : w2.activeSrc v = some t := by
    rw [← hw2, activeSrc_setSig]
    simp only []
    rw [f.alive, if_pos hal]
  have hne : ∀ u, u ≠ v → w2.want u = w.want u := by
    intro u hu
    rw [← hw2, want_setSig_ne hu, f.want]
  unfold W.start
  by_cases h : ((w2.sig v).listened && (w2.sig v).streamed) = true
  · rw [if_pos h]
    obtain ⟨w', e, g', f'⟩ := subscribeInternal_ok D g2 hv (by unfold upd; rw [if_pos rfl]) ha2
      (by rw [hsrc, f.has]; exact hh)
      (by rw [hdom, hsrc, f.skip]; intro d h1 h2; rw [f.has]; exact hd d h1 h2)
    refine ⟨w', .ok, e, rfl, ?_, f'⟩
    have : w'.want = upd (upd w.want v none) v (some t) := by
      funext u
      rw [f'.want]
      by_cases hu : u = v
      · subst hu
        unfold upd
        rw [if_pos rfl]
        unfold W.want
        rw [if_pos h, ha2]
      · unfold upd
        rw [if_neg hu, if_neg hu, hne u hu]
    rw [this]; exact g'
  · rw [if_neg h]
    refine ⟨w2, .ok, rfl, rfl, ?_, Frame.refl w2⟩
    have : w2.want = upd w.want v none := by
      funext u
      by_cases hu : u = v
      · subst hu
        unfold upd
        rw [if_pos rfl]
        unfold W.want
        rw [if_neg h]
      · unfold upd
        rw [if_neg hu, hne u hu]
    rw [this]; exact g2

theorem setActive_ok (D : Dist n remote P) {w : W} (i : Inv n remote P none w) {v t : Nat} (hd : DomainIn w t v) :
    Inv n remote P none (w.setActive v t).1 ∧ (t ∈ (w.sig v).sources → (w.setActive v t).2.failed = false) := by
  unfold W.setActive
  by_cases h1 : w.activeSrc v = some t
  · rw [if_pos h1]; exact ⟨i, fun _ => rfl⟩
  · rw [if_neg h1]
    by_cases h2 : (w.sig v).sources.contains t = false
    · rw [if_pos h2]
      exact ⟨i, fun h => absurd h (by simpa using h2)⟩
    · rw [if_neg h2]
      have hm : t ∈ (w.sig v).sources := by simpa using h2
      have hs := i.src v t hm
      have hal : (w.src t).alive = true ∧ (w.src t).has v := by
        rcases hs.2 with h | h
        · cases h
        · exact h
      rw [if_neg (by rw [hal.1]; simp)]
      obtain ⟨w1, r, e, hr, g1, f⟩ := stop_ok D i.g v
      rw [e]
      simp only [hr]
      obtain ⟨w', r', e', hr', g', f'⟩ := activate D f g1 hs.1 hal.1 hal.2 (i.domainIn hd)
      rw [e']
      simp only [hr']
      refine ⟨⟨Lists.frame ?_ f', g'⟩, fun _ => by simp [R.failed]⟩
      exact (i.toLists.frame f).setActive v (some t) (by intro u hu; cases hu; rw [f.sig]; exact hm)

/-! ## Switching a signal on and off -/

/-- One of the two switches of a signal goes on while the other one is on. -/
theorem switch_on (D : Dist n remote P) {w w1 : W} (i : Inv n remote P none w) {v : Nat} {y : Sig} (hv : v < n) (hw1 : w1 = w.setSig v y)
    (hr : y.remote = (w.sig v).remote) (hdm : y.domain = (w.sig v).domain) (hrm : y.removed = (w.sig v).removed)
    (ha : y.active = (w.sig v).active) (hso : y.sources = (w.sig v).sources)
    (hoff : ((w.sig v).listened && (w.sig v).streamed) = false) (hon : (y.listened && y.streamed) = true)
    (hD : ∀ t, (w.sig v).active = some t → DomainIn w t v) :
    ∃ w' r, w1.subscribeInternal v = (w', r) ∧ r.failed = false ∧ InvG n remote P w' w'.want ∧ Frame w1 w' := by
  subst hw1
  have hw0 : w.want v = none := by unfold W.want; rw [hoff]; rfl
  have g1 : InvG n remote P (w.setSig v y) w.want := i.g.setSig v y hr hdm hrm fun _ => rfl
  have hne : ∀ u, u ≠ v → (w.setSig v y).want u = w.want u := fun u hu => want_setSig_ne hu
  have hact : (w.setSig v y).activeSrc v = w.activeSrc v := by
    rw [activeSrc_setSig, ha]; rfl
  have hwv : (w.setSig v y).want v = w.activeSrc v := by
    unfold W.want
    rw [sig_setSig, if_pos rfl, hon, if_pos rfl, hact]
  cases h : w.activeSrc v with
  | none =>
    refine ⟨w.setSig v y, .ignored, by unfold W.subscribeInternal; rw [hact, h], rfl, ?_, Frame.refl _⟩
    have : (w.setSig v y).want = w.want := by
      funext u
      by_cases hu : u = v
      · subst hu; rw [hwv, h, hw0]
      · exact hne u hu
    rw [this]; exact g1
  | some t =>
    have hat := (activeSrc_some.mp h)
    have hs := i.src v t (i.act v t hat.1)
    have hhas : (w.src t).has v := by
      rcases hs.2 with h | h
      · cases h
      · exact h.2
    have hdom : ∀ d, (w.setSig v y).dom v = some d → w.dom v = some d := by
      intro d hd
      rw [W.dom_iff] at hd ⊢
      refine ⟨?_, ?_⟩
      · have := hd.1; rw [sig_setSig, if_pos rfl, hdm] at this; exact this
      · have := hd.2
        rw [sig_setSig] at this
        split at this
        · next e => rw [e, ← hrm]; exact this
        · exact this
    obtain ⟨w', e, g', f'⟩ := subscribeInternal_ok D g1 hv hw0 (hact.trans h) hhas
      (fun d h1 h2 => i.domainIn (hD t hat.1) d (hdom d h1) h2)
    refine ⟨w', .ok, e, rfl, ?_, f'⟩
    have : w'.want = upd w.want v (some t) := by
      funext u
      rw [f'.want]
      unfold upd
      by_cases hu : u = v
      · subst hu; rw [if_pos rfl, hwv, h]
      · rw [if_neg hu, hne u hu]
    rw [this]; exact g'

/-- One of the two switches goes off while the other one is on. -/
theorem switch_off (D : Dist n remote P) {w w1 : W} (g : InvG n remote P w w.want) {v : Nat} {y : Sig} (hw1 : w1 = w.setSig v y)
    (hr : y.remote = (w.sig v).remote) (hdm : y.domain = (w.sig v).domain) (hrm : y.removed = (w.sig v).removed)
    (ha : y.active = (w.sig v).active)
    (hon : ((w.sig v).listened && (w.sig v).streamed) = true) (hoff : (y.listened && y.streamed) = false) :
    ∃ w' r, w1.unsubscribeInternal v = (w', r) ∧ r.failed = false ∧ InvG n remote P w' w'.want ∧ Frame w1 w' := by
  subst hw1
  have hw0 : w.want v = w.activeSrc v := by unfold W.want; rw [hon]; rfl
  have g1 : InvG n remote P (w.setSig v y) w.want := g.setSig v y hr hdm hrm fun _ => rfl
  have hne : ∀ u, u ≠ v → (w.setSig v y).want u = w.want u := fun u hu => want_setSig_ne hu
  have hact : (w.setSig v y).activeSrc v = w.activeSrc v := by
    rw [activeSrc_setSig, ha]; rfl
  have hwv : (w.setSig v y).want v = none := by
    unfold W.want
    rw [sig_setSig, if_pos rfl, hoff]; rfl
  have hfin : ∀ u, (w.setSig v y).want u = upd w.want v none u := by
    intro u
    unfold upd
    by_cases hu : u = v
    · subst hu; rw [if_pos rfl, hwv]
    · rw [if_neg hu, hne u hu]
  cases h : w.activeSrc v with
  | none =>
    refine ⟨w.setSig v y, .ignored, by unfold W.unsubscribeInternal; rw [hact, h], rfl, ?_, Frame.refl _⟩
    have : (w.setSig v y).want = w.want := by
      funext u
      by_cases hu : u = v
      · subst hu; rw [hwv, hw0, h]
      · exact hne u hu
    rw [this]; exact g1
  | some t =>
    obtain ⟨w', e, g', f'⟩ := unsubscribeInternal_ok D g1 (hw0.trans h) (hact.trans h)
    refine ⟨w', .ok, e, rfl, ?_, f'⟩
    have : w'.want = upd w.want v none := by
      rw [f'.want]; funext u; exact hfin u
    rw [this]; exact g'

/-- A switch that makes no difference. -/
theorem switch_idle {w : W} (g : InvG n remote P w w.want) {v : Nat} {y : Sig}
    (hr : y.remote = (w.sig v).remote) (hdm : y.domain = (w.sig v).domain) (hrm : y.removed = (w.sig v).removed)
    (h : ((w.sig v).listened && (w.sig v).streamed) = false) (h' : (y.listened && y.streamed) = false) :
    InvG n remote P (w.setSig v y) (w.setSig v y).want := by
  refine g.setSig v y hr hdm hrm fun u => ?_
  by_cases hu : u = v
  · subst hu
    unfold W.want
    rw [sig_setSig, if_pos rfl, h, h']
    rfl
  · exact want_setSig_ne hu

theorem setStreamed_ok (D : Dist n remote P) {w : W} (i : Inv n remote P none w) {v : Nat} (b : Bool) (hv : v < n)
    (hD : ∀ t, (w.sig v).active = some t → DomainIn w t v) :
    Inv n remote P none (w.setStreamed v b).1 ∧ (w.setStreamed v b).2.failed = false := by
  unfold W.setStreamed
  by_cases h : (w.sig v).streamed = b
  · rw [if_pos h]; exact ⟨i, rfl⟩
  · rw [if_neg h]
    have L : Lists n none (w.setSig v { w.sig v with streamed := b }) :=
      i.toLists.setSig v _ (i.src v) (fun t => i.back t v) (i.act v) (i.nd v) (i.rem v) (i.lis v)
    have hy : ∀ y : Sig, (w.setSig v y).sig v = y := fun y => by rw [sig_setSig, if_pos rfl]
    simp only [hy]
    rcases (Bool.eq_false_or_eq_true (w.sig v).listened).symm with hl | hl
    · rw [if_neg (by rw [hl]; simp)]
      exact ⟨⟨L, switch_idle i.g rfl rfl rfl (by rw [hl]; rfl) (by show ((w.sig v).listened && b) = false; rw [hl]; rfl)⟩, rfl⟩
    · rw [if_pos hl]
      cases b with
      | true =>
        simp only [if_true]
        obtain ⟨w', r, e, hr, g', f'⟩ := switch_on D i (v := v) (y := { w.sig v with streamed := true }) hv rfl rfl rfl rfl rfl rfl
          (by rw [hl]; simpa using h) (by show ((w.sig v).listened && true) = true; rw [hl]; rfl) hD
        rw [e]
        simp only [hr]
        exact ⟨⟨L.frame f', g'⟩, rfl⟩
      | false =>
        simp only [Bool.false_eq_true, if_false]
        obtain ⟨w', r, e, hr, g', f'⟩ := switch_off D i.g (v := v) (y := { w.sig v with streamed := false }) rfl rfl rfl rfl rfl
          (by rw [hl]; simpa using h) (by show ((w.sig v).listened && false) = false; simp)
        rw [e]
        simp only [hr]
        exact ⟨⟨L.frame f', g'⟩, rfl⟩

theorem connect_ok (D : Dist n remote P) {w : W} (i : Inv n remote P none w) {v : Nat} (hv : v < n) (hrm : (w.sig v).removed = false)
    (hD : ∀ t, (w.sig v).active = some t → DomainIn w t v) :
    Inv n remote P none (w.connect v).1 ∧ (w.connect v).2 = .ok ∧ ((w.connect v).1.sig v).conns = (w.sig v).conns + 1 := by
  unfold W.connect
  by_cases h0 : (w.sig v).conns = 0
  · rw [if_pos h0]
    have hl : (w.sig v).listened = false := by
      cases h : (w.sig v).listened with
      | false => rfl
      | true => have := (i.lis v hrm).mp h; omega
    have key : ∃ w', w.setListened v true = (w', .ok) ∧ InvG n remote P w' w'.want ∧ Frame (w.setSig v { w.sig v with listened := true }) w' := by
      unfold W.setListened
      rw [if_neg (by rw [hl]; simp)]
      have hy : ∀ y : Sig, (w.setSig v y).sig v = y := fun y => by rw [sig_setSig, if_pos rfl]
      simp only [hy]
      rcases (Bool.eq_false_or_eq_true (w.sig v).streamed).symm with hs | hs
      · rw [if_neg (by rw [hs]; simp)]
        refine ⟨_, rfl, ?_, ?_⟩
        · exact switch_idle (y := { w.sig v with listened := true }) i.g rfl rfl rfl (by rw [hl]; rfl) (by show (true && (w.sig v).streamed) = false; rw [hs]; rfl)
        · exact Frame.refl _
      · rw [if_pos hs]
        simp only [if_true]
        obtain ⟨w', r, e, hr, g', f'⟩ := switch_on D i (v := v) (y := { w.sig v with listened := true }) hv rfl rfl rfl rfl rfl rfl
          (by rw [hl]; rfl) (by show (true && (w.sig v).streamed) = true; rw [hs]; rfl) hD
        rw [e]
        exact ⟨w', by simp [hr], g', f'⟩
    obtain ⟨w', e, g', f'⟩ := key
    rw [e]
    simp only [R.failed, Bool.false_eq_true, if_false]
    have hsv : w'.sig v = { w.sig v with listened := true } := by rw [f'.sig, sig_setSig, if_pos rfl]
    have hsu : ∀ u, u ≠ v → w'.sig u = w.sig u := fun u hu => by rw [f'.sig, sig_setSig, if_neg hu]
    refine ⟨⟨⟨?_, ?_, ?_, ?_, ?_, ?_⟩, ?_⟩, by simp, ?_⟩
    · intro s t h
      rw [src_setSig, f'.alive, f'.has]
      rw [sig_setSig] at h
      split at h
      · next e => subst e; exact i.src s t (by simpa [hsv] using h)
      · next e => rw [hsu s e] at h; exact i.src s t h
    · intro t s h1 h2 h3
      rw [src_setSig, f'.alive] at h2
      rw [src_setSig, f'.has] at h3
      have := i.back t s h1 h2 h3
      rw [sig_setSig]
      split
      · next e => subst e; simpa [hsv] using this
      · next e => rw [hsu s e]; exact this
    · intro s t h
      rw [sig_setSig] at h ⊢
      split
      · next e => subst e; rw [if_pos rfl] at h; have := i.act s t (by simpa [hsv] using h); simpa [hsv] using this
      · next e => rw [if_neg e, hsu s e] at h; rw [hsu s e]; exact i.act s t h
    · intro s
      rw [sig_setSig]
      split
      · next e => subst e; have := i.nd s; simpa [hsv] using this
      · next e => rw [hsu s e]; exact i.nd s
    · intro s h
      rw [sig_setSig] at h ⊢
      split
      · next e => subst e; rw [if_pos rfl] at h; simp [hsv, hrm] at h
      · next e => rw [if_neg e, hsu s e] at h; rw [hsu s e]; exact i.rem s h
    · intro s h
      rw [sig_setSig] at h ⊢
      split
      · next e => subst e; simp [hsv]
      · next e => rw [if_neg e, hsu s e] at h; rw [hsu s e]; exact i.lis s h
    · exact g'.setSig v _ rfl rfl rfl (want_setSig_eq rfl rfl rfl)
    · rw [sig_setSig, if_pos rfl]; simp [hsv]
  · rw [if_neg h0]
    simp only [R.failed, Bool.false_eq_true, if_false]
    refine ⟨⟨?_, ?_⟩, by simp, ?_⟩
    · exact i.toLists.setSig v _ (i.src v) (fun t => i.back t v) (i.act v) (i.nd v) (by simp [hrm])
        (fun h => by rw [show ({ w.sig v with conns := (w.sig v).conns + 1 } : Sig).listened = (w.sig v).listened from rfl, i.lis v hrm]; show _ ↔ 0 < (w.sig v).conns + 1; omega)
    · exact i.g.setSig v _ rfl rfl rfl (want_setSig_eq rfl rfl rfl)
    · rw [sig_setSig, if_pos rfl]

theorem disconnect_ok (D : Dist n remote P) {w : W} (i : Inv n remote P none w) (v : Nat) :
    Inv n remote P none (w.disconnect v).1 ∧ (0 < (w.sig v).conns → (w.disconnect v).2 = .ok) := by
  unfold W.disconnect
  by_cases h0 : (w.sig v).conns = 0
  · rw [if_pos h0]; exact ⟨i, fun h => by omega⟩
  · rw [if_neg h0]
    have hrm : (w.sig v).removed = false := by
      cases h : (w.sig v).removed with
      | false => rfl
      | true => exact absurd (i.rem v h).2 h0
    have hl : (w.sig v).listened = true := (i.lis v hrm).mpr (by omega)
    simp only [sig_setSig, if_true]
    by_cases h1 : (w.sig v).conns - 1 = 0
    · rw [if_pos h1]
      -- the connection goes first, then the flag
      let y : Sig := { w.sig v with conns := (w.sig v).conns - 1 }
      have g1 : InvG n remote P (w.setSig v y) (w.setSig v y).want := i.g.setSig v _ rfl rfl rfl (want_setSig_eq rfl rfl rfl)
      have hy : (w.setSig v y).sig v = y := by rw [sig_setSig, if_pos rfl]
      have key : ∃ w', (w.setSig v y).setListened v false = (w', .ok) ∧ InvG n remote P w' w'.want ∧
          Frame ((w.setSig v y).setSig v { y with listened := false }) w' := by
        unfold W.setListened
        rw [hy, if_neg (by show ¬ (w.sig v).listened = false; rw [hl]; simp)]
        have hy' : ∀ z : Sig, ((w.setSig v y).setSig v z).sig v = z := fun z => by rw [sig_setSig, if_pos rfl]
        simp only [hy']
        rcases (Bool.eq_false_or_eq_true (w.sig v).streamed).symm with hs | hs
        · rw [if_neg (by rw [show y.streamed = false from hs]; simp)]
          refine ⟨_, rfl, ?_, ?_⟩
          · exact switch_idle (y := { y with listened := false }) g1 (by rw [hy]) (by rw [hy]) (by rw [hy])
              (by rw [hy]; show ((w.sig v).listened && (w.sig v).streamed) = false; rw [hs]; simp) (by rfl)
          · exact Frame.refl _
        · rw [if_pos (show y.streamed = true from hs)]
          simp only [Bool.false_eq_true, if_false]
          obtain ⟨w', r, e, hr, g', f'⟩ := switch_off D g1 (v := v) (y := { y with listened := false }) rfl (by rw [hy]) (by rw [hy]) (by rw [hy]) (by rw [hy])
            (by rw [hy]; show ((w.sig v).listened && (w.sig v).streamed) = true; rw [hs, hl]; rfl) (by rfl)
          rw [e]
          exact ⟨w', by simp [hr], g', f'⟩
      obtain ⟨w', e, g', f'⟩ := key
      show Inv n remote P none ((w.setSig v y).setListened v false).1 ∧ (_ → ((w.setSig v y).setListened v false).2 = .ok)
      rw [e]
      refine ⟨⟨Lists.frame ?_ f', g'⟩, fun _ => rfl⟩
      have e2 : (w.setSig v y).setSig v { y with listened := false } = w.setSig v { y with listened := false } := by
        unfold W.setSig
        congr 1
        funext u
        unfold upd
        split
        · rfl
        · next h => exact if_neg h
      rw [e2]
      exact i.toLists.setSig v _ (i.src v) (fun t => i.back t v) (i.act v) (i.nd v) (fun h => by rw [show ({ y with listened := false } : Sig).removed = (w.sig v).removed from rfl, hrm] at h; cases h)
        (fun _ => by show (false = true) ↔ 0 < (w.sig v).conns - 1; rw [h1]; simp)
    · rw [if_neg h1]
      refine ⟨⟨?_, ?_⟩, fun _ => rfl⟩
      · exact i.toLists.setSig v _ (i.src v) (fun t => i.back t v) (i.act v) (i.nd v) (by simp [hrm])
          (fun _ => by show (w.sig v).listened = true ↔ 0 < (w.sig v).conns - 1; rw [hl]; simp; omega)
      · exact i.g.setSig v _ rfl rfl rfl (want_setSig_eq rfl rfl rfl)

end Verif.Mirror
