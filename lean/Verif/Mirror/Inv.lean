import Verif.Mirror.SrcLemmas

/-! # The invariant of a client that keeps the rules -/

namespace Verif.Mirror
open Verif.Component (Str idEndsWith)
open Spec

/-- The source a signal is subscribed at. -/
def W.want (w : W) (v : Nat) : Option Nat := if (w.sig v).listened && (w.sig v).streamed then w.activeSrc v else none

/-- The domain signal of a signal, if not removed. -/
def W.dom (w : W) (v : Nat) : Option Nat :=
  match (w.sig v).domain with
  | none => none
  | some d => if (w.sig d).removed then none else some d

theorem W.domainRemote_eq (w : W) (v : Nat) : w.domainRemote v = (w.dom v).map w.remote := by
  unfold W.domainRemote W.dom
  cases (w.sig v).domain with
  | none => rfl
  | some d => simp only []; split <;> rfl

theorem W.dom_iff (w : W) (v d : Nat) : w.dom v = some d ↔ Domain w v d := by
  unfold W.dom Domain
  cases h : (w.sig v).domain with
  | none => simp
  | some x =>
    simp only []
    cases hr : (w.sig x).removed with
    | true =>
      simp only [if_true]
      constructor
      · intro h; cases h
      · rintro ⟨h1, h2⟩; cases h1; rw [hr] at h2; cases h2
    | false =>
      simp only [Bool.false_eq_true, if_false]
      constructor
      · intro h1; cases h1; exact ⟨rfl, hr⟩
      · rintro ⟨h1, _⟩; exact h1

/-- A signal counts for `s` at source `t`. -/
def counts (skip : Bool) (want dom : Nat → Option Nat) (t s v : Nat) : Bool :=
  want v == some t && (v == s || (!skip && dom v == some s))

/-- The number of subscriptions that `s` should have at `t`. -/
def due (n : Nat) (skip : Bool) (want dom : Nat → Option Nat) (t s : Nat) : Nat :=
  (List.range n).countP (counts skip want dom t s)

theorem countP_upd {n v : Nat} (hv : v < n) {p q : Nat → Bool} (h : ∀ u, u ≠ v → p u = q u) :
    (List.range n).countP p + (q v).toNat = (List.range n).countP q + (p v).toNat := by
  induction n with
  | zero => omega
  | succ n ih =>
    rw [List.range_succ, List.countP_append, List.countP_append, List.countP_singleton, List.countP_singleton]
    by_cases e : v = n
    · subst e
      have : (List.range v).countP p = (List.range v).countP q := by
        refine List.countP_congr fun u hu => ?_
        rw [h u (by have := List.mem_range.mp hu; omega)]
      rw [this]
      cases p v <;> cases q v <;> simp
    · have := ih (by omega)
      rw [h n (fun x => e x.symm)]
      omega

theorem due_congr {n : Nat} {skip : Bool} {want want' dom dom' : Nat → Option Nat} {t s : Nat}
    (h : ∀ u, u < n → counts skip want dom t s u = counts skip want' dom' t s u) : due n skip want dom t s = due n skip want' dom' t s :=
  List.countP_congr fun u hu => by rw [h u (List.mem_range.mp hu)]

theorem due_pos {n : Nat} {skip : Bool} {want dom : Nat → Option Nat} {t s : Nat} :
    0 < due n skip want dom t s ↔ ∃ v, v < n ∧ want v = some t ∧ (v = s ∨ (skip = false ∧ dom v = some s)) := by
  unfold due
  rw [List.countP_pos_iff]
  simp [counts]

variable {n : Nat} {remote : Nat → Str} {P : Str → Prop}

/-- The subscriptions are as `want` says. -/
structure InvG (n : Nat) (remote : Nat → Str) (P : Str → Prop) (w : W) (want : Nat → Option Nat) : Prop where
  hn : w.n = n
  hr : w.remote = remote
  k : ∀ t, (w.src t).alive = true → K n remote P (w.src t)
  nd : ∀ t, (w.src t).alive = true → (w.src t).avail.Nodup
  wt : ∀ v t, want v = some t → v < n ∧ (w.src t).alive = true ∧ (w.src t).has v ∧
    ∀ d, w.dom v = some d → (w.src t).skipDomain = false → (w.src t).has d
  count : ∀ t s, (w.src t).alive = true → (w.src t).count s = due n (w.src t).skipDomain want w.dom t s
  dom : ∀ v d, v < n → (w.sig v).domain = some d → d < n ∧ d ≠ v

theorem InvG.dom' {w : W} {want : Nat → Option Nat} (g : InvG n remote P w want) {v d : Nat} (hv : v < n) (h : w.dom v = some d) :
    d < n ∧ d ≠ v := g.dom v d hv ((w.dom_iff v d).mp h).1

/-- Only what the invariant looks at matters. -/
theorem InvG.congr {w w' : W} {want want' : Nat → Option Nat} (g : InvG n remote P w want) (hn : w'.n = w.n) (hs : w'.src = w.src)
    (hr : ∀ u, (w'.sig u).remote = (w.sig u).remote) (hd : ∀ u t, want u = some t → w'.dom u = w.dom u)
    (hdom : ∀ v d, v < n → (w'.sig v).domain = some d → d < n ∧ d ≠ v) (hw : ∀ u, want' u = want u) : InvG n remote P w' want' := by
  obtain rfl : want' = want := funext hw
  refine ⟨hn.trans g.hn, ?_, hs ▸ g.k, hs ▸ g.nd, ?_, ?_, hdom⟩
  · rw [← g.hr]; funext u; exact hr u
  · intro v t h
    rw [hs]
    have := g.wt v t h
    exact ⟨this.1, this.2.1, this.2.2.1, fun d h1 h2 => this.2.2.2 d (hd v t h ▸ h1) h2⟩
  · intro t s ht
    rw [hs] at ht ⊢
    rw [g.count t s ht]
    refine due_congr fun u _ => ?_
    unfold counts
    by_cases h : want' u = some t
    · rw [hd u t h]
    · rw [beq_eq_false_iff_ne.mpr h]; rfl

theorem sig_setSig (w : W) (v u : Nat) (x : Sig) : (w.setSig v x).sig u = if u = v then x else w.sig u := rfl
theorem src_setSig (w : W) (v : Nat) (x : Sig) : (w.setSig v x).src = w.src := rfl
theorem src_setSrc (w : W) (t u : Nat) (x : Src) : (w.setSrc t x).src u = if u = t then x else w.src u := rfl
theorem sig_setSrc (w : W) (t : Nat) (x : Src) : (w.setSrc t x).sig = w.sig := rfl

/-- Replacing a signal without changing remote id, domain signal and removal. -/
theorem InvG.setSig {w : W} {want want' : Nat → Option Nat} (g : InvG n remote P w want) (v : Nat) (x : Sig)
    (h1 : x.remote = (w.sig v).remote) (h2 : x.domain = (w.sig v).domain) (h3 : x.removed = (w.sig v).removed)
    (hw : ∀ u, want' u = want u) :
    InvG n remote P (w.setSig v x) want' := by
  have hdo : ∀ u, ((w.setSig v x).sig u).domain = (w.sig u).domain := by
    intro u; rw [sig_setSig]; split
    · next e => rw [e, h2]
    · rfl
  have hre : ∀ u, ((w.setSig v x).sig u).removed = (w.sig u).removed := by
    intro u; rw [sig_setSig]; split
    · next e => rw [e, h3]
    · rfl
  refine g.congr rfl rfl ?_ ?_ ?_ hw
  · intro u; rw [sig_setSig]; split
    · next e => rw [e, h1]
    · rfl
  · intro u _ _
    unfold W.dom
    rw [hdo]
    cases (w.sig u).domain with
    | none => rfl
    | some d => simp only [hre]
  · intro u d hu h
    exact g.dom u d hu (hdo u ▸ h)

/-- What a change of subscriptions keeps. -/
structure Frame (w w' : W) : Prop where
  n : w'.n = w.n
  sig : w'.sig = w.sig
  alive : ∀ t, (w'.src t).alive = (w.src t).alive
  skip : ∀ t, (w'.src t).skipDomain = (w.src t).skipDomain
  has : ∀ t u, (w'.src t).has u ↔ (w.src t).has u
  active : ∀ t, (w'.src t).active = (w.src t).active

theorem Frame.refl (w : W) : Frame w w := ⟨rfl, rfl, fun _ => rfl, fun _ => rfl, fun _ _ => .rfl, fun _ => rfl⟩

theorem dom_congr {w w' : W} (h : w'.sig = w.sig) : w'.dom = w.dom := by
  funext u
  unfold W.dom
  rw [h]

theorem remote_congr {w w' : W} (h : w'.sig = w.sig) : w'.remote = w.remote := by
  funext u
  unfold W.remote
  rw [h]

theorem activeSrc_congr {w w' : W} (f : Frame w w') (v : Nat) : w'.activeSrc v = w.activeSrc v := by
  unfold W.activeSrc
  rw [f.sig]
  cases (w.sig v).active with
  | none => rfl
  | some t => simp only [f.alive]

/-- Replacing one source by one with other counts. -/
theorem InvG.setSrc {w : W} {want want' : Nat → Option Nat} (g : InvG n remote P w want) {t : Nat} {s' : Src} (ha : (w.src t).alive = true)
    (k' : K n remote P s') (hnd : s'.avail.Nodup) (hh : ∀ u, s'.has u ↔ (w.src t).has u) (hsk : s'.skipDomain = (w.src t).skipDomain)
    (hal : s'.alive = (w.src t).alive)
    (hw : ∀ v x, want' v = some x → v < n ∧ (w.src x).alive = true ∧ (w.src x).has v ∧
      ∀ d, w.dom v = some d → (w.src x).skipDomain = false → (w.src x).has d)
    (hc : ∀ s, s'.count s = due n (w.src t).skipDomain want' w.dom t s)
    (ho : ∀ x s, x ≠ t → due n (w.src x).skipDomain want' w.dom x s = due n (w.src x).skipDomain want w.dom x s) :
    InvG n remote P (w.setSrc t s') want' := by
  have hal' : ∀ x, ((w.setSrc t s').src x).alive = (w.src x).alive := by
    intro x; rw [src_setSrc]; split
    · next e => rw [hal, e]
    · rfl
  have hsk' : ∀ x, ((w.setSrc t s').src x).skipDomain = (w.src x).skipDomain := by
    intro x; rw [src_setSrc]; split
    · next e => rw [hsk, e]
    · rfl
  have hh' : ∀ x u, ((w.setSrc t s').src x).has u ↔ (w.src x).has u := by
    intro x u; rw [src_setSrc]; split
    · next e => rw [hh, e]
    · exact .rfl
  refine ⟨g.hn, g.hr, ?_, ?_, ?_, ?_, g.dom⟩
  · intro x hx
    rw [hal'] at hx
    rw [src_setSrc]; split
    · exact k'
    · exact g.k x hx
  · intro x hx
    rw [hal'] at hx
    rw [src_setSrc]; split
    · exact hnd
    · exact g.nd x hx
  · intro v x h
    have := hw v x h
    refine ⟨this.1, (hal' x).trans this.2.1, (hh' x v).mpr this.2.2.1, fun d h1 h2 => (hh' x d).mpr (this.2.2.2 d h1 (hsk' x ▸ h2))⟩
  · intro x s hx
    rw [hal'] at hx
    show _ = due n _ want' w.dom x s
    rw [hsk', src_setSrc]
    split
    · next e => subst e; exact hc s
    · next e => rw [g.count x s hx, ho x s e]

theorem frame_setSrc {w : W} {t : Nat} {s' : Src} (hh : ∀ u, s'.has u ↔ (w.src t).has u) (hsk : s'.skipDomain = (w.src t).skipDomain)
    (hal : s'.alive = (w.src t).alive) (hac : s'.active = (w.src t).active) : Frame w (w.setSrc t s') := by
  refine ⟨rfl, rfl, ?_, ?_, ?_, ?_⟩
  · intro x; rw [src_setSrc]; split
    · next e => rw [hal, e]
    · rfl
  · intro x; rw [src_setSrc]; split
    · next e => rw [hsk, e]
    · rfl
  · intro x u; rw [src_setSrc]; split
    · next e => rw [hh, e]
    · exact .rfl
  · intro x; rw [src_setSrc]; split
    · next e => rw [hac, e]
    · rfl

theorem counts_upd {skip : Bool} {want dom : Nat → Option Nat} {t s v u : Nat} {x : Option Nat} (h : u ≠ v) :
    counts skip want dom t s u = counts skip (upd want v x) dom t s u := by
  unfold counts upd
  rw [if_neg h]

theorem counts_self {skip : Bool} {want dom : Nat → Option Nat} {t s v : Nat} {x : Option Nat} :
    counts skip (upd want v x) dom t s v = (x == some t && (v == s || (!skip && dom v == some s))) := by
  unfold counts upd
  rw [if_pos rfl]

/-- A signal starts to be subscribed. -/
theorem subscribeInternal_ok (D : Dist n remote P) {w : W} {want : Nat → Option Nat} (g : InvG n remote P w want) {v t : Nat}
    (hv : v < n) (h0 : want v = none) (ha : w.activeSrc v = some t) (hh : (w.src t).has v)
    (hd : ∀ d, w.dom v = some d → (w.src t).skipDomain = false → (w.src t).has d) :
    ∃ w', w.subscribeInternal v = (w', .ok) ∧ InvG n remote P w' (upd want v (some t)) ∧ Frame w w' := by
  have hal : (w.src t).alive = true := by
    unfold W.activeSrc at ha
    cases h : (w.sig v).active with
    | none => rw [h] at ha; cases ha
    | some u =>
      rw [h] at ha
      simp only [] at ha
      split at ha
      · next hu => cases ha; exact hu
      · cases ha
  have k := g.k t hal
  -- the effect on the source
  have key : ∃ s', (w.src t).subscribe (w.remote v) (w.domainRemote v) = (s', .ok) ∧ K n remote P s' ∧
      (∀ u, s'.has u ↔ (w.src t).has u) ∧ s'.avail = (w.src t).avail ∧ s'.skipDomain = (w.src t).skipDomain ∧
      s'.alive = (w.src t).alive ∧ s'.active = (w.src t).active ∧
      ∀ u, s'.count u = (w.src t).count u + (v == u || (!(w.src t).skipDomain && w.dom v == some u)).toNat := by
    rw [g.hr, W.domainRemote_eq, g.hr]
    unfold Src.subscribe
    rw [if_neg (by
      cases hdm : w.dom v with
      | none => simp
      | some d =>
        intro e
        have h1 := g.dom' hv hdm
        exact h1.2 (D.remote v d hv h1.1 (Option.some.inj e)).symm)]
    by_cases hsk : (w.src t).skipDomain = true
    · rw [if_pos hsk]
      obtain ⟨s', e, k', C⟩ := doSubscribe_ok D k hv hh
      refine ⟨s', e, k', C.has, C.avail, C.skip, C.alive, C.active, fun u => ?_⟩
      rw [C.count u, hsk]
      by_cases hu : u = v
      · subst hu; simp
      · rw [if_neg hu, beq_eq_false_iff_ne.mpr (Ne.symm hu)]; simp
    · rw [if_neg hsk]
      have hsk' : (w.src t).skipDomain = false := by simpa using hsk
      cases hdm : w.dom v with
      | none =>
        obtain ⟨s', e, k', C⟩ := doSubscribe_ok D k hv hh
        refine ⟨s', e, k', C.has, C.avail, C.skip, C.alive, C.active, fun u => ?_⟩
        rw [C.count u]
        by_cases hu : u = v
        · subst hu; simp
        · rw [if_neg hu, beq_eq_false_iff_ne.mpr (Ne.symm hu)]; simp
      | some d =>
        have h1 := g.dom' hv hdm
        obtain ⟨s1, e1, k1, C1⟩ := doSubscribe_ok D k h1.1 (hd d hdm hsk')
        obtain ⟨s', e, k', C⟩ := doSubscribe_ok D k1 hv ((C1.has v).mpr hh)
        simp only [Option.map_some, e1, e]
        refine ⟨s', rfl, k', fun u => (C.has u).trans (C1.has u), C.avail.trans C1.avail, C.skip.trans C1.skip, C.alive.trans C1.alive,
          C.active.trans C1.active, fun u => ?_⟩
        rw [C.count u, C1.count u, C1.count v, if_neg (Ne.symm h1.2), hsk']
        by_cases hu : u = v
        · subst hu; simp
        · rw [if_neg hu, beq_eq_false_iff_ne.mpr (Ne.symm hu)]
          by_cases hud : u = d
          · subst hud; simp
          · rw [if_neg hud, show (some d == some u) = false by simpa using Ne.symm hud]; simp
  obtain ⟨s', e, k', hh', hav, hsk, hal', hac, hct⟩ := key
  refine ⟨w.setSrc t s', ?_, ?_, frame_setSrc hh' hsk hal' hac⟩
  · unfold W.subscribeInternal
    rw [ha]
    simp only [e]
  · refine g.setSrc hal k' (hav ▸ g.nd t hal) hh' hsk hal' ?_ ?_ ?_
    · intro u x h
      unfold upd at h
      split at h
      · next eu => cases h; subst eu; exact ⟨hv, hal, hh, hd⟩
      · exact g.wt u x h
    · intro s
      rw [hct s, g.count t s hal]
      have := countP_upd hv (p := counts (w.src t).skipDomain want w.dom t s)
        (q := counts (w.src t).skipDomain (upd want v (some t)) w.dom t s) (fun u hu => counts_upd hu)
      rw [counts_self] at this
      unfold due
      have e0 : counts (w.src t).skipDomain want w.dom t s v = false := by unfold counts; rw [h0]; rfl
      rw [e0] at this
      simp only [BEq.rfl, Bool.true_and, Bool.toNat_false, Nat.add_zero] at this
      omega
    · intro x s hx
      refine due_congr fun u _ => ?_
      by_cases hu : u = v
      · subst hu
        rw [counts_self, show (some t == some x) = false by simpa using Ne.symm hx]
        unfold counts
        rw [h0]
        rfl
      · exact (counts_upd hu).symm

/-- A signal stops being subscribed. -/
theorem unsubscribeInternal_ok (D : Dist n remote P) {w : W} {want : Nat → Option Nat} (g : InvG n remote P w want) {v t : Nat}
    (h0 : want v = some t) (ha : w.activeSrc v = some t) :
    ∃ w', w.unsubscribeInternal v = (w', .ok) ∧ InvG n remote P w' (upd want v none) ∧ Frame w w' := by
  obtain ⟨hv, hal, hh, hd⟩ := g.wt v t h0
  have k := g.k t hal
  have hpos : 0 < (w.src t).count v := by
    rw [g.count t v hal, due_pos]
    exact ⟨v, hv, h0, .inl rfl⟩
  have key : ∃ s', (w.src t).unsubscribe (w.remote v) (w.domainRemote v) = (s', .ok) ∧ K n remote P s' ∧
      (∀ u, s'.has u ↔ (w.src t).has u) ∧ s'.avail = (w.src t).avail ∧ s'.skipDomain = (w.src t).skipDomain ∧
      s'.alive = (w.src t).alive ∧ s'.active = (w.src t).active ∧
      ∀ u, s'.count u + (v == u || (!(w.src t).skipDomain && w.dom v == some u)).toNat = (w.src t).count u := by
    rw [g.hr, W.domainRemote_eq, g.hr]
    unfold Src.unsubscribe
    rw [if_neg (by
      cases hdm : w.dom v with
      | none => simp
      | some d =>
        intro e
        have h1 := g.dom' hv hdm
        exact h1.2 (D.remote v d hv h1.1 (Option.some.inj e)).symm)]
    by_cases hsk : (w.src t).skipDomain = true
    · rw [if_pos hsk]
      obtain ⟨s', e, k', C⟩ := doUnsubscribe_ok D k hv hh hpos
      refine ⟨s', e, k', C.has, C.avail, C.skip, C.alive, C.active, fun u => ?_⟩
      rw [C.count u, hsk]
      by_cases hu : u = v
      · subst hu; simp; omega
      · rw [if_neg hu, beq_eq_false_iff_ne.mpr (Ne.symm hu)]; simp
    · rw [if_neg hsk]
      have hsk' : (w.src t).skipDomain = false := by simpa using hsk
      cases hdm : w.dom v with
      | none =>
        obtain ⟨s', e, k', C⟩ := doUnsubscribe_ok D k hv hh hpos
        refine ⟨s', e, k', C.has, C.avail, C.skip, C.alive, C.active, fun u => ?_⟩
        rw [C.count u]
        by_cases hu : u = v
        · subst hu; simp; omega
        · rw [if_neg hu, beq_eq_false_iff_ne.mpr (Ne.symm hu)]; simp
      | some d =>
        have h1 := g.dom' hv hdm
        have hposd : 0 < (w.src t).count d := by
          rw [g.count t d hal, due_pos]
          exact ⟨v, hv, h0, .inr ⟨hsk', hdm⟩⟩
        obtain ⟨s1, e1, k1, C1⟩ := doUnsubscribe_ok D k h1.1 (hd d hdm hsk') hposd
        have hpos1 : 0 < s1.count v := by rw [C1.count v, if_neg (Ne.symm h1.2)]; exact hpos
        obtain ⟨s', e, k', C⟩ := doUnsubscribe_ok D k1 hv ((C1.has v).mpr hh) hpos1
        simp only [Option.map_some, e1, e]
        refine ⟨s', rfl, k', fun u => (C.has u).trans (C1.has u), C.avail.trans C1.avail, C.skip.trans C1.skip, C.alive.trans C1.alive,
          C.active.trans C1.active, fun u => ?_⟩
        rw [C.count u, C1.count u, C1.count v, if_neg (Ne.symm h1.2), hsk']
        by_cases hu : u = v
        · subst hu; simp; omega
        · rw [if_neg hu, beq_eq_false_iff_ne.mpr (Ne.symm hu)]
          by_cases hud : u = d
          · subst hud; simp; omega
          · rw [if_neg hud, show (some d == some u) = false by simpa using Ne.symm hud]; simp
  obtain ⟨s', e, k', hh', hav, hsk, hal', hac, hct⟩ := key
  refine ⟨w.setSrc t s', ?_, ?_, frame_setSrc hh' hsk hal' hac⟩
  · unfold W.unsubscribeInternal
    rw [ha]
    simp only [e]
  · refine g.setSrc hal k' (hav ▸ g.nd t hal) hh' hsk hal' ?_ ?_ ?_
    · intro u x h
      unfold upd at h
      split at h
      · cases h
      · exact g.wt u x h
    · intro s
      have h2 := hct s
      rw [g.count t s hal] at h2
      have := countP_upd hv (p := counts (w.src t).skipDomain want w.dom t s)
        (q := counts (w.src t).skipDomain (upd want v none) w.dom t s) (fun u hu => counts_upd hu)
      rw [counts_self] at this
      unfold due at h2 ⊢
      have e0 : counts (w.src t).skipDomain want w.dom t s v = (v == s || (!(w.src t).skipDomain && w.dom v == some s)) := by
        unfold counts; rw [h0]; simp
      rw [e0] at this
      rw [show ((none : Option Nat) == some t) = false from rfl] at this
      simp only [Bool.false_and, Bool.toNat_false, Nat.add_zero] at this
      omega
    · intro x s hx
      refine due_congr fun u _ => ?_
      by_cases hu : u = v
      · subst hu
        rw [counts_self]
        unfold counts
        rw [h0, show (some t == some x) = false by simpa using Ne.symm hx]
        rfl
      · exact (counts_upd hu).symm

end Verif.Mirror
