import Verif.Mirror.Run

/-! # What holds without rules -/

namespace Verif.Mirror
open Verif.Component (Str idEndsWith)
open Spec

/-- The source knows what is offered, and nothing else is being sent. -/
def Good (s : Src) : Prop := (∀ a, offered s.log a = true ↔ a ∈ s.avail) ∧ ∀ a, served s.log a = true → a ∈ s.avail

theorem Good.congr {s s' : Src} (h : Good s) (h1 : s'.log = s.log) (h2 : s'.avail = s.avail) : Good s' := by
  unfold Good
  rw [h1, h2]
  exact h

theorem request_good {s : Src} (h : Good s) {a : Str} {m : Msg} (hm : (m = .subscribe a ∧ a ∈ s.avail) ∨ m = .unsubscribe a) :
    Good (s.request a m).1 := by
  unfold Src.request
  split
  · exact h
  · rcases hm with ⟨rfl, ha⟩ | rfl
    · refine ⟨h.1, fun b hb => ?_⟩
      have : (b == a || served s.log b) = true := hb
      rw [Bool.or_eq_true] at this
      rcases this with e | e
      · rw [beq_iff_eq.mp e]; exact ha
      · exact h.2 b e
    · refine ⟨h.1, fun b hb => ?_⟩
      have : (!(b == a) && served s.log b) = true := hb
      rw [Bool.and_eq_true] at this
      exact h.2 b this.2

theorem Src.find_key {s : Src} {k : Str} {i : Item} (h : s.find k = some i) : i.key = k := by
  have := List.find?_some h
  simpa using this

theorem doSubscribe_good {s : Src} (h : Good s) (r : Str) : Good (s.doSubscribe r).1 := by
  unfold Src.doSubscribe
  split
  · exact h
  · next i hf =>
    dsimp only
    split
    · exact h.congr rfl rfl
    · next hc =>
      refine request_good (h.congr (s' := s.setCnt i.key (i.cnt + 1)) rfl rfl) (.inl ⟨rfl, ?_⟩)
      have hk := Src.find_key hf
      show i.key ∈ s.avail
      rw [hk]
      rw [Bool.or_eq_true, not_or] at hc
      rcases s.key_isKey r with h1 | h1
      · exact h1.1
      · exact absurd ((s.streamingId_isNone r).mpr h1.1) hc.1

theorem doUnsubscribe_good {s : Src} (h : Good s) (r : Str) : Good (s.doUnsubscribe r).1 := by
  unfold Src.doUnsubscribe
  split
  · exact h
  · dsimp only
    split
    · exact h
    · next i _ _ =>
      split
      · exact h.congr rfl rfl
      · exact request_good (h.congr (s' := s.setCnt i.key (i.cnt - 1)) rfl rfl) (.inr rfl)

theorem subscribe_good {s : Src} (h : Good s) (r : Str) (d : Option Str) : Good (s.subscribe r d).1 := by
  unfold Src.subscribe
  split
  · exact h
  · split
    · exact doSubscribe_good h r
    · next x _ =>
      dsimp only
      split
      · exact doSubscribe_good h x
      · exact doSubscribe_good (doSubscribe_good h x) r

theorem unsubscribe_good {s : Src} (h : Good s) (r : Str) (d : Option Str) : Good (s.unsubscribe r d).1 := by
  unfold Src.unsubscribe
  split
  · exact h
  · split
    · exact doUnsubscribe_good h r
    · next x _ =>
      dsimp only
      split
      · exact doUnsubscribe_good h x
      · exact doUnsubscribe_good (doUnsubscribe_good h x) r

theorem remapUnavailable_same (f : Nat → Str) (s : Src) (a : Str) :
    (s.remapUnavailable f a).log = s.log ∧ (s.remapUnavailable f a).avail = s.avail := by
  unfold Src.remapUnavailable
  split
  · exact ⟨rfl, rfl⟩
  · split
    · exact ⟨rfl, rfl⟩
    · exact ⟨rfl, rfl⟩

theorem remapAvailable_same (s : Src) (a : Str) : (s.remapAvailable a).log = s.log ∧ (s.remapAvailable a).avail = s.avail := by
  unfold Src.remapAvailable
  split
  · exact ⟨rfl, rfl⟩
  · split
    · exact ⟨rfl, rfl⟩
    · exact ⟨rfl, rfl⟩

theorem offer_good {s : Src} (h : Good s) (a : Str) : Good (s.offer a).1 := by
  unfold Src.offer
  split
  · exact h
  · have h1 : Good ({ s with avail := s.avail ++ [a], log := .offered a :: s.log } : Src) := by
      refine ⟨fun b => ?_, fun b hb => ?_⟩
      · show (b == a || offered s.log b) = true ↔ b ∈ s.avail ++ [a]
        rw [Bool.or_eq_true, h.1, beq_iff_eq, List.mem_append, List.mem_singleton]
        exact or_comm
      · exact List.mem_append_left _ (h.2 b hb)
    generalize hs0 : ({ s with avail := s.avail ++ [a], log := .offered a :: s.log } : Src) = s0 at *
    have ha : a ∈ s0.avail := by rw [← hs0]; simp
    have hsame := remapAvailable_same s0 a
    have h2 : Good (s0.remapAvailable a) := h1.congr hsame.1 hsame.2
    unfold Src.resubscribe
    split
    · exact h2
    · split
      · exact request_good h2 (.inl ⟨rfl, by rw [hsame.2]; exact ha⟩)
      · exact h2

theorem withdraw_good {s : Src} (h : Good s) (f : Nat → Str) (a : Str) : Good (s.withdraw f a).1 := by
  unfold Src.withdraw
  split
  · have h1 : Good ({ s with avail := s.avail.filter fun b => !(b == a), log := .withdrawn a :: s.log } : Src) := by
      refine ⟨fun b => ?_, fun b hb => ?_⟩
      · show (!(b == a) && offered s.log b) = true ↔ b ∈ s.avail.filter fun b => !(b == a)
        rw [Bool.and_eq_true, h.1, List.mem_filter]
        exact and_comm
      · have : (!(b == a) && served s.log b) = true := hb
        rw [Bool.and_eq_true] at this
        exact List.mem_filter.mpr ⟨h.2 b this.2, this.1⟩
    exact h1.congr (remapUnavailable_same _ _ _).1 (remapUnavailable_same _ _ _).2
  · exact h

theorem fold_log (f : Nat → Str) (l : List Str) : ∀ s : Src, (l.foldl (Src.remapUnavailable f) s).log = s.log := by
  induction l with
  | nil => intro s; rfl
  | cons a l ih => intro s; rw [List.foldl_cons, ih]; exact (remapUnavailable_same f s a).1

theorem lost_good (f : Nat → Str) (s : Src) : Good (s.lost f) := by
  have : (s.lost f).log = .reset :: s.log := fold_log f s.avail _
  unfold Good
  rw [this]
  refine ⟨fun a => ?_, fun a h => ?_⟩
  · show false = true ↔ a ∈ ([] : List Str)
    simp
  · cases h

/-- Sources stay good, and no signal passes anything on. -/
def Quiet (w w' : W) : Prop := (∀ v, (w'.sig v).got = (w.sig v).got) ∧ ((∀ t, Good (w.src t)) → ∀ t, Good (w'.src t))

theorem Quiet.refl (w : W) : Quiet w w := ⟨fun _ => rfl, fun h => h⟩

theorem Quiet.trans {w w' w'' : W} (h : Quiet w w') (h' : Quiet w' w'') : Quiet w w'' :=
  ⟨fun v => (h'.1 v).trans (h.1 v), fun g => h'.2 (h.2 g)⟩

theorem quiet_setSig (w : W) (v : Nat) (x : Sig) (h : x.got = (w.sig v).got) : Quiet w (w.setSig v x) := by
  refine ⟨fun u => ?_, fun g => g⟩
  rw [sig_setSig]
  split
  · next e => rw [h, e]
  · rfl

theorem quiet_setSrc (w : W) (t : Nat) (x : Src) (h : Good (w.src t) → Good x) : Quiet w (w.setSrc t x) := by
  refine ⟨fun _ => rfl, fun g u => ?_⟩
  rw [src_setSrc]
  split
  · exact h (g t)
  · exact g u

theorem quiet_subscribe (w : W) (v : Nat) : Quiet w (w.subscribeInternal v).1 := by
  unfold W.subscribeInternal
  split
  · exact Quiet.refl w
  · exact quiet_setSrc w _ _ fun h => subscribe_good h _ _

theorem quiet_unsubscribe (w : W) (v : Nat) : Quiet w (w.unsubscribeInternal v).1 := by
  unfold W.unsubscribeInternal
  split
  · exact Quiet.refl w
  · exact quiet_setSrc w _ _ fun h => unsubscribe_good h _ _

theorem quiet_stop (w : W) (v : Nat) : Quiet w (w.stop v).1 := by
  unfold W.stop
  split
  · exact quiet_unsubscribe w v
  · exact Quiet.refl w

theorem quiet_start (w : W) (v : Nat) : Quiet w (w.start v).1 := by
  unfold W.start
  split
  · exact quiet_subscribe w v
  · exact Quiet.refl w

theorem quiet_addSource (w : W) (v t : Nat) : Quiet w (w.addSource v t).1 := by
  unfold W.addSource
  split
  · exact Quiet.refl w
  · exact quiet_setSig w v _ rfl

theorem quiet_removeSource (w : W) (v t : Nat) : Quiet w (w.removeSource v t).1 := by
  unfold W.removeSource
  split
  · have h1 := quiet_setSig w v { w.sig v with sources := (w.sig v).sources.erase t } rfl
    dsimp only
    split
    · exact h1
    · split
      · exact h1.trans (quiet_setSig _ v _ rfl)
      · split
        · have h2 := h1.trans (quiet_stop _ v)
          split
          · exact h2
          · exact h2.trans (quiet_setSig _ v _ rfl)
        · exact h1
  · exact Quiet.refl w

theorem quiet_setActive (w : W) (v t : Nat) : Quiet w (w.setActive v t).1 := by
  unfold W.setActive
  split
  · exact Quiet.refl w
  · split
    · exact Quiet.refl w
    · split
      · exact Quiet.refl w
      · have h1 := quiet_stop w v
        dsimp only
        split
        · exact h1
        · have h2 := h1.trans ((quiet_setSig _ v { (w.stop v).1.sig v with active := some t } rfl).trans (quiet_start _ v))
          split
          · exact h2
          · exact h2

theorem quiet_deactivate (w : W) (v : Nat) : Quiet w (w.deactivate v).1 := by
  unfold W.deactivate
  exact (quiet_stop w v).trans (quiet_setSig _ v _ rfl)

theorem quiet_setListened (w : W) (v : Nat) (b : Bool) : Quiet w (w.setListened v b).1 := by
  unfold W.setListened
  split
  · exact Quiet.refl w
  · have h1 := quiet_setSig w v { w.sig v with listened := b } rfl
    dsimp only
    split
    · split
      · exact h1.trans (quiet_subscribe _ v)
      · exact h1.trans (quiet_unsubscribe _ v)
    · exact h1

theorem quiet_setStreamed (w : W) (v : Nat) (b : Bool) : Quiet w (w.setStreamed v b).1 := by
  unfold W.setStreamed
  split
  · exact Quiet.refl w
  · have h1 := quiet_setSig w v { w.sig v with streamed := b } rfl
    dsimp only
    split
    · split
      · exact h1.trans (quiet_subscribe _ v)
      · exact h1.trans (quiet_unsubscribe _ v)
    · exact h1

theorem quiet_connect (w : W) (v : Nat) : Quiet w (w.connect v).1 := by
  unfold W.connect
  have h1 : Quiet w (if (w.sig v).conns = 0 then w.setListened v true else (w, .ok)).1 := by
    split
    · exact quiet_setListened w v true
    · exact Quiet.refl w
  generalize (if (w.sig v).conns = 0 then w.setListened v true else (w, .ok)) = r at *
  dsimp only
  split
  · exact h1
  · exact h1.trans (quiet_setSig _ v _ rfl)

theorem quiet_disconnect (w : W) (v : Nat) : Quiet w (w.disconnect v).1 := by
  unfold W.disconnect
  split
  · exact Quiet.refl w
  · have h1 := quiet_setSig w v { w.sig v with conns := (w.sig v).conns - 1 } rfl
    dsimp only
    split
    · exact h1.trans (quiet_setListened _ v false)
    · exact h1

theorem quiet_detachAll (v : Nat) : ∀ (l : List Nat) (w : W), Quiet w (w.detachAll v l) := by
  intro l
  induction l with
  | nil => intro w; exact Quiet.refl w
  | cons t l ih =>
    intro w
    unfold W.detachAll
    dsimp only
    split
    · refine Quiet.trans ?_ (ih _)
      exact quiet_setSrc w t _ fun h => h.congr rfl rfl
    · exact ih w

theorem quiet_remove (w : W) (v : Nat) : Quiet w (w.remove v).1 := by
  unfold W.remove
  split
  · exact Quiet.refl w
  · dsimp only
    have h1 := (quiet_setSig w v { w.sig v with removed := true } rfl).trans (quiet_stop _ v)
    generalize ((w.setSig v { w.sig v with removed := true }).stop v).1 = w1 at *
    have h2 := h1.trans (quiet_setSig w1 v { w1.sig v with active := none } rfl)
    generalize w1.setSig v { w1.sig v with active := none } = w2 at *
    exact (h2.trans (quiet_detachAll v _ w2)).trans (quiet_setSig _ v _ rfl)

theorem quiet_addSignals (t : Nat) : ∀ (l : List Nat) (w : W), Quiet w (w.addSignals t l).1 := by
  intro l
  induction l with
  | nil => intro w; exact Quiet.refl w
  | cons v l ih =>
    intro w
    unfold W.addSignals
    split
    · dsimp only
      split
      · exact Quiet.refl w
      · have h1 := (quiet_setSrc w t { w.src t with items := (w.src t).items ++ [⟨(w.src t).key (w.remote v), 0, v⟩] }
          fun h => h.congr rfl rfl).trans (quiet_addSource _ v t)
        split
        · exact h1
        · exact h1.trans (ih _)
    · exact ih w

theorem quiet_removeSignals (t : Nat) : ∀ (l : List Nat) (w : W), Quiet w (w.removeSignals t l).1 := by
  intro l
  induction l with
  | nil => intro w; exact Quiet.refl w
  | cons v l ih =>
    intro w
    unfold W.removeSignals
    have h1 := quiet_removeSource w v t
    generalize w.removeSource v t = r at *
    dsimp only
    split
    · exact h1
    · split
      · exact h1
      · refine Quiet.trans ?_ (ih _)
        refine h1.trans ?_
        exact quiet_setSrc r.1 t _ fun h => h.congr rfl rfl

theorem quiet_removeFromAll (t : Nat) : ∀ (l : List Nat) (w : W), Quiet w (w.removeFromAll t l).1 := by
  intro l
  induction l with
  | nil => intro w; exact Quiet.refl w
  | cons v l ih =>
    intro w
    unfold W.removeFromAll
    have h1 := quiet_removeSource w v t
    generalize w.removeSource v t = r at *
    dsimp only
    split
    · exact h1
    · exact h1.trans (ih _)

theorem quiet_removeAll (w : W) (t : Nat) : Quiet w (w.removeAll t).1 := by
  unfold W.removeAll
  have h1 := quiet_removeFromAll t ((w.src t).items.map (·.sig)) w
  generalize w.removeFromAll t ((w.src t).items.map (·.sig)) = r at *
  dsimp only
  split
  · exact h1
  · exact h1.trans (quiet_setSrc r.1 t _ fun h => h.congr rfl rfl)

theorem quiet_destroy (w : W) (t : Nat) : Quiet w (w.destroy t).1 := by
  unfold W.destroy
  have h0 := quiet_setSrc w t { w.src t with alive := false } fun h => h.congr rfl rfl
  generalize w.setSrc t { w.src t with alive := false } = w1 at *
  have h1 := h0.trans (quiet_removeFromAll t ((w1.src t).items.map (·.sig)) w1)
  dsimp only
  generalize w1.removeFromAll t ((w1.src t).items.map (·.sig)) = r at *
  exact h1.trans (quiet_setSrc r.1 t _ fun h => h.congr rfl rfl)

/-- Every call but a packet is quiet. -/
theorem step_quiet (w : W) (o : Op) (h : ∀ t a x, o ≠ .packet t a x) : Quiet w (step w o).1 := by
  cases o with
  | addSignals t vs => unfold step; dsimp only; split; exact quiet_addSignals t vs w; exact Quiet.refl w
  | removeSignals t vs => unfold step; dsimp only; split; exact quiet_removeSignals t vs w; exact Quiet.refl w
  | removeAll t => unfold step; dsimp only; split; exact quiet_removeAll w t; exact Quiet.refl w
  | destroy t => unfold step; dsimp only; split; exact quiet_destroy w t; exact Quiet.refl w
  | setSourceActive t b => exact quiet_setSrc w t _ fun h => h.congr rfl rfl
  | setActive v t => exact quiet_setActive w v t
  | deactivate v => exact quiet_deactivate w v
  | setStreamed v b => exact quiet_setStreamed w v b
  | connect v => exact quiet_connect w v
  | disconnect v => exact quiet_disconnect w v
  | setDomain v d => exact quiet_setSig w v _ rfl
  | remove v => exact quiet_remove w v
  | offer t a => unfold step; dsimp only; split; exact quiet_setSrc w t _ fun h => offer_good h a; exact Quiet.refl w
  | withdraw t a => unfold step; dsimp only; split; exact quiet_setSrc w t _ fun h => withdraw_good h _ a; exact Quiet.refl w
  | lost t => unfold step; dsimp only; split; exact quiet_setSrc w t _ fun _ => lost_good _ _; exact Quiet.refl w
  | connected t =>
    unfold step; dsimp only; split
    · refine quiet_setSrc w t _ fun h => ?_
      unfold Src.connected
      split
      · exact h.congr rfl rfl
      · exact h
    · exact Quiet.refl w
  | packet t a x => exact absurd rfl (h t a x)
  | deny t l => exact quiet_setSrc w t _ fun h => h.congr rfl rfl

/-- What a packet does. -/
theorem step_packet (w : W) (t : Nat) (a : Str) (x : Nat) :
    (step w (.packet t a x)).1 = w ∨ ∃ v, (w.src t).alive = true ∧ w.receiver t a = some v ∧
      (step w (.packet t a x)).1 = w.setSig v { w.sig v with got := x :: (w.sig v).got } := by
  unfold step
  dsimp only
  split
  · next h =>
    split
    · exact .inl rfl
    · next v hv => exact .inr ⟨v, h, hv, rfl⟩
  · exact .inl rfl

theorem receiver_some {w : W} {t v : Nat} {a : Str} (h : w.receiver t a = some v) :
    (w.src t).active = true ∧ (∃ i, (w.src t).find a = some i ∧ i.sig = v) ∧ (w.sig v).streamed = true ∧ w.activeSrc v = some t := by
  unfold W.receiver at h
  split at h
  · next ha =>
    split at h
    · cases h
    · next i hi =>
      split at h
      · next hc =>
        cases h
        rw [Bool.and_eq_true, decide_eq_true_eq] at hc
        exact ⟨ha, ⟨i, hi, rfl⟩, hc.1, hc.2⟩
      · cases h
  · cases h

theorem run_good : ∀ (os : List Op) (w : W), (∀ t, Good (w.src t)) → ∀ t, Good ((run w os).src t) := by
  intro os
  induction os with
  | nil => intro w h; exact h
  | cons o os ih =>
    intro w h
    refine ih _ ?_
    cases o with
    | packet t a x =>
      rcases step_packet w t a x with e | ⟨v, _, _, e⟩
      · rw [e]; exact h
      · rw [e]; exact h
    | _ => exact (step_quiet w _ (by simp)).2 h

end Verif.Mirror
