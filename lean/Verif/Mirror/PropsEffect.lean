import Verif.Mirror.Props

/-!
# C134: calls do what their names say
-/

namespace Verif.Mirror.Props
open Verif.Component (Str)
open Spec

theorem alike_refl (a : Sig) : Alike a a := rfl

theorem subscribe_sig (w : W) (v : Nat) : (w.subscribeInternal v).1.sig = w.sig := by
  unfold W.subscribeInternal; split <;> rfl

theorem unsubscribe_sig (w : W) (v : Nat) : (w.unsubscribeInternal v).1.sig = w.sig := by
  unfold W.unsubscribeInternal; split <;> rfl

theorem doSub_alive (s : Src) (r : Str) : (s.doSubscribe r).1.alive = s.alive := by
  unfold Src.doSubscribe Src.request Src.setCnt
  split
  · rfl
  · dsimp only; split
    · rfl
    · split <;> rfl

theorem doUnsub_alive (s : Src) (r : Str) : (s.doUnsubscribe r).1.alive = s.alive := by
  unfold Src.doUnsubscribe Src.request Src.setCnt
  split
  · rfl
  · dsimp only; split
    · rfl
    · split
      · rfl
      · split <;> rfl

theorem subscribe_alive (w : W) (v t : Nat) : ((w.subscribeInternal v).1.src t).alive = (w.src t).alive := by
  unfold W.subscribeInternal
  split
  · rfl
  · next u _ =>
    dsimp only
    rw [src_setSrc]
    split
    · next e =>
      subst e
      unfold Src.subscribe
      split
      · rfl
      · split
        · exact doSub_alive _ _
        · dsimp only
          split
          · exact doSub_alive _ _
          · exact (doSub_alive _ _).trans (doSub_alive _ _)
    · rfl

theorem unsubscribe_alive (w : W) (v t : Nat) : ((w.unsubscribeInternal v).1.src t).alive = (w.src t).alive := by
  unfold W.unsubscribeInternal
  split
  · rfl
  · next u _ =>
    dsimp only
    rw [src_setSrc]
    split
    · next e =>
      subst e
      unfold Src.unsubscribe
      split
      · rfl
      · split
        · exact doUnsub_alive _ _
        · dsimp only
          split
          · exact doUnsub_alive _ _
          · exact (doUnsub_alive _ _).trans (doUnsub_alive _ _)
    · rfl

theorem stop_sig (w : W) (v : Nat) : (w.stop v).1.sig = w.sig := by
  unfold W.stop; split
  · exact unsubscribe_sig w v
  · rfl

theorem stop_alive (w : W) (v t : Nat) : ((w.stop v).1.src t).alive = (w.src t).alive := by
  unfold W.stop; split
  · exact unsubscribe_alive w v t
  · rfl

theorem start_sig (w : W) (v : Nat) : (w.start v).1.sig = w.sig := by
  unfold W.start; split
  · exact subscribe_sig w v
  · rfl

theorem setListened_sig (w : W) (v : Nat) (b : Bool) :
    ((w.setListened v b).1.sig v = { w.sig v with listened := b }) ∧ ∀ u, u ≠ v → (w.setListened v b).1.sig u = w.sig u := by
  unfold W.setListened
  split
  · next h => exact ⟨by rw [← h], fun _ _ => rfl⟩
  · dsimp only
    split
    · cases b
      · dsimp only
        simp only [Bool.false_eq_true, if_false]
        rw [unsubscribe_sig]
        exact ⟨by rw [sig_setSig, if_pos rfl], fun u hu => by rw [sig_setSig, if_neg hu]⟩
      · simp only [if_true]
        rw [subscribe_sig]
        exact ⟨by rw [sig_setSig, if_pos rfl], fun u hu => by rw [sig_setSig, if_neg hu]⟩
    · exact ⟨by rw [sig_setSig, if_pos rfl], fun u hu => by rw [sig_setSig, if_neg hu]⟩

/-- What connecting does. -/
theorem connect_sig (w : W) (v : Nat) : (w.connect v).2 ≠ .ignored ∧
    (∀ u, u ≠ v → (w.connect v).1.sig u = w.sig u) ∧
    ((w.connect v).2 = .ok → Alike ((w.connect v).1.sig v) { w.sig v with conns := (w.sig v).conns + 1 }) ∧
    ((w.connect v).2 ≠ .ok → Alike ((w.connect v).1.sig v) (w.sig v)) := by
  obtain ⟨h1, h2⟩ := setListened_sig w v true
  unfold W.connect
  by_cases h0 : (w.sig v).conns = 0
  · rw [if_pos h0]
    dsimp only
    split
    · next hf =>
      refine ⟨fun e => by rw [e] at hf; simp [R.failed] at hf, h2, fun e => by rw [e] at hf; simp [R.failed] at hf, fun _ => ?_⟩
      rw [h1]; rfl
    · refine ⟨by simp, fun u hu => by rw [sig_setSig, if_neg hu]; exact h2 u hu, fun _ => ?_, by simp⟩
      rw [sig_setSig, if_pos rfl, h1]; rfl
  · rw [if_neg h0]
    dsimp only [R.failed]
    simp only [Bool.false_eq_true, if_false]
    refine ⟨by simp, fun u hu => by rw [sig_setSig, if_neg hu], fun _ => ?_, by simp⟩
    rw [sig_setSig, if_pos rfl]; rfl

theorem disconnect_sig (w : W) (v : Nat) :
    (∀ u, u ≠ v → (w.disconnect v).1.sig u = w.sig u) ∧
    ((w.disconnect v).2 = .notFound → (w.sig v).conns = 0 → (w.disconnect v).1 = w) ∧
    (0 < (w.sig v).conns → Alike ((w.disconnect v).1.sig v) { w.sig v with conns := (w.sig v).conns - 1 }) ∧
    ((w.sig v).conns = 0 → (w.disconnect v).2 = .notFound) := by
  unfold W.disconnect
  split
  · next h => exact ⟨fun _ _ => rfl, fun _ _ => rfl, fun h' => by omega, fun _ => rfl⟩
  · next h =>
    dsimp only
    obtain ⟨h1, h2⟩ := setListened_sig (w.setSig v { w.sig v with conns := (w.sig v).conns - 1 }) v false
    split
    · refine ⟨fun u hu => by rw [h2 u hu, sig_setSig, if_neg hu], fun _ e => absurd e h, fun _ => ?_, fun e => absurd e h⟩
      rw [h1, sig_setSig, if_pos rfl]; rfl
    · refine ⟨fun u hu => by rw [sig_setSig, if_neg hu], fun _ e => absurd e h, fun _ => ?_, fun e => absurd e h⟩
      rw [sig_setSig, if_pos rfl]; rfl

theorem setActive_sig (w : W) (v t : Nat) :
    (∀ u, u ≠ v → (w.setActive v t).1.sig u = w.sig u) ∧
    ((w.setActive v t).2 = .ok → t ∈ (w.sig v).sources ∧ (w.src t).alive = true ∧
      (w.setActive v t).1.sig v = { w.sig v with active := some t }) ∧
    ((w.setActive v t).2 = .ignored → (w.sig v).active = some t ∧ (w.setActive v t).1 = w) ∧
    (t ∉ (w.sig v).sources → (w.src t).alive = true → (w.sig v).active ≠ some t → w.setActive v t = (w, .notFound)) := by
  unfold W.setActive
  split
  · next h => exact ⟨fun _ _ => rfl, by simp, fun _ => ⟨(activeSrc_some.mp h).1, rfl⟩, fun _ _ h' => absurd (activeSrc_some.mp h).1 h'⟩
  · split
    · exact ⟨fun _ _ => rfl, by simp, by simp, fun _ _ _ => rfl⟩
    · next hc =>
      have hm : t ∈ (w.sig v).sources := by simpa using hc
      split
      · exact ⟨fun _ _ => rfl, by simp, by simp, fun h => absurd hm h⟩
      · next ha =>
        have ha' : (w.src t).alive = true := by simpa using ha
        dsimp only
        split
        · next hf =>
          refine ⟨fun u _ => by rw [stop_sig], fun e => by rw [e] at hf; simp [R.failed] at hf,
            fun e => by rw [e] at hf; simp [R.failed] at hf, fun h => absurd hm h⟩
        · split
          · next hf =>
            refine ⟨fun u hu => ?_, fun e => by rw [e] at hf; simp [R.failed] at hf,
              fun e => by rw [e] at hf; simp [R.failed] at hf, fun h => absurd hm h⟩
            rw [start_sig, sig_setSig, if_neg hu, stop_sig]
          · refine ⟨fun u hu => ?_, fun _ => ⟨hm, ha', ?_⟩, by simp, fun h => absurd hm h⟩
            · dsimp only
              rw [start_sig, sig_setSig, if_neg hu, stop_sig]
            · dsimp only
              rw [start_sig, sig_setSig, if_pos rfl, stop_sig]

theorem deactivate_sig (w : W) (v : Nat) : (w.deactivate v).2 ≠ .ignored ∧ (∀ u, u ≠ v → (w.deactivate v).1.sig u = w.sig u) ∧
    (w.deactivate v).1.sig v = { w.sig v with active := none } := by
  unfold W.deactivate
  dsimp only
  refine ⟨?_, fun u hu => by rw [sig_setSig, if_neg hu, stop_sig], by rw [sig_setSig, if_pos rfl, stop_sig]⟩
  split
  · next h => intro e; rw [e] at h; simp [R.failed] at h
  · simp

theorem setStreamed_sig (w : W) (v : Nat) (b : Bool) : (∀ u, u ≠ v → (w.setStreamed v b).1.sig u = w.sig u) ∧
    (w.setStreamed v b).1.sig v = { w.sig v with streamed := b } ∧
    ((w.setStreamed v b).2 = .ignored ↔ (w.sig v).streamed = b) ∧ ((w.setStreamed v b).2 = .ignored → (w.setStreamed v b).1 = w) := by
  unfold W.setStreamed
  split
  · next h => exact ⟨fun _ _ => rfl, by rw [← h], by simp [h], fun _ => rfl⟩
  · next h =>
    dsimp only
    split
    · have hs : (if b = true then (w.setSig v { w.sig v with streamed := b }).subscribeInternal v else
          (w.setSig v { w.sig v with streamed := b }).unsubscribeInternal v).1.sig = (w.setSig v { w.sig v with streamed := b }).sig := by
        split
        · exact subscribe_sig _ _
        · exact unsubscribe_sig _ _
      have hi : ∀ r : R, (if r.failed = true then r else .ok) ≠ .ignored := by intro r; cases r <;> simp [R.failed]
      refine ⟨fun u hu => ?_, ?_, ⟨fun e => absurd e (hi _), fun e => absurd e h⟩, fun e => absurd e (hi _)⟩
      · rw [hs, sig_setSig, if_neg hu]
      · rw [hs, sig_setSig, if_pos rfl]
    · exact ⟨fun u hu => by rw [sig_setSig, if_neg hu], by rw [sig_setSig, if_pos rfl], by simp [h], by simp⟩

theorem detachAll_sig (v : Nat) : ∀ (l : List Nat) (w : W), (w.detachAll v l).sig = w.sig := by
  intro l
  induction l with
  | nil => intro w; rfl
  | cons t l ih =>
    intro w
    unfold W.detachAll
    dsimp only
    rw [ih]
    split <;> rfl

theorem remove_sig (w : W) (v : Nat) : (∀ u, u ≠ v → (w.remove v).1.sig u = w.sig u) ∧
    ((w.sig v).removed = true → w.remove v = (w, .ignored)) ∧
    ((w.sig v).removed = false → (w.remove v).2 = .ok ∧
      (w.remove v).1.sig v = { w.sig v with removed := true, active := none, sources := [], conns := 0 }) := by
  unfold W.remove
  split
  · next h => exact ⟨fun _ _ => rfl, fun _ => rfl, fun h' => by rw [h] at h'; cases h'⟩
  · next h =>
    refine ⟨fun u hu => ?_, fun h' => absurd h' h, fun _ => ⟨rfl, ?_⟩⟩
    · dsimp only
      rw [sig_setSig, if_neg hu, detachAll_sig, sig_setSig, if_neg hu, stop_sig, sig_setSig, if_neg hu]
    · dsimp only
      rw [sig_setSig, if_pos rfl, detachAll_sig, sig_setSig, if_pos rfl, stop_sig, sig_setSig, if_pos rfl]

theorem addSource_sig (w : W) (v t : Nat) : (w.addSource v t).1.src = w.src ∧ (∀ u, u ≠ v → (w.addSource v t).1.sig u = w.sig u) ∧
    (t ∈ (w.sig v).sources → w.addSource v t = (w, .duplicate)) ∧
    (t ∉ (w.sig v).sources → (w.addSource v t).2 = .ok ∧
      (w.addSource v t).1.sig v = { w.sig v with sources := (w.sig v).sources ++ [t] }) := by
  unfold W.addSource
  split
  · next h => exact ⟨rfl, fun _ _ => rfl, fun _ => rfl, fun h' => absurd (by simpa using h) h'⟩
  · next h =>
    exact ⟨rfl, fun u hu => by rw [sig_setSig, if_neg hu], fun h' => absurd (by simpa using h') h,
      fun _ => ⟨rfl, by rw [sig_setSig, if_pos rfl]⟩⟩

theorem addSignals_sig (t : Nat) : ∀ (vs : List Nat) (w : W),
    (w.addSignals t vs).2 ≠ .ignored ∧ (∀ u, u ∉ vs → (w.addSignals t vs).1.sig u = w.sig u) ∧
    ((w.addSignals t vs).2 = .ok → ∀ u ∈ vs, ((w.sig u).pub = true → t ∉ (w.sig u).sources) ∧
      (w.addSignals t vs).1.sig u =
      if (w.sig u).pub then { w.sig u with sources := (w.sig u).sources ++ [t] } else w.sig u) := by
  intro vs
  induction vs with
  | nil => intro w; exact ⟨by simp [W.addSignals], fun _ _ => rfl, by simp⟩
  | cons v vs ih =>
    intro w
    unfold W.addSignals
    by_cases hp : (w.sig v).pub = true
    · rw [if_pos hp]
      dsimp only
      split
      · exact ⟨by simp, fun _ _ => rfl, by simp⟩
      · next hfind =>
        generalize hw1 : w.setSrc t { w.src t with items := (w.src t).items ++ [⟨(w.src t).key (w.remote v), 0, v⟩] } = w1
        have hsig1 : w1.sig = w.sig := by rw [← hw1, sig_setSrc]
        obtain ⟨_, h2, h3, h4⟩ := addSource_sig w1 v t
        by_cases hm : t ∈ (w1.sig v).sources
        · rw [h3 hm]
          simp only [R.failed, if_true]
          exact ⟨by simp, fun _ _ => by rw [hsig1], by simp⟩
        · obtain ⟨h5, h6⟩ := h4 hm
          rw [h5]
          simp only [R.failed, Bool.false_eq_true, if_false]
          obtain ⟨i1, i2, i3⟩ := ih (w1.addSource v t).1
          refine ⟨i1, ?_, ?_⟩
          · intro u hu
            simp only [List.mem_cons, not_or] at hu
            rw [i2 u hu.2, h2 u hu.1, hsig1]
          · intro hok u hu
            by_cases hv : u = v
            · subst hv
              have hin : u ∉ vs := by
                intro hin
                have := (i3 hok u hin).1
                rw [h6] at this
                exact this (by rw [hsig1]; exact hp) (by simp)
              refine ⟨fun _ => by rw [hsig1] at hm; exact hm, ?_⟩
              rw [i2 u hin, h6, if_pos hp, hsig1]
            · have hin : u ∈ vs := (List.mem_cons.mp hu).resolve_left hv
              obtain ⟨j1, j2⟩ := i3 hok u hin
              rw [h2 u hv, hsig1] at j1 j2
              exact ⟨j1, j2⟩
    · rw [if_neg hp]
      obtain ⟨i1, i2, i3⟩ := ih w
      refine ⟨i1, fun u hu => i2 u (fun h => hu (List.mem_cons_of_mem _ h)), ?_⟩
      intro hok u hu
      rcases List.mem_cons.mp hu with e | hin
      · subst e
        refine ⟨fun h => absurd h hp, ?_⟩
        rw [if_neg hp]
        by_cases hin : u ∈ vs
        · rw [(i3 hok u hin).2, if_neg hp]
        · exact i2 u hin
      · exact i3 hok u hin

theorem removeSource_sig (w : W) (v t : Nat) : (w.removeSource v t).2 ≠ .ignored ∧
    (∀ u, ((w.removeSource v t).1.src u).alive = (w.src u).alive) ∧
    (∀ u, u ≠ v → (w.removeSource v t).1.sig u = w.sig u) ∧
    ((w.removeSource v t).2 = .ok → t ∈ (w.sig v).sources ∧ (w.removeSource v t).1.sig v =
      { w.sig v with sources := (w.sig v).sources.erase t, active := without w t (w.sig v).active }) ∧
    (t ∉ (w.sig v).sources → w.removeSource v t = (w, .notFound)) := by
  unfold W.removeSource
  split
  · next hc =>
    have hm : t ∈ (w.sig v).sources := by simpa using hc
    simp only [sig_setSig, if_true]
    cases ha : (w.sig v).active with
    | none =>
      refine ⟨by simp, fun _ => rfl, fun u hu => by rw [sig_setSig, if_neg hu], fun _ => ⟨hm, ?_⟩, fun h => absurd hm h⟩
      rw [sig_setSig, if_pos rfl]
      simp [without, ha]
    | some x =>
      dsimp only
      rw [src_setSig]
      split
      · next hd =>
        refine ⟨by simp, fun _ => rfl, fun u hu => by rw [sig_setSig, if_neg hu, sig_setSig, if_neg hu], fun _ => ⟨hm, ?_⟩, fun h => absurd hm h⟩
        rw [sig_setSig, if_pos rfl]
        simp [without, hd, Option.filter]
      · next hd =>
        have hd' : (w.src x).alive = true := by simpa using hd
        split
        · next e =>
          subst e
          split
          · next hf =>
            refine ⟨fun e => by rw [e] at hf; simp [R.failed] at hf, fun u => by rw [stop_alive, src_setSig], fun u hu => ?_,
              fun e => by rw [e] at hf; simp [R.failed] at hf, fun h => absurd hm h⟩
            rw [stop_sig, sig_setSig, if_neg hu]
          · refine ⟨by simp, fun u => ?_, fun u hu => ?_, fun _ => ⟨hm, ?_⟩, fun h => absurd hm h⟩
            · rw [src_setSig, stop_alive, src_setSig]
            · rw [sig_setSig, if_neg hu, stop_sig, sig_setSig, if_neg hu]
            · rw [sig_setSig, if_pos rfl, stop_sig, sig_setSig, if_pos rfl]
              simp [without, hd', Option.filter]
        · next e =>
          refine ⟨by simp, fun _ => rfl, fun u hu => by rw [sig_setSig, if_neg hu], fun _ => ⟨hm, ?_⟩, fun h => absurd hm h⟩
          rw [sig_setSig, if_pos rfl]
          simp [without, hd', e, ha, Option.filter]
  · next hc =>
    exact ⟨by simp, fun _ => rfl, fun _ _ => rfl, by simp, fun _ => rfl⟩

theorem without_congr {w w' : W} (h : ∀ u, (w'.src u).alive = (w.src u).alive) (t : Nat) (a : Option Nat) :
    without w' t a = without w t a := by
  unfold without
  cases a with
  | none => rfl
  | some u => simp [h]

theorem removeSignals_sig (t : Nat) : ∀ (vs : List Nat) (w : W),
    (w.removeSignals t vs).2 ≠ .ignored ∧ (∀ u, u ∉ vs → (w.removeSignals t vs).1.sig u = w.sig u) ∧
    ((w.removeSignals t vs).2 = .ok → vs.Nodup → ∀ u ∈ vs, t ∈ (w.sig u).sources ∧ (w.removeSignals t vs).1.sig u =
      { w.sig u with sources := (w.sig u).sources.erase t, active := without w t (w.sig u).active }) := by
  intro vs
  induction vs with
  | nil => intro w; exact ⟨by simp [W.removeSignals], fun _ _ => rfl, by simp⟩
  | cons v vs ih =>
    intro w
    unfold W.removeSignals
    obtain ⟨h1, h2, h3, h4, _⟩ := removeSource_sig w v t
    dsimp only
    split
    · next hf =>
      refine ⟨h1, fun u hu => h3 u (fun e => hu (by simp [e])), fun e => by rw [e] at hf; simp [R.failed] at hf⟩
    · next hf =>
      have hok1 : (w.removeSource v t).2 = .ok := by
        generalize (w.removeSource v t).2 = r at hf h1
        cases r <;> simp [R.failed] at hf h1 ⊢
      obtain ⟨h5, h6⟩ := h4 hok1
      split
      · exact ⟨by simp, fun u hu => h3 u (fun e => hu (by simp [e])), by simp⟩
      · next i hi =>
        generalize hw1 : (w.removeSource v t).1.setSrc t (((w.removeSource v t).1.src t).erase i.key) = w1
        have hs1 : w1.sig = (w.removeSource v t).1.sig := by rw [← hw1, sig_setSrc]
        have ha1 : ∀ u, (w1.src u).alive = (w.src u).alive := by
          intro u
          rw [← hw1, src_setSrc]
          split
          · next e => rw [e]; exact h2 t
          · exact h2 u
        obtain ⟨i1, i2, i3⟩ := ih w1
        refine ⟨i1, ?_, ?_⟩
        · intro u hu
          simp only [List.mem_cons, not_or] at hu
          rw [i2 u hu.2, hs1, h3 u hu.1]
        · intro hok hnd u hu
          rw [List.nodup_cons] at hnd
          by_cases hv : u = v
          · subst hv
            refine ⟨h5, ?_⟩
            rw [i2 u hnd.1, hs1, h6]
          · have hin : u ∈ vs := (List.mem_cons.mp hu).resolve_left hv
            have := i3 hok hnd.2 u hin
            rw [hs1, h3 u hv, without_congr ha1] at this
            exact this

theorem removeFromAll_sig (t : Nat) : ∀ (vs : List Nat) (w : W),
    (w.removeFromAll t vs).2 ≠ .ignored ∧ (∀ u, ((w.removeFromAll t vs).1.src u).alive = (w.src u).alive) ∧
    (∀ u, u ∉ vs → (w.removeFromAll t vs).1.sig u = w.sig u) ∧
    ((w.removeFromAll t vs).2 = .ok → vs.Nodup → ∀ u ∈ vs, t ∈ (w.sig u).sources ∧ (w.removeFromAll t vs).1.sig u =
      { w.sig u with sources := (w.sig u).sources.erase t, active := without w t (w.sig u).active }) := by
  intro vs
  induction vs with
  | nil => intro w; exact ⟨by simp [W.removeFromAll], fun _ => rfl, fun _ _ => rfl, by simp⟩
  | cons v vs ih =>
    intro w
    unfold W.removeFromAll
    obtain ⟨h1, h2, h3, h4, _⟩ := removeSource_sig w v t
    dsimp only
    split
    · next hf =>
      refine ⟨h1, h2, fun u hu => h3 u (fun e => hu (by simp [e])), fun e => by rw [e] at hf; simp [R.failed] at hf⟩
    · next hf =>
      have hok1 : (w.removeSource v t).2 = .ok := by
        generalize (w.removeSource v t).2 = r at hf h1
        cases r <;> simp [R.failed] at hf h1 ⊢
      obtain ⟨h5, h6⟩ := h4 hok1
      obtain ⟨i1, i0, i2, i3⟩ := ih (w.removeSource v t).1
      refine ⟨i1, fun u => (i0 u).trans (h2 u), ?_, ?_⟩
      · intro u hu
        simp only [List.mem_cons, not_or] at hu
        rw [i2 u hu.2, h3 u hu.1]
      · intro hok hnd u hu
        rw [List.nodup_cons] at hnd
        by_cases hv : u = v
        · subst hv
          refine ⟨h5, ?_⟩
          rw [i2 u hnd.1, h6]
        · have hin : u ∈ vs := (List.mem_cons.mp hu).resolve_left hv
          have := i3 hok hnd.2 u hin
          rw [h3 u hv, without_congr h2] at this
          exact this

/-! ## C134 -/

/-- A call that is ignored changes nothing, and no call changes signals that it is not about, apart from the packet they passed on. -/
theorem C134_nothing_else (w : W) (o : Op) :
    ((step w o).2 = .ignored → (step w o).1 = w) ∧
    ∀ u, ¬ About o u → Alike ((step w o).1.sig u) (w.sig u) := by
  cases o with
  | addSignals t vs =>
    unfold step; dsimp only
    obtain ⟨h1, h2, _⟩ := addSignals_sig t vs w
    split
    · exact ⟨fun e => absurd e h1, fun u hu => by rw [h2 u hu]; rfl⟩
    · exact ⟨fun _ => rfl, fun _ _ => rfl⟩
  | removeSignals t vs =>
    unfold step; dsimp only
    obtain ⟨h1, h2, _⟩ := removeSignals_sig t vs w
    split
    · exact ⟨fun e => absurd e h1, fun u hu => by rw [h2 u hu]; rfl⟩
    · exact ⟨fun _ => rfl, fun _ _ => rfl⟩
  | removeAll t =>
    unfold step; dsimp only
    split
    · refine ⟨fun e => ?_, fun u hu => absurd trivial hu⟩
      unfold W.removeAll at e
      dsimp only at e
      split at e
      · exact absurd e (removeFromAll_sig t _ w).1
      · cases e
    · exact ⟨fun _ => rfl, fun _ _ => rfl⟩
  | destroy t =>
    unfold step; dsimp only
    split
    · exact ⟨fun e => by simp [W.destroy] at e, fun u hu => absurd trivial hu⟩
    · exact ⟨fun _ => rfl, fun _ _ => rfl⟩
  | setSourceActive t b => exact ⟨fun e => by simp [step] at e, fun _ _ => rfl⟩
  | setActive v t =>
    obtain ⟨h1, _, h3, _⟩ := setActive_sig w v t
    exact ⟨fun e => (h3 e).2, fun u hu => by show Alike ((w.setActive v t).1.sig u) _; rw [h1 u hu]; rfl⟩
  | deactivate v =>
    obtain ⟨h0, h1, _⟩ := deactivate_sig w v
    exact ⟨fun e => absurd e h0, fun u hu => by show Alike ((w.deactivate v).1.sig u) _; rw [h1 u hu]; rfl⟩
  | setStreamed v b =>
    obtain ⟨h1, _, _, h4⟩ := setStreamed_sig w v b
    exact ⟨h4, fun u hu => by show Alike ((w.setStreamed v b).1.sig u) _; rw [h1 u hu]; rfl⟩
  | connect v =>
    obtain ⟨h0, h1, _⟩ := connect_sig w v
    exact ⟨fun e => absurd e h0, fun u hu => by show Alike ((w.connect v).1.sig u) _; rw [h1 u hu]; rfl⟩
  | disconnect v =>
    obtain ⟨h1, _⟩ := disconnect_sig w v
    refine ⟨fun e => ?_, fun u hu => by show Alike ((w.disconnect v).1.sig u) _; rw [h1 u hu]; rfl⟩
    have e' : (w.disconnect v).2 = .ignored := e
    unfold W.disconnect W.setListened at e'
    have hi : ∀ r : R, (if r.failed = true then r else .ok) ≠ .ignored := by intro r; cases r <;> simp [R.failed]
    split at e'
    · cases e'
    · dsimp only at e'
      split at e'
      · split at e'
        · cases e'
        · split at e'
          · exact absurd e' (hi _)
          · cases e'
      · cases e'
  | setDomain v d => exact ⟨fun e => by simp [step] at e, fun u hu => by unfold step; dsimp only; rw [sig_setSig, if_neg (show ¬ u = v from hu)]; rfl⟩
  | remove v =>
    obtain ⟨h1, h2, h3⟩ := remove_sig w v
    refine ⟨fun e => ?_, fun u hu => by show Alike ((w.remove v).1.sig u) _; rw [h1 u hu]; rfl⟩
    have e' : (w.remove v).2 = .ignored := e
    show (w.remove v).1 = w
    cases hr : (w.sig v).removed with
    | true => rw [h2 hr]
    | false => rw [(h3 hr).1] at e'; cases e'
  | offer t a =>
    unfold step; dsimp only
    split
    · refine ⟨fun e => ?_, fun _ _ => rfl⟩
      exfalso
      revert e
      dsimp only
      unfold Src.offer Src.resubscribe Src.request
      split
      · simp
      · split
        · simp
        · split
          · split <;> simp
          · simp
    · exact ⟨fun _ => rfl, fun _ _ => rfl⟩
  | withdraw t a =>
    unfold step; dsimp only
    split
    · refine ⟨fun e => ?_, fun _ _ => rfl⟩
      exfalso
      revert e
      dsimp only
      unfold Src.withdraw
      split <;> simp
    · exact ⟨fun _ => rfl, fun _ _ => rfl⟩
  | lost t =>
    unfold step; dsimp only
    split
    · exact ⟨fun e => by simp at e, fun _ _ => rfl⟩
    · exact ⟨fun _ => rfl, fun _ _ => rfl⟩
  | connected t =>
    unfold step; dsimp only
    split
    · refine ⟨fun e => ?_, fun _ _ => rfl⟩
      exfalso
      revert e
      dsimp only
      unfold Src.connected
      split <;> simp
    · exact ⟨fun _ => rfl, fun _ _ => rfl⟩
  | packet t a x =>
    unfold step; dsimp only
    split
    · split
      · exact ⟨fun _ => rfl, fun _ _ => rfl⟩
      · next v _ =>
        refine ⟨fun e => by simp at e, fun u _ => ?_⟩
        dsimp only
        rw [sig_setSig]
        split
        · next e => subst e; rfl
        · rfl
    · exact ⟨fun _ => rfl, fun _ _ => rfl⟩
  | deny t l => exact ⟨fun e => by simp [step] at e, fun _ _ => rfl⟩

/-- What calls on a signal do when they succeed, in any state. -/
theorem C134_signal (w : W) (v : Nat) :
    ((step w (.connect v)).2 = .ok → Alike ((step w (.connect v)).1.sig v) { w.sig v with conns := (w.sig v).conns + 1 }) ∧
    ((step w (.connect v)).2 ≠ .ok → Alike ((step w (.connect v)).1.sig v) (w.sig v)) ∧
    (0 < (w.sig v).conns → Alike ((step w (.disconnect v)).1.sig v) { w.sig v with conns := (w.sig v).conns - 1 }) ∧
    ((w.sig v).conns = 0 → step w (.disconnect v) = (w, .notFound)) ∧
    Alike ((step w (.deactivate v)).1.sig v) { w.sig v with active := none } ∧
    (∀ b, Alike ((step w (.setStreamed v b)).1.sig v) { w.sig v with streamed := b } ∧
      ((step w (.setStreamed v b)).2 = .ignored ↔ (w.sig v).streamed = b)) ∧
    ((w.sig v).removed = true → step w (.remove v) = (w, .ignored)) ∧
    ((w.sig v).removed = false → (step w (.remove v)).2 = .ok ∧
      Alike ((step w (.remove v)).1.sig v) { w.sig v with removed := true, active := none, sources := [], conns := 0 }) ∧
    ∀ t, ((step w (.setActive v t)).2 = .ok → t ∈ (w.sig v).sources ∧ (w.src t).alive = true ∧
        Alike ((step w (.setActive v t)).1.sig v) { w.sig v with active := some t }) ∧
      ((step w (.setActive v t)).2 = .ignored → (w.sig v).active = some t) ∧
      (t ∉ (w.sig v).sources → (w.src t).alive = true → (w.sig v).active ≠ some t → step w (.setActive v t) = (w, .notFound)) := by
  obtain ⟨_, _, c1, c2⟩ := connect_sig w v
  obtain ⟨_, d1, d2, d3⟩ := disconnect_sig w v
  obtain ⟨_, e1, e2⟩ := remove_sig w v
  refine ⟨c1, c2, d2, fun h => Prod.ext (d1 (d3 h) h) (d3 h), ?_, ?_, e1, fun h => ⟨(e2 h).1, ?_⟩, ?_⟩
  · show Alike ((w.deactivate v).1.sig v) _
    rw [(deactivate_sig w v).2.2]; rfl
  · intro b
    refine ⟨?_, (setStreamed_sig w v b).2.2.1⟩
    show Alike ((w.setStreamed v b).1.sig v) _
    rw [(setStreamed_sig w v b).2.1]; rfl
  · show Alike ((w.remove v).1.sig v) _
    rw [(e2 h).2]; rfl
  · intro t
    obtain ⟨_, a1, a2, a3⟩ := setActive_sig w v t
    refine ⟨fun h => ?_, fun h => (a2 h).1, a3⟩
    obtain ⟨x, y, z⟩ := a1 h
    refine ⟨x, y, ?_⟩
    show Alike ((w.setActive v t).1.sig v) _
    rw [z]; rfl

/-- What adding and removing signals does when it succeeds, in any state: public signals get the source as the last one of their list; signals
that are removed lose it, also as the active source. -/
theorem C134_lists (w : W) (t : Nat) (vs : List Nat) (ha : (w.src t).alive = true) :
    ((step w (.addSignals t vs)).2 = .ok → ∀ u ∈ vs, ((w.sig u).pub = true → t ∉ (w.sig u).sources) ∧
      Alike ((step w (.addSignals t vs)).1.sig u)
        (if (w.sig u).pub then { w.sig u with sources := (w.sig u).sources ++ [t] } else w.sig u)) ∧
    ((step w (.removeSignals t vs)).2 = .ok → vs.Nodup → ∀ u ∈ vs, t ∈ (w.sig u).sources ∧
      Alike ((step w (.removeSignals t vs)).1.sig u)
        { w.sig u with sources := (w.sig u).sources.erase t, active := without w t (w.sig u).active }) := by
  unfold step
  dsimp only
  rw [if_pos ha, if_pos ha]
  constructor
  · intro h u hu
    obtain ⟨h1, h2⟩ := (addSignals_sig t vs w).2.2 h u hu
    rw [h2]
    exact ⟨h1, rfl⟩
  · intro h hn u hu
    obtain ⟨h1, h2⟩ := (removeSignals_sig t vs w).2.2 h hn u hu
    rw [h2]
    exact ⟨h1, rfl⟩

/-- After any history that keeps the rules, a source that is emptied or destroyed is neither in the list of a signal nor the active source of one,
and nothing else changes for the signals; a destroyed source stays destroyed. -/
theorem C134_all_gone (P : Str → Prop) (w : W) (d : Distinct w P) (f : Fresh w) (os : List Op) (h : Ruled P w os) (t : Nat)
    (ha : ((run w os).src t).alive = true) (o : Op) (ho : o = .removeAll t ∨ o = .destroy t) (u : Nat) :
    Alike ((step (run w os) o).1.sig u)
      { ((run w os).sig u) with
        sources := ((run w os).sig u).sources.filter (· ≠ t)
        active := ((run w os).sig u).active.filter (· ≠ t) } ∧
    ((step (run w os) o).1.src t).alive = decide (o = .removeAll t) := by
  have i := run_ok d.dist os w f.inv h
  generalize run w os = w' at *
  have k0 := i.g.k t ha
  have hback : ∀ v ∈ (w'.src t).items.map (·.sig), t ∈ (w'.sig v).sources := by
    intro v hv
    obtain ⟨j, hj, rfl⟩ := List.mem_map.mp hv
    exact i.back t j.sig (by simp) ha ⟨j, hj, rfl⟩
  have hsrc : ∀ v, t ∈ (w'.sig v).sources → v ∈ (w'.src t).items.map (·.sig) := by
    intro v hv
    rcases (i.src v t hv).2 with e | e
    · cases e
    · obtain ⟨j, hj, rfl⟩ := e.2
      exact List.mem_map.mpr ⟨j, hj, rfl⟩
  have hact : ∀ v x, (w'.sig v).active = some x → (w'.src x).alive = true := by
    intro v x hx
    rcases (i.src v x (i.act v x hx)).2 with e | e
    · cases e
    · exact e.1
  -- the signals after removing the source from the list
  have key : ∀ w1 : W, w1.sig = w'.sig → (∀ x, x ≠ t → (w1.src x).alive = (w'.src x).alive) →
      (w1.removeFromAll t ((w'.src t).items.map (·.sig))).2 = .ok →
      Alike ((w1.removeFromAll t ((w'.src t).items.map (·.sig))).1.sig u) { w'.sig u with
        sources := (w'.sig u).sources.filter (· ≠ t), active := (w'.sig u).active.filter (· ≠ t) } := by
    intro w1 hs1 ha1 hok
    obtain ⟨_, _, h2, h3⟩ := removeFromAll_sig t ((w'.src t).items.map (·.sig)) w1
    by_cases hu : u ∈ (w'.src t).items.map (·.sig)
    · rw [(h3 hok k0.nodup u hu).2, hs1]
      have e1 : (w'.sig u).sources.erase t = (w'.sig u).sources.filter (· ≠ t) := by
        rw [(i.nd u).erase_eq_filter]
        congr 1
        funext x
        by_cases e : x = t <;> simp [e]
      have e2 : without w1 t (w'.sig u).active = (w'.sig u).active.filter (· ≠ t) := by
        unfold without
        cases hx : (w'.sig u).active with
        | none => rfl
        | some x =>
          by_cases e : x = t
          · simp [e, Option.filter]
          · simp [e, ha1 x e, hact u x hx, Option.filter]
      rw [e1, e2]
      rfl
    · rw [h2 u hu, hs1]
      have hn : t ∉ (w'.sig u).sources := fun h => hu (hsrc u h)
      have e1 : (w'.sig u).sources.filter (· ≠ t) = (w'.sig u).sources := by
        rw [List.filter_eq_self]
        intro x hx
        simp only [decide_eq_true_eq, ne_eq]
        intro e
        exact hn (e ▸ hx)
      have e2 : (w'.sig u).active.filter (· ≠ t) = (w'.sig u).active := by
        cases hx : (w'.sig u).active with
        | none => rfl
        | some x =>
          have : x ≠ t := fun e => hn (e ▸ i.act u x hx)
          simp [this, Option.filter]
      rw [e1, e2]
      rfl
  rcases ho with rfl | rfl
  · obtain ⟨w2, e, _, T⟩ := removeFromAll_ok d.dist _ w' none i (.inl rfl) k0.nodup hback
    have hk := key w' rfl (fun _ _ => rfl) (by rw [e])
    rw [e] at hk
    unfold step
    dsimp only
    rw [if_pos ha]
    unfold W.removeAll
    rw [e]
    simp only [R.failed, Bool.false_eq_true, if_false, sig_setSrc, src_setSrc, if_true, decide_true]
    exact ⟨hk, (T.alive t).trans ha⟩
  · have hsig : (w'.setSrc t { w'.src t with alive := false }).sig = w'.sig := sig_setSrc _ _ _
    have hal : ∀ x, x ≠ t → ((w'.setSrc t { w'.src t with alive := false }).src x).alive = (w'.src x).alive := by
      intro x hx
      rw [src_setSrc, if_neg hx]
    obtain ⟨w2, e, T⟩ := destroy_rest d.dist i ha
    have hk := key _ hsig hal (by rw [e])
    rw [e] at hk
    unfold step
    dsimp only
    rw [if_pos ha]
    unfold W.destroy
    simp only [src_setSrc, if_true]
    rw [e]
    simp only [sig_setSrc, src_setSrc, if_true]
    refine ⟨hk, ?_⟩
    rw [T.alive t, src_setSrc, if_pos rfl]
    rfl

/-- The switch of a source, and its reconnection: it can be completed exactly once after each loss. -/
theorem C134_source (w : W) (t : Nat) (ha : (w.src t).alive = true) :
    (∀ b, (step w (.setSourceActive t b)).1 = w.setSrc t { w.src t with active := b }) ∧
    (∀ u, u ≠ t → (step w (.lost t)).1.src u = w.src u) ∧
    (step (step w (.lost t)).1 (.connected t)).2 = .ok ∧
    ((step w (.connected t)).2 = .ok → (step (step w (.connected t)).1 (.connected t)).2 = .invalidState) ∧
    ((step w (.connected t)).2 ≠ .ok → (step w (.connected t)).1.src t = w.src t) := by
  have hl : ((w.src t).lost w.remote).alive = true := by
    have : ∀ (l : List Str) (s : Src), (l.foldl (Src.remapUnavailable w.remote) s).alive = s.alive := by
      intro l
      induction l with
      | nil => intro s; rfl
      | cons a l ih =>
        intro s
        rw [List.foldl_cons, ih]
        unfold Src.remapUnavailable Src.rekey
        split
        · rfl
        · split <;> rfl
    unfold Src.lost
    dsimp only
    rw [this]
    exact ha
  refine ⟨fun _ => rfl, fun u hu => ?_, ?_, ?_, ?_⟩
  · unfold step
    dsimp only
    rw [if_pos ha]
    dsimp only
    rw [src_setSrc, if_neg hu]
  · have e : (step w (.lost t)).1 = w.setSrc t ((w.src t).lost w.remote) := by
      unfold step
      dsimp only
      rw [if_pos ha]
    rw [e]
    unfold step
    dsimp only
    rw [src_setSrc, if_pos rfl, if_pos hl]
    unfold Src.connected
    rw [if_pos (by rfl)]
  · have e : ∀ w : W, (w.src t).alive = true →
        step w (.connected t) = (w.setSrc t (w.src t).connected.1, (w.src t).connected.2) := by
      intro w ha
      unfold step
      dsimp only
      rw [if_pos ha]
    rw [e w ha]
    intro h
    have hr : (w.src t).connected = ({ w.src t with reconnecting := false }, .ok) := by
      unfold Src.connected at h ⊢
      split at h
      · next hc => rw [if_pos hc]
      · cases h
    rw [hr]
    rw [e _ (by rw [src_setSrc, if_pos rfl]; exact ha)]
    dsimp only
    rw [src_setSrc, if_pos rfl]
    rfl
  · have e : step w (.connected t) = (w.setSrc t (w.src t).connected.1, (w.src t).connected.2) := by
      unfold step
      dsimp only
      rw [if_pos ha]
    rw [e]
    intro h
    dsimp only
    rw [src_setSrc, if_pos rfl]
    unfold Src.connected at h ⊢
    split at h
    · exact absurd rfl h
    · next hc => rw [if_neg hc]

-- the second source of the story is destroyed: the first signal loses it
example : ((run client story).sig 0).sources = [0, 1] ∧ ((run client story).sig 0).active = some 1 := by decide +kernel
example : ((run client (story ++ [.destroy 1])).sig 0).sources = [0] ∧ ((run client (story ++ [.destroy 1])).sig 0).active = none := by
  decide +kernel

end Verif.Mirror.Props
