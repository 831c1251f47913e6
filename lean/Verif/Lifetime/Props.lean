import Verif.Lifetime.Reach
import Verif.Lifetime.Spec

namespace Verif.Lifetime.Props
open Spec

theorem good {s : St} (h : Reachable s) : Good s := by
  obtain ⟨acts, rfl⟩ := h
  exact good_run good_init acts

/-! ## C74: an object lives as long as it is referenced, and is destroyed once -/

/-- No execution touches memory that has been given back, and none gives memory back twice. -/
theorem C74_no_use_after_free (s : St) (h : Reachable s) : s.mem.ub = false := (good h).inv.ub

/-- While a client holds a strong reference, the object is there. -/
theorem C74_alive (s : St) (h : Reachable s) (hs : 0 < s.strongs) : s.mem.objAlive = true := by
  have := (good h).inv.core.held (by omega)
  exact toNat_one this.1

/-- The destructor runs at most once, the block of the counters is returned at most once. -/
theorem C74_once (s : St) (h : Reachable s) :
    timesDestroyed s = (if s.mem.objAlive then 0 else 1) ∧ timesFreed s = (if s.mem.rcAlive then 0 else 1) := by
  have h1 := (good h).inv.once
  have h2 := (good h).inv.onceB
  unfold timesDestroyed timesFreed
  cases ho : s.mem.objAlive <;> cases hr : s.mem.rcAlive <;> simp_all

/-- When the object is destroyed nobody holds a strong reference, and nobody ever gets one again. -/
theorem C74_destroyed_for_good (s : St) (h : Reachable s) (hd : 0 < timesDestroyed s) (acts : List Act) :
    s.strongs = 0 ∧ (run s acts).strongs = 0 ∧ timesDestroyed (run s acts) = 1 := by
  have g := good h
  have h1 := g.inv.once
  unfold timesDestroyed at hd
  have hc := g.inv.core.held
  have hn : NoStrong s := by
    unfold NoStrong
    by_cases hp : 0 < s.strongs + tot sTok s.calls
    · have := (hc hp).1; omega
    · omega
  have hr := noStrong_run g hn acts
  refine ⟨hn.1, hr.1.1, ?_⟩
  have h2 := (good_run g acts).inv.once
  obtain ⟨-, evs, he, -⟩ := hr
  unfold timesDestroyed
  have : s.log.count .destroyed ≤ (run s acts).log.count .destroyed := by
    rw [he, List.count_append]; omega
  omega

/-- Two threads: one releases the last strong reference while the other one is in the middle of asking a weak
reference for the object. -/
def race : List Act :=
  [.call .getWeakRef, .run 0 false, .run 0 false, .call .releaseRef, .call (.getRef 0), .run 1 false, .run 0 false]

example : (run init race).calls = [.relWeak none, .getCas 0 none 1] := rfl
/-- The release was first: the other thread finds the object gone, and the object is destroyed. -/
example : (run init (race ++ [.run 1 false, .run 0 false, .run 1 false, .run 0 false, .run 0 false])).log =
    [.notAssigned 0, .destroyed] := rfl
/-- The other thread was first: it gets the object, which is not destroyed. -/
example : (run init ([.call .getWeakRef, .run 0 false, .run 0 false, .call .releaseRef, .call (.getRef 0),
    .run 1 false, .run 1 false, .run 0 false])).log = [.got 0] := rfl
example : ∃ s, Reachable s ∧ 0 < timesDestroyed s ∧ s.weaks = [1] :=
  ⟨_, ⟨race ++ [.run 1 false, .run 0 false, .run 1 false, .run 0 false, .run 0 false], rfl⟩, by decide, rfl⟩

/-! ## C75: what a weak reference answers -/

theorem shows_run {s : St} {a : Act} {e : Ev} (h : Shows s a e) :
    ∃ j sp pc, a = .run j sp ∧ s.calls[j]? = some pc ∧ e ∈ (adv s.mem sp pc).ev := by
  obtain ⟨evs, hl, he⟩ := h
  have nil : (step s a).log = s.log → False := by
    intro hh
    rw [hh] at hl
    have : evs = [] := by simpa using hl
    rw [this] at he; cases he
  cases a with
  | call op =>
    exfalso
    apply nil
    cases op <;> (simp only [step, St.call, St.onStrong, St.onWeak]; split <;> rfl)
  | run j sp =>
    cases hj : s.calls[j]? with
    | none => exact absurd (by simp only [step, hj]) nil
    | some pc =>
      refine ⟨j, sp, pc, rfl, hj, ?_⟩
      simp only [step, hj, St.after] at hl
      rw [List.append_cancel_left hl]; exact he

/-- A weak reference which returns the object returns it alive, together with one strong reference for the
caller. -/
theorem C75_got (s : St) (a : Act) (i : Nat) (h : Reachable s) (hg : Shows s a (.got i)) :
    (step s a).strongs = s.strongs + 1 ∧ (step s a).mem.objAlive = true := by
  have hr : Reachable (step s a) := by
    obtain ⟨acts, rfl⟩ := h
    exact ⟨acts ++ [a], by rw [run_append]; rfl⟩
  obtain ⟨j, sp, pc, rfl, hj, he⟩ := shows_run hg
  have hs : (step s (.run j sp)).strongs = s.strongs + 1 := by
    simp only [step, hj, St.after]
    congr 1
    clear hj hg hr
    cases pc <;> simp only [adv] at he ⊢ <;> (repeat' split at he) <;> simp_all
  exact ⟨hs, C74_alive _ hr (by omega)⟩

/-- A weak reference which answers that the object is gone is right: nobody holds a strong reference, nobody ever
will again, and no later call on a weak reference returns the object. -/
theorem C75_gone (s : St) (a : Act) (i : Nat) (h : Reachable s) (hg : Shows s a (.notAssigned i))
    (acts : List Act) :
    s.strongs = 0 ∧ (run (step s a) acts).strongs = 0 ∧
    ∃ later, (run (step s a) acts).log = (step s a).log ++ later ∧ ∀ k, .got k ∉ later := by
  have g := good h
  obtain ⟨j, sp, pc, rfl, hj, he⟩ := shows_run hg
  have hz : s.mem.strong = 0 := by
    clear hj hg
    cases pc <;> simp only [adv] at he <;> (repeat' split at he) <;> simp_all
  have hn := noStrong_of g.inv hz
  have h1 := noStrong_step g hn (.run j sp)
  obtain ⟨h2, evs, hl, hne⟩ := noStrong_run (good_step g (.run j sp)) h1.1 acts
  exact ⟨hn.1, h2.1, evs, hl, hne⟩

/-- While a client holds a strong reference, a weak reference does not answer that the object is gone. -/
theorem C75_never_gone (s : St) (a : Act) (i : Nat) (h : Reachable s) (hs : 0 < s.strongs) :
    ¬ Shows s a (.notAssigned i) := by
  intro hg
  have := (C75_gone s a i h hg []).1
  omega

/-- A reference to a weak reference object keeps that object and the counters it looks at. -/
theorem C75_weak_alive (s : St) (h : Reachable s) (i n : Nat) (hi : s.weaks[i]? = some (n + 1)) :
    s.mem.rcAlive = true ∧ ∃ w, s.mem.wobjs[i]? = some w ∧ w.st = .live := by
  have g := good h
  rcases g.inv.wobj i with ⟨w, m, hw, hm, hc⟩ | ⟨-, hm, -⟩
  · rw [hm] at hi
    obtain rfl := Option.some.inj hi
    have hl := (hc.held (by omega)).1
    exact ⟨rc_live g.inv hw hl, w, hw, hl⟩
  · rw [hm] at hi; cases hi

/-- A call of `getRefAs` for an interface the object does not have leaves the references as they were. -/
example : let s := run init [.call .getWeakRef, .run 0 false, .run 0 false, .call (.getRefAs 0 false),
      .run 0 false, .run 0 true, .run 0 false, .run 0 false, .run 0 false, .run 0 false]
    s.log = [.noInterface 0] ∧ s.strongs = 1 ∧ s.weaks = [1] ∧ s.mem.strong = 1 ∧ s.calls = [] := by
  decide
/-- The object is destroyed by such a call, if its other references are released in the meantime. -/
example : let s := run init [.call .getWeakRef, .run 0 false, .run 0 false, .call (.getRefAs 0 false),
      .run 0 false, .run 0 false, .call .releaseRef, .run 1 false, .run 0 false, .run 0 false, .run 0 false,
      .run 0 false, .run 0 false]
    s.log = [.noInterface 0, .destroyed] ∧ s.weaks = [1] ∧ s.calls = [] ∧ s.mem.rcAlive = true := by
  decide

/-! ## C76: nothing is left behind -/

/-- When nobody holds a strong reference and all calls have returned, the object is destroyed, whatever weak
references there are. -/
theorem C76_destroyed (s : St) (h : Reachable s) (hs : s.strongs = 0) (hc : s.calls = []) :
    timesDestroyed s = 1 := by
  have g := good h
  have h1 := g.inv.core.gone (by rw [hs, hc]; rfl)
  rw [hc] at h1
  simp only [tot] at h1
  have h2 := g.inv.once
  unfold timesDestroyed
  omega

/-- When all references are given back and all calls have returned, all the memory is given back. -/
theorem C76_no_leak (s : St) (h : Reachable s) (ha : AllReleased s) : AllFreed s := by
  obtain ⟨hs, hc, hw⟩ := ha
  have g := good h
  have hfreed : ∀ (i : Nat) (w : WObj), s.mem.wobjs[i]? = some w → w.st = .freed := by
    intro i w hi
    rcases g.inv.wobj i with ⟨w', n, hw', hn, hcc⟩ | ⟨hz, -⟩
    · rw [hi] at hw'
      obtain rfl := Option.some.inj hw'
      have hn0 := hw n (List.mem_of_getElem? hn)
      rw [hc, hn0] at hcc
      cases hst : w.st with
      | freed => rfl
      | live => have := hcc.live rfl hst; simp [tot] at this
      | dtor => have := hcc.dtor hst; simp [tot] at this
    · rw [hi] at hz; cases hz
  have hl : liveCnt s.mem.wobjs = 0 := by
    have : ∀ l : List WObj, (∀ w ∈ l, w.st = .freed) → liveCnt l = 0 := by
      intro l hl
      induction l with
      | nil => rfl
      | cons a l ih =>
        simp only [liveCnt, hl a (by simp), ih (fun w hw => hl w (by simp [hw]))]
        rfl
    apply this
    intro w hm
    obtain ⟨i, hi⟩ := List.mem_iff_getElem?.mp hm
    exact hfreed i w hi
  obtain ⟨c1, c2, c3, c4, c5, c6, c7, c8, c9, c10, c11, c12⟩ := g.inv.core
  have t0 : ∀ f, tot f s.calls = 0 := fun f => by rw [hc]; rfl
  have c7' := c7 (by rw [t0]; omega) (t0 _)
  rw [t0] at c7'
  simp only [t0] at c3 c10 c11
  refine ⟨?_, ?_, ?_⟩
  · cases ho : s.mem.objAlive with
    | false => rfl
    | true => rw [ho] at c3; have := c3 (by omega); simp at this
  · cases hr : s.mem.rcAlive with
    | false => rfl
    | true =>
      exfalso
      rw [hr] at c10 c11
      have hweak : s.mem.weak = 0 := by omega
      by_cases hw1 : s.mem.owns.toNat = 1
      · have := (c10 rfl hw1).1 hweak; omega
      · have := (c11 rfl (by omega)).1 hweak; omega
  · intro w hm
    obtain ⟨i, hi⟩ := List.mem_iff_getElem?.mp hm
    exact hfreed i w hi

/-- The calls in progress can always be completed, without any other call being made: no call waits for
another one. -/
theorem C76_calls_return (s : St) : ∃ k, (run s (List.replicate k (.run 0 false))).calls = [] :=
  finish_all s.calls s rfl

/-- The object and two weak references to it, all released while calls overlap. -/
def leave : List Act :=
  [.call .getWeakRef, .run 0 false, .run 0 false, .call .getWeakRef, .run 0 false, .run 0 false,
   .call .releaseRef, .call (.wReleaseRef 1), .run 0 false, .run 1 false, .run 0 false, .run 1 false,
   .call (.wReleaseRef 0), .run 2 false, .run 2 false, .run 2 false, .run 0 false, .run 0 false, .run 0 false]

example : Reachable (run init leave) ∧ AllReleased (run init leave) ∧
    (run init leave).log = [.blockFreed, .destroyed] ∧ (run init leave).mem.wobjs.length = 2 :=
  ⟨⟨leave, rfl⟩, ⟨rfl, rfl, by decide⟩, rfl, rfl⟩

end Verif.Lifetime.Props
