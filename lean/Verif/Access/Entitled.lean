import Verif.Access.Stops
import Mathlib.Data.List.TakeWhile

/-! Calls on properties and the permission asked for before them. -/

namespace Verif.Access.Props

open Verif.Access Spec

variable {W : Type} (A : Api W) (u : User)

theorem beforeLastDot_none {n : Name} (h : beforeLastDot n = none) : '.' ∉ n := by
  unfold beforeLastDot at h
  split at h
  · rename_i e
    intro hm
    have := List.dropWhile_eq_nil_iff.mp e '.' (by simpa using hm)
    simp at this
  · cases h

theorem beforeLastDot_some {n pre : Name} (h : beforeLastDot n = some pre) :
    ∃ lst, n = pre ++ '.' :: lst ∧ '.' ∉ lst := by
  unfold beforeLastDot at h
  split at h
  · cases h
  · rename_i c r e
    have hs := List.takeWhile_append_dropWhile (p := fun c : Char => c != '.') (l := n.reverse)
    have hd : c = '.' := by
      have := List.head?_dropWhile_not (fun c : Char => c != '.') n.reverse
      rw [e] at this
      simpa using this
    have ht : ∀ d ∈ n.reverse.takeWhile (· != '.'), (d != '.') = true := fun d hd => by
      simpa using List.mem_takeWhile_imp hd
    refine ⟨(n.reverse.takeWhile (· != '.')).reverse, ?_, ?_⟩
    · injection h with h
      subst h
      subst hd
      rw [e] at hs
      have := congrArg List.reverse hs
      rw [List.reverse_reverse, List.reverse_append, List.reverse_cons, List.append_assoc] at this
      exact this.symm
    · intro hm
      have := ht '.' (by simpa using hm)
      simp at this

theorem beforeLastDot_plain {n : Name} (h : '.' ∉ n) : beforeLastDot n = none := by
  cases e : beforeLastDot n with
  | none => rfl
  | some pre =>
    obtain ⟨lst, hn, _⟩ := beforeLastDot_some e
    exact absurd (by rw [hn]; simp) h

theorem beforeLastDot_dot {pre lst : Name} (h : '.' ∉ lst) : beforeLastDot (pre ++ '.' :: lst) = some pre := by
  unfold beforeLastDot
  have e : (pre ++ '.' :: lst).reverse = lst.reverse ++ '.' :: pre.reverse := by simp
  rw [e, List.dropWhile_append_of_pos (by
    intro c hc
    have : c ≠ '.' := fun k => h (by rw [← k]; simpa using hc)
    simpa using this)]
  simp

/-- Every changing call so far was one the user is entitled to. -/
def Good (tr : List (W × Call)) : Prop :=
  ∀ past e later, tr = past ++ e :: later → Modifies e.2 = true → Entitled A past e.1 u e.2

variable {A u}

theorem Good.nil : Good A u ([] : List (W × Call)) := fun past e later h => by simp at h

theorem Good.snoc {tr : List (W × Call)} (h : Good A u tr) {w : W} {c : Call}
    (hc : Modifies c = true → Entitled A tr w u c) : Good A u (tr ++ [(w, c)]) := by
  intro past e later heq hm
  rcases List.eq_nil_or_concat later with rfl | ⟨l, b, rfl⟩
  · have := List.append_inj' heq rfl
    obtain ⟨rfl, e2⟩ := this
    injection e2 with e2
    subst e2
    exact hc hm
  · have e2 : tr ++ [(w, c)] = (past ++ e :: l) ++ [b] := by rw [heq]; simp
    have := (List.append_inj' e2 rfl).1
    exact h past e l this hm

/-- A part that leaves the calls good. -/
def Keeps {α : Type} (A : Api W) (u : User) (m : M W α) : Prop := ∀ s, Good A u s.2 → Good A u (m s).1.2

theorem Keeps.bind {α β : Type} {m : M W α} {f : α → M W β} (hm : Keeps A u m) (hf : ∀ a, Keeps A u (f a)) :
    Keeps A u (m >>= f) := by
  intro s hs
  have h := hm s hs
  rw [bind_eq]
  revert h
  rcases m s with ⟨s', r⟩
  intro h
  cases r with
  | error e => exact h
  | ok a => exact hf a s' h

theorem Keeps.quiet {α : Type} {m : M W α} (h : Quiet m) : Keeps A u m := fun s hs => by rw [h s]; exact hs

theorem Keeps.read {c : Call} (h : Modifies c = false) : Keeps A u (call A c) := fun _ hs =>
  hs.snoc fun k => absurd (h.symm.trans k) (by decide)

theorem asObject_ok {v : Val} {s s' : S W} {h : Obj} (e : asObject A v s = (s', .ok h)) : v = .obj h ∧ s' = s := by
  unfold asObject at e
  split at e
  · rename_i o
    rw [bind_eq] at e
    change (require (A.supports s.1 o .propertyObject) .noInterface >>= fun _ => pure o) s = _ at e
    rw [bind_eq] at e
    cases hb : A.supports s.1 o .propertyObject with
    | false => rw [hb] at e; simp [require, fail] at e
    | true =>
      rw [hb] at e
      simp only [require, pure, if_true] at e
      cases e
      exact ⟨rfl, rfl⟩
  · cases e
  · cases e

theorem quiet_asObject (v : Val) : Quiet (asObject A v) := by
  unfold asObject
  split
  · exact Quiet.bind (Quiet.ask _) fun _ => Quiet.bind (Quiet.require _ _) fun _ => Quiet.pure _
  · exact Quiet.fail _
  · exact Quiet.fail _

/-- The holder of a property, as the server finds it. -/
theorem firstParent_ok {o : Obj} {n : Name} {s s' : S W} {h : Obj} (e : firstParent A o n s = (s', .ok h)) :
    Holds A s'.2 o n h ∧ (Good A u s.2 → Good A u s'.2) ∧ (∀ c ∈ s.2, c ∈ s'.2) := by
  unfold firstParent at e
  cases hd : beforeLastDot n with
  | none =>
    rw [hd] at e
    cases e
    exact ⟨.inl ⟨beforeLastDot_none hd, rfl⟩, fun h => h, fun _ h => h⟩
  | some pre =>
    obtain ⟨lst, hn, hl⟩ := beforeLastDot_some hd
    rw [hd] at e
    change (call A (.getValue o pre) >>= fun v => asObject A v) s = _ at e
    rw [bind_eq] at e
    have hc : call A (.getValue o pre) s = (((A.exec s.1 (.getValue o pre)).1, s.2 ++ [(s.1, .getValue o pre)]),
      (A.exec s.1 (.getValue o pre)).2) := rfl
    rw [hc] at e
    cases hr : (A.exec s.1 (.getValue o pre)).2 with
    | error k => rw [hr] at e; cases e
    | ok v =>
      rw [hr] at e
      dsimp only at e
      obtain ⟨hv, hs⟩ := asObject_ok e
      subst hs
      refine ⟨.inr ⟨pre, lst, s.1, hn, hl, by simp, by rw [hr, hv]⟩,
        fun hg => hg.snoc fun k => absurd k (by simp [Modifies]), fun c hc => by simp [hc]⟩

theorem keeps_firstParent (o : Obj) (n : Name) : Keeps A u (firstParent A o n) := by
  unfold firstParent
  split
  · exact Keeps.quiet (Quiet.pure _)
  · exact Keeps.bind (Keeps.read rfl) fun _ => Keeps.quiet (quiet_asObject _)

/-- The holder is found, asked for the permissions, and then the call is made. -/
theorem keeps_checked (o : Obj) (n : Name) (ps : List Perm) (f : M W Val)
    (hf : ∀ s h, Good A u s.2 → Holds A s.2 o n h → May A s.1 u h ps → Good A u (f s).1.2) :
    Keeps A u (firstParent A o n >>= fun h => protect A u h ps >>= fun _ => f) := by
  intro s hs
  rw [bind_eq]
  have hk := keeps_firstParent (A := A) (u := u) o n s hs
  cases e : firstParent A o n s with
  | mk s' r =>
    rw [e] at hk
    cases r with
    | error k => exact hk
    | ok h =>
      obtain ⟨hh, _, _⟩ := firstParent_ok (A := A) (u := u) e
      show Good A u ((protect A u h ps >>= fun _ => f) s').1.2
      rw [bind_eq, protect_eq]
      by_cases hm : ps.all (A.auth s'.1 u h) = true
      · rw [if_pos hm]
        exact hf s' h hk hh (List.all_eq_true.mp hm)
      · rw [if_neg hm]
        exact hk

/-- The last call of a request about a property. -/
theorem good_call {c : Call} {s : S W} (hs : Good A u s.2) (hc : Entitled A s.2 s.1 u c) :
    Good A u (call A c s).1.2 := hs.snoc fun _ => hc

theorem good_callVoid {c : Call} {s : S W} (hs : Good A u s.2) (hc : Entitled A s.2 s.1 u c) :
    Good A u (callVoid A c s).1.2 := by
  unfold callVoid
  rw [bind_eq]
  have : call A c s = (((A.exec s.1 c).1, s.2 ++ [(s.1, c)]), (A.exec s.1 c).2) := rfl
  rw [this]
  cases (A.exec s.1 c).2 <;> exact hs.snoc fun _ => hc

variable (A)

theorem keeps_handler {i : Intf} {f : Ctx → Obj → Params → M W Val} {x : Ctx} {p : Params}
    (h : ∀ o, Keeps A u (f x o p)) : Keeps A u (handler A i f x p) := by
  unfold handler
  refine Keeps.bind (Keeps.quiet (Quiet.findComponent A _)) fun o => ?_
  split
  · exact Keeps.quiet (Quiet.fail _)
  · exact Keeps.bind (Keeps.quiet (Quiet.ask _)) fun _ => Keeps.bind (Keeps.quiet (Quiet.require _ _)) fun _ => h _

theorem quiet_protectCall (x : Ctx) (o : Obj) (c : Bool) : Quiet (protectCall A x o c) := fun s => by
  rw [protectCall_eq]

end Verif.Access.Props
