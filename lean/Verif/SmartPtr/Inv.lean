import Verif.SmartPtr.Spec

namespace Verif.SmartPtr
open Spec

def own (o : Nat) (p : Ptr) : Nat := if p.obj = some o ∧ p.borrowed = false then 1 else 0

def tot (f : Ptr → Nat) : List Ptr → Nat
  | [] => 0
  | p :: ps => f p + tot f ps

theorem tot_set (f : Ptr → Nat) (l : List Ptr) (j : Nat) (q : Ptr) (h : j < l.length) :
    tot f (l.set j q) + f (l.getD j {}) = tot f l + f q := by
  induction l generalizing j with
  | nil => simp at h
  | cons a l ih =>
    cases j with
    | zero => simp only [List.set, tot, List.getD_cons_zero]; omega
    | succ j => have := ih j (by simpa using h); simp only [List.set, tot, List.getD_cons_succ]; omega

theorem tot_ge (f : Ptr → Nat) (l : List Ptr) (j : Nat) (h : j < l.length) : f (l.getD j {}) ≤ tot f l := by
  induction l generalizing j with
  | nil => simp at h
  | cons a l ih =>
    cases j with
    | zero => simp only [tot, List.getD_cons_zero]; omega
    | succ j => have := ih j (by simpa using h); simp only [tot, List.getD_cons_succ]; omega

theorem tot_owners (s : St) (o : Nat) : owners s o = tot (own o) s.vars + s.raw.count o := by
  unfold owners
  congr 1
  induction s.vars with
  | nil => rfl
  | cons a l ih =>
    simp only [tot, own, ← ih, List.filter_cons]
    by_cases h1 : a.obj = some o <;> cases h2 : a.borrowed <;> simp [h1] <;> omega

/-- The references to `o`. -/
def refs (s : St) (o : Nat) : Nat := tot (own o) s.vars + s.raw.count o

structure Inv (s : St) : Prop where
  ub : s.ub = false
  obj : ∀ o, match s.heap[o]? with
    | some x => x.count = ((refs s o : Nat) : Int) ∧ x.alive = decide (0 < refs s o)
    | none => refs s o = 0

theorem inv_alive {s : St} (h : Inv s) (o : Nat) : s.alive o = decide (0 < refs s o) := by
  have := h.obj o
  unfold St.alive
  cases hx : s.heap[o]? with
  | none => rw [hx] at this; simp [this]
  | some x => rw [hx] at this; simp [this.2]

theorem inv_init (n : Nat) : Inv (init n) where
  ub := rfl
  obj o := by
    have : ∀ n, tot (own o) (List.replicate n {}) = 0 := by
      intro n
      induction n with
      | zero => rfl
      | succ n ih => simp [List.replicate_succ, tot, ih, own]
    simp [init, refs, this]

theorem refs_setVar (s : St) (d : Nat) (p : Ptr) (o : Nat) (hd : d < s.vars.length) :
    refs (s.setVar d p) o + own o (s.var d) = refs s o + own o p := by
  have := tot_set (own o) s.vars d p hd
  simp only [refs, St.setVar, St.var]
  omega

theorem own_none (o : Nat) (p : Ptr) (h : p.obj = none) : own o p = 0 := by simp [own, h]

/-- The old object of `d` is given up. -/
def St.wipe (s : St) (d : Nat) : St := (s.drop (s.var d)).setVar d {}

theorem releaseRef_eq {s : St} {o : Nat} (h : s.alive o = true) :
    s.releaseRef o =
      { s with heap := s.heap.modify o (fun x => { x with count := x.count - 1, alive := decide (x.count - 1 ≠ 0) }) } := by
  simp [St.releaseRef, h]

theorem own_pos_alive {s : St} (h : Inv s) {d o : Nat} (hd : d < s.vars.length) (ho : own o (s.var d) = 1) :
    s.alive o = true := by
  have h1 := tot_ge (own o) s.vars d hd
  have h2 : 0 < refs s o := by simp only [refs, St.var] at *; omega
  rw [inv_alive h, decide_eq_true h2]

/-- The facts about giving up the object of `d`. -/
theorem wipe_facts {s : St} (h : Inv s) {d : Nat} (hd : d < s.vars.length) :
    Inv (s.wipe d) ∧ (s.wipe d).vars = s.vars.set d {} ∧ (s.wipe d).raw = s.raw ∧
    (s.wipe d).heap.length = s.heap.length ∧ (∀ o : Nat, (s.wipe d).heap[o]?.map Obj.intfs = s.heap[o]?.map Obj.intfs) ∧
    (∀ o, refs (s.wipe d) o + own o (s.var d) = refs s o) := by
  have key : ∀ t : St, t.vars = s.vars → t.raw = s.raw → ∀ o, refs (t.setVar d {}) o + own o (s.var d) = refs s o := by
    intro t hv hr o
    have h1 := tot_set (own o) s.vars d {} hd
    have h2 : own o {} = 0 := own_none o {} rfl
    simp only [refs, St.setVar, St.var, hv, hr] at *
    omega
  rcases Option.eq_none_or_eq_some (s.var d).obj with hn | ⟨o, ho⟩
  · have e : s.wipe d = s.setVar d {} := by unfold St.wipe St.drop; rw [hn]
    have hr := key s rfl rfl
    rw [e]
    refine ⟨⟨h.ub, fun o => ?_⟩, rfl, rfl, rfl, fun _ => rfl, hr⟩
    have : refs (s.setVar d {}) o = refs s o := by have := hr o; rw [own_none o _ hn] at this; omega
    rw [this]; exact h.obj o
  · by_cases hb : (s.var d).borrowed = true
    · have e : s.wipe d = s.setVar d {} := by unfold St.wipe St.drop; rw [ho]; simp [hb]
      have hr := key s rfl rfl
      rw [e]
      refine ⟨⟨h.ub, fun o => ?_⟩, rfl, rfl, rfl, fun _ => rfl, hr⟩
      have : refs (s.setVar d {}) o = refs s o := by
        have := hr o
        have h0 : own o (s.var d) = 0 := by simp [own, hb]
        omega
      rw [this]; exact h.obj o
    · have hb' : (s.var d).borrowed = false := by simpa using hb
      have hown : own o (s.var d) = 1 := by simp [own, ho, hb']
      have ha := own_pos_alive h hd hown
      have e : s.wipe d = ({ s with heap := s.heap.modify o (fun x => { x with count := x.count - 1, alive := decide (x.count - 1 ≠ 0) }) } : St).setVar d {} := by
        unfold St.wipe St.drop; rw [ho]; simp [hb', releaseRef_eq ha]
      have hr := key { s with heap := s.heap.modify o (fun x => { x with count := x.count - 1, alive := decide (x.count - 1 ≠ 0) }) } rfl rfl
      rw [← e] at hr
      refine ⟨⟨?_, ?_⟩, ?_, ?_, ?_, ?_, hr⟩
      · rw [e]; exact h.ub
      · intro o'
        have hr' := hr o'
        have hold := h.obj o'
        have eh : (s.wipe d).heap[o']? = (s.heap.modify o (fun x => { x with count := x.count - 1, alive := decide (x.count - 1 ≠ 0) }))[o']? := by
          rw [e]; rfl
        by_cases hoo : o = o'
        · subst hoo
          cases hx : s.heap[o]? with
          | none => simp [St.alive, hx] at ha
          | some x =>
            rw [hx] at hold
            have : (s.wipe d).heap[o]? = some { x with count := x.count - 1, alive := decide (x.count - 1 ≠ 0) } := by
              rw [eh]; simp [hx]
            rw [this]
            refine ⟨by have := hold.1; simp only; omega, ?_⟩
            have := hold.1
            simp only [decide_eq_decide]
            omega
        · have hown' : own o' (s.var d) = 0 := by simp [own, ho, hoo]
          have hrr : refs (s.wipe d) o' = refs s o' := by omega
          rw [eh, hrr]
          have : (s.heap.modify o (fun x => { x with count := x.count - 1, alive := decide (x.count - 1 ≠ 0) }))[o']? = s.heap[o']? := by
            simp [hoo]
          rw [this]; exact hold
      · rw [e]; rfl
      · rw [e]; rfl
      · rw [e]; simp [St.setVar]
      · intro o'
        rw [e]
        simp only [St.setVar, List.getElem?_modify]
        by_cases hoo : o = o' <;> simp [hoo]
        cases s.heap[o']? <;> rfl

/-- `d` is unassigned, and given a reference of its own to a living object. -/
theorem attach_inv {t : St} (h : Inv t) {d o : Nat} (hd : d < t.vars.length) (h0 : (t.var d).obj = none)
    (ha : t.alive o = true) : Inv ((t.setVar d { obj := some o }).addRef o) := by
  have ha' : (t.setVar d { obj := some o }).alive o = true := ha
  have e : (t.setVar d { obj := some o }).addRef o =
      ({ t with heap := t.heap.modify o (fun x => { x with count := x.count + 1 }) } : St).setVar d { obj := some o } := by
    unfold St.addRef; rw [if_pos ha']; rfl
  rw [e]
  refine ⟨h.ub, ?_⟩
  intro o'
  have hr := refs_setVar ({ t with heap := t.heap.modify o (fun x => { x with count := x.count + 1 }) } : St) d { obj := some o } o' hd
  have hv : ({ t with heap := t.heap.modify o (fun x => { x with count := x.count + 1 }) } : St).var d = t.var d := rfl
  have hrf : refs ({ t with heap := t.heap.modify o (fun x => { x with count := x.count + 1 }) } : St) o' = refs t o' := rfl
  rw [hv, hrf, own_none o' _ h0] at hr
  have hold := h.obj o'
  have eh : (({ t with heap := t.heap.modify o (fun x => { x with count := x.count + 1 }) } : St).setVar d { obj := some o }).heap[o']? =
      (t.heap.modify o (fun x => { x with count := x.count + 1 }))[o']? := rfl
  rw [eh]
  by_cases hoo : o = o'
  · subst hoo
    have h1 : own o { obj := some o } = 1 := by simp [own]
    cases hx : t.heap[o]? with
    | none => simp [St.alive, hx] at ha
    | some x =>
      rw [hx] at hold
      have hal : x.alive = true := by simpa [St.alive, hx] using ha
      simp only [List.getElem?_modify, hx]
      refine ⟨by have := hold.1; simp; omega, ?_⟩
      simp [hal]; omega
  · have h1 : own o' { obj := some o } = 0 := by simp [own, hoo]
    have hrr : refs ((({ t with heap := t.heap.modify o (fun x => { x with count := x.count + 1 }) } : St)).setVar d { obj := some o }) o' = refs t o' := by omega
    rw [hrr]
    have : (t.heap.modify o (fun x => { x with count := x.count + 1 }))[o']? = t.heap[o']? := by simp [hoo]
    rw [this]; exact hold

/-- `d` is unassigned, and given a new object. -/
theorem alloc_inv {t : St} (h : Inv t) {d : Nat} (hd : d < t.vars.length) (h0 : (t.var d).obj = none) (is : List Nat) :
    Inv ((t.alloc is).setVar d { obj := some t.heap.length }) := by
  refine ⟨h.ub, ?_⟩
  intro o'
  have hr := refs_setVar (t.alloc is) d { obj := some t.heap.length } o' hd
  have hv : (t.alloc is).var d = t.var d := rfl
  have hrf : refs (t.alloc is) o' = refs t o' := rfl
  rw [hv, hrf, own_none o' _ h0] at hr
  have hold := h.obj o'
  have eh : ((t.alloc is).setVar d { obj := some t.heap.length }).heap[o']? =
      (t.heap ++ [{ count := 1, intfs := is }])[o']? := rfl
  rw [eh]
  by_cases hoo : t.heap.length = o'
  · subst hoo
    have h1 : own t.heap.length { obj := some t.heap.length } = 1 := by simp [own]
    have hn : t.heap[t.heap.length]? = none := by simp
    rw [hn] at hold
    dsimp only at hold
    simp only [List.getElem?_concat_length]
    have h2 : refs ((t.alloc is).setVar d { obj := some t.heap.length }) t.heap.length = 1 := by omega
    rw [h2]
    exact ⟨rfl, rfl⟩
  · have h1 : own o' { obj := some t.heap.length } = 0 := by simp [own, hoo]
    have hrr : refs ((t.alloc is).setVar d { obj := some t.heap.length }) o' = refs t o' := by omega
    rw [hrr]
    have : (t.heap ++ [{ count := 1, intfs := is }])[o']? = t.heap[o']? := by
      by_cases hl : o' < t.heap.length
      · rw [List.getElem?_append_left hl]
      · rw [List.getElem?_eq_none_iff.mpr (by simp; omega), List.getElem?_eq_none_iff.mpr (by omega)]
    rw [this]; exact hold

/-- Only the variables change, and the references stay the same. -/
theorem same_inv {t u : St} (h : Inv t) (hh : u.heap = t.heap) (hu : u.ub = t.ub) (hr : ∀ o, refs u o = refs t o) : Inv u :=
  ⟨by rw [hu]; exact h.ub, fun o => by rw [hh, hr]; exact h.obj o⟩

end Verif.SmartPtr
