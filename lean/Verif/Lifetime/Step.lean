import Verif.Lifetime.Inv

namespace Verif.Lifetime

theorem tot_ge (f : Pc → Nat) (l : List Pc) (j : Nat) (p : Pc) (h : l[j]? = some p) : f p ≤ tot f l := by
  have := tot_erase f l j p h
  omega

/-- The weight of the next step of a call. -/
def nx (f : Pc → Nat) : Option Pc → Nat
  | none => 0
  | some q => f q

/-- The calls after a step of call `j`. -/
def upd (l : List Pc) (j : Nat) : Option Pc → List Pc
  | some pc => l.set j pc
  | none => l.eraseIdx j

theorem tot_upd (f : Pc → Nat) (l : List Pc) (j : Nat) (p : Pc) (q : Option Pc) (h : l[j]? = some p) :
    tot f (upd l j q) + f p = tot f l + nx f q := by
  cases q with
  | none => simpa [upd, nx] using tot_erase f l j p h
  | some q => simpa [upd, nx] using tot_set f l j p q h

theorem after_calls (s : St) (j : Nat) (r : Res) : (s.after j r).calls = upd s.calls j r.next := by
  unfold St.after upd
  cases r.next <;> rfl

theorem liveCnt_pos (l : List WObj) (i : Nat) (w : WObj) (h : l[i]? = some w) (hw : w.st = .live) : 0 < liveCnt l := by
  induction l generalizing i with
  | nil => simp at h
  | cons a l ih =>
    cases i with
    | zero => simp at h; subst h; simp only [liveCnt, hw, if_true]; omega
    | succ i => simp at h; have := ih i h; simp only [liveCnt]; omega

theorem toNat_one {b : Bool} (h : b.toNat = 1) : b = true := by cases b <;> simp_all

theorem viaObj_tok {s : St} (h : Inv s) {j : Nat} {pc : Pc} (hj : s.calls[j]? = some pc) (ht : sTok pc = 1) :
    s.mem.viaObj = true := by
  have hg := tot_ge sTok _ _ _ hj
  obtain ⟨c1, c2, c3, c4, c5, c6, c7, c8, c9, c10, c11, c12⟩ := h.core
  have ho : s.mem.objAlive = true := toNat_one (by omega)
  have hw : s.mem.owns = true := toNat_one (by omega)
  have hr : s.mem.rcAlive = true := toNat_one (by omega)
  simp [Mem.viaObj, ho, hw, hr]

theorem viaObj_relWeak {s : St} (h : Inv s) {j : Nat} {k : Option Nat} (hj : s.calls[j]? = some (.relWeak k)) :
    s.mem.viaObj = true := by
  have hg := tot_ge dA _ _ _ hj
  obtain ⟨c1, c2, c3, c4, c5, c6, c7, c8, c9, c10, c11, c12⟩ := h.core
  simp only [dA] at hg
  have ho : s.mem.objAlive = true := toNat_one (by omega)
  have hw : s.mem.owns = true := toNat_one (by omega)
  have hr : s.mem.rcAlive = true := toNat_one (by omega)
  simp [Mem.viaObj, ho, hw, hr]

/-- A call that holds a reference to a weak reference object finds it alive. -/
theorem wobj_tok {s : St} (h : Inv s) {j : Nat} {pc : Pc} {i : Nat} (hj : s.calls[j]? = some pc) (ht : wT i pc = 1) :
    ∃ w n, s.mem.wobjs[i]? = some w ∧ s.weaks[i]? = some n ∧ w.st = .live ∧
      WCore w.count w.st n (tot (wT i) s.calls) (tot (wD i) s.calls) (tot (wX i) s.calls) := by
  have hg := tot_ge (wT i) _ _ _ hj
  rcases h.wobj i with ⟨w, n, hw, hn, hc⟩ | ⟨-, -, hz, -, -⟩
  · exact ⟨w, n, hw, hn, (hc.held (by omega)).1, hc⟩
  · omega

theorem wobj_del {s : St} (h : Inv s) {j : Nat} {i : Nat} (hj : s.calls[j]? = some (.wDelete i)) :
    ∃ w n, s.mem.wobjs[i]? = some w ∧ s.weaks[i]? = some n ∧ w.st = .live ∧
      WCore w.count w.st n (tot (wT i) s.calls) (tot (wD i) s.calls) (tot (wX i) s.calls) := by
  have hg := tot_ge (wD i) _ _ _ hj
  simp only [wD, if_true] at hg
  rcases h.wobj i with ⟨w, n, hw, hn, hc⟩ | ⟨-, -, -, hz, -⟩
  · refine ⟨w, n, hw, hn, ?_, hc⟩
    cases hs : w.st with
    | live => rfl
    | dtor => have := hc.dtor hs; omega
    | freed => have := hc.freed hs; omega
  · omega

theorem wobj_dtor {s : St} (h : Inv s) {j : Nat} {i : Nat} {m : Int} (hj : s.calls[j]? = some (.wDtor i m)) :
    ∃ w n, s.mem.wobjs[i]? = some w ∧ s.weaks[i]? = some n ∧ w.st = .dtor ∧
      WCore w.count w.st n (tot (wT i) s.calls) (tot (wD i) s.calls) (tot (wX i) s.calls) := by
  have hg := tot_ge (wX i) _ _ _ hj
  simp only [wX, if_true] at hg
  rcases h.wobj i with ⟨w, n, hw, hn, hc⟩ | ⟨-, -, -, -, hz⟩
  · refine ⟨w, n, hw, hn, ?_, hc⟩
    cases hs : w.st with
    | dtor => rfl
    | live =>
      by_cases hp : 0 < n + tot (wT i) s.calls
      · have := (hc.held hp).2.2; omega
      · have := hc.live (by omega) hs; omega
    | freed => have := hc.freed hs; omega
  · omega

theorem rc_live {s : St} (h : Inv s) {i : Nat} {w : WObj} (hw : s.mem.wobjs[i]? = some w) (hl : w.st = .live) :
    s.mem.rcAlive = true := by
  have hp := liveCnt_pos _ _ _ hw hl
  obtain ⟨c1, c2, c3, c4, c5, c6, c7, c8, c9, c10, c11, c12⟩ := h.core
  exact toNat_one (by omega)

theorem viaWeak_live {s : St} (h : Inv s) {i : Nat} {w : WObj} (hw : s.mem.wobjs[i]? = some w) (hl : w.st = .live) :
    s.mem.viaWeak i = true := by
  simp [Mem.viaWeak, Mem.wAlive, hw, hl, rc_live h hw hl]

/-- How the numbers of one weak reference object follow a step. -/
theorem winv_after {ws : List WObj} {hs : List Nat} {calls : List Pc} {i : Nat} (h : WInv ws hs calls i)
    {ws' : List WObj} {hs' : List Nat} {calls' : List Pc} (fw : WObj → WObj) (fh : Nat → Nat)
    (hw : ws'[i]? = ws[i]?.map fw) (hh : hs'[i]? = hs[i]?.map fh)
    (hc : ∀ w n, ws[i]? = some w → hs[i]? = some n →
      WCore w.count w.st n (tot (wT i) calls) (tot (wD i) calls) (tot (wX i) calls) →
      WCore (fw w).count (fw w).st (fh n) (tot (wT i) calls') (tot (wD i) calls') (tot (wX i) calls'))
    (hn : tot (wT i) calls = 0 → tot (wD i) calls = 0 → tot (wX i) calls = 0 →
      tot (wT i) calls' = 0 ∧ tot (wD i) calls' = 0 ∧ tot (wX i) calls' = 0) :
    WInv ws' hs' calls' i := by
  rcases h with ⟨w, n, h1, h2, h3⟩ | ⟨h1, h2, h3, h4, h5⟩
  · exact Or.inl ⟨fw w, fh n, by rw [hw, h1]; rfl, by rw [hh, h2]; rfl, hc w n h1 h2 h3⟩
  · exact Or.inr ⟨by rw [hw, h1]; rfl, by rw [hh, h2]; rfl, hn h3 h4 h5⟩

/-- The references to weak reference object `i` handed back. -/
def gv (i : Nat) : Option (Nat × Nat) → Nat
  | some (k, n) => if k = i then n else 0
  | none => 0

/-- A step that changes no weak reference object and only moves tokens between the call and the clients. -/
theorem winv_move {s : St} (h : Inv s) {j : Nat} {pc : Pc} {q : Option Pc} {g : Option (Nat × Nat)}
    (hj : s.calls[j]? = some pc) (i : Nat)
    (ht : wT i pc = nx (wT i) q + gv i g)
    (hD : wD i pc = nx (wD i) q) (hX : wX i pc = nx (wX i) q) :
    WInv s.mem.wobjs (giveWeak s.weaks g) (upd s.calls j q) i := by
  have e1 := tot_upd (wT i) _ _ _ q hj
  have e2 := tot_upd (wD i) _ _ _ q hj
  have e3 := tot_upd (wX i) _ _ _ q hj
  have g1 := tot_ge (wT i) _ _ _ hj
  refine winv_after (h.wobj i) id (· + gv i g) (by simp) ?_ ?_ ?_
  · cases g with
    | none => simp [giveWeak, gv]
    | some g =>
      obtain ⟨k, n⟩ := g
      simp only [giveWeak, List.getElem?_modify]
      by_cases hk : k = i <;> simp [hk, gv]
  · intro w n _ _ hc
    obtain ⟨c1, c2, c3, c4, c5⟩ := hc
    have eD : tot (wD i) (upd s.calls j q) = tot (wD i) s.calls := by omega
    have eX : tot (wX i) (upd s.calls j q) = tot (wX i) s.calls := by omega
    rw [eD, eX]
    refine ⟨?_, ?_, ?_, c4, c5⟩
    · simp only [id]; omega
    · intro hp; exact c2 (by omega)
    · intro hp; exact c3 (by omega)
  · intro z1 z2 z3
    omega

/-- The numbers of the calls follow a step. -/
theorem inv_calls {s : St} {j : Nat} {pc : Pc} (hj : s.calls[j]? = some pc) (q : Option Pc) (f : Pc → Nat) :
    tot f (upd s.calls j q) = tot f s.calls + nx f q - f pc ∧ f pc ≤ tot f s.calls := by
  have := tot_upd f _ _ _ q hj
  have := tot_ge f _ _ _ hj
  omega

theorem gN_le (l : List Pc) : tot gN l ≤ tot sTok l := by
  induction l with
  | nil => simp [tot]
  | cons a l ih => simp only [tot]; cases a <;> simp only [gN, sTok] <;> omega

set_option hygiene false in
macro "nums " h:ident hj:ident s:ident j:ident q:term : tactic => `(tactic| (
  have n1 := tot_upd sTok _ _ _ $q $hj
  have n2 := tot_upd dA _ _ _ $q $hj
  have n3 := tot_upd dB0 _ _ _ $q $hj
  have n4 := tot_upd dB1 _ _ _ $q $hj
  have n5 := tot_upd dD _ _ _ $q $hj
  have n6 := tot_upd gN _ _ _ $q $hj
  have n7 := tot_upd wZ _ _ _ $q $hj
  have m1 := tot_ge sTok _ _ _ $hj
  have m2 := tot_ge dA _ _ _ $hj
  have m3 := tot_ge dB0 _ _ _ $hj
  have m4 := tot_ge dB1 _ _ _ $hj
  have m5 := tot_ge dD _ _ _ $hj
  have m6 := tot_ge gN _ _ _ $hj
  have m7 := tot_ge wZ _ _ _ $hj
  have n8 := gN_le (upd (St.calls $s) $j $q)
  obtain ⟨c1, c2, c3, c4, c5, c6, c7, c8, c9, c10, c11, c12⟩ := Inv.core $h
  simp only [nx, sTok, dA, dB0, dB1, dD, gN, wZ] at n1 n2 n3 n4 n5 n6 n7 m1 m2 m3 m4 m5 m6 m7))

theorem step_addRef {s : St} (h : Inv s) {j : Nat} {sp : Bool} (hj : s.calls[j]? = some .addRef) :
    Inv (s.after j (adv s.mem sp .addRef)) := by
  have hv := viaObj_tok h hj rfl
  have e : adv s.mem sp .addRef = { mem := { s.mem with strong := s.mem.strong + 1 }, give := 2 } := by
    simp only [adv, hv, if_true]
  rw [e]
  nums h hj s j none
  refine ⟨h.ub, ?_, ?_, by simpa [St.after] using h.once, by simpa [St.after] using h.onceB⟩
  · unfold SCore
    rw [after_calls]
    simp only [St.after]
    constructor <;> omega
  · intro i
    rw [after_calls]
    simpa [St.after] using winv_move h (q := none) (g := none) hj i rfl rfl rfl

set_option hygiene false in
macro "core" : tactic => `(tactic| (
  unfold SCore
  rw [after_calls]
  simp only [St.after]
  constructor <;> omega))

theorem step_rel {s : St} (h : Inv s) {j : Nat} {sp : Bool} {k : Option Nat} (hj : s.calls[j]? = some (.rel k)) :
    Inv (s.after j (adv s.mem sp (.rel k))) := by
  have hv := viaObj_tok h hj rfl
  by_cases h0 : s.mem.strong - 1 = 0
  · have e : adv s.mem sp (.rel k) =
        { mem := { s.mem with strong := s.mem.strong - 1 }, next := some (.relWeak k) } := by
      simp only [adv, hv, if_true, if_pos h0]
    rw [e]
    nums h hj s j (some (.relWeak k))
    refine ⟨h.ub, ?_, ?_, by simpa [St.after] using h.once, by simpa [St.after] using h.onceB⟩
    · core
    · intro i
      rw [after_calls]
      simpa [St.after] using winv_move h (q := some (.relWeak k)) (g := none) hj i (by cases k <;> rfl) rfl rfl
  · have e : adv s.mem sp (.rel k) =
        { mem := { s.mem with strong := s.mem.strong - 1 }, giveW := k.map (·, 1) } := by
      simp only [adv, hv, if_true, if_neg h0]
    rw [e]
    nums h hj s j none
    refine ⟨h.ub, ?_, ?_, by simpa [St.after] using h.once, by simpa [St.after] using h.onceB⟩
    · core
    · intro i
      rw [after_calls]
      simpa [St.after] using winv_move h (q := none) (g := k.map (·, 1)) hj i (by cases k <;> simp [nx, wT, gv]) rfl rfl

theorem toNat_true {b : Bool} (h : b = true) : b.toNat = 1 := by rw [h]; rfl

theorem step_relWeak {s : St} (h : Inv s) {j : Nat} {sp : Bool} {k : Option Nat}
    (hj : s.calls[j]? = some (.relWeak k)) : Inv (s.after j (adv s.mem sp (.relWeak k))) := by
  have hv := viaObj_relWeak h hj
  have e : adv s.mem sp (.relWeak k) =
      { mem := { s.mem with weak := s.mem.weak - 1 }, next := some (.relDrop k (s.mem.weak - 1)) } := by
    simp only [adv, hv, if_true]
  rw [e]
  simp only [Mem.viaObj, Bool.and_eq_true] at hv
  obtain ⟨⟨ho, hw⟩, hr⟩ := hv
  replace ho := toNat_true ho
  replace hw := toNat_true hw
  replace hr := toNat_true hr
  refine ⟨h.ub, ?_, ?_, by simpa [St.after] using h.once, by simpa [St.after] using h.onceB⟩
  · nums h hj s j (some (.relDrop k (s.mem.weak - 1)))
    by_cases h0 : s.mem.weak - 1 = 0
    · rw [if_pos h0] at n3 n4
      core
    · rw [if_neg h0] at n3 n4
      core
  · intro i
    rw [after_calls]
    simpa [St.after] using
      winv_move h (q := some (.relDrop k (s.mem.weak - 1))) (g := none) hj i (by cases k <;> rfl) rfl rfl

theorem step_relDrop {s : St} (h : Inv s) {j : Nat} {sp : Bool} {k : Option Nat} {n : Int}
    (hj : s.calls[j]? = some (.relDrop k n)) : Inv (s.after j (adv s.mem sp (.relDrop k n))) := by
  have mv : ∀ i, WInv s.mem.wobjs s.weaks (upd s.calls j (some (.relDelete k))) i := fun i => by
    simpa [giveWeak] using
      winv_move h (q := some (.relDelete k)) (g := none) hj i (by cases k <;> rfl) rfl rfl
  by_cases h0 : n = 0
  · have e : adv s.mem sp (.relDrop k n) = { mem := s.mem, next := some (.relDelete k) } := by
      simp [adv, h0]
    rw [e]
    refine ⟨h.ub, ?_, ?_, by simpa [St.after] using h.once, by simpa [St.after] using h.onceB⟩
    · nums h hj s j (some (.relDelete k))
      rw [if_pos h0] at n3 n4 m3 m4
      core
    · intro i
      rw [after_calls]
      simpa [St.after, giveWeak] using mv i
  · have ho : s.mem.objAlive = true := by
      nums h hj s j (some (.relDelete k))
      rw [if_neg h0] at n3 n4 m3 m4
      exact toNat_one (by omega)
    have e : adv s.mem sp (.relDrop k n) =
        { mem := { s.mem with owns := false }, next := some (.relDelete k) } := by
      simp [adv, h0, ho]
    rw [e]
    refine ⟨h.ub, ?_, ?_, by simpa [St.after] using h.once, by simpa [St.after] using h.onceB⟩
    · nums h hj s j (some (.relDelete k))
      rw [if_neg h0] at n3 n4 m3 m4
      have hf : Bool.toNat false = 0 := rfl
      core
    · intro i
      rw [after_calls]
      simpa [St.after, giveWeak] using mv i

theorem step_relDelete {s : St} (h : Inv s) {j : Nat} {sp : Bool} {k : Option Nat}
    (hj : s.calls[j]? = some (.relDelete k)) : Inv (s.after j (adv s.mem sp (.relDelete k))) := by
  have mv : ∀ i, WInv s.mem.wobjs (giveWeak s.weaks (k.map (·, 1))) (upd s.calls j none) i := fun i =>
    winv_move h (q := none) (g := k.map (·, 1)) hj i (by cases k <;> simp [nx, wT, gv]) rfl rfl
  have hf : Bool.toNat false = 0 := rfl
  have ho : s.mem.objAlive = true := by
    nums h hj s j none
    exact toNat_one (by omega)
  have h1 := h.once
  have h2 := h.onceB
  rw [ho] at h1
  by_cases hw : s.mem.owns = true
  · have hw1 := toNat_true hw
    have hr : s.mem.rcAlive = true := by
      nums h hj s j none
      exact toNat_one (by omega)
    rw [hr] at h2
    have e : adv s.mem sp (.relDelete k) =
        { mem := { s.mem with objAlive := false, owns := false, rcAlive := false }, giveW := k.map (·, 1)
          ev := [.destroyed, .blockFreed] } := by
      simp [adv, ho, hw, hr]
    rw [e]
    have hr1 := toNat_true hr
    have ho1 := toNat_true ho
    refine ⟨h.ub, ?_, ?_, ?_, ?_⟩
    · nums h hj s j none
      core
    · intro i
      rw [after_calls]
      simpa [St.after] using mv i
    · simp [St.after] at h1 ⊢; simp [h1]
    · simp [St.after] at h2 ⊢; simp [h2]
  · have hw' : s.mem.owns = false := by simpa using hw
    have hw1 : s.mem.owns.toNat = 0 := by rw [hw']; rfl
    have e : adv s.mem sp (.relDelete k) =
        { mem := { s.mem with objAlive := false }, giveW := k.map (·, 1), ev := [.destroyed] } := by
      simp [adv, ho, hw']
    rw [e]
    have ho1 := toNat_true ho
    refine ⟨h.ub, ?_, ?_, ?_, ?_⟩
    · nums h hj s j none
      core
    · intro i
      rw [after_calls]
      simpa [St.after] using mv i
    · simp [St.after] at h1 ⊢; simp [h1]
    · simpa [St.after] using h2

theorem step_gw {s : St} (h : Inv s) {j : Nat} {sp : Bool} (hj : s.calls[j]? = some .gw) :
    Inv (s.after j (adv s.mem sp .gw)) := by
  have hv := viaObj_tok h hj rfl
  have e : adv s.mem sp .gw = { mem := { s.mem with weak := s.mem.weak + 1 }, next := some .gwNew } := by
    simp only [adv, hv, if_true]
  rw [e]
  refine ⟨h.ub, ?_, ?_, by simpa [St.after] using h.once, by simpa [St.after] using h.onceB⟩
  · nums h hj s j (some .gwNew)
    core
  · intro i
    rw [after_calls]
    simpa [St.after] using winv_move h (q := some .gwNew) (g := none) hj i rfl rfl rfl

theorem wlen {s : St} (h : Inv s) : s.mem.wobjs.length = s.weaks.length := by
  rcases Nat.lt_trichotomy s.mem.wobjs.length s.weaks.length with hl | hl | hl
  · rcases h.wobj s.mem.wobjs.length with ⟨w, n, hw, -, -⟩ | ⟨-, hn, -⟩
    · simp at hw
    · simp at hn; omega
  · exact hl
  · rcases h.wobj s.weaks.length with ⟨w, n, -, hw, -⟩ | ⟨hn, -, -⟩
    · simp at hw
    · simp at hn; omega

theorem step_gwNew {s : St} (h : Inv s) {j : Nat} {sp : Bool} (hj : s.calls[j]? = some .gwNew) :
    Inv (s.after j (adv s.mem sp .gwNew)) := by
  have hv := viaObj_tok h hj rfl
  simp only [Mem.viaObj, Bool.and_eq_true] at hv
  have e : adv s.mem sp .gwNew = { mem := { s.mem with wobjs := s.mem.wobjs ++ [{}] }, give := 1, newW := true } := by
    simp only [adv, hv.1.1, if_true]
  rw [e]
  have hl := wlen h
  have hc := liveCnt_append s.mem.wobjs {}
  simp only [if_true] at hc
  refine ⟨h.ub, ?_, ?_, by simpa [St.after] using h.once, by simpa [St.after] using h.onceB⟩
  · nums h hj s j none
    core
  · intro i
    rw [after_calls]
    have mv := winv_move h (q := none) (g := none) hj i rfl rfl rfl
    simp only [St.after, giveWeak, if_true]
    rcases mv with ⟨w, n, hw, hn, hcc⟩ | ⟨hw, hn, t1, t2, t3⟩
    · refine Or.inl ⟨w, n, ?_, ?_, hcc⟩
      · have := (List.getElem?_eq_some_iff.mp hw).1
        rw [List.getElem?_append_left this, hw]
      · simp only [giveWeak] at hn
        have := (List.getElem?_eq_some_iff.mp hn).1
        rw [List.getElem?_append_left this, hn]
    · simp only [giveWeak] at hn
      have l1 : s.mem.wobjs.length ≤ i := List.getElem?_eq_none_iff.mp hw
      by_cases hi : i = s.mem.wobjs.length
      · subst hi
        refine Or.inl ⟨{}, 1, by simp, by rw [hl]; simp, ?_⟩
        rw [t1, t2, t3]
        constructor <;> simp
      · refine Or.inr ⟨?_, ?_, t1, t2, t3⟩
        · apply List.getElem?_eq_none_iff.mpr; simp; omega
        · apply List.getElem?_eq_none_iff.mpr; simp; omega

end Verif.Lifetime
