import Verif.Lifetime.Step

namespace Verif.Lifetime

/-- A step that changes weak reference object `k`. -/
theorem winv_set {s : St} (h : Inv s) {j : Nat} {pc : Pc} {q : Option Pc} {g : Option (Nat × Nat)} {k : Nat}
    {f : WObj → WObj} {w : WObj} {n : Nat} (hj : s.calls[j]? = some pc)
    (hother : ∀ i, k ≠ i → wT i pc = 0 ∧ nx (wT i) q = 0 ∧ wD i pc = 0 ∧ nx (wD i) q = 0 ∧ wX i pc = 0 ∧
      nx (wX i) q = 0 ∧ gv i g = 0)
    (hw : s.mem.wobjs[k]? = some w) (hn : s.weaks[k]? = some n)
    (hk : WCore (f w).count (f w).st (n + gv k g) (tot (wT k) (upd s.calls j q)) (tot (wD k) (upd s.calls j q))
        (tot (wX k) (upd s.calls j q))) (i : Nat) :
    WInv (s.mem.wobjs.modify k f) (giveWeak s.weaks g) (upd s.calls j q) i := by
  have hg : (giveWeak s.weaks g)[i]? = s.weaks[i]?.map (· + gv i g) := by
    cases g with
    | none => simp [giveWeak, gv]
    | some g =>
      obtain ⟨k, n⟩ := g
      simp only [giveWeak, List.getElem?_modify]
      by_cases hk : k = i <;> simp [hk, gv]
  by_cases hi : k = i
  · subst hi
    exact Or.inl ⟨f w, n + gv k g, by simp [hw], by rw [hg, hn]; rfl, hk⟩
  · obtain ⟨o1, o2, o3, o4, o5, o6, o7⟩ := hother i hi
    have e1 := tot_upd (wT i) _ _ _ q hj
    have e2 := tot_upd (wD i) _ _ _ q hj
    have e3 := tot_upd (wX i) _ _ _ q hj
    have e1' : tot (wT i) (upd s.calls j q) = tot (wT i) s.calls := by omega
    have e2' : tot (wD i) (upd s.calls j q) = tot (wD i) s.calls := by omega
    have e3' : tot (wX i) (upd s.calls j q) = tot (wX i) s.calls := by omega
    refine winv_after (h.wobj i) id id ?_ ?_ ?_ ?_
    · simp [hi]
    · rw [hg, o7]; simp
    · intro w n _ _ hc
      rw [e1', e2', e3']; exact hc
    · rw [e1', e2', e3']; exact fun a b c => ⟨a, b, c⟩

theorem wAlive_of {m : Mem} {i : Nat} {w : WObj} (hw : m.wobjs[i]? = some w) (hs : w.st ≠ .freed) :
    m.wAlive i = true := by
  simp [Mem.wAlive, hw, hs]

set_option hygiene false in
macro "wnums " hj:ident i:ident q:term : tactic => `(tactic| (
  have p1 := tot_upd (wT $i) _ _ _ $q $hj
  have p2 := tot_upd (wD $i) _ _ _ $q $hj
  have p3 := tot_upd (wX $i) _ _ _ $q $hj
  have r1 := tot_ge (wT $i) _ _ _ $hj
  have r2 := tot_ge (wD $i) _ _ _ $hj
  have r3 := tot_ge (wX $i) _ _ _ $hj
  simp only [nx, wT, wD, wX, if_true] at p1 p2 p3 r1 r2 r3))

theorem step_wAdd {s : St} (h : Inv s) {j : Nat} {sp : Bool} {k : Nat} (hj : s.calls[j]? = some (.wAdd k)) :
    Inv (s.after j (adv s.mem sp (.wAdd k))) := by
  obtain ⟨w, n, hw, hn, hl, hc⟩ := wobj_tok (i := k) h hj (by simp [wT])
  have e : adv s.mem sp (.wAdd k) =
      { mem := s.mem.wSet k (fun w => { w with count := w.count + 1 }), giveW := some (k, 2) } := by
    simp only [adv, wAlive_of hw (by rw [hl]; decide), if_true]
  rw [e]
  have hlc := liveCnt_modify s.mem.wobjs k (fun w => { w with count := w.count + 1 }) w hw
  simp only [hl, if_true] at hlc
  refine ⟨h.ub, ?_, ?_, by simpa [St.after, Mem.wSet] using h.once, by simpa [St.after, Mem.wSet] using h.onceB⟩
  · nums h hj s j none
    unfold SCore
    rw [after_calls]
    simp only [St.after, Mem.wSet]
    constructor <;> omega
  · intro i
    rw [after_calls]
    simp only [St.after, Mem.wSet, Bool.false_eq_true, if_false, List.append_nil]
    refine winv_set h hj ?_ hw hn ?_ i
    · intro i hi; simp [nx, wT, wD, wX, gv, hi]
    · wnums hj k none
      have c1 := hc.cnt
      obtain ⟨-, k1, k2⟩ := hc.held (by omega)
      simp only [gv, if_true, hl]
      constructor
      · omega
      · intro _; exact ⟨rfl, by omega, by omega⟩
      · intro h0; omega
      · intro h0; cases h0
      · intro h0; cases h0

set_option maxHeartbeats 1000000 in
theorem step_wRel {s : St} (h : Inv s) {j : Nat} {sp : Bool} {k : Nat} (hj : s.calls[j]? = some (.wRel k)) :
    Inv (s.after j (adv s.mem sp (.wRel k))) := by
  obtain ⟨w, n, hw, hn, hl, hc⟩ := wobj_tok (i := k) h hj (by simp [wT])
  have ha := wAlive_of hw (by rw [hl]; decide)
  have hcnt : s.mem.wCount k = w.count := by simp [Mem.wCount, hw]
  have hlc := liveCnt_modify s.mem.wobjs k (fun w => { w with count := w.count - 1 }) w hw
  simp only [hl, if_true] at hlc
  by_cases h0 : w.count - 1 = 0
  · have e : adv s.mem sp (.wRel k) =
        { mem := s.mem.wSet k (fun w => { w with count := w.count - 1 }), next := some (.wDelete k) } := by
      simp only [adv, ha, if_true, hcnt, if_pos h0]
    rw [e]
    refine ⟨h.ub, ?_, ?_, by simpa [St.after, Mem.wSet] using h.once, by simpa [St.after, Mem.wSet] using h.onceB⟩
    · nums h hj s j (some (.wDelete k))
      unfold SCore
      rw [after_calls]
      simp only [St.after, Mem.wSet]
      constructor <;> omega
    · intro i
      rw [after_calls]
      simp only [St.after, Mem.wSet, Bool.false_eq_true, if_false, List.append_nil]
      refine winv_set h hj ?_ hw hn ?_ i
      · intro i hi; simp [nx, wT, wD, wX, gv, hi]
      · wnums hj k (some (.wDelete k))
        have c1 := hc.cnt
        obtain ⟨-, k1, k2⟩ := hc.held (by omega)
        simp only [gv, hl]
        constructor
        · omega
        · intro _; omega
        · intro _ _; omega
        · intro h0; cases h0
        · intro h0; cases h0
  · have e : adv s.mem sp (.wRel k) =
        { mem := s.mem.wSet k (fun w => { w with count := w.count - 1 }) } := by
      simp only [adv, ha, if_true, hcnt, if_neg h0]
    rw [e]
    refine ⟨h.ub, ?_, ?_, by simpa [St.after, Mem.wSet] using h.once, by simpa [St.after, Mem.wSet] using h.onceB⟩
    · nums h hj s j none
      unfold SCore
      rw [after_calls]
      simp only [St.after, Mem.wSet]
      constructor <;> omega
    · intro i
      rw [after_calls]
      simp only [St.after, Mem.wSet, Bool.false_eq_true, if_false, List.append_nil]
      refine winv_set h hj ?_ hw hn ?_ i
      · intro i hi; simp [nx, wT, wD, wX, gv, hi]
      · wnums hj k none
        have c1 := hc.cnt
        obtain ⟨-, k1, k2⟩ := hc.held (by omega)
        simp only [gv, hl]
        constructor
        · omega
        · intro _; exact ⟨rfl, by omega, by omega⟩
        · intro _ _; omega
        · intro h0; cases h0
        · intro h0; cases h0

set_option maxHeartbeats 1000000 in
theorem step_wDelete {s : St} (h : Inv s) {j : Nat} {sp : Bool} {k : Nat} (hj : s.calls[j]? = some (.wDelete k)) :
    Inv (s.after j (adv s.mem sp (.wDelete k))) := by
  obtain ⟨w, n, hw, hn, hl, hc⟩ := wobj_del h hj
  have hv := viaWeak_live h hw hl
  have hr1 := toNat_true (rc_live h hw hl)
  have e : adv s.mem sp (.wDelete k) =
      { mem := { s.mem with weak := s.mem.weak - 1 }.wSet k (fun w => { w with st := .dtor })
        next := some (.wDtor k (s.mem.weak - 1)) } := by
    simp only [adv, hv, if_true]
  rw [e]
  have hlc := liveCnt_modify s.mem.wobjs k (fun w => { w with st := .dtor }) w hw
  have hdl : ¬ WSt.dtor = WSt.live := by decide
  simp only [hl, if_true, hdl, if_false] at hlc
  refine ⟨h.ub, ?_, ?_, by simpa [St.after, Mem.wSet] using h.once, by simpa [St.after, Mem.wSet] using h.onceB⟩
  · nums h hj s j (some (.wDtor k (s.mem.weak - 1)))
    by_cases h0 : s.mem.weak - 1 = 0
    · rw [if_pos h0] at n7
      unfold SCore
      rw [after_calls]
      simp only [St.after, Mem.wSet]
      constructor <;> omega
    · rw [if_neg h0] at n7
      unfold SCore
      rw [after_calls]
      simp only [St.after, Mem.wSet]
      constructor <;> omega
  · intro i
    rw [after_calls]
    simp only [St.after, Mem.wSet, Bool.false_eq_true, if_false, List.append_nil]
    refine winv_set h hj ?_ hw hn ?_ i
    · intro i hi; simp [nx, wT, wD, wX, gv, hi]
    · wnums hj k (some (.wDtor k (s.mem.weak - 1)))
      have c1 := hc.cnt
      have hz : n + tot (wT k) s.calls = 0 := by
        by_cases hp : 0 < n + tot (wT k) s.calls
        · have := hc.held hp; omega
        · omega
      have k1 := hc.live hz hl
      simp only [gv]
      constructor
      · exact c1.trans (by omega)
      · intro _; omega
      · intro _ h0; cases h0
      · intro _; omega
      · intro h0; cases h0

set_option maxHeartbeats 1000000 in
theorem step_wDtor {s : St} (h : Inv s) {j : Nat} {sp : Bool} {k : Nat} {m : Int}
    (hj : s.calls[j]? = some (.wDtor k m)) : Inv (s.after j (adv s.mem sp (.wDtor k m))) := by
  obtain ⟨w, n, hw, hn, hl, hc⟩ := wobj_dtor h hj
  have ha := wAlive_of hw (by rw [hl]; decide)
  have hlc := liveCnt_modify s.mem.wobjs k (fun w => { w with st := .freed }) w hw
  have hdl : ¬ WSt.dtor = WSt.live := by decide
  have hfl : ¬ WSt.freed = WSt.live := by decide
  simp only [hl, hfl, hdl, if_false] at hlc
  have hwi : ∀ i, WInv (s.mem.wobjs.modify k (fun w => { w with st := .freed })) s.weaks (upd s.calls j none) i := by
    intro i
    have := winv_set (q := none) (g := none) (f := fun w => { w with st := .freed }) h hj (by
      intro i hi; simp [nx, wT, wD, wX, gv, hi]) hw hn (by
      wnums hj k none
      obtain ⟨c1, c2, c3, c4, c5⟩ := hc
      have k1 := c4 hl
      simp only [gv]
      have hnt : n + tot (wT k) s.calls = 0 := by
        by_cases hp : 0 < n + tot (wT k) s.calls
        · have := (c2 hp).2.2; omega
        · omega
      constructor
      · exact c1.trans (by omega)
      · intro _; omega
      · intro _ h0; cases h0
      · intro h0; cases h0
      · intro _; omega) i
    simpa [giveWeak] using this
  by_cases h0 : m = 0
  · have hr : s.mem.rcAlive = true := by
      nums h hj s j none
      rw [if_pos h0] at m7
      exact toNat_one (by omega)
    have hr1 := toNat_true hr
    have h2 := h.onceB
    rw [hr] at h2
    have e : adv s.mem sp (.wDtor k m) =
        { mem := { s.mem with rcAlive := false }.wSet k (fun w => { w with st := .freed }), ev := [.blockFreed] } := by
      simp only [adv, ha, if_true, if_pos h0, hr]
    rw [e]
    refine ⟨h.ub, ?_, ?_, by simpa [St.after, Mem.wSet] using h.once, ?_⟩
    · nums h hj s j none
      rw [if_pos h0] at n7 m7
      have hf : Bool.toNat false = 0 := rfl
      unfold SCore
      rw [after_calls]
      simp only [St.after, Mem.wSet]
      constructor <;> omega
    · intro i
      rw [after_calls]
      simp only [St.after, Mem.wSet, Bool.false_eq_true, if_false, List.append_nil, giveWeak]
      exact hwi i
    · simp [St.after, Mem.wSet] at h2 ⊢; simp [h2]
  · have e : adv s.mem sp (.wDtor k m) =
        { mem := s.mem.wSet k (fun w => { w with st := .freed }) } := by
      simp only [adv, ha, if_true, if_neg h0]
    rw [e]
    refine ⟨h.ub, ?_, ?_, by simpa [St.after, Mem.wSet] using h.once, by simpa [St.after, Mem.wSet] using h.onceB⟩
    · nums h hj s j none
      rw [if_neg h0] at n7 m7
      unfold SCore
      rw [after_calls]
      simp only [St.after, Mem.wSet]
      constructor <;> omega
    · intro i
      rw [after_calls]
      simp only [St.after, Mem.wSet, Bool.false_eq_true, if_false, List.append_nil, giveWeak]
      exact hwi i

set_option maxHeartbeats 1000000 in
theorem step_getLoad {s : St} (h : Inv s) {j : Nat} {sp : Bool} {k : Nat} {mode : Option Bool}
    (hj : s.calls[j]? = some (.getLoad k mode)) : Inv (s.after j (adv s.mem sp (.getLoad k mode))) := by
  obtain ⟨w, n, hw, hn, hl, hc⟩ := wobj_tok (i := k) h hj (by simp [wT])
  have hv := viaWeak_live h hw hl
  by_cases h0 : s.mem.strong = 0
  · have e : adv s.mem sp (.getLoad k mode) = { mem := s.mem, giveW := some (k, 1), ev := [.notAssigned k] } := by
      simp only [adv, hv, if_true, if_pos h0]
    rw [e]
    refine ⟨h.ub, ?_, ?_, by simpa [St.after] using h.once, by simpa [St.after] using h.onceB⟩
    · nums h hj s j none
      core
    · intro i
      rw [after_calls]
      simpa [St.after] using winv_move h (q := none) (g := some (k, 1)) hj i (by simp [nx, wT, gv]) rfl rfl
  · have e : adv s.mem sp (.getLoad k mode) = { mem := s.mem, next := some (.getCas k mode s.mem.strong) } := by
      simp only [adv, hv, if_true, if_neg h0]
    rw [e]
    refine ⟨h.ub, ?_, ?_, by simpa [St.after] using h.once, by simpa [St.after] using h.onceB⟩
    · nums h hj s j (some (.getCas k mode s.mem.strong))
      core
    · intro i
      rw [after_calls]
      simpa [St.after] using winv_move h (q := some (.getCas k mode s.mem.strong)) (g := none) hj i
        (by simp [nx, wT, gv]) rfl rfl

/-- The value compared by a call in progress was not zero when it was read. -/
def CasPos (s : St) : Prop := ∀ k mode cur, Pc.getCas k mode cur ∈ s.calls → 0 < cur

set_option maxHeartbeats 1000000 in
theorem step_getCas {s : St} (h : Inv s) (hp : CasPos s) {j : Nat} {sp : Bool} {k : Nat} {mode : Option Bool} {cur : Int}
    (hj : s.calls[j]? = some (.getCas k mode cur)) : Inv (s.after j (adv s.mem sp (.getCas k mode cur))) := by
  obtain ⟨w, n, hw, hn, hl, hc⟩ := wobj_tok (i := k) h hj (by simp [wT])
  have hv := viaWeak_live h hw hl
  have hcur := hp k mode cur (List.mem_of_getElem? hj)
  by_cases h0 : s.mem.strong = cur ∧ sp = false
  · cases mode with
    | none =>
      have e : adv s.mem sp (.getCas k none cur) =
          { mem := { s.mem with strong := s.mem.strong + 1 }, give := 1, giveW := some (k, 1), ev := [.got k] } := by
        simp only [adv, hv, if_true, if_pos h0]
      rw [e]
      refine ⟨h.ub, ?_, ?_, by simpa [St.after] using h.once, by simpa [St.after] using h.onceB⟩
      · nums h hj s j none
        core
      · intro i
        rw [after_calls]
        simpa [St.after] using winv_move h (q := none) (g := some (k, 1)) hj i (by simp [nx, wT, gv]) rfl rfl
    | some b =>
      have e : adv s.mem sp (.getCas k (some b) cur) =
          { mem := { s.mem with strong := s.mem.strong + 1 }, next := some (.getBorrow k b) } := by
        simp only [adv, hv, if_true, if_pos h0]
      rw [e]
      refine ⟨h.ub, ?_, ?_, by simpa [St.after] using h.once, by simpa [St.after] using h.onceB⟩
      · nums h hj s j (some (.getBorrow k b))
        core
      · intro i
        rw [after_calls]
        simpa [St.after] using winv_move h (q := some (.getBorrow k b)) (g := none) hj i (by simp [nx, wT, gv]) rfl rfl
  · have e : adv s.mem sp (.getCas k mode cur) = { mem := s.mem, next := some (.getLoad k mode) } := by
      simp only [adv, hv, if_true, if_neg h0]
    rw [e]
    refine ⟨h.ub, ?_, ?_, by simpa [St.after] using h.once, by simpa [St.after] using h.onceB⟩
    · nums h hj s j (some (.getLoad k mode))
      core
    · intro i
      rw [after_calls]
      simpa [St.after] using winv_move h (q := some (.getLoad k mode)) (g := none) hj i (by simp [nx, wT, gv]) rfl rfl

set_option maxHeartbeats 1000000 in
theorem step_getBorrow {s : St} (h : Inv s) {j : Nat} {sp : Bool} {k : Nat} {b : Bool}
    (hj : s.calls[j]? = some (.getBorrow k b)) : Inv (s.after j (adv s.mem sp (.getBorrow k b))) := by
  have hv := viaObj_tok h hj rfl
  simp only [Mem.viaObj, Bool.and_eq_true] at hv
  cases b with
  | true =>
    have e : adv s.mem sp (.getBorrow k true) =
        { mem := s.mem, give := 1, giveW := some (k, 1), ev := [.got k] } := by
      simp only [adv, hv.1.1, if_true]
    rw [e]
    refine ⟨h.ub, ?_, ?_, by simpa [St.after] using h.once, by simpa [St.after] using h.onceB⟩
    · nums h hj s j none
      core
    · intro i
      rw [after_calls]
      simpa [St.after] using winv_move h (q := none) (g := some (k, 1)) hj i (by simp [nx, wT, gv]) rfl rfl
  | false =>
    have e : adv s.mem sp (.getBorrow k false) =
        { mem := s.mem, next := some (.rel (some k)), ev := [.noInterface k] } := by
      simp [adv, hv.1.1]
    rw [e]
    refine ⟨h.ub, ?_, ?_, by simpa [St.after] using h.once, by simpa [St.after] using h.onceB⟩
    · nums h hj s j (some (.rel (some k)))
      core
    · intro i
      rw [after_calls]
      simpa [St.after] using winv_move h (q := some (.rel (some k))) (g := none) hj i (by simp [nx, wT, gv]) rfl rfl

/-! ## Starting calls -/

theorem inv_onStrong {s : St} (h : Inv s) {pc : Pc} (h1 : sTok pc = 1) (h2 : dA pc = 0) (h3 : dB0 pc = 0)
    (h4 : dB1 pc = 0) (h5 : dD pc = 0) (h6 : gN pc = 0) (h7 : wZ pc = 0) (h8 : ∀ i, wT i pc = 0)
    (h9 : ∀ i, wD i pc = 0) (h10 : ∀ i, wX i pc = 0) : Inv (s.onStrong pc) := by
  unfold St.onStrong
  cases hs : s.strongs with
  | zero => exact h
  | succ n =>
    refine ⟨h.ub, ?_, ?_, h.once, h.onceB⟩
    · obtain ⟨c1, c2, c3, c4, c5, c6, c7, c8, c9, c10, c11, c12⟩ := h.core
      unfold SCore
      simp only [tot_append, h1, h2, h3, h4, h5, h6, h7]
      rw [hs] at c1 c2 c3 c6 c7
      constructor <;> omega
    · intro i
      have := h.wobj i
      simpa [WInv, tot_append, h8, h9, h10] using this

theorem inv_onWeak {s : St} (h : Inv s) {pc : Pc} {k : Nat} (h1 : sTok pc = 0) (h2 : dA pc = 0) (h3 : dB0 pc = 0)
    (h4 : dB1 pc = 0) (h5 : dD pc = 0) (h6 : gN pc = 0) (h7 : wZ pc = 0) (h8 : ∀ i, wT i pc = if k = i then 1 else 0)
    (h9 : ∀ i, wD i pc = 0) (h10 : ∀ i, wX i pc = 0) : Inv (s.onWeak k pc) := by
  unfold St.onWeak
  split
  · rename_i n hn
    refine ⟨h.ub, ?_, ?_, h.once, h.onceB⟩
    · obtain ⟨c1, c2, c3, c4, c5, c6, c7, c8, c9, c10, c11, c12⟩ := h.core
      unfold SCore
      simp only [tot_append, h1, h2, h3, h4, h5, h6, h7]
      constructor <;> omega
    · intro i
      by_cases hi : k = i
      · subst hi
        rcases h.wobj k with ⟨w, m, hw, hm, hc⟩ | ⟨-, hm, -⟩
        · rw [hm] at hn
          obtain rfl := Option.some.inj hn
          refine Or.inl ⟨w, n, hw, ?_, ?_⟩
          · have := (List.getElem?_eq_some_iff.mp hm).1
            simp [this]
          · simp only [tot_append, h8, h9, h10, if_true, Nat.add_zero]
            obtain ⟨c1, c2, c3, c4, c5⟩ := hc
            refine ⟨by omega, fun _ => c2 (by omega), fun hz => by omega, c4, c5⟩
        · rw [hm] at hn; cases hn
      · have := h.wobj i
        simpa [WInv, tot_append, h8, h9, h10, hi, List.getElem?_set] using this
  · exact h

theorem inv_call {s : St} (h : Inv s) (op : Op) : Inv (s.call op) := by
  cases op with
  | addRef => exact inv_onStrong h rfl rfl rfl rfl rfl rfl rfl (fun _ => rfl) (fun _ => rfl) (fun _ => rfl)
  | releaseRef => exact inv_onStrong h rfl rfl rfl rfl rfl rfl rfl (fun _ => rfl) (fun _ => rfl) (fun _ => rfl)
  | getWeakRef => exact inv_onStrong h rfl rfl rfl rfl rfl rfl rfl (fun _ => rfl) (fun _ => rfl) (fun _ => rfl)
  | wAddRef i => exact inv_onWeak h rfl rfl rfl rfl rfl rfl rfl (fun _ => rfl) (fun _ => rfl) (fun _ => rfl)
  | wReleaseRef i => exact inv_onWeak h rfl rfl rfl rfl rfl rfl rfl (fun _ => rfl) (fun _ => rfl) (fun _ => rfl)
  | getRef i => exact inv_onWeak h rfl rfl rfl rfl rfl rfl rfl (fun _ => rfl) (fun _ => rfl) (fun _ => rfl)
  | getRefAs i b => exact inv_onWeak h rfl rfl rfl rfl rfl rfl rfl (fun _ => rfl) (fun _ => rfl) (fun _ => rfl)

end Verif.Lifetime
