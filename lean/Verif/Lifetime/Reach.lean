import Verif.Lifetime.Step2

namespace Verif.Lifetime

structure Good (s : St) : Prop where
  inv : Inv s
  cas : CasPos s

theorem strong_nonneg {s : St} (h : Inv s) : 0 ≤ s.mem.strong := by
  have := h.core.cnt
  omega

theorem mem_upd {l : List Pc} {j : Nat} {q : Option Pc} {p : Pc} (h : p ∈ upd l j q) : p ∈ l ∨ q = some p := by
  cases q with
  | none => exact Or.inl (List.mem_of_mem_eraseIdx h)
  | some q =>
    rcases List.mem_or_eq_of_mem_set h with h | h
    · exact Or.inl h
    · exact Or.inr (by rw [h])

/-- The only step that leads to a comparison is the one that reads the counter, and only if it is not zero. -/
theorem adv_getCas {m : Mem} {sp : Bool} {pc : Pc} {k : Nat} {mode : Option Bool} {cur : Int}
    (h : (adv m sp pc).next = some (.getCas k mode cur)) : cur = m.strong ∧ m.strong ≠ 0 := by
  unfold adv at h
  split at h <;> (repeat' split at h) <;> simp_all

theorem inv_run {s : St} (h : Good s) {j : Nat} {sp : Bool} {pc : Pc} (hj : s.calls[j]? = some pc) :
    Inv (s.after j (adv s.mem sp pc)) := by
  cases pc with
  | addRef => exact step_addRef h.inv hj
  | rel k => exact step_rel h.inv hj
  | relWeak k => exact step_relWeak h.inv hj
  | relDrop k n => exact step_relDrop h.inv hj
  | relDelete k => exact step_relDelete h.inv hj
  | gw => exact step_gw h.inv hj
  | gwNew => exact step_gwNew h.inv hj
  | wAdd i => exact step_wAdd h.inv hj
  | wRel i => exact step_wRel h.inv hj
  | wDelete i => exact step_wDelete h.inv hj
  | wDtor i n => exact step_wDtor h.inv hj
  | getLoad i m => exact step_getLoad h.inv hj
  | getCas i m c => exact step_getCas h.inv h.cas hj
  | getBorrow i b => exact step_getBorrow h.inv hj

theorem cas_append {l : List Pc} {pc : Pc} (h : ∀ k mode cur, Pc.getCas k mode cur ∈ l → 0 < cur)
    (hp : ∀ k mode cur, pc ≠ .getCas k mode cur) :
    ∀ k mode cur, Pc.getCas k mode cur ∈ l ++ [pc] → 0 < cur := by
  intro k mode cur hm
  rcases List.mem_append.mp hm with hm | hm
  · exact h k mode cur hm
  · exact absurd (List.mem_singleton.mp hm).symm (hp k mode cur)

theorem cas_onStrong {s : St} (h : CasPos s) {pc : Pc} (hp : ∀ k mode cur, pc ≠ .getCas k mode cur) :
    CasPos (s.onStrong pc) := by
  unfold St.onStrong
  split
  · exact h
  · exact cas_append h hp

theorem cas_onWeak {s : St} (h : CasPos s) {i : Nat} {pc : Pc} (hp : ∀ k mode cur, pc ≠ .getCas k mode cur) :
    CasPos (s.onWeak i pc) := by
  unfold St.onWeak
  split
  · exact cas_append h hp
  · exact h

theorem good_step {s : St} (h : Good s) (a : Act) : Good (step s a) := by
  cases a with
  | call op =>
    refine ⟨inv_call h.inv op, ?_⟩
    cases op <;> first
      | exact cas_onStrong h.cas (by intros; simp)
      | exact cas_onWeak h.cas (by intros; simp)
  | run j sp =>
    unfold step
    dsimp only
    split
    · rename_i pc hj
      refine ⟨inv_run h hj, ?_⟩
      intro k mode cur hm
      rw [after_calls] at hm
      rcases mem_upd hm with hm | hm
      · exact h.cas k mode cur hm
      · obtain ⟨rfl, h0⟩ := adv_getCas hm
        have := strong_nonneg h.inv
        omega
    · exact h

theorem good_init : Good init := ⟨inv_init, by intro k mode cur hm; cases hm⟩

theorem good_run {s : St} (h : Good s) (as : List Act) : Good (run s as) := by
  induction as generalizing s with
  | nil => exact h
  | cons a as ih => exact ih (good_step h a)

theorem run_append (s : St) (as bs : List Act) : run s (as ++ bs) = run (run s as) bs := by
  induction as generalizing s with
  | nil => rfl
  | cons a as ih => exact ih (step s a)

/-! ## Without a strong reference there is never one again -/

/-- Nobody holds a strong reference. -/
def NoStrong (s : St) : Prop := s.strongs = 0 ∧ tot sTok s.calls = 0

theorem noStrong_of {s : St} (h : Inv s) (h0 : s.mem.strong = 0) : NoStrong s := by
  have := h.core.cnt
  unfold NoStrong
  omega

theorem noStrong_zero {s : St} (h : Inv s) (h0 : NoStrong s) : s.mem.strong = 0 := by
  have := h.core.cnt
  unfold NoStrong at h0
  omega

theorem noStrong_adv {s : St} (h : Good s) (h0 : NoStrong s) {j : Nat} {sp : Bool} {pc : Pc}
    (hj : s.calls[j]? = some pc) :
    (adv s.mem sp pc).give = 0 ∧ nx sTok (adv s.mem sp pc).next = 0 ∧ ∀ i, .got i ∉ (adv s.mem sp pc).ev := by
  have ht := tot_ge sTok _ _ _ hj
  have hz := noStrong_zero h.inv h0
  have h1 : sTok pc = 0 := by have := h0.2; omega
  have hc : ∀ k mode cur, pc = .getCas k mode cur → ¬ (s.mem.strong = cur ∧ sp = false) := by
    rintro k mode cur rfl ⟨he, -⟩
    have := h.cas k mode cur (List.mem_of_getElem? hj)
    omega
  cases pc with
  | getCas k mode cur =>
    have := hc k mode cur rfl
    simp only [adv, if_neg this]
    split <;> simp [nx, sTok]
  | _ =>
    first
      | (simp [sTok] at h1; done)
      | (unfold adv; repeat' split
         all_goals simp_all [nx, sTok])

theorem noStrong_step {s : St} (h : Good s) (h0 : NoStrong s) (a : Act) :
    NoStrong (step s a) ∧ ∃ evs, (step s a).log = s.log ++ evs ∧ ∀ i, .got i ∉ evs := by
  cases a with
  | call op =>
    have hs : ∀ pc, s.onStrong pc = s := by
      intro pc; unfold St.onStrong; rw [h0.1]
    have hw : ∀ i pc, sTok pc = 0 → NoStrong (s.onWeak i pc) ∧
        ∃ evs : List Ev, (s.onWeak i pc).log = s.log ++ evs ∧ ∀ i, .got i ∉ evs := by
      intro i pc hp
      unfold St.onWeak
      split
      · exact ⟨⟨h0.1, by simp [tot_append, h0.2, hp]⟩, [], by simp, by simp⟩
      · exact ⟨h0, [], by simp, by simp⟩
    cases op with
    | addRef => exact ⟨by simpa [step, St.call, hs] using h0, [], by simp [step, St.call, hs], by simp⟩
    | releaseRef => exact ⟨by simpa [step, St.call, hs] using h0, [], by simp [step, St.call, hs], by simp⟩
    | getWeakRef => exact ⟨by simpa [step, St.call, hs] using h0, [], by simp [step, St.call, hs], by simp⟩
    | wAddRef i => exact hw i _ rfl
    | wReleaseRef i => exact hw i _ rfl
    | getRef i => exact hw i _ rfl
    | getRefAs i b => exact hw i _ rfl
  | run j sp =>
    unfold step
    dsimp only
    split
    · rename_i pc hj
      obtain ⟨e1, e2, e3⟩ := noStrong_adv (sp := sp) h h0 hj
      refine ⟨⟨?_, ?_⟩, _, rfl, e3⟩
      · simp [St.after, e1, h0.1]
      · rw [after_calls]
        have := tot_upd sTok _ _ _ (adv s.mem sp pc).next hj
        have := h0.2
        omega
    · exact ⟨h0, [], by simp, by simp⟩

theorem noStrong_run {s : St} (h : Good s) (h0 : NoStrong s) (as : List Act) :
    NoStrong (run s as) ∧ ∃ evs, (run s as).log = s.log ++ evs ∧ ∀ i, .got i ∉ evs := by
  induction as generalizing s with
  | nil => exact ⟨h0, [], by simp [run], by simp⟩
  | cons a as ih =>
    obtain ⟨h1, e1, hl1, hn1⟩ := noStrong_step h h0 a
    obtain ⟨h2, e2, hl2, hn2⟩ := ih (good_step h a) h1
    refine ⟨h2, e1 ++ e2, by rw [run, hl2, hl1, List.append_assoc], ?_⟩
    intro i hm
    rcases List.mem_append.mp hm with hm | hm
    · exact hn1 i hm
    · exact hn2 i hm

/-! ## Every call can return -/

/-- The number of steps a call needs at most when it is left alone. -/
def rank (strong : Int) : Pc → Nat
  | .addRef => 1
  | .relDelete _ => 1
  | .relDrop _ _ => 2
  | .relWeak _ => 3
  | .rel _ => 4
  | .gwNew => 1
  | .gw => 2
  | .wAdd _ => 1
  | .wDtor _ _ => 1
  | .wDelete _ => 2
  | .wRel _ => 3
  | .getBorrow _ _ => 5
  | .getCas _ _ cur => if strong = cur then 6 else 8
  | .getLoad _ _ => 7

theorem adv_rank (m : Mem) (pc q : Pc) (h : (adv m false pc).next = some q) :
    rank (adv m false pc).mem.strong q < rank m.strong pc := by
  cases pc <;> simp only [adv] at h ⊢ <;> (repeat' split at h) <;> (try cases h) <;> simp_all [rank]

theorem finish_one (n : Nat) (s : St) (pc : Pc) (ps : List Pc) (hc : s.calls = pc :: ps)
    (hr : rank s.mem.strong pc ≤ n) :
    ∃ k, (run s (List.replicate k (.run 0 false))).calls = ps := by
  induction n generalizing s pc with
  | zero => exfalso; cases pc <;> simp only [rank] at hr <;> (try split at hr) <;> omega
  | succ n ih =>
    have hj : s.calls[0]? = some pc := by rw [hc]; rfl
    have hs : step s (.run 0 false) = s.after 0 (adv s.mem false pc) := by simp only [step, hj]
    cases hn : (adv s.mem false pc).next with
    | none =>
      refine ⟨1, ?_⟩
      simp only [List.replicate, run, hs]
      rw [after_calls, hn, upd, hc]; rfl
    | some q =>
      have hlt := adv_rank _ _ _ hn
      have hc' : (s.after 0 (adv s.mem false pc)).calls = q :: ps := by
        rw [after_calls, hn, upd, hc]; rfl
      obtain ⟨k, hk⟩ := ih (s.after 0 (adv s.mem false pc)) q hc' (by
        simp only [St.after]; omega)
      refine ⟨k + 1, ?_⟩
      rw [List.replicate_succ, run, hs]
      exact hk

theorem finish_all (l : List Pc) (s : St) (hc : s.calls = l) :
    ∃ k, (run s (List.replicate k (.run 0 false))).calls = [] := by
  induction l generalizing s with
  | nil => exact ⟨0, hc⟩
  | cons pc ps ih =>
    obtain ⟨k, hk⟩ := finish_one _ s pc ps hc (Nat.le_refl _)
    obtain ⟨k', hk'⟩ := ih _ hk
    refine ⟨k + k', ?_⟩
    rw [← List.replicate_append_replicate, run_append]
    exact hk'

end Verif.Lifetime
