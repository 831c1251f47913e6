import Verif.DataPacket.Spec

/-! # Lemmas about the rule loops -/

namespace Verif.DataPacket

theorem fill_some {V : Type} (f : Nat → V) :
    ∀ (k i : Nat) (out : List V), i + k ≤ out.length →
      ∃ o, fill f k i out = some o ∧ o.length = out.length ∧
        ∀ j, o[j]? = if i ≤ j ∧ j < i + k then some (f j) else out[j]? := by
  intro k
  induction k with
  | zero => intro i out _; exact ⟨out, rfl, rfl, fun j => by rw [if_neg (by omega)]⟩
  | succ k ih =>
    intro i out h
    obtain ⟨o, e, l, g⟩ := ih (i + 1) (out.set i (f i)) (by rw [List.length_set]; omega)
    refine ⟨o, ?_, by rw [l, List.length_set], fun j => ?_⟩
    · rw [fill, if_pos (by omega)]; exact e
    · rw [g j, List.getElem?_set]
      by_cases h1 : i + 1 ≤ j ∧ j < i + 1 + k
      · rw [if_pos h1, if_pos (by omega)]
      · rw [if_neg h1]
        by_cases h2 : i = j
        · subst h2; rw [if_pos rfl, if_pos (by omega), if_pos (by omega)]
        · rw [if_neg h2, if_neg (by omega)]

theorem fill_none {V : Type} (f : Nat → V) :
    ∀ (k i : Nat) (out : List V), 0 < k → out.length < i + k → fill f k i out = none := by
  intro k
  induction k with
  | zero => intro i out h; omega
  | succ k ih =>
    intro i out _ h
    rw [fill]
    by_cases h1 : i < out.length
    · rw [if_pos h1]
      exact ih _ _ (by omega) (by rw [List.length_set]; omega)
    · rw [if_neg h1]

/-- Filling an array from the start: the first `n` elements. -/
theorem fill_take {V : Type} (f : Nat → V) (n : Nat) (out : List V) (h : n ≤ out.length) :
    ∃ o, fill f n 0 out = some o ∧ o.length = out.length ∧ o.take n = (List.range n).map f := by
  obtain ⟨o, e, l, g⟩ := fill_some f n 0 out (by omega)
  refine ⟨o, e, l, ?_⟩
  apply List.ext_getElem?
  intro j
  rw [List.getElem?_take, List.getElem?_map, g j]
  by_cases hj : j < n
  · rw [if_pos hj, if_pos (by omega), List.getElem?_range hj]; rfl
  · rw [if_neg hj, List.getElem?_eq_none (by rw [List.length_range]; omega)]; rfl

/-- Walk through the entries: the value in force at `j`. -/
def walk {V : Type} (j : Nat) : V → List (Nat × V) → V
  | c, [] => c
  | c, (u, v) :: es => if j < u then c else walk j v es

theorem walk_sorted {V : Type} (j : Nat) :
    ∀ (es : List (Nat × V)) (c : V), Sorted es → walk j c es = constAt c es j := by
  intro es
  induction es with
  | nil => intro c _; rfl
  | cons e es ih =>
    intro c h
    obtain ⟨u, v⟩ := e
    have hp := List.pairwise_cons.mp h
    rw [walk]
    by_cases hj : j < u
    · rw [if_pos hj]
      unfold constAt
      have : (((u, v) :: es).filter fun e => e.1 ≤ j) = [] := by
        rw [List.filter_eq_nil_iff]
        intro a ha
        rcases List.mem_cons.mp ha with rfl | ha
        · simpa using hj
        · have := hp.1 a ha
          simp only [decide_eq_true_eq]; omega
      rw [this]; rfl
    · rw [if_neg hj, ih v hp.2]
      unfold constAt
      rw [List.filter_cons, if_pos (by simpa using (by omega : u ≤ j))]
      rw [List.getLast?_cons]
      cases (es.filter fun e => e.1 ≤ j).getLast? <;> rfl

theorem constLoop_spec {V : Type} (n : Nat) :
    ∀ (es : List (Nat × V)) (i : Nat) (c : V) (out : List V), n ≤ out.length →
      (∀ e, es.find? (fun e => n ≤ e.1) = some e → i < n → e.1 ≤ out.length) →
      ∃ o, constLoop n es.length es i c out = .ok o ∧ o.length = out.length ∧
        ∀ j, j < n → o[j]? = if i ≤ j then some (walk j c es) else out[j]? := by
  intro es
  induction es with
  | nil =>
    intro i c out h _
    dsimp only [List.length]
    rw [constLoop]
    by_cases hi : i < n
    · obtain ⟨o, e, l, g⟩ := fill_some (fun _ => c) (n - i) i out (by omega)
      refine ⟨o, ?_, l, fun j hj => ?_⟩
      · rw [if_pos hi]; rw [e]
      · rw [g j]
        by_cases hij : i ≤ j
        · rw [if_pos (by omega), if_pos hij]; rfl
        · rw [if_neg (by omega), if_neg hij]
    · exact ⟨out, by rw [if_neg hi], rfl, fun j hj => by rw [if_neg (by omega)]⟩
  | cons e es ih =>
    intro i c out h hb
    obtain ⟨u, v⟩ := e
    dsimp only [List.length]
    rw [constLoop]
    by_cases hi : i < n
    · rw [if_pos hi]
      have hu : u ≤ out.length := by
        by_cases hun : n ≤ u
        · exact hb (u, v) (by rw [List.find?_cons]; simp [hun]) hi
        · omega
      by_cases hiu : i ≤ u
      · obtain ⟨o1, e1, l1, g1⟩ := fill_some (fun _ => c) (u - i) i out (by omega)
        obtain ⟨o, e2, l2, g2⟩ := ih (max i u) v o1 (by omega) (by
          intro e he hlt
          rw [l1]
          refine hb e ?_ hi
          rw [List.find?_cons]
          have : ¬ n ≤ u := by omega
          simp only [this, decide_false]
          exact he)
        refine ⟨o, ?_, by omega, fun j hj => ?_⟩
        · rw [e1]; exact e2
        · rw [g2 j hj, g1 j, walk]
          by_cases hj1 : max i u ≤ j
          · rw [if_pos hj1, if_pos (by omega), if_neg (by omega)]
          · rw [if_neg hj1]
            by_cases hij : i ≤ j
            · rw [if_pos (by omega), if_pos hij, if_pos (by omega)]
            · rw [if_neg (by omega), if_neg hij]
      · have e1 : fill (fun _ => c) (u - i) i out = some out := by
          have : u - i = 0 := by omega
          rw [this]; rfl
        obtain ⟨o, e2, l2, g2⟩ := ih (max i u) v out h (by
          intro e he hlt
          refine hb e ?_ hi
          rw [List.find?_cons]
          have : ¬ n ≤ u := by omega
          simp only [this, decide_false]
          exact he)
        refine ⟨o, ?_, by omega, fun j hj => ?_⟩
        · rw [e1]; exact e2
        · rw [g2 j hj, walk]
          by_cases hij : i ≤ j
          · rw [if_pos (by omega), if_pos hij, if_neg (by omega)]
          · rw [if_neg (by omega), if_neg hij]
    · exact ⟨out, by rw [if_neg hi], rfl, fun j hj => by rw [if_neg (by omega)]⟩

/-- The loop leaves the array if the first position that reaches the end is outside of it. -/
theorem constLoop_oob {V : Type} (n : Nat) :
    ∀ (es : List (Nat × V)) (i : Nat) (c : V) (out : List V) (e : Nat × V), i < n → n ≤ out.length →
      es.find? (fun e => n ≤ e.1) = some e → out.length < e.1 →
      constLoop n es.length es i c out = .oob := by
  intro es
  induction es with
  | nil => intro i c out e _ _ h; cases h
  | cons a es ih =>
    intro i c out e hi hn hf he
    obtain ⟨u, v⟩ := a
    dsimp only [List.length]
    rw [constLoop, if_pos hi]
    rw [List.find?_cons] at hf
    by_cases hu : n ≤ u
    · simp only [hu, decide_true, Option.some.injEq] at hf
      subst hf
      rw [fill_none _ _ _ _ (by dsimp only at he; omega) (by dsimp only at he; omega)]
    · simp only [hu, decide_false] at hf
      obtain ⟨o1, e1, l1, _⟩ : ∃ o, fill (fun _ => c) (u - i) i out = some o ∧ o.length = out.length ∧ True := by
        by_cases hiu : i ≤ u
        · obtain ⟨o, a, b, _⟩ := fill_some (fun _ => c) (u - i) i out (by omega)
          exact ⟨o, a, b, trivial⟩
        · have : u - i = 0 := by omega
          rw [this]; exact ⟨out, rfl, rfl, trivial⟩
      rw [e1]
      exact ih (max i u) v o1 e (by omega) (by omega) hf (by omega)

theorem constSampleLoop_spec {V : Type} (idx : Nat) :
    ∀ (es : List (Nat × V)) (cur : Nat) (c : V), cur ≤ idx →
      constSampleLoop idx es.length es cur c = .ok (if idx = 0 then c else walk (idx - 1) c es) := by
  intro es
  induction es with
  | nil =>
    intro cur c h
    dsimp only [List.length]
    rw [constSampleLoop]
    rw [walk]; split <;> rfl
  | cons a es ih =>
    intro cur c h
    obtain ⟨u, v⟩ := a
    dsimp only [List.length]
    rw [constSampleLoop, if_pos h]
    by_cases hu : u ≥ idx
    · rw [if_pos hu]
      by_cases h0 : idx = 0
      · rw [if_pos h0]
      · rw [if_neg h0, walk, if_pos (by omega)]
    · rw [if_neg hu, ih u v (by omega), if_neg (by omega), if_neg (by omega), walk, if_neg (by omega)]

theorem constLastLoop_spec {V : Type} (n : Nat) (c : V) :
    ∀ l : List (Nat × V), constLastLoop n c l =
      (((l.filter fun e => n - 1 > e.1).head?).map Prod.snd).getD c := by
  intro l
  induction l with
  | nil => rfl
  | cons a l ih =>
    obtain ⟨u, v⟩ := a
    rw [constLastLoop, List.filter_cons]
    by_cases h : n - 1 > u
    · rw [if_pos h, if_pos (by simpa using h)]; rfl
    · rw [if_neg h, if_neg (by simpa using h), ih]

theorem entryCount_exact (size k : Nat) : entryCount (size + (size + 4) * k) size = k := by
  unfold entryCount
  rw [Nat.add_sub_cancel_left, Nat.mul_div_cancel_left _ (by omega)]

end Verif.DataPacket
