/-!
# Running a state machine over a history of calls

Every stateful object of the model is a function `step : S → O → S × R`: given the state and a
call it yields the new state and what the call returned. `runTrace` executes a whole history and
records, for each call, what it returned. Property theorems quantify over all histories.
-/

namespace Verif

/-- Execute the calls in order from state `s`; the second component pairs each call with its result. -/
def runTrace {S O R : Type _} (step : S → O → S × R) (s : S) : List O → S × List (O × R)
  | [] => (s, [])
  | op :: ops =>
    let r := step s op
    let rest := runTrace step r.1 ops
    (rest.1, (op, r.2) :: rest.2)

variable {S O R : Type _} {step : S → O → S × R}

@[simp] theorem runTrace_nil (s : S) : runTrace step s [] = (s, []) := rfl

theorem runTrace_append (s : S) (a b : List O) :
    runTrace step s (a ++ b) =
      ((runTrace step (runTrace step s a).1 b).1,
        (runTrace step s a).2 ++ (runTrace step (runTrace step s a).1 b).2) := by
  induction a generalizing s with
  | nil => simp [runTrace]
  | cons op ops ih => simp [runTrace, ih]

theorem runTrace_snoc (s : S) (a : List O) (op : O) :
    runTrace step s (a ++ [op]) =
      ((step (runTrace step s a).1 op).1,
        (runTrace step s a).2 ++ [(op, (step (runTrace step s a).1 op).2)]) := by
  rw [runTrace_append]; simp [runTrace]

theorem list_snoc_induction {α : Type _} {P : List α → Prop} (nil : P [])
    (snoc : ∀ l a, P l → P (l ++ [a])) (l : List α) : P l := by
  have h : ∀ n (l : List α), l.length = n → P l := by
    intro n
    induction n with
    | zero => intro l hl; cases l with
      | nil => exact nil
      | cons => simp at hl
    | succ n ih =>
      intro l hl
      rcases List.eq_nil_or_concat l with rfl | ⟨l', a, rfl⟩
      · exact nil
      · rw [List.concat_eq_append] at *
        exact snoc _ _ (ih l' (by simpa using hl))
  exact h _ l rfl

/-- Invariant over state and trace, with a restriction `ok` on the calls of the history. -/
theorem runTrace_inv_of {ok : O → Prop} {P : S → List (O × R) → Prop} {s0 : S}
    (h0 : P s0 [])
    (hs : ∀ s t op, ok op → P s t → P (step s op).1 (t ++ [(op, (step s op).2)]))
    (ops : List O) (hok : ∀ op ∈ ops, ok op) :
    P (runTrace step s0 ops).1 (runTrace step s0 ops).2 := by
  revert hok
  refine list_snoc_induction (P := fun ops => (∀ op ∈ ops, ok op) →
    P (runTrace step s0 ops).1 (runTrace step s0 ops).2) ?_ ?_ ops
  · intro _; exact h0
  · intro l a ih h
    rw [runTrace_snoc]
    exact hs _ _ _ (h a (by simp)) (ih fun op ho => h op (by simp [ho]))

/-- Invariant over state and trace for all histories. -/
theorem runTrace_inv {P : S → List (O × R) → Prop} {s0 : S}
    (h0 : P s0 [])
    (hs : ∀ s t op, P s t → P (step s op).1 (t ++ [(op, (step s op).2)]))
    (ops : List O) : P (runTrace step s0 ops).1 (runTrace step s0 ops).2 :=
  runTrace_inv_of (ok := fun _ => True) h0 (fun s t op _ h => hs s t op h) ops (by simp)

end Verif
