/-!
# Association lists

Stand-in for `std::unordered_map` / `std::map` / `std::unordered_set` in the models. Only the
operations the modelled code uses are provided. Iteration order is never relied upon unless a model
says so.
-/

namespace Verif

/-- Association list. -/
abbrev AList (κ : Type) (ν : Type) := List (κ × ν)

namespace AList
variable {κ ν : Type} [DecidableEq κ]

/-- `find(k)`. -/
def get (m : AList κ ν) (k : κ) : Option ν := List.lookup k m

/-- `erase(k)`. -/
def del (m : AList κ ν) (k : κ) : AList κ ν := List.filter (fun e => !decide (e.1 = k)) m

/-- `insert_or_assign(k, v)`. -/
def put (m : AList κ ν) (k : κ) (v : ν) : AList κ ν := (k, v) :: del m k

/-- `insert({k, v})` / `emplace(k, v)`: keeps an existing entry. -/
def add (m : AList κ ν) (k : κ) (v : ν) : AList κ ν := if (get m k).isSome then m else (k, v) :: m

/-- `count(k) > 0`. -/
def has (m : AList κ ν) (k : κ) : Bool := (get m k).isSome

@[simp] theorem get_nil (k : κ) : get ([] : AList κ ν) k = none := rfl

theorem get_cons (k k' : κ) (v : ν) (m : AList κ ν) :
    get ((k', v) :: m) k = if k = k' then some v else get m k := by
  unfold get
  rw [List.lookup_cons]
  by_cases h : k = k'
  · simp [h]
  · simp [h, beq_false_of_ne h]

theorem get_del (m : AList κ ν) (k k' : κ) :
    get (del m k) k' = if k' = k then none else get m k' := by
  induction m with
  | nil => simp [del]
  | cons e m ih =>
    obtain ⟨a, b⟩ := e
    unfold del at *
    rw [List.filter_cons]
    by_cases h : a = k
    · subst h
      simp only [decide_true, Bool.not_true, Bool.false_eq_true, if_false, ih]
      by_cases h' : k' = a
      · simp [h']
      · simp [h', get_cons]
    · simp only [h, decide_false, Bool.not_false, if_true, get_cons, ih]
      by_cases h' : k' = a
      · subst h'; simp [h]
      · simp [h']

theorem get_put (m : AList κ ν) (k k' : κ) (v : ν) :
    get (put m k v) k' = if k' = k then some v else get m k' := by
  unfold put
  rw [get_cons, get_del]
  by_cases h : k' = k <;> simp [h]

theorem get_add (m : AList κ ν) (k k' : κ) (v : ν) :
    get (add m k v) k' = if k' = k then some ((get m k).getD v) else get m k' := by
  unfold add
  cases h : get m k with
  | none =>
    rw [if_neg (by simp), get_cons]; rfl
  | some w =>
    rw [if_pos (by simp)]
    by_cases h' : k' = k
    · subst h'; simp [h]
    · simp [h']

theorem has_iff (m : AList κ ν) (k : κ) : has m k = true ↔ ∃ v, get m k = some v := by
  simp [has, Option.isSome_iff_exists]

theorem get_eq_none_of_nil {m : AList κ ν} (h : ∀ k, get m k = none) : m = [] := by
  cases m with
  | nil => rfl
  | cons e m =>
    obtain ⟨a, b⟩ := e
    have := h a
    rw [get_cons] at this
    simp at this

theorem mem_of_get {m : AList κ ν} {k : κ} {v : ν} (h : get m k = some v) : (k, v) ∈ m := by
  induction m with
  | nil => simp at h
  | cons e m ih =>
    obtain ⟨a, b⟩ := e
    rw [get_cons] at h
    by_cases hk : k = a
    · subst hk; simp at h; simp [h]
    · simp only [hk, if_false] at h
      exact List.mem_cons_of_mem _ (ih h)

theorem get_isSome_iff_mem_keys (m : AList κ ν) (k : κ) :
    (get m k).isSome = true ↔ k ∈ m.map Prod.fst := by
  induction m with
  | nil => simp
  | cons e m ih =>
    obtain ⟨a, b⟩ := e
    rw [get_cons]
    by_cases hk : k = a
    · simp [hk]
    · simp [hk, ih]

end AList
end Verif
