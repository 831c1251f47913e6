import Verif.Multi.Reading

/-! # Finding the common start in a signal -/

namespace Verif.Multi

open Spec

theorem rnd53_small {x : Int} (h : x.natAbs < 2 ^ 53) : rnd53 x = x := by
  unfold rnd53
  rw [if_pos h]

/-- The multiplier is a positive integer. -/
structure Whole (d : Dom) : Prop where
  one : d.mulDen = 1
  pos : 0 < d.mulNum

/-- A tick that survives the conversion to `double`. -/
def Fits (d : Dom) (t : Int) : Prop := (t * d.mulNum).natAbs < 2 ^ 53

theorem scale_whole {d : Dom} (h : Whole d) {t : Int} (hf : Fits d t) : d.scale t = t * d.mulNum := by
  unfold Dom.scale
  rw [rnd53_small hf, h.one, Int.tdiv_one]

theorem comp_whole {d : Dom} (h : Whole d) {t : Int} (hf : Fits d t) : d.comp t = t * d.mulNum + d.off := by
  unfold Dom.comp
  rw [scale_whole h hf]

/-- `offsetTo` finds the first sample not before the target. -/
theorem offsetTo_whole {d : Dom} (h : Whole d) {T : Int} {p : DP} (hd : 0 < p.delta) (h0 : Fits d (p.first - p.delta))
    (h1 : Fits d (p.first + p.delta * (p.n - 1))) (h2 : Fits d p.delta) :
    (∀ k, offsetTo d T p = some k → k < p.n ∧ T ≤ (p.first + p.delta * k) * d.mulNum + d.off ∧
      (p.first + p.delta * (k - 1)) * d.mulNum + d.off < T) ∧
    (offsetTo d T p = none → p.n = 0 ∨ T ≤ (p.first - p.delta) * d.mulNum + d.off ∨
      (p.first + p.delta * (p.n - 1)) * d.mulNum + d.off < T) := by
  unfold offsetTo
  dsimp only
  rw [comp_whole h h0, comp_whole h h1, scale_whole h h2]
  by_cases hn : p.n = 0
  · rw [if_pos hn]
    exact ⟨(fun k hk => by cases hk), fun _ => Or.inl hn⟩
  · rw [if_neg hn]
    by_cases hc : T ≤ (p.first - p.delta) * d.mulNum + d.off ∨ (p.first + p.delta * (p.n - 1)) * d.mulNum + d.off < T
    · rw [if_pos hc]
      exact ⟨(fun k hk => by cases hk), fun _ => Or.inr hc⟩
    · rw [if_neg hc]
      refine ⟨?_, fun h => by cases h⟩
      intro k hk
      injection hk with hk
      have hD : 0 < p.delta * d.mulNum := Int.mul_pos hd h.pos
      have e1 : (p.first - p.delta) * d.mulNum = p.first * d.mulNum - p.delta * d.mulNum := Int.sub_mul ..
      have e2 : (p.first + p.delta * (p.n - 1)) * d.mulNum = p.first * d.mulNum + p.delta * d.mulNum * (p.n - 1) := by
        rw [Int.add_mul, Int.mul_right_comm]
      have e3 : (p.first + p.delta * k) * d.mulNum = p.first * d.mulNum + p.delta * d.mulNum * k := by
        rw [Int.add_mul, Int.mul_right_comm]
      have e4 : (p.first + p.delta * (k - 1)) * d.mulNum = p.first * d.mulNum + p.delta * d.mulNum * (k - 1) := by
        rw [Int.add_mul, Int.mul_right_comm]
      rw [e1, e2] at hc
      rw [e1] at hk
      rw [e3, e4]
      generalize p.first * d.mulNum = F at *
      generalize p.delta * d.mulNum = D at *
      have hlo : F - D + d.off < T := by omega
      have hhi : T ≤ F + D * (p.n - 1) + d.off := by omega
      rw [Int.mul_sub, Int.mul_one] at hhi
      generalize hX : T - (F - D + d.off) = X at *
      have hX0 : 0 < X := by omega
      have hXn : X ≤ D * p.n := by omega
      rw [Int.tdiv_eq_ediv_of_nonneg (by omega)] at hk
      have q1 := Int.mul_ediv_add_emod (X + D - 1) D
      have q2 := Int.emod_nonneg (X + D - 1) (Int.ne_of_gt hD)
      have q3 := Int.emod_lt_of_pos (X + D - 1) hD
      generalize (X + D - 1) / D = c at *
      generalize (X + D - 1) % D = r at *
      -- D * c + r = X + D - 1
      have c1 : 1 ≤ c := by
        apply Classical.byContradiction; intro hcon
        have : D * c ≤ D * 0 := Int.mul_le_mul_of_nonneg_left (by omega) (Int.le_of_lt hD)
        rw [Int.mul_zero] at this
        omega
      have c2 : c ≤ p.n := by
        apply Classical.byContradiction; intro hcon
        have : D * ((p.n : Int) + 1) ≤ D * c := Int.mul_le_mul_of_nonneg_left (by omega) (Int.le_of_lt hD)
        rw [Int.mul_add, Int.mul_one] at this
        omega
      have hkc : (k : Int) = c - 1 := by omega
      refine ⟨by omega, ?_, ?_⟩
      · rw [hkc, Int.mul_sub, Int.mul_one]; omega
      · rw [hkc, Int.mul_sub, Int.mul_sub, Int.mul_one]; omega

/-- All ticks of a list of samples, the tick before them and the distance survive the conversion. -/
structure AllFit (d : Dom) (delta : Int) (l : List (Tok × Int)) : Prop where
  dist : Fits d delta
  mem : ∀ x ∈ l, Fits d x.2
  head : ∀ x, l.head? = some x → Fits d (x.2 - delta)

def before (d : Dom) (T : Int) (x : Tok × Int) : Bool := x.2 * d.mulNum + d.off < T

theorem samples_cons_ne {p : DP} (h : p.n ≠ 0) : ∃ r, samples p = ((p.id, 0), p.first) :: r := by
  obtain ⟨n, hn⟩ : ∃ n, p.n = n + 1 := ⟨p.n - 1, by omega⟩
  unfold samples
  rw [hn, List.range_succ_eq_map, List.map_cons]
  refine ⟨List.map (fun i => ((p.id, i), p.first + p.delta * i)) (List.map Nat.succ (List.range n)), ?_⟩
  simp

theorem samples_get {p : DP} {i : Nat} (h : i < p.n) : (samples p)[i]? = some ((p.id, i), p.first + p.delta * i) := by
  unfold samples
  rw [List.getElem?_map, List.getElem?_range h]
  rfl

/-- `dropWhile` is determined by the place where the condition fails. -/
theorem dropWhile_at {α : Type} {P : α → Bool} {l : List α} {k : Nat} {x : α} (hk : l[k]? = some x) (hx : P x = false)
    (hb : ∀ i y, i < k → l[i]? = some y → P y = true) : l.dropWhile P = l.drop k := by
  induction l generalizing k with
  | nil => simp at hk
  | cons a l ih =>
    cases k with
    | zero =>
      simp only [List.getElem?_cons_zero, Option.some.injEq] at hk
      subst hk
      simp [hx]
    | succ k =>
      have ha := hb 0 a (by omega) rfl
      rw [List.dropWhile_cons_of_pos ha, List.drop_succ_cons]
      exact ih (by simpa using hk) fun i y hi hy => hb (i + 1) y (by omega) (by simpa using hy)

theorem dropWhile_all_append {α : Type} {P : α → Bool} {l r : List α} (h : ∀ x ∈ l, P x = true) :
    (l ++ r).dropWhile P = r.dropWhile P := by
  induction l with
  | nil => rfl
  | cons a l ih =>
    rw [List.cons_append, List.dropWhile_cons_of_pos (h a (by simp))]
    exact ih fun x hx => h x (by simp [hx])

theorem before_mono {d : Dom} (h : Whole d) {T a b : Int} (hab : a ≤ b) (hb : b * d.mulNum + d.off < T) :
    a * d.mulNum + d.off < T := by
  have := Int.mul_le_mul_of_nonneg_right hab (Int.le_of_lt h.pos)
  omega

theorem regular_tail {delta : Int} {a : List (Tok × Int)} : ∀ {l : List (Tok × Int)}, Regular delta (a ++ l) → Regular delta l := by
  induction a with
  | nil => intro l h; exact h
  | cons x a ih =>
    intro l h
    apply ih
    rw [List.cons_append] at h
    cases hal : a ++ l with
    | nil => exact trivial
    | cons y r => rw [hal] at h; exact h.2

theorem regular_join {delta : Int} {a : List (Tok × Int)} : ∀ {x y : Tok × Int} {r : List (Tok × Int)},
    Regular delta (a ++ x :: y :: r) → y.2 = x.2 + delta := by
  intro x y r h
  have := regular_tail h
  exact this.1

theorem samples_ticks {p : DP} {x : Tok × Int} (h : x ∈ samples p) : ∃ i, i < p.n ∧ x = ((p.id, i), p.first + p.delta * i) := by
  unfold samples at h
  obtain ⟨i, hi, rfl⟩ := List.mem_map.mp h
  exact ⟨i, List.mem_range.mp hi, rfl⟩

theorem last_mem {p : DP} (h : p.n ≠ 0) : ((p.id, p.n - 1), p.first + p.delta * ((p.n - 1 : Nat) : Int)) ∈ samples p := by
  unfold samples
  exact List.mem_map.mpr ⟨p.n - 1, List.mem_range.mpr (by omega), rfl⟩

theorem offsetTo_fit {d : Dom} (h : Whole d) {T : Int} {p : DP} (hd : 0 < p.delta) {R : List (Tok × Int)}
    (hf : AllFit d p.delta (samples p ++ R)) :
    (∀ k, offsetTo d T p = some k → k < p.n ∧ T ≤ (p.first + p.delta * k) * d.mulNum + d.off ∧
      (p.first + p.delta * (k - 1)) * d.mulNum + d.off < T) ∧
    (offsetTo d T p = none → p.n = 0 ∨ T ≤ (p.first - p.delta) * d.mulNum + d.off ∨
      (p.first + p.delta * (p.n - 1)) * d.mulNum + d.off < T) := by
  by_cases hn : p.n = 0
  · unfold offsetTo
    rw [if_pos hn]
    exact ⟨(fun k hk => by cases hk), fun _ => Or.inl hn⟩
  · refine offsetTo_whole h hd ?_ ?_ hf.dist
    · obtain ⟨r, hr⟩ := samples_cons_ne hn
      have := hf.head ((p.id, 0), p.first) (by rw [hr]; rfl)
      exact this
    · have := hf.mem _ (List.mem_append_left R (last_mem hn))
      have e : ((p.n - 1 : Nat) : Int) = p.n - 1 := by omega
      rw [e] at this
      exact this

theorem drop_found {d : Dom} (h : Whole d) {T : Int} {p : DP} (hd : 0 < p.delta) {R : List (Tok × Int)}
    (hf : AllFit d p.delta (samples p ++ R)) {k : Nat} (hk : offsetTo d T p = some k) :
    k < p.n ∧ (samples p ++ R).dropWhile (before d T) = (samples p).drop k ++ R := by
  obtain ⟨k1, k2, k3⟩ := (offsetTo_fit h hd hf).1 k hk
  have hlen : (samples p).length = p.n := by unfold samples; simp
  refine ⟨k1, ?_⟩
  rw [← List.drop_append_of_le_length (by omega)]
  refine dropWhile_at (x := ((p.id, k), p.first + p.delta * k)) ?_ ?_ ?_
  · rw [List.getElem?_append_left (by omega)]
    exact samples_get k1
  · unfold before
    exact decide_eq_false (by show ¬ ((p.first + p.delta * k) * d.mulNum + d.off < T); omega)
  · intro i y hi hy
    rw [List.getElem?_append_left (by omega), samples_get (by omega)] at hy
    cases hy
    unfold before
    refine decide_eq_true ?_
    refine before_mono h ?_ k3
    have : p.delta * (i : Int) ≤ p.delta * ((k : Int) - 1) := Int.mul_le_mul_of_nonneg_left (by omega) (Int.le_of_lt hd)
    show p.first + p.delta * (i : Int) ≤ p.first + p.delta * ((k : Int) - 1)
    omega

theorem drop_none {d : Dom} (h : Whole d) {T : Int} {p : DP} (hd : 0 < p.delta) {R : List (Tok × Int)}
    (hf : AllFit d p.delta (samples p ++ R))
    (hh : ∀ x, (samples p ++ R).head? = some x → before d T (x.1, x.2 - p.delta) = true) (hk : offsetTo d T p = none) :
    ∀ x ∈ samples p, before d T x = true := by
  intro x hx
  obtain ⟨i, hi, rfl⟩ := samples_ticks hx
  have hn : p.n ≠ 0 := by omega
  obtain ⟨r, hr⟩ := samples_cons_ne hn
  have h0 := hh ((p.id, 0), p.first) (by rw [hr]; rfl)
  unfold before at h0
  have h0 := of_decide_eq_true h0
  dsimp only at h0
  rcases (offsetTo_fit h hd hf).2 hk with h1 | h1 | h1
  · omega
  · omega
  · unfold before
    refine decide_eq_true ?_
    refine before_mono h ?_ h1
    have : p.delta * (i : Int) ≤ p.delta * ((p.n : Int) - 1) := Int.mul_le_mul_of_nonneg_left (by omega) (Int.le_of_lt hd)
    show p.first + p.delta * (i : Int) ≤ p.first + p.delta * ((p.n : Int) - 1)
    omega

/-- What `sync` is to achieve with the samples `W`. -/
structure Synced (d : Dom) (T : Int) (q : List Pkt) (s : Sig) (W : List (Tok × Int)) (x : Sig × Bool) : Prop where
  div : x.1.div = s.div
  invalid : x.1.invalid = s.invalid
  dom : x.1.dom = s.dom
  no : W.dropWhile (before d T) = [] → x.2 = false ∧ ((∀ y ∈ q, ∃ p, y = .data p) → x.1.sync = .syncing ∧ x.1.cur = none ∧ x.1.queue = [])
  yes : W.dropWhile (before d T) ≠ [] → x.2 = true ∧ x.1.sync = .synced ∧ x.1.cur.isSome ∧ Within x.1 ∧
    pending x.1 = W.dropWhile (before d T) ∧ ∀ y ∈ x.1.queue, y ∈ q

/-- The last element of the samples of a packet with samples. -/
theorem samples_last {p : DP} (hn : p.n ≠ 0) :
    ∃ l, samples p = l ++ [((p.id, p.n - 1), p.first + p.delta * ((p.n - 1 : Nat) : Int))] := by
  obtain ⟨n, hn⟩ : ∃ n, p.n = n + 1 := ⟨p.n - 1, by omega⟩
  unfold samples
  rw [hn, List.range_succ, List.map_append]
  exact ⟨_, rfl⟩

/-- After a packet all of whose samples are before the target, so is the tick before the next sample. -/
theorem head_next {d : Dom} {T delta : Int} {p : DP} {R : List (Tok × Int)} (hreg : Regular delta (samples p ++ R))
    (hh : ∀ x, (samples p ++ R).head? = some x → before d T (x.1, x.2 - delta) = true)
    (hb : ∀ x ∈ samples p, before d T x = true) : ∀ x, R.head? = some x → before d T (x.1, x.2 - delta) = true := by
  intro x hx
  by_cases hn : p.n = 0
  · refine hh x ?_
    have : samples p = [] := by unfold samples; rw [hn]; rfl
    rw [this]
    exact hx
  · obtain ⟨l, hl⟩ := samples_last hn
    cases R with
    | nil => cases hx
    | cons y R =>
      cases hx
      rw [hl, List.append_assoc] at hreg
      have := regular_join hreg
      have hm := hb _ (last_mem hn)
      unfold before at hm ⊢
      have hm := of_decide_eq_true hm
      refine decide_eq_true ?_
      dsimp only at this hm ⊢
      rw [this, Int.add_sub_cancel]
      exact hm

theorem fit_next {d : Dom} {delta : Int} {p : DP} {R : List (Tok × Int)} (hreg : Regular delta (samples p ++ R))
    (hf : AllFit d delta (samples p ++ R)) : AllFit d delta R := by
  refine ⟨hf.dist, fun x hx => hf.mem x (List.mem_append_right _ hx), ?_⟩
  intro x hx
  by_cases hn : p.n = 0
  · have : samples p = [] := by unfold samples; rw [hn]; rfl
    rw [this] at hf
    exact hf.head x hx
  · obtain ⟨l, hl⟩ := samples_last hn
    cases R with
    | nil => cases hx
    | cons y R =>
      cases hx
      have hm := hf.mem _ (List.mem_append_left (x :: R) (last_mem hn))
      rw [hl, List.append_assoc] at hreg
      have := regular_join hreg
      dsimp only at this hm
      rw [this, Int.add_sub_cancel]
      exact hm

/-- The loop of `sync` leaves the samples from the target on. -/
theorem syncLoop_whole {d : Dom} (h : Whole d) {T delta : Int} (hd : 0 < delta) {q : List Pkt} : ∀ {s : Sig} {p : DP},
    (∀ x ∈ p :: front q, x.delta = delta) →
    Regular delta (samples p ++ (front q).flatMap samples) →
    AllFit d delta (samples p ++ (front q).flatMap samples) →
    (∀ x, (samples p ++ (front q).flatMap samples).head? = some x → before d T (x.1, x.2 - delta) = true) →
    Synced d T q s (samples p ++ (front q).flatMap samples) (syncLoop d T s p q) := by
  induction q with
  | nil =>
    intro s p hdel hreg hf hh
    have hpd := hdel p (by simp)
    subst hpd
    unfold syncLoop
    cases e : offsetTo d T p with
    | some k =>
      obtain ⟨k1, k2⟩ := drop_found h hd hf e
      refine ⟨rfl, rfl, rfl, ?_, ?_⟩
      · intro hno
        rw [k2] at hno
        have := congrArg List.length hno
        simp [samples] at this
        omega
      · intro _
        refine ⟨rfl, rfl, rfl, ?_, ?_⟩
        · show k ≤ p.n
          omega
        · exact ⟨by rw [k2]; rfl, fun y hy => hy⟩
    | none =>
      have hb := drop_none h hd hf hh e
      refine ⟨rfl, rfl, rfl, ?_, ?_⟩
      · intro _
        exact ⟨rfl, fun _ => ⟨rfl, rfl, rfl⟩⟩
      · intro hy
        rw [dropWhile_all_append hb] at hy
        exact absurd rfl hy
  | cons x q ih =>
    intro s p hdel hreg hf hh
    have hpd := hdel p (by simp)
    subst hpd
    unfold syncLoop
    cases e : offsetTo d T p with
    | some k =>
      obtain ⟨k1, k2⟩ := drop_found h hd hf e
      refine ⟨rfl, rfl, rfl, ?_, ?_⟩
      · intro hno
        rw [k2] at hno
        have := congrArg List.length hno
        simp [samples] at this
        omega
      · intro _
        refine ⟨rfl, rfl, rfl, ?_, ?_⟩
        · show k ≤ p.n
          omega
        · exact ⟨by rw [k2]; rfl, fun y hy => hy⟩
    | none =>
      have hb := drop_none h hd hf hh e
      cases x with
      | event ev =>
        refine ⟨rfl, rfl, rfl, ?_, ?_⟩
        · intro _
          refine ⟨rfl, fun hq => ?_⟩
          obtain ⟨p', hp'⟩ := hq (.event ev) (by simp)
          cases hp'
        · intro hy
          rw [dropWhile_all_append hb] at hy
          exact absurd rfl hy
      | data p2 =>
        have key := ih (s := s) (p := p2) (fun x hx => hdel x (by simp only [front]; exact List.mem_cons_of_mem _ hx))
          (regular_tail hreg) (fit_next hreg hf) (head_next hreg hh hb)
        have eW : (samples p ++ (front (.data p2 :: q)).flatMap samples).dropWhile (before d T) =
            (samples p2 ++ (front q).flatMap samples).dropWhile (before d T) := dropWhile_all_append hb
        refine ⟨key.div, key.invalid, key.dom, ?_, ?_⟩
        · intro hno
          rw [eW] at hno
          obtain ⟨k1, k2⟩ := key.no hno
          exact ⟨k1, fun hq => k2 fun y hy => hq y (List.mem_cons_of_mem _ hy)⟩
        · intro hy
          rw [eW] at hy ⊢
          obtain ⟨k1, k2, k3, k4, k5, k6⟩ := key.yes hy
          exact ⟨k1, k2, k3, k4, k5, fun y hy => List.mem_cons_of_mem _ (k6 y hy)⟩

end Verif.Multi
