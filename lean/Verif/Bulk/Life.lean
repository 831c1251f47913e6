import Verif.Bulk.Model
import Mathlib.Tactic.ByContra

/-!
# Giving the block back: the invariant
-/

namespace Verif.Bulk

/-- The references an unfinished call holds to `x`. -/
def tok (x : Nat) : Frame → Nat
  | .rel y | .ask y | .got y _ => if y = x then 1 else 0
  | _ => 0

/-- `x` is being given up. -/
def dd (x : Nat) : Frame → Nat
  | .disp y | .drop y => if y = x then 1 else 0
  | _ => 0

def dsp (x : Nat) : Frame → Nat
  | .disp y => if y = x then 1 else 0
  | _ => 0

def nd : Frame → Nat
  | .destroy => 1
  | _ => 0

/-- A sum over all frames. -/
def sumC (g : Frame → Nat) (l : List (List Frame)) : Nat := (l.flatten.map g).sum

theorem sumC_nil (g : Frame → Nat) : sumC g [] = 0 := rfl

theorem sumC_cons (g : Frame → Nat) (c : List Frame) (l : List (List Frame)) : sumC g (c :: l) = (c.map g).sum + sumC g l := by
  simp [sumC]

theorem sumC_append (g : Frame → Nat) (l l' : List (List Frame)) : sumC g (l ++ l') = sumC g l + sumC g l' := by
  simp [sumC]

theorem sumC_set (g : Frame → Nat) (l : List (List Frame)) (i : Nat) (b c : List Frame) (h : l[i]? = some b) :
    sumC g (l.set i c) + (b.map g).sum = sumC g l + (c.map g).sum := by
  induction l generalizing i with
  | nil => simp at h
  | cons a l ih =>
    cases i with
    | zero => simp at h; subst h; simp only [List.set_cons_zero, sumC_cons]; omega
    | succ i =>
      simp at h
      have := ih i h
      simp only [List.set_cons_succ, sumC_cons]; omega

theorem sumC_erase (g : Frame → Nat) (l : List (List Frame)) (i : Nat) (b : List Frame) (h : l[i]? = some b) :
    sumC g (l.eraseIdx i) + (b.map g).sum = sumC g l := by
  induction l generalizing i with
  | nil => simp at h
  | cons a l ih =>
    cases i with
    | zero => simp at h; subst h; simp only [List.eraseIdx_cons_zero, sumC_cons]; omega
    | succ i =>
      simp at h
      have := ih i h
      simp only [List.eraseIdx_cons_succ, sumC_cons]; omega

/-- A finished call disappears. -/
def putCall (l : List (List Frame)) (i : Nat) (c : List Frame) : List (List Frame) :=
  if c = [] then l.eraseIdx i else l.set i c

theorem sumC_put (g : Frame → Nat) (l : List (List Frame)) (i : Nat) (f : Frame) (r a : List Frame) (h : l[i]? = some (f :: r)) :
    sumC g (putCall l i (a ++ r)) + g f = sumC g l + (a.map g).sum := by
  unfold putCall
  split
  · rename_i e
    have e1 : a = [] := (List.append_eq_nil_iff.mp e).1
    have e2 : r = [] := (List.append_eq_nil_iff.mp e).2
    subst e1 e2
    have := sumC_erase g l i _ h
    simp at this ⊢; omega
  · have := sumC_set g l i _ (a ++ r) h
    simp at this ⊢; omega

theorem sumC_pos {g : Frame → Nat} {l : List (List Frame)} {i : Nat} {f : Frame} {r : List Frame} (h : l[i]? = some (f :: r)) :
    g f ≤ sumC g l := by
  have := sumC_put g l i f r [] h
  simp at this; omega

theorem mem_put {l : List (List Frame)} {i : Nat} {f : Frame} {r a : List Frame} (h : l[i]? = some (f :: r)) {x : Frame}
    (hx : x ∈ (putCall l i (a ++ r)).flatten) : x ∈ a ∨ x ∈ l.flatten := by
  obtain ⟨c, hc, hxc⟩ := List.mem_flatten.mp hx
  unfold putCall at hc
  split at hc
  · exact .inr (List.mem_flatten.mpr ⟨c, List.mem_of_mem_eraseIdx hc, hxc⟩)
  · rcases List.mem_or_eq_of_mem_set hc with h' | h'
    · exact .inr (List.mem_flatten.mpr ⟨c, h', hxc⟩)
    · subst h'
      rcases List.mem_append.mp hxc with h' | h'
      · exact .inl h'
      · exact .inr (List.mem_flatten.mpr ⟨_, List.mem_of_getElem? h, by simp [h']⟩)

theorem put_ne {l : List (List Frame)} {i : Nat} {c : List Frame} (h : ∀ x ∈ l, x ≠ []) : ∀ x ∈ putCall l i c, x ≠ [] := by
  intro x hx
  unfold putCall at hx
  split at hx
  · exact h x (List.mem_of_mem_eraseIdx hx)
  · rcases List.mem_or_eq_of_mem_set hx with h' | h'
    · exact h x h'
    · subst h'; assumption

/-- A sum over the objects. -/
def bsum (h : Nat → Nat) : Nat → Nat
  | 0 => 0
  | n + 1 => bsum h n + h n

theorem bsum_congr {h h' : Nat → Nat} (e : ∀ x, h x = h' x) (n : Nat) : bsum h n = bsum h' n := by
  have : h = h' := funext e
  rw [this]

theorem bsum_upd {h h' : Nat → Nat} (x n : Nat) (e : ∀ y, y ≠ x → h' y = h y) (hx : x < n) :
    bsum h' n + h x = bsum h n + h' x := by
  induction n with
  | zero => omega
  | succ n ih =>
    simp only [bsum]
    by_cases hn : x = n
    · subst hn
      have : ∀ m, m ≤ x → bsum h' m = bsum h m := by
        intro m hm
        induction m with
        | zero => rfl
        | succ m ihm => simp only [bsum]; rw [ihm (by omega), e m (by omega)]
      rw [this x (Nat.le_refl _)]; omega
    · have := ih (by omega)
      rw [e n (by omega)]; omega

theorem bsum_le {h : Nat → Nat} {x n : Nat} (hx : x < n) : h x ≤ bsum h n := by
  induction n with
  | zero => omega
  | succ n ih =>
    simp only [bsum]
    by_cases hn : x = n
    · subst hn; omega
    · have := ih (by omega); omega

theorem bsum_zero {h : Nat → Nat} {n : Nat} (hx : ∀ x, x < n → h x = 0) : bsum h n = 0 := by
  induction n with
  | zero => rfl
  | succ n ih => simp only [bsum]; rw [ih (fun x hx' => hx x (by omega)), hx n (by omega)]

/-- Does the pointer point to `x`? -/
def pts (o : Option Nat) (x : Nat) : Nat := if o = some x then 1 else 0

/-- Is `x` referenced by the next object? -/
def par (s : St) (x : Nat) : Nat := pts (s.child (x + 1)) x

def alive (s : St) (x : Nat) : Nat := min (s.count x) 1 + sumC (dd x) s.calls

/-- The reference of an object with counter `c` that is being disposed of in `d` places. -/
def chk (offsets : Bool) (n x c d : Nat) : Option Nat := if x < n ∧ (0 < c ∨ 0 < d) then child0 offsets x else none

/-- The invariant. -/
structure Inv (offsets : Bool) (s : St) : Prop where
  ub : s.ub = false
  cnt : ∀ x, s.count x = s.held x + sumC (tok x) s.calls + par s x
  dd1 : ∀ x, sumC (dd x) s.calls ≤ 1
  dd0 : ∀ x, 0 < s.count x → sumC (dd x) s.calls = 0
  out : ∀ x, s.n ≤ x → s.count x = 0 ∧ sumC (dd x) s.calls = 0
  ch : ∀ x, s.child x = chk offsets s.n x (s.count x) (sumC (dsp x) s.calls)
  blk : s.blk = (bsum (alive s) s.n : Nat)
  nd1 : sumC nd s.calls ≤ 1
  live : s.freed = false → (sumC nd s.calls = 1 ↔ s.blk = 0)
  dead : s.freed = true → sumC nd s.calls = 0 ∧ s.blk = 0
  got : ∀ x y, .got x y ∈ s.calls.flatten → x < s.n ∧ child0 offsets x = some y
  destr : s.destroyed = if s.freed then List.range s.n else []
  ne : ∀ c ∈ s.calls, c ≠ []
  npos : 0 < s.n

theorem child0_some {offsets : Bool} {x y : Nat} (h : child0 offsets x = some y) : x = y + 1 := by
  unfold child0 at h
  split at h
  · simp at h
  · rename_i hx
    simp at h
    have : x ≠ 0 := by rintro rfl; simp at hx
    omega

theorem dsp_le_dd (x : Nat) (l : List (List Frame)) : sumC (dsp x) l ≤ sumC (dd x) l := by
  unfold sumC
  induction l.flatten with
  | nil => simp
  | cons f l ih =>
    simp only [List.map_cons, List.sum_cons]
    have : dsp x f ≤ dd x f := by cases f <;> simp [dsp, dd]
    omega

/-- Something is alive, so the block is there. -/
theorem Inv.not_freed {offsets : Bool} {s : St} (h : Inv offsets s) {x : Nat} (hx : 0 < s.count x ∨ 0 < sumC (dd x) s.calls) :
    s.freed = false ∧ x < s.n ∧ 0 < s.blk := by
  have hn : x < s.n := by
    by_contra hc
    have := h.out x (by omega)
    omega
  have hb : 0 < bsum (alive s) s.n := by
    have := bsum_le (h := alive s) hn
    unfold alive at this ⊢
    omega
  have hb' : 0 < s.blk := by rw [h.blk]; omega
  refine ⟨?_, hn, hb'⟩
  cases hf : s.freed with
  | false => rfl
  | true => have := (h.dead hf).2; omega

end Verif.Bulk
