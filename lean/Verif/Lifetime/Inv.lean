import Verif.Lifetime.Model

namespace Verif.Lifetime

/-! ## Sums over the calls in progress -/

/-- The sum of a weight over the calls in progress. -/
def tot (f : Pc → Nat) : List Pc → Nat
  | [] => 0
  | p :: ps => f p + tot f ps

theorem tot_append (f : Pc → Nat) (l : List Pc) (p : Pc) : tot f (l ++ [p]) = tot f l + f p := by
  induction l with
  | nil => simp [tot]
  | cons a l ih => simp only [List.cons_append, tot, ih]; omega

theorem tot_set (f : Pc → Nat) (l : List Pc) (j : Nat) (p q : Pc) (h : l[j]? = some p) :
    tot f (l.set j q) + f p = tot f l + f q := by
  induction l generalizing j with
  | nil => simp at h
  | cons a l ih =>
    cases j with
    | zero => simp at h; subst h; simp only [List.set, tot]; omega
    | succ j => simp at h; have := ih j h; simp only [List.set, tot]; omega

theorem tot_erase (f : Pc → Nat) (l : List Pc) (j : Nat) (p : Pc) (h : l[j]? = some p) :
    tot f (l.eraseIdx j) + f p = tot f l := by
  induction l generalizing j with
  | nil => simp at h
  | cons a l ih =>
    cases j with
    | zero => simp at h; subst h; simp only [List.eraseIdx, tot]; omega
    | succ j => simp at h; have := ih j h; simp only [List.eraseIdx, tot]; omega

/-- The call holds a strong reference. -/
def sTok : Pc → Nat
  | .addRef | .rel _ | .gw | .gwNew | .getBorrow _ _ => 1
  | _ => 0

def dA : Pc → Nat
  | .relWeak _ => 1
  | _ => 0

def dB0 : Pc → Nat
  | .relDrop _ n => if n = 0 then 1 else 0
  | _ => 0

def dB1 : Pc → Nat
  | .relDrop _ n => if n = 0 then 0 else 1
  | _ => 0

def dD : Pc → Nat
  | .relDelete _ => 1
  | _ => 0

def gN : Pc → Nat
  | .gwNew => 1
  | _ => 0

def wZ : Pc → Nat
  | .wDtor _ n => if n = 0 then 1 else 0
  | _ => 0

/-- The call holds a reference to weak reference object `i`. -/
def wT (i : Nat) : Pc → Nat
  | .rel (some k) | .relWeak (some k) | .relDrop (some k) _ | .relDelete (some k) => if k = i then 1 else 0
  | .wAdd k | .wRel k | .getLoad k _ | .getCas k _ _ | .getBorrow k _ => if k = i then 1 else 0
  | _ => 0

def wD (i : Nat) : Pc → Nat
  | .wDelete k => if k = i then 1 else 0
  | _ => 0

def wX (i : Nat) : Pc → Nat
  | .wDtor k _ => if k = i then 1 else 0
  | _ => 0

/-- The weak reference objects which hold a share of the block. -/
def liveCnt : List WObj → Nat
  | [] => 0
  | w :: ws => (if w.st = .live then 1 else 0) + liveCnt ws

theorem liveCnt_append (l : List WObj) (w : WObj) :
    liveCnt (l ++ [w]) = liveCnt l + (if w.st = .live then 1 else 0) := by
  induction l with
  | nil => simp [liveCnt]
  | cons a l ih => simp only [List.cons_append, liveCnt, ih]; omega

theorem liveCnt_modify (l : List WObj) (i : Nat) (f : WObj → WObj) (w : WObj) (h : l[i]? = some w) :
    liveCnt (l.modify i f) + (if w.st = .live then 1 else 0) = liveCnt l + (if (f w).st = .live then 1 else 0) := by
  induction l generalizing i with
  | nil => simp at h
  | cons a l ih =>
    cases i with
    | zero => simp at h; subst h; simp only [List.modify_zero_cons, liveCnt]; omega
    | succ i => simp at h; have := ih i h; simp only [List.modify_succ_cons, liveCnt]; omega

/-! ## The invariant -/

/-- The numbers of a state. -/
structure Core (strong weak : Int) (o w r : Nat) (strongs sT a b0 b1 d g z live : Nat) : Prop where
  cnt : strong = (strongs + sT : Nat)
  held : 0 < strongs + sT → o = 1 ∧ a + b0 + b1 + d = 0
  gone : strongs + sT = 0 → a + b0 + b1 + d = o
  ownAlive : w ≤ o
  own : o = 1 → d = 0 → w = 1
  weak1 : 0 < strongs + sT ∨ a = 1 → weak = 1 + live + g
  weak0 : strongs + sT = 0 → a = 0 → weak = live + g
  gle : g ≤ sT
  ble : o ≤ 1 ∧ w ≤ 1 ∧ r ≤ 1
  rc1 : r = 1 → w = 1 → (weak = 0 → b0 + d + z = 1) ∧ (0 < weak → b0 + d + z = 0)
  rc0 : r = 1 → w = 0 → (weak = 0 → b0 + z = 1) ∧ (0 < weak → b0 + z = 0)
  dead1 : r = 0 → weak = 0 ∧ b0 + z = 0 ∧ (w = 1 → d = 0)

/-- The numbers of a weak reference object: `c` its count, `h` the references held by clients. -/
structure WCore (c : Int) (st : WSt) (h t x y : Nat) : Prop where
  cnt : c = (h + t : Nat)
  held : 0 < h + t → st = .live ∧ x = 0 ∧ y = 0
  live : h + t = 0 → st = .live → x = 1 ∧ y = 0
  dtor : st = .dtor → x = 0 ∧ y = 1
  freed : st = .freed → x = 0 ∧ y = 0

def WInv (ws : List WObj) (hs : List Nat) (calls : List Pc) (i : Nat) : Prop :=
  (∃ w h, ws[i]? = some w ∧ hs[i]? = some h ∧ WCore w.count w.st h (tot (wT i) calls) (tot (wD i) calls) (tot (wX i) calls))
  ∨ (ws[i]? = none ∧ hs[i]? = none ∧ tot (wT i) calls = 0 ∧ tot (wD i) calls = 0 ∧ tot (wX i) calls = 0)

def SCore (s : St) : Prop :=
  Core s.mem.strong s.mem.weak s.mem.objAlive.toNat s.mem.owns.toNat s.mem.rcAlive.toNat s.strongs
    (tot sTok s.calls) (tot dA s.calls) (tot dB0 s.calls) (tot dB1 s.calls) (tot dD s.calls) (tot gN s.calls)
    (tot wZ s.calls) (liveCnt s.mem.wobjs)

structure Inv (s : St) : Prop where
  ub : s.mem.ub = false
  core : SCore s
  wobj : ∀ i, WInv s.mem.wobjs s.weaks s.calls i
  once : s.log.count .destroyed + s.mem.objAlive.toNat = 1
  onceB : s.log.count .blockFreed + s.mem.rcAlive.toNat = 1

theorem inv_init : Inv init where
  ub := rfl
  core := by
    constructor <;> simp [init, tot, liveCnt]
  wobj i := Or.inr (by simp [init, tot])
  once := rfl
  onceB := rfl

end Verif.Lifetime
