import Mathlib.Algebra.Order.Ring.Rat
import Mathlib.Order.WithBot
import Verif.Values.Model
import Verif.CoreTypes.RatioSpec

/-! # Specification of values

What values mean, without addresses. The functions of the model are not used, only its types. -/

namespace Verif.Values.Spec

open Verif.CoreTypes

/-- Minus zero is the number zero. -/
def norm : Fl → Fl
  | .negZero => .fin 0
  | f => f

/-- A float that has a hash code: its integer part is a 64-bit number without sign. -/
def Sized (f : Fl) : Prop := match norm f with
  | .fin q => -1 < q ∧ q < 18446744073709551616
  | _ => False

instance (f : Fl) : Decidable (Sized f) := by unfold Sized; split <;> infer_instance

/-- The content of a value that can serve as the key of a dictionary. Objects without a value are keys by identity. -/
inductive Key where
  | b (b : Bool)
  | i (i : Int)
  | f (f : Fl)
  | s (s : List UInt8)
  | c (re im : Fl)
  | o (a : Nat)
  deriving DecidableEq

def keyOf : V → Option Key
  | .bool _ b => some (.b b)
  | .int _ i => some (.i i)
  | .float _ f => if Sized f then some (.f (norm f)) else none
  | .str _ (some s) => if 0 ∈ s then none else some (.s s)
  | .cplx _ re im => if re = .nan ∨ im = .nan then none else some (.c (norm re) (norm im))
  | .obj a => some (.o a)
  | _ => none

/-- The keys of a dictionary, in order. -/
def keysOf : KL → List (Option Key)
  | .nil => []
  | .cons k _ r => keyOf k :: keysOf r

/-- `k`, `v` is an entry. -/
def Entry (k v : V) : KL → Prop
  | .nil => False
  | .cons k' v' r => (k = k' ∧ v = v') ∨ Entry k v r

mutual
/-- A value without null references, not-a-numbers and zero characters, whose dictionaries have proper and different
keys. -/
def Plain : V → Prop
  | .null => False
  | .bool _ _ => True
  | .int _ _ => True
  | .float _ f => f ≠ .nan
  | .str _ none => False
  | .str _ (some s) => 0 ∉ s
  | .ratio _ n d => (⟨n, d⟩ : Ratio).Valid ∧ (⟨n, d⟩ : Ratio).NoMin
  | .cplx _ re im => re ≠ .nan ∧ im ≠ .nan
  | .list _ _ xs => PlainL xs
  | .dict _ _ _ kvs => PlainK kvs ∧ (keysOf kvs).Nodup
  | .obj _ => True
def PlainL : VL → Prop
  | .nil => True
  | .cons x xs => Plain x ∧ PlainL xs
def PlainK : KL → Prop
  | .nil => True
  | .cons k v r => (keyOf k).isSome ∧ Plain v ∧ PlainK r
end

/-- The number of entries. -/
def entries : KL → Nat
  | .nil => 0
  | .cons _ _ r => entries r + 1

mutual
/-- Two values have the same content. Dictionaries have the same content when they have the same keys, in any order,
with the same content behind them. Ratios with the same value and denominators of the same sign. -/
def Same : V → V → Prop
  | .bool _ x, .bool _ y => x = y
  | .int _ x, .int _ y => x = y
  | .float _ x, .float _ y => norm x = norm y
  | .str _ s, .str _ t => s = t
  | .ratio _ n d, .ratio _ n' d' => (⟨n, d⟩ : Ratio).value = (⟨n', d'⟩ : Ratio).value ∧ (0 < d ↔ 0 < d')
  | .cplx _ x x', .cplx _ y y' => norm x = norm y ∧ norm x' = norm y'
  | .list _ _ xs, .list _ _ ys => SameL xs ys
  | .dict _ _ _ xs, .dict _ _ _ ys => entries xs = entries ys ∧ SubK xs ys
  | .obj a, .obj b => a = b
  | _, _ => False
def SameL : VL → VL → Prop
  | .nil, .nil => True
  | .cons x xs, .cons y ys => Same x y ∧ SameL xs ys
  | _, _ => False
/-- Every entry of the first has a counterpart in the second. -/
def SubK : KL → KL → Prop
  | .nil, _ => True
  | .cons k v r, ys => (∃ k' v', Entry k' v' ys ∧ keyOf k' = keyOf k ∧ Same v v') ∧ SubK r ys
end

/-- `std::hash` gives equal numbers equal hash codes, as the standard requires. -/
def HashOk (hd : Fl → Nat) : Prop := ∀ f g, norm f = norm g → hd f = hd g

/-! ## Dictionaries -/

/-- A map: pairs in the order of insertion, and whether it can still change. -/
structure Map where
  items : List (V × V)
  frozen : Bool

/-- The keys have the same content. -/
def sameKey (k k' : V) : Bool := decide (keyOf k = keyOf k')

def Map.find (m : Map) (k : V) : Option V := (m.items.find? fun p => sameKey p.1 k).map Prod.snd

/-- The calls on a map. A new value is put in the place of the old one; a new key goes to the end. -/
def Map.step (m : Map) : DOp → Map × DOut
  | .get k => (m, if k = .null then .argNull else match m.find k with
    | some v => .val v
    | none => .notFound)
  | .set k v =>
    if m.frozen then (m, .frozen)
    else if k = .null then (m, .argNull)
    else if (m.find k).isSome then (⟨m.items.map fun p => if sameKey p.1 k then (p.1, v) else p, false⟩, .ok)
    else (⟨m.items ++ [(k, v)], false⟩, .ok)
  | .remove k =>
    if m.frozen then (m, .frozen)
    else if k = .null then (m, .argNull)
    else match m.find k with
      | some v => (⟨m.items.filter fun p => !sameKey p.1 k, false⟩, .val v)
      | none => (m, .notFound)
  | .deleteItem k =>
    if m.frozen then (m, .frozen)
    else if k = .null then (m, .argNull)
    else if (m.find k).isSome then (⟨m.items.filter fun p => !sameKey p.1 k, false⟩, .ok)
    else (m, .notFound)
  | .clear => if m.frozen then (m, .frozen) else (⟨[], false⟩, .ok)
  | .count => (m, .num m.items.length)
  | .hasKey k => (m, .bool (m.find k).isSome)
  | .keys => (m, .vals (m.items.map Prod.fst))
  | .values => (m, .vals (m.items.map Prod.snd))
  | .freeze => if m.frozen then (m, .ignored) else (⟨m.items, true⟩, .ok)
  | .isFrozen => (m, .bool m.frozen)

/-- The key of the call has content that can be compared and hashed (or is null, which is refused; asking for a null key
with `hasKey` is excluded). -/
def KeyOk : DOp → Prop
  | .get k | .set k _ | .remove k | .deleteItem k => k = .null ∨ (keyOf k).isSome
  | .hasKey k => (keyOf k).isSome
  | _ => True

instance (o : DOp) : Decidable (KeyOk o) := by unfold KeyOk; split <;> infer_instance

/-! ## Copies -/

mutual
/-- A value without the addresses of its lists and dictionaries. The other objects keep theirs. -/
def bare : V → V
  | .list _ iid xs => .list 0 iid (bareL xs)
  | .dict _ kid vid kvs => .dict 0 kid vid (bareK kvs)
  | .null => .null
  | .bool a b => .bool a b
  | .int a i => .int a i
  | .float a f => .float a f
  | .str a s => .str a s
  | .ratio a n d => .ratio a n d
  | .cplx a re im => .cplx a re im
  | .obj a => .obj a
def bareL : VL → VL
  | .nil => .nil
  | .cons x xs => .cons (bare x) (bareL xs)
def bareK : KL → KL
  | .nil => .nil
  | .cons k v r => .cons (bare k) (bare v) (bareK r)
end

mutual
/-- The addresses of the lists and dictionaries in a value. -/
def holders : V → List Nat
  | .list a _ xs => a :: holdersL xs
  | .dict a _ _ kvs => a :: holdersK kvs
  | .null => []
  | .bool _ _ => []
  | .int _ _ => []
  | .float _ _ => []
  | .str _ _ => []
  | .ratio _ _ _ => []
  | .cplx _ _ _ => []
  | .obj _ => []
def holdersL : VL → List Nat
  | .nil => []
  | .cons x xs => holders x ++ holdersL xs
def holdersK : KL → List Nat
  | .nil => []
  | .cons k v r => holders k ++ (holders v ++ holdersK r)
end

/-! ## Order -/

/-- The place of a float among the numbers with both infinities. -/
def place : Fl → WithBot (WithTop ℚ)
  | .ninf => ⊥
  | .pinf => ((⊤ : WithTop ℚ) : WithBot (WithTop ℚ))
  | .fin q => ((q : WithTop ℚ) : WithBot (WithTop ℚ))
  | .negZero => (((0 : ℚ) : WithTop ℚ) : WithBot (WithTop ℚ))
  | .nan => ⊥

/-- The result of a comparison is one of three, and says which relation holds. -/
def Says (c : Cmp) (lower equal greater : Prop) : Prop :=
  (c = .lower ↔ lower) ∧ (c = .equal ↔ equal) ∧ (c = .greater ↔ greater)

end Verif.Values.Spec
