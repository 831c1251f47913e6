import Verif.CoreTypes.RatioModel

/-!
# Values: equality, hash codes, dictionaries, copies, order and conversions

Model of the value objects of the core types.

* `ord` = `core/coretypes/include/coretypes/ordinalobject_impl.h`
* `float` = `core/coretypes/include/coretypes/float_impl.h`
* `boolean` = `core/coretypes/include/coretypes/boolean_impl.h`
* `str` = `core/coretypes/src/stringobject_impl.cpp`
* `cplx` = `core/coretypes/src/complex_number_impl.cpp`
* `ratio` = `core/coretypes/src/ratio_impl.cpp`
* `intfs` = `core/coretypes/include/coretypes/intfs.h`
* `optr` = `core/coretypes/include/coretypes/objectptr.h`
* `traits` = `core/coretypes/include/coretypes/coretype_traits.h`
* `list` = `core/corecontainers/src/listobject_impl.cpp`
* `dict` = `core/corecontainers/src/dictobject_impl.cpp`
* `dicth` = `core/corecontainers/include/coretypes/dictobject_impl.h`

Simplifications. A value is a tree whose nodes carry the address of the object. Two references are the same pointer
when they are the same tree with the same addresses (an address belongs to one object, and no object changes during a
call). A finite `Float` is an exact rational number, so the model has more floats than there are doubles. `std::hash`
of a double is a parameter. The hash table `tsl::ordered_map` is a list of entries in the order of insertion in which an
entry matches when the hash codes are equal and `equals` says so (the table also compares only the lower half of the
hash codes and looks at the buckets in another order; both make no difference when at most one stored key matches and
comparing does not crash). Structures, enumerations, procedures and all other objects are `obj`: compared by address,
not copied by `clone`, not serialized. Reference counting is the subject of other parts of the model. A crash (null
pointer dereference) and undefined behaviour are the outcome `none`.
-/

namespace Verif.Values

open Verif.CoreTypes (Ratio Res)

/-- A `Float` (double): not a number, minus zero, the infinities, and the other numbers by their exact value. -/
inductive Fl where
  | nan
  | negZero
  | ninf
  | pinf
  | fin (q : Rat)
  deriving DecidableEq, Repr

/-- An interface identifier (`IntfID`). -/
structure Iid where
  d1 : UInt32
  d2 : UInt16
  d3 : UInt16
  b0 : UInt8
  b1 : UInt8
  b2 : UInt8
  b3 : UInt8
  b4 : UInt8
  b5 : UInt8
  b6 : UInt8
  b7 : UInt8
  deriving DecidableEq, Repr

mutual
/-- A reference to an object, possibly null. The first field is the address. -/
inductive V where
  | null
  | bool (a : Nat) (b : Bool)
  | int (a : Nat) (i : Int)
  | float (a : Nat) (f : Fl)
  /-- a string; `none` is a string object created from a null pointer -/
  | str (a : Nat) (s : Option (List UInt8))
  | ratio (a : Nat) (n d : Int)
  | cplx (a : Nat) (re im : Fl)
  | list (a : Nat) (iid : Iid) (xs : VL)
  | dict (a : Nat) (kid vid : Iid) (kvs : KL)
  | obj (a : Nat)
  deriving DecidableEq
/-- The elements of a list. -/
inductive VL where
  | nil
  | cons (x : V) (xs : VL)
  deriving DecidableEq
/-- The entries of a dictionary, in the order of insertion. -/
inductive KL where
  | nil
  | cons (k v : V) (r : KL)
  deriving DecidableEq
end

def VL.toList : VL → List V
  | .nil => []
  | .cons x xs => x :: xs.toList

def KL.toList : KL → List (V × V)
  | .nil => []
  | .cons k v r => (k, v) :: r.toList

def VL.length : VL → Nat
  | .nil => 0
  | .cons _ xs => xs.length + 1

def KL.length : KL → Nat
  | .nil => 0
  | .cons _ _ r => r.length + 1

def VL.ofList : List V → VL
  | [] => .nil
  | x :: xs => .cons x (VL.ofList xs)

/-! ## Equality -/

/-- `==` of two doubles. -/
def Fl.eq : Fl → Fl → Bool
  | .nan, _ | _, .nan => false
  | .negZero, .negZero => true
  | .negZero, .fin q | .fin q, .negZero => decide (q = 0)
  | .fin p, .fin q => decide (p = q)
  | .ninf, .ninf | .pinf, .pinf => true
  | _, _ => false

/-- The characters `strcmp` looks at: those before the first zero byte. -/
def cstr (s : List UInt8) : List UInt8 := s.takeWhile (· ≠ 0)

/-- The length a string object reports (str:8-26, 119-123). -/
def strLen : Option (List UInt8) → Nat
  | none => 0
  | some s => s.length

/-- `StringImpl::equals` for another string (str:85-108): the lengths, then `strcmp`, which crashes when the own
pointer is null. -/
def strEq (s t : Option (List UInt8)) : Option Bool :=
  if strLen t ≠ strLen s then some false
  else match t with
    | none => some s.isNone
    | some t => match s with
      | none => none
      | some s => some (decide (cstr s = cstr t))

def resBool : Res Bool → Option Bool
  | .ok b => some b
  | _ => none

/-- `equals` where no other `equals` is called. Numbers and booleans (ord:82-106) and complex numbers (cplx:71-90) use
the argument without looking for null; strings (str:69-111), ratios (ratio:139-170), lists (list:107-148), dictionaries
(dict:361-397) and other objects (intfs:285-307) look. A list or a dictionary is compared with something else here. -/
def leafEq : V → V → Option Bool
  | .null, _ => none
  | .bool _ _, .null | .int _ _, .null | .float _ _, .null | .cplx _ _ _, .null => none
  | .bool _ x, .bool _ y => some (x == y)
  | .int _ x, .int _ y => some (x == y)
  | .float _ x, .float _ y => some (Fl.eq y x)
  | .cplx _ x x', .cplx _ y y' => some (Fl.eq y x && Fl.eq y' x')
  | .str _ s, .str _ t => strEq s t
  | .ratio _ n d, .ratio _ n' d' => resBool (Ratio.equals ⟨n, d⟩ ⟨n', d'⟩)
  | .obj a, y => some (decide (V.obj a = y))
  | _, _ => some false

/-! ## Hash codes -/

/-- `static_cast<SizeT>` of a double: towards zero, undefined when the result is not a 64-bit number. -/
def Fl.toSize : Fl → Option Nat
  | .negZero => some 0
  | .fin q => if decide (-1 < q) && decide (q < 18446744073709551616) then some q.floor.toNat else none
  | _ => none

/-- `static_cast<SizeT>` of an `Int`. -/
def intToSize (i : Int) : Nat := (i % 18446744073709551616).toNat

/-- One step of the string hash (str:55-58). Characters are signed. -/
def strHashStep (h : UInt32) (c : UInt8) : UInt32 :=
  let h := (h <<< 4) + (if c < 128 then c.toUInt32 else c.toUInt32 + 0xFFFFFF00)
  let high := h &&& 0xF0000000
  let h := if high ≠ 0 then h ^^^ (high >>> 24) else h
  h &&& ~~~high

/-- `StringImpl::getHashCode` (str:41-67). -/
def strHash : Option (List UInt8) → Nat
  | none => 0
  | some s => ((cstr s).foldl strHashStep 0).toNat

/-- `hashCombine` (cplx:12-16). -/
def hashCombine (seed h : Nat) : Nat :=
  Nat.xor seed ((h + 0x9e3779b9 + seed * 64 + seed / 4) % 18446744073709551616)

/-- `getHashCode`: numbers (ord:128-138), booleans (boolean:37-47), strings (str:41-67), complex numbers (cplx:62-69),
everything else by address (intfs:277-283). -/
def hash (hd : Fl → Nat) : V → Option Nat
  | .null => none
  | .bool _ b => some (if b then 1 else 0)
  | .int _ i => some (intToSize i)
  | .float _ f => f.toSize
  | .str _ s => some (strHash s)
  | .cplx _ re im => some (hashCombine (hashCombine 0 (hd re)) (hd im))
  | .ratio a _ _ | .list a _ _ | .dict a _ _ _ | .obj a => some a

/-- Does an entry match? The hash codes are compared first (dicth:30-50). -/
def keyHit (h h' : Option Nat) (e : Option Bool) : Option Bool :=
  match h, h' with
  | some a, some b => if a = b then e else some false
  | _, _ => none

/-- `ObjectPtr::equals` (optr:1427-1444): an empty pointer equals an empty pointer only. -/
def ptrEq (x y : V) (e : Option Bool) : Option Bool :=
  match x, y with
  | .null, .null => some true
  | .null, _ => some false
  | _, _ => e

/-- Conjunction that stops at the first failure or crash. -/
def andThen (a : Option Bool) (b : Option Bool) : Option Bool :=
  match a with
  | some true => b
  | some false => some false
  | none => none

/-- For every entry. -/
def KL.allM (f : V → V → Option Bool) : KL → Option Bool
  | .nil => some true
  | .cons k v r => andThen (f k v) (r.allM f)

/-- Find the first entry whose key satisfies `p`. `none` is a crash, `some none` not found. -/
def KL.findM (p : V → Option Bool) : KL → Option (Option V)
  | .nil => some none
  | .cons k v r => match p k with
    | none => none
    | some true => some (some v)
    | some false => r.findM p

/-- What to do with the entry found: nothing found is a difference. -/
def onFound (r : Option (Option V)) (f : V → Option Bool) : Option Bool :=
  match r with
  | none => none
  | some none => some false
  | some (some v) => f v

variable (hd : Fl → Nat)

mutual
/-- `x->equals(y)`. Lists: list:107-148, dictionaries: dict:361-397 (which goes through the other dictionary and looks
the keys up in its own). -/
def eqv (x y : V) : Option Bool :=
  match x, y with
  | .list _ _ xs, .list _ _ ys => if ys.length ≠ xs.length then some false else eqvItems xs ys
  | .dict _ _ _ xs, .dict _ _ _ ys => if ys.length ≠ xs.length then some false else ys.allM (hitIn xs)
  | .null, _ => none
  | .bool a b, y => leafEq (.bool a b) y
  | .int a i, y => leafEq (.int a i) y
  | .float a f, y => leafEq (.float a f) y
  | .str a s, y => leafEq (.str a s) y
  | .ratio a n d, y => leafEq (.ratio a n d) y
  | .cplx a r i, y => leafEq (.cplx a r i) y
  | .obj a, y => leafEq (.obj a) y
  | .list _ _ _, _ => some false
  | .dict _ _ _ _, _ => some false
/-- `y->equals(x)`. -/
def rev (x y : V) : Option Bool :=
  match x, y with
  | .list _ _ xs, .list _ _ ys => if xs.length ≠ ys.length then some false else revItems xs ys
  | .dict _ _ _ xs, .dict _ _ _ ys => if xs.length ≠ ys.length then some false else entriesIn xs ys
  | _, .null => none
  | x, .bool a b => leafEq (.bool a b) x
  | x, .int a i => leafEq (.int a i) x
  | x, .float a f => leafEq (.float a f) x
  | x, .str a s => leafEq (.str a s) x
  | x, .ratio a n d => leafEq (.ratio a n d) x
  | x, .cplx a r i => leafEq (.cplx a r i) x
  | x, .obj a => leafEq (.obj a) x
  | _, .list _ _ _ => some false
  | _, .dict _ _ _ _ => some false
/-- The loop of `ListImpl::equals` (list:134-145). -/
def eqvItems (xs ys : VL) : Option Bool :=
  match xs, ys with
  | .cons x xs, .cons y ys => andThen (if x = y then some true else eqv x y) (eqvItems xs ys)
  | _, _ => some true
/-- The same loop for the second list. -/
def revItems (xs ys : VL) : Option Bool :=
  match xs, ys with
  | .cons x xs, .cons y ys => andThen (if y = x then some true else rev x y) (revItems xs ys)
  | _, _ => some true
/-- The body of the loop of `DictImpl::equals` (dict:380-388) for the own entries `xs` and an entry `k`, `v` of the other
dictionary. -/
def hitIn (xs : KL) (k v : V) : Option Bool :=
  match xs with
  | .nil => some false
  | .cons k' v' r =>
    match keyHit (hash hd k') (hash hd k) (rev k' k) with
    | none => none
    | some true => ptrEq v v' (rev v' v)
    | some false => hitIn r k v
/-- The same loop of the second dictionary, which goes through the entries of the first. -/
def entriesIn (xs ys : KL) : Option Bool :=
  match xs with
  | .nil => some true
  | .cons k v r =>
    andThen (onFound (ys.findM fun k' => keyHit (hash hd k') (hash hd k) (eqv k k')) fun v' => ptrEq v v' (eqv v v'))
      (entriesIn r ys)
end

/-! ## Dictionaries -/

/-- A dictionary object. -/
structure Dict where
  entries : KL
  frozen : Bool

/-- An empty dictionary. -/
def Dict.init : Dict := ⟨.nil, false⟩

/-- `hashTable.find` (dicth:30-50). For a null key the hash is 0 and a match calls `equals` on null. -/
def KL.lookup (l : KL) (k : V) : Option (Option V) :=
  l.findM fun k' => keyHit (hash hd k') (if k = .null then some 0 else hash hd k) (eqv hd k k')

/-- The assignment to the entry found (dict:79-85). -/
def KL.update (l : KL) (k v : V) : KL :=
  match l with
  | .nil => .nil
  | .cons k' v' r => if keyHit (hash hd k') (hash hd k) (eqv hd k k') = some true then .cons k' v r else .cons k' v' (r.update k v)

/-- `hashTable.erase`, which keeps the order. -/
def KL.erase (l : KL) (k : V) : KL :=
  match l with
  | .nil => .nil
  | .cons k' v' r => if keyHit (hash hd k') (hash hd k) (eqv hd k k') = some true then r else .cons k' v' (r.erase k)

def KL.push (l : KL) (k v : V) : KL :=
  match l with
  | .nil => .cons k v .nil
  | .cons k' v' r => .cons k' v' (r.push k v)

inductive DOp where
  | get (k : V)
  | set (k v : V)
  | remove (k : V)
  | deleteItem (k : V)
  | clear
  | count
  | hasKey (k : V)
  | keys
  | values
  | freeze
  | isFrozen

inductive DOut where
  | ok
  | val (v : V)
  | num (n : Nat)
  | bool (b : Bool)
  | vals (l : List V)
  /-- OPENDAQ_IGNORED -/
  | ignored
  | frozen
  | argNull
  | notFound
  /-- crash or undefined behaviour -/
  | crash
  deriving DecidableEq

/-- `DictImpl::get` (dict:44-58). -/
def Dict.get (d : Dict) (k : V) : DOut :=
  if k = .null then .argNull
  else match d.entries.lookup hd k with
    | none => .crash
    | some none => .notFound
    | some (some v) => .val v

/-- `DictImpl::set` (dict:60-88). -/
def Dict.set (d : Dict) (k v : V) : Dict × DOut :=
  if d.frozen then (d, .frozen)
  else if k = .null then (d, .argNull)
  else match d.entries.lookup hd k with
    | none => (d, .crash)
    | some none => ({ d with entries := d.entries.push k v }, .ok)
    | some (some _) => ({ d with entries := d.entries.update hd k v }, .ok)

/-- `DictImpl::remove` (dict:90-113), and `deleteItem` (dict:115-150) without the value. -/
def Dict.remove (d : Dict) (k : V) : Dict × DOut :=
  if d.frozen then (d, .frozen)
  else if k = .null then (d, .argNull)
  else match d.entries.lookup hd k with
    | none => (d, .crash)
    | some none => (d, .notFound)
    | some (some v) => ({ d with entries := d.entries.erase hd k }, .val v)

def noValue : DOut → DOut
  | .val _ => .ok
  | o => o

/-- The calls on a dictionary: `get`, `set`, `remove`, `deleteItem`, `clear` (dict:152-163), `getCount` (dict:165-171),
`hasKey` (dict:173-178), `getKeyList` and `getValueList` (dict:180-212), `freeze` (dict:286-294), `isFrozen`
(dict:296-301). -/
def Dict.step (d : Dict) : DOp → Dict × DOut
  | .get k => (d, d.get hd k)
  | .set k v => d.set hd k v
  | .remove k => d.remove hd k
  | .deleteItem k => let r := d.remove hd k; (r.1, noValue r.2)
  | .clear => if d.frozen then (d, .frozen) else ({ d with entries := .nil }, .ok)
  | .count => (d, .num d.entries.length)
  | .hasKey k => (d, match d.entries.lookup hd k with
    | none => .crash
    | some r => .bool r.isSome)
  | .keys => (d, .vals (d.entries.toList.map Prod.fst))
  | .values => (d, .vals (d.entries.toList.map Prod.snd))
  | .freeze => if d.frozen then (d, .ignored) else ({ d with frozen := true }, .ok)
  | .isFrozen => (d, .bool d.frozen)

/-! ## Copies -/

mutual
/-- `clone` of what can be cloned (lists, list:70-105, and dictionaries, dict:310-359); everything else is shared. New
objects get the addresses from `n` on. -/
def clone (x : V) (n : Nat) : V × Nat :=
  match x with
  | .list _ iid xs => let r := cloneItems xs n; (.list r.2 iid r.1, r.2 + 1)
  | .dict _ kid vid kvs => let r := cloneEntries kvs n; (.dict r.2 kid vid r.1, r.2 + 1)
  | .null => (.null, n)
  | .bool a b => (.bool a b, n)
  | .int a i => (.int a i, n)
  | .float a f => (.float a f, n)
  | .str a s => (.str a s, n)
  | .ratio a p q => (.ratio a p q, n)
  | .cplx a r i => (.cplx a r i, n)
  | .obj a => (.obj a, n)
def cloneItems (xs : VL) (n : Nat) : VL × Nat :=
  match xs with
  | .nil => (.nil, n)
  | .cons x xs => let r := clone x n; let r' := cloneItems xs r.2; (.cons r.1 r'.1, r'.2)
/-- Keys and values are cloned; inserting into the new table keeps an entry that is already there, which does not happen
as the keys of a dictionary are different. -/
def cloneEntries (kvs : KL) (n : Nat) : KL × Nat :=
  match kvs with
  | .nil => (.nil, n)
  | .cons k v r =>
    let rk := clone k n
    let rv := clone v rk.2
    let r' := cloneEntries r rv.2
    (.cons rk.1 rv.1 r'.1, r'.2)
end

/-! ## Conversions and order -/

/-- `static_cast<Int>` of a double: towards zero, undefined when out of range. -/
def Fl.toInt : Fl → Option Int
  | .negZero => some 0
  | .fin q =>
    if decide (-9223372036854775809 < q) && decide (q < 9223372036854775808) then
      some (if 0 ≤ q then q.floor else -(-q).floor)
    else none
  | _ => none

/-- Round a natural number to 53 bits, half to even. -/
def round53 (n : Nat) : Nat :=
  if n < 9007199254740992 then n
  else
    let u := 2 ^ (Nat.log2 n - 52)
    let q := n / u
    let r := n % u
    if 2 * r < u || (2 * r == u && q % 2 == 0) then q * u else (q + 1) * u

/-- `static_cast<Float>` of an `Int`. -/
def intToFl (i : Int) : Fl := .fin (if 0 ≤ i then ((round53 i.natAbs : Nat) : Rat) else -((round53 i.natAbs : Nat) : Rat))

/-- `toInt` (ord:161-167, cplx:109-115); strings, ratios and containers are not modelled here. -/
def V.toInt : V → Option Int
  | .bool _ b => some (if b then 1 else 0)
  | .int _ i => some i
  | .float _ f => f.toInt
  | .cplx _ re _ => re.toInt
  | _ => none

/-- `toFloat` (ord:152-158, cplx:101-107). -/
def V.toFloat : V → Option Fl
  | .bool _ b => some (.fin (if b then 1 else 0))
  | .int _ i => some (intToFl i)
  | .float _ f => some f
  | .cplx _ re _ => some re
  | _ => none

/-- `toBool` (ord:170-177, float:24-34, boolean:24-34, cplx:117-123): a `Bool` is an 8-bit number, to which an integer is
cast. -/
def V.toBool : V → Option Nat
  | .bool _ b => some (if b then 1 else 0)
  | .int _ i => some (i % 256).toNat
  | .float _ f => some (if Fl.eq f (.fin 0) then 0 else 1)
  | .cplx _ re im => some (if Fl.eq re (.fin 0) && Fl.eq im (.fin 0) then 0 else 1)
  | _ => none

inductive Cmp where
  | lower
  | equal
  | greater
  /-- an error code -/
  | error
  /-- undefined behaviour or crash -/
  | ub
  deriving DecidableEq, Repr

/-- `<` of two doubles. -/
def Fl.lt : Fl → Fl → Bool
  | .nan, _ | _, .nan => false
  | .ninf, .ninf => false
  | .ninf, _ => true
  | _, .ninf => false
  | .pinf, _ => false
  | _, .pinf => true
  | .negZero, .negZero => false
  | .negZero, .fin q => decide (0 < q)
  | .fin p, .negZero => decide (p < 0)
  | .fin p, .fin q => decide (p < q)

/-- The end of `compareTo` (ord:220-225). -/
def cmpBy (gt lt : Bool) : Cmp := if gt then .greater else if lt then .lower else .equal

def withOther {α : Type} (o : Option α) (f : α → Cmp) : Cmp :=
  match o with
  | some a => f a
  | none => .ub

/-- Is this a value `compareTo` of a number can convert (ord:200-213)? -/
def V.convertible : V → Bool
  | .bool _ _ | .int _ _ | .float _ _ | .cplx _ _ _ => true
  | _ => false

def strCmp : List UInt8 → List UInt8 → Cmp
  | [], [] => .equal
  | [], _ :: _ => .lower
  | _ :: _, [] => .greater
  | a :: s, b :: t => if b < a then .greater else if a < b then .lower else strCmp s t

/-- `x->compareTo(y)`: numbers and booleans (ord:189-226) convert the other value to the own type (traits:67-180);
strings (str:197-231); complex numbers (cplx:137-158), which are compared with themselves. Comparison of a number with a
string or a ratio, of a string with something else, and of ratios goes through text or division and is not modelled
(`ub`). -/
def compareTo : V → V → Cmp
  | .bool _ _, .null | .int _ _, .null | .float _ _, .null | .cplx _ _ _, .null => .error
  | .bool _ x, y =>
    if y.convertible then withOther y.toBool fun n => cmpBy (decide (n < (if x then 1 else 0))) (decide ((if x then 1 else 0) < n))
    else match y with
      | .list _ _ _ | .dict _ _ _ _ | .obj _ => .error
      | _ => .ub
  | .int _ x, y =>
    if y.convertible then withOther y.toInt fun i => cmpBy (decide (i < x)) (decide (x < i))
    else match y with
      | .list _ _ _ | .dict _ _ _ _ | .obj _ => .error
      | _ => .ub
  | .float _ x, y =>
    if y.convertible then withOther y.toFloat fun f => cmpBy (Fl.lt f x) (Fl.lt x f)
    else match y with
      | .list _ _ _ | .dict _ _ _ _ | .obj _ => .error
      | _ => .ub
  | .cplx _ _ _, .cplx _ _ _ => .equal
  | .cplx _ _ _, _ => .error
  | .str _ _, .null => .lower
  | .str _ (some s), .str _ (some t) => strCmp (cstr s) (cstr t)
  | _, _ => .ub

end Verif.Values
