import Verif.Opts.Model
import Mathlib.Data.List.Forall2

/-!
# What the options are expected to satisfy

Nothing here uses the functions of the model; only its data types.
-/

namespace Verif.Opts.Spec

/-- A dictionary has an entry (the first with the key). -/
inductive Has : Ents → Text → Opt → Prop where
  | here {k v m} : Has (.cons k v m) k v
  | later {k v m n w} : k ≠ n → Has m n w → Has (.cons k v m) n w

/-- The option with a path. -/
inductive At : Ents → List Text → Opt → Prop where
  | last {o t v} : Has o t v → At o [t] v
  | inside {o t m u ts v} : Has o t (.dict m) → At m (u :: ts) v → At o (t :: u :: ts) v

/-- Two values have the same type. -/
inductive SameType : Opt → Opt → Prop where
  | null : SameType (.prim .null) (.prim .null)
  | bool {a b} : SameType (.prim (.bool a)) (.prim (.bool b))
  | int {a b} : SameType (.prim (.int a)) (.prim (.int b))
  | float {a b} : SameType (.prim (.float a)) (.prim (.float b))
  | str {a b} : SameType (.prim (.str a)) (.prim (.str b))
  | list {a b} : SameType (.list a) (.list b)
  | dict {a b} : SameType (.dict a) (.dict b)

/-- Every option that was there, and was not null, is there with the same type. -/
def TypesKept (o o' : Ents) : Prop := ∀ p v, At o p v → v ≠ .prim .null → ∃ w, At o' p w ∧ SameType v w

mutual
/-- All plain values in a document at a path, in order. -/
def plainAt : List Text → Ents → List Prim
  | _, .nil => []
  | p, .cons k v m => plainIn p k v ++ plainAt p m
/-- Those in one entry. -/
def plainIn : List Text → Text → Opt → List Prim
  | [t], k, .prim a => if k = t then [a] else []
  | t :: u :: ts, k, .dict d => if k = t then plainAt (u :: ts) d else []
  | _, _, _ => []
end

/-- Two plain values have the same type. -/
def alike : Prim → Prim → Bool
  | .bool _, .bool _ | .int _, .int _ | .float _, .float _ | .str _, .str _ => true
  | _, _ => false

/-- A plain value after values were given for it, one after the other: those of another type do not count. -/
def settle (a : Prim) (l : List Prim) : Prim := l.foldl (fun a b => if alike a b then b else a) a

mutual
/-- A JSON value with distinct names in each object and no integer that does not fit. -/
def Good : Opt → Prop
  | .prim (.int i) => i < 9223372036854775808
  | .prim _ => True
  | .list l => GoodItems l
  | .dict m => GoodEnts m
def GoodItems : Items → Prop
  | .nil => True
  | .cons v l => Good v ∧ GoodItems l
def GoodEnts : Ents → Prop
  | .nil => True
  | .cons k v m => Good v ∧ (∀ w, ¬ Has m k w) ∧ GoodEnts m
end

/-- The decimal digits of a number. -/
inductive Decimal : Text → Nat → Prop where
  | one {d} : d < 10 → Decimal [Char.ofNat (48 + d)] d
  | more {s n d} : Decimal s n → d < 10 → Decimal (s ++ [Char.ofNat (48 + d)]) (10 * n + d)

/-- No option has a path, and none that is not a dictionary is on the way. -/
inductive Missing : Ents → List Text → Prop where
  | last {o t} : (∀ v, ¬ Has o t v) → Missing o [t]
  | absent {o t u ts} : (∀ v, ¬ Has o t v) → Missing o (t :: u :: ts)
  | inside {o t m u ts} : Has o t (.dict m) → Missing m (u :: ts) → Missing o (t :: u :: ts)

/-- Not a dictionary. -/
def NoDict (v : Opt) : Prop := ∀ m, v ≠ .dict m

/-- The same options with the same values; the order of entries does not matter. -/
structure Same (o o' : Ents) : Prop where
  plain : ∀ p v, NoDict v → (At o p v ↔ At o' p v)
  dict : ∀ p, (∃ m, At o p (.dict m)) ↔ ∃ m, At o' p (.dict m)

/-- Words joined by '_'. -/
def joined : List Text → Text
  | [] => []
  | [w] => w
  | w :: ws => w ++ '_' :: joined ws

/-- The names in a path can be written in an argument. -/
def Plain (p : List Text) : Prop := p ≠ [] ∧ ∀ w ∈ p, '_' ∉ w ∧ '=' ∉ w

/-- The argument that gives the option with a path a text. -/
def argument (pre : Text) (p : List Text) (s : Text) : Text := pre ++ joined p ++ '=' :: s

def envStart : Text := "OPENDAQ_CONFIG_".toList
def cmdStart : Text := "-C".toList

/-- A path is named by one of some arguments. -/
def Named (pre : Text) (args : List Text) (q : List Text) : Prop := ∃ a ∈ args, ∃ s, a = argument pre q s

/-- A provider that gives one option a text. -/
inductive Gives (p : List Text) (s : Text) : Provider → Prop where
  | env : Gives p s (.env [argument envStart p s])
  | cmd : Gives p s (.cmd [argument cmdStart p s])

/-- None of two paths is the start of the other. -/
def Apart (p q : List Text) : Prop := ¬ p <+: q ∧ ¬ q <+: p

/-- A character is a letter, small or capital. -/
def Folds (c d : Char) : Prop := c = d ∨ (97 ≤ d.toNat ∧ d.toNat ≤ 122 ∧ c.toNat + 32 = d.toNat)

/-- A text is a word, in small and capital letters. -/
def Spells (s w : Text) : Prop := List.Forall₂ Folds s w

/-- A character a number can start with. -/
def Starts (c : Char) : Prop :=
  (48 ≤ c.toNat ∧ c.toNat ≤ 57) ∨ c = '+' ∨ c = '-' ∨ c = '.' ∨ c.toNat = 32 ∨ (9 ≤ c.toNat ∧ c.toNat ≤ 13)

end Verif.Opts.Spec
