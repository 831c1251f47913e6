import Verif.Types.Model
/-
What users rely on about types, structs and enumerations, in terms of names, types and
values only.
-/
namespace Verif.Types.Spec

def Letter (c : Char) : Prop := ('a' ≤ c ∧ c ≤ 'z') ∨ ('A' ≤ c ∧ c ≤ 'Z')

def Digit (c : Char) : Prop := '0' ≤ c ∧ c ≤ '9'

/-- An identifier: a letter or an underscore, then letters, digits and underscores. -/
def Ident (n : Name) : Prop :=
  ∃ c l, n = c :: l ∧ (Letter c ∨ c = '_') ∧ ∀ x ∈ l, Letter x ∨ Digit x ∨ x = '_'

/-- A word and its spelling in any case. -/
def AnyCase : Name → Name → Prop
  | [], [] => True
  | c :: l, w :: r => (c = w ∨ ('A' ≤ c ∧ c ≤ 'Z' ∧ w.toNat = c.toNat + ('a'.toNat - 'A'.toNat))) ∧ AnyCase l r
  | _, _ => False

/-- The names that users cannot give to types. -/
def words : List String :=
  ["argumentinfo", "callableinfo", "unit", "complexnumber", "ratio", "devicetype", "functionblocktype",
   "servertype", "datadescriptor", "datarule", "dimension", "dimensionrule", "range", "scaling"]

def Reserved (n : Name) : Prop := ∃ w ∈ words, AnyCase n w.toList

/-- What a listener knows who starts with the types of the manager and applies what it is
told. -/
def follow {T : Type} (nm : T → Name) (known : Name → Option T) : List (Note T) → Name → Option T
  | [] => known
  | .added t :: l => follow nm (fun n => if n = nm t then some t else known n) l
  | .removed k :: l => follow nm (fun n => if n = k then none else known n) l

/-- The value is of the type of the field, as documented: null, any value for an undefined
field, otherwise the same core type; structs and enumerations of the same type. -/
inductive Fits : Ty → Val → Prop where
  | null (t : Ty) : Fits t .null
  | any (v : Val) : Fits (.simple .undef) v
  | atom (c : CT) (k : Nat) : Fits (.simple c) (.atom c k)
  | anyEnum (n : Name) (vs : List (Name × Int)) (s : Name) : Fits (.simple .enum) (.enum n vs s)
  | anyStruct (n : Name) (fs : TyL) (b : Bool) (d : ValL) : Fits (.simple .struct) (.struct n fs b d)
  | enum (n : Name) (vs : List (Name × Int)) (s : Name) : Fits (.enum n vs) (.enum n vs s)
  | struct (n : Name) (fs : TyL) (b : Bool) (d : ValL) : Fits (.struct n fs b) (.struct n fs b d)

/-- The same without looking at which enumeration it is. -/
inductive Loose : Ty → Val → Prop where
  | fits (t : Ty) (v : Val) : Fits t v → Loose t v
  | enum (n n' : Name) (vs vs' : List (Name × Int)) (s : Name) : Loose (.enum n vs) (.enum n' vs' s)
  | odd (n : Name) (vs : List (Name × Int)) (k : Nat) : Loose (.enum n vs) (.atom .enum k)

/-- The fields of a struct type have different names. -/
def Distinct (fs : TyL) : Prop := (fs.toList.map (·.1)).Nodup

instance (fs : TyL) : Decidable (Distinct fs) := by unfold Distinct; infer_instance

/-- The keys of a dictionary are different. -/
def Keys (d : Dict) : Prop := (d.map (·.1)).Nodup

/-- What a field of a struct holds that was created from given values: the value that was
given, else the default value of the type, else null. -/
def want (dfl : Bool) (f : Field) (d : Dict) : Val :=
  match d.lookup f.1 with
  | some v => v
  | none => if dfl then f.2.2 else .null

/-- The type that is derived from a value that is given to a struct without a type; none for
values that cannot be fields. -/
def derived : Val → Option Ty
  | .null => some (.simple .undef)
  | .atom .proc _ | .atom .object _ | .atom .binary _ | .atom .func _ => none
  | .atom .struct _ | .atom .enum _ => none
  | .atom c _ => some (.simple c)
  | .enum n vs _ => some (.enum n vs)
  | .struct n fs b _ => some (.struct n fs b)

/-- What a struct builder takes as the value of a field: null, or a value whose own type is
the type of the field. -/
def Exact : Ty → Val → Prop
  | _, .null => True
  | .simple c, .atom c' _ => c' = c
  | .enum n vs, .enum n' vs' _ => n' = n ∧ vs' = vs
  | .struct n fs b, .struct n' fs' b' _ => n' = n ∧ fs' = fs ∧ b' = b
  | _, _ => False

instance (t : Ty) (v : Val) : Decidable (Exact t v) := by
  cases t <;> cases v <;> simp only [Exact] <;> infer_instance

/-- The value of field `k` of type `t` after some calls of `set`: the last one that is for
this field and can be taken. -/
def latest (k : Name) (t : Ty) (x : Val) : List (Name × Val) → Val
  | [] => x
  | (n, v) :: l => latest k t (if n = k ∧ Exact t v then v else x) l

/-- Names with consecutive numbers. -/
def number : List Name → Int → List (Name × Int)
  | [], _ => []
  | n :: l, i => (n, i) :: number l (i + 1)

/-- The type of a struct and its fields by name. -/
def SameFields : Val → Val → Prop
  | .struct n fs b v, .struct n' fs' b' v' =>
    n = n' ∧ fs = fs' ∧ b = b' ∧ ∀ k, v.toList.lookup k = v'.toList.lookup k
  | _, _ => False

/-- The names of the fields in the order in which a struct lists them. -/
def order : Val → List Name
  | .struct _ _ _ v => v.toList.map (·.1)
  | _ => []

/-- The types a type is made of, itself last. -/
def parts : Ty → List Ty
  | .simple c => [.simple c]
  | .enum n vs => [.enum n vs]
  | .struct n fs b => partsL fs ++ [.struct n fs b]
where
  partsL : TyL → List Ty
    | .nil => []
    | .cons _ t _ r => parts t ++ partsL r

mutual
/-- The manager knows the types of all structs and enumerations in the value, and the value
is what its type says. -/
def Known (m : TMgr) : Val → Prop
  | .null => True
  | .atom _ _ => True
  | .enum n vs s => m.types.lookup n = some (.enum n vs) ∧ s ≠ [] ∧ ∃ i, (s, i) ∈ vs
  | .struct n fs b v => m.types.lookup n = some (.struct n fs b) ∧ Distinct fs ∧ Keys v.toList ∧
      (∀ k, (∃ x, (k, x) ∈ v.toList) ↔ ∃ t d, (k, t, d) ∈ fs.toList) ∧
      (∀ k t d x, (k, t, d) ∈ fs.toList → (k, x) ∈ v.toList → Loose t x) ∧ KnownL m v
def KnownL (m : TMgr) : ValL → Prop
  | .nil => True
  | .cons _ v r => Known m v ∧ KnownL m r
end

mutual
/-- The type has no empty parts, and its default values are null or simple values. -/
def Plain : Ty → Prop
  | .simple _ => True
  | .enum _ vs => vs ≠ []
  | .struct _ fs b => (b = true → fs.toList ≠ []) ∧ PlainL b fs
def PlainL (b : Bool) : TyL → Prop
  | .nil => True
  | .cons _ t d r => Plain t ∧ (d = .null ∨ b = true ∧ ∃ c k, d = .atom c k) ∧ PlainL b r
end

end Verif.Types.Spec
