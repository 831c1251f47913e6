import Verif.Common

/-!
# Model of the options of an instance and the providers that fill them

`base` = `core/opendaq/opendaq/src/base_config_provider_impl.cpp`
`json` = `core/opendaq/opendaq/src/json_config_provider_impl.cpp`
`env` = `core/opendaq/opendaq/src/env_config_provider_impl.cpp`
`cmd` = `core/opendaq/opendaq/src/cmd_line_args_config_provider_impl.cpp`
`bld` = `core/opendaq/opendaq/src/instance_builder_impl.cpp`
`dict` = `core/corecontainers/src/dictobject_impl.cpp`

The options are a dictionary of dictionaries. Providers change it by a JSON document, or by environment variables or command
line arguments, which name an option and give its value as text.

Simplifications: texts are lists of characters; floats are exact, with infinities, NaN and hexadecimal floats as one value
`other`, and no overflow; the parser of JSON and the reading of files are left out (a document that cannot be read changes
nothing); a JSON integer is below 2^64 (larger ones are read as floats).
-/

namespace Verif.Opts

abbrev Text := List Char

/-- A float. -/
inductive Fl where
  | num (q : Rat) | other
  deriving DecidableEq

/-- A plain value; `null` is an object that is not assigned. -/
inductive Prim where
  | null | bool (b : Bool) | int (i : Int) | float (x : Fl) | str (s : Text)
  deriving DecidableEq

mutual
/-- An option, or a JSON value. -/
inductive Opt where
  | prim (p : Prim)
  | list (l : Items)
  | dict (m : Ents)
/-- The items of a list. -/
inductive Items where
  | nil
  | cons (v : Opt) (l : Items)
/-- The entries of a dictionary, in the order in which they were added. -/
inductive Ents where
  | nil
  | cons (k : Text) (v : Opt) (m : Ents)
end

/-- `IDict::get` (`none`: the key is missing) -/
def Ents.get : Ents → Text → Option Opt
  | .nil, _ => none
  | .cons k v m, n => if k = n then some v else m.get n

/-- `IDict::set`: an entry that exists keeps its place (dict:60-88). -/
def Ents.set : Ents → Text → Opt → Ents
  | .nil, n, w => .cons n w .nil
  | .cons k v m, n, w => if k = n then .cons k w m else .cons k v (m.set n w)

/-- Core types; `none` for what is not assigned. -/
inductive Ty where
  | none | bool | int | float | str | list | dict
  deriving DecidableEq

def Prim.ty : Prim → Ty
  | .null => .none
  | .bool _ => .bool
  | .int _ => .int
  | .float _ => .float
  | .str _ => .str

def Opt.ty : Opt → Ty
  | .prim p => p.ty
  | .list _ => .list
  | .dict _ => .dict

/-! ## JSON -/

/-- `HandlePrimitive`, `HandleNumber` (json:57-111): unsigned integers are taken for signed ones. -/
def conv : Prim → Prim
  | .int i => if i < 9223372036854775808 then .int i else .int (i - 18446744073709551616)
  | p => p

mutual
/-- A value for an option that does not exist, or an item (json:128-150, json:174-201). -/
def fresh : Opt → Opt
  | .prim p => .prim (conv p)
  | .list l => .list (copy l)
  | .dict d => .dict (merge .nil d)

/-- `HandleArray`: the list is cleared first (json:113-151). -/
def copy : Items → Items
  | .nil => .nil
  | .cons v l => .cons (fresh v) (copy l)

/-- A value for an option, `none` if it is left alone (json:172-199). -/
def put : Option Opt → Opt → Option Opt
  | old, .dict d =>
    match old with
    | none | some (.prim .null) => some (.dict (merge .nil d))
    | some (.dict m) => some (.dict (merge m d))
    | some v => some v
  | old, .list l =>
    match old with
    | none | some (.prim .null) => some (.list (copy l))
    | some (.list _) => some (.list (copy l))
    | some v => some v
  | old, .prim p =>
    match old with
    | none | some (.prim .null) => some (.prim (conv p))
    | some v => if conv p = .null ∨ v.ty ≠ (conv p).ty then none else some (.prim (conv p))

/-- `HandleObject` (json:153-203) -/
def merge : Ents → Ents → Ents
  | o, .nil => o
  | o, .cons k v rest =>
    match put (o.get k) v with
    | some w => merge (o.set k w) rest
    | none => merge o rest
end

/-! ## Texts -/

def isSpace (c : Char) : Bool := decide (c.toNat = 32 ∨ (9 ≤ c.toNat ∧ c.toNat ≤ 13))
def isDigit (c : Char) : Bool := decide (48 ≤ c.toNat ∧ c.toNat ≤ 57)

/-- The number that digits stand for. -/
def value (s : Text) : Nat := s.foldl (fun a c => a * 10 + (c.toNat - 48)) 0

/-- A sign, and what is after it. -/
def sign : Text → Bool × Text
  | [] => (false, [])
  | c :: s => if c = '-' then (true, s) else if c = '+' then (false, s) else (false, c :: s)

/-- `ToLowerCase` (base:31-34) -/
def lower (s : Text) : Text := s.map fun c => if 65 ≤ c.toNat ∧ c.toNat ≤ 90 then Char.ofNat (c.toNat + 32) else c

/-- `std::stoll`: blanks, a sign, digits, and anything after that; an exception if there is no digit or the number is too
large. -/
def stoll (s : Text) : Option Int :=
  let (neg, t) := sign (s.dropWhile isSpace)
  let d := t.takeWhile isDigit
  if d = [] then none
  else if neg then (if value d ≤ 9223372036854775808 then some (-(value d : Int)) else none)
  else if value d < 9223372036854775808 then some (value d : Int) else none

/-- The exponent at the start of a text, 0 if there is none. -/
def exponent : Text → Int
  | c :: s =>
    if c = 'e' ∨ c = 'E' then
      if (sign s).1 then -(value ((sign s).2.takeWhile isDigit) : Int) else (value ((sign s).2.takeWhile isDigit) : Int)
    else 0
  | [] => 0

/-- Ten to a power. -/
def ten (e : Int) : Rat := if 0 ≤ e then (10 : Rat) ^ e.toNat else 1 / (10 : Rat) ^ (-e).toNat

def isHex (c : Char) : Bool := isDigit c || decide (97 ≤ c.toNat ∧ c.toNat ≤ 102)

/-- A text, in lower case, starts with a hexadecimal number. -/
def startsHex : Text → Bool
  | '0' :: 'x' :: '.' :: c :: _ => isHex c
  | '0' :: 'x' :: c :: _ => isHex c
  | _ => false

/-- `std::stod`: blanks, a sign, digits with a point, an exponent, and anything after that; or the name of an infinity or of
NaN, or a hexadecimal number. -/
def stod (s : Text) : Option Fl :=
  let (neg, t) := sign (s.dropWhile isSpace)
  if "inf".toList.isPrefixOf (lower t) ∨ "nan".toList.isPrefixOf (lower t) ∨ startsHex (lower t) then some .other
  else
    let whole := t.takeWhile isDigit
    let rest := t.dropWhile isDigit
    let part := match rest with
      | '.' :: r => r.takeWhile isDigit
      | _ => []
    let tail := match rest with
      | '.' :: r => r.dropWhile isDigit
      | _ => rest
    if whole = [] ∧ part = [] then none
    else
      let q : Rat := (value (whole ++ part) : Rat) * ten (exponent tail - part.length)
      some (.num (if neg then -q else q))

/-- `TryConvertToBoolean` (base:55-61) -/
def toBool (s : Text) : Option Prim :=
  if lower s = "true".toList then some (.bool true) else if lower s = "false".toList then some (.bool false) else none

/-- `TryConvertToFloat` (base:63-77) -/
def toFloat (s : Text) : Option Prim := if '.' ∈ s then (stod s).map .float else none

/-- `TryConvertToInteger` (base:79-91) -/
def toInt (s : Text) : Option Prim := (stoll s).map .int

/-- A text in quotes, without them (base:95-96, base:113-114). -/
def unquote (s : Text) : Option Text :=
  if s.length > 1 ∧ s.head? = some '"' ∧ s.getLast? = some '"' then some (s.drop 1).dropLast else none

/-- `HandleUnderfineValue` (base:93-108) -/
def guess (s : Text) : Prim :=
  match unquote s with
  | some t => .str t
  | none => ((toBool s).orElse fun _ => (toFloat s).orElse fun _ => toInt s).getD (.str s)

/-- `HandleOptionLeaf`: the new value of an option that exists, `none` if it is left alone (base:110-158). -/
def leaf (v : Opt) (s : Text) : Option Prim :=
  let t := (unquote s).getD s
  match v.ty with
  | .bool => toBool t
  | .int => toInt t
  | .float => toFloat t
  | .str | .none => some (.str t)
  | .list | .dict => none

/-- `WriteValue` (base:159-188) -/
def write : Ents → List Text → Text → Ents
  | o, [], _ => o
  | o, [t], s =>
    match o.get t with
    | some v => match leaf v s with
      | some p => o.set t (.prim p)
      | none => o
    | none => o.set t (.prim (guess s))
  | o, t :: ts, s =>
    match o.get t with
    | none => o.set t (.dict (write .nil ts s))
    | some (.dict m) => o.set t (.dict (write m ts s))
    | some _ => o

/-- `SplitKey`, without the prefix (base:36-52) -/
def split : Text → List Text
  | [] => [[]]
  | c :: s =>
    if c = '_' then [] :: split s
    else match split s with
      | [] => [[c]]
      | w :: ws => (c :: w) :: ws

/-- Set in a dictionary of texts. -/
def setText : List (Text × Text) → Text → Text → List (Text × Text)
  | [], k, v => [(k, v)]
  | (n, w) :: l, k, v => if n = k then (n, v) :: l else (n, w) :: setText l k v

/-- The name and the value of an argument, if it has the prefix and a '=' (base:17-26). -/
def cut (pre arg : Text) : Option (Text × Text) :=
  if pre.isPrefixOf arg then
    let s := arg.drop pre.length
    if '=' ∈ s then some (s.takeWhile (· ≠ '='), (s.dropWhile (· ≠ '=')).drop 1) else none
  else none

/-- One round of `GetValuesStartingWith` (base:15-27). -/
def gather (pre : Text) (l : List (Text × Text)) (arg : Text) : List (Text × Text) :=
  match cut pre arg with
  | some (k, v) => setText l k v
  | none => l

/-- `GetValuesStartingWith` (base:9-29) -/
def collect (pre : Text) (args : List Text) : List (Text × Text) := args.foldl (gather pre) []

/-- `populateOptions` of environment variables and command line arguments (env:24-38, cmd:13-25). -/
def fromArgs (pre : Text) (args : List Text) (o : Ents) : Ents :=
  (collect pre args).foldl (fun o x => write o (split x.1) x.2) o

/-! ## The builder -/

/-- A provider: a JSON document (`none` if it cannot be read, json:205-224), environment variables, or arguments. -/
inductive Provider where
  | json (doc : Option Opt)
  | env (vars : List Text)
  | cmd (args : List Text)

def envPrefix : Text := "OPENDAQ_CONFIG_".toList
def cmdPrefix : Text := "-C".toList

/-- `populateOptions` -/
def populate (o : Ents) : Provider → Ents
  | .json (some (.dict d)) => merge o d
  | .json _ => o
  | .env vars => fromArgs envPrefix vars o
  | .cmd args => fromArgs cmdPrefix args o

/-- The instance builder: its options and providers. -/
structure Builder where
  options : Ents
  providers : List Provider := []

/-- `addConfigProvider` (bld:96-101) -/
def Builder.add (b : Builder) (p : Provider) : Builder := { b with providers := b.providers ++ [p] }

/-- Setters such as `setSchedulerWorkerNum` change an entry of a dictionary of the options (bld:293-297, bld:65-68). -/
def Builder.put (b : Builder) (group name : Text) (v : Prim) : Builder :=
  match b.options.get group with
  | some (.dict m) => { b with options := b.options.set group (.dict (m.set name (.prim v))) }
  | _ => b

/-- `getOptions`: the providers are asked each time (bld:377-421). -/
def Builder.get (b : Builder) : Builder × Ents :=
  ({ b with options := b.providers.foldl populate b.options }, b.providers.foldl populate b.options)

/-- The plain value of the option with a path. -/
def look : Ents → List Text → Option Prim
  | _, [] => none
  | o, [t] => match o.get t with
    | some (.prim p) => some p
    | _ => none
  | o, t :: ts => match o.get t with
    | some (.dict m) => look m ts
    | _ => none

end Verif.Opts
