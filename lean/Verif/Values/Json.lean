import Verif.Values.Model

/-!
# JSON

Model of writing values to JSON and reading them back.

* `list` = `core/corecontainers/src/listobject_impl.cpp`
* `dict` = `core/corecontainers/src/dictobject_impl.cpp`
* `jser` = `core/coretypes/src/json_serializer_impl.cpp`
* `jde` = `core/coretypes/src/json_deserializer_impl.cpp`
* `jobj` = `core/coretypes/src/json_serialized_object.cpp`
* `jlist` = `core/coretypes/src/json_serialized_list.cpp`
* `ratio` = `core/coretypes/src/ratio_impl.cpp`
* `cplx` = `core/coretypes/src/complex_number_impl.cpp`
* `str` = `core/coretypes/src/stringobject_impl.cpp`
* `util` = `core/coretypes/src/util.cpp`
* `utils` = `core/coretypes/include/coretypes/coretype_utils.h`
* `integer` = `core/coretypes/include/coretypes/integer_impl.h`
* `float` = `core/coretypes/include/coretypes/float_impl.h`
* `boolean` = `core/coretypes/include/coretypes/boolean_impl.h`
* `optr` = `core/coretypes/include/coretypes/objectptr.h`
* `strptr` = `core/coretypes/include/coretypes/string_ptr.h`
* `base` = `core/coretypes/include/coretypes/baseobject.h`

Simplifications. The text is not modelled: rapidjson is trusted to read back the tree it wrote, except for doubles, where
the number read back from the text written for `f` is `rt f` with a parameter `rt` (rapidjson is built with the parse flag
for not-a-number and infinities only, `external/rapidjson/src/CMakeLists.txt`, so that reading may be off in the last
digits). Serializers for other types than lists, dictionaries, ratios and complex numbers are not modelled: their objects
are `obj` on the way out and `notRegistered` on the way in. No custom factory callback is given. An exception that leaves
the function is `thrown`.
-/

namespace Verif.Values

mutual
/-- A JSON value: what was written, or what was read except for the doubles. -/
inductive J where
  | null
  | bool (b : Bool)
  | int (i : Int)
  | dbl (f : Fl)
  | str (s : List UInt8)
  | arr (l : JL)
  | obj (m : JM)
  deriving DecidableEq
inductive JL where
  | nil
  | cons (j : J) (l : JL)
  deriving DecidableEq
inductive JM where
  | nil
  | cons (name : String) (j : J) (m : JM)
  deriving DecidableEq
end

def JL.toList : JL → List J
  | .nil => []
  | .cons j l => j :: l.toList

/-! ## Interface identifiers as text -/

/-- `IUnknown::Id`, which is `UnknownGuid` (base:23). -/
def unknownId : Iid := ⟨0, 0, 0, 0xC0, 0, 0, 0, 0, 0, 0, 0x46⟩

/-- A hexadecimal digit, capital letters. -/
def hexChar (n : Nat) : UInt8 := if n < 10 then UInt8.ofNat (48 + n) else UInt8.ofNat (55 + n)

/-- `k` hexadecimal digits. -/
def hexText : Nat → Nat → List UInt8
  | 0, _ => []
  | k + 1, n => hexText k (n / 16) ++ [hexChar (n % 16)]

/-- `daqInterfaceIdToString` (util:9-37). -/
def Iid.text (i : Iid) : List UInt8 :=
  [123] ++ hexText 8 i.d1.toNat ++ [45] ++ hexText 4 i.d2.toNat ++ [45] ++ hexText 4 i.d3.toNat ++ [45] ++
  hexText 2 i.b0.toNat ++ hexText 2 i.b1.toNat ++ [45] ++ hexText 2 i.b2.toNat ++ hexText 2 i.b3.toNat ++
  hexText 2 i.b4.toNat ++ hexText 2 i.b5.toNat ++ hexText 2 i.b6.toNat ++ hexText 2 i.b7.toNat ++ [125]

/-- The value of a hexadecimal digit (util:56-71). -/
def hexDigit (c : UInt8) : Option Nat :=
  if 48 ≤ c ∧ c ≤ 57 then some (c.toNat - 48)
  else if 97 ≤ c ∧ c ≤ 102 then some (c.toNat - 97 + 10)
  else if 65 ≤ c ∧ c ≤ 70 then some (c.toNat - 65 + 10)
  else none

/-- `hexStringToUint32` (util:42-82). -/
def hexNum : List UInt8 → Nat → Option Nat
  | [], r => some r
  | c :: s, r => match hexDigit c with
    | none => none
    | some d => if r > (4294967295 - d) / 16 then none else hexNum s (r * 16 + d)

/-- Read `len` digits at `pos`. -/
def hexAt (s : List UInt8) (pos len : Nat) : Option Nat := hexNum ((s.drop pos).take len) 0

/-- Run the steps until one fails; what was assigned until then stays. -/
def runSteps : List (Iid → Option Iid) → Iid → Iid × Bool
  | [], i => (i, true)
  | f :: fs, i => match f i with
    | none => (i, false)
    | some i' => runSteps fs i'

def charAt (s : List UInt8) (pos : Nat) (c : UInt8) (i : Iid) : Option Iid := if s[pos]? = some c then some i else none

/-- `daqStringToInterfaceId` (util:87-125). The identifier is assigned field by field, also when the text turns out to be
wrong further on. -/
def Iid.ofText (s : List UInt8) (i : Iid) : Iid × Bool :=
  runSteps
    [ fun i => if s.length = 38 then some i else none,
      charAt s 0 123, charAt s 37 125,
      fun i => (hexAt s 1 8).map fun n => { i with d1 := UInt32.ofNat n }, charAt s 9 45,
      fun i => (hexAt s 10 4).map fun n => { i with d2 := UInt16.ofNat n }, charAt s 14 45,
      fun i => (hexAt s 15 4).map fun n => { i with d3 := UInt16.ofNat n }, charAt s 19 45,
      fun i => (hexAt s 20 2).map fun n => { i with b0 := UInt8.ofNat n },
      fun i => (hexAt s 22 2).map fun n => { i with b1 := UInt8.ofNat n }, charAt s 24 45,
      fun i => (hexAt s 25 2).map fun n => { i with b2 := UInt8.ofNat n },
      fun i => (hexAt s 27 2).map fun n => { i with b3 := UInt8.ofNat n },
      fun i => (hexAt s 29 2).map fun n => { i with b4 := UInt8.ofNat n },
      fun i => (hexAt s 31 2).map fun n => { i with b5 := UInt8.ofNat n },
      fun i => (hexAt s 33 2).map fun n => { i with b6 := UInt8.ofNat n },
      fun i => (hexAt s 35 2).map fun n => { i with b7 := UInt8.ofNat n } ] i

/-! ## Writing -/

def tagList : List UInt8 := [76, 105, 115, 116]
def tagDict : List UInt8 := [68, 105, 99, 116]
def tagRatio : List UInt8 := [82, 97, 116, 105, 111]
def tagCplx : List UInt8 := [67, 111, 109, 112, 108, 101, 120, 78, 117, 109, 98, 101, 114]

/-- The outcome of `serialize`. -/
inductive SR (α : Type) where
  | ok (a : α)
  /-- OPENDAQ_ERR_NOT_SERIALIZABLE -/
  | notSer
  /-- success is reported, but what was written is not JSON -/
  | broken
  deriving DecidableEq

def SR.map {α β : Type} (f : α → β) : SR α → SR β
  | .ok a => .ok (f a)
  | .notSer => .notSer
  | .broken => .broken

/-- The element type, written for versions above 1 unless it is unknown (list:444-451, dict:411-430). -/
def idMember (ver : Int) (name : String) (iid : Iid) (m : JM) : JM :=
  if 1 < ver ∧ iid ≠ unknownId then .cons name (.str iid.text) m else m

/-- The frame `ListImpl::serialize` writes around the elements (list:433-487). -/
def listFrame (ver : Int) (iid : Iid) (l : JL) : J :=
  if 1 < ver then .obj (.cons "__type" (.str tagList) (idMember ver "itemIntfID" iid (.cons "values" (.arr l) .nil)))
  else .arr l

/-- The frame `DictImpl::serialize` writes around the entries (dict:405-480). -/
def dictFrame (ver : Int) (kid vid : Iid) (l : JL) : J :=
  .obj (.cons "__type" (.str tagDict) (idMember ver "keyIntfID" kid (idMember ver "valueIntfID" vid
    (.cons "values" (.arr l) .nil))))

/-- Put two outcomes together; the first error is returned. -/
def SR.pair {α β γ : Type} (f : α → β → γ) (a : SR α) (b : SR β) : SR γ :=
  match a, b with
  | .notSer, _ => .notSer
  | _, .notSer => .notSer
  | .ok a, .ok b => .ok (f a b)
  | _, _ => .broken

/-- A key: an object that cannot be serialized at all is an error (dict:440-447), but an error of `serialize` is not looked
at (dict:449). -/
def serKey (k : V) (r : SR J) : SR J :=
  match k, r with
  | .obj _, _ => .notSer
  | _, .notSer => .broken
  | _, r => r

mutual
/-- `serialize`: numbers and booleans (integer:24-31, float:37-44, boolean:50-57) are written as they are, strings with
their length (str:238-247, jser:181-193), ratios (ratio:103-116), complex numbers (cplx:162-171), lists and dictionaries.
A null element is written as `null` by the container (list:460-464, dict:453-456). -/
def ser (ver : Int) : V → SR J
  | .null => .ok .null
  | .bool _ b => .ok (.bool b)
  | .int _ i => .ok (.int i)
  | .float _ f => .ok (.dbl f)
  | .str _ s => .ok (.str (s.getD []))
  | .ratio _ n d => .ok (.obj (.cons "__type" (.str tagRatio) (.cons "num" (.int n) (.cons "den" (.int d) .nil))))
  | .cplx _ re im =>
    .ok (.obj (.cons "__type" (.str tagCplx) (.cons "real" (.dbl re) (.cons "imaginary" (.dbl im) .nil))))
  | .list _ iid xs => (serItems ver xs).map (listFrame ver iid)
  | .dict _ kid vid kvs => (serEntries ver kvs).map (dictFrame ver kid vid)
  | .obj _ => .notSer
/-- The elements (list:458-478). -/
def serItems (ver : Int) : VL → SR JL
  | .nil => .ok .nil
  | .cons x xs => .pair .cons (ser ver x) (serItems ver xs)
/-- The entries (dict:435-473). -/
def serEntries (ver : Int) : KL → SR JL
  | .nil => .ok .nil
  | .cons k v r =>
    .pair .cons (.pair (fun j j' => .obj (.cons "key" j (.cons "value" j' .nil))) (serKey k (ser ver k)) (ser ver v))
      (serEntries ver r)
end

/-! ## Reading -/

inductive Fail where
  | noType
  | unknownType
  | notFound
  | invalidType
  | notRegistered
  /-- the constructor refused the values -/
  | refused
  /-- an exception -/
  | thrown
  /-- undefined behaviour -/
  | ub
  deriving DecidableEq, Repr

/-- The number fits in 64 bits (`IsInt64` of rapidjson; `IsInt` is a special case). -/
def isInt64 (i : Int) : Bool := decide (-9223372036854775808 ≤ i) && decide (i < 9223372036854775808)

def JM.find (name : String) : JM → Option J
  | .nil => none
  | .cons n j m => if n = name then some j else m.find name

/-- The element type in a tagged object (list:504-512, dict:484-502): a member that is not a string leaves the pointer
empty, which is an exception (strptr:140-145); a text that is not an identifier is ignored. -/
def readId (name : String) (m : JM) : Except Fail Iid :=
  match m.find name with
  | none => .ok unknownId
  | some (.str s) => .ok (Iid.ofText (cstr s) unknownId).1
  | some _ => .error .thrown

/-- `JsonSerializedObject::readInt` (jobj:121-143), through the smart pointer, which throws (ratio:133-134). -/
def readIntOrThrow (name : String) (m : JM) : Except Fail Int :=
  match m.find name with
  | some (.int i) => if isInt64 i then .ok i else .error .thrown
  | _ => .error .thrown

/-- `RatioImpl::Deserialize` (ratio:130-137). -/
def readRatio (m : JM) (n : Nat) : Except Fail (V × Nat) :=
  match readIntOrThrow "num" m with
  | .error e => .error e
  | .ok num => match readIntOrThrow "den" m with
    | .error e => .error e
    | .ok den => if den = 0 then .error .refused else .ok (.ratio n num den, n + 1)

/-- `ComplexNumberImpl::Deserialize` (cplx:173-185) with `coretype_utils::read` (utils:87-99), whose result is not looked
at: a part that is missing or not a double is zero, and so is the imaginary part after a bad real part. -/
def readCplx (rt : Fl → Fl) (m : JM) (n : Nat) : V × Nat :=
  match m.find "real" with
  | some (.dbl re) => match m.find "imaginary" with
    | some (.dbl im) => (.cplx n (rt re) (rt im), n + 1)
    | _ => (.cplx n (rt re) (.fin 0), n + 1)
  | _ => (.cplx n (.fin 0) (.fin 0), n + 1)

/-- What the string `__type` says. -/
inductive Tag where
  | list
  | dict
  | ratio
  | cplx
  deriving DecidableEq

/-- `JsonDeserializerImpl::DeserializeTagged` (jde:13-59) up to the factory. -/
def readTag (m : JM) : Except Fail Tag :=
  match m.find "__type" with
  | none => .error .noType
  | some (.str s) =>
    if cstr s = tagList then .ok .list
    else if cstr s = tagDict then .ok .dict
    else if cstr s = tagRatio then .ok .ratio
    else if cstr s = tagCplx then .ok .cplx
    else .error .notRegistered
  | some _ => .error .unknownType

/-- `dict->set` while reading (dict:529), whose result is not looked at. -/
def readSet (hd : Fl → Nat) (l : KL) (k v : V) : Except Fail KL :=
  match (Dict.set hd ⟨l, false⟩ k v) with
  | (_, .crash) => .error .ub
  | (d, _) => .ok d.entries

/-- A list from its elements (list:514-524). Errors of the elements are exceptions. -/
def mkList (iid : Except Fail Iid) (r : Except Fail (VL × Nat)) : Except Fail (V × Nat) :=
  match iid with
  | .error e => .error e
  | .ok iid => match r with
    | .error .ub => .error .ub
    | .error _ => .error .thrown
    | .ok (xs, n) => .ok (.list n iid xs, n + 1)

def mkDict (kid vid : Except Fail Iid) (r : Except Fail (KL × Nat)) : Except Fail (V × Nat) :=
  match kid with
  | .error e => .error e
  | .ok kid => match vid with
    | .error e => .error e
    | .ok vid => match r with
      | .error e => .error e
      | .ok (kvs, n) => .ok (.dict n kid vid kvs, n + 1)

variable (hd : Fl → Nat) (rt : Fl → Fl)

mutual
/-- `JsonDeserializerImpl::Deserialize` (jde:83-144). New objects get the addresses from `n` on. Strings are created from
the pointer to their characters (jde:95-101), so they end at the first zero. An integer that does not
fit in 64 bits becomes a float (jde:102-121). -/
def de : J → Nat → Except Fail (V × Nat)
  | .null, n => .ok (.null, n)
  | .bool b, n => .ok (.bool n b, n + 1)
  | .int i, n => .ok (if isInt64 i then .int n i else .float n (intToFl i), n + 1)
  | .dbl f, n => .ok (.float n (rt f), n + 1)
  | .str s, n => .ok (.str n (some (cstr s)), n + 1)
  | .arr l, n => match deItems l n with
    | .error e => .error e
    | .ok (xs, n) => .ok (.list n unknownId xs, n + 1)
  | .obj m, n => match readTag m with
    | .error e => .error e
    | .ok .ratio => readRatio m n
    | .ok .cplx => .ok (readCplx rt m n)
    | .ok .list => mkList (readId "itemIntfID" m) (deValues m n)
    | .ok .dict => mkDict (readId "keyIntfID" m) (readId "valueIntfID" m) (dePairs m n)
/-- The elements of an array (jde:61-80, list:518-521). -/
def deItems : JL → Nat → Except Fail (VL × Nat)
  | .nil, n => .ok (.nil, n)
  | .cons j l, n => match de j n with
    | .error e => .error e
    | .ok (x, n) => match deItems l n with
      | .error e => .error e
      | .ok (xs, n) => .ok (.cons x xs, n)
/-- The member `values` of a list. Without it, or when it is not an array, the empty pointer throws (list:514-518, optr:1475-1481). -/
def deValues : JM → Nat → Except Fail (VL × Nat)
  | .nil, _ => .error .thrown
  | .cons name (.arr l) m, n => if name = "values" then deItems l n else deValues m n
  | .cons name _ m, n => if name = "values" then .error .thrown else deValues m n
/-- The member `values` of a dictionary (dict:504-508). -/
def dePairs : JM → Nat → Except Fail (KL × Nat)
  | .nil, _ => .error .thrown
  | .cons name (.arr l) m, n => if name = "values" then deEntries l .nil n else dePairs m n
  | .cons name _ m, n => if name = "values" then .error .thrown else dePairs m n
/-- The loop over the entries (dict:512-530). -/
def deEntries : JL → KL → Nat → Except Fail (KL × Nat)
  | .nil, acc, n => .ok (acc, n)
  | .cons j l, acc, n =>
    match j with
    | .obj m => match deMember "key" m n with
      | .error e => .error e
      | .ok (k, n) => match deMember "value" m n with
        | .error e => .error e
        | .ok (v, n) => match readSet hd acc k v with
          | .error e => .error e
          | .ok acc => deEntries l acc n
    | .null => .error .thrown
    | _ => .error .invalidType
/-- `JsonSerializedObject::readObject` (jobj:76-85). -/
def deMember (name : String) : JM → Nat → Except Fail (V × Nat)
  | .nil, _ => .error .notFound
  | .cons n' j m, n => if n' = name then de j n else deMember name m n
end

/-! ## Reading a list element by element -/

/-- A `JsonSerializedList`: the elements and the position. -/
structure Reader where
  items : List J
  index : Nat

inductive ROp where
  | object
  | string
  | bool
  | int
  | float
  | list
  | serializedObject
  | serializedList
  | count

inductive ROut where
  | val (v : V)
  | str (s : List UInt8)
  | bool (b : Bool)
  | int (i : Int)
  | float (f : Fl)
  | members (m : JM)
  | elements (l : JL)
  | num (n : Nat)
  /-- success with a null pointer -/
  | null
  | outOfRange
  | invalidType
  | failed (e : Fail)
  deriving DecidableEq

/-- The number fits in 32 bits (`IsInt` of rapidjson). -/
def isInt32 (i : Int) : Bool := decide (-2147483648 ≤ i) && decide (i < 2147483648)

def Reader.next (r : Reader) : Reader := { r with index := r.index + 1 }

def readVal (r : Except Fail (V × Nat)) : ROut :=
  match r with
  | .ok (v, _) => .val v
  | .error e => .failed e

/-- The calls on a serialized list (jlist:14-202). New objects get the addresses from `n` on. -/
def Reader.step (n : Nat) (r : Reader) (o : ROp) : Reader × ROut :=
  match o with
  | .count => (r, .num r.items.length)
  | o =>
    match r.items[r.index]? with
    | none => (r, .outOfRange)
    | some j =>
      match o, j with
      | .object, j => (r.next, readVal (de hd rt j n))
      | .string, .str s => (r.next, .str (cstr s))
      | .string, .null => (r, .null)
      | .bool, .bool b => (r.next, .bool b)
      | .int, .int i => if isInt32 i then (r.next, .int i) else (r, .invalidType)
      | .float, .dbl f => (r.next, .float (rt f))
      | .list, .arr l => (r.next, readVal (de hd rt (.arr l) n))
      | .list, .null => (r, .null)
      | .serializedObject, .obj m => (r.next, .members m)
      | .serializedObject, .null => (r, .null)
      | .serializedList, .arr l => (r.next, .elements l)
      | _, _ => (r, .invalidType)

end Verif.Values
