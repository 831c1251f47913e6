import Mathlib.Data.List.Basic

/-!
# Log files of devices

A device lists its log files and hands out parts of them.  The descriptions of the files are built, sent as
serialized objects and built again on the other side.

* `fi` = `core/opendaq/device/src/log_file_info_impl.cpp`
* `fb` = `core/opendaq/device/src/log_file_info_builder_impl.cpp`
* `dv` = `core/opendaq/device/include/opendaq/device_impl.h`
* `rd` = `examples/modules/ref_device_module/src/ref_device_impl.cpp`
-/

namespace Verif.Files

abbrev Str := List Char

/-- What a builder was given; strings may be unassigned (fb:8-115). -/
structure Builder where
  name : Option Str := none
  localPath : Option Str := none
  id : Option Str := none
  description : Option Str := none
  encoding : Option Str := none
  size : Nat := 0
  lastModified : Option Str := none
  deriving DecidableEq, Repr

/-- A description of a log file. -/
structure Info where
  name : Str
  localPath : Option Str
  id : Str
  description : Option Str
  encoding : Option Str
  size : Nat
  lastModified : Str
  deriving DecidableEq, Repr

/-- The path and the name with a slash between, or the name alone (fi:31-34). -/
def defaultId (localPath : Option Str) (name : Str) : Str :=
  match localPath with
  | some p => p ++ '/' :: name
  | none => name

/-- `LogFileInfoImpl` from a builder (fi:9-38): when there is an id, nothing after it is done, so that an
encoding that is not assigned stays so. -/
def build (b : Builder) : Option Info :=
  match b.name, b.lastModified with
  | some (c :: n), some (d :: m) =>
    match b.id with
    | some (e :: i) => some ⟨c :: n, b.localPath, e :: i, b.description, b.encoding, b.size, d :: m⟩
    | _ => some ⟨c :: n, b.localPath, defaultId b.localPath (c :: n), b.description,
        some (b.encoding.getD []), b.size, d :: m⟩
  | _, _ => none

/-- A serialized value. -/
inductive Val
  | str (s : Str)
  | int (n : Int)
  deriving DecidableEq, Repr

abbrev Json := List (String × Val)

/-- A 64-bit number as a signed one. -/
def signed (n : Nat) : Int := if n < 2 ^ 63 then n else (n : Int) - 2 ^ 64

/-- A signed number as a 64-bit one. -/
def unsigned (i : Int) : Nat := (i % 2 ^ 64).toNat

/-- `serialize` (fi:100-134): the characters of a string that is not assigned cannot be got, which throws
an exception. -/
def serialize (i : Info) : Option Json :=
  match i.encoding with
  | none => none
  | some e =>
    some ([("name", .str i.name)]
      ++ (match i.localPath with | some p => [("localPath", .str p)] | none => [])
      ++ [("id", .str i.id), ("encoding", .str e)]
      ++ (match i.description with | some d => [("description", .str d)] | none => [])
      ++ [("size", .int (signed i.size)), ("lastModified", .str i.lastModified)])

/-- `hasKey`, and reading a value. -/
def field (j : Json) (k : String) : Option Val := (j.find? fun x => x.1 = k).map Prod.snd

/-- `readString`. -/
def readStr (j : Json) (k : String) : Option Str :=
  match field j k with
  | some (.str s) => some s
  | _ => none

/-- `readInt`. -/
def readInt (j : Json) (k : String) : Option Int :=
  match field j k with
  | some (.int n) => some n
  | _ => none

/-- A string that may be missing, but not of another type: nothing if it fails, else the string if there is
one. -/
def readOpt (j : Json) (k : String) : Option (Option Str) :=
  match field j k with
  | none => some none
  | some (.str s) => some (some s)
  | some (.int _) => none

/-- `Deserialize` (fi:136-192). -/
def deserialize (j : Json) : Option Info := do
  let name ← readStr j "name"
  let encoding ← readStr j "encoding"
  let localPath ← readOpt j "localPath"
  let id ← readStr j "id"
  let description ← readOpt j "description"
  let size ← readInt j "size"
  let lastModified ← readStr j "lastModified"
  build ⟨some name, localPath, some id, description, some encoding, unsigned size, some lastModified⟩

/-- The reference device: whether it logs, the path of its log file, and the bytes of the file if there is
one. -/
structure Device where
  enabled : Bool
  path : Str
  file : Option (List Nat)
  deriving DecidableEq, Repr

/-- What `getLog` answers. -/
inductive Answer
  | invalid
  | bytes (l : List Nat)
  deriving DecidableEq, Repr

/-- The last part of a path. -/
def fileName (p : Str) : Str := (p.reverse.takeWhile (· ≠ '/')).reverse

/-- `onGetLogFileInfos` (rd:516-552) at a time. -/
def Device.infos (d : Device) (time : Str) : List Info :=
  if d.enabled then
    match d.file with
    | none => []
    | some f => (build { name := some (fileName d.path), id := some d.path,
                         description := some "Log file for the reference device".toList, size := f.length,
                         encoding := some "utf-8".toList, lastModified := some time }).toList
  else []

/-- The stream reads the bytes at hand into a buffer of `n` zeros (rd:581-582); all of the buffer is handed out. -/
def buffer (n : Nat) (l : List Nat) : List Nat := l.take n ++ List.replicate (n - l.length) 0

/-- `onGetLog` (rd:554-586). -/
def Device.onGetLog (d : Device) (i : Str) (size offset : Int) : List Nat :=
  if !d.enabled then []
  else if i ≠ d.path then []
  else match d.file with
    | none => []
    | some f =>
      if (f.length : Int) ≤ offset then []
      else
        let rest := (f.length : Int) - offset
        let n := if size = -1 then rest else min size rest
        buffer n.toNat (f.drop offset.toNat)

/-- `getLog` (dv:1066-1084). -/
def Device.getLog (d : Device) (i : Str) (size offset : Int) : Answer :=
  if offset < 0 then .invalid
  else if size < -1 then .invalid
  else .bytes (d.onGetLog i size offset)

/-- The device writes to its log file, and makes it if there is none. -/
def Device.write (d : Device) (bs : List Nat) : Device := { d with file := some (d.file.getD [] ++ bs) }

/-- A client gets the log in pieces, each from the end of those before, while the device goes on writing. -/
def Device.fetch (d : Device) (got : List Nat) : List (List Nat × Int) → Device × List Nat
  | [] => (d, got)
  | (bs, size) :: plan =>
    let d' := d.write bs
    match d'.getLog d'.path size got.length with
    | .invalid => d'.fetch got plan
    | .bytes l => d'.fetch (got ++ l) plan

end Verif.Files
