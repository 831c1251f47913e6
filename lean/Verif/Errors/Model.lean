/-!
# Error information

Failing calls of openDAQ return a code and leave an error information behind in a place that belongs to the
calling thread.  The place holds scopes: error guards created by the user, and one scope the place makes itself
when an error is recorded while no guard exists (the sentinel).  Wrappers read the information back and turn it
into an exception.

* `err` = `core/coretypes/src/errorinfo_impl.cpp`
* `ctu` = `core/coretypes/include/coretypes/ctutils.h`
* `exc` = `core/coretypes/include/coretypes/exceptions.h`
* `bbx` = `core/coretypes/include/coretypes/bb_exception.h`
* `e2x` = `core/coretypes/include/coretypes/error_code_to_exception.h`
* `cod` = `core/coretypes/include/coretypes/errors.h`

Simplifications: error informations are values instead of shared objects (a recorded one is frozen, so that only
its cached text can change, and a frozen information always formats to the same text); scopes carry numbers
instead of addresses; both the scopes and the errors of a scope are listed from the newest to the oldest, in
the code they are listed from the oldest to the newest; memory never runs out; texts hold no zero character;
messages with `printf` parameters are taken as already formatted.
-/

namespace Verif.Errors

/-- A text. -/
abbrev Text := List Char

/-- `OPENDAQ_SUCCESS` (cod:33). -/
def success : Nat := 0
/-- `OPENDAQ_IGNORED` (cod:39). -/
def ignored : Nat := 6
/-- `OPENDAQ_ERR_GENERALERROR` (cod:25, 80). -/
def general : Nat := 0x80000014
/-- `OPENDAQ_ERR_FROZEN` (cod:25, 83). -/
def frozenCode : Nat := 0x80000017

/-- `OPENDAQ_FAILED` (cod:28). -/
def failed (c : Nat) : Bool := c.testBit 31

/-- How the library was built, and what has been registered. -/
structure Env where
  /-- `NDEBUG` is not defined -/
  debug : Bool
  /-- the default message of the exception registered for a code (e2x:60-63, exc:27-34) -/
  registered : Nat → Option Text
  /-- the message of the exception of the formatting library -/
  fmtError : Text

/-- `ErrorInfoImpl` (err:447-458). -/
structure Info where
  message : Option Text
  source : Option Text
  file : Option Text
  line : Int
  code : Nat
  prev : Nat
  frozen : Bool
  cached : Option Text
  deriving DecidableEq, Repr

/-- The constructor (err:447-458). -/
def Info.empty : Info := ⟨none, none, none, -1, general, success, false, none⟩

/-- `ErrorInfoImpl::setMessage` (err:473-483). -/
def Info.setMessage (i : Info) (m : Option Text) : Info × Nat :=
  if i.frozen then (i, frozenCode) else ({ i with message := m }, success)

/-- `ErrorInfoImpl::setSource` (err:496-506). -/
def Info.setSource (i : Info) (m : Option Text) : Info × Nat :=
  if i.frozen then (i, frozenCode) else ({ i with source := m }, success)

/-- `ErrorInfoImpl::setFileName` (err:519-529). -/
def Info.setFile (i : Info) (f : Option Text) : Info × Nat :=
  if i.frozen then (i, frozenCode) else ({ i with file := f }, success)

/-- `ErrorInfoImpl::setFileLine` (err:541-548). -/
def Info.setLine (i : Info) (l : Int) : Info × Nat :=
  if i.frozen then (i, frozenCode) else ({ i with line := l }, success)

/-- `ErrorInfoImpl::setErrorCode` (err:559-566). -/
def Info.setCode (i : Info) (c : Nat) : Info × Nat :=
  if i.frozen then (i, frozenCode) else ({ i with code := c }, success)

/-- `ErrorInfoImpl::setPreviousErrorCode` (err:577-584). -/
def Info.setPrev (i : Info) (c : Nat) : Info × Nat :=
  if i.frozen then (i, frozenCode) else ({ i with prev := c }, success)

/-- `ErrorInfoImpl::freeze` (err:659-666). -/
def Info.freeze (i : Info) : Info := { i with frozen := true }

/-- `ErrorCodeMessage` (ctu:170-181). -/
def codeMessage (env : Env) (c : Nat) : Text :=
  match env.registered c with
  | some (x :: m) => x :: m
  | _ => "Error code: 0x".toList ++ (Nat.toDigits 16 c).map Char.toUpper

/-- The part of a text that names the place of an error (err:631-637). -/
def place (space : Bool) (file : Text) (line : Int) : Text :=
  (if space then " [ ".toList else "[ ".toList) ++ file
    ++ (if line = -1 then [] else ':' :: (toString line).toList) ++ " ]".toList

/-- The text `ErrorInfoImpl::getFormattedMessage` composes (err:607-640). -/
def Info.compose (env : Env) (i : Info) : Text :=
  (if i.prev = success then [] else " - Caused by: ".toList)
    ++ (match i.message with
        | some m => m
        | none => if i.prev = i.code then [] else codeMessage env i.code)
    ++ (if env.debug then
          match i.file with
          | some f => place (i.message.isSome || i.prev ≠ i.code) f i.line
          | none => []
        else [])

/-- `ErrorInfoImpl::getFormattedMessage` (err:595-648). -/
def Info.formatted (env : Env) (i : Info) : Text × Info :=
  match i.cached with
  | some m => (m, i)
  | none => (i.compose env, { i with cached := some (i.compose env) })

/-- What a serialized error information holds (err:668-710). -/
structure Ser where
  message : Option Text
  source : Option Text
  file : Option Text
  line : Option Int
  deriving DecidableEq, Repr

/-- `ErrorInfoImpl::serialize` (err:668-710). -/
def Info.serialize (i : Info) : Ser :=
  ⟨i.message, i.source, if i.file = some [] then none else i.file, if i.line = -1 then none else some i.line⟩

/-- `ErrorInfoImpl::Deserialize` (err:726-820). -/
def deserialize (s : Ser) : Info :=
  { Info.empty with message := s.message, source := s.source, file := s.file, line := s.line.getD (-1) }

/-- `ErrorGuardImpl`: a scope (err:221-231). -/
structure Scope where
  id : Nat
  file : Option Text
  line : Int
  infos : List Info
  deriving DecidableEq, Repr

/-- The error and the errors it was raised from, down to one that was not raised from another
(err:264-273). -/
def chain : List Info → List Info
  | [] => []
  | i :: r => if i.prev = success then [i] else i :: chain r

/-- Joins lines (err:275-293). -/
def lines : List Text → Text
  | [] => []
  | [l] => l
  | l :: r => l ++ '\n' :: lines r

/-- `ErrorGuardImpl::getFormattedMessage`, debug build, for a scope with errors (err:264-308). -/
def debugMessage (env : Env) (s : Scope) : Text :=
  lines ((chain s.infos).reverse.map fun i => (i.formatted env).1)
    ++ (match s.file with
        | some f => "\n - Caused by: [ ".toList ++ f ++ (if s.line = -1 then [] else ':' :: (toString s.line).toList) ++ " ]".toList
        | none => [])

/-- `ErrorGuardImpl::getFormattedMessage`, release build, for a scope with errors (err:320-342). -/
def releaseMessage (env : Env) (c : Nat) : List Info → Option Text × Nat
  | [] => (none, ignored)
  | i :: r =>
    match i.message with
    | some m => (some m, c)
    | none => if i.prev = c then releaseMessage env c r else (some (codeMessage env c), c)

/-- `ErrorGuardImpl::getFormattedMessage` (err:254-343). -/
def Scope.message (env : Env) (s : Scope) : Option Text × Nat :=
  match s.infos with
  | [] => (none, success)
  | i :: _ => if env.debug then (some (debugMessage env s), i.code) else releaseMessage env i.code s.infos

/-- `ErrorGuardImpl::getLastErrorInfo` (err:359-393). -/
def Scope.last (env : Env) (s : Scope) : Option Info × Nat :=
  match s.infos with
  | [] => (none, success)
  | i :: _ =>
    if i.prev = success then (some i, i.code)
    else
      match (s.message env).1 with
      | none => (none, i.code)
      | some m => (some { Info.empty with code := i.code, message := some m }, i.code)

/-- `ErrorGuardImpl::clearLastErrorInfo` (err:420-438). -/
def clearLast : List Info → Nat → List Info × Nat
  | [], c => ([], c)
  | i :: r, _ => if i.prev = success then (r, i.code) else clearLast r i.code

/-- `ErrorInfoHolder`: what a thread keeps (err:58-75).  The list is `none` when there is none. -/
structure Holder where
  list : Option (List Scope)
  sentinel : Option Nat
  next : Nat
  deriving DecidableEq, Repr

/-- A thread starts with nothing. -/
def init : Holder := ⟨none, none, 0⟩

/-- `ErrorInfoHolder::currentScope` (err:77-82). -/
def current (h : Holder) : Option Scope := h.list.bind List.head?

/-- `ErrorInfoHolder::setScopeEntry`, called by the constructor of a guard (err:172-180, 221-226). -/
def enter (h : Holder) (file : Option Text) (line : Int) : Holder :=
  { h with list := some (⟨h.next, file, line, []⟩ :: h.list.getD []), next := h.next + 1 }

/-- `ErrorInfoHolder::removeScopeEntry`, called by the destructor of a guard (err:182-217, 228-231). -/
def leave (h : Holder) (id : Nat) : Holder :=
  match h.list with
  | none => h
  | some l =>
    let l' := l.eraseP fun s => s.id == id
    { h with list := if l' = [] then none else some l' }

/-- `ErrorInfoHolder::getOrCreateBack` (err:84-96). -/
def back (h : Holder) : Holder :=
  if (current h).isNone then { enter h none (-1) with sentinel := some h.next } else h

/-- Changes the errors of the innermost scope. -/
def edit (h : Holder) (f : List Info → List Info) : Holder :=
  match h.list with
  | some (s :: r) => { h with list := some ({ s with infos := f s.infos } :: r) }
  | _ => h

/-- `ErrorInfoHolder::removeInitialGuard` (err:98-108). -/
def dropSentinel (h : Holder) : Holder :=
  match h.sentinel with
  | none => h
  | some id => leave { h with sentinel := none } id

/-- `daqSetErrorInfo` (err:110-114, 395-399, 838-848). -/
def record (h : Holder) (i : Info) : Holder :=
  edit (back h) fun l => i.freeze :: l

/-- `daqExtendErrorInfo` (err:116-120, 401-418, 850-860); `true` when it throws `std::runtime_error`. -/
def extend (h : Holder) (i : Info) : Holder × Bool :=
  match (current (back h)).map Scope.infos with
  | some (j :: _) => if j.code = i.prev then (edit (back h) fun l => i.freeze :: l, false) else (back h, true)
  | _ => (back h, true)

/-- `daqClearErrorInfo` (err:122-134, 884-888). -/
def clear (h : Holder) : Holder × Nat :=
  match current h with
  | none => (h, success)
  | some s =>
    let (r, c) := clearLast s.infos success
    let h' := edit h fun _ => r
    (if h.sentinel = some s.id ∧ r = [] then dropSentinel h' else h', c)

/-- `daqGetErrorInfo` (err:136-142, 862-867): the first component is `none` when the caller's variable is not
written. -/
def getInfo (env : Env) (h : Holder) : Option (Option Info) × Nat :=
  match current h with
  | some s => (some (s.last env).1, (s.last env).2)
  | none => (none, success)

/-- `daqGetErrorInfoList` (err:144-160, 233-252, 869-874): the errors from the oldest to the newest, `none` when
there are none. -/
def getList (h : Holder) : Holder × Option (List Info) :=
  match current h with
  | none => (h, none)
  | some s =>
    (if h.sentinel = some s.id then dropSentinel h else h, if s.infos = [] then none else some s.infos.reverse)

/-- `daqGetErrorInfoMessage` (err:162-170, 876-882): the first component is `none` when the caller's variable is
not written. -/
def getMessage (env : Env) (h : Holder) : Option (Option Text) × Nat :=
  match current h with
  | some s => (some (s.message env).1, (s.message env).2)
  | none => (none, success)

/-- `createErrorInfoObjectWithSource` followed by the setters (ctu:96-168, 292-304, 318-332): a new error. -/
def newInfo (env : Env) (code prev : Nat) (msg : Text) (file : Option Text) (line : Int) : Info :=
  { Info.empty with
    message := if msg = [] then none else some msg
    file := if env.debug then file else none
    line := if env.debug then line else -1
    code := code
    prev := prev }

/-- `DAQ_MAKE_ERROR_INFO` (ctu:292-342): records an error and returns its code. -/
def make (env : Env) (code : Nat) (msg : Text) (file : Option Text) (line : Int) (h : Holder) : Holder × Nat :=
  (record h (newInfo env code success msg file line), code)

/-- An exception: one that carries a code, or another one. -/
inductive Exc where
  | daq (code : Nat) (msg : Text)
  | std (msg : Text)
  deriving DecidableEq, Repr

/-- `errorFromException` (ctu:440-462): what an interface function does with an exception. -/
def fromException (env : Env) (e : Exc) (file : Option Text) (line : Int) (h : Holder) : Holder × Nat :=
  match e with
  | .daq c m => make env c m file line h
  | .std m => make env general m file line h

/-- `fmt::format` of a text without arguments; `none` when it throws.  Two equal braces stand for one, a single
brace is an error. -/
def fmtText : Text → Option Text
  | [] => some []
  | '{' :: '{' :: r => (fmtText r).map ('{' :: ·)
  | '}' :: '}' :: r => (fmtText r).map ('}' :: ·)
  | '{' :: _ => none
  | '}' :: _ => none
  | c :: r => (fmtText r).map (c :: ·)

/-- `throwExceptionFromErrorCode` (exc:153-160, e2x:46-53, 69-72, bbx:27-30). -/
def throwFrom (env : Env) (c : Nat) (msg : Text) : Exc :=
  match env.registered c, msg with
  | some d, [] => .daq c d
  | _, m =>
    match fmtText m with
    | some t => .daq c t
    | none => .std env.fmtError

/-- `getErrorInfoMessage` with clearing (ctu:183-207). -/
def takeMessage (env : Env) (c : Nat) (h : Holder) : Holder × Text :=
  match getMessage env h with
  | (some (some m), err) => if err = c then ((clear h).1, m) else (h, [])
  | _ => (h, [])

/-- `checkErrorInfo` (ctu:209-215): the exception it throws. -/
def check (env : Env) (c : Nat) (h : Holder) : Holder × Option Exc :=
  if failed c then ((takeMessage env c h).1, some (throwFrom env c (takeMessage env c h).2)) else (h, none)

/-- What `OPENDAQ_RETURN_IF_FAILED` does. -/
inductive Flow where
  | goOn
  | ret (code : Nat)
  | throws
  deriving DecidableEq, Repr

/-- `OPENDAQ_RETURN_IF_FAILED` (ctu:344-420, 432-438); `msg` is `none` when the macro has no message. -/
def returnIfFailed (env : Env) (c : Nat) (msg : Option Text) (file : Option Text) (line : Int) (h : Holder) :
    Holder × Flow :=
  if failed c then
    if !env.debug && msg.isNone then (h, .ret c)
    else
      let (h', thrown) := extend h (newInfo env c c (msg.getD []) file line)
      (h', if thrown then .throws else .ret c)
  else (h, .goOn)

/-- What a thread can do with its errors. -/
inductive Op where
  /-- creates a guard -/
  | enter (file : Option Text) (line : Int)
  /-- releases a guard -/
  | leave (id : Nat)
  | record (i : Info)
  | extend (i : Info)
  | clear
  | list

/-- One step.  The sentinel belongs to the holder, so that the user cannot release it. -/
def step (h : Holder) : Op → Holder
  | .enter f l => Errors.enter h f l
  | .leave id => if h.sentinel = some id then h else Errors.leave h id
  | .record i => Errors.record h i
  | .extend i => (Errors.extend h i).1
  | .clear => (Errors.clear h).1
  | .list => (getList h).1

/-- Steps. -/
def steps (h : Holder) (ops : List Op) : Holder := ops.foldl step h

/-- A block of code: what it does with errors, with the guards it holds while doing some of it.  A block that is
left by an exception behaves like the block cut short there. -/
inductive Block where
  | done
  | record (i : Info) (rest : Block)
  | extend (i : Info) (rest : Block)
  | clear (rest : Block)
  | list (rest : Block)
  | guarded (file : Option Text) (line : Int) (body rest : Block)

/-- Runs a block: a guard is created before its body and released after it (err:221-231). -/
def run : Block → Holder → Holder
  | .done, h => h
  | .record i r, h => run r (Errors.record h i)
  | .extend i r, h => run r (Errors.extend h i).1
  | .clear r, h => run r (Errors.clear h).1
  | .list r, h => run r (getList h).1
  | .guarded f l b r, h => run r (Errors.leave (run b (Errors.enter h f l)) h.next)

end Verif.Errors
