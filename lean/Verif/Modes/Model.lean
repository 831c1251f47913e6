/-!
# Operation modes

How a device and the components in it enter an operation mode, what becomes of the devices below,
and what components that are added later are told.

* `cmp` = `core/opendaq/component/include/opendaq/component_impl.h`
* `fld` = `core/opendaq/component/include/opendaq/folder_impl.h`
* `sgc` = `core/opendaq/signal/include/opendaq/signal_container_impl.h`
* `dev` = `core/opendaq/device/include/opendaq/device_impl.h`
* `cmh` = `core/opendaq/component/include/opendaq/component.h`

A component has its parent from its creation on, and becomes one of the items of its parent later;
in the model it is a child from its creation on, and `attached` when it is an item.  Items are
visited in the order of their creation (in the code: in the order in which they were added).  Locks
are left out, and so is muting: events are given as if they were enabled.
-/

namespace Verif.Modes

/-- The modes.  cmh:43-49 -/
inductive Mode where
  | unknown | idle | operation | safe
  deriving DecidableEq, Repr

/-- What a component is: a folder, the folder in which a device keeps its sub-devices, a device with
the modes it offers and the one it begins with, or anything else. -/
inductive Kind where
  | plain | folder | devices | device (avail : List Mode) (dflt : Mode)
  deriving DecidableEq, Repr

/-- A component.  `mode` is that of a device; `told` is what its handler was last called with;
`refuses` are the modes with which the handler fails. -/
structure Info where
  tag : Nat
  kind : Kind
  attached : Bool
  mode : Mode
  told : Option Mode
  refuses : List Mode
  deriving DecidableEq, Repr

mutual
/-- A component and all for which it is the parent. -/
inductive Comp where
  | mk (i : Info) (kids : Kids)
/-- Components in a row. -/
inductive Kids where
  | nil
  | cons (c : Comp) (l : Kids)
end

/-- The component itself. -/
def Comp.info : Comp → Info
  | .mk i _ => i

/-- Its children. -/
def Comp.kids : Comp → Kids
  | .mk _ l => l

/-- The child with a number. -/
def Kids.get : Kids → Nat → Option Comp
  | .nil, _ => none
  | .cons c _, 0 => some c
  | .cons _ l, k + 1 => l.get k

/-- What can be seen: the handler of a component was called and did not fail; the event that a
device changed its mode. -/
inductive Ev where
  | told (tag : Nat) (m : Mode)
  | changed (tag : Nat) (m : Mode)
  deriving DecidableEq, Repr

/-- How a call ends. -/
inductive Code where
  | ok | ignored | failed
  deriving DecidableEq, Repr

/-- What a call leaves behind. -/
structure Res (α : Type) where
  val : α
  code : Code
  evs : List Ev

/-- A device enters a mode.  dev:1178-1195 -/
def enter (i : Info) (m : Mode) : Res Info :=
  if m ∈ i.refuses then ⟨i, .failed, []⟩
  else ⟨{ i with mode := m, told := some m }, .ok, [.told i.tag m, .changed i.tag m]⟩

mutual
/-- `updateOperationMode`: a device enters the mode it begins with, whatever it is told, and passes
nothing on; other components pass the mode on to their items.
dev:1198-1203, cmp:870-876, fld:577-595, sgc:780-796 -/
def tell : Comp → Mode → Res Comp
  | .mk i kids, m =>
    match i.kind with
    | .device _ d => ⟨.mk (enter i d).val kids, (enter i d).code, (enter i d).evs⟩
    | _ =>
      if m ∈ i.refuses then ⟨.mk i kids, .failed, []⟩
      else ⟨.mk { i with told := some m } (tellAll kids m).val, (tellAll kids m).code,
        .told i.tag m :: (tellAll kids m).evs⟩
/-- The items, one after the other, up to one that fails.  fld:582-592, sgc:785-793 -/
def tellAll : Kids → Mode → Res Kids
  | .nil, _ => ⟨.nil, .ok, []⟩
  | .cons c l, m =>
    if c.info.attached then
      if (tell c m).code = .failed then ⟨.cons (tell c m).val l, .failed, (tell c m).evs⟩
      else ⟨.cons (tell c m).val (tellAll l m).val, (tellAll l m).code,
        (tell c m).evs ++ (tellAll l m).evs⟩
    else ⟨.cons c (tellAll l m).val, (tellAll l m).code, (tellAll l m).evs⟩
end

/-- The components of a device except the folder of its sub-devices.  dev:1224-1235 -/
def setAll : Kids → Mode → Res Kids
  | .nil, _ => ⟨.nil, .ok, []⟩
  | .cons c l, m =>
    if c.info.attached ∧ c.info.kind ≠ .devices then
      if (tell c m).code = .failed then ⟨.cons (tell c m).val l, .failed, (tell c m).evs⟩
      else ⟨.cons (tell c m).val (setAll l m).val, (setAll l m).code,
        (tell c m).evs ++ (setAll l m).evs⟩
    else ⟨.cons c (setAll l m).val, (setAll l m).code, (setAll l m).evs⟩

/-- `setOperationMode`.  dev:1214-1238 -/
def setMode : Comp → Mode → Res Comp
  | .mk i kids, m =>
    match i.kind with
    | .device avail _ =>
      if m ∉ avail then ⟨.mk i kids, .ignored, []⟩
      else if (enter i m).code = .failed then ⟨.mk i kids, .failed, []⟩
      else ⟨.mk (enter i m).val (setAll kids m).val, (setAll kids m).code,
        (enter i m).evs ++ (setAll kids m).evs⟩
    | _ => ⟨.mk i kids, .ignored, []⟩

/-- The same call for each item, up to one that fails. -/
def Kids.each (f : Comp → Res Comp) : Kids → Res Kids
  | .nil => ⟨.nil, .ok, []⟩
  | .cons c l =>
    if c.info.attached then
      if (f c).code = .failed then ⟨.cons (f c).val l, .failed, (f c).evs⟩
      else ⟨.cons (f c).val (l.each f).val, (l.each f).code, (f c).evs ++ (l.each f).evs⟩
    else ⟨.cons c (l.each f).val, (l.each f).code, (l.each f).evs⟩

/-- The same call for each device in the folder of the sub-devices. -/
def Kids.subs (f : Comp → Res Comp) : Kids → Res Kids
  | .nil => ⟨.nil, .ok, []⟩
  | .cons c l =>
    if c.info.attached ∧ c.info.kind = .devices then
      if (c.kids.each f).code = .failed then
        ⟨.cons (.mk c.info (c.kids.each f).val) l, .failed, (c.kids.each f).evs⟩
      else ⟨.cons (.mk c.info (c.kids.each f).val) (l.subs f).val, (l.subs f).code,
        (c.kids.each f).evs ++ (l.subs f).evs⟩
    else ⟨.cons c (l.subs f).val, (l.subs f).code, (l.subs f).evs⟩

mutual
/-- How deep the tree is. -/
def Comp.depth : Comp → Nat
  | .mk _ kids => kids.depth + 1
def Kids.depth : Kids → Nat
  | .nil => 0
  | .cons c l => max c.depth l.depth
end

/-- `setOperationModeRecursive`, for devices that are nested at most `n` levels deep.  A mode that
the device does not offer is no failure.  dev:1241-1252 -/
def setRec : Nat → Comp → Mode → Res Comp
  | 0, c, _ => ⟨c, .ignored, []⟩
  | n + 1, c, m =>
    if (setMode c m).code = .failed then setMode c m
    else
      ⟨.mk (setMode c m).val.info ((setMode c m).val.kids.subs (setRec n · m)).val,
        ((setMode c m).val.kids.subs (setRec n · m)).code,
        (setMode c m).evs ++ ((setMode c m).val.kids.subs (setRec n · m)).evs⟩

/-- `setOperationModeRecursive`; only devices have it. -/
def setRecursive (c : Comp) (m : Mode) : Res Comp :=
  match c.info.kind with
  | .device _ _ => setRec c.depth c m
  | _ => ⟨c, .ignored, []⟩

/-- `getOperationMode` of the component at the end of a path: that of the device closest to it; `up`
is that of the device closest to `c`.  dev:1255-1260, cmp:800-811 -/
def modeAt (c : Comp) (p : List Nat) (up : Option Mode) : Option Mode :=
  let here := match c.info.kind with
    | .device _ _ => some c.info.mode
    | _ => up
  match p with
  | [] => here
  | k :: p =>
    match c.kids.get k with
    | some kid => modeAt kid p here
    | none => none
termination_by structural p

/-- The component at the end of a path. -/
def Comp.at (c : Comp) : List Nat → Option Comp
  | [] => some c
  | k :: p =>
    match c.kids.get k with
    | some kid => kid.at p
    | none => none

/-- Changing one of the children. -/
def Kids.modify (f : Comp → Comp) : Kids → Nat → Kids
  | .nil, _ => .nil
  | .cons c l, 0 => .cons (f c) l
  | .cons c l, k + 1 => .cons c (l.modify f k)

/-- Changing the component at the end of a path. -/
def Comp.modify (f : Comp → Comp) : Comp → List Nat → Comp
  | c, [] => f c
  | c, k :: p => .mk c.info (c.kids.modify (fun kid => kid.modify f p) k)

/-- One more child. -/
def Kids.snoc : Kids → Comp → Kids
  | .nil, c => .cons c .nil
  | .cons d l, c => .cons d (l.snoc c)

/-- A component as it is created. -/
def fresh (tag : Nat) (k : Kind) (attached : Bool) (refuses : List Mode) : Info :=
  { tag, kind := k, attached, mode := .unknown, told := none, refuses }

/-- `n` folders that a component has from the beginning. -/
def folders (tag : Nat) : Nat → Kids
  | 0 => .nil
  | n + 1 => .cons (.mk (fresh tag .folder true []) .nil) (folders (tag + 1) n)

/-- A component as it is created: a device has a folder for sub-devices, and all may have further
folders.  dev:296-317 -/
def create (tag : Nat) (k : Kind) (n : Nat) (refuses : List Mode) : Comp :=
  .mk (fresh tag k false refuses)
    (match k with
      | .device _ _ => .cons (.mk (fresh (tag + 1) .devices true []) .nil) (folders (tag + 2) n)
      | _ => folders (tag + 1) n)

/-- A component becomes an item of its parent: if there is a device above, it is told the mode of
that device, and whatever comes of it is ignored.  fld:202-214, fld:229-261 -/
def attach (up : Option Mode) (c : Comp) : Comp :=
  let c' := Comp.mk { c.info with attached := true } c.kids
  match up with
  | some m => (tell c' m).val
  | none => c'

/-- What users do. -/
inductive Op where
  | create (p : List Nat) (k : Kind) (n : Nat) (refuses : List Mode)
  | add (p : List Nat) (k : Nat)
  | remove (p : List Nat) (k : Nat)
  | set (p : List Nat) (m : Mode)
  | setRec (p : List Nat) (m : Mode)
  | asRoot

/-- The tree, and the number of the next component. -/
structure World where
  root : Comp
  next : Nat

/-- Becoming the root enters the mode to begin with; a failure is ignored.  dev:363-372 -/
def asRoot : Comp → Comp
  | .mk i kids =>
    match i.kind with
    | .device _ d => .mk (enter i d).val kids
    | _ => .mk i kids

/-- Whether a component can become an item of a folder of this kind.  fld:466-470 -/
def fits (folder item : Kind) : Bool :=
  match folder, item with
  | .folder, _ => true
  | .devices, .device _ _ => true
  | _, _ => false

/-- One step; what does not make sense does nothing. -/
def World.step (w : World) : Op → World
  | .create p k n refuses =>
    { root := w.root.modify (fun c => .mk c.info (c.kids.snoc (create w.next k n refuses))) p
      next := w.next + n + 2 }
  | .add p k =>
    match w.root.at p, w.root.at (p ++ [k]) with
    | some f, some c =>
      if fits f.info.kind c.info.kind && !c.info.attached then
        { w with root := w.root.modify (attach (modeAt w.root p none)) (p ++ [k]) }
      else w
    | _, _ => w
  | .remove p k =>
    match w.root.at p with
    | some f =>
      if f.info.kind = .folder ∨ f.info.kind = .devices then
        { w with root := w.root.modify (fun c => .mk { c.info with attached := false } c.kids) (p ++ [k]) }
      else w
    | none => w
  | .set p m => { w with root := w.root.modify (fun c => (setMode c m).val) p }
  | .setRec p m => { w with root := w.root.modify (fun c => (setRecursive c m).val) p }
  | .asRoot => { w with root := asRoot w.root }

/-- Many steps. -/
def World.run (w : World) : List Op → World
  | [] => w
  | op :: ops => (w.step op).run ops

/-- A tree that begins with one component. -/
def World.init (k : Kind) (n : Nat) (refuses : List Mode) : World :=
  { root := create 0 k n refuses, next := n + 2 }

end Verif.Modes
