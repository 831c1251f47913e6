/-!
# Saving and loading configurations

Sources (paths relative to `/repo`):

* `obj` = `core/coreobjects/include/coreobjects/property_object_impl.h`
* `cmp` = `core/opendaq/component/include/opendaq/component_impl.h`
* `fld` = `core/opendaq/component/include/opendaq/folder_impl.h`
* `ctx` = `core/opendaq/component/include/opendaq/component_update_context_impl.h`
* `sct` = `core/opendaq/signal/include/opendaq/signal_container_impl.h`
* `ipt` = `core/opendaq/signal/include/opendaq/input_port_impl.h`
* `sig` = `core/opendaq/signal/include/opendaq/signal_impl.h`
* `fbi` = `core/opendaq/functionblock/include/opendaq/function_block_impl.h`
* `dev` = `core/opendaq/device/include/opendaq/device_impl.h`
* `lck` = `core/opendaq/device/src/user_lock_impl.cpp`

A device with its function blocks, their nested function blocks, signals, input ports and properties is
saved to a document (`saveConfiguration`) and a document is loaded into a device
(`loadConfiguration`).  The document is the parsed JSON: what the writer and the parser do to the text is
not part of this model.

Loading runs in two passes.  The first walks the document: it sets properties and attributes, removes the
function blocks that were added by a user, creates the ones the document names, and notes in a *context*
which input port is to be connected to which signal.  The second walks the tree and makes the connections;
before a port is connected to a signal of a function block that has not made its own connections yet, that
function block makes them first.

Not modelled: sub-devices and the update modes for them, custom components, synchronisation, operation
modes, properties of signals and ports, function blocks whose ports or signals come and go with the
connections, access rights (the user may read and write everything), and the core events.
-/

namespace Verif.Config

/-! ## Property objects -/

/-- The values of plain properties: numbers stand for values of any type but object. -/
abbrev Val := Nat

/-- The values of the plain properties of one object, by name. -/
abbrev Vals := List (String × Val)

/-- A property object: its properties in order (obj:2416-2513).

* `val name dflt acc cur rest`: a plain property with its default, the check and conversion a written value
  goes through (`none`: the write is refused; it may look at the object's other values, as validators and
  evaluated minima and maxima do), and the stored value if there is one;
* `sub name frozen o rest`: a property whose value is another property object;
* `skip name rest`: a function, procedure or reference property.

Simplification: a check sees only the plain properties of the same object. -/
inductive Obj
  | nil
  | val (name : String) (dflt : Val) (acc : Vals → Val → Option Val) (cur : Option Val) (rest : Obj)
  | sub (name : String) (frozen : Bool) (o rest : Obj)
  | skip (name : String) (rest : Obj)

/-- The saved values of a property object: the object under `propValues`. -/
inductive Doc
  | nil
  | val (name : String) (v : Val) (rest : Doc)
  | sub (name : String) (d rest : Doc)
deriving Repr, DecidableEq

/-- What stands under one key. -/
inductive Entry
  | val (v : Val)
  | sub (d : Doc)
deriving Repr, DecidableEq

/-- `readSerializedObject` / `getType` of a key: the first member of that name. -/
def Doc.get (n : String) : Doc → Option Entry
  | .nil => none
  | .val m v r => if m = n then some (.val v) else r.get n
  | .sub m d r => if m = n then some (.sub d) else r.get n

/-- The values of the object's own plain properties, as reading them gives: the stored value or the default. -/
def Obj.env : Obj → Vals
  | .nil => []
  | .val n d _ c r => (n, c.getD d) :: r.env
  | .sub _ _ _ r => r.env
  | .skip _ r => r.env

/-- Whether the object has any property. -/
def Obj.isEmpty : Obj → Bool
  | .nil => true
  | _ => false

/-- `serializePropertyValues` (obj:3185-3231): the stored values, and the nested objects whether or not anything is
stored in them.  Simplification: the members are written in the order of the properties; the real order (custom
order, then sorted) matters to no reader, since the members are looked up by name. -/
def Obj.save : Obj → Doc
  | .nil => .nil
  | .val n _ _ (some v) r => .val n v r.save
  | .val _ _ _ none r => r.save
  | .sub n _ o r => .sub n o.save r.save
  | .skip _ r => r.save

/-- `clearProtectedPropertyValue` on every property of a nested object (obj:2088-2100, inside 2021-2137): stored values are
dropped, nested objects are cleared in turn, and a frozen one refuses (obj:2028-2029). -/
def Obj.clear : Obj → Obj × Bool
  | .nil => (.nil, true)
  | .val n d acc _ r =>
    let q := r.clear
    (.val n d acc none q.1, q.2)
  | .sub n fz o r =>
    if fz && !o.isEmpty then (.sub n fz o r, false)
    else
      let p := o.clear
      if p.2 then
        let q := r.clear
        (.sub n fz p.1 q.1, q.2)
      else (.sub n fz p.1 r, false)
  | .skip n r =>
    let q := r.clear
    (.skip n q.1, q.2)

/-- What is stored when `w` is written (`writeLocalValue`, obj:1264-1295): nothing if nothing was stored and `w` is the
default. -/
def stored (dflt : Val) (cur : Option Val) (w : Val) : Option Val :=
  if cur = none ∧ w = dflt then none else some w

/-- `updateInternal` (obj:3716-3734), `updateObjectProperties` (obj:3659-3695) and `setPropertyFromSerialized`
(obj:3574-3628): the properties are gone through in their order.  A property the document does not have is
cleared; one it has is written, nested objects are updated in turn unless they are frozen.  The first refused
write ends the update: `false`, and what came later is as it was.  `pre` holds the values of the properties already
gone through. -/
def Obj.load (pre : Vals) : Obj → Doc → Obj × Bool
  | .nil, _ => (.nil, true)
  | .skip n r, d =>
    let q := r.load pre d
    (.skip n q.1, q.2)
  | .val n df acc cur r, d =>
    match d.get n with
    | none =>
      let q := r.load (pre ++ [(n, df)]) d
      (.val n df acc none q.1, q.2)
    | some (.val v) =>
      match acc (pre ++ (n, cur.getD df) :: r.env) v with
      | none => (.val n df acc cur r, false)
      | some w =>
        let q := r.load (pre ++ [(n, w)]) d
        (.val n df acc (stored df cur w) q.1, q.2)
    | some (.sub _) => (.val n df acc cur r, false)
  | .sub n fz o r, d =>
    match d.get n with
    | none =>
      if fz && !o.isEmpty then (.sub n fz o r, false)
      else
        let p := o.clear
        if p.2 then
          let q := r.load pre d
          (.sub n fz p.1 q.1, q.2)
        else (.sub n fz p.1 r, false)
    | some (.sub e) =>
      let p := if fz then (o, true) else o.load [] e
      if p.2 then
        let q := r.load pre d
        (.sub n fz p.1 q.1, q.2)
      else (.sub n fz p.1 r, false)
    | some (.val _) => (.sub n fz o r, false)

/-! ## Components -/

/-- The attributes of a component a user may change. -/
structure Attrs where
  active : Bool := true
  visible : Bool := true
  desc : String := ""
  name : String := ""
deriving Repr, DecidableEq

/-- The attributes that are locked (`lockAttributes`): a load leaves them alone. -/
structure Lock where
  active : Bool := false
  visible : Bool := false
  desc : Bool := false
  name : Bool := false
deriving Repr, DecidableEq

/-- The attributes in a document: only the ones that differ from the default are written. -/
structure DAttrs where
  active : Option Bool := none
  visible : Option Bool := none
  desc : Option String := none
  name : Option String := none
deriving Repr, DecidableEq

/-- The attributes part of `serializeCustomObjectValues` (cmp:1273-1297). -/
def Attrs.save (a : Attrs) : DAttrs where
  active := if a.active then none else some false
  visible := if a.visible then none else some false
  desc := if a.desc = "" then none else some a.desc
  name := if a.name = "" then none else some a.name

/-- `updateObject` of a component (cmp:1232-1270). -/
def Attrs.load (a : Attrs) (l : Lock) (d : DAttrs) : Attrs where
  active := if l.active then a.active else d.active.getD true
  visible := if l.visible then a.visible else d.visible.getD true
  desc := if l.desc then a.desc else d.desc.getD ""
  name := if l.name then a.name else d.name.getD ""

/-- An input port.  Its connection is kept in `Dev.conn`. -/
structure Port where
  id : String
  attrs : Attrs := {}
deriving Repr, DecidableEq

/-- A signal. -/
structure Sg where
  id : String
  attrs : Attrs := {}
  lock : Lock := {}
  pub : Bool := true
  pubLocked : Bool := false
deriving Repr, DecidableEq

/-- A function block (or the device itself) without its nested function blocks. -/
structure Head where
  id : String
  /-- The identifier of the function block type. -/
  typ : String
  /-- The configuration it was created with (`ComponentConfig`). -/
  cfg : Nat := 0
  attrs : Attrs := {}
  lock : Lock := {}
  tags : List String := []
  props : Obj := .nil
  ports : List Port := []
  sigs : List Sg := []

/-- Function blocks side by side, each with the ones nested in it. -/
inductive Fbs
  | nil
  | cons (h : Head) (kids rest : Fbs)

/-- A saved input port. -/
structure DPort where
  id : String
  attrs : DAttrs := {}
  /-- `signalId`: the identifier of the signal it was connected to, as path of the function block and local
  identifier. -/
  sig : Option (List String × String) := none
deriving Repr, DecidableEq

/-- A saved signal. -/
structure DSg where
  id : String
  attrs : DAttrs := {}
  pub : Option Bool := none
deriving Repr, DecidableEq

/-- A saved function block without the nested ones. -/
structure DHead where
  id : String
  typ : String
  cfg : Nat := 0
  attrs : DAttrs := {}
  tags : List String := []
  props : Doc := .nil
  ports : List DPort := []
  sigs : List DSg := []
deriving Repr, DecidableEq

/-- Saved function blocks side by side. -/
inductive DFbs
  | nil
  | cons (h : DHead) (kids rest : DFbs)
deriving Repr, DecidableEq

/-- The path of a function block: the local identifiers from the device down. -/
abbrev Path := List String

/-- An input port, named by the path of its function block and its local identifier. -/
abbrev Key := Path × String

/-- A signal, named by the path of its function block and its local identifier. -/
abbrev SigId := Path × String

/-- The connections: which port is connected to which signal. -/
abbrev Conns := List (Key × SigId)

/-- The signal a port is connected to. -/
def Conns.get (c : Conns) (k : Key) : Option SigId :=
  (c.find? fun e => e.1 = k).map (·.2)

/-- Connecting a port: the previous connection goes. -/
def Conns.set (c : Conns) (k : Key) (s : SigId) : Conns :=
  c.filter (fun e => e.1 ≠ k) ++ [(k, s)]

/-- What the connections become when the function block at path `p` is removed: the ports in it and the ports connected to
signals in it are disconnected (`removed`, sig:1190-1209; ipt:226-243 for why a removed signal stays unconnected). -/
def Conns.drop (c : Conns) (p : Path) : Conns :=
  c.filter fun e => !p.isPrefixOf e.1.1 && !p.isPrefixOf e.2.1

/-- A device: itself, its function blocks, the connections, and who has locked it. -/
structure Dev where
  root : Head
  kids : Fbs
  conn : Conns := []
  /-- `none`: not locked; `some (some u)`: locked by the user `u`; `some none`: locked, and any user may unlock
  (lck:29-36). -/
  locked : Option (Option String) := none

/-- A saved device. -/
structure DDev where
  root : DHead
  kids : DFbs
  locked : Option (Option String) := none
deriving Repr, DecidableEq

/-! ### Saving -/

/-- `serializeCustomObjectValues` of a port (ipt:725-743).  Ports have no locked attributes and no properties here. -/
def Port.save (c : Conns) (p : Path) (x : Port) : DPort where
  id := x.id
  attrs := x.attrs.save
  sig := c.get (p, x.id)

/-- `serializeCustomObjectValues` of a signal (sig:1120-1152): `public` is written only if it is `false`. -/
def Sg.save (x : Sg) : DSg where
  id := x.id
  attrs := x.attrs.save
  pub := if x.pub then none else some false

/-- `serializeCustomObjectValues` of a function block, the nested ones left out (fbi:520-547; sct:645-650; cmp:1273-1325). -/
def Head.save (c : Conns) (p : Path) (h : Head) : DHead where
  id := h.id
  typ := h.typ
  cfg := h.cfg
  attrs := h.attrs.save
  tags := h.tags
  props := h.props.save
  ports := h.ports.map (Port.save c p)
  sigs := h.sigs.map Sg.save

/-- The `FB` folder of the function block at `p` (fld:477-501). -/
def Fbs.save (c : Conns) (p : Path) : Fbs → DFbs
  | .nil => .nil
  | .cons h k r => .cons (h.save c (p ++ [h.id])) (k.save c (p ++ [h.id])) (r.save c p)

/-- `saveConfiguration` (dev:1800-1819): the user lock is written too (dev:2062-2063). -/
def Dev.save (x : Dev) : DDev where
  root := x.root.save x.conn [x.root.id]
  kids := x.kids.save x.conn [x.root.id]
  locked := x.locked

/-! ### Loading: the first pass -/

/-- What surrounds the device: which types of function blocks can be added inside a function block of a type (or the device)
and what comes out, given the local identifier and the configuration asked for (`none`: the creation throws); and whether a
port takes a signal, given the connections there are (the cyclic reference check ipt:222-238 and whatever the function block
says). -/
structure Env where
  avail : String → String → Option (String → Nat → Option (Head × Fbs))
  accepts : Conns → Key → SigId → Bool

/-- The context of an update (ctx).  Simplification: `connections` and `signalDependencies` are lists that grow at their end;
the keys of a document are taken to be distinct. -/
structure Ctx where
  conn : Conns
  /-- `connections`: the ports to connect. -/
  pend : List (Key × SigId) := []
  /-- `signalDependencies`: the signals of the document and the function blocks they belong to. -/
  deps : List (SigId × Path) := []

/-- Function blocks by local identifier. -/
def Fbs.get (i : String) : Fbs → Option (Head × Fbs)
  | .nil => none
  | .cons h k r => if h.id = i then some (h, k) else r.get i

/-- Replaces the function block with local identifier `i`. -/
def Fbs.put (i : String) (h' : Head) (k' : Fbs) : Fbs → Fbs
  | .nil => .nil
  | .cons h k r => if h.id = i then .cons h' k' r else .cons h k (Fbs.put i h' k' r)

/-- Adds a function block at the end. -/
def Fbs.add (h' : Head) (k' : Fbs) : Fbs → Fbs
  | .nil => .cons h' k' .nil
  | .cons h k r => .cons h k (Fbs.add h' k' r)

/-- Whether a load removes a function block from a container of type `outer`: its type can be added, and it is
visible (`getItems` without a filter gives the visible ones, fld:145-156). -/
def Head.goes (e : Env) (outer : String) (h : Head) : Bool :=
  (e.avail outer h.typ).isSome && h.attrs.visible

/-- What is left after the removal (sct:659-671). -/
def Fbs.keep (e : Env) (outer : String) : Fbs → Fbs
  | .nil => .nil
  | .cons h k r => if h.goes e outer then r.keep e outer else .cons h k (r.keep e outer)

/-- The connections after the removal. -/
def Fbs.dropGone (e : Env) (outer : String) (p : Path) : Fbs → Conns → Conns
  | .nil, c => c
  | .cons h _ r, c => r.dropGone e outer p (if h.goes e outer then c.drop (p ++ [h.id]) else c)

/-- `updateInputPort` (fbi:290-298) and `updateObject` of a port (ipt:746-760): the update goes to a port made for the
occasion, so of the document only `signalId` has an effect. -/
def notePorts (p : Path) : List DPort → List (Key × SigId)
  | [] => []
  | x :: r =>
    match x.sig with
    | some s => ((p, x.id), s) :: notePorts p r
    | none => notePorts p r

/-- `updateObject` of a signal (sig:1155-1167). -/
def Sg.load (x : Sg) (d : DSg) : Sg :=
  { x with
    attrs := x.attrs.load x.lock d.attrs
    pub := if x.pubLocked then x.pub else d.pub.getD true }

/-- `updateSignal` for one signal of the document (sct:863-878). -/
def loadSig (sigs : List Sg) (d : DSg) : List Sg :=
  sigs.map fun x => if x.id = d.id then x.load d else x

/-- What the update of a function block comes to. -/
structure Res where
  head : Head
  kids : Fbs
  ctx : Ctx
  /-- All values of the properties were accepted. -/
  props : Bool
  /-- Nothing was thrown in `updateObject`. -/
  inner : Bool

/-- The update went well. -/
def Res.ok (r : Res) : Bool := r.props && r.inner

/-- `updateInternal` of a function block (cmp:965-978; fbi:274-287; sct:653-699): the properties first; a refused value
does not keep the rest from being done, but the error is returned afterwards.  Then the ports, the attributes, the removal
of the added function blocks, the function blocks of the document (`inner`), and the signals.  An error in `inner` is thrown:
the signals are not gone through. -/
def loadNode (e : Env) (p : Path) (h : Head) (k : Fbs) (d : DHead) (c : Ctx)
    (inner : String → Path → Fbs → Ctx → Fbs × Ctx × Bool) : Res :=
  let q := h.props.load [] d.props
  let h1 : Head := { h with props := q.1, attrs := h.attrs.load h.lock d.attrs }
  let c1 : Ctx := { c with conn := k.dropGone e h.typ p c.conn, pend := c.pend ++ notePorts p d.ports }
  let r := inner h.typ p (k.keep e h.typ) c1
  if r.2.2 then
    { head := { h1 with sigs := d.sigs.foldl loadSig h.sigs }
      kids := r.1
      ctx := { r.2.1 with deps := r.2.1.deps ++ d.sigs.map fun x => ((p, x.id), p) }
      props := q.2
      inner := true }
  else { head := h1, kids := r.1, ctx := r.2.1, props := q.2, inner := false }

/-- `updateFunctionBlock` for the function blocks of the document in turn (sct:800-812, 816-860): one whose type cannot be
added is updated if it is there and skipped if it is not; all others are created and updated.  A failed creation, a local
identifier that is taken, and a failed update are thrown: nothing more is done. -/
def loadKids (e : Env) : DFbs → String → Path → Fbs → Ctx → Fbs × Ctx × Bool
  | .nil, _, _, u, c => (u, c, true)
  | .cons d dk dr, outer, p, u, c =>
    match e.avail outer d.typ with
    | none =>
      match u.get d.id with
      | none => loadKids e dr outer p u c
      | some x =>
        let r := loadNode e (p ++ [d.id]) x.1 x.2 d c (loadKids e dk)
        let u' := Fbs.put d.id r.head r.kids u
        if r.ok then loadKids e dr outer p u' r.ctx else (u', r.ctx, false)
    | some mk =>
      match mk d.id d.cfg with
      | none => (u, c, false)
      | some x =>
        if (u.get x.1.id).isSome then (u, c, false)
        else
          let r := loadNode e (p ++ [x.1.id]) x.1 x.2 d c (loadKids e dk)
          let u' := Fbs.add r.head r.kids u
          if r.ok then loadKids e dr outer p u' r.ctx else (u', r.ctx, false)

/-! ### Loading: the second pass -/

/-- The function blocks as a list. -/
def Fbs.list : Fbs → List (Head × Fbs)
  | .nil => []
  | .cons h k r => (h, k) :: r.list

/-- `findComponent`: the function block at a path below a node. -/
def findFb (h : Head) (k : Fbs) : Path → Option (Head × Fbs)
  | [] => some (h, k)
  | i :: p =>
    match k.get i with
    | none => none
    | some x => findFb x.1 x.2 p

/-- `findComponent` from the device: the path begins with the identifier of the device (ctx:218-240).  Simplification: there
are no sub-devices whose identifier could be meant. -/
def findPath (h : Head) (k : Fbs) : Path → Option (Head × Fbs)
  | [] => none
  | i :: p => if i = h.id then findFb h k p else none

/-- Whether there is such a signal. -/
def hasSig (h : Head) (k : Fbs) (s : SigId) : Bool :=
  match findPath h k s.1 with
  | none => false
  | some x => x.1.sigs.any fun y => y.id = s.2

/-- The part of the context that changes in the second pass. -/
abbrev Fin := Ctx → Option Ctx

/-- `resolveSignalDependency` (ctx:294-333): if the signal belongs to a function block of the document which has not made its
connections yet, it makes them now; then the dependency is forgotten.  `fin` is its `updateEnded`; `none`: it never
returns. -/
def resolve (root : Head) (kids : Fbs) (fin : Head → Fbs → Path → Fin) (s : SigId) (c : Ctx) : Option Ctx :=
  match c.deps.find? fun x => x.1 = s with
  | none => some c
  | some x =>
    if c.pend.any fun y => y.1.1 = x.2 then
      match findPath root kids x.2 with
      | none => some c
      | some y =>
        match fin y.1 y.2 x.2 c with
        | none => none
        | some c' => some { c' with deps := c'.deps.filter fun z => z.1 ≠ s }
    else some c

/-- `onUpdatableUpdateEnd` of a port (ipt:763-789) which is to be connected to `s`: a port that is connected stays so; a
signal that is not found or not accepted is passed over. -/
def finPort (e : Env) (root : Head) (kids : Fbs) (fin : Head → Fbs → Path → Fin) (k : Key) (s : SigId) (c : Ctx) :
    Option Ctx :=
  if (c.conn.get k).isSome then some c
  else
    match resolve root kids fin s c with
    | none => none
    | some c' =>
      some (if hasSig root kids s && e.accepts c'.conn k s then { c' with conn := c'.conn.set k s } else c')

/-- The ports that are not there (fbi:319-337): each such connection goes to the first port that is free; once there is
none, the rest is given up. -/
def finLost (e : Env) (root : Head) (kids : Fbs) (fin : Head → Fbs → Path → Fin) (h : Head) (p : Path) :
    List SigId → Ctx → Option Ctx
  | [], c => some c
  | s :: r, c =>
    match h.ports.find? fun x => (c.conn.get (p, x.id)).isNone with
    | none => some c
    | some x =>
      match finPort e root kids fin (p, x.id) s c with
      | none => none
      | some c' => finLost e root kids fin h p r c'

/-- `onUpdatableUpdateEnd` of a function block (fbi:301-345; sct:702-711; fld:563-574): its ports in the order of the
document, the ports that are not there, then the entry goes and the nested function blocks follow. -/
def finNode (e : Env) (root : Head) (kids : Fbs) (fin : Head → Fbs → Path → Fin) (h : Head) (k : Fbs) (p : Path)
    (c : Ctx) : Option Ctx :=
  let mine := c.pend.filter fun x => x.1.1 = p
  let there := mine.filter fun x => h.ports.any fun y => y.id = x.1.2
  let lost := mine.filter fun x => !h.ports.any fun y => y.id = x.1.2
  match there.foldlM (fun c x => finPort e root kids fin x.1 x.2 c) c with
  | none => none
  | some c1 =>
    match finLost e root kids fin h p (lost.map (·.2)) c1 with
    | none => none
    | some c2 =>
      k.list.foldlM (fun c x => fin x.1 x.2 (p ++ [x.1.id]) c)
        { c2 with pend := c2.pend.filter fun x => x.1.1 ≠ p }

/-- `updateEnded` of a function block, with calls nested at most `n` deep.  `none`: that was not enough. -/
def endFb (e : Env) (root : Head) (kids : Fbs) : Nat → Head → Fbs → Path → Fin
  | 0 => fun _ _ _ _ => none
  | n + 1 => finNode e root kids (endFb e root kids n)

/-- `UserLock` read from a document (lck:84-113): the user is looked up only while a device is deserialized, not during an
update, so that a lock comes back without its user. -/
def loadLock (d : Option (Option String)) : Option (Option String) :=
  match d with
  | none => none
  | some _ => some none

/-- The first pass of `loadConfiguration` (dev:1822-1841; cmp:984-1022): the device is updated like a function block.  Simplification:
the device's own ports are a function block's (it has none).  The user lock comes from the document (dev:2443-2535). -/
def Dev.first (e : Env) (x : Dev) (d : DDev) : Dev × Ctx × Bool :=
  let r := loadNode e [x.root.id] x.root x.kids d.root { conn := x.conn } (loadKids e d.kids)
  ({ root := r.head, kids := r.kids, conn := r.ctx.conn,
     locked := if r.inner then loadLock d.locked else x.locked }, r.ctx, r.ok)

/-- What `loadConfiguration` leaves behind. -/
inductive Loaded
  /-- It returned: the device, and whether it reported success. -/
  | done (x : Dev) (ok : Bool)
  /-- More than `n` nested calls. -/
  | tooDeep

/-- `loadConfiguration` with calls nested at most `n` deep in the second pass.  If the first pass fails the second is left
out (cmp:1002-1008). -/
def Dev.load (e : Env) (n : Nat) (x : Dev) (d : DDev) : Loaded :=
  let r := x.first e d
  if r.2.2 then
    match endFb e r.1.root r.1.kids n r.1.root r.1.kids [r.1.root.id] r.2.1 with
    | none => .tooDeep
    | some c => .done { r.1 with conn := c.conn } true
  else .done r.1 false

end Verif.Config
