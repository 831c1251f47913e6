/-!
# A client that follows the component tree of a server

Sources (abbreviations used in the comments below):

* `po` = `core/coreobjects/include/coreobjects/property_object_impl.h`
* `cmp` = `core/opendaq/component/include/opendaq/component_impl.h`
* `tag` = `core/opendaq/component/include/opendaq/tags_impl.h`
* `sta` = `core/opendaq/component/include/opendaq/component_status_container_impl.h`
* `fol` = `core/opendaq/component/include/opendaq/folder_impl.h`
* `cpo` = `shared/libraries/config_protocol/include/config_protocol/config_client_property_object_impl.h`
* `cco` = `shared/libraries/config_protocol/include/config_protocol/config_client_component_impl.h`
* `cfo` = `shared/libraries/config_protocol/include/config_protocol/config_client_folder_impl.h`
* `cpc` = `shared/libraries/config_protocol/include/config_protocol/config_protocol_client.h`
* `csc` = `shared/libraries/config_protocol/include/config_protocol/config_server_component.h`
* `ndi` = `modules/native_streaming_client_module/src/native_device_impl.cpp`

The server owns a tree of components.  Every change of the tree triggers a core event; the server
of the config protocol sends the events to the client, which holds a tree of its own and applies
them.  The client gets its first tree by deserializing the whole device, and later whole subtrees
with the event that ends an update of a component.

Names, identifiers and values are numbers.  What a property makes of a value that is written
(conversion, selection values, coercer, validator, limits) is one function `fix` of the value and
of the values of the other properties of the same object; `none` stands for a refusal.

Simplifications: one property object class without inherited properties; no reference, function,
list or dictionary properties; no custom property order; permissions let everything pass; objects
are not frozen; a handler can replace the value, can set other value properties of the same object
(whose own handlers do nothing) and nothing else; the effective `active` state is left out (the
local state is kept); sets of tags are lists in the order of insertion; the server's status values
all have one type; events are delivered in order and handled one at a time.
-/

namespace Verif.Remote

/-! ## Property objects -/

/-- A value property with the value stored for it in `propValues` (po:333). -/
structure P where
  dflt : Nat
  fix : (Nat → Nat) → Nat → Option Nat
  val : Option Nat

/-- What `getPropertyValue` returns: the stored value, otherwise the default. -/
def P.read (p : P) : Nat := p.val.getD p.dflt

/-- A property object: its properties in the order in which they were added (`localProperties`,
po:334), each a value property or a nested property object. -/
inductive Obj where
  | nil
  | val (n : Nat) (p : P) (rest : Obj)
  | obj (n : Nat) (o : Obj) (rest : Obj)

namespace Obj

/-- The value property of that name. -/
def find : Obj → Nat → Option P
  | nil, _ => none
  | val m p rest, n => if m = n then some p else rest.find n
  | obj m _ rest, n => if m = n then none else rest.find n

/-- The nested object of that name. -/
def child : Obj → Nat → Option Obj
  | nil, _ => none
  | val m _ rest, n => if m = n then none else rest.child n
  | obj m o rest, n => if m = n then some o else rest.child n

/-- `hasProperty`. -/
def has : Obj → Nat → Bool
  | nil, _ => false
  | val m _ rest, n => m == n || rest.has n
  | obj m _ rest, n => m == n || rest.has n

/-- Names of all properties (`getAllProperties`). -/
def names : Obj → List Nat
  | nil => []
  | val m _ rest => m :: rest.names
  | obj m _ rest => m :: rest.names

/-- What the expressions of limits, coercers and validators read of the object they belong to. -/
def env (o : Obj) (n : Nat) : Nat :=
  match o.find n with
  | some p => p.read
  | none => 0

/-- Writes or erases the entry of `propValues` (`writeLocalValue`, po:1264-1295; `erase`). -/
def store : Obj → Nat → Option Nat → Obj
  | nil, _, _ => nil
  | val m p rest, n, v => if m = n then val m { p with val := v } rest else val m p (rest.store n v)
  | obj m o rest, n, v => if m = n then obj m o rest else obj m o (rest.store n v)

/-- Replaces the nested object of that name. -/
def setChild : Obj → Nat → Obj → Obj
  | nil, _, _ => nil
  | val m p rest, n, c => if m = n then val m p rest else val m p (rest.setChild n c)
  | obj m o rest, n, c => if m = n then obj m c rest else obj m o (rest.setChild n c)

/-- Appends properties. -/
def append : Obj → Obj → Obj
  | nil, x => x
  | val m p rest, x => val m p (rest.append x)
  | obj m o rest, x => obj m o (rest.append x)

/-- `removeProperty` (po:2351-2377). -/
def erase : Obj → Nat → Obj
  | nil, _ => nil
  | val m p rest, n => if m = n then rest else val m p (rest.erase n)
  | obj m o rest, n => if m = n then rest else obj m o (rest.erase n)

/-- Keeps the properties with these names. -/
def keep : Obj → List Nat → Obj
  | nil, _ => nil
  | val m p rest, l => if l.contains m then val m p (rest.keep l) else rest.keep l
  | obj m o rest, l => if l.contains m then obj m o (rest.keep l) else rest.keep l

/-- The object at a path (`getPropertyValue("a.b")`). -/
def sub : Obj → List Nat → Option Obj
  | o, [] => some o
  | o, n :: q =>
    match o.child n with
    | some c => c.sub q
    | none => none

/-- Replaces the object at a path. -/
def setSub : Obj → List Nat → Obj → Obj
  | _, [], x => x
  | o, n :: q, x =>
    match o.child n with
    | some c => o.setChild n (c.setSub q x)
    | none => o

/-- `setProtectedPropertyValue` without handlers, as on a client, and the second write of
`callPropertyValueWrite` (`setPropertyValueInternal`, po:1078-1201): `none` if the property does not
exist or refuses the value; nothing is written if the value is the one read before
(`shouldWriteLocalValue`, po:1243-1261). -/
def put (o : Obj) (n v : Nat) : Option Obj :=
  match o.find n with
  | none => none
  | some p =>
    match p.fix o.env v with
    | none => none
    | some w => if w = p.read then some o else some (o.store n (some w))

/-- `clearProtectedPropertyValue` without handlers (`clearPropertyValueInternal`, po:2021-2137) for a
value property. -/
def drop (o : Obj) (n : Nat) : Option Obj :=
  match o.find n with
  | none => none
  | some _ => some (o.store n none)

end Obj

/-- A write or (`want = none`) a clear of a property on the server, with what the handlers of the
property do: `repl` is the value they put in place of the written one, `side` are the other
properties of the object that they set. -/
structure Act where
  name : Nat
  want : Option Nat
  repl : Option Nat := none
  side : List (Nat × Nat) := []

/-- How a write ended: error, ignored, or done; `done` carries the value of the core event
(`none`: cleared). -/
inductive Fin where
  | bad
  | same
  | done (v : Option Nat)
deriving DecidableEq

/-- A value a client is told: property and new value (`none`: cleared). -/
abbrev Told := Nat × Option Nat

namespace Obj

/-- Writes made by handlers to other properties: every one is a `setPropertyValue` of its own, with
its own event; an error ends the handler. -/
def sides (own : Nat) : Obj → List (Nat × Nat) → Obj × List Told × Bool
  | o, [] => (o, [], true)
  | o, (n, v) :: l =>
    if n = own then o.sides own l
    else
      match o.find n with
      | none => (o, [], false)
      | some p =>
        match p.fix o.env v with
        | none => (o, [], false)
        | some w =>
          if w = p.read then o.sides own l
          else
            let r := (o.store n (some w)).sides own l
            (r.1, (n, some w) :: r.2.1, r.2.2)

/-- The end of a write, after the handlers (po:760-773, po:1171-1184): `w` is the value the write
would store, `r` the value the handlers left. -/
def finish (o : Obj) (n : Nat) (w : Option Nat) (repl : Option Nat) (evs : List Told) :
    Obj × List Told × Fin :=
  match repl with
  | none => (o.store n w, evs, .done w)
  | some r =>
    match o.put n r with
    | none => (o, evs, .bad)
    | some o' => (o', evs, .done (some r))

/-- `setPropertyValueInternal` (po:1078-1201) and `clearPropertyValueInternal` (po:2021-2137) of a
value property on the server, with `callPropertyValueWrite` (po:702-774). The second component
collects the events triggered on the way. -/
def act (o : Obj) (a : Act) : Obj × List Told × Fin :=
  match o.find a.name with
  | none => (o, [], .bad)
  | some p =>
    match a.want with
    | some v =>
      match p.fix o.env v with
      | none => (o, [], .bad)
      | some w =>
        if w = p.read then (o, [], .same)
        else
          let s := o.sides a.name a.side
          if s.2.2 then
            s.1.finish a.name (some w) (if a.repl = some w then none else a.repl) s.2.1
          else (s.1, s.2.1, .bad)
    | none =>
      if p.val = none then (o, [], .same)
      else
        let s := o.sides a.name a.side
        if s.2.2 then
          s.1.finish a.name none (if a.repl = some p.dflt then none else a.repl) s.2.1
        else (s.1, s.2.1, .bad)

/-- A single write: its own event follows those of the handlers (po:1186-1187, po:2129-2130). -/
def write (o : Obj) (a : Act) : Obj × List Told :=
  let r := o.act a
  match r.2.2 with
  | .done v => (r.1, r.2.1 ++ [(a.name, v)])
  | _ => (r.1, r.2.1)

/-- `dict.set` of an ordered dictionary. -/
def dictSet : List (Nat × Nat) → Nat → Nat → List (Nat × Nat)
  | [], n, v => [(n, v)]
  | (m, x) :: l, n, v => if m = n then (m, v) :: l else (m, x) :: dictSet l n v

/-- `endApplyUpdate` (po:2750-2780): the writes collected since `beginUpdate` are applied one after
the other; an error leaves the function (`none`); the value of every property is read after its own
write. -/
def batch : Obj → List Act → List (Nat × Nat) → Obj × List Told × Option (List (Nat × Nat))
  | o, [], d => (o, [], some d)
  | o, a :: l, d =>
    let r := o.act a
    match r.2.2 with
    | .bad => (r.1, r.2.1, none)
    | f =>
      let d' := if a.want = none ∧ f = .same then d else dictSet d a.name (r.1.env a.name)
      let t := r.1.batch l d'
      (t.1, r.2.1 ++ t.2.1, t.2.2)

/-- The values written in the serialized form (`serializePropertyValues`, po:3185-3231): stored
values, sorted by name. -/
def stored : Obj → List (Nat × Nat)
  | nil => []
  | val m p rest =>
    match p.val with
    | some v => (m, v) :: rest.stored
    | none => rest.stored
  | obj _ _ rest => rest.stored

/-- Insertion into a list sorted by name. -/
def insertBy (x : Nat × Nat) : List (Nat × Nat) → List (Nat × Nat)
  | [] => [x]
  | y :: l => if x.1 ≤ y.1 then x :: y :: l else y :: insertBy x l

/-- `std::map` of the values (po:3198). -/
def sortBy : List (Nat × Nat) → List (Nat × Nat)
  | [] => []
  | x :: l => insertBy x (sortBy l)

/-- Writes values one after the other; an error throws. -/
def putAll : Obj → List (Nat × Nat) → Option Obj
  | o, [] => some o
  | o, (n, v) :: l =>
    match o.put n v with
    | none => none
    | some o' => o'.putAll l

/-- The properties without values, nested objects deserialized (`DeserializeLocalProperties`,
po:3410-3434). -/
def shape : Obj → Option Obj
  | nil => some nil
  | val m p rest =>
    match rest.shape with
    | some r => some (val m { p with val := none } r)
    | none => none
  | obj m o rest =>
    match o.shape with
    | none => none
    | some s =>
      match s.putAll (sortBy o.stored) with
      | none => none
      | some o' =>
        match rest.shape with
        | some r => some (obj m o' r)
        | none => none

/-- Serializing an object and deserializing it (`DeserializePropertyObject`, po:3307-3334): first
the properties, then every stored value is set as by a user (`DeserializePropertyValues`,
po:3364-3388). -/
def load (o : Obj) : Option Obj :=
  match o.shape with
  | none => none
  | some s => s.putAll (sortBy o.stored)

/-! ### Applying a serialized object to an existing one -/

/-- First half of `updateProperties` (cpo:588-632): properties that the client does not have are
added, in the order of the server; `may` says whether `addProperty` is allowed. -/
def addMissing (may : Bool) : Obj → Obj → Option Obj
  | nil, c => some c
  | val m p rest, c =>
    if c.has m then rest.addMissing may c
    else if may then rest.addMissing may (c.append (val m { p with val := none } nil))
    else none
  | obj m o rest, c =>
    if c.has m then rest.addMissing may c
    else if may then
      match o.load with
      | none => none
      | some o' => rest.addMissing may (c.append (obj m o' nil))
    else none

/-- The loop of `updatePropertyValues` (cpo:635-696) over the client's properties. `kid n x` is the
update of the nested object `n` of the server's form applied to `x`. -/
def copyVals (snap : Obj) (kid : Nat → Obj → Option (Obj × Bool)) : Obj → List Nat → Obj × Bool
  | c, [] => (c, true)
  | c, n :: l =>
    match c.child n with
    | some x =>
      match kid n x with
      | none => (c, false)
      | some r => if r.2 then copyVals snap kid (c.setChild n r.1) l else (c.setChild n r.1, false)
    | none =>
      match snap.find n with
      | none => (c, false)
      | some p =>
        match p.val with
        | none => copyVals snap kid (c.store n none) l
        | some v =>
          match c.put n v with
          | none => (c, false)
          | some c' => copyVals snap kid c' l

/-- `onRemoteUpdate` (cpo:724-728): `false` if it threw. -/
def body (may : Bool) (snap : Obj) (kid : Nat → Obj → Option (Obj × Bool)) (c : Obj) : Obj × Bool :=
  match snap.addMissing may c with
  | none => (c, false)
  | some c1 => copyVals snap kid (c1.keep snap.names) (c1.keep snap.names).names

/-- Update of the nested object of that name (`remoteUpdate`, cpo:525-534); nested objects can
always get new properties (cpo:1047-1052, cpo:333-339). -/
def kid : Obj → Nat → Obj → Option (Obj × Bool)
  | nil, _, _ => none
  | val m _ rest, n, c => if m = n then none else rest.kid n c
  | obj m o rest, n, c => if m = n then some (body true o (fun k x => o.kid k x) c) else rest.kid n c

/-- `remoteUpdate` of the property object part of a component. -/
def follow (may : Bool) (snap c : Obj) : Obj × Bool := body may snap (fun k x => snap.kid k x) c

end Obj

/-! ## Components -/

/-- Attributes of a component. `active` is the local active state. -/
inductive Attr where
  | name | desc | active | visible
deriving DecidableEq, Repr

/-- A component without its items. `stat` are the statuses with their messages, in the order in
which they were added. `lock` are the locked attributes. `open_` and `mute` are only used by a
client: `deserializationComplete` is false (cpo:175); core events are muted. -/
structure Data where
  kind : Nat
  attr : Attr → Nat
  lock : Attr → Bool
  tags : List Nat
  stat : List (Nat × (Nat × Nat))
  obj : Obj
  open_ : Bool := false
  mute : Bool := false

/-- The items of a folder, in the order in which they were added (fol:70). -/
inductive Forest where
  | nil
  | cons (k : Nat) (d : Data) (items : Forest) (rest : Forest)

/-- A component with its items. -/
abbrev Comp := Data × Forest

namespace Forest

/-- `getItem`. -/
def get : Forest → Nat → Option Comp
  | nil, _ => none
  | cons k d i r, n => if k = n then some (d, i) else r.get n

/-- `hasItem`. -/
def has (f : Forest) (n : Nat) : Bool := (f.get n).isSome

/-- Replaces an item. -/
def set : Forest → Nat → Comp → Forest
  | nil, _, _ => nil
  | cons k d i r, n, c => if k = n then cons k c.1 c.2 r else cons k d i (r.set n c)

/-- `items.emplace` of a new item (fol:466-474). -/
def add : Forest → Nat → Comp → Forest
  | nil, n, c => cons n c.1 c.2 nil
  | cons k d i r, n, c => cons k d i (r.add n c)

/-- `items.erase` (fol:598-608). -/
def del : Forest → Nat → Forest
  | nil, _ => nil
  | cons k d i r, n => if k = n then r else cons k d i (r.del n)

/-- Local ids of the items. -/
def ids : Forest → List Nat
  | nil => []
  | cons k _ _ r => k :: r.ids

/-- Keeps the items with these ids. -/
def keep : Forest → List Nat → Forest
  | nil, _ => nil
  | cons k d i r, l => if l.contains k then cons k d i (r.keep l) else r.keep l

/-- The component with that (relative) global id. -/
def find : Forest → List Nat → Option Comp
  | _, [] => none
  | f, [k] => f.get k
  | f, k :: p =>
    match f.get k with
    | some c => c.2.find p
    | none => none

/-- Replaces the component with that global id. -/
def upd : Forest → List Nat → Comp → Forest
  | f, [], _ => f
  | f, [k], x => f.set k x
  | f, k :: p, x =>
    match f.get k with
    | some c => f.set k (c.1, c.2.upd p x)
    | none => f

end Forest

/-- A value property or a nested object. -/
inductive Slot where
  | val (p : P)
  | obj (o : Obj)

/-- Changes made on the server to one component. `q` is the path of a property object inside the
component. `update` is `IUpdatable::update`: it can change everything below the component. `up` only
matters for the active state: all ancestors are active. -/
inductive Op where
  | attr (a : Attr) (v : Nat) (up : Bool)
  | lock (a : Attr) (b : Bool)
  | tagAdd (t : Nat)
  | tagDel (t : Nat)
  | statAdd (n v m : Nat)
  | statSet (n v m : Nat)
  | write (q : List Nat) (a : Act)
  | batch (q : List Nat) (l : List Act)
  | propAdd (q : List Nat) (n : Nat) (s : Slot)
  | propDel (q : List Nat) (n : Nat)
  | itemAdd (k : Nat) (c : Comp)
  | itemDel (k : Nat)
  | update (c : Comp)

/-- Core events as they reach the client. `both` is the second event of a change of the active state,
for the effective one (cmp:395-401); it also carries the local one. The same event of the components
below is left out: it carries their own local state, which did not change. -/
inductive Ev where
  | attr (a : Attr) (v : Nat)
  | both (v : Nat)
  | tags (l : List Nat)
  | stat (n v m : Nat)
  | value (q : List Nat) (t : Told)
  | many (q : List Nat) (l : List (Nat × Nat))
  | propAdd (q : List Nat) (n : Nat) (s : Slot)
  | propDel (q : List Nat) (n : Nat)
  | added (k : Nat) (c : Comp)
  | removed (k : Nat)
  | updated (c : Comp)

/-! ### The server -/

/-- The same component with another attribute value. -/
def Data.setAttr (d : Data) (a : Attr) (v : Nat) : Data :=
  { d with attr := fun b => if b = a then v else d.attr b }

/-- Replaces the value of an existing status. -/
def statPut : List (Nat × (Nat × Nat)) → Nat → Nat × Nat → List (Nat × (Nat × Nat))
  | [], _, _ => []
  | (k, x) :: l, n, v => if k = n then (k, v) :: l else (k, x) :: statPut l n v

/-- The slot as it is right after `addProperty`: a value property has no value yet. -/
def Slot.fresh (n : Nat) : Slot → Obj
  | .val p => .val n { p with val := none } .nil
  | .obj o => .obj n o .nil

/-- One change on the server and the events it triggers, in order. Attributes: cmp:350-407,
cmp:526-565, cmp:577-616, cmp:638-674 (setting `visible` triggers the event even if nothing
changes); tags: tag:88-129; statuses: sta:147-175 (adding one triggers nothing), sta:182-244;
properties: po:2286-2348, po:2351-2377; items: fol:228-261, fol:297-327; updates: events are muted
while the component is updated and one event with the serialized component follows. -/
def Op.run (c : Comp) : Op → Comp × List Ev
  | .attr a v up =>
    if (c.1.attr a = v ∧ a ≠ .visible) ∨ c.1.lock a = true then (c, [])
    else ((c.1.setAttr a v, c.2), .attr a v :: (if a = .active ∧ up then [.both v] else []))
  | .lock a b => (({ c.1 with lock := fun x => if x = a then b else c.1.lock x }, c.2), [])
  | .tagAdd t =>
    if t ∈ c.1.tags then (c, [])
    else (({ c.1 with tags := c.1.tags ++ [t] }, c.2), [.tags (c.1.tags ++ [t])])
  | .tagDel t =>
    if t ∈ c.1.tags then
      (({ c.1 with tags := c.1.tags.filter (fun x => x != t) }, c.2),
        [.tags (c.1.tags.filter (fun x => x != t))])
    else (c, [])
  | .statAdd n v m =>
    if (c.1.stat.lookup n).isSome then (c, [])
    else (({ c.1 with stat := c.1.stat ++ [(n, (v, m))] }, c.2), [])
  | .statSet n v m =>
    match c.1.stat.lookup n with
    | none => (c, [])
    | some x =>
      if x = (v, m) then (c, [])
      else (({ c.1 with stat := statPut c.1.stat n (v, m) }, c.2), [.stat n v m])
  | .write q a =>
    match c.1.obj.sub q with
    | none => (c, [])
    | some o =>
      let r := o.write a
      (({ c.1 with obj := c.1.obj.setSub q r.1 }, c.2), r.2.map (fun t => .value q t))
  | .batch q l =>
    match c.1.obj.sub q with
    | none => (c, [])
    | some o =>
      let r := o.batch l []
      (({ c.1 with obj := c.1.obj.setSub q r.1 }, c.2),
        r.2.1.map (fun t => .value q t) ++
          (match r.2.2 with
          | none => []
          | some [] => []
          | some d => [.many q d]))
  | .propAdd q n s =>
    match c.1.obj.sub q with
    | none => (c, [])
    | some o =>
      if o.has n then (c, [])
      else (({ c.1 with obj := c.1.obj.setSub q (o.append (s.fresh n)) }, c.2), [.propAdd q n s])
  | .propDel q n =>
    match c.1.obj.sub q with
    | none => (c, [])
    | some o =>
      if o.has n then
        (({ c.1 with obj := c.1.obj.setSub q (o.erase n) }, c.2), [.propDel q n])
      else (c, [])
  | .itemAdd k x => if c.2.has k then (c, []) else ((c.1, c.2.add k x), [.added k x])
  | .itemDel k => if c.2.has k then ((c.1, c.2.del k), [.removed k]) else (c, [])
  | .update x => (x, [.updated x])

/-- A change of the component with that id. -/
def serve (s : Forest) (p : List Nat) (op : Op) : Forest × List (List Nat × Ev) :=
  match s.find p with
  | none => (s, [])
  | some c => (s.upd p (op.run c).1, (op.run c).2.map (fun e => (p, e)))

/-- A history of the server: the final tree and all the events. -/
def history : Forest → List (List Nat × Op) → Forest × List (List Nat × Ev)
  | s, [] => (s, [])
  | s, (p, op) :: l =>
    let r := serve s p op
    let t := history r.1 l
    (t.1, r.2 ++ t.2)

/-! ### The client -/

/-- The component that deserialization creates (cmp:1391-1430): the constructor locks `visible`
(cmp:267) and nothing else. -/
def Data.load (d : Data) : Option Data :=
  match d.obj.load with
  | none => none
  | some o =>
    some { d with obj := o, lock := fun a => decide (a = .visible), open_ := false, mute := false }

/-- Deserialized items (fol:504-526); an error fails the whole. -/
def Forest.load : Forest → Option Forest
  | .nil => some .nil
  | .cons k d i r =>
    match d.load with
    | none => none
    | some d' =>
      match i.load with
      | none => none
      | some i' =>
        match r.load with
        | none => none
        | some r' => some (.cons k d' i' r')

/-- A component that was serialized and deserialized. -/
def Comp.load (c : Comp) : Option Comp :=
  match c.1.load with
  | none => none
  | some d =>
    match c.2.load with
    | none => none
    | some i => some (d, i)

/-- `remoteUpdateStatuses` (cco:250-276). -/
def statFollow : List (Nat × (Nat × Nat)) → List (Nat × (Nat × Nat)) → List (Nat × (Nat × Nat))
  | [], c => c
  | (n, v) :: l, c =>
    statFollow l (if (c.lookup n).isSome then statPut c n v else c ++ [(n, v)])

/-- `onRemoteUpdate` of a component (cco:279-315), after the properties: attributes and statuses. -/
def Data.followRest (s c : Data) : Data :=
  { c with attr := s.attr, stat := statFollow s.stat c.stat }

/-- `onRemoteUpdate` up to the items; `false` if it threw. `may` is `!deserializationComplete`. -/
def Data.follow (s c : Data) : Data × Bool :=
  let r := Obj.follow c.open_ s.obj c.obj
  if r.2 then (s.followRest { c with obj := r.1 }, true) else ({ c with obj := r.1 }, false)

/-- The items part of `onRemoteUpdate` of a folder (cfo:234-299), without the removal of items that
are not in the serialized form: an existing item is updated, and an error of that update is not
looked at; another one is created. -/
def Forest.follow : Forest → Forest → Forest × Bool
  | .nil, c => (c, true)
  | .cons k d i r, c =>
    match c.get k with
    | some x =>
      let y := d.follow x.1
      let z := if y.2 then i.follow x.2 else (x.2, false)
      r.follow (c.set k (y.1, if z.2 then z.1.keep i.ids else z.1))
    | none =>
      match Comp.load (d, i) with
      | none => (c, false)
      | some x => r.follow (c.add k x)

/-- `onRemoteUpdate` of a folder (cfo:234-299). -/
def Comp.follow (s c : Comp) : Comp × Bool :=
  let y := s.1.follow c.1
  if y.2 then
    let z := s.2.follow c.2
    ((y.1, if z.2 then z.1.keep s.2.ids else z.1), z.2)
  else ((y.1, c.2), false)

/-- `componentUpdateEnd` (cco:318-343): new properties are allowed on this component while it runs;
if it throws the component stays open and its core events stay muted. -/
def Comp.updateEnd (s c : Comp) : Comp :=
  let r := Comp.follow s ({ c.1 with open_ := true, mute := true }, c.2)
  if r.2 then ({ r.1.1 with open_ := false, mute := c.1.mute }, r.1.2) else r.1

/-- `propertyObjectUpdateEnd` (cpo:862-902): the values are collected and applied one after the
other; the first error ends it. -/
def Obj.putSome : Obj → List (Nat × Nat) → Obj
  | o, [] => o
  | o, (n, v) :: l =>
    match o.put n v with
    | none => o
    | some o' => o'.putSome l

/-- The property that a client gets with the event: nested objects are deserialized. -/
def Slot.load : Slot → Option Slot
  | .val p => some (.val p)
  | .obj o =>
    match o.load with
    | none => none
    | some o' => some (.obj o')

/-- Handling of one event by the component it belongs to (cpo:699-721, cco:213-247, cfo:177-207); an
error is logged and the event is lost (cpo:495-522). Attributes: cco:346-392, the lock of the
attribute named in the event is lifted, and the local active state comes as "LocalActive" while its
lock is called "Active", like the event of the effective state; tags: cco:395-401; statuses: cco:404-421; values: cpo:835-859, cpo:862-902;
properties: cpo:905-924, cpo:927-943; items: cfo:210-221, cfo:224-231; updates: cco:318-343. -/
def Ev.apply (c : Comp) : Ev → Comp
  | .attr a v => if a = .active ∧ c.1.lock a = true then c else (c.1.setAttr a v, c.2)
  | .both v => (c.1.setAttr .active v, c.2)
  | .tags l => ({ c.1 with tags := l }, c.2)
  | .stat n v m =>
    if (c.1.stat.lookup n).isSome then ({ c.1 with stat := statPut c.1.stat n (v, m) }, c.2) else c
  | .value q t =>
    match c.1.obj.sub q with
    | none => c
    | some o =>
      match (match t.2 with | some v => o.put t.1 v | none => o.drop t.1) with
      | none => c
      | some o' => ({ c.1 with obj := c.1.obj.setSub q o' }, c.2)
  | .many q l =>
    match c.1.obj.sub q with
    | none => c
    | some o => ({ c.1 with obj := c.1.obj.setSub q (o.putSome l) }, c.2)
  | .propAdd q n s =>
    match c.1.obj.sub q with
    | none => c
    | some o =>
      if o.has n then c
      else
        match s.load with
        | none => c
        | some s' => ({ c.1 with obj := c.1.obj.setSub q (o.append (s'.fresh n)) }, c.2)
  | .propDel q n =>
    match c.1.obj.sub q with
    | none => c
    | some o => ({ c.1 with obj := c.1.obj.setSub q (o.erase n) }, c.2)
  | .added k x =>
    if c.2.has k then c
    else
      match Comp.load x with
      | none => c
      | some y => (c.1, c.2.add k y)
  | .removed k => (c.1, c.2.del k)
  | .updated x => Comp.updateEnd x c

/-- An event that arrives at the client (`triggerNotificationObject`). -/
def handle (c : Forest) (e : List Nat × Ev) : Forest :=
  match c.find e.1 with
  | none => c
  | some x => c.upd e.1 (e.2.apply x)

/-- All events, in order. -/
def handleAll (c : Forest) (l : List (List Nat × Ev)) : Forest := l.foldl handle c

/-! ### Calls of a client -/

/-- What a user of the client calls on a property object of a component; `q` is the path of the
object in the component. -/
inductive Call where
  | set (q : List Nat) (n v : Nat)
  | clear (q : List Nat) (n : Nat)
  | setProtected (q : List Nat) (n v : Nat)
  | clearProtected (q : List Nat) (n : Nat)

/-- What the call does: a request to the server (path and name of the property it names there, with
the value or the wish to clear) or a change of the client only. `setPropertyValue` sends the full
name (cpo:181-198, cpo:976-983); `clearPropertyValue` sends the name only (cpo:303-314); the protected
calls of a nested object, which is never complete (cpo:1082-1085), do not go to the server
(cpo:201-218, cpo:317-330). -/
inductive Effect where
  | request (q : List Nat) (n : Nat) (v : Option Nat)
  | here
deriving DecidableEq, Repr

/-- See `Effect`. -/
def Call.effect : Call → Effect
  | .set q n v => .request q n (some v)
  | .clear _ n => .request [] n none
  | .setProtected q n v => if q = [] then .request [] n (some v) else .here
  | .clearProtected q n => if q = [] then .request [] n none else .here

/-! ### Connecting -/

/-- The first connection (`connectAndGetDevice`, ndi:57-64): the client deserializes the tree of the
server; events that arrive until then are thrown away (ndi:379-390): `early` are the changes made
after the tree was serialized and before the client accepts events, `late` those after. -/
def connect (s : Forest) (early late : List (List Nat × Op)) : Forest × Option Forest :=
  let s1 := (history s early).1
  ((history s1 late).1,
    match s.load with
    | none => none
    | some c => some (handleAll c (history s1 late).2))

end Verif.Remote
