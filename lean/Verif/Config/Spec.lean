import Verif.Config.Model
import Mathlib.Data.List.Forall2

/-!
# What saving and loading a configuration should come to

Written against the data of the model only (property objects, trees of function blocks, documents), not against
its functions.
-/

namespace Verif.Config.Spec

/-! ## Property objects -/

/-- What a user reads: the value of every plain property, nested ones under the names that lead to them. -/
def vals : Obj → List (List String × Val)
  | .nil => []
  | .val n d _ c r => ([n], match c with | some v => v | none => d) :: vals r
  | .sub n _ o r => (vals o).map (fun x => (n :: x.1, x.2)) ++ vals r
  | .skip _ r => vals r

/-- The names of an object's own properties. -/
def names : Obj → List String
  | .nil => []
  | .val n _ _ _ r => n :: names r
  | .sub n _ _ r => n :: names r
  | .skip n r => n :: names r

/-- No two properties of an object have the same name. -/
def Distinct : Obj → Prop
  | .nil => True
  | .val n _ _ _ r => n ∉ names r ∧ Distinct r
  | .sub n _ o r => n ∉ names r ∧ Distinct o ∧ Distinct r
  | .skip n r => n ∉ names r ∧ Distinct r

/-- Two objects with the same properties: names, defaults and checks agree, the stored values need not.  Frozen objects cannot
be written; they must agree in their values. -/
def SameProps : Obj → Obj → Prop
  | .nil, .nil => True
  | .val n d acc _ r, .val n' d' acc' _ r' => n = n' ∧ d = d' ∧ acc = acc' ∧ SameProps r r'
  | .sub n fz o r, .sub n' fz' o' r' =>
    n = n' ∧ fz = fz' ∧ (if fz then vals o = vals o' else SameProps o o') ∧ SameProps r r'
  | .skip n r, .skip n' r' => n = n' ∧ SameProps r r'
  | _, _ => False

/-- Every stored value is one its property takes unchanged whatever the values of the properties after it; `pre` are the
values of the properties before. -/
def Accepted (pre : Vals) : Obj → Prop
  | .nil => True
  | .val n d acc c r =>
    (∀ v, c = some v → ∀ later, acc (pre ++ later) v = some v)
      ∧ Accepted (pre ++ [(n, match c with | some v => v | none => d)]) r
  | .sub _ fz o r => (fz = false → Accepted [] o) ∧ Accepted pre r
  | .skip _ r => Accepted pre r

/-- The first member of a document with a name. -/
inductive Says : Doc → String → Entry → Prop
  | val (n v r) : Says (.val n v r) n (.val v)
  | sub (n d r) : Says (.sub n d r) n (.sub d)
  | afterVal (m v r n x) : m ≠ n → Says r n x → Says (.val m v r) n x
  | afterSub (m d r n x) : m ≠ n → Says r n x → Says (.sub m d r) n x

/-- All plain properties of an object read their defaults, nested ones too. -/
def AllDefault : Obj → Prop
  | .nil => True
  | .val _ _ _ c r => c = none ∧ AllDefault r
  | .sub _ _ o r => AllDefault o ∧ AllDefault r
  | .skip _ r => AllDefault r

/-- The object has what the document says: a plain property named in it reads a value that its check made of the document's,
one not named has no value stored; nested objects follow the nested documents, and are at their defaults if the document does
not name them; frozen ones are as they were. -/
def Follows (d : Doc) : Obj → Obj → Prop
  | .nil, .nil => True
  | .val n df acc _ r, .val n' df' acc' c' r' =>
    n' = n ∧ df' = df ∧ acc' = acc
      ∧ ((∃ v w env, Says d n (.val v) ∧ acc env v = some w
            ∧ (match c' with | some x => x | none => df) = w)
          ∨ ((∀ x, ¬ Says d n x) ∧ c' = none))
      ∧ Follows d r r'
  | .sub n fz o r, .sub n' fz' o' r' =>
    n' = n ∧ fz' = fz
      ∧ ((∃ e, Says d n (.sub e) ∧ fz = true ∧ o' = o)
          ∨ (∃ e, Says d n (.sub e) ∧ fz = false ∧ Follows e o o')
          ∨ ((∀ x, ¬ Says d n x) ∧ AllDefault o'))
      ∧ Follows d r r'
  | .skip n r, .skip n' r' => n' = n ∧ Follows d r r'
  | _, _ => False

/-! ## Trees of function blocks -/

/-- The same attributes where they are locked. -/
def LockedSame (l : Lock) (a b : Attrs) : Prop :=
  (l.active = true → a.active = b.active) ∧ (l.visible = true → a.visible = b.visible)
    ∧ (l.desc = true → a.desc = b.desc) ∧ (l.name = true → a.name = b.name)

/-- The same signal but for what a user may have changed. -/
def SigFits (t u : Sg) : Prop :=
  t.id = u.id ∧ t.lock = u.lock ∧ t.pubLocked = u.pubLocked ∧ LockedSame t.lock t.attrs u.attrs
    ∧ (t.pubLocked = true → t.pub = u.pub)

/-- The function blocks `t` and `u` are of the same make: the same properties, ports and signals, the same tags, the same locked
attributes.  What is stored in `t` is accepted. -/
structure HeadFits (t u : Head) : Prop where
  typ : t.typ = u.typ
  cfg : t.cfg = u.cfg
  lock : t.lock = u.lock
  tags : t.tags = u.tags
  ports : t.ports = u.ports
  attrs : LockedSame t.lock t.attrs u.attrs
  distinct : Distinct t.props
  accepted : Accepted [] t.props
  props : SameProps t.props u.props
  sigs : List.Forall₂ SigFits t.sigs u.sigs
  sigIds : (t.sigs.map (·.id)).Nodup

/-- The local identifiers. -/
def ids : Fbs → List String
  | .nil => []
  | .cons h _ r => h.id :: ids r

/-- Whether a function block was added by a user: its type can be added, and it is visible. -/
def Removable (e : Env) (outer : String) (h : Head) : Prop :=
  e.avail outer h.typ ≠ none ∧ h.attrs.visible = true

instance (e outer h) : Decidable (Removable e outer h) :=
  match hx : e.avail outer h.typ, hv : h.attrs.visible with
  | none, _ => isFalse fun x => x.1 hx
  | some _, true => isTrue ⟨fun x => by simp [hx] at x, hv⟩
  | some _, false => isFalse fun x => by simp [Removable, hv] at x

/-- The function blocks that were not added by a user. -/
def stay (e : Env) (outer : String) : Fbs → Fbs
  | .nil => .nil
  | .cons h k r => if Removable e outer h then stay e outer r else .cons h k (stay e outer r)

/-- The function blocks `t` can be had in a container of type `outer` with the built-in function blocks `u`: first come the
built-in ones, which are those of `u`; the others are made by the container, with the same local identifier and configuration.
No two have the same local identifier. -/
def Fits (e : Env) : Fbs → String → Fbs → Prop
  | .nil, _, u => u = .nil
  | .cons h k r, outer, u =>
    h.id ∉ ids r ∧
    match e.avail outer h.typ with
    | none =>
      match u with
      | .nil => False
      | .cons h' k' r' => h.id = h'.id ∧ HeadFits h h' ∧ Fits e k h.typ (stay e h.typ k') ∧ Fits e r outer r'
    | some mk =>
      u = .nil ∧ Fits e r outer .nil
        ∧ ∃ h' k', mk h.id h.cfg = some (h', k') ∧ h.id = h'.id ∧ HeadFits h h' ∧ Fits e k h.typ (stay e h.typ k')

/-- The same function block to a user, its local identifier aside. -/
structure SameHead (t r : Head) : Prop where
  typ : r.typ = t.typ
  cfg : r.cfg = t.cfg
  attrs : r.attrs = t.attrs
  lock : r.lock = t.lock
  tags : r.tags = t.tags
  props : vals r.props = vals t.props
  ports : r.ports = t.ports
  sigs : r.sigs = t.sigs

/-- The same function blocks in the same order, with the same identifiers, all the way down. -/
def SameFbs : Fbs → Fbs → Prop
  | .nil, .nil => True
  | .cons h k r, .cons h' k' r' => h'.id = h.id ∧ SameHead h h' ∧ SameFbs k k' ∧ SameFbs r r'
  | _, _ => False

/-- The path `q` leads into a function block added by a user: one of the blocks `u` of the container of type `outer` at `p`,
or one nested in a built-in one. -/
def Added (e : Env) : Fbs → String → Path → Path → Prop
  | .nil, _, _, _ => False
  | .cons h k r, outer, p, q =>
    (if Removable e outer h then (p ++ [h.id]) <+: q else Added e k h.typ (p ++ [h.id]) q)
      ∨ Added e r outer p q

/-! ## Connections -/

/-- One of the function blocks of a container. -/
def Kid : Fbs → Head → Fbs → Prop
  | .nil, _, _ => False
  | .cons h k r, h', k' => (h' = h ∧ k' = k) ∨ Kid r h' k'

/-- Function blocks at paths below the node `h`, `k` at `p`. -/
inductive At : Head → Fbs → Path → Head → Fbs → Path → Prop
  | here (h k p) : At h k p h k p
  | kid (h k p h' k' h'' k'' q) : Kid k h' k' → At h' k' (p ++ [h'.id]) h'' k'' q → At h k p h'' k'' q

/-- There is a port of that name. -/
def HasPort (h : Head) (k : Fbs) (x : Key) : Prop :=
  ∃ h' k', At h k [h.id] h' k' x.1 ∧ ∃ y ∈ h'.ports, y.id = x.2

/-- There is a signal of that name. -/
def HasSignal (h : Head) (k : Fbs) (x : SigId) : Prop :=
  ∃ h' k', At h k [h.id] h' k' x.1 ∧ ∃ y ∈ h'.sigs, y.id = x.2

/-- `s` is what the port `x` is connected to: the first entry for it. -/
def Connected (c : Conns) (x : Key) (s : SigId) : Prop :=
  ∃ l r, c = l ++ (x, s) :: r ∧ ∀ y ∈ l, y.1 ≠ x

/-- The connections contain no loop: function blocks can be ranked so that every connection goes from a signal of a lower one
to a port of a higher one. -/
def NoLoop (c : Conns) : Prop :=
  ∃ rank : Path → Nat, ∀ x s, Connected c x s → rank s.1 < rank x.1

/-- The device `u` is of the same make as the device `t`, and what is stored in `t` is accepted. -/
structure DevFits (e : Env) (t u : Dev) : Prop where
  root : HeadFits t.root u.root
  kids : Fits e t.kids t.root.typ (stay e t.root.typ u.kids)

/-- The same device to a user: attributes, properties, signals and function blocks.  The connections, the local identifier of
the device and the user lock are stated apart. -/
structure SameDev (t r : Dev) : Prop where
  root : SameHead t.root r.root
  kids : SameFbs t.kids r.kids

/-! ## Any document -/

/-- What a load never changes about a function block. -/
structure Kept (x y : Head) : Prop where
  ident : y.id = x.id
  typ : y.typ = x.typ
  cfg : y.cfg = x.cfg
  ports : y.ports = x.ports
  tags : y.tags = x.tags
  lock : y.lock = x.lock
  attrs : LockedSame x.lock x.attrs y.attrs
  sigs : y.sigs.map (·.id) = x.sigs.map (·.id)

/-- The local identifiers in a document. -/
def docIds : DFbs → List String
  | .nil => []
  | .cons d _ r => d.id :: docIds r

/-- A container gives a new function block the local identifier asked for. -/
def Honest (e : Env) : Prop :=
  ∀ outer typ mk i n x, e.avail outer typ = some mk → mk i n = some x → x.1.id = i

end Verif.Config.Spec
