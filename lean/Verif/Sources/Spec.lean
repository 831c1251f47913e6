import Verif.Sources.Model
/-!
# What users expect of streaming connections
-/
namespace Verif.Sources.Spec

/-- A capability can be used, with a priority: it is a streaming, its protocol is allowed, and the
priority is the place of the protocol in the list of preferred ones. -/
structure Eligible (cfg : Cfg) (c : Cap) (p : Nat) : Prop where
  streaming : c.streaming = true
  allowed : cfg.allowed = [] ∨ c.proto ∈ cfg.allowed
  place : cfg.preferred[p]? = some c.proto
  first : ∀ q, q < p → cfg.preferred[q]? ≠ some c.proto

/-- Modules make the streamings they are asked for. -/
def Faithful (make : Text → Option Strm) : Prop := ∀ s x, make s = some x → x.conn = s

/-- The streamings for the capabilities of a device are of the groups of the capabilities. -/
def Grouped (cfg : Cfg) (make : Text → Option Strm) (i : Info) : Prop :=
  ∀ c ∈ i.caps, ∀ s x, choose cfg i c = some s → make s = some x → x.group = c.group

/-- No two sources are of one group. -/
def OnePerGroup (l : List Strm) : Prop := l.Pairwise fun a b => a.group ≠ [] → a.group ≠ b.group

/-- The addresses to choose from: those that discovery found last, if it found the protocol at all. -/
def Available (i : Info) (c : Cap) (l : List Addr) : Prop :=
  (∃ before d after, i.found = before ++ d :: after ∧ d.streaming = true ∧ d.proto = c.proto ∧ d.addrs = l ∧
    ∀ e ∈ after, e.streaming = true → e.proto ≠ c.proto) ∨
  ((∀ e ∈ i.found, e.streaming = true → e.proto ≠ c.proto) ∧ l = c.addrs)

/-- The type of an address is a matter of the address. -/
def Typed (l : List Addr) (d : Addr) : Prop := ∀ a ∈ l, a.addr = d.addr → a.type = d.type

/-- A device with a source. -/
def Has (t : Tree) (q : Path) (l : List Strm) : Prop := ∃ n ∈ t, n.path = q ∧ ∃ i, n.kind = .device i l

/-- The devices whose sources a component should use: the owner, and with MinHops all devices between. -/
def Counts (cfg : Cfg) (owner x q : Path) : Prop :=
  q = owner ∨ (cfg.minHops = true ∧ owner <+: q ∧ q <+: x)

/-- The sources that a component should use. -/
def Wanted (cfg : Cfg) (owner : Path) (t : Tree) (x : Path) (s : Strm) : Prop :=
  ∃ q l, Has t q l ∧ s ∈ l ∧ Counts cfg owner x q

/-- The source that should be active: the first one of the closest device that has any. -/
def Preferred (cfg : Cfg) (owner : Path) (t : Tree) (x : Path) (ok : Strm → Bool) (c : Text) : Prop :=
  ∃ q l s r, Has t q l ∧ Counts cfg owner x q ∧ l.filter ok = s :: r ∧ s.conn = c ∧
    ∀ q' l', Has t q' l' → Counts cfg owner x q' → l'.filter ok ≠ [] → q' <+: q

/-- What a signal or a port should have afterwards. -/
structure Served (cfg : Cfg) (owner : Path) (t : Tree) (x : Path) (ok : Strm → Bool)
    (old : List Text) (act : Option Text) (new : List Text) (act' : Option Text) : Prop where
  all : ∀ c, c ∈ new ↔ c ∈ old ∨ ∃ s, Wanted cfg owner t x s ∧ ok s = true ∧ s.conn = c
  kept : ∀ a, act = some a → act' = some a
  chosen : act = none → ∀ c, act' = some c ↔ Preferred cfg owner t x ok c

/-- What should have become of a component when its streaming was set up: private signals are left
alone. -/
def After (cfg : Cfg) (owner : Path) (t : Tree) (n : Node) : Prop :=
  match n.kind with
  | .signal true d old act => ∃ new act', ⟨n.path, .signal true d new act'⟩ ∈ t ∧
      Served cfg owner t n.path (fun _ => true) old act new act'
  | .port old act => ∃ new act', ⟨n.path, .port new act'⟩ ∈ t ∧
      Served cfg owner t n.path (fun s => s.toDevice) old act new act'
  | .device _ _ => True
  | _ => n ∈ t

/-- Every component comes after those it is below, and no two are at one place. -/
def Ordered (t : Tree) : Prop := t.Pairwise fun a b => ¬ b.path <+: a.path

/-- Nothing is below signals and ports. -/
def Leaves (t : Tree) : Prop :=
  ∀ n ∈ t, ∀ m ∈ t, n.path <+: m.path → (∀ i l, n.kind ≠ .device i l) → n.kind ≠ .folder → m = n

end Verif.Sources.Spec
