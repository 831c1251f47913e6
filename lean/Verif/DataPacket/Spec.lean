import Verif.DataPacket.Model

/-!
# Specification: what the samples of a data packet are

Independent of the loops of the model: one value per sample index.
-/

namespace Verif.DataPacket

/-- Value of a constant rule at sample `i`: that of the last entry whose position is at most `i`, or the
initial value. -/
def constAt {V : Type} (c : V) (es : List (Nat × V)) (i : Nat) : V :=
  (((es.filter fun e => e.1 ≤ i).getLast?).map Prod.snd).getD c

/-- The entries are in order of position. -/
def Sorted {V : Type} (es : List (Nat × V)) : Prop := es.Pairwise fun a b => a.1 ≤ b.1

instance {V : Type} (es : List (Nat × V)) : Decidable (Sorted es) := by unfold Sorted; infer_instance

/-- Two's complement arithmetic of `w` bits: the integer sample types. -/
def bvArith (w : Nat) : Arith (BitVec w) := ⟨(· + ·), (· * ·), BitVec.ofNat w, BitVec.ofInt w⟩

/-- A descriptor that passed validation, with an explicit or linear rule, whose reference domain offset (if
not zero) belongs to an integer sample type. -/
def Descr.Good {V : Type} (d : Descr V) : Prop :=
  d.validate = true ∧ d.rule.isConstant = false ∧ d.rule ≠ .other ∧ (d.hasRef = true → d.kind = .int)

/-- Sample `i` of a packet with descriptor `d`, packet offset `off` and raw samples `f`: the raw sample,
scaled if there is post scaling, or the value of the linear rule, plus the reference domain offset. -/
def specSample {V : Type} (A : Arith V) (d : Descr V) (off : Int) (f : Nat → V) (i : Nat) : V :=
  let base : V := match d.rule with
    | .linear delta start => A.add (A.mul delta (A.ofIndex i)) (A.add (A.ofOffset off) start)
    | _ => match d.scaling with
      | some s => s (f i)
      | none => f i
  match d.refOffset with
  | some o => if o = 0 then base else A.add base (A.ofOffset o)
  | none => base

/-- All samples of a packet. -/
def specData {V : Type} (A : Arith V) (d : Descr V) (off : Int) (f : Nat → V) (n : Nat) : List V :=
  (List.range n).map (specSample A d off f)

/-- The sizes of `n` samples fit 32 bits. -/
def Fits {V : Type} (d : Descr V) (n : Nat) : Prop :=
  n < U32 ∧ n * d.sampleSize < U32 ∧ n * d.rawSampleSize < U32

/-- The samples a read delivers; a null pointer stands for no samples. -/
def Read.list {V : Type} : Read V → Option (List V)
  | .samples l => some l
  | .null => some []
  | _ => none

/-! ### Histories of one packet -/

/-- What a user does with a packet. -/
inductive Op (V : Type) where
  | write (f : Nat → V)
  | data
  | reuse (d : Option (Descr V)) (n : Option Nat) (off : Option Int) (canRealloc : Bool) (f : Nat → V)

inductive Out (V : Type) where
  | none
  | read (r : Read V)
  | reused (r : Reuse)

/-- One operation on the model. -/
def step {V : Type} (A : Arith V) (junk : V) (p : Pkt V) : Op V → Pkt V × Out V
  | .write f => (p.write f, .none)
  | .data => let r := p.getData A junk; (r.1, .read r.2)
  | .reuse d n off c f => let r := p.reuse d n off c f; (r.1, .reused r.2)

/-- What the user of a packet knows: the descriptor, the number of samples and offset it was created or
last reused with, the raw samples written last, and the raw samples there were when it was first read. -/
structure View (V : Type) where
  descr : Descr V
  count : Nat
  offset : Int
  cells : Nat → V
  seen : Option (Nat → V)

/-- Update of the view by one operation and its outcome. -/
def View.next {V : Type} (w : View V) : Op V × Out V → View V
  | (.write f, _) => { w with cells := f }
  | (.data, _) => { w with seen := some (w.seen.getD w.cells) }
  | (.reuse d n off _ f, .reused .success) =>
    ⟨d.getD w.descr, n.getD w.count, off.getD w.offset, f, none⟩
  | (.reuse _ _ _ _ _, _) => w

/-- The view after a history. -/
def View.run {V : Type} (w : View V) (h : List (Op V × Out V)) : View V := h.foldl View.next w

/-- Every reuse of a history asks for a good descriptor and a size that fits 32 bits. -/
def OpOk {V : Type} (w : View V) : Op V → Prop
  | .reuse d n _ _ _ => (d.getD w.descr).Good ∧ Fits (d.getD w.descr) (n.getD w.count)
  | _ => True

/-- `OpOk` all along a history. -/
def OpsOk {V : Type} (A : Arith V) (junk : V) : Pkt V → View V → List (Op V) → Prop
  | _, _, [] => True
  | p, w, op :: ops => OpOk w op ∧ OpsOk A junk (step A junk p op).1 (w.next (op, (step A junk p op).2)) ops

/-- The packet was not written to between its first read and now. -/
def View.Clean {V : Type} (w : View V) : Prop := ∀ g, w.seen = some g → g = w.cells

end Verif.DataPacket
