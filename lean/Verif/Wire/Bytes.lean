/-!
# Byte memory, little-endian numbers, outcomes

Memory blocks are byte lists. The wire formats of `/repo` are C structs copied with `memcpy` on
little-endian machines, so numbers are little-endian byte groups at fixed offsets.
-/

namespace Verif.Wire

abbrev Bytes := List UInt8

/-- Outcome of a piece of C++: a value, a thrown exception, or a read/write outside an allocated
block (undefined behaviour, kept apart from both). -/
inductive Res (α : Type) where
  | ok (a : α)
  | throws
  | oob
deriving DecidableEq, Repr

namespace Res
variable {α β : Type}

def bind (x : Res α) (f : α → Res β) : Res β :=
  match x with
  | ok a => f a
  | throws => throws
  | oob => oob

instance : Monad Res where
  pure := Res.ok
  bind := Res.bind

@[simp] theorem bind_ok (a : α) (f : α → Res β) : (Res.ok a >>= f) = f a := rfl
@[simp] theorem bind_throws (f : α → Res β) : ((Res.throws : Res α) >>= f) = Res.throws := rfl
@[simp] theorem bind_oob (f : α → Res β) : ((Res.oob : Res α) >>= f) = Res.oob := rfl
@[simp] theorem pure_eq (a : α) : (pure a : Res α) = Res.ok a := rfl

end Res

/-- `n` little-endian bytes of `v` (the low `8n` bits: a cast to an `8n`-bit unsigned type). -/
def leBytes : Nat → Nat → Bytes
  | 0, _ => []
  | n + 1, v => UInt8.ofNat v :: leBytes n (v / 256)

/-- Value of a little-endian byte group. -/
def leVal : Bytes → Nat
  | [] => 0
  | b :: t => b.toNat + 256 * leVal t

/-- Read `n` bytes at offset `off` of a block: `memcpy` or a field access. Reading past the end of the
block is undefined behaviour. -/
def rd (mem : Bytes) (off n : Nat) : Res Bytes :=
  if off + n ≤ mem.length then .ok ((mem.drop off).take n) else .oob

def rdU8 (mem : Bytes) (off : Nat) : Res UInt8 := do
  let b ← rd mem off 1
  pure (UInt8.ofNat (leVal b))

def rdU16 (mem : Bytes) (off : Nat) : Res UInt16 := do
  let b ← rd mem off 2
  pure (UInt16.ofNat (leVal b))

def rdU32 (mem : Bytes) (off : Nat) : Res UInt32 := do
  let b ← rd mem off 4
  pure (UInt32.ofNat (leVal b))

def rdU64 (mem : Bytes) (off : Nat) : Res UInt64 := do
  let b ← rd mem off 8
  pure (UInt64.ofNat (leVal b))

def u8 (v : UInt8) : Bytes := [v]
def u16 (v : UInt16) : Bytes := leBytes 2 v.toNat
def u32 (v : UInt32) : Bytes := leBytes 4 v.toNat
def u64 (v : UInt64) : Bytes := leBytes 8 v.toNat

/-! ### Facts about the above -/

@[simp] theorem leBytes_length (n v : Nat) : (leBytes n v).length = n := by
  induction n generalizing v with
  | zero => rfl
  | succ n ih => simp [leBytes, ih]

theorem leVal_leBytes (n v : Nat) : leVal (leBytes n v) = v % 256 ^ n := by
  induction n generalizing v with
  | zero => simp [leBytes, leVal, Nat.mod_one]
  | succ n ih =>
    have h : (UInt8.ofNat v).toNat = v % 256 := by simp
    simp only [leBytes, leVal, ih, h]
    rw [Nat.pow_succ, Nat.mul_comm (256 ^ n) 256, Nat.mod_mul]

theorem leVal_lt (b : Bytes) : leVal b < 256 ^ b.length := by
  induction b with
  | nil => simp [leVal]
  | cons x t ih =>
    have hx : x.toNat < 256 := x.toNat_lt
    simp only [leVal, List.length_cons, Nat.pow_succ]
    generalize 256 ^ t.length = p at *
    omega

theorem leBytes_leVal (b : Bytes) : leBytes b.length (leVal b) = b := by
  induction b with
  | nil => rfl
  | cons x t ih =>
    have hx : x.toNat < 256 := x.toNat_lt
    have h1 : (x.toNat + 256 * leVal t) / 256 = leVal t := by omega
    have h2 : UInt8.ofNat (x.toNat + 256 * leVal t) = x := by
      apply UInt8.toNat_inj.mp
      simp
    simp [leBytes, leVal, h1, h2, ih]

@[simp] theorem u8_length (v) : (u8 v).length = 1 := rfl
@[simp] theorem u16_length (v) : (u16 v).length = 2 := by simp [u16]
@[simp] theorem u32_length (v) : (u32 v).length = 4 := by simp [u32]
@[simp] theorem u64_length (v) : (u64 v).length = 8 := by simp [u64]

theorem rd_ok {mem : Bytes} {off n : Nat} (h : off + n ≤ mem.length) :
    rd mem off n = .ok ((mem.drop off).take n) := by simp [rd, h]

theorem rd_append (a m c : Bytes) : rd (a ++ (m ++ c)) a.length m.length = .ok m := by
  rw [rd_ok (by simp)]; simp

/-- Reading a field laid out between `a` and `c`. -/
theorem rd_at {mem a m c : Bytes} {off n : Nat} (hm : mem = a ++ (m ++ c)) (ho : off = a.length)
    (hn : n = m.length) : rd mem off n = .ok m := by
  subst hm ho hn; exact rd_append a m c

theorem rdU8_at {mem a c : Bytes} {v : UInt8} {off : Nat} (hm : mem = a ++ (u8 v ++ c))
    (ho : off = a.length) : rdU8 mem off = .ok v := by
  unfold rdU8; rw [rd_at hm ho (by simp)]; simp [u8, leVal]

theorem rdU16_at {mem a c : Bytes} {v : UInt16} {off : Nat} (hm : mem = a ++ (u16 v ++ c))
    (ho : off = a.length) : rdU16 mem off = .ok v := by
  unfold rdU16; rw [rd_at hm ho (by simp)]
  have := v.toNat_lt
  simp [u16, leVal_leBytes]

theorem rdU32_at {mem a c : Bytes} {v : UInt32} {off : Nat} (hm : mem = a ++ (u32 v ++ c))
    (ho : off = a.length) : rdU32 mem off = .ok v := by
  unfold rdU32; rw [rd_at hm ho (by simp)]
  have := v.toNat_lt
  simp [u32, leVal_leBytes]

theorem rdU64_at {mem a c : Bytes} {v : UInt64} {off : Nat} (hm : mem = a ++ (u64 v ++ c))
    (ho : off = a.length) : rdU64 mem off = .ok v := by
  unfold rdU64; rw [rd_at hm ho (by simp)]
  have := v.toNat_lt
  simp [u64, leVal_leBytes]

end Verif.Wire
