import Verif.Wire.Spec

/-! # Facts about configuration packets -/

namespace Verif.Wire

theorem leBytes4_u32 (n : Nat) (h : n < 4294967296) : leBytes 4 n = u32 (UInt32.ofNat n) := by
  have : (UInt32.ofNat n).toNat = n := by simp; omega
  simp [u32, this]

theorem leBytes2_u16 (n : Nat) (h : n < 65536) : leBytes 2 n = u16 (UInt16.ofNat n) := by
  have : (UInt16.ofNat n).toNat = n := by simp; omega
  simp [u16, this]

theorem cfgHeader_length (j ty n id) : (cfgHeader j ty n id).length = 16 := by simp [cfgHeader]

section
variable (j : Junk) (ty : UInt8) (n : Nat) (id : UInt64) (p : Bytes)

theorem hdr_size : rdU8 (cfgHeader j ty n id ++ p) 0 = .ok 16 :=
  rdU8_at (a := []) (c := u8 ty ++ ([j.1, j.2] ++ (leBytes 4 n ++ u64 id)) ++ p)
    (by simp [cfgHeader]) rfl

theorem hdr_type : cfgType (cfgHeader j ty n id ++ p) = .ok ty :=
  rdU8_at (a := u8 16) (c := [j.1, j.2] ++ (leBytes 4 n ++ u64 id) ++ p) (by simp [cfgHeader]) rfl

theorem hdr_id : cfgId (cfgHeader j ty n id ++ p) = .ok id :=
  rdU64_at (a := u8 16 ++ (u8 ty ++ ([j.1, j.2] ++ leBytes 4 n))) (c := p) (by simp [cfgHeader]) (by simp)

theorem hdr_psize32 (h : n < 4294967296) :
    rdU32 (cfgHeader j ty n id ++ p) 4 = .ok (UInt32.ofNat n) :=
  rdU32_at (a := u8 16 ++ (u8 ty ++ [j.1, j.2])) (c := u64 id ++ p)
    (by simp [cfgHeader, leBytes4_u32 n h]) (by simp)

theorem hdr_psize (h : n < 4294967296) : cfgPayloadSize (cfgHeader j ty n id ++ p) = .ok n := by
  unfold cfgPayloadSize
  rw [hdr_psize32 j ty n id p h]
  have : (UInt32.ofNat n).toNat = n := by simp; omega
  simp [this]

theorem hdr_payload (a m c : Bytes) (hp : p = a ++ (m ++ c)) :
    rd (cfgHeader j ty n id ++ p) (16 + a.length) m.length = .ok m :=
  rd_at (a := cfgHeader j ty n id ++ a) (c := c) (by simp [hp]) (by simp [cfgHeader_length]) rfl

theorem hdr_u16 (a c : Bytes) (v : UInt16) (hp : p = a ++ (u16 v ++ c)) :
    rdU16 (cfgHeader j ty n id ++ p) (16 + a.length) = .ok v :=
  rdU16_at (a := cfgHeader j ty n id ++ a) (c := c) (by simp [hp]) (by simp [cfgHeader_length])

theorem hdr_u8 (a c : Bytes) (v : UInt8) (hp : p = a ++ (u8 v ++ c)) :
    rdU8 (cfgHeader j ty n id ++ p) (16 + a.length) = .ok v :=
  rdU8_at (a := cfgHeader j ty n id ++ a) (c := c) (by simp [hp]) (by simp [cfgHeader_length])

theorem hdr_check (h : n < 4294967296) (q : Nat → Bool) (hq : q n = true) :
    cfgCheck (cfgHeader j ty n id ++ p) ty q = .ok n := by
  simp [cfgCheck, hdr_type, hdr_psize j ty n id p h, hq]

end

theorem cfgCreate_ok {j ty id p b} (h : cfgCreate j ty id p = .ok b) :
    b = cfgHeader j ty p.length id ++ p ∧ 16 + p.length ≤ maxSize := by
  unfold cfgCreate at h
  split at h
  · exact absurd h (by simp)
  · simp only [Res.ok.injEq] at h
    exact ⟨h.symm, by omega⟩

theorem cfgCreate_isOk (j ty id p) :
    (∃ b, cfgCreate j ty id p = .ok b) ↔ 16 + p.length ≤ maxSize := by
  unfold cfgCreate
  split <;> simp <;> omega

/-- The three ingredients of a created packet. -/
def CfgMsg.ty : CfgMsg → UInt8
  | .infoRequest _ => ptGetProtocolInfo
  | .infoReply .. => ptGetProtocolInfo
  | .upgradeRequest .. => ptUpgradeProtocol
  | .upgradeReply .. => ptUpgradeProtocol
  | .rpc .. => ptRpc
  | .notification _ => ptServerNotification
  | .invalidRequest _ => ptInvalidRequest
  | .noReplyRpc _ => ptNoReplyRpc
  | .rejected .. => ptConnectionRejected

def CfgMsg.uid : CfgMsg → UInt64
  | .infoRequest i => i
  | .infoReply i _ _ => i
  | .upgradeRequest i _ => i
  | .upgradeReply i _ => i
  | .rpc i _ => i
  | .notification _ => idMax
  | .invalidRequest i => i
  | .noReplyRpc _ => idMax
  | .rejected i _ => i

def CfgMsg.payload : CfgMsg → Bytes
  | .infoRequest _ => []
  | .infoReply _ c vs => u16 c ++ (leBytes 2 vs.length ++ u16s vs)
  | .upgradeRequest _ v => u16 v
  | .upgradeReply _ b => u8 (if b then 1 else 0)
  | .rpc _ s => s
  | .notification s => s
  | .invalidRequest _ => []
  | .noReplyRpc s => s
  | .rejected _ s => s

theorem cfgEncode_eq (j m) : cfgEncode j m = cfgCreate j m.ty m.uid m.payload := by cases m <;> rfl

theorem cfgCreate_ne_oob (j ty id p) : cfgCreate j ty id p ≠ .oob := by
  unfold cfgCreate; split <;> simp

theorem u16s_length (vs : List UInt16) : (u16s vs).length = 2 * vs.length := by
  induction vs with
  | nil => rfl
  | cons v t ih => simp [u16s, ih]; omega

theorem setInsert_last (acc : List UInt16) (v : UInt16) (h : ∀ x ∈ acc, x.toNat < v.toNat) :
    setInsert v acc = acc ++ [v] := by
  induction acc with
  | nil => rfl
  | cons x t ih =>
    have hx : x.toNat < v.toNat := h x (by simp)
    have h1 : ¬ v < x := by simp only [UInt16.lt_iff_toNat_lt]; omega
    have h2 : x < v := by simp only [UInt16.lt_iff_toNat_lt]; exact hx
    simp [setInsert, h1, h2, ih fun y hy => h y (by simp [hy])]

theorem readVersions_ok (mem a : Bytes) (vs acc : List UInt16) (hm : mem = a ++ u16s vs)
    (hs : Ascending (acc ++ vs)) :
    readVersions mem vs.length a.length acc = .ok (acc ++ vs) := by
  induction vs generalizing a acc with
  | nil => simp [readVersions]
  | cons v t ih =>
    have h1 : rdU16 mem a.length = .ok v := rdU16_at (c := u16s t) (by simpa [u16s] using hm) rfl
    have h2 : setInsert v acc = acc ++ [v] := by
      apply setInsert_last
      intro x hx
      exact (List.pairwise_append.mp hs).2.2 x hx v (by simp)
    have h3 := ih (a ++ u16 v) (acc ++ [v]) (by simpa [u16s] using hm) (by simpa using hs)
    simp only [List.length_cons, readVersions, h1, Res.bind_ok, h2]
    simpa using h3

/-- Every access of the loop lies inside the block if the block is long enough. -/
theorem readVersions_inb (mem : Bytes) (n off : Nat) (acc : List UInt16) (h : off + 2 * n ≤ mem.length) :
    ∃ r, readVersions mem n off acc = .ok r := by
  induction n generalizing off acc with
  | zero => exact ⟨acc, rfl⟩
  | succ n ih =>
    simp only [readVersions, rdU16]
    rw [rd_ok (by omega)]
    simpa using ih (off + 2) _ (by omega)

theorem readVersions_out (mem : Bytes) (n off : Nat) (acc : List UInt16)
    (hn : mem.length < off + 2 * n) (h0 : n ≠ 0) : readVersions mem n off acc = .oob := by
  induction n generalizing off acc with
  | zero => exact absurd rfl h0
  | succ n ih =>
    simp only [readVersions, rdU16]
    by_cases h : off + 2 ≤ mem.length
    · rw [rd_ok h]
      simp only [Res.bind_ok, Res.pure_eq]
      by_cases hz : n = 0
      · omega
      · exact ih (off + 2) _ (by omega) hz
    · simp [rd, h]

end Verif.Wire
