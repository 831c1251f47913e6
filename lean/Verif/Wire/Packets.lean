import Verif.Wire.Frames

/-! # Facts about packet headers inside packet frames -/

namespace Verif.Wire

/-- A generic header followed by the rest of the header block. -/
def ghdr (size ty flags : UInt8) (signal : UInt32) (n : Nat) (tail : Bytes) : Bytes :=
  u8 size ++ (u8 ty ++ (u8 0 ++ (u8 flags ++ (u32 signal ++ (u32 (UInt32.ofNat n) ++ tail)))))

theorem genericHeader_append (size ty flags signal n tail) (hn : n < U32W) :
    genericHeader size ty flags signal n ++ tail = ghdr size ty flags signal n tail := by
  have hV : U32W = 4294967296 := rfl
  have : leBytes 4 n = u32 (UInt32.ofNat n) := by
    rw [u32]; congr 1; simp; omega
  simp [genericHeader, ghdr, this]

theorem genericHeader_eq (size ty flags signal n) (hn : n < U32W) :
    genericHeader size ty flags signal n = ghdr size ty flags signal n [] := by
  rw [← genericHeader_append _ _ _ _ _ _ hn, List.append_nil]

section
variable (size ty flags : UInt8) (signal : UInt32) (n : Nat) (tail : Bytes)

theorem ghdr_length : (ghdr size ty flags signal n tail).length = 12 + tail.length := by
  simp [ghdr]; omega

theorem ghdr_size : rdU8 (ghdr size ty flags signal n tail) 0 = .ok size :=
  rdU8_at (a := []) (by rfl) rfl

theorem ghdr_type : rdU8 (ghdr size ty flags signal n tail) 1 = .ok ty :=
  rdU8_at (a := u8 size) (by rfl) rfl

theorem ghdr_flags : rdU8 (ghdr size ty flags signal n tail) 3 = .ok flags :=
  rdU8_at (a := u8 size ++ (u8 ty ++ u8 0)) (by simp [ghdr]; rfl) rfl

theorem ghdr_signal : rdU32 (ghdr size ty flags signal n tail) 4 = .ok signal :=
  rdU32_at (a := u8 size ++ (u8 ty ++ (u8 0 ++ u8 flags))) (by simp [ghdr]; rfl) rfl

theorem ghdr_payload : rdU32 (ghdr size ty flags signal n tail) 8 = .ok (UInt32.ofNat n) :=
  rdU32_at (a := u8 size ++ (u8 ty ++ (u8 0 ++ (u8 flags ++ u32 signal)))) (c := tail)
    (by simp [ghdr]) (by simp)

/-- A 64-bit field behind the generic header. -/
theorem ghdr_u64 {a c : Bytes} {v : UInt64} {off : Nat} (ht : tail = a ++ (u64 v ++ c))
    (ho : off = 12 + a.length) : rdU64 (ghdr size ty flags signal n tail) off = .ok v :=
  rdU64_at (a := ghdr size ty flags signal n a) (c := c) (by rw [ht]; simp [ghdr])
    (by rw [ghdr_length]; exact ho)

end

theorem cString_append (t rest : Bytes) (h : (0 : UInt8) ∉ t) : cString (t ++ 0 :: rest) = .ok t := by
  induction t with
  | nil => simp [cString]
  | cons b t ih =>
    simp only [List.mem_cons, not_or] at h
    simp only [List.cons_append, cString]
    rw [if_neg (fun e => h.1 e.symm), ih h.2]
    rfl

theorem u64s_length (ids : List UInt64) : (u64s ids).length = ids.length * 8 := by
  induction ids with
  | nil => rfl
  | cons v t ih => simp [u64s, ih]; omega

theorem readIds_u64s (ids : List UInt64) (a c : Bytes) {off : Nat} (ho : off = a.length) :
    readIds (a ++ (u64s ids ++ c)) ids.length off = .ok ids := by
  induction ids generalizing a off with
  | nil => rfl
  | cons v t ih =>
    simp only [List.length_cons, readIds]
    rw [rdU64_at (a := a) (v := v) (c := u64s t ++ c) (by simp [u64s]) ho]
    have := ih (a ++ u64 v) (off := off + 8) (by simp [ho])
    rw [show a ++ (u64s (v :: t) ++ c) = a ++ u64 v ++ (u64s t ++ c) by simp [u64s]]
    rw [Res.bind_ok, this]
    rfl

theorem readIds_inb (mem : Bytes) (n off : Nat) (h : off + n * 8 ≤ mem.length) :
    ∃ ids, readIds mem n off = .ok ids := by
  induction n generalizing off with
  | zero => exact ⟨[], rfl⟩
  | succ n ih =>
    obtain ⟨ids, hi⟩ := ih (off + 8) (by omega)
    have : ∃ v, rdU64 mem off = .ok v := by unfold rdU64; rw [rd_ok (by omega)]; exact ⟨_, rfl⟩
    obtain ⟨v, hv⟩ := this
    exact ⟨v :: ids, by simp [readIds, hv, hi]⟩

theorem cString_inb (t : Bytes) (h : (0 : UInt8) ∈ t) : ∃ s, cString t = .ok s := by
  induction t with
  | nil => simp at h
  | cons b t ih =>
    simp only [cString]
    split
    · exact ⟨_, rfl⟩
    · rename_i hb
      have : (0 : UInt8) ∈ t := by
        rcases List.mem_cons.mp h with h | h
        · exact absurd h.symm hb
        · exact h
      obtain ⟨s, hs⟩ := ih this
      exact ⟨b :: s, by rw [hs]; rfl⟩

theorem rdU8_inb {mem : Bytes} {off : Nat} (h : off + 1 ≤ mem.length) : ∃ v, rdU8 mem off = .ok v := by
  unfold rdU8; rw [rd_ok h]; exact ⟨_, rfl⟩

theorem rdU32_inb {mem : Bytes} {off : Nat} (h : off + 4 ≤ mem.length) : ∃ v, rdU32 mem off = .ok v := by
  unfold rdU32; rw [rd_ok h]; exact ⟨_, rfl⟩

theorem rdU64_inb {mem : Bytes} {off : Nat} (h : off + 8 ≤ mem.length) : ∃ v, rdU64 mem off = .ok v := by
  unfold rdU64; rw [rd_ok h]; exact ⟨_, rfl⟩

theorem buildPkt_parse (pad : UInt32) (junk : UInt64) (p : Pkt) (hp : p.Fits) :
    parsePkt (buildPkt pad junk p).1 (buildPkt pad junk p).2 = .ok (some p) := by
  have hV : U32W = 4294967296 := rfl
  have hm : maxSize = 0x0FFFFFFF := rfl
  cases p with
  | event signal text =>
    obtain ⟨h0, hl⟩ := hp
    simp only [buildPkt]
    rw [genericHeader_eq _ _ _ _ _ (by omega)]
    unfold parsePkt
    rw [ghdr_type, ghdr_flags, ghdr_signal]
    simp [cString_append text [] h0]
  | release ids =>
    simp only [Pkt.Fits] at hp
    simp only [buildPkt]
    rw [genericHeader_eq _ _ _ _ _ (by omega)]
    unfold parsePkt
    rw [ghdr_type, ghdr_flags, ghdr_signal]
    simp only [Res.bind_ok]
    rw [if_neg (by decide), if_neg (by decide), if_pos (by decide), ghdr_payload]
    simp only [Res.bind_ok]
    have e : (UInt32.ofNat (ids.length * 8)).toNat / 8 = ids.length := by simp; omega
    have := readIds_u64s ids [] [] (off := 0) rfl
    simp only [List.nil_append, List.append_nil] at this
    rw [e, this]
    rfl
  | alreadySent signal cr pid did =>
    simp only [buildPkt]
    rw [genericHeader_append _ _ _ _ _ _ (by omega)]
    unfold parsePkt
    rw [ghdr_type, ghdr_flags, ghdr_signal]
    simp only [Res.bind_ok]
    rw [if_neg (by decide), if_neg (by decide), if_neg (by decide), if_pos (by decide)]
    rw [ghdr_u64 (a := u32 pad) (c := u64 did) (v := pid) (ht := by simp) (ho := by simp)]
    rw [ghdr_u64 (a := u32 pad ++ u64 pid) (c := []) (v := did) (ht := by simp) (ho := by simp)]
    cases cr <;> rfl
  | data signal cr pid did count off raw =>
    simp only [Pkt.Fits] at hp
    simp only [buildPkt]
    rw [genericHeader_append _ _ _ _ _ _ (by omega)]
    unfold parsePkt
    rw [ghdr_type, ghdr_flags, ghdr_signal]
    simp only [Res.bind_ok]
    rw [if_neg (by decide), if_pos (by decide)]
    rw [ghdr_u64 (a := u32 pad) (c := u64 did ++ (u64 count ++ u64 (offsetBits junk off))) (v := pid)
      (ht := by simp) (ho := by simp)]
    rw [ghdr_u64 (a := u32 pad ++ u64 pid) (c := u64 count ++ u64 (offsetBits junk off)) (v := did)
      (ht := by simp) (ho := by simp)]
    rw [ghdr_u64 (a := u32 pad ++ (u64 pid ++ u64 did)) (c := u64 (offsetBits junk off)) (v := count)
      (ht := by simp) (ho := by simp)]
    rw [ghdr_u64 (a := u32 pad ++ (u64 pid ++ (u64 did ++ u64 count))) (c := []) (v := offsetBits junk off)
      (ht := by simp) (ho := by simp)]
    have f1 : ((2 : UInt8) &&& 6) >>> 1 = 1 := by decide
    have f2 : ((4 : UInt8) &&& 6) >>> 1 = 2 := by decide
    have f3 : ((1 : UInt8) &&& 6) >>> 1 = 0 := by decide
    have f4 : ((3 : UInt8) &&& 6) >>> 1 = 1 := by decide
    have f5 : ((5 : UInt8) &&& 6) >>> 1 = 2 := by decide
    have g2 : ((2 : UInt8) &&& 1) = 0 := by decide
    have g4 : ((4 : UInt8) &&& 1) = 0 := by decide
    have g3 : ((3 : UInt8) &&& 1) = 1 := by decide
    have g5 : ((5 : UInt8) &&& 1) = 1 := by decide
    cases cr <;> cases off <;> simp [offsetFlags, offsetBits, f1, f2, f3, f4, f5, g2, g3, g4, g5]

theorem buildPkt_ok (pad : UInt32) (junk : UInt64) (p : Pkt) (hp : p.Fits) :
    PacketOk (buildPkt pad junk p).1 (buildPkt pad junk p).2 := by
  have hV : U32W = 4294967296 := rfl
  have hm : maxSize = 0x0FFFFFFF := rfl
  cases p with
  | event signal text =>
    obtain ⟨h0, hl⟩ := hp
    simp only [buildPkt]
    rw [genericHeader_eq _ _ _ _ _ (by omega)]
    refine ⟨by rw [ghdr_length]; simp, by rw [ghdr_size, ghdr_length]; rfl, by rw [ghdr_length]; simp,
      by rw [ghdr_payload]; simp, by rw [ghdr_length]; simp; omega⟩
  | release ids =>
    simp only [Pkt.Fits] at hp
    simp only [buildPkt]
    rw [genericHeader_eq _ _ _ _ _ (by omega)]
    refine ⟨by rw [ghdr_length]; simp, by rw [ghdr_size, ghdr_length]; rfl, by rw [ghdr_length]; simp,
      by rw [ghdr_payload, u64s_length], by rw [ghdr_length, u64s_length]; simp; omega⟩
  | alreadySent signal cr pid did =>
    simp only [buildPkt]
    rw [genericHeader_append _ _ _ _ _ _ (by omega)]
    refine ⟨by rw [ghdr_length]; simp, by rw [ghdr_size, ghdr_length]; simp,
      by rw [ghdr_length]; simp, by rw [ghdr_payload]; rfl, by rw [ghdr_length]; simp; omega⟩
  | data signal cr pid did count off raw =>
    simp only [Pkt.Fits] at hp
    simp only [buildPkt]
    rw [genericHeader_append _ _ _ _ _ _ (by omega)]
    refine ⟨by rw [ghdr_length]; simp, by rw [ghdr_size, ghdr_length]; simp,
      by rw [ghdr_length]; simp, by rw [ghdr_payload], by rw [ghdr_length]; simp; omega⟩

end Verif.Wire
