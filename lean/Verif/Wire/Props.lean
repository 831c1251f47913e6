import Verif.Wire.Packets

/-! # C13 and C17: transport headers and native streaming frames -/

namespace Verif.Wire

/-! ### C13: the transport header packs type and size without loss -/

/-- Packing a type and a size in range and unpacking gives both back. -/
theorem C13_roundtrip (ty : BitVec 32) (size : BitVec 64) (ht : ty.toNat < 16)
    (hs : size.toNat ≤ 0x0FFFFFFF) :
    unpackType (packHeader ty size) = ty ∧ unpackSize (packHeader ty size) = size :=
  ⟨unpack_type_pack ty size ht, unpack_size_pack ty size (by omega)⟩

example : packHeader 9#32 0x0ABCDEF1#64 = 0x9ABCDEF1#32 ∧
    unpackType 0x9ABCDEF1#32 = 9#32 ∧ unpackSize 0x9ABCDEF1#32 = 0x0ABCDEF1#64 := by decide

/-- Every header word is the packing of its type and size, both of which are in range. -/
theorem C13_every_word (h : BitVec 32) : packHeader (unpackType h) (unpackSize h) = h ∧
    (unpackType h).toNat < 16 ∧ (unpackSize h).toNat ≤ 0x0FFFFFFF :=
  ⟨pack_unpack h, unpackType_lt h, unpackSize_le h⟩

example : packHeader (unpackType 0xFFFFFFFF#32) (unpackSize 0xFFFFFFFF#32) = 0xFFFFFFFF#32 := by decide

/-- The size limit is exact: larger sizes lose their upper bits. -/
theorem C13_limit_is_tight : unpackSize (packHeader 1#32 (BitVec.ofNat 64 (0x0FFFFFFF + 1))) = 0#64 := by
  decide

/-- The four header bytes in front of a frame tell type and size, whatever follows. -/
theorem C13_wire (ty size : Nat) (ht : ty < 16) (hs : size ≤ 0x0FFFFFFF) (rest : Bytes) :
    (headerBytes ty size).length = 4 ∧
    (unpackType (BitVec.ofNat 32 (leVal ((headerBytes ty size ++ rest).take 4)))).toNat = ty ∧
    (unpackSize (BitVec.ofNat 32 (leVal ((headerBytes ty size ++ rest).take 4)))).toNat = size :=
  ⟨headerBytes_length ty size, header_read ty size ht hs rest⟩

example : headerBytes 3 0x01020304 = [4, 3, 2, 0x31] := by decide

/-! ### C17: native streaming frames decode to what was sent -/

/-- Frames sent one after the other arrive as themselves and in order, without errors; the receiver drops
exactly those of the kinds it does not act on. -/
theorem C17_stream (role : Role) (fs : List Frame) (b : Bytes) (hp : ∀ f ∈ fs, f.Proper)
    (h : encodeAll fs = .ok b) : session role b = expected role fs := by
  have := session_encodeAll role hp h []
  rw [List.append_nil] at this
  rw [this, session_none (by simp [readOne]), List.append_nil]

/-- Later bytes do not change what the complete frames were decoded to. -/
theorem C17_stream_then (role : Role) (fs : List Frame) (b rest : Bytes) (hp : ∀ f ∈ fs, f.Proper)
    (h : encodeAll fs = .ok b) : session role (b ++ rest) = expected role fs ++ session role rest :=
  session_encodeAll role hp h rest

example : encodeAll [.signalAvailable 7 [97, 98] [123, 125], .initDone, .subscribeAck 9] =
    .ok [10, 0, 0, 32, 7, 0, 0, 0, 2, 0, 97, 98, 123, 125, 0, 0, 0, 96, 4, 0, 0, 112, 9, 0, 0, 0] := by
  decide

example : session .client [10, 0, 0, 32, 7, 0, 0, 0, 2, 0, 97, 98, 123, 125, 0, 0, 0, 96, 4, 0, 0, 112,
      9, 0, 0, 0] =
    [.frame (.signalAvailable 7 [97, 98] [123, 125]), .frame .initDone, .frame (.subscribeAck 9)] := by
  decide

/-- A frame can be sent exactly if it keeps the documented limits. -/
theorem C17_sendable (f : Frame) (hp : f.Proper) : (∃ b, encodeFrame f = .ok b) ↔ f.Fits := by
  have hm : maxSize = 0x0FFFFFFF := rfl
  cases f with
  | packet h p =>
    have e : encodeFrame (.packet h p) = sendPacketBuffer h p := rfl
    rw [e, sendPacketBuffer_eq hp]
    exact ⟨fun _ => ⟨hp.2.2.2.2, trivial⟩, fun _ => ⟨_, rfl⟩⟩
  | config m =>
    have e : encodeFrame (.config m) = sendConfig m := rfl
    rw [e, sendConfig_eq hp]
    exact ⟨fun _ => ⟨hp.2.1, trivial⟩, fun _ => ⟨_, rfl⟩⟩
  | initDone => exact ⟨fun _ => ⟨Nat.zero_le _, trivial⟩, fun _ => ⟨_, rfl⟩⟩
  | initRequest => exact ⟨fun _ => ⟨Nat.zero_le _, trivial⟩, fun _ => ⟨_, rfl⟩⟩
  | signalAvailable i s j =>
    simp only [encodeFrame, Frame.Fits, Frame.bodyLength]
    split
    · simp; omega
    · rw [sendTasks_isOk]
      simp; omega
  | signalUnavailable i s =>
    simp only [encodeFrame, Frame.Fits, Frame.bodyLength]; rw [sendTasks_isOk]; simp; omega
  | subscribe i s =>
    simp only [encodeFrame, Frame.Fits, Frame.bodyLength]; rw [sendTasks_isOk]; simp; omega
  | unsubscribe i s =>
    simp only [encodeFrame, Frame.Fits, Frame.bodyLength]; rw [sendTasks_isOk]; simp; omega
  | subscribeAck i =>
    simp only [encodeFrame, Frame.Fits, Frame.bodyLength]; rw [sendTasks_isOk]; simp; omega
  | unsubscribeAck i =>
    simp only [encodeFrame, Frame.Fits, Frame.bodyLength]; rw [sendTasks_isOk]; simp; omega
  | properties j =>
    simp only [encodeFrame, Frame.Fits, Frame.bodyLength]; rw [sendTasks_isOk]; simp; omega

example : (Frame.subscribe 3 [97]).Fits ∧ ¬(Frame.signalAvailable 3 (List.replicate 65536 97) []).Fits := by
  refine ⟨⟨by decide, trivial⟩, fun h => ?_⟩
  have := h.2
  simp only [List.length_replicate] at this
  omega

/-- What has been decoded is never revised: more bytes only add to it. For arbitrary bytes. -/
theorem C17_incremental (role : Role) (s t : Bytes) : session role s <+: session role (s ++ t) :=
  session_prefix role s t

example : session .client [0, 0, 0] = [] ∧ session .client [0, 0, 0, 96] = [.frame .initDone] := by decide

/-- A frame that has been cut short is not acted on: complete frames followed by a proper part of another
one give exactly the complete frames. -/
theorem C17_truncated (role : Role) (fs : List Frame) (g : Frame) (b bg cut : Bytes)
    (hp : ∀ f ∈ fs, f.Proper) (hg : g.Proper) (h : encodeAll fs = .ok b) (h2 : encodeFrame g = .ok bg)
    (hpre : cut <+: bg) (hne : cut ≠ bg) : session role (b ++ cut) = expected role fs := by
  rw [session_encodeAll role hp h, session_none (readOne_incomplete role hg h2 hpre hne), List.append_nil]

example : session .server [8, 0, 0, 64, 7, 0, 0, 0, 97, 98, 99, 100] =
      [.frame (.subscribe 7 [97, 98, 99, 100])] ∧
    session .server [8, 0, 0, 64, 7, 0, 0, 0, 97, 98, 99] = [] := by decide

/-- Whatever bytes arrive, decoding frames never reads outside the received memory. -/
theorem C17_in_bounds (role : Role) (s : Bytes) : Item.oob ∉ session role s := by
  have hout : ∀ r : Res ReadOut, r ≠ .oob → Item.oob ∉ (outcome r).1 := by
    intro r hr
    cases r with
    | ok o => cases o <;> simp [outcome]
    | throws => simp [outcome]
    | oob => exact absurd rfl hr
  have hrd : ∀ ty reader (data : Bytes), data.length ≤ maxSize → dispatch role ty = .body reader →
      reader data ≠ .oob := by
    intro ty reader data hl hd
    have hcfg : readConfig data ≠ .oob := by
      have hU : U64W = 18446744073709551616 := rfl
      unfold readConfig
      rcases copyData_cases data 1 0 (by omega) with h | ⟨h, -⟩
      · rw [h]; simp [guarded]
      rw [h]
      simp only [Res.bind_ok]
      split
      · simp [guarded]
      rcases copyData_cases data 16 0 (by omega) with h | ⟨h, hl16⟩
      · rw [h]; simp [guarded]
      rw [h]
      simp only [Res.bind_ok]
      have hlen : ((data.drop 0).take 16).length = 16 := by simp; omega
      generalize (data.drop 0).take 16 = hd at *
      obtain ⟨x, hx⟩ := rdU32_inb (mem := hd) (off := 4) (by omega)
      have := x.toNat_lt
      have hps : cfgPayloadSize hd = .ok x.toNat := by simp [cfgPayloadSize, hx]
      rw [hps]
      simp only [Res.bind_ok]
      split
      · rcases copyData_cases data x.toNat 16 (by omega) with h | ⟨h, hx2⟩
        · rw [h]; simp [guarded]
        · rw [h]
          simp only [Res.bind_ok]
          have hV : U32W = 4294967296 := rfl
          have hm : maxSize = 0x0FFFFFFF := rfl
          rw [if_neg (by rw [Nat.mod_eq_of_lt (by omega)]; omega)]
          simp [guarded]
      · simp [guarded]
    unfold dispatch at hd
    clear hout
    repeat' split at hd
    all_goals simp only [Dispatch.body.injEq, reduceCtorEq] at hd
    all_goals subst hd
    all_goals first
      | with_reducible exact (readPacketBuffer_inb data).1
      | with_reducible exact readSignalAvailable_inb data hl
      | with_reducible exact readIdString_inb _ data hl
      | with_reducible exact readAck_inb _ data
      | with_reducible exact hcfg
      | (rw [readProperties_eq]; exact fun h => nomatch h)
      | exact fun h => nomatch h
  have key : ∀ n (s : Bytes), s.length ≤ n → Item.oob ∉ session role s := by
    intro n
    induction n with
    | zero =>
      intro s hs
      have : s = [] := by simpa using hs
      subst this
      rw [session_none (by simp [readOne])]
      simp
    | succ n ih =>
      intro s hs
      cases h : readOne role s with
      | none => rw [session_none h]; simp
      | some x =>
        obtain ⟨is, b, rest⟩ := x
        have hsh := readOne_shrinks h
        have his : Item.oob ∉ is := by
          unfold readOne at h
          split at h
          · cases h
          simp only at h
          split at h
          · simp only [Option.some.injEq, Prod.mk.injEq] at h
            rw [← h.1]; simp
          · rename_i rdr hd
            split at h
            · cases h
            · simp only [Option.some.injEq, Prod.mk.injEq] at h
              rw [← h.1]
              refine hout _ (hrd _ rdr _ ?_ hd)
              rw [List.length_take]
              exact Nat.le_trans (Nat.min_le_left _ _) (unpackSize_le _)
        cases b with
        | false => rw [session_stop h]; exact his
        | true =>
          rw [session_more h, List.mem_append, not_or]
          exact ⟨his, ih rest (by omega)⟩
  exact key s.length s (Nat.le_refl _)

/-- A malformed frame is reported and ends the session instead of being read past its end. -/
example : session .client [2, 0, 0, 32, 1, 2, 0, 0, 0, 96] = [.error, .stopped] := by decide

/-- Packets: the header and payload blocks built for a packet are read back as that packet, and they are
blocks the session layer transports (`C17_stream`), whatever the uninitialised bytes contain. -/
theorem C17_packet (pad : UInt32) (junk : UInt64) (p : Pkt) (hp : p.Fits) :
    parsePkt (buildPkt pad junk p).1 (buildPkt pad junk p).2 = .ok (some p) ∧
    PacketOk (buildPkt pad junk p).1 (buildPkt pad junk p).2 :=
  ⟨buildPkt_parse pad junk p hp, buildPkt_ok pad junk p hp⟩

/-- End to end: a list of packets sent to a session arrives as the same list. -/
theorem C17_packets_end_to_end (role : Role) (pad : UInt32) (junk : UInt64) (ps : List Pkt)
    (hp : ∀ p ∈ ps, p.Fits) :
    ∃ b, encodeAll (ps.map fun p => .packet (buildPkt pad junk p).1 (buildPkt pad junk p).2) = .ok b ∧
      (session role b).map (fun i => match i with
        | .frame (.packet h q) => parsePkt h q
        | _ => .throws) = ps.map fun p => .ok (some p) := by
  have hfs : ∀ f ∈ ps.map (fun p => Frame.packet (buildPkt pad junk p).1 (buildPkt pad junk p).2),
      f.Proper := by
    intro f hf
    obtain ⟨p, hpm, rfl⟩ := List.mem_map.mp hf
    exact buildPkt_ok pad junk p (hp p hpm)
  have henc : ∃ b, encodeAll
      (ps.map fun p => .packet (buildPkt pad junk p).1 (buildPkt pad junk p).2) = .ok b := by
    clear hfs
    induction ps with
    | nil => exact ⟨[], rfl⟩
    | cons p t ih =>
      obtain ⟨b2, h2⟩ := ih (fun q hq => hp q (by simp [hq]))
      have e : encodeFrame (.packet (buildPkt pad junk p).1 (buildPkt pad junk p).2) =
        sendPacketBuffer (buildPkt pad junk p).1 (buildPkt pad junk p).2 := rfl
      rw [List.map_cons]
      simp only [encodeAll]
      rw [e, sendPacketBuffer_eq (buildPkt_ok pad junk p (hp p (by simp))), h2]
      exact ⟨_, rfl⟩
  obtain ⟨b, hb⟩ := henc
  refine ⟨b, hb, ?_⟩
  rw [C17_stream role _ b hfs hb]
  clear hb hfs
  induction ps with
  | nil => rfl
  | cons p t ih =>
    have h1 := ih (fun q hq => hp q (by simp [hq]))
    simp only [expected, List.map_cons] at h1 ⊢
    rw [List.filter_cons_of_pos (by cases role <;> rfl)]
    simp only [List.map_cons]
    rw [h1, buildPkt_parse pad junk p (hp p (by simp))]

example : (Pkt.data 5 true 9 9 3 (.int 100) [1, 2, 3]).Fits ∧ (Pkt.event 5 [123, 125]).Fits ∧
    (Pkt.release [1, 2 ^ 40]).Fits := by decide

example : buildPkt 0 0 (.data 5 true 9 8 3 (.int 100) [1, 2]) =
    ([48, 1, 0, 3, 5, 0, 0, 0, 2, 0, 0, 0, 0, 0, 0, 0, 9, 0, 0, 0, 0, 0, 0, 0, 8, 0, 0, 0, 0, 0, 0, 0,
      3, 0, 0, 0, 0, 0, 0, 0, 100, 0, 0, 0, 0, 0, 0, 0], [1, 2]) := by decide

/-- Reading the fields of a received packet stays inside its two blocks provided the header block is as
long as its type demands, an event text is terminated and a release buffer is as long as it says.
Partial: the session layer checks only that the header has twelve bytes, see the two violations below. -/
theorem C17_header_in_bounds_partial (hdr payload : Bytes) (ty : UInt8) (n : UInt32)
    (ht : rdU8 hdr 1 = .ok ty) (hn : rdU32 hdr 8 = .ok n) (hl : headerNeeded ty ≤ hdr.length)
    (hev : ty = 0 → payload ≠ [] → (0 : UInt8) ∈ payload)
    (hrel : ty = 2 → n.toNat ≤ payload.length) : parsePkt hdr payload ≠ .oob := by
  have h12 : 12 ≤ hdr.length := by
    unfold headerNeeded at hl; split at hl
    · omega
    · split at hl <;> omega
  obtain ⟨fl, hfl⟩ := rdU8_inb (mem := hdr) (off := 3) (by omega)
  obtain ⟨sg, hsg⟩ := rdU32_inb (mem := hdr) (off := 4) (by omega)
  unfold parsePkt
  rw [ht, hfl, hsg]
  simp only [Res.bind_ok]
  split
  · split
    · simp
    · rename_i h0 he
      have hz := hev h0 (by intro e; rw [e] at he; simp at he)
      obtain ⟨s, hs⟩ := cString_inb payload hz
      rw [hs]; simp
  split
  · rename_i h1
    have : 48 ≤ hdr.length := by unfold headerNeeded at hl; rw [if_pos h1] at hl; exact hl
    obtain ⟨a, ha⟩ := rdU64_inb (mem := hdr) (off := 16) (by omega)
    obtain ⟨b, hb⟩ := rdU64_inb (mem := hdr) (off := 24) (by omega)
    obtain ⟨c, hc⟩ := rdU64_inb (mem := hdr) (off := 32) (by omega)
    obtain ⟨d, hd⟩ := rdU64_inb (mem := hdr) (off := 40) (by omega)
    rw [ha, hb, hc, hd]
    simp only [Res.bind_ok, Res.pure_eq]
    split
    · simp
    · split <;> simp
  split
  · rename_i h2
    obtain ⟨ids, hi⟩ := readIds_inb payload (n.toNat / 8) 0 (by have := hrel h2; omega)
    rw [hn]
    simp only [Res.bind_ok]
    rw [hi]; simp
  split
  · rename_i h0 h1 h2 h3
    have : 32 ≤ hdr.length := by
      unfold headerNeeded at hl; rw [if_neg h1, if_pos h3] at hl; exact hl
    obtain ⟨a, ha⟩ := rdU64_inb (mem := hdr) (off := 16) (by omega)
    obtain ⟨b, hb⟩ := rdU64_inb (mem := hdr) (off := 24) (by omega)
    rw [ha, hb]
    simp
  · simp

example : parsePkt [32, 3, 0, 1, 5, 0, 0, 0, 0, 0, 0, 0, 0, 0, 0, 0, 9, 0, 0, 0, 0, 0, 0, 0, 8, 0, 0, 0, 0,
    0, 0, 0] [] = .ok (some (.alreadySent 5 true 9 8)) := by decide

/-- Twelve header bytes that claim to be a data packet pass the session layer, and reading the packet then
runs past the header block. -/
theorem C17_violation_short_header : ∃ s hdr,
    session .client s = [.frame (.packet hdr [])] ∧ parsePkt hdr [] = .oob :=
  ⟨[12, 0, 0, 16, 12, 1, 0, 0, 5, 0, 0, 0, 0, 0, 0, 0], [12, 1, 0, 0, 5, 0, 0, 0, 0, 0, 0, 0],
    by decide, by decide⟩

/-- An event packet whose text is not terminated passes the session layer, and reading it runs past the
payload block. -/
theorem C17_violation_event_text : ∃ s hdr payload,
    session .client s = [.frame (.packet hdr payload)] ∧ parsePkt hdr payload = .oob :=
  ⟨[14, 0, 0, 16, 12, 0, 0, 0, 5, 0, 0, 0, 2, 0, 0, 0, 123, 125], [12, 0, 0, 0, 5, 0, 0, 0, 2, 0, 0, 0],
    [123, 125], by decide, by decide⟩

/-- The size check adds in 32 bits: a data packet of 2³² − 48 payload bytes is not refused but sent behind
a transport header that announces an empty frame. -/
theorem C17_violation_size_wrap (pad : UInt32) (junk : UInt64) (raw : Bytes)
    (h : raw.length = 4294967248) :
    ∃ hdr payload rest, (hdr, payload) = buildPkt pad junk (.data 5 false 1 1 1 .none raw) ∧
      encodeFrame (.packet hdr payload) = .ok (headerBytes 1 0 ++ rest) ∧
      rest.length = 4294967296 := by
  have hV : U32W = 4294967296 := rfl
  have hm : maxSize = 0x0FFFFFFF := rfl
  let tail := u32 pad ++ (u64 1 ++ (u64 1 ++ (u64 1 ++ u64 (offsetBits junk .none))))
  refine ⟨ghdr 48 1 0 5 raw.length tail, raw, ghdr 48 1 0 5 raw.length tail ++ raw, ?_, ?_, ?_⟩
  · simp only [buildPkt]
    rw [genericHeader_append _ _ _ _ _ _ (by omega)]
    rfl
  · have e : ∀ a b, encodeFrame (.packet a b) = sendPacketBuffer a b := fun _ _ => rfl
    have hl : (ghdr 48 1 0 5 raw.length tail).length = 48 := by rw [ghdr_length]; simp [tail]
    rw [e]
    unfold sendPacketBuffer
    rw [ghdr_size, ghdr_payload]
    have e48 : (48 : UInt8).toNat = 48 := rfl
    have e2 : (UInt32.ofNat raw.length).toNat = raw.length := by simp; omega
    simp only [Res.bind_ok, e48, e2]
    rw [show (48 + raw.length) % U32W = 0 by rw [hV]; omega, if_neg (by omega), rd_ok (by omega)]
    rw [Res.bind_ok, if_pos (by omega), rd_ok (by omega)]
    simp only [Res.bind_ok, List.drop_zero, List.take_length, Res.pure_eq]
    rw [List.take_of_length_le (by omega), List.append_assoc]
    rfl
  · rw [List.length_append, ghdr_length]; simp [tail]; omega

example : unpackSize (BitVec.ofNat 32 (leVal (headerBytes 1 0))) = 0#64 := by decide

end Verif.Wire
