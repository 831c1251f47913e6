import Verif.Wire.Config

/-!
# C14, C15, C16, C48: configuration protocol packets
-/

namespace Verif.Wire

/-! ## C14 -/

private theorem jsonRound {j ty id s b} (h : cfgCreate j ty id s = .ok b) (hs : s ≠ []) :
    parseJson ty b = .ok s := by
  obtain ⟨rfl, hl⟩ := cfgCreate_ok h
  have hm : maxSize = 0x0FFFFFFF := rfl
  have h0 : s.length ≠ 0 := by simpa using hs
  unfold parseJson
  rw [hdr_check j ty _ id s (by omega) _ (by simpa using h0)]
  have := hdr_payload j ty s.length id s [] s [] (by simp)
  simpa using this

/-- For every kind, the parse function for that kind applied to a created packet returns the message it
was created from (kind, id and content), whatever the two uninitialised header bytes are. Partial:
messages with an empty JSON text and version sets with all 65536 elements are excluded, see the two
violations below. -/
theorem C14_roundtrip_partial (j : Junk) (m : CfgMsg) (b : Bytes) (hp : m.Proper) (hs : m.Survives)
    (h : cfgEncode j m = .ok b) : cfgDecode m.kind b = .ok m := by
  have hm : maxSize = 0x0FFFFFFF := rfl
  cases m with
  | infoRequest i =>
    replace h : cfgCreate j ptGetProtocolInfo i [] = .ok b := h
    obtain ⟨rfl, hl⟩ := cfgCreate_ok h
    simp only [cfgDecode, CfgMsg.kind, parseInfoRequest]
    rw [hdr_check _ _ _ _ _ (by simp) _ (by simp), hdr_id]
    rfl
  | infoReply i c vs =>
    obtain ⟨rfl, hl⟩ := cfgCreate_ok h
    have hlen : vs.length < 65536 := hs
    have hc := leBytes2_u16 vs.length hlen
    simp only [cfgDecode, CfgMsg.kind, parseInfoReply]
    rw [hdr_check _ _ _ _ _ (by omega) _ (by simp; omega)]
    rw [show (16 : Nat) = 16 + ([] : Bytes).length from rfl]
    rw [hdr_u16 _ _ _ _ _ [] (leBytes 2 vs.length ++ u16s vs) c (by simp)]
    rw [show (18 : Nat) = 16 + (u16 c).length from by simp]
    rw [hdr_u16 _ _ _ _ _ (u16 c) (u16s vs) (UInt16.ofNat vs.length) (by rw [hc])]
    have hn : (UInt16.ofNat vs.length).toNat = vs.length := by simp; omega
    simp only [Res.bind_ok, hn]
    have hr := readVersions_ok
      (cfgHeader j ptGetProtocolInfo (u16 c ++ (leBytes 2 vs.length ++ u16s vs)).length i ++
        (u16 c ++ (leBytes 2 vs.length ++ u16s vs)))
      (cfgHeader j ptGetProtocolInfo (u16 c ++ (leBytes 2 vs.length ++ u16s vs)).length i ++
        (u16 c ++ leBytes 2 vs.length)) vs [] (by simp) (by rw [List.nil_append]; exact hp)
    rw [show (cfgHeader j ptGetProtocolInfo (u16 c ++ (leBytes 2 vs.length ++ u16s vs)).length i ++
        (u16 c ++ leBytes 2 vs.length)).length = 20 by simp [cfgHeader_length]] at hr
    rw [hr]
    simp [hdr_id]
  | upgradeRequest i v =>
    replace h : cfgCreate j ptUpgradeProtocol i (u16 v) = .ok b := h
    obtain ⟨rfl, hl⟩ := cfgCreate_ok h
    simp only [cfgDecode, CfgMsg.kind, parseUpgradeRequest]
    rw [hdr_check _ _ _ _ _ (by simp) _ (by simp)]
    have := hdr_u16 j ptUpgradeProtocol (u16 v).length i (u16 v) [] [] v (by simp)
    simp only [List.length_nil, Nat.add_zero] at this
    simp only [Res.bind_ok, this, hdr_id, Res.pure_eq]
  | upgradeReply i v =>
    replace h : cfgCreate j ptUpgradeProtocol i (u8 (if v then 1 else 0)) = .ok b := h
    obtain ⟨rfl, hl⟩ := cfgCreate_ok h
    simp only [cfgDecode, CfgMsg.kind, parseUpgradeReply]
    rw [hdr_check _ _ _ _ _ (by simp) _ (by simp)]
    have := hdr_u8 j ptUpgradeProtocol 1 i (u8 (if v then 1 else 0)) [] []
      (if v then 1 else 0) (by simp)
    simp only [List.length_nil, Nat.add_zero] at this
    cases v <;> simp_all [hdr_id]
  | rpc i s =>
    have hj := jsonRound (h : cfgCreate j ptRpc i s = .ok b) hs
    obtain ⟨rfl, hl⟩ := cfgCreate_ok h
    simp [cfgDecode, CfgMsg.kind, parseRpc, hj, hdr_id]
  | notification s =>
    have hj := jsonRound (h : cfgCreate j ptServerNotification idMax s = .ok b) hs
    simp [cfgDecode, CfgMsg.kind, parseNotification, hj]
  | invalidRequest i =>
    replace h : cfgCreate j ptInvalidRequest i [] = .ok b := h
    obtain ⟨rfl, hl⟩ := cfgCreate_ok h
    simp only [cfgDecode, CfgMsg.kind, parseInvalidRequest]
    rw [hdr_check _ _ _ _ _ (by simp) _ (by simp), hdr_id]
    rfl
  | noReplyRpc s =>
    have hj := jsonRound (h : cfgCreate j ptNoReplyRpc idMax s = .ok b) hs
    simp [cfgDecode, CfgMsg.kind, parseNoReplyRpc, hj]
  | rejected i s =>
    have hj := jsonRound (h : cfgCreate j ptConnectionRejected i s = .ok b) hs
    obtain ⟨rfl, hl⟩ := cfgCreate_ok h
    simp [cfgDecode, CfgMsg.kind, parseRejected, hj, hdr_id]

example : cfgDecode .infoReply (match cfgEncode (7, 9) (.infoReply 5 3 [1, 2, 258]) with
    | .ok b => b | _ => []) = .ok (.infoReply 5 3 [1, 2, 258]) := by decide

example : cfgEncode (1, 2) (.rpc 0xFFFFFFFF00 [0x7b, 0x7d]) =
    .ok [16, 0x82, 1, 2, 2, 0, 0, 0, 0, 0xFF, 0xFF, 0xFF, 0xFF, 0, 0, 0, 0x7b, 0x7d] := by decide

/-- A created packet carries the documented type number and the id of the message. -/
theorem C14_type_and_id (j : Junk) (m : CfgMsg) (b : Bytes) (h : cfgEncode j m = .ok b) :
    (∃ t, cfgType b = .ok t ∧ t.toNat = m.kind.typeNumber) ∧
    (∃ i, cfgId b = .ok i ∧ i.toNat = m.id) := by
  have key : ∀ ty id p, cfgCreate j ty id p = .ok b →
      ty.toNat = m.kind.typeNumber → id.toNat = m.id →
      (∃ t, cfgType b = .ok t ∧ t.toNat = m.kind.typeNumber) ∧ (∃ i, cfgId b = .ok i ∧ i.toNat = m.id) := by
    intro ty id p hc h1 h2
    obtain ⟨rfl, -⟩ := cfgCreate_ok hc
    exact ⟨⟨ty, hdr_type .., h1⟩, ⟨id, hdr_id .., h2⟩⟩
  rw [cfgEncode_eq] at h
  refine key _ _ _ h ?_ ?_ <;> cases m <;> rfl

/-- Creating a packet succeeds exactly if header and payload are within the transport limit, and never
touches memory outside the new block. -/
theorem C14_limit (j : Junk) (m : CfgMsg) :
    ((∃ b, cfgEncode j m = .ok b) ↔ 16 + m.payloadLength ≤ 0x0FFFFFFF) ∧ cfgEncode j m ≠ .oob := by
  constructor
  · cases m <;> simp only [cfgEncode, createInfoRequest, createInfoReply, createUpgradeRequest,
      createUpgradeReply, createRpc, createNotification, createInvalidRequest, createNoReplyRpc,
      createRejected, cfgCreate_isOk] <;>
      simp [CfgMsg.payloadLength, maxSize, u16s_length] <;> omega
  · rw [cfgEncode_eq]; exact cfgCreate_ne_oob _ _ _ _

example : (CfgMsg.rpc 1 [65]).payloadLength = 1 := rfl

/-- A packet of one type handed to the parse function of a kind with another type is an error. -/
theorem C14_wrong_kind (mem : Bytes) (t : UInt8) (k : CfgKind) (h : cfgType mem = .ok t)
    (hk : t.toNat ≠ k.typeNumber) : cfgDecode k mem = .throws := by
  have key : ∀ (c : UInt8) (q : Nat → Bool), t.toNat ≠ c.toNat → cfgCheck mem c q = .throws := by
    intro c q hc
    have : t ≠ c := fun e => hc (by rw [e])
    simp [cfgCheck, h, this]
  cases k <;>
    simp only [cfgDecode, parseInfoRequest, parseInfoReply, parseUpgradeRequest, parseUpgradeReply,
      parseRpc, parseNotification, parseNoReplyRpc, parseRejected, parseInvalidRequest, parseJson] <;>
    (rw [key] <;> first | rfl | exact hk)

example : cfgDecode .rpc [16, 0x81, 0, 0, 0, 0, 0, 0, 0, 0, 0, 0, 0, 0, 0, 0] = .throws := by decide

/-- An empty JSON text can be sent but is rejected by the receiver. -/
theorem C14_violation_empty_json : ∃ b, cfgEncode (0, 0) (.rpc 1 []) = .ok b ∧
    cfgDecode .rpc b = .throws := ⟨[16, 0x82, 0, 0, 0, 0, 0, 0, 1, 0, 0, 0, 0, 0, 0, 0], by decide, by decide⟩

/-- The set of all 65536 versions is announced as the empty set: its size is cut to 16 bits. -/
theorem C14_violation_all_versions (i : UInt64) (c : UInt16) (vs : List UInt16) (hv : vs.length = 65536) :
    ∃ b, cfgEncode (0, 0) (.infoReply i c vs) = .ok b ∧ cfgDecode .infoReply b = .ok (.infoReply i c []) := by
  have hm : maxSize = 0x0FFFFFFF := rfl
  have hl := u16s_length vs
  have hc : leBytes 2 vs.length = u16 0 := by rw [hv]; decide
  obtain ⟨b, hb⟩ := (cfgCreate_isOk (0, 0) ptGetProtocolInfo i
    (u16 c ++ (leBytes 2 vs.length ++ u16s vs))).mpr (by simp; omega)
  refine ⟨b, hb, ?_⟩
  obtain ⟨rfl, hl⟩ := cfgCreate_ok hb
  simp only [cfgDecode, parseInfoReply]
  rw [hdr_check _ _ _ _ _ (by omega) _ (by simp; omega)]
  rw [show (16 : Nat) = 16 + ([] : Bytes).length from rfl]
  rw [hdr_u16 _ _ _ _ _ [] (leBytes 2 vs.length ++ u16s vs) c (by simp)]
  rw [show (18 : Nat) = 16 + (u16 c).length from by simp]
  rw [hdr_u16 _ _ _ _ _ (u16 c) (u16s vs) 0 (by rw [hc])]
  simp [readVersions, hdr_id]

example : ((List.range 65536).map UInt16.ofNat).length = 65536 := by simp

/-! ## C15 -/

private theorem cfgCheck_block {mem : Bytes} (hb : IsBlock mem) (ty q) :
    cfgCheck mem ty q = .throws ∨ (cfgCheck mem ty q = .ok (mem.length - 16) ∧ q (mem.length - 16) = true) := by
  obtain ⟨h1, h2⟩ := hb
  have ht : cfgType mem = .ok (UInt8.ofNat (leVal ((mem.drop 1).take 1))) := by
    unfold cfgType rdU8; rw [rd_ok (by omega)]; rfl
  unfold cfgCheck
  rw [ht, h1]
  simp only [Res.bind_ok, Res.pure_eq]
  split
  · exact Or.inl rfl
  · split
    · right; constructor <;> first | rfl | assumption
    · exact Or.inl rfl

/-- Whatever body a peer sends, turning it into a packet block reads only inside the body, writes only
inside the new block, and a delivered block is a whole packet: its declared size is its real size. -/
theorem C15_received_block (data : Bytes) (hl : data.length ≤ 0x0FFFFFFF) :
    readConfig data ≠ .oob ∧
    ∀ mem, readConfig data = .ok (.deliver (.config mem)) → IsBlock mem ∧ mem <+: data := by
  have hU : U64W = 18446744073709551616 := rfl
  have hV : U32W = 4294967296 := rfl
  have cd : ∀ n off, n + off ≤ data.length → copyData data n off = .ok ((data.drop off).take n) := by
    intro n off h
    unfold copyData
    rw [if_neg (by have := Nat.mod_le (n + off) U64W; omega), rd_ok (by omega)]
  have cn : ∀ n off, n < 4294967296 → off ≤ 16 → ¬ n + off ≤ data.length → copyData data n off = .throws := by
    intro n off h1 h2 h
    unfold copyData
    rw [if_pos (by rw [Nat.mod_eq_of_lt (by omega)]; omega)]
  unfold readConfig
  by_cases h1 : 1 ≤ data.length
  case neg => rw [cn 1 0 (by omega) (by omega) (by omega)]; simp [guarded]
  rw [cd 1 0 (by omega)]
  simp only [Res.bind_ok]
  split
  · simp [guarded]
  by_cases h16 : 16 ≤ data.length
  case neg => rw [cn 16 0 (by omega) (by omega) (by omega)]; simp [guarded]
  rw [cd 16 0 (by omega)]
  simp only [Res.bind_ok, List.drop_zero]
  have hlen : (data.take 16).length = 16 := by simp; omega
  have hps : cfgPayloadSize (data.take 16) =
      .ok (UInt32.ofNat (leVal (((data.take 16).drop 4).take 4))).toNat := by
    unfold cfgPayloadSize rdU32
    rw [rd_ok (by omega)]; rfl
  rw [hps]
  generalize hx : (UInt32.ofNat (leVal (((data.take 16).drop 4).take 4))) = x at *
  have hxl := x.toNat_lt
  simp only [Res.bind_ok]
  have hpre : ∀ t, cfgPayloadSize (data.take 16 ++ t) = .ok x.toNat := by
    intro t
    unfold cfgPayloadSize rdU32
    rw [rd_ok (by simp; omega)]
    rw [List.drop_append_of_le_length (by omega), List.take_append_of_le_length (by simp; omega)]
    simp [hx]
  split
  · by_cases hn : x.toNat + 16 ≤ data.length
    case neg => rw [cn _ 16 (by omega) (by omega) hn]; simp [guarded]
    rw [cd _ 16 hn]
    simp only [Res.bind_ok]
    rw [if_neg (by rw [Nat.mod_eq_of_lt (by omega)]; omega)]
    refine ⟨by simp [guarded], ?_⟩
    intro mem hmem
    simp only [guarded, Res.pure_eq, Res.ok.injEq, ReadOut.deliver.injEq, Frame.config.injEq] at hmem
    subst hmem
    have hl2 : ((data.drop 16).take x.toNat).length = x.toNat := by simp; omega
    refine ⟨⟨?_, by simp; omega⟩, ?_⟩
    · rw [hpre]; simp only [List.length_append, hlen, hl2]; congr 1; omega
    · refine ⟨(data.drop 16).drop x.toNat, ?_⟩
      rw [List.append_assoc, List.take_append_drop, List.take_append_drop]
  · rename_i h0
    refine ⟨by simp [guarded], ?_⟩
    intro mem hmem
    simp only [guarded, Res.pure_eq, Res.ok.injEq, ReadOut.deliver.injEq, Frame.config.injEq] at hmem
    subst hmem
    refine ⟨⟨?_, by omega⟩, List.take_prefix 16 data⟩
    have := hpre []
    rw [List.append_nil] at this
    rw [this, hlen]; congr 1; omega

example : readConfig [16, 0x82, 0, 0, 1, 0, 0, 0, 9, 0, 0, 0, 0, 0, 0, 0, 65, 66] =
    .ok (.deliver (.config [16, 0x82, 0, 0, 1, 0, 0, 0, 9, 0, 0, 0, 0, 0, 0, 0, 65])) := by decide
example : readConfig [16, 0x82, 0, 0, 255, 255, 255, 255, 9, 0, 0, 0, 0, 0, 0, 0, 65, 66] =
    .ok .errorGoOn := by decide

/-- Parsing a received block as any kind but a protocol info reply reads only inside the block.
Partial: protocol info replies are covered by `C15_info_reply_iff`, which shows when they do not. -/
theorem C15_parse_in_bounds_partial (mem : Bytes) (hb : IsBlock mem) (k : CfgKind) (hk : k ≠ .infoReply) :
    cfgDecode k mem ≠ .oob := by
  have h16 := hb.2
  have hid : ∃ i, cfgId mem = .ok i := ⟨_, by unfold cfgId rdU64; rw [rd_ok (by omega)]; rfl⟩
  obtain ⟨i, hid⟩ := hid
  have js : ∀ ty, parseJson ty mem ≠ .oob := by
    intro ty
    unfold parseJson
    rcases cfgCheck_block hb ty (fun n => n != 0) with h | ⟨h, -⟩
    · simp [h]
    · rw [h]; simp only [Res.bind_ok]; rw [rd_ok (by omega)]; simp
  cases k
  case infoReply => exact absurd rfl hk
  case infoRequest =>
    simp only [cfgDecode, parseInfoRequest]
    rcases cfgCheck_block hb ptGetProtocolInfo (fun n => n == 0) with h | ⟨h, -⟩ <;> simp [h, hid]
  case invalidRequest =>
    simp only [cfgDecode, parseInvalidRequest]
    rcases cfgCheck_block hb ptInvalidRequest (fun n => n == 0) with h | ⟨h, -⟩ <;> simp [h, hid]
  case upgradeRequest =>
    simp only [cfgDecode, parseUpgradeRequest]
    rcases cfgCheck_block hb ptUpgradeProtocol (fun n => n == 2) with h | ⟨h, hq⟩
    · simp [h]
    · have hq' : mem.length - 16 = 2 := by simpa using hq
      rw [h]
      have : ∃ v, rdU16 mem 16 = .ok v := ⟨_, by unfold rdU16; rw [rd_ok (by omega)]; rfl⟩
      obtain ⟨v, hv⟩ := this
      simp [hv, hid]
  case upgradeReply =>
    simp only [cfgDecode, parseUpgradeReply]
    rcases cfgCheck_block hb ptUpgradeProtocol (fun n => n == 1) with h | ⟨h, hq⟩
    · simp [h]
    · have hq' : mem.length - 16 = 1 := by simpa using hq
      rw [h]
      have : ∃ v, rdU8 mem 16 = .ok v := ⟨_, by unfold rdU8; rw [rd_ok (by omega)]; rfl⟩
      obtain ⟨v, hv⟩ := this
      simp [hv, hid]
  all_goals
    simp only [cfgDecode, parseRpc, parseNotification, parseNoReplyRpc, parseRejected]
    generalize hp : parseJson _ mem = r
    cases r with
    | ok => simp [hid]
    | throws => simp
    | oob => exact absurd hp (js _)

example : IsBlock [16, 0x81, 0, 0, 2, 0, 0, 0, 9, 0, 0, 0, 0, 0, 0, 0, 24, 0] := by
  constructor <;> decide

/-- Parsing a received block as a protocol info reply reads outside it exactly if it has the reply's type
and announces more versions than its payload holds. -/
theorem C15_info_reply_iff (mem : Bytes) (hb : IsBlock mem) :
    parseInfoReply mem = .oob ↔
      ∃ cnt, cfgType mem = .ok 0x80 ∧ rdU16 mem 18 = .ok cnt ∧ cnt ≠ 0 ∧ mem.length < 20 + 2 * cnt.toNat := by
  have h16 := hb.2
  obtain ⟨t, ht⟩ : ∃ t, cfgType mem = .ok t := ⟨_, by unfold cfgType rdU8; rw [rd_ok (by omega)]; rfl⟩
  unfold parseInfoReply
  by_cases htt : t = ptGetProtocolInfo
  · subst htt
    by_cases h20 : 20 ≤ mem.length
    · have hc : cfgCheck mem ptGetProtocolInfo (fun n => decide (4 ≤ n)) = .ok (mem.length - 16) := by
        simp only [cfgCheck, ht, hb.1, Res.bind_ok]
        simp; omega
      obtain ⟨c, h1⟩ : ∃ c, rdU16 mem 16 = .ok c := ⟨_, by unfold rdU16; rw [rd_ok (by omega)]; rfl⟩
      obtain ⟨cnt, h2⟩ : ∃ c, rdU16 mem 18 = .ok c := ⟨_, by unfold rdU16; rw [rd_ok (by omega)]; rfl⟩
      rw [hc, h1, h2]
      simp only [Res.bind_ok, Res.pure_eq, Res.ok.injEq]
      by_cases hin : 20 + 2 * cnt.toNat ≤ mem.length
      · obtain ⟨r, hr⟩ := readVersions_inb mem cnt.toNat 20 [] hin
        simp only [hr, Res.bind_ok]
        constructor
        · intro h; cases h
        · rintro ⟨c', -, hc', -, hlt⟩; subst hc'; omega
      · have hz : cnt.toNat ≠ 0 := by omega
        simp only [readVersions_out mem cnt.toNat 20 [] (by omega) hz, Res.bind_oob, true_iff]
        refine ⟨cnt, ht, rfl, ?_, by omega⟩
        intro e; apply hz; rw [e]; rfl
    · have hc : cfgCheck mem ptGetProtocolInfo (fun n => decide (4 ≤ n)) = .throws := by
        simp only [cfgCheck, ht, hb.1, Res.bind_ok]
        simp; omega
      rw [hc]
      have h2 : rdU16 mem 18 = .oob := by unfold rdU16 rd; rw [if_neg (by omega)]; rfl
      simp [h2]
  · have hc : cfgCheck mem ptGetProtocolInfo (fun n => decide (4 ≤ n)) = .throws := by
      simp [cfgCheck, ht, htt]
    rw [hc, ht]
    constructor
    · intro h; cases h
    · rintro ⟨_, h, -⟩
      simp only [Res.ok.injEq] at h
      exact absurd h htt

/-- A peer can make the client read past a received packet: a 4 byte payload announcing one version. -/
theorem C15_violation_info_reply : ∃ data mem, readConfig data = .ok (.deliver (.config mem)) ∧
    IsBlock mem ∧ cfgDecode .infoReply mem = .oob := by
  refine ⟨[16, 0x80, 0, 0, 4, 0, 0, 0, 0, 0, 0, 0, 0, 0, 0, 0, 0, 0, 1, 0],
    [16, 0x80, 0, 0, 4, 0, 0, 0, 0, 0, 0, 0, 0, 0, 0, 0, 0, 0, 1, 0], by decide, ?_, by decide⟩
  constructor <;> decide

/-- The server handles every received block, in every state, without leaving it. -/
theorem C15_server_in_bounds (j : Junk) (rpc : Bytes → Bytes) (tooBig : Bytes) (s : CfgServer)
    (mem : Bytes) (hb : IsBlock mem) : (s.process j rpc tooBig mem).2 ≠ .oob := by
  have h16 := hb.2
  obtain ⟨i, hid⟩ : ∃ i, cfgId mem = .ok i := ⟨_, by unfold cfgId rdU64; rw [rd_ok (by omega)]; rfl⟩
  obtain ⟨t, ht⟩ : ∃ t, cfgType mem = .ok t := ⟨_, by unfold cfgType rdU8; rw [rd_ok (by omega)]; rfl⟩
  have cc : ∀ ty id p, cfgCreate j ty id p ≠ .oob := by
    intro ty id p; unfold cfgCreate; split <;> simp
  unfold CfgServer.process
  rw [hid, ht]
  simp only
  split
  · have := C15_parse_in_bounds_partial mem hb .infoRequest (by decide)
    simp only [cfgDecode, hid, Res.bind_ok] at this
    cases hp : parseInfoRequest mem with
    | ok => simp only [Res.bind_ok]; exact cc _ _ _
    | throws => simp
    | oob => simp [hp] at this
  · split
    · have := C15_parse_in_bounds_partial mem hb .upgradeRequest (by decide)
      simp only [cfgDecode, hid, Res.bind_ok] at this
      cases hp : parseUpgradeRequest mem with
      | ok => simp only [createUpgradeReply]; exact cc _ _ _
      | throws => simp
      | oob => simp [hp] at this
    · split
      · have := C15_parse_in_bounds_partial mem hb .rpc (by decide)
        simp only [cfgDecode, hid, Res.bind_ok] at this
        cases hp : parseRpc mem with
        | ok q =>
          simp only [Res.bind_ok]
          cases hq : createRpc j i (rpc q) with
          | ok => simp
          | throws => exact cc _ _ _
          | oob => exact absurd hq (cc _ _ _)
        | throws => simp
        | oob => simp [hp] at this
      · exact cc ptInvalidRequest i []

/-! ## C16 -/

/-- The packets a client sends to learn the versions and to choose one. -/
def infoRequestBlock (j : Junk) (id : UInt64) : Bytes := cfgHeader j 0x80 0 id
def upgradeRequestBlock (j : Junk) (id : UInt64) (v : UInt16) : Bytes := cfgHeader j 0x81 2 id ++ u16 v

example : cfgEncode (1, 2) (.upgradeRequest 7 0x0218) = .ok (upgradeRequestBlock (1, 2) 7 0x0218) := by decide
example : cfgEncode (1, 2) (.infoRequest 7) = .ok (infoRequestBlock (1, 2) 7) := by decide

private theorem process_info (j j' rpc tooBig) (s : CfgServer) (id) :
    s.process j rpc tooBig (infoRequestBlock j' id) = (s, createInfoReply j id 0 s.supported) := by
  have h1 : cfgId (infoRequestBlock j' id) = .ok id := by
    have := hdr_id j' 0x80 0 id []; simpa [infoRequestBlock] using this
  have h2 : cfgType (infoRequestBlock j' id) = .ok ptGetProtocolInfo := by
    have := hdr_type j' 0x80 0 id []; simpa [infoRequestBlock, ptGetProtocolInfo] using this
  have h3 : parseInfoRequest (infoRequestBlock j' id) = .ok () := by
    have := hdr_check j' ptGetProtocolInfo 0 id [] (by omega) (fun n => n == 0) (by simp)
    simp only [List.append_nil] at this
    simp only [parseInfoRequest, infoRequestBlock]
    rw [show (0x80 : UInt8) = ptGetProtocolInfo from rfl, this]
    rfl
  simp [CfgServer.process, h1, h2, h3]

private theorem process_upgrade (j j' rpc tooBig) (s : CfgServer) (id v) :
    s.process j rpc tooBig (upgradeRequestBlock j' id v) =
      ({ s with version := v }, createUpgradeReply j id (s.supported.contains v)) := by
  have h1 : cfgId (upgradeRequestBlock j' id v) = .ok id := hdr_id j' 0x81 2 id (u16 v)
  have h2 : cfgType (upgradeRequestBlock j' id v) = .ok ptUpgradeProtocol := hdr_type j' 0x81 2 id (u16 v)
  have h3 : parseUpgradeRequest (upgradeRequestBlock j' id v) = .ok v := by
    have hc := hdr_check j' ptUpgradeProtocol 2 id (u16 v) (by omega) (fun n => n == 2) (by simp)
    have hv := hdr_u16 j' ptUpgradeProtocol 2 id (u16 v) [] [] v (by simp)
    simp only [List.length_nil, Nat.add_zero] at hv
    simp only [parseUpgradeRequest, upgradeRequestBlock]
    rw [show (0x81 : UInt8) = ptUpgradeProtocol from rfl, hc]
    simp [hv]
  have hne : ¬ ptUpgradeProtocol = ptGetProtocolInfo := by decide
  simp [CfgServer.process, h1, h2, h3, hne]

/-- In every server state, the versions listed in the info reply are exactly those for which an upgrade
request is answered positively; and an accepted version becomes the session's version. -/
theorem C16_announced_iff_accepted (j j' : Junk) (rpc : Bytes → Bytes) (tooBig : Bytes) (s : CfgServer)
    (hs : Ascending s.supported) (hl : s.supported.length < 65536) (id id' : UInt64) (v : UInt16) :
    ∃ announced r r',
      (s.process j rpc tooBig (infoRequestBlock j' id)).2 = .ok r ∧
      cfgDecode .infoReply r = .ok (.infoReply id 0 announced) ∧
      (s.process j rpc tooBig (upgradeRequestBlock j' id' v)).2 = .ok r' ∧
      cfgDecode .upgradeReply r' = .ok (.upgradeReply id' (decide (v ∈ announced))) ∧
      (v ∈ announced → (s.process j rpc tooBig (upgradeRequestBlock j' id' v)).1.version = v) := by
  have hm : maxSize = 0x0FFFFFFF := rfl
  obtain ⟨r, hr⟩ := (C14_limit j (.infoReply id 0 s.supported)).1.mpr
    (by simp only [CfgMsg.payloadLength]; omega)
  obtain ⟨r', hr'⟩ := (C14_limit j (.upgradeReply id' (s.supported.contains v))).1.mpr
    (by simp only [CfgMsg.payloadLength]; omega)
  refine ⟨s.supported, r, r', ?_, C14_roundtrip_partial j (.infoReply id 0 s.supported) _ hs hl hr, ?_, ?_, ?_⟩
  · rw [process_info]; exact hr
  · rw [process_upgrade]; exact hr'
  · have := C14_roundtrip_partial j (.upgradeReply id' (s.supported.contains v)) _ trivial trivial hr'
    simp only [CfgMsg.kind] at this
    rw [this]
    simp
  · intro _; rw [process_upgrade]

example : Ascending CfgServer.init.supported ∧ CfgServer.init.supported.length < 65536 := by decide

/-- No history of requests changes the announced versions, so the previous theorem holds in every
reachable state. -/
theorem C16_supported_constant (j : Junk) (rpc : Bytes → Bytes) (tooBig : Bytes) (reqs : List Bytes) :
    (reqs.foldl (fun s m => (s.process j rpc tooBig m).1) CfgServer.init).supported =
      CfgServer.init.supported := by
  have step : ∀ (s : CfgServer) m, (s.process j rpc tooBig m).1.supported = s.supported := by
    intro s m
    unfold CfgServer.process
    repeat' (first | rfl | split)
  suffices h : ∀ s : CfgServer,
      (reqs.foldl (fun s m => (s.process j rpc tooBig m).1) s).supported = s.supported from h _
  induction reqs with
  | nil => intro s; rfl
  | cons m t ih => intro s; rw [List.foldl_cons, ih, step]

/-- The session's version changes only on a well-formed upgrade request, and then becomes the requested
one; a request that makes the server throw leaves it alone. Partial: it should also be left alone when the
reply is negative, which the code does not do (`C16_violation_rejected`). -/
theorem C16_version_change_partial (j : Junk) (rpc : Bytes → Bytes) (tooBig : Bytes) (s : CfgServer)
    (mem : Bytes) :
    (s.process j rpc tooBig mem).1.version = s.version ∨
      ∃ v, parseUpgradeRequest mem = .ok v ∧ (s.process j rpc tooBig mem).1.version = v ∧
        (s.process j rpc tooBig mem).2 ≠ .throws := by
  unfold CfgServer.process
  split
  · split
    · left; rfl
    · split
      · split
        · rename_i v hv
          right
          refine ⟨v, hv, rfl, ?_⟩
          simp only [createUpgradeReply, cfgCreate]
          rw [if_neg (by simp [maxSize])]
          simp
        · left; rfl
        · left; rfl
      · split <;> (left; rfl)
  all_goals (left; rfl)

/-- A rejected upgrade request changes the session's version all the same: from 0 to 5 here. -/
theorem C16_violation_rejected : ∃ mem r, mem = upgradeRequestBlock (0, 0) 1 5 ∧
    (CfgServer.init.process (0, 0) id [] mem).2 = .ok r ∧
    cfgDecode .upgradeReply r = .ok (.upgradeReply 1 false) ∧
    CfgServer.init.version = 0 ∧ (CfgServer.init.process (0, 0) id [] mem).1.version = 5 := by
  refine ⟨_, [16, 0x81, 0, 0, 1, 0, 0, 0, 1, 0, 0, 0, 0, 0, 0, 0, 0], rfl, ?_, ?_, ?_, ?_⟩ <;> decide

/-! ## C48 -/

private theorem chooseVersion_some {w vs v} (h : chooseVersion w vs = some v) :
    v ∈ clientVersions ∧ v ∈ vs ∧ (w ≠ latestVersion → v = w) := by
  unfold chooseVersion at h
  split at h
  · rename_i hw
    split at h
    · cases h
    · split at h
      · cases h
      · rename_i h1 h2
        simp only [Option.some.injEq] at h
        subst h
        simp only [Bool.not_eq_true', Bool.not_eq_false, List.contains_iff_mem] at h1 h2
        exact ⟨h1, h2, fun _ => rfl⟩
  · rename_i hw
    have hm := List.mem_of_getLast? h
    simp only [setInter, List.mem_filter, List.contains_iff_mem] at hm
    refine ⟨hm.1, hm.2, fun hne => ?_⟩
    simp only [bne_iff_ne, ne_eq, Decidable.not_not] at hw
    exact absurd hw hne

private theorem clientVersions_asc : Ascending clientVersions := by decide

private theorem getLast_max {l : List UInt16} (hl : Ascending l) {v} (h : l.getLast? = some v) :
    ∀ x ∈ l, x.toNat ≤ v.toNat := by
  intro x hx
  rw [List.getLast?_eq_some_iff] at h
  obtain ⟨pre, rfl⟩ := h
  rw [List.mem_append] at hx
  rcases hx with hx | hx
  · have := (List.pairwise_append.mp hl).2.2 x hx v (by simp)
    omega
  · simp only [List.mem_singleton] at hx; subst hx; exact Nat.le_refl _

/-- Handshake between a client and any server with a version set: it ends in agreement exactly if the
wanted version (or, for the latest version, any version) is supported by both; then both sides use the
same version, which is the wanted one or, by default, the largest common one. If it fails, the server's
session version is as before. It never reads outside a packet. -/
theorem C48_handshake (j : Junk) (rpc : Bytes → Bytes) (tooBig : Bytes) (s : CfgServer)
    (hs : Ascending s.supported) (hl : s.supported.length < 65536) (id id' : UInt64) (wanted : UInt16) :
    let common := fun v : UInt16 => v.toNat ≤ 24 ∧ v ∈ s.supported
    (∃ v, (handshake j rpc tooBig s id id' wanted) = ({ s with version := v }, .agreed v) ∧ common v ∧
        (wanted.toNat ≠ 24 → v = wanted) ∧ (wanted.toNat = 24 → ∀ x, common x → x.toNat ≤ v.toNat)) ∨
      (handshake j rpc tooBig s id id' wanted = (s, .failed) ∧
        (wanted.toNat ≠ 24 → ¬ common wanted) ∧ (wanted.toNat = 24 → ∀ x, ¬ common x)) := by
  intro common
  have hm : maxSize = 0x0FFFFFFF := rfl
  have hcv : ∀ x : UInt16, x ∈ clientVersions ↔ x.toNat ≤ 24 := by
    intro x
    simp only [clientVersions, List.mem_map, List.mem_range]
    constructor
    · rintro ⟨a, ha, rfl⟩; simp; omega
    · intro h; exact ⟨x.toNat, by omega, by simp⟩
  have hlat : ∀ x : UInt16, x = latestVersion ↔ x.toNat = 24 := by
    intro x
    rw [← UInt16.toNat_inj]; rfl
  obtain ⟨r, hr⟩ := (C14_limit j (.infoReply id 0 s.supported)).1.mpr
    (by simp only [CfgMsg.payloadLength]; omega)
  have hq : createInfoRequest j id = .ok (infoRequestBlock j id) := by
    simp [createInfoRequest, cfgCreate, infoRequestBlock, maxSize, ptGetProtocolInfo]
  have hp : parseInfoReply r = .ok (0, s.supported) := by
    have := C14_roundtrip_partial j (.infoReply id 0 s.supported) _ hs hl hr
    have hb := cfgCreate_ok hr
    have hidr : cfgId r = .ok id := by rw [hb.1]; exact hdr_id ..
    simp only [CfgMsg.kind, cfgDecode] at this
    generalize parseInfoReply r = w at this ⊢
    cases w with
    | ok a =>
      obtain ⟨a1, a2⟩ := a
      simp only [Res.bind_ok, hidr, Res.pure_eq, Res.ok.injEq, CfgMsg.infoReply.injEq, true_and] at this
      rw [this.1, this.2]
    | throws => simp at this
    | oob => simp at this
  have hr0 : createInfoReply j id 0 s.supported = .ok r := hr
  cases hc : chooseVersion wanted s.supported with
  | none =>
    right
    refine ⟨?_, ?_, ?_⟩
    · simp only [handshake, hq, process_info, hr0, hp, hc]
    · intro hne hcm
      have hw : wanted ≠ latestVersion := fun e => hne ((hlat _).mp e)
      have h1 : clientVersions.contains wanted = true := by
        rw [List.contains_iff_mem]; exact (hcv _).mpr hcm.1
      have h2 : s.supported.contains wanted = true := by rw [List.contains_iff_mem]; exact hcm.2
      simp [chooseVersion, hw] at hc
      exact absurd hcm.2 (hc ((hcv _).mpr hcm.1))
    · intro he x hx
      have hw : wanted = latestVersion := (hlat _).mpr he
      simp only [chooseVersion, hw, bne_self_eq_false, Bool.false_eq_true, if_false,
        List.getLast?_eq_none_iff] at hc
      have : x ∈ setInter clientVersions s.supported := by
        simp only [setInter, List.mem_filter, List.contains_iff_mem]
        exact ⟨(hcv _).mpr hx.1, hx.2⟩
      rw [hc] at this
      cases this
  | some v =>
    left
    obtain ⟨h1, h2, h3⟩ := chooseVersion_some hc
    refine ⟨v, ?_, ⟨(hcv _).mp h1, h2⟩, ?_, ?_⟩
    · have hq' : createUpgradeRequest j id' v = .ok (upgradeRequestBlock j id' v) := by
        simp [createUpgradeRequest, cfgCreate, upgradeRequestBlock, maxSize, ptUpgradeProtocol]
      have hcont : s.supported.contains v = true := by rw [List.contains_iff_mem]; exact h2
      obtain ⟨r', hr'⟩ := (C14_limit j (.upgradeReply id' true)).1.mpr
        (by simp only [CfgMsg.payloadLength]; omega)
      have hr1 : createUpgradeReply j id' true = .ok r' := hr'
      have hp' : parseUpgradeReply r' = .ok true := by
        have := C14_roundtrip_partial j (.upgradeReply id' true) _ trivial trivial hr'
        have hr2 : cfgCreate j ptUpgradeProtocol id' (u8 1) = .ok r' := hr'
        have hb := cfgCreate_ok hr2
        have hidr : cfgId r' = .ok id' := by rw [hb.1]; exact hdr_id ..
        simp only [CfgMsg.kind, cfgDecode] at this
        generalize parseUpgradeReply r' = w at this ⊢
        cases w with
        | ok a =>
          simp only [Res.bind_ok, hidr, Res.pure_eq, Res.ok.injEq, CfgMsg.upgradeReply.injEq, true_and] at this
          rw [this]
        | throws => simp at this
        | oob => simp at this
      simp only [handshake, hq, process_info, hr0, hp, hc, hq', process_upgrade, hcont, hr1, hp']
    · intro hne; exact h3 fun e => hne ((hlat _).mp e)
    · intro he x hx
      have hw : wanted = latestVersion := (hlat _).mpr he
      simp only [chooseVersion, hw, bne_self_eq_false, Bool.false_eq_true, if_false] at hc
      have hasc : Ascending (setInter clientVersions s.supported) :=
        clientVersions_asc.sublist List.filter_sublist
      apply getLast_max hasc hc x
      simp only [setInter, List.mem_filter, List.contains_iff_mem]
      exact ⟨(hcv _).mpr hx.1, hx.2⟩

example : (handshake (0, 0) id [] CfgServer.init 1 2 24).2 = .agreed 24 := by decide
example : (handshake (0, 0) id [] CfgServer.init 1 2 19).2 = .agreed 19 := by decide
example : (handshake (0, 0) id [] CfgServer.init 1 2 16) = (CfgServer.init, .failed) := by decide

end Verif.Wire
