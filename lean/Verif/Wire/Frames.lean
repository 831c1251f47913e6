import Verif.Wire.Header
import Verif.Wire.Config

/-! # Facts about frames and the read loop -/

namespace Verif.Wire

/-! ### The read loop -/

theorem readOne_shrinks {role s is b rest} (h : readOne role s = some (is, b, rest)) :
    rest.length + 4 ≤ s.length := by
  unfold readOne at h
  split at h
  · cases h
  · simp only at h
    split at h
    · simp only [Option.some.injEq, Prod.mk.injEq] at h
      obtain ⟨-, -, rfl⟩ := h
      simp; omega
    · split at h
      · cases h
      · simp only [Option.some.injEq, Prod.mk.injEq] at h
        obtain ⟨-, -, rfl⟩ := h
        simp; omega

theorem sessionN_fuel (role : Role) : ∀ (f g : Nat) (s : Bytes), s.length ≤ f → s.length ≤ g →
    sessionN role f s = sessionN role g s := by
  intro f
  induction f with
  | zero =>
    intro g s hf hg
    have : s = [] := by simpa using hf
    subst this
    cases g with
    | zero => rfl
    | succ g => simp [sessionN, readOne]
  | succ f ih =>
    intro g s hf hg
    cases g with
    | zero =>
      have : s = [] := by simpa using hg
      subst this
      simp [sessionN, readOne]
    | succ g =>
      simp only [sessionN]
      cases h : readOne role s with
      | none => rfl
      | some x =>
        obtain ⟨is, b, rest⟩ := x
        have := readOne_shrinks h
        cases b with
        | false => rfl
        | true => simp only; rw [ih g rest (by omega) (by omega)]

theorem session_none {role s} (h : readOne role s = none) : session role s = [] := by
  unfold session
  cases hl : s.length with
  | zero => rfl
  | succ n => simp [sessionN, h]

theorem session_more {role s is rest} (h : readOne role s = some (is, true, rest)) :
    session role s = is ++ session role rest := by
  have hs := readOne_shrinks h
  unfold session
  cases hl : s.length with
  | zero => omega
  | succ n =>
    simp only [sessionN, h]
    rw [sessionN_fuel role n rest.length rest (by omega) (by omega)]

theorem session_stop {role s is rest} (h : readOne role s = some (is, false, rest)) :
    session role s = is := by
  have hs := readOne_shrinks h
  unfold session
  cases hl : s.length with
  | zero => omega
  | succ n => simp only [sessionN, h]

theorem readOne_append {role s is b rest} (h : readOne role s = some (is, b, rest)) (t : Bytes) :
    readOne role (s ++ t) = some (is, b, rest ++ t) := by
  unfold readOne at h ⊢
  split at h
  · cases h
  rename_i h4
  have e1 : (s ++ t).take 4 = s.take 4 := by rw [List.take_append_of_le_length (by omega)]
  have e2 : (s ++ t).drop 4 = s.drop 4 ++ t := by rw [List.drop_append_of_le_length (by omega)]
  rw [if_neg (by simp; omega)]
  simp only [e1, e2] at h ⊢
  split at h
  · rename_i f hf
    simp only [Option.some.injEq, Prod.mk.injEq] at h ⊢
    obtain ⟨h1, h2, h3⟩ := h
    exact ⟨h1, h2, by rw [h3]⟩
  · rename_i rdr hr
    split at h
    · cases h
    · rename_i hn
      rw [if_neg (by simp only [List.length_append]; omega)]
      rw [List.take_append_of_le_length (by omega), List.drop_append_of_le_length (by omega)]
      simp only [Option.some.injEq, Prod.mk.injEq] at h ⊢
      obtain ⟨h1, h2, h3⟩ := h
      exact ⟨h1, h2, by rw [h3]⟩

theorem session_prefix (role : Role) (s t : Bytes) : session role s <+: session role (s ++ t) := by
  have h : ∀ n (s : Bytes), s.length ≤ n → session role s <+: session role (s ++ t) := by
    intro n
    induction n with
    | zero =>
      intro s hs
      have : s = [] := by simpa using hs
      subst this
      rw [session_none (by simp [readOne])]
      exact List.nil_prefix
    | succ n ih =>
      intro s hs
      cases h : readOne role s with
      | none => rw [session_none h]; exact List.nil_prefix
      | some x =>
        obtain ⟨is, b, rest⟩ := x
        have ha := readOne_append h t
        have hsh := readOne_shrinks h
        cases b with
        | false => rw [session_stop h, session_stop ha]; exact List.prefix_rfl
        | true =>
          rw [session_more h, session_more ha]
          exact List.prefix_append_right_inj is |>.mpr (ih rest (by omega))
  exact h s.length s (Nat.le_refl _)

/-! ### One well-formed frame -/

theorem readOne_body {role : Role} {ty : Nat} {reader} (body rest : Bytes) (ht : ty < 16)
    (hl : body.length ≤ maxSize) (hd : dispatch role ty = .body reader) :
    readOne role (headerBytes ty body.length ++ body ++ rest) =
      some ((outcome (reader body)).1, (outcome (reader body)).2, rest) := by
  obtain ⟨h1, h2⟩ := header_read ty body.length ht hl (body ++ rest)
  rw [← List.append_assoc] at h1 h2
  have hlen := headerBytes_length ty body.length
  unfold readOne
  rw [if_neg (by simp [hlen])]
  have e : (headerBytes ty body.length ++ body ++ rest).drop 4 = body ++ rest := by
    rw [List.append_assoc, List.drop_append_of_le_length (by omega),
      List.drop_of_length_le (by omega)]
    rfl
  simp only [h1, h2, e, hd]
  simp

theorem readOne_now {role : Role} {ty : Nat} {f} (n : Nat) (rest : Bytes) (ht : ty < 16)
    (hl : n ≤ maxSize) (hd : dispatch role ty = .now f) :
    readOne role (headerBytes ty n ++ rest) = some ([.frame f], true, rest) := by
  obtain ⟨h1, h2⟩ := header_read ty n ht hl rest
  have hlen := headerBytes_length ty n
  unfold readOne
  rw [if_neg (by simp [hlen])]
  have e : (headerBytes ty n ++ rest).drop 4 = rest := by
    rw [List.drop_append_of_le_length (by omega), List.drop_of_length_le (by omega)]
    rfl
  simp only [h1, e, hd]

/-- A frame that has not completely arrived is not acted on. -/
theorem readOne_short {role : Role} {ty : Nat} {reader} (n : Nat) (body : Bytes) (ht : ty < 16)
    (hn : n ≤ maxSize) (hb : body.length < n) (hd : dispatch role ty = .body reader) :
    readOne role (headerBytes ty n ++ body) = none := by
  obtain ⟨h1, h2⟩ := header_read ty n ht hn body
  have hlen := headerBytes_length ty n
  unfold readOne
  rw [if_neg (by simp [hlen])]
  have e : (headerBytes ty n ++ body).drop 4 = body := by
    rw [List.drop_append_of_le_length (by omega), List.drop_of_length_le (by omega)]
    rfl
  simp only [h1, h2, e, hd]
  rw [if_pos hb]

/-! ### `copyData` -/

theorem copyData_ok {data : Bytes} {n off : Nat} (h : n + off ≤ data.length) :
    copyData data n off = .ok ((data.drop off).take n) := by
  unfold copyData
  have := Nat.mod_le (n + off) U64W
  rw [if_neg (by omega), rd_ok (by omega)]

theorem copyData_throws {data : Bytes} {n off : Nat} (h : data.length < n + off) (hw : n + off < U64W) :
    copyData data n off = .throws := by
  unfold copyData
  rw [if_pos (by rw [Nat.mod_eq_of_lt hw]; omega)]

theorem copyData_cases (data : Bytes) (n off : Nat) (hw : n + off < U64W) :
    copyData data n off = .throws ∨
      (copyData data n off = .ok ((data.drop off).take n) ∧ n + off ≤ data.length) := by
  by_cases h : n + off ≤ data.length
  · exact .inr ⟨copyData_ok h, h⟩
  · exact .inl (copyData_throws (by omega) hw)

theorem copyData_at {data a m c : Bytes} {n off : Nat} (hd : data = a ++ (m ++ c)) (ho : off = a.length)
    (hn : n = m.length) : copyData data n off = .ok m := by
  subst ho hn
  rw [copyData_ok (by rw [hd]; simp; omega), hd]
  simp

theorem subSize_eq {a b : Nat} (h : b ≤ a) (ha : a < U64W) : subSize a b = a - b := by
  have hU : U64W = 18446744073709551616 := rfl
  unfold subSize
  rw [Nat.mod_eq_of_lt (by omega : b < U64W), show a + (U64W - b) = (a - b) + U64W by omega,
    Nat.add_mod_right, Nat.mod_eq_of_lt (by omega)]

theorem copyData_front {data m c : Bytes} {n : Nat} (hd : data = m ++ c) (hn : n = m.length) :
    copyData data n 0 = .ok m :=
  copyData_at (a := []) (c := c) hd rfl hn

attribute [local irreducible] subSize copyData

/-! ### Body readers stay inside the body -/

theorem readPacketBuffer_inb (data : Bytes) : readPacketBuffer data ≠ .oob ∧
    ∀ h p, readPacketBuffer data = .ok (.deliver (.packet h p)) → 12 ≤ h.length := by
  have hU : U64W = 18446744073709551616 := rfl
  unfold readPacketBuffer
  rcases copyData_cases data 1 0 (by omega) with h | ⟨h, hl⟩
  · rw [h]; simp [guarded]
  rw [h]
  simp only [Res.bind_ok]
  generalize hv : leVal ((data.drop 0).take 1) = v
  have hv2 : v < 256 := by
    have := leVal_lt ((data.drop 0).take 1)
    rw [hv] at this
    have hle : ((data.drop 0).take 1).length ≤ 1 := by simp; omega
    exact Nat.lt_of_lt_of_le this (Nat.le_trans (Nat.pow_le_pow_right (by omega) hle) (by omega))
  split
  · simp [guarded]
  rename_i h12
  rcases copyData_cases data v 0 (by omega) with h | ⟨h, hl2⟩
  · rw [h]; simp [guarded]
  rw [h]
  simp only [Res.bind_ok]
  have hlen : ((data.drop 0).take v).length = v := by simp; omega
  generalize (data.drop 0).take v = hd at *
  have hr : rdU32 hd 8 = .ok (UInt32.ofNat (leVal ((hd.drop 8).take 4))) := by
    unfold rdU32; rw [rd_ok (by omega)]; rfl
  rw [hr]
  generalize UInt32.ofNat (leVal ((hd.drop 8).take 4)) = x
  have := x.toNat_lt
  simp only [Res.bind_ok]
  split
  · rcases copyData_cases data x.toNat v (by omega) with h | ⟨h, -⟩
    · rw [h]; simp [guarded]
    · rw [h]; simp [guarded]; omega
  · simp [guarded]; omega

theorem readSignalAvailable_inb (data : Bytes) (hd : data.length ≤ maxSize) :
    readSignalAvailable data ≠ .oob := by
  have hU : U64W = 18446744073709551616 := rfl
  have hm : maxSize = 0x0FFFFFFF := rfl
  unfold readSignalAvailable
  rcases copyData_cases data 4 0 (by omega) with h | ⟨h, hl⟩
  · rw [h]; simp [guarded]
  rw [h]
  rcases copyData_cases data 2 4 (by omega) with h | ⟨h, hl2⟩
  · rw [h]; simp [guarded]
  rw [h]
  simp only [Res.bind_ok]
  generalize hv : leVal ((data.drop 4).take 2) = v
  have hv2 : v < 65536 := by
    have := leVal_lt ((data.drop 4).take 2)
    rw [hv] at this
    have hle : ((data.drop 4).take 2).length ≤ 2 := by simp; omega
    exact Nat.lt_of_lt_of_le this (Nat.le_trans (Nat.pow_le_pow_right (by omega) hle) (by omega))
  rcases copyData_cases data v 6 (by omega) with h | ⟨h, hl3⟩
  · rw [h]; simp [guarded]
  rw [h]
  simp only [Res.bind_ok]
  rw [subSize_eq (by omega) (by omega)]
  rw [copyData_ok (by omega)]
  simp [guarded]

theorem readIdString_inb (mk) (data : Bytes) (hd : data.length ≤ maxSize) :
    readIdString mk data ≠ .oob := by
  have e : 4 ≤ data.length → subSize data.length 4 = data.length - 4 := fun h =>
    subSize_eq h (Nat.lt_of_le_of_lt hd (by decide))
  unfold readIdString
  generalize subSize data.length 4 = k at e
  rcases copyData_cases data 4 0 (by decide) with h | ⟨h, hl⟩
  · rw [h]; simp [guarded]
  rw [h]
  have e' := e (by omega)
  rw [copyData_ok (by omega : k + 4 ≤ data.length)]
  simp [guarded]

theorem readAck_inb (mk) (data : Bytes) : readAck mk data ≠ .oob := by
  have hU : U64W = 18446744073709551616 := rfl
  unfold readAck
  rcases copyData_cases data 4 0 (by omega) with h | ⟨h, hl⟩ <;> rw [h] <;> simp [guarded]

theorem readProperties_eq (data : Bytes) : readProperties data = .ok (.deliver (.properties data)) := by
  unfold readProperties
  rw [copyData_ok (by omega)]
  simp [guarded]

theorem guarded_ne_throws (e x) : guarded e x ≠ .throws := by
  unfold guarded; split
  · simp
  · rename_i h; exact h

/-! ### Encodings -/

def Frame.ty : Frame → Nat
  | .packet .. => tyPacket
  | .signalAvailable .. => tySignalAvailable
  | .signalUnavailable .. => tySignalUnavailable
  | .subscribe .. => tySubscribe
  | .unsubscribe .. => tyUnsubscribe
  | .initDone => tyInitDone
  | .subscribeAck _ => tySubscribeAck
  | .unsubscribeAck _ => tyUnsubscribeAck
  | .config _ => tyConfig
  | .properties _ => tyProperties
  | .initRequest => tyInitRequest

def Frame.body : Frame → Bytes
  | .packet h p => h ++ p
  | .signalAvailable i s j => u32 i ++ (leBytes 2 s.length ++ (s ++ j))
  | .signalUnavailable i s => u32 i ++ s
  | .subscribe i s => u32 i ++ s
  | .unsubscribe i s => u32 i ++ s
  | .initDone => []
  | .subscribeAck i => u32 i
  | .unsubscribeAck i => u32 i
  | .config m => m
  | .properties j => j
  | .initRequest => []

theorem Frame.ty_lt (f : Frame) : f.ty < 16 := by
  cases f <;> simp only [Frame.ty] <;> decide

theorem Frame.body_length (f : Frame) : f.body.length = f.bodyLength := by
  cases f <;> simp [Frame.body, Frame.bodyLength] <;> omega

theorem sendTasks_ok {ty tasks b} (h : sendTasks ty tasks = .ok b) :
    b = headerBytes ty tasks.flatten.length ++ tasks.flatten ∧ tasks.flatten.length ≤ maxSize := by
  unfold sendTasks at h
  simp only at h
  split at h
  · cases h
  · simp only [Res.ok.injEq] at h
    rw [List.length_flatten]
    exact ⟨h.symm, by omega⟩

theorem sendTasks_isOk (ty tasks) :
    (∃ b, sendTasks ty tasks = .ok b) ↔ tasks.flatten.length ≤ maxSize := by
  unfold sendTasks
  rw [List.length_flatten]
  simp only
  split <;> simp <;> omega

theorem sendTasks_ne_oob (ty tasks) : sendTasks ty tasks ≠ .oob := by
  unfold sendTasks
  simp only
  split <;> simp

theorem sendPacketBuffer_eq {h p : Bytes} (hk : PacketOk h p) :
    sendPacketBuffer h p = .ok (headerBytes tyPacket (h ++ p).length ++ (h ++ p)) := by
  obtain ⟨h12, h0, h256, h8, hl⟩ := hk
  have hV : U32W = 4294967296 := rfl
  have hm : maxSize = 0x0FFFFFFF := rfl
  have e1 : (UInt8.ofNat h.length).toNat = h.length := by simp; omega
  have e2 : (UInt32.ofNat p.length).toNat = p.length := by simp; omega
  unfold sendPacketBuffer
  simp only [h0, h8, Res.bind_ok, e1, e2]
  rw [Nat.mod_eq_of_lt (by omega), if_neg (by omega), rd_ok (by omega)]
  simp only [Res.bind_ok, List.drop_zero, List.take_length]
  by_cases hp : p.length > 0
  · rw [if_pos hp, rd_ok (by omega)]
    simp
  · have : p = [] := by simpa using hp
    subst this
    simp

theorem sendConfig_eq {m : Bytes} (hk : ConfigOk m) :
    sendConfig m = .ok (headerBytes tyConfig m.length ++ m) := by
  obtain ⟨h16, hl, h0, h4⟩ := hk
  have hV : U32W = 4294967296 := rfl
  have hm : maxSize = 0x0FFFFFFF := rfl
  have e2 : (UInt32.ofNat (m.length - 16)).toNat = m.length - 16 := by simp; omega
  have hps : cfgPayloadSize m = .ok (m.length - 16) := by simp [cfgPayloadSize, h4, e2]
  have hlen : cfgLength m = .ok m.length := by
    unfold cfgLength
    rw [h0, hps]
    simp only [Res.bind_ok, Res.pure_eq]
    congr 1
    have : (16 : UInt8).toNat = 16 := rfl
    rw [this, Nat.mod_eq_of_lt (by omega)]; omega
  unfold sendConfig
  rw [hlen]
  simp only [Res.bind_ok]
  rw [rd_ok (by omega : 0 + m.length ≤ m.length)]
  simp only [Res.bind_ok, List.drop_zero, List.take_length]
  rw [rd_ok (by omega), hps]
  simp only [Res.bind_ok, List.drop_zero]
  split
  · rw [rd_ok (by omega)]
    simp only [Res.bind_ok]
    have hfl : [m.take 16, (m.drop 16).take (m.length - 16)].flatten = m := by
      have : (m.drop 16).take (m.length - 16) = m.drop 16 := List.take_of_length_le (by simp)
      simp [this]
    obtain ⟨b, hb⟩ := (sendTasks_isOk tyConfig [m.take 16, (m.drop 16).take (m.length - 16)]).mpr
      (by rw [hfl]; omega)
    rw [hb, (sendTasks_ok hb).1, hfl]
  · have hfl : [m.take 16].flatten = m := by
      have : m.take 16 = m := List.take_of_length_le (by omega)
      simp [this]
    obtain ⟨b, hb⟩ := (sendTasks_isOk tyConfig [m.take 16]).mpr (by rw [hfl]; omega)
    rw [hb, (sendTasks_ok hb).1, hfl]

theorem encodeFrame_ok {f b} (hp : f.Proper) (h : encodeFrame f = .ok b) :
    b = headerBytes f.ty f.body.length ++ f.body ∧ f.body.length ≤ maxSize := by
  cases f with
  | packet hd p =>
    have e : encodeFrame (.packet hd p) = sendPacketBuffer hd p := rfl
    rw [e, sendPacketBuffer_eq hp, Res.ok.injEq] at h
    exact ⟨h.symm, by have := hp.2.2.2.2; simp [Frame.body]; omega⟩
  | config m =>
    have e : encodeFrame (.config m) = sendConfig m := rfl
    rw [e, sendConfig_eq hp, Res.ok.injEq] at h
    exact ⟨h.symm, hp.2.1⟩
  | initDone =>
    have e : encodeFrame .initDone = .ok (headerBytes tyInitDone 0) := rfl
    rw [e, Res.ok.injEq] at h
    exact ⟨by rw [← h]; simp [Frame.body, Frame.ty], by decide⟩
  | initRequest =>
    have e : encodeFrame .initRequest = .ok (headerBytes tyInitRequest 0) := rfl
    rw [e, Res.ok.injEq] at h
    exact ⟨by rw [← h]; simp [Frame.body, Frame.ty], by decide⟩
  | signalAvailable i s j =>
    simp only [encodeFrame] at h
    split at h
    · cases h
    · have := sendTasks_ok h
      simpa [Frame.body, Frame.ty] using this
  | signalUnavailable i s => simpa [Frame.body, Frame.ty] using sendTasks_ok h
  | subscribe i s => simpa [Frame.body, Frame.ty] using sendTasks_ok h
  | unsubscribe i s => simpa [Frame.body, Frame.ty] using sendTasks_ok h
  | subscribeAck i => simpa [Frame.body, Frame.ty] using sendTasks_ok (tasks := [u32 i]) h
  | unsubscribeAck i => simpa [Frame.body, Frame.ty] using sendTasks_ok (tasks := [u32 i]) h
  | properties j => simpa [Frame.body, Frame.ty] using sendTasks_ok h

theorem le4_u32 (i : UInt32) : UInt32.ofNat (leVal (u32 i)) = i := by
  have := i.toNat_lt
  rw [u32, leVal_leBytes, Nat.mod_eq_of_lt (by omega)]
  simp

theorem readIdString_ok (mk) (i : UInt32) (s : Bytes) (hl : (u32 i ++ s).length ≤ maxSize) :
    readIdString mk (u32 i ++ s) = .ok (.deliver (mk i s)) := by
  have hU : U64W = 18446744073709551616 := rfl
  have hm : maxSize = 0x0FFFFFFF := rfl
  unfold readIdString
  rw [copyData_front (m := u32 i) (c := s) rfl (by simp)]
  rw [subSize_eq (by simp) (by omega)]
  rw [copyData_at (a := u32 i) (m := s) (c := []) (by simp) (by simp) (by simp)]
  simp [guarded, le4_u32]

theorem readAck_ok (mk) (i : UInt32) : readAck mk (u32 i) = .ok (.deliver (mk i)) := by
  unfold readAck
  rw [copyData_front (m := u32 i) (c := []) (by simp) (by simp)]
  simp [guarded, le4_u32]

theorem readSignalAvailable_ok (i : UInt32) (s j : Bytes) (hs : s.length ≤ 65535)
    (hl : (Frame.signalAvailable i s j).body.length ≤ maxSize) :
    readSignalAvailable (Frame.signalAvailable i s j).body =
      .ok (.deliver (.signalAvailable i s j)) := by
  have hU : U64W = 18446744073709551616 := rfl
  have hm : maxSize = 0x0FFFFFFF := rfl
  have hb : (Frame.signalAvailable i s j).body.length = 6 + s.length + j.length := by
    rw [Frame.body_length]; rfl
  unfold readSignalAvailable
  rw [copyData_front (m := u32 i) (c := leBytes 2 s.length ++ (s ++ j)) (by simp [Frame.body]) (by simp)]
  rw [copyData_at (a := u32 i) (m := leBytes 2 s.length) (c := s ++ j) (by simp [Frame.body]) (by simp) (by simp)]
  have hv : leVal (leBytes 2 s.length) = s.length := by
    rw [leVal_leBytes, Nat.mod_eq_of_lt (by omega)]
  simp only [Res.bind_ok, hv]
  rw [copyData_at (a := u32 i ++ leBytes 2 s.length) (m := s) (c := j) (by simp [Frame.body]) (by simp) rfl]
  rw [subSize_eq (by omega) (by omega)]
  rw [copyData_at (a := u32 i ++ (leBytes 2 s.length ++ s)) (m := j) (c := []) (by simp [Frame.body])
    (by simp; omega) (by omega)]
  simp [guarded, le4_u32]

theorem rdU8_copy {mem : Bytes} {v : UInt8} (h : rdU8 mem 0 = .ok v) (c : Bytes) :
    copyData (mem ++ c) 1 0 = .ok [v] := by
  cases mem with
  | nil => simp [rdU8, rd] at h
  | cons x t =>
    have : x = v := by
      unfold rdU8 at h
      rw [rd_ok (by simp)] at h
      simpa [leVal] using h
    subst this
    exact copyData_front (m := [x]) (c := t ++ c) (by simp) rfl

theorem readPacketBuffer_ok {h p : Bytes} (hk : PacketOk h p) :
    readPacketBuffer (h ++ p) = .ok (.deliver (.packet h p)) := by
  obtain ⟨h12, h0, h256, h8, hl⟩ := hk
  have hm : maxSize = 0x0FFFFFFF := rfl
  have e1 : leVal [UInt8.ofNat h.length] = h.length := by simp [leVal]; omega
  have e2 : (UInt32.ofNat p.length).toNat = p.length := by simp; omega
  unfold readPacketBuffer
  rw [rdU8_copy h0 p]
  simp only [Res.bind_ok, e1]
  rw [if_neg (by omega)]
  rw [copyData_front (m := h) (c := p) rfl rfl]
  simp only [Res.bind_ok, h8, e2]
  split
  · rw [copyData_at (a := h) (m := p) (c := []) (by simp) rfl rfl]
    simp [guarded]
  · have : p = [] := by rename_i hp; simpa using hp
    subst this
    simp [guarded]

theorem readConfig_ok {m : Bytes} (hk : ConfigOk m) : readConfig m = .ok (.deliver (.config m)) := by
  obtain ⟨h16, hl, h0, h4⟩ := hk
  have hV : U32W = 4294967296 := rfl
  have hm : maxSize = 0x0FFFFFFF := rfl
  have e2 : (UInt32.ofNat (m.length - 16)).toNat = m.length - 16 := by simp; omega
  have hc := rdU8_copy h0 []
  rw [List.append_nil] at hc
  unfold readConfig
  rw [hc]
  have e1 : leVal [(16 : UInt8)] = 16 := rfl
  simp only [Res.bind_ok, e1]
  rw [if_neg (by decide)]
  rw [copyData_ok (by omega)]
  have h4' : rdU32 (m.take 16) 4 = rdU32 m 4 := by
    unfold rdU32
    rw [rd_ok (by simp; omega), rd_ok (by omega), List.drop_take, List.take_take]
    simp
  simp only [Res.bind_ok, List.drop_zero, cfgPayloadSize, h4', h4, e2, Res.pure_eq]
  split
  · rw [copyData_ok (by omega)]
    simp only [Res.bind_ok]
    rw [if_neg (by rw [Nat.mod_eq_of_lt (by omega)]; omega)]
    have : (m.drop 16).take (m.length - 16) = m.drop 16 := List.take_of_length_le (by simp)
    simp [guarded, this]
  · have : m.take 16 = m := List.take_of_length_le (by omega)
    simp [guarded, this]

/-- A complete well-formed frame is read as itself or, if its receiver does not handle it, dropped. -/
theorem readOne_frame (role : Role) {f b} (hp : f.Proper) (h : encodeFrame f = .ok b) (rest : Bytes) :
    readOne role (b ++ rest) = some (expected role [f], true, rest) := by
  obtain ⟨rfl, hl⟩ := encodeFrame_ok hp h
  have key : ∀ reader, dispatch role f.ty = .body reader →
      reader f.body = .ok (if handles role f then .deliver f else .skip) →
      readOne role (headerBytes f.ty f.body.length ++ f.body ++ rest) = some (expected role [f], true, rest) := by
    intro reader hd hr
    rw [readOne_body f.body rest f.ty_lt hl hd, hr]
    by_cases hh : handles role f = true <;> simp [expected, hh, outcome]
  cases f with
  | packet hd p => exact key _ (by cases role <;> rfl) (by
      rw [show Frame.body _ = hd ++ p from rfl, readPacketBuffer_ok hp]; cases role <;> rfl)
  | config m => exact key _ (by cases role <;> rfl) (by
      rw [show Frame.body _ = m from rfl, readConfig_ok hp]; cases role <;> rfl)
  | signalAvailable i s j =>
    have hs : s.length ≤ 65535 := by
      simp only [encodeFrame] at h
      split at h
      · cases h
      · omega
    exact key _ (by cases role <;> rfl) (by rw [readSignalAvailable_ok i s j hs hl]; cases role <;> rfl)
  | signalUnavailable i s => exact key _ (by cases role <;> rfl) (by
      rw [show Frame.body _ = u32 i ++ s from rfl, readIdString_ok _ i s hl]; cases role <;> rfl)
  | subscribe i s => exact key _ (by cases role <;> rfl) (by
      rw [show Frame.body _ = u32 i ++ s from rfl, readIdString_ok _ i s hl]; cases role <;> rfl)
  | unsubscribe i s => exact key _ (by cases role <;> rfl) (by
      rw [show Frame.body _ = u32 i ++ s from rfl, readIdString_ok _ i s hl]; cases role <;> rfl)
  | subscribeAck i => exact key _ (by cases role <;> rfl) (by
      rw [show Frame.body _ = u32 i from rfl, readAck_ok]; cases role <;> rfl)
  | unsubscribeAck i => exact key _ (by cases role <;> rfl) (by
      rw [show Frame.body _ = u32 i from rfl, readAck_ok]; cases role <;> rfl)
  | properties j =>
    cases role with
    | client => exact key _ rfl rfl
    | server => exact key _ rfl (by rw [show Frame.body _ = j from rfl, readProperties_eq]; rfl)
  | initDone =>
    cases role with
    | client =>
      have := readOne_now (role := .client) (ty := tyInitDone) 0 rest (by decide) (by decide) rfl
      rw [show expected _ [_] = [Item.frame _] from rfl]
      simpa [Frame.body, Frame.ty] using this
    | server => exact key _ rfl rfl
  | initRequest =>
    cases role with
    | client => exact key _ rfl rfl
    | server =>
      have := readOne_now (role := .server) (ty := tyInitRequest) 0 rest (by decide) (by decide) rfl
      rw [show expected _ [_] = [Item.frame _] from rfl]
      simpa [Frame.body, Frame.ty] using this

/-- Nothing happens before the last byte of a frame has arrived. -/
theorem readOne_incomplete (role : Role) {f b p} (hp : f.Proper) (h : encodeFrame f = .ok b)
    (hpre : p <+: b) (hne : p ≠ b) : readOne role p = none := by
  obtain ⟨rfl, hl⟩ := encodeFrame_ok hp h
  have hlen := headerBytes_length f.ty f.body.length
  have hlt : p.length < 4 + f.body.length := by
    have h1 := hpre.length_le
    rcases Nat.lt_or_ge p.length (4 + f.body.length) with h2 | h2
    · exact h2
    · exact absurd (hpre.eq_of_length (by simp only [List.length_append, hlen] at *; omega)) hne
  by_cases h4 : p.length < 4
  · unfold readOne; rw [if_pos h4]
  · rw [List.prefix_iff_eq_take] at hpre
    have hp2 : p = headerBytes f.ty f.body.length ++ f.body.take (p.length - 4) := by
      have h1 := List.take_append (l₁ := headerBytes f.ty f.body.length) (l₂ := f.body) (i := p.length)
      rw [List.take_of_length_le (l := headerBytes f.ty f.body.length) (by omega), hlen] at h1
      exact hpre.trans h1
    have hdd : ∃ reader, dispatch role f.ty = .body reader := by
      cases f <;> cases role <;> first
        | exact ⟨_, rfl⟩
        | (simp [Frame.body] at hlt; omega)
    obtain ⟨reader, hd⟩ := hdd
    rw [hp2]
    exact readOne_short _ _ f.ty_lt hl (by simp; omega) hd

theorem encodeAll_cons {f fs b} (h : encodeAll (f :: fs) = .ok b) :
    ∃ b1 b2, encodeFrame f = .ok b1 ∧ encodeAll fs = .ok b2 ∧ b = b1 ++ b2 := by
  simp only [encodeAll] at h
  cases h1 : encodeFrame f with
  | ok b1 =>
    cases h2 : encodeAll fs with
    | ok b2 =>
      simp only [h1, h2, Res.bind_ok, Res.pure_eq, Res.ok.injEq] at h
      exact ⟨b1, b2, rfl, rfl, h.symm⟩
    | throws => simp [h1, h2] at h
    | oob => simp [h1, h2] at h
  | throws => simp [h1] at h
  | oob => simp [h1] at h

theorem session_encodeAll (role : Role) {fs : List Frame} {b : Bytes} (hp : ∀ f ∈ fs, f.Proper)
    (h : encodeAll fs = .ok b) (rest : Bytes) :
    session role (b ++ rest) = expected role fs ++ session role rest := by
  induction fs generalizing b with
  | nil =>
    simp only [encodeAll, Res.ok.injEq] at h
    subst h
    simp [expected]
  | cons f fs ih =>
    obtain ⟨b1, b2, h1, h2, rfl⟩ := encodeAll_cons h
    rw [List.append_assoc, session_more (readOne_frame role (hp f (by simp)) h1 (b2 ++ rest)),
      ih (fun g hg => hp g (by simp [hg])) h2]
    by_cases hh : handles role f = true <;> simp [expected, hh]

end Verif.Wire
