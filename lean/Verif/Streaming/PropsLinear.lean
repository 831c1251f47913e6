import Verif.Streaming.Linear

/-!
# Linear write buffers (C20)
-/

namespace Verif.Streaming
open Verif.PacketStreaming Verif.Wire

theorem queue_rule (m thr : Nat) (hm : SizeOK m) (ops : List SrvOp) :
    ∀ b ∈ (srvExec m thr ops).1.queue, b.cacheable = true → b.payloadSize ≤ m := by
  intro b hb
  have := C08_queue_fifo m thr hm ops
  exact (C08_cacheable_iff m thr ops b (by rw [← this]; simp [hb])).mp

/-- C20: whatever was queued by the packet streaming server, creating the write tasks succeeds or a
message is above the transport limit: no assertion fails, the server raises no error, no byte outside a
buffer is touched and the loop ends. -/
theorem C20_no_assertion (m thr : Nat) (hm : SizeOK m) (ops : List SrvOp) (lay : Layout) (hl : lay.Ok) :
    (∃ tasks, (writeTasks lay (srvExec m thr ops).1).2 = .ok tasks) ∨
    (writeTasks lay (srvExec m thr ops).1).2 = .error .tooBig :=
  (writeLoop_spec hl hm _ [] (srvInv m thr hm ops).g (queue_rule m thr hm ops) (Nat.le_refl _)).2

/-- C20: if every queued message fits the transport limit, the write tasks are created, together they
write transport header, packet header and payload of every queued buffer in queue order and nothing else,
and the server is left as after taking all its buffers one by one. -/
theorem C20_write_tasks (m thr : Nat) (hm : SizeOK m) (ops : List SrvOp) (lay : Layout) (hl : lay.Ok)
    (hs : ∀ b ∈ (srvExec m thr ops).1.queue, Sendable b) :
    ∃ tasks, (writeTasks lay (srvExec m thr ops).1).2 = .ok tasks ∧
      tasks.flatten = (srvExec m thr ops).1.queue.flatMap (fun b =>
        headerBytes tyPacket (b.body.headerSize + b.payloadSize) ++ (lay b).1 ++ (lay b).2) ∧
      (writeTasks lay (srvExec m thr ops).1).1 =
        (srvExec m thr (ops ++ List.replicate (srvExec m thr ops).1.queue.length .getNext)).1 ∧
      (writeTasks lay (srvExec m thr ops).1).1.queue = [] := by
  have hi := (srvInv m thr hm ops).g
  obtain ⟨ts, h1, h2⟩ :=
    (writeLoop_spec hl hm _ [] hi (queue_rule m thr hm ops) (Nat.le_refl _)).1 hs
  unfold writeTasks
  rw [h1]
  refine ⟨ts, rfl, h2, drain_exec .., ?_⟩
  rw [(drain_spec hi _).2]; simp

theorem encodeAll_packets (lay : Layout) (hl : lay.Ok) (bs : List Buf)
    (hp : ∀ b ∈ bs, PacketOk (lay b).1 (lay b).2) :
    encodeAll (bs.map fun b => Frame.packet (lay b).1 (lay b).2) = .ok (bs.flatMap (wire lay)) := by
  induction bs with
  | nil => rfl
  | cons b bs ih =>
    rw [List.map_cons, encodeAll, ih (fun c hc => hp c (by simp [hc]))]
    show ((sendPacketBuffer (lay b).1 (lay b).2) >>= fun x => _) = _
    rw [sendPacketBuffer_eq (hp b (by simp))]
    simp [wire, hl.hdr, hl.pay]

/-- C20: the receiving session reads back exactly the queued packet buffers, in order. -/
theorem C20_received (m thr : Nat) (hm : SizeOK m) (ops : List SrvOp) (lay : Layout) (hl : lay.Ok)
    (hp : ∀ b ∈ (srvExec m thr ops).1.queue, PacketOk (lay b).1 (lay b).2) :
    ∃ tasks, (writeTasks lay (srvExec m thr ops).1).2 = .ok tasks ∧
      session .client tasks.flatten =
        (srvExec m thr ops).1.queue.map fun b => Item.frame (.packet (lay b).1 (lay b).2) := by
  obtain ⟨ts, h1, h2, _, _⟩ := C20_write_tasks m thr hm ops lay hl (fun b hb => by
    have := (hp b hb).2.2.2.2
    rw [hl.hdr, hl.pay] at this
    exact this)
  refine ⟨ts, h1, ?_⟩
  rw [h2]
  have := C17_stream .client _ _ (fun f hf => by
    obtain ⟨b, hb, rfl⟩ := List.mem_map.mp hf
    exact hp b hb) (encodeAll_packets lay hl _ hp)
  show session .client (List.flatMap (wire lay) _) = _
  rw [this, expected]
  have e : ∀ bs : List Buf, List.filter (handles .client) (bs.map fun b => Frame.packet (lay b).1 (lay b).2) =
      bs.map fun b => Frame.packet (lay b).1 (lay b).2 := by
    intro bs
    rw [List.filter_eq_self]
    intro f hf
    obtain ⟨b, _, rfl⟩ := List.mem_map.mp hf
    rfl
  rw [e, List.map_map]; rfl

/-- A layout: only the size fields of the header are filled in. -/
def plainLayout : Layout := fun b =>
  (UInt8.ofNat b.body.headerSize :: (List.replicate 7 0 ++ leBytes 4 b.payloadSize ++
    List.replicate (b.body.headerSize - 12) 0), List.replicate b.payloadSize 7)

theorem plainLayout_ok : plainLayout.Ok := by
  refine ⟨fun b => ?_, fun b => by simp [plainLayout]⟩
  have := headerSize_bounds b.body
  simp [plainLayout, leBytes_length]; omega

/-- Two small packets, a big one and two small events: two linear buffers and a header/payload pair. -/
def linOps : List SrvOp :=
  [.addEvent 1 (.descChanged (some (some ⟨5, false⟩)) none) 3,
   .addData 1 ⟨10, none, 1, .none, some [1, 2]⟩ true,
   .addData 1 ⟨11, none, 9, .none, some [1, 2, 3, 4, 5, 6, 7, 8, 9]⟩ true,
   .addEvent 1 (.other 3) 0]

example : ((writeTasks plainLayout (srvExec 4 100 linOps).1).2.toOption.map (List.map List.length)) =
    some [4 + 12 + 4 + 4 + 48 + 2, 4 + 48, 9, 4 + 12 + 1] := by decide

example : SizeOK 4 ∧ (∀ b ∈ (srvExec 4 100 linOps).1.queue,
    PacketOk (plainLayout b).1 (plainLayout b).2 ∧ Sendable b) ∧
    (srvExec 4 100 linOps).1.queue.length = 4 := by
  unfold Sendable SizeOK; decide

end Verif.Streaming
