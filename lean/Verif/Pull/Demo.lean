import Verif.Pull.Spec

/-! # Histories of packet readers -/

namespace Verif.Pull

/-- A reader reads some of the packets of a signal that changes its descriptor. -/
def mixed : List Op :=
  [.connect 1, .send 10, .read, .setDesc 2, .send 20, .setActive false, .send 21, .setActive true, .readAll,
    .send 22]

/-- The signal is disconnected before its last packet was read. -/
def late : List Op := [.connect 1, .send 10, .readAll, .send 11, .disconnect, .readAll]

/-- The signal is changed after everything was read. -/
def tidy : List Op := [.connect 1, .send 10, .readAll, .disconnect, .connect 2, .send 20, .read]

/-- A callback that reads everything. -/
def greedy : List Op := [.setCallback (some ⟨none, false⟩), .setExt (some ⟨false⟩), .connect 1, .send 10, .setDesc 2, .send 20]

/-- A callback that reads everything, then fails. -/
def failing : List Op := [.setCallback (some ⟨none, true⟩), .setExt (some ⟨false⟩), .connect 1, .send 10]

/-- A reader in the scheduler. -/
def later : List Op := [.takeOver true, .setCallback (some ⟨some 1, false⟩), .connect 1, .send 10, .send 11, .work]

/-- A packet of the first descriptor waits while the descriptor changes. -/
def changed : List Op := [.connect 1, .read, .send 10, .setDesc 2, .send 20]

/-- Packets of one descriptor wait. -/
def unchanged : List Op := [.connect 1, .read, .send 10, .send 11]

/-- A listener that refuses the second signal. -/
def refusing : List Op := [.connect 1, .send 10, .setExt (some ⟨true⟩)]

end Verif.Pull
