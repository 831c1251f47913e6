import Verif.Opts.PropsJson
import Verif.Opts.PropsText

/-!
# The builder (C275)
-/

namespace Verif.Opts
open Spec

/-- A value that is set after a provider was added is replaced by that of the provider; this is so even after the options
were read. -/
theorem C275_violation : ∃ (b : Builder) (p : Provider),
    look ((b.add p).put (t "Scheduler") (t "WorkersNum") (.int 8)).get.2 [t "Scheduler", t "WorkersNum"] = some (.int 4) ∧
    look ((b.add p).get.1.put (t "Scheduler") (t "WorkersNum") (.int 8)).get.2 [t "Scheduler", t "WorkersNum"] = some (.int 4) :=
  ⟨⟨demo, []⟩, .cmd [t "-CScheduler_WorkersNum=4"], by decide +kernel, by decide +kernel⟩

/-- Without providers, a value that was set is read, and the other options are as they were. -/
theorem C275_set_partial {b : Builder} {g n : Text} {v : Prim} {m : Ents} (h : Has b.options g (.dict m)) (hb : b.providers = []) :
    At (b.put g n v).get.2 [g, n] (.prim v) ∧
      ∀ q w, NoDict w → q ≠ [g, n] → (∀ r, q ≠ g :: n :: r) → (At (b.put g n v).get.2 q w ↔ At b.get.2 q w) := by
  have hp : (b.put g n v).get.2 = b.options.set g (.dict (m.set n (.prim v))) := by
    unfold Builder.get Builder.put
    rw [has_iff.mp h]
    simp [hb]
  have hg : b.get.2 = b.options := by
    unfold Builder.get
    simp [hb]
  rw [hp, hg]
  constructor
  · rw [at_more]
    exact ⟨_, by rw [get_set, if_pos rfl], by rw [at_one, get_set, if_pos rfl]⟩
  · intro q w hw hq hr
    match q with
    | [] => simp [not_at_nil]
    | [k] =>
      rw [at_one, at_one, get_set]
      by_cases hk : k = g
      · subst hk
        rw [if_pos rfl, has_iff.mp h]
        exact ⟨fun e => absurd (Option.some.inj e).symm (hw _), fun e => absurd (Option.some.inj e).symm (hw _)⟩
      · rw [if_neg hk]
    | k :: u :: us =>
      rw [at_more, at_more, get_set]
      by_cases hk : k = g
      · subst hk
        have hu : u ≠ n := fun e => hr us (by rw [e])
        rw [if_pos rfl, has_iff.mp h]
        constructor
        · rintro ⟨_, e, h2⟩
          cases e
          exact ⟨m, rfl, (at_set_other hu).mp h2⟩
        · rintro ⟨_, e, h2⟩
          cases e
          exact ⟨_, rfl, (at_set_other hu).mpr h2⟩
      · rw [if_neg hk]

/-- Providers are asked in the order in which they were added, so the last one has the last word. -/
theorem C275_order_partial (b : Builder) (p : Provider) : (b.add p).get.2 = populate b.get.2 p := by
  unfold Builder.get Builder.add
  simp [List.foldl_append]

example : Has demo (t "Scheduler") (.dict (.cons (t "WorkersNum") (.prim (.int 0)) (.cons (t "UseMainLoop") (.prim (.bool false)) .nil))) := .here

end Verif.Opts
