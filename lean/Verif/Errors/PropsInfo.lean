import Verif.Errors.Spec
import Verif.Errors.Demo

/-!
# A single error information
-/

namespace Verif.Errors

open Spec

/-- C307: a recorded error information refuses every change. -/
theorem C307_refused (i : Info) (c : Change) : change (kept i) c = (kept i, 0x80000017) := by
  cases c <;> rfl

/-- C307: before it is recorded, a change is made and only that one. -/
theorem C307_changed (i : Info) (hf : i.frozen = false) :
    (∀ m, change i (.message m) = ({ i with message := m }, 0)) ∧
    (∀ m, change i (.source m) = ({ i with source := m }, 0)) ∧
    (∀ m, change i (.file m) = ({ i with file := m }, 0)) ∧
    (∀ l, change i (.line l) = ({ i with line := l }, 0)) ∧
    (∀ c, change i (.code c) = ({ i with code := c }, 0)) ∧
    (∀ c, change i (.prev c) = ({ i with prev := c }, 0)) := by
  refine ⟨?_, ?_, ?_, ?_, ?_, ?_⟩ <;> intro x <;>
    simp [change, Info.setMessage, Info.setSource, Info.setFile, Info.setLine, Info.setCode, Info.setPrev, hf, success]

/-- C307: the text of a recorded information is the same each time it is read, and reading it changes nothing
else. -/
theorem C307_text (env : Env) (i : Info) :
    ((i.formatted env).2.formatted env) = i.formatted env ∧
    { (i.formatted env).2 with cached := i.cached } = i := by
  unfold Info.formatted
  cases i with
  | mk a b c d e f g h => cases h <;> exact ⟨rfl, rfl⟩

example : (e1.formatted rel).1 = t "no signal" ∧ (e2.formatted rel).1 = t " - Caused by: Invalid value" ∧
    (change e1 (.message none)).1 ≠ e1 := by decide +kernel

/-- C308: the text of an information whose text has not been read tells its message: nothing before it if it was
not raised from another error, and in a release build nothing after it. -/
theorem C308_first_partial (env : Env) (hrel : env.debug = false) (i : Info) (hc : i.cached = none)
    (hp : i.prev = 0) (hf : i.frozen = false) (m : Text) :
    ((change i (.message (some m))).1.formatted env).1 = m := by
  simp [change, Info.setMessage, hf, Info.formatted, hc, Info.compose, hp, hrel, success]

/-- C308: violated after the text has been read: a new message is not shown. -/
theorem C308_violation (env : Env) (i : Info) (hf : i.frozen = false) (m : Text) :
    ((change (i.formatted env).2 (.message (some m))).1.formatted env).1 = (i.formatted env).1 := by
  unfold Info.formatted
  cases i with
  | mk a b c d e f g h =>
    simp only at hf
    subst hf
    cases h <;> rfl

example : ((change (e1.formatted rel).2 (.message (some (t "no device")))).1.formatted rel).1 = t "no signal" := by
  decide +kernel

/-- C309: message, source and line of an error survive saving and loading, and so does a file name that is not
empty. -/
theorem C309_texts_partial (i : Info) :
    (deserialize i.serialize).message = i.message ∧ (deserialize i.serialize).source = i.source ∧
    (deserialize i.serialize).line = i.line ∧
    (i.file ≠ some [] → (deserialize i.serialize).file = i.file) := by
  refine ⟨rfl, rfl, ?_, ?_⟩
  · by_cases h : i.line = -1 <;> simp [deserialize, Info.serialize, h]
  · intro h
    simp [deserialize, Info.serialize, h]

/-- C309: violated: the codes of an error do not survive, it becomes a general error. -/
theorem C309_violation_code (i : Info) :
    (deserialize i.serialize).code = 0x80000014 ∧ (deserialize i.serialize).prev = 0 := ⟨rfl, rfl⟩

example : e2.code ≠ (deserialize e2.serialize).code ∧ e2.prev ≠ (deserialize e2.serialize).prev ∧
    (deserialize e1.serialize).message = some (t "no signal") := by decide +kernel

/-- C309: violated: an empty file name becomes none. -/
theorem C309_violation_file : (deserialize { e1 with file := some [] }.serialize).file = none := by decide +kernel

end Verif.Errors
