import Verif.Errors.Model

/-!
# What a user of error information relies on
-/

namespace Verif.Errors.Spec

/-- The errors a thread has pending in its innermost scope, from the newest to the oldest. -/
def pending (h : Holder) : List Info :=
  match h.list with
  | some (s :: _) => s.infos
  | _ => []

/-- The thread has the same scopes with the same errors. -/
def Same (h h' : Holder) : Prop := h'.list = h.list ∧ h'.sentinel = h.sentinel

/-- The thread has no scopes, and no memory for scopes. -/
def Nothing (h : Holder) : Prop := h.list = none ∧ h.sentinel = none

/-- The thread is in a scope the user made. -/
def InGuard (h : Holder) : Prop := ∃ s r, h.list = some (s :: r) ∧ h.sentinel ≠ some s.id

/-- Each error was raised from the one before it, the first one from an error with the given code. -/
def Linked : Nat → List Info → Prop
  | _, [] => True
  | c, i :: r => i.prev = c ∧ i.prev ≠ 0 ∧ Linked i.code r

instance linkedDec : ∀ c is, Decidable (Linked c is)
  | _, [] => isTrue trivial
  | c, i :: r => @instDecidableAnd _ _ _ (@instDecidableAnd _ _ _ (linkedDec i.code r))

/-- Records the errors as raised from each other. -/
def extendAll (h : Holder) : List Info → Holder
  | [] => h
  | i :: r => extendAll (extend h i).1 r

/-- The information as it is kept once recorded. -/
def kept (i : Info) : Info := { i with frozen := true }

/-- The text has no brace. -/
def Plain (m : Text) : Prop := '{' ∉ m ∧ '}' ∉ m

/-- The newest of the messages, the default one when there is none. -/
def newest (d : Text) : List (Option Text) → Text
  | [] => d
  | some m :: _ => m
  | none :: r => newest d r

/-- A change of an error information asked for by the user. -/
inductive Change where
  | message (m : Option Text)
  | source (m : Option Text)
  | file (f : Option Text)
  | line (l : Int)
  | code (c : Nat)
  | prev (c : Nat)

/-- Makes the change. -/
def change (i : Info) : Change → Info × Nat
  | .message m => i.setMessage m
  | .source m => i.setSource m
  | .file f => i.setFile f
  | .line l => i.setLine l
  | .code c => i.setCode c
  | .prev c => i.setPrev c

end Verif.Errors.Spec
