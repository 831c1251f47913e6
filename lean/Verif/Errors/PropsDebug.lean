import Verif.Errors.PropsScopes

/-!
# Messages in debug builds
-/

namespace Verif.Errors

open Spec

/-- The decimal number after a file name; a line of -1 is not shown. -/
def lineText (l : Int) : Text := if l = -1 then [] else [':'] ++ (toString l).toList

/-- C314: the text of an error with message and place tells the message, the file and the line. -/
theorem C314_text (env : Env) (hd : env.debug = true) (i : Info) (hc : i.cached = none) (hp : i.prev = 0)
    (m f : Text) (hm : i.message = some m) (hf : i.file = some f) :
    (i.formatted env).1 = m ++ " [ ".toList ++ f ++ lineText i.line ++ " ]".toList := by
  simp only [Info.formatted, hc, Info.compose, hm, hf, hd, if_true, place, lineText, Option.isSome_some, Bool.true_or]
  rw [if_pos (show i.prev = success from hp)]
  by_cases h : i.line = -1 <;> simp [h]

/-- C314: the text of an error without message tells the default message of its code. -/
theorem C314_default (env : Env) (hd : env.debug = true) (i : Info) (hc : i.cached = none) (hp : i.prev = 0)
    (h0 : i.code ≠ 0) (hm : i.message = none) (hf : i.file = none) :
    (i.formatted env).1 = codeMessage env i.code := by
  simp only [Info.formatted, hc, Info.compose, hm, hf, hd, if_true]
  rw [if_pos (show i.prev = success from hp), if_neg (by rw [hp]; exact fun h => h0 h.symm)]
  simp

/-- C314: the text of an error raised from another one says so. -/
theorem C314_raised (env : Env) (hd : env.debug = true) (i : Info) (hc : i.cached = none) (hp : i.prev ≠ 0)
    (m f : Text) (hm : i.message = some m) (hf : i.file = some f) :
    (i.formatted env).1 = " - Caused by: ".toList ++ m ++ " [ ".toList ++ f ++ lineText i.line ++ " ]".toList := by
  simp only [Info.formatted, hc, Info.compose, hm, hf, hd, if_true, place, lineText, Option.isSome_some, Bool.true_or]
  rw [if_neg (show ¬ i.prev = success from hp)]
  by_cases h : i.line = -1 <;> simp [h]

/-- C314: the text of an error passed on without message only tells the place. -/
theorem C314_passed (env : Env) (hd : env.debug = true) (i : Info) (hc : i.cached = none) (hp : i.prev ≠ 0)
    (he : i.prev = i.code) (f : Text) (hm : i.message = none) (hf : i.file = some f) :
    (i.formatted env).1 = " - Caused by: ".toList ++ "[ ".toList ++ f ++ lineText i.line ++ " ]".toList := by
  have hdec : (none : Option Text).isSome = false := rfl
  simp only [Info.formatted, hc, Info.compose, hm, hf, hd, if_true, place, lineText, hdec, he, ne_eq, not_true_eq_false,
    decide_false, Bool.or_false, Bool.false_eq_true, if_false]
  rw [if_neg (show ¬ i.code = success from he ▸ hp)]
  by_cases h : i.line = -1 <;> simp [h]

example : ({ e1 with file := some (t "a.cpp"), line := 7 }.formatted dbg).1 = t "no signal [ a.cpp:7 ]" ∧
    ({ e3 with file := some (t "b.h") }.formatted dbg).1 = t " - Caused by: bad block [ b.h ]" ∧
    ({ e3 with message := none, file := some (t "b.h"), line := 3 }.formatted dbg).1 = t " - Caused by: [ b.h:3 ]" := by
  decide +kernel

/-- Lines are joined by line ends. -/
theorem lines_eq : ∀ l : List Text, lines l = ['\n'].intercalate l := by
  intro l
  induction l with
  | nil => rfl
  | cons x r ih =>
    cases r with
    | nil => simp [lines, List.intercalate, List.intersperse]
    | cons y q =>
      simp only [lines, ih]
      simp [List.intercalate, List.intersperse]

/-- The errors an error was raised from. -/
theorem chain_append (i : Info) (hi : i.prev = 0) : ∀ (is l : List Info), (∀ j ∈ is, j.prev ≠ 0) →
    chain (is ++ i :: l) = is ++ [i] := by
  intro is l
  induction is with
  | nil => intro _; simp only [List.nil_append, chain]; rw [if_pos (show i.prev = success from hi)]
  | cons j r ih =>
    intro hj
    simp only [List.cons_append, chain]
    rw [if_neg (show ¬ j.prev = success from hj j (List.mem_cons_self ..)), ih fun k hk => hj k (List.mem_cons_of_mem _ hk)]

/-- C314: inside a guard, the message in a debug build has one line for each error, from the original one to
the one raised last, and no line of an error pending outside, followed by
the place of the guard; the code is that of the last error. -/
theorem C314_lines (env : Env) (hd : env.debug = true) (ops : List Op) (i : Info) (hi : i.prev = 0)
    (is : List Info) (hl : Linked i.code is) (f : Option Text) (l : Int) :
    getMessage env (extendAll (record (enter (steps init ops) f l) i) is)
      = (some (some (['\n'].intercalate (((i :: is).map kept).map fun j => (j.formatted env).1)
          ++ (match f with
              | some f => "\n - Caused by: [ ".toList ++ f ++ lineText l ++ " ]".toList
              | none => []))), ((i :: is).getLast (by simp)).code) := by
  have g : Good (enter (steps init ops) f l) := good_enter f l (held_reached ops).good
  rw [extendAll_eq g is i hl]
  have hb : back (enter (steps init ops) f l) = enter (steps init ops) f l := by
    simp [back, current, enter]
  rw [hb]
  have hlist : (edit (enter (steps init ops) f l) fun l => (is.map kept).reverse ++ kept i :: l).list
      = some (⟨(steps init ops).next, f, l, (is.map kept).reverse ++ [kept i]⟩ :: (steps init ops).list.getD []) := by
    simp only [edit, enter]
  unfold getMessage
  rw [current_of_list hlist]
  have hch : chain ((is.map kept).reverse ++ [kept i]) = (is.map kept).reverse ++ [kept i] :=
    chain_append (kept i) hi _ [] (by
      intro j hj
      simp only [List.mem_reverse, List.mem_map] at hj
      obtain ⟨k, hk, rfl⟩ := hj
      exact linked_prev hl k hk)
  have hrev : ((is.map kept).reverse ++ [kept i]).reverse = (i :: is).map kept := by simp
  have hhead : ∀ y z, (is.map kept).reverse ++ [kept i] = y :: z → y.code = ((i :: is).getLast (by simp)).code := by
    intro y z hy
    have h1 : ((i :: is).map kept).getLast (by simp) = y := by
      have : ((is.map kept).reverse ++ [kept i]).head (by simp) = y := by simp [hy]
      rw [← this]
      simp only [← hrev, List.getLast_reverse]
    rw [← h1, List.getLast_map]
    rfl
  unfold Scope.message
  dsimp only
  cases hh : (is.map kept).reverse ++ [kept i] with
  | nil => simp at hh
  | cons y z =>
    dsimp only
    rw [hd]
    simp only [if_true, debugMessage, hhead y z hh]
    rw [← hh, hch, hrev, lines_eq]
    cases f <;> simp [lineText]

example : (getMessage dbg (extendAll (record (enter init (some (t "g.cpp")) 5) e1) [e2, e3])).1
    = some (some (t "no signal\n - Caused by: Invalid value\n - Caused by: bad block\n - Caused by: [ g.cpp:5 ]")) := by
  decide +kernel

end Verif.Errors
