import Verif.Errors.PropsScopes

/-!
# Errors that cross an interface
-/

namespace Verif.Errors

open Spec

/-! ## Braces -/

/-- A text without braces is formatted to itself. -/
theorem fmtText_plain : ∀ m : Text, Plain m → fmtText m = some m := by
  intro m
  induction m with
  | nil => intro _; rfl
  | cons c r ih =>
    intro h
    have hc1 : c ≠ '{' := fun hc => h.1 (by rw [hc]; exact List.mem_cons_self ..)
    have hc2 : c ≠ '}' := fun hc => h.2 (by rw [hc]; exact List.mem_cons_self ..)
    have hr := ih ⟨fun hx => h.1 (List.mem_cons_of_mem _ hx), fun hx => h.2 (List.mem_cons_of_mem _ hx)⟩
    rw [fmtText]
    · rw [hr]; rfl
    all_goals (intros; simp_all)

/-- A formatted text is not longer, and shorter if there was a brace. -/
theorem fmtText_shorter : ∀ (n : Nat) (m m' : Text), m.length ≤ n → fmtText m = some m' →
    m'.length ≤ m.length ∧ ('{' ∈ m ∨ '}' ∈ m → m'.length < m.length) := by
  intro n
  induction n with
  | zero =>
    intro m m' hn h
    cases m with
    | nil => simp [fmtText] at h; subst h; simp
    | cons _ _ => simp at hn
  | succ n ih =>
    intro m m' hn h
    unfold fmtText at h
    split at h
    · cases h; simp
    · rename_i r
      simp only [List.length_cons] at hn
      cases hr : fmtText r with
      | none => rw [hr] at h; cases h
      | some x =>
        rw [hr] at h
        cases h
        have := (ih r x (by omega) hr).1
        simp only [List.length_cons]
        exact ⟨by omega, fun _ => by omega⟩
    · rename_i r
      simp only [List.length_cons] at hn
      cases hr : fmtText r with
      | none => rw [hr] at h; cases h
      | some x =>
        rw [hr] at h
        cases h
        have := (ih r x (by omega) hr).1
        simp only [List.length_cons]
        exact ⟨by omega, fun _ => by omega⟩
    · cases h
    · cases h
    · rename_i c r _ _ h1 h2
      simp only [List.length_cons] at hn
      cases hr : fmtText r with
      | none => rw [hr] at h; cases h
      | some x =>
        rw [hr] at h
        cases h
        have hx := ih r x (by omega) hr
        simp only [List.length_cons, List.mem_cons]
        refine ⟨by omega, ?_⟩
        rintro ((hc | hc) | (hc | hc))
        · exact absurd hc.symm (by simpa using h1)
        · have := hx.2 (Or.inl hc); omega
        · exact absurd hc.symm (by simpa using h2)
        · have := hx.2 (Or.inr hc); omega

/-! ## Crossing an interface -/

/-- The message of a scope whose newest error was just recorded, in a release build. -/
theorem getMessage_record {env : Env} (hrel : env.debug = false) {h : Holder} (g : Good h) (i : Info) (m : Text)
    (hm : i.message = some m) : getMessage env (record h i) = (some (some m), i.code) := by
  obtain ⟨s, r, hl, hs⟩ := record_list g i
  unfold getMessage
  rw [current_of_list hl]
  simp [Scope.message, hs, hrel, releaseMessage, hm, kept]

/-- What the caller's check does with an error that was just recorded with a message. -/
theorem check_made {env : Env} (hrel : env.debug = false) {h : Holder} (gh : Held h) (c : Nat) (m : Text)
    (hm : m ≠ []) (hc : failed c = true) (f : Option Text) (l : Int) :
    (check env c (make env c m f l h).1).2 = some (throwFrom env c m) ∧
    pending (check env c (make env c m f l h).1).1 = pending h ∧
    (h.list = none → Nothing (check env c (make env c m f l h).1).1) := by
  have hmsg := getMessage_record hrel gh.good (newInfo env c success m f l) m (by simp [newInfo, hm])
  have hclear := clear_recorded gh (newInfo env c success m f l) rfl [] trivial
  have htake : takeMessage env c (make env c m f l h).1
      = ((clear (record h (newInfo env c success m f l))).1, m) := by
    simp only [takeMessage, make, hmsg]
    rw [if_pos (show (newInfo env c success m f l).code = c from rfl)]
  simp only [check, hc, if_true, htake]
  exact ⟨trivial, hclear.2.1, hclear.2.2.1⟩

/-- C305: in a release build, an exception with a code and a message without braces that leaves a component
through an interface reaches the caller with the same code and the same message, the errors that were pending
before are still pending, and nothing else is left behind. -/
theorem C305_plain_partial (env : Env) (hrel : env.debug = false) (ops : List Op) (c : Nat) (hc : failed c = true)
    (m : Text) (hm : m ≠ []) (hp : Plain m) (f : Option Text) (l : Int) :
    let r := fromException env (.daq c m) f l (steps init ops)
    r.2 = c ∧ (check env r.2 r.1).2 = some (.daq c m) ∧
      pending (check env r.2 r.1).1 = pending (steps init ops) ∧
      ((steps init ops).list = none → Nothing (check env r.2 r.1).1) := by
  have h := check_made hrel (held_reached ops) c m hm hc f l
  refine ⟨rfl, ?_, h.2.1, h.2.2⟩
  refine h.1.trans ?_
  have hf := fmtText_plain m hp
  unfold throwFrom
  cases m with
  | nil => exact absurd rfl hm
  | cons x r =>
    cases env.registered c with
    | none => dsimp only; rw [hf]
    | some d => dsimp only; rw [hf]

example : Plain (t "no signal") ∧ failed notFound = true ∧
    (check rel notFound (fromException rel (.daq notFound (t "no signal")) none 0 (steps init [.record e2])).1).2
      = some (.daq notFound (t "no signal")) := by
  refine ⟨⟨?_, ?_⟩, ?_, ?_⟩ <;> decide +kernel

/-- C305: violated with a brace in the message: the caller gets an exception without the code, or another
message, always. -/
theorem C305_violation_braces (env : Env) (hrel : env.debug = false) (ops : List Op) (c : Nat)
    (hc : failed c = true) (m : Text) (hp : ¬ Plain m) (f : Option Text) (l : Int) :
    let r := fromException env (.daq c m) f l (steps init ops)
    (check env r.2 r.1).2 ≠ some (.daq c m) := by
  have hb : '{' ∈ m ∨ '}' ∈ m := by
    by_cases h1 : '{' ∈ m
    · exact Or.inl h1
    · by_cases h2 : '}' ∈ m
      · exact Or.inr h2
      · exact absurd ⟨h1, h2⟩ hp
  have hm : m ≠ [] := by rintro rfl; simp at hb
  have h := check_made hrel (held_reached ops) c m hm hc f l
  dsimp only
  have h1 : (check env c (make env c m f l (steps init ops)).1).2 = some (throwFrom env c m) := h.1
  simp only [fromException]
  rw [show (make env c m f l (steps init ops)).2 = c from rfl, h1]
  unfold throwFrom
  cases m with
  | nil => exact absurd rfl hm
  | cons x r =>
    have key : (match fmtText (x :: r) with
        | some t => Exc.daq c t
        | none => Exc.std env.fmtError) ≠ Exc.daq c (x :: r) := by
      cases hf : fmtText (x :: r) with
      | none => intro hh; cases hh
      | some y =>
        have := (fmtText_shorter _ _ _ (Nat.le_refl _) hf).2 hb
        intro hh
        injection hh with _ hy
        rw [hy] at this
        exact absurd this (Nat.lt_irrefl _)
    intro hh
    rw [Option.some.injEq] at hh
    cases hr : env.registered c with
    | none => rw [hr] at hh; exact key hh
    | some d => rw [hr] at hh; exact key hh

/-- C305: violated: a message that names a property in braces reaches the caller as another exception, which
has no code; doubled braces become single. -/
theorem C305_violation :
    (check rel notFound (fromException rel (.daq notFound (t "no {a}")) none 0 init).1).2
      = some (.std (t "argument not found")) ∧
    (check rel notFound (fromException rel (.daq notFound (t "no {{a}}")) none 0 init).1).2
      = some (.daq notFound (t "no {a}")) := by
  decide +kernel

/-! ## Codes without recorded error -/

/-- C306: a code whose error was not recorded is reported with the default message of the code, and leaves the
pending errors as they are, as long as the newest of them has another code. -/
theorem C306_other_partial (env : Env) (ops : List Op) (c : Nat) (hc : failed c = true) (hdeb : env.debug = false)
    (hp : ∀ i r, pending (steps init ops) = i :: r → i.code ≠ c) :
    check env c (steps init ops) = (steps init ops, some (throwFrom env c [])) := by
  have g := (held_reached ops).good
  generalize steps init ops = x at g hp
  have ht : takeMessage env c x = (x, []) := by
    unfold takeMessage getMessage
    cases hcur : current x with
    | none => rfl
    | some s =>
      dsimp only
      have hlist : ∃ r, x.list = some (s :: r) := by
        unfold current at hcur
        cases hl : x.list with
        | none => rw [hl] at hcur; cases hcur
        | some l =>
          cases l with
          | nil => rw [hl] at hcur; cases hcur
          | cons s' r => rw [hl] at hcur; simp at hcur; subst hcur; exact ⟨r, rfl⟩
      obtain ⟨r, hl⟩ := hlist
      have hpend : pending x = s.infos := by simp [pending, hl]
      rw [hpend] at hp
      unfold Scope.message
      cases hi : s.infos with
      | nil => rfl
      | cons i q =>
        have hne := hp i q hi
        dsimp only
        rw [hdeb]
        simp only [Bool.false_eq_true, if_false]
        have hrm : ∀ l, (releaseMessage env i.code l).1 = none ∨ (releaseMessage env i.code l).2 = i.code := by
          intro l
          induction l with
          | nil => exact Or.inl rfl
          | cons y z ih =>
            unfold releaseMessage
            cases y.message with
            | some m => exact Or.inr rfl
            | none =>
              dsimp only
              split
              · exact ih
              · exact Or.inr rfl
        cases hrr : releaseMessage env i.code (i :: q) with
        | mk a b =>
          have := hrm (i :: q)
          rw [hrr] at this
          cases a with
          | none => rfl
          | some m =>
            dsimp only
            rcases this with h1 | h1
            · cases h1
            · rw [if_neg (by rw [show b = i.code from h1]; exact hne)]
  simp [check, hc, ht]

/-- C306: violated: an older error with the same code, which the caller did not look at, lends its message to a
code that comes without one. -/
theorem C306_violation : (check rel notFound (steps init [.record e1])).2 = some (.daq notFound (t "no signal")) ∧
    (check rel notFound init).2 = some (.daq notFound (t "Not found")) := by
  decide +kernel

example : pending (steps init [.record e2]) = [kept e2] ∧ e2.code ≠ notFound ∧
    (check rel notFound (steps init [.record e2])).2 = some (.daq notFound (t "Not found")) := by decide +kernel

/-! ## Passing on codes -/

/-- C310: a failing code whose error was recorded last is handed on to the caller, with the error. -/
theorem C310_recorded_partial (env : Env) (ops : List Op) (c : Nat) (hc : failed c = true) (msg file : Option Text)
    (l : Int) (i : Info) (r : List Info) (hp : pending (steps init ops) = i :: r) (hi : i.code = c) :
    (returnIfFailed env c msg file l (steps init ops)).2 = .ret c ∧
    ∃ pre, pending (returnIfFailed env c msg file l (steps init ops)).1 = pre ++ i :: r ∧
      ∀ j ∈ pre, j.code = c ∧ j.prev = c := by
  have g := (held_reached ops).good
  generalize steps init ops = x at g hp
  unfold returnIfFailed
  rw [if_pos hc]
  split
  · exact ⟨rfl, [], hp, fun j hj => nomatch hj⟩
  · rw [extend_eq g, hp]
    dsimp only
    rw [if_pos (show i.code = (newInfo env c c (msg.getD []) file l).prev from hi)]
    refine ⟨rfl, [kept (newInfo env c c (msg.getD []) file l)], ?_, ?_⟩
    · dsimp only
      rw [pending_record g, hp]
      rfl
    · intro j hj
      simp only [List.mem_singleton] at hj
      subst hj
      exact ⟨rfl, rfl⟩

/-- C310: a code that is not a failure goes on. -/
theorem C310_goes_on_partial (env : Env) (c : Nat) (hc : failed c = false) (msg file : Option Text) (l : Int)
    (h : Holder) : returnIfFailed env c msg file l h = (h, .goOn) := by
  simp [returnIfFailed, hc]

/-- C310: in a release build a failing code is handed on even if its error was not recorded, if there is no
message to add. -/
theorem C310_silent_partial (env : Env) (hrel : env.debug = false) (c : Nat) (hc : failed c = true)
    (file : Option Text) (l : Int) (h : Holder) : returnIfFailed env c none file l h = (h, .ret c) := by
  simp [returnIfFailed, hc, hrel]

/-- C310: violated: a failing code whose error was not recorded makes the caller throw instead of handing the
code on, in a debug build and when a message is added. -/
theorem C310_violation (env : Env) (ops : List Op) (c : Nat) (hc : failed c = true) (msg file : Option Text)
    (l : Int) (h : env.debug = true ∨ msg ≠ none)
    (hp : ∀ j r, pending (steps init ops) = j :: r → j.code ≠ c) :
    (returnIfFailed env c msg file l (steps init ops)).2 = .throws := by
  have hx := (C313_refused_partial ops (newInfo env c c (msg.getD []) file l) hp).1
  unfold returnIfFailed
  rw [if_pos hc, if_neg (by rcases h with h | h <;> cases msg <;> simp_all)]
  dsimp only
  rw [hx]
  rfl

example : (returnIfFailed dbg notFound none none 0 init).2 = .throws ∧
    (returnIfFailed rel notFound none none 0 init).2 = .ret notFound ∧
    (returnIfFailed dbg notFound none none 0 (record init e1)).2 = .ret notFound := by decide +kernel

/-! ## Messages of errors raised from others -/

/-- C311: in a release build, an error that is passed on with its code is shown with the newest message that was
given on the way, and with the default message of its code if there is none. -/
theorem C311_newest (env : Env) (hrel : env.debug = false) (ops : List Op) (i : Info) (hi : i.prev = 0)
    (h0 : i.code ≠ 0) (is : List Info) (hs : ∀ j ∈ is, j.code = i.code ∧ j.prev = i.code) :
    getMessage env (extendAll (record (steps init ops) i) is)
      = (some (some (newest (codeMessage env i.code) ((is.map Info.message).reverse ++ [i.message]))), i.code) := by
  have g := (held_reached ops).good
  generalize steps init ops = x at g
  have hlink : ∀ (is : List Info), (∀ j ∈ is, j.code = i.code ∧ j.prev = i.code) → Linked i.code is := by
    intro is
    induction is with
    | nil => intro _; trivial
    | cons j r ih =>
      intro hj
      have h1 := hj j (List.mem_cons_self ..)
      refine ⟨h1.2, by rw [h1.2]; exact h0, ?_⟩
      rw [h1.1]
      exact ih fun k hk => hj k (List.mem_cons_of_mem _ hk)
  rw [extendAll_eq g is i (hlink is hs)]
  obtain ⟨s, r, hb, _⟩ := back_some g
  have hl : (edit (back x) fun l => (is.map kept).reverse ++ kept i :: l).list
      = some ({ s with infos := (is.map kept).reverse ++ kept i :: s.infos } :: r) := by
    simp only [edit, hb]
  unfold getMessage
  rw [current_of_list hl]
  have hrm : ∀ (js : List Info) (l : List Info), (∀ j ∈ js, j.prev = i.code) →
      releaseMessage env i.code (js ++ kept i :: l)
        = (some (newest (codeMessage env i.code) (js.map Info.message ++ [i.message])), i.code) := by
    intro js l
    induction js with
    | nil =>
      intro _
      simp only [List.nil_append, List.map_nil, releaseMessage]
      have : (kept i).message = i.message := rfl
      rw [this]
      cases i.message with
      | some m => rfl
      | none =>
        dsimp only
        rw [if_neg (show ¬ (kept i).prev = i.code by rw [show (kept i).prev = i.prev from rfl, hi]; exact fun h => h0 h.symm)]
        rfl
    | cons j k ih =>
      intro hj
      simp only [List.cons_append, releaseMessage, List.map_cons]
      cases j.message with
      | some m => rfl
      | none =>
        dsimp only
        rw [if_pos (hj j (List.mem_cons_self ..)), ih fun y hy => hj y (List.mem_cons_of_mem _ hy)]
        rfl
  have hcode : ∀ y z, (is.map kept).reverse ++ kept i :: s.infos = y :: z → y.code = i.code := by
    intro y z hy
    have hmem : y ∈ (is.map kept).reverse ++ [kept i] := by
      cases hx : (is.map kept).reverse with
      | nil => rw [hx] at hy; simp at hy; rw [← hy.1]; simp
      | cons a b => rw [hx] at hy; simp at hy; rw [← hy.1]; simp
    simp only [List.mem_append, List.mem_reverse, List.mem_map, List.mem_singleton] at hmem
    rcases hmem with ⟨k, hk, rfl⟩ | rfl
    · exact (hs k hk).1
    · rfl
  have hrel' := hrm (is.map kept).reverse s.infos (by
    intro j hj
    simp only [List.mem_reverse, List.mem_map] at hj
    obtain ⟨k, hk, rfl⟩ := hj
    exact (hs k hk).2)
  have hmap : (is.map kept).reverse.map Info.message = (is.map Info.message).reverse := by
    simp only [List.map_reverse, List.map_map]
    rfl
  rw [hmap] at hrel'
  unfold Scope.message
  dsimp only
  cases hh : (is.map kept).reverse ++ kept i :: s.infos with
  | nil => simp at hh
  | cons y z =>
    dsimp only
    rw [hrel, ← hh, hcode y z hh, hrel']
    rfl

example : getMessage rel (extendAll (record init e1) [{ e1 with prev := notFound, message := none }])
    = (some (some (t "no signal")), notFound) := by decide +kernel

/-- C311: an error that is raised from another one under another code, without a message, is shown with the
default message of its own code. -/
theorem C311_default (env : Env) (hrel : env.debug = false) (ops : List Op) (i : Info) (hm : i.message = none)
    (hne : i.prev ≠ i.code) :
    getMessage env (record (steps init ops) i) = (some (some (codeMessage env i.code)), i.code) := by
  obtain ⟨s, r, hl, hs⟩ := record_list (held_reached ops).good i
  unfold getMessage
  rw [current_of_list hl]
  have h1 : (kept i).message = none := hm
  simp only [Scope.message, hs, hrel, Bool.false_eq_true, if_false, releaseMessage, h1]
  rw [if_neg (show ¬ (kept i).prev = (kept i).code from hne)]
  rfl

example : (getMessage rel (extendAll (record init e1) [e2])).1 = some (some (t "Invalid value")) ∧
    (getMessage rel (extendAll (record init e1) [e2, e3])).1 = some (some (t "bad block")) := by decide +kernel

/-- C311: the default message is that of the exception registered for the code, or tells the code in hexadecimal
digits. -/
theorem C311_code (env : Env) (c : Nat) :
    (∀ d, env.registered c = some d → d ≠ [] → codeMessage env c = d) ∧
    (env.registered c = none →
      codeMessage env c = "Error code: 0x".toList ++ (Nat.toDigits 16 c).map Char.toUpper) := by
  constructor
  · intro d hd hne
    cases d with
    | nil => exact absurd rfl hne
    | cons x r => simp [codeMessage, hd]
  · intro hn
    simp [codeMessage, hn]

example : codeMessage rel 0x80000051 = t "Error code: 0x80000051" ∧ codeMessage rel notFound = t "Not found" := by
  decide +kernel

end Verif.Errors
