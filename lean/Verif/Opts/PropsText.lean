import Verif.Opts.Writes
import Verif.Opts.Demo

/-!
# Environment variables and command line arguments (C270 – C274)
-/

namespace Verif.Opts
open Spec

/-- Options for examples. -/
def some' : Ents :=
  .cons (t "Count") (.prim (.int 1)) (.cons (t "Rate") (.prim (.float (.num 2))) (.cons (t "Name") (.prim (.str (t "x")))
    (.cons (t "On") (.prim (.bool false)) .nil)))

/-! ## C270: a text for an option that exists -/

/-- Texts that are no integers are accepted for an integer … -/
theorem C270_violation_int : ∃ s s' : Text, s = t "12abc" ∧ s' = t "0x10" ∧
    look (populate some' (.cmd [argument cmdStart [t "Count"] s])) [t "Count"] = some (.int 12) ∧
    look (populate some' (.cmd [argument cmdStart [t "Count"] s'])) [t "Count"] = some (.int 0) :=
  ⟨_, _, rfl, rfl, by decide +kernel, by decide +kernel⟩

/-- … a float is not set by a text without a point, although every integer is a number … -/
theorem C270_violation_float : ∃ s : Text, Decimal s 5 ∧
    look (populate some' (.cmd [argument cmdStart [t "Rate"] s])) [t "Rate"] = some (.float (.num 2)) :=
  ⟨['5'], .one (d := 5) (by decide), by decide +kernel⟩

/-- … and a text in quotes, which is to be a string, sets an integer. -/
theorem C270_violation_quotes : ∃ s : Text, s = t "\"7\"" ∧
    look (populate some' (.cmd [argument cmdStart [t "Count"] s])) [t "Count"] = some (.int 7) :=
  ⟨_, rfl, by decide +kernel⟩

theorem leaf_int {i : Int} {c : Char} {s : Text} (h : c ≠ '"') : leaf (.prim (.int i)) (c :: s) = toInt (c :: s) := by
  unfold leaf
  rw [unquote_none h]
  rfl

theorem decimal_cons {s : Text} {n : Nat} (h : Decimal s n) : ∃ c s', s = c :: s' ∧ isDigit c = true := by
  obtain ⟨-, hd, hne⟩ := decimal_spec h
  cases s with
  | nil => exact absurd rfl hne
  | cons c s' => exact ⟨c, s', rfl, hd c List.mem_cons_self⟩

/-- Integers are read, … -/
theorem C270_int_partial {o : Ents} {p : List Text} {i : Int} {s : Text} {n : Nat} {x : Provider} (hp : Plain p)
    (h : At o p (.prim (.int i))) (hs : Decimal s n) :
    (n < 9223372036854775808 → Gives p s x → At (populate o x) p (.prim (.int n))) ∧
      (n ≤ 9223372036854775808 → Gives p ('-' :: s) x → At (populate o x) p (.prim (.int (-n)))) := by
  constructor
  · intro hn hx
    rw [gives_write hx hp]
    refine write_known p h ?_
    obtain ⟨c, s', rfl, hc⟩ := decimal_cons hs
    rw [leaf_int (digit_start hc).2.2.2.1, toInt, stoll_decimal hs hn]
    rfl
  · intro hn hx
    rw [gives_write hx hp]
    refine write_known p h ?_
    rw [leaf_int (by decide), toInt, stoll_negative hs hn]
    rfl

theorem unquote_spells {s w : Text} {d : Char} (h : Spells s (d :: w)) (hd : 97 ≤ d.toNat) : unquote s = none := by
  cases h with
  | cons h1 _ =>
    refine unquote_none fun e => ?_
    subst e
    rcases h1 with h1 | h1
    · subst h1
      revert hd
      decide
    · have : ('"' : Char).toNat = 34 := by decide
      omega

/-- … and so are words for truth values, … -/
theorem C270_bool_partial {o : Ents} {p : List Text} {b : Bool} {s : Text} {x : Provider} (hp : Plain p)
    (h : At o p (.prim (.bool b))) (hx : Gives p s x) :
    (Spells s "true".toList → At (populate o x) p (.prim (.bool true))) ∧
      (Spells s "false".toList → At (populate o x) p (.prim (.bool false))) ∧
      (¬ Spells s "true".toList → ¬ Spells s "false".toList → s.head? ≠ some '"' → populate o x = o) := by
  rw [gives_write hx hp]
  refine ⟨fun hs => ?_, fun hs => ?_, fun h1 h2 h3 => ?_⟩
  · refine write_known p h ?_
    unfold leaf
    rw [unquote_spells hs (by decide)]
    exact toBool_true hs
  · refine write_known p h ?_
    unfold leaf
    rw [unquote_spells hs (by decide)]
    exact toBool_false hs
  · refine write_refused p h ?_
    have : unquote s = none := by
      cases s with
      | nil => rfl
      | cons c s => exact unquote_none fun e => h3 (by rw [e]; rfl)
    unfold leaf
    rw [this]
    exact toBool_none h1 h2

/-- … fractions, … -/
theorem C270_fraction_partial {o : Ents} {p : List Text} {y : Fl} {w f : Text} {n m : Nat} {x : Provider} (hp : Plain p)
    (h : At o p (.prim (.float y))) (hw : Decimal w n) (hf : Decimal f m) (hx : Gives p (w ++ '.' :: f) x) :
    At (populate o x) p (.prim (.float (.num (((n * 10 ^ f.length + m : Nat) : Rat) / (10 : Rat) ^ f.length)))) := by
  rw [gives_write hx hp]
  refine write_known p h ?_
  have hu : unquote (w ++ '.' :: f) = none := by
    obtain ⟨c, s', rfl, hc⟩ := decimal_cons hw
    exact unquote_none (digit_start hc).2.2.2.1
  unfold leaf
  rw [hu]
  change toFloat (w ++ '.' :: f) = _
  rw [toFloat, if_pos (by simp), stod_fraction hw hf]
  have ht : ten (0 - (f.length : Int)) = 1 / (10 : Rat) ^ f.length := by
    have hl : 0 < f.length := by
      cases f with
      | nil => exact absurd rfl (decimal_spec hf).2.2
      | cons _ _ => simp
    unfold ten
    rw [if_neg (by omega)]
    congr 2
    omega
  rw [ht]
  simp [Rat.div_def]

/-- … and strings, with or without quotes. -/
theorem C270_string_partial {o : Ents} {p : List Text} {y s : Text} {x : Provider} (hp : Plain p)
    (h : At o p (.prim (.str y))) :
    (Gives p ('"' :: s ++ ['"']) x → At (populate o x) p (.prim (.str s))) ∧
      (s.head? ≠ some '"' → Gives p s x → At (populate o x) p (.prim (.str s))) := by
  constructor
  · intro hx
    rw [gives_write hx hp]
    refine write_known p h ?_
    unfold leaf
    rw [unquote_quoted]
    rfl
  · intro hs hx
    rw [gives_write hx hp]
    refine write_known p h ?_
    have : unquote s = none := by
      cases s with
      | nil => rfl
      | cons c s => exact unquote_none fun e => hs (by rw [e]; rfl)
    unfold leaf
    rw [this]
    rfl

/-- Lists and dictionaries are not changed by texts. -/
theorem C270_others_partial {o : Ents} {p : List Text} {v : Opt} {s : Text} {x : Provider} (hp : Plain p)
    (h : At o p v) (hv : (∃ l, v = .list l) ∨ ∃ m, v = .dict m) (hx : Gives p s x) : populate o x = o := by
  rw [gives_write hx hp]
  refine write_refused p h ?_
  rcases hv with ⟨_, rfl⟩ | ⟨_, rfl⟩ <;> rfl

example : Plain [t "Scheduler", t "WorkersNum"] := ⟨by simp, by decide⟩
example : Decimal (t "12") 12 := Decimal.more (s := ['1']) (n := 1) (d := 2) (.one (d := 1) (by decide)) (by decide)
example : Spells (t "TruE") "true".toList := (lower_spells (by decide)).mp (by decide)

/-! ## C271: a text for a new option -/

/-- An address becomes a float, and a quantity with a unit an integer. -/
theorem C271_violation : ∃ s s' : Text, s = t "192.168.1.1" ∧ s' = t "10 Hz" ∧
    look (populate .nil (.cmd [argument cmdStart [t "A"] s])) [t "A"] = some (.float (.num (192168 / 1000))) ∧
    look (populate .nil (.cmd [argument cmdStart [t "A"] s'])) [t "A"] = some (.int 10) :=
  ⟨_, _, rfl, rfl, by decide +kernel, by decide +kernel⟩

theorem guess_at {o : Ents} {p : List Text} {s : Text} {x : Provider} (hp : Plain p) (h : Missing o p) (hx : Gives p s x)
    {q : Prim} (hg : guess s = q) : At (populate o x) p (.prim q) := by
  rw [gives_write hx hp, ← hg]
  exact write_missing p h

/-- Texts in quotes become strings, … -/
theorem C271_quotes_partial {o : Ents} {p : List Text} {s : Text} {x : Provider} (hp : Plain p) (h : Missing o p)
    (hx : Gives p ('"' :: s ++ ['"']) x) : At (populate o x) p (.prim (.str s)) :=
  guess_at hp h hx (by unfold guess; rw [unquote_quoted])

theorem digits_no_point {s : Text} {n : Nat} (h : Decimal s n) : '.' ∉ s := fun e =>
  (digit_start ((decimal_spec h).2.1 _ e)).2.2.2.2 rfl

/-- … digits become integers, … -/
theorem C271_int_partial {o : Ents} {p : List Text} {s : Text} {n : Nat} {x : Provider} (hp : Plain p) (h : Missing o p)
    (hs : Decimal s n) :
    (n < 9223372036854775808 → Gives p s x → At (populate o x) p (.prim (.int n))) ∧
      (n ≤ 9223372036854775808 → Gives p ('-' :: s) x → At (populate o x) p (.prim (.int (-n)))) := by
  constructor
  · intro hn hx
    refine guess_at hp h hx ?_
    have hf : toFloat s = none := by rw [toFloat, if_neg (digits_no_point hs)]
    have hi : toInt s = some (.int n) := by rw [toInt, stoll_decimal hs hn]; rfl
    obtain ⟨c, s', rfl, hc⟩ := decimal_cons hs
    unfold guess
    rw [unquote_none (digit_start hc).2.2.2.1, digit_no_word (.inl hc), hf, hi]
    rfl
  · intro hn hx
    refine guess_at hp h hx ?_
    have hf : toFloat ('-' :: s) = none := by
      rw [toFloat, if_neg]
      intro e
      rcases List.mem_cons.mp e with e | e
      · revert e; decide
      · exact digits_no_point hs e
    have hi : toInt ('-' :: s) = some (.int (-n)) := by rw [toInt, stoll_negative hs hn]; rfl
    unfold guess
    rw [unquote_none (by decide), digit_no_word (.inr rfl), hf, hi]
    rfl

/-- … the words for truth values become those, … -/
theorem C271_bool_partial {o : Ents} {p : List Text} {s : Text} {x : Provider} (hp : Plain p) (h : Missing o p)
    (hx : Gives p s x) :
    (Spells s "true".toList → At (populate o x) p (.prim (.bool true))) ∧
      (Spells s "false".toList → At (populate o x) p (.prim (.bool false))) := by
  refine ⟨fun hs => guess_at hp h hx ?_, fun hs => guess_at hp h hx ?_⟩
  · unfold guess
    rw [unquote_spells hs (by decide), toBool_true hs]
    rfl
  · unfold guess
    rw [unquote_spells hs (by decide), toBool_false hs]
    rfl

/-- … and texts that start with nothing a number starts with, have no point and are not such words become strings. -/
theorem C271_string_partial {o : Ents} {p : List Text} {s : Text} {x : Provider} (hp : Plain p) (h : Missing o p)
    (hx : Gives p s x) (h1 : ¬ Spells s "true".toList) (h2 : ¬ Spells s "false".toList) (h3 : '.' ∉ s)
    (h4 : ∀ c ∈ s.head?, c ≠ '"' ∧ ¬ Starts c) : At (populate o x) p (.prim (.str s)) := by
  refine guess_at hp h hx ?_
  have hf : toFloat s = none := by rw [toFloat, if_neg h3]
  have hi : toInt s = none := by
    cases s with
    | nil => rfl
    | cons c s => rw [toInt, stoll_none (h4 c rfl).2]; rfl
  have hu : unquote s = none := by
    cases s with
    | nil => rfl
    | cons c s => exact unquote_none (h4 c rfl).1
  unfold guess
  rw [hu, toBool_none h1 h2, hf, hi]
  rfl

example : Missing demo [t "Scheduler", t "New", t "Deep"] :=
  .inside .here (.absent (by intro v h; rw [has_iff] at h; revert h; simp [Ents.get, t]))

/-! ## C272: other options -/

/-- A variable or argument leaves all other options as they were. -/
theorem C272_other {o : Ents} {p : List Text} {s : Text} {x : Provider} (hp : Plain p) (hx : Gives p s x)
    {q : List Text} {v : Opt} (hq : q ≠ p) (hv : NoDict v) : At (populate o x) q v ↔ At o q v := by
  rw [gives_write hx hp]
  exact write_other p hq hv

theorem setText_mem {l : List (Text × Text)} {k v : Text} {y : Text × Text} (h : y ∈ setText l k v) :
    y ∈ l ∨ y = (k, v) := by
  induction l with
  | nil => exact .inr (List.mem_singleton.mp h)
  | cons z l ih =>
    obtain ⟨n, w⟩ := z
    unfold setText at h
    by_cases hn : n = k
    · rw [if_pos hn] at h
      rcases List.mem_cons.mp h with h | h
      · exact .inr (by rw [h, hn])
      · exact .inl (List.mem_cons_of_mem _ h)
    · rw [if_neg hn] at h
      rcases List.mem_cons.mp h with h | h
      · exact .inl (h ▸ List.mem_cons_self)
      · rcases ih h with h | h
        · exact .inl (List.mem_cons_of_mem _ h)
        · exact .inr h

theorem joined_split (s : Text) : joined (split s) = s := by
  induction s with
  | nil => rfl
  | cons c s ih =>
    unfold split
    by_cases hc : c = '_'
    · rw [if_pos hc]
      have hne : split s ≠ [] := by
        cases s with
        | nil => simp [split]
        | cons d s =>
          unfold split
          split
          · simp
          · split <;> simp
      cases h : split s with
      | nil => exact absurd h hne
      | cons u us =>
        rw [h] at ih
        rw [joined, ih, hc]
        · rfl
        · simp
    · rw [if_neg hc]
      cases h : split s with
      | nil =>
        rw [h] at ih
        rw [joined, ← ih]
        rfl
      | cons u us =>
        rw [h] at ih
        cases us with
        | nil => exact congrArg (c :: ·) ih
        | cons u' us =>
          rw [joined] at ih ⊢
          · rw [← ih]; rfl
          · simp
          · simp

theorem cut_some {pre a k v : Text} (h : cut pre a = some (k, v)) : a = pre ++ k ++ '=' :: v := by
  unfold cut at h
  by_cases hp : pre.isPrefixOf a = true
  · rw [if_pos hp] at h
    obtain ⟨r, rfl⟩ := List.isPrefixOf_iff_prefix.mp hp
    dsimp only at h
    rw [List.drop_left] at h
    by_cases he : '=' ∈ r
    · rw [if_pos he] at h
      cases h
      have hd : ∃ r', r.dropWhile (fun x => decide (x ≠ '=')) = '=' :: r' := by
        clear hp
        induction r with
        | nil => cases he
        | cons c r ih =>
          by_cases hc : c = '='
          · subst hc
            exact ⟨r, by rw [List.dropWhile_cons_of_neg (by decide)]⟩
          · rw [List.dropWhile_cons_of_pos (by simpa using hc)]
            rcases List.mem_cons.mp he with e | e
            · exact absurd e.symm hc
            · exact ih e
      obtain ⟨r', hr⟩ := hd
      rw [hr]
      conv => lhs; rw [← List.takeWhile_append_dropWhile (p := fun x => decide (x ≠ '=')) (l := r), hr]
      simp
    · rw [if_neg he] at h; cases h
  · rw [if_neg hp] at h; cases h

theorem collect_named (pre : Text) (args : List Text) : ∀ y ∈ collect pre args, ∃ a ∈ args, a = pre ++ y.1 ++ '=' :: y.2 := by
  unfold collect
  have : ∀ (l : List Text) (acc : List (Text × Text)) (P : Text × Text → Prop), (∀ y ∈ acc, P y) →
      (∀ a ∈ l, ∀ y, cut pre a = some y → P y) → ∀ y ∈ l.foldl (gather pre) acc, P y := by
    intro l
    induction l with
    | nil => intro acc P h _ y hy; exact h y hy
    | cons a l ih =>
      intro acc P h hc y hy
      refine ih (gather pre acc a) P ?_ (fun b hb => hc b (List.mem_cons_of_mem _ hb)) y hy
      unfold gather
      cases hx : cut pre a with
      | none => exact h
      | some z =>
        intro w hw
        rcases setText_mem hw with hw | hw
        · exact h w hw
        · rw [hw]; exact hc a List.mem_cons_self _ hx
  refine this args [] _ (by simp) fun a ha y hy => ⟨a, ha, ?_⟩
  obtain ⟨k, v⟩ := y
  exact cut_some hy

/-- Any number of variables or arguments leave the options that none of them names as they were. -/
theorem C272_unnamed {o : Ents} {q : List Text} {v : Opt} (hv : NoDict v) :
    (∀ args, ¬ Named cmdStart args q → (At (populate o (.cmd args)) q v ↔ At o q v)) ∧
      ∀ vars, ¬ Named envStart vars q → (At (populate o (.env vars)) q v ↔ At o q v) := by
  have key : ∀ pre args, ¬ Named pre args q → (At (fromArgs pre args o) q v ↔ At o q v) := by
    intro pre args hn
    have hall : ∀ y ∈ collect pre args, q ≠ split y.1 := by
      intro y hy e
      obtain ⟨a, ha, hx⟩ := collect_named pre args y hy
      refine hn ⟨a, ha, y.2, ?_⟩
      rw [hx, argument, e, joined_split]
    unfold fromArgs
    generalize collect pre args = l at hall
    induction l generalizing o with
    | nil => exact Iff.rfl
    | cons y l ih =>
      exact (ih fun z hz => hall z (List.mem_cons_of_mem _ hz)).trans (write_other _ (hall y List.mem_cons_self) hv)
  exact ⟨key cmdStart, key envStart⟩

example : ¬ Named cmdStart [t "-CScheduler_WorkersNum=4", t "-x"] [t "Scheduler", t "UseMainLoop"] := by
  rintro ⟨a, ha, s, rfl⟩
  simp [argument, joined, cmdStart, t] at ha

/-! ## C273: the order of arguments -/

/-- With arguments for an option and for one inside it, the first one wins. -/
theorem C273_violation : ∃ a b : Text, a = t "-CA=1" ∧ b = t "-CA_B=2" ∧
    look (populate .nil (.cmd [a, b])) [t "A"] = some (.int 1) ∧ look (populate .nil (.cmd [b, a])) [t "A"] = none ∧
    look (populate .nil (.cmd [b, a])) [t "A", t "B"] = some (.int 2) :=
  ⟨_, _, rfl, rfl, by decide +kernel, by decide +kernel, by decide +kernel⟩

theorem foldl_same {l : List (List Text × Text)} {o o' : Ents} (h : Same o o') :
    Same (l.foldl (fun o x => write o x.1 x.2) o) (l.foldl (fun o x => write o x.1 x.2) o') := by
  induction l generalizing o o' with
  | nil => exact h
  | cons x l ih => exact ih (write_same x.1 x.2 h)

theorem foldl_perm {l l' : List (List Text × Text)} (h : l.Perm l') (ha : l.Pairwise fun a b => Apart a.1 b.1) (o : Ents) :
    Same (l.foldl (fun o x => write o x.1 x.2) o) (l'.foldl (fun o x => write o x.1 x.2) o) := by
  induction h generalizing o with
  | nil => exact same_refl o
  | cons x _ ih => exact ih (List.pairwise_cons.mp ha).2 _
  | swap x y l =>
    obtain ⟨h1, h2⟩ := List.pairwise_cons.mp ha
    exact foldl_same (write_commute y.1 x.1 (h1 x List.mem_cons_self) o y.2 x.2)
  | trans h1 _ ih1 ih2 =>
    exact same_trans (ih1 ha o) (ih2 ((h1.pairwise_iff fun {a b} (h : Apart a.1 b.1) => ⟨h.2, h.1⟩).mp ha) o)

/-- Otherwise the order of variables and arguments does not matter. -/
theorem C273_order_partial {l l' : List (List Text × Text)} (h : l.Perm l') (hp : ∀ x ∈ l, Plain x.1)
    (ha : l.Pairwise fun a b => Apart a.1 b.1) (o : Ents) :
    Same (populate o (.cmd (l.map fun x => argument cmdStart x.1 x.2)))
        (populate o (.cmd (l'.map fun x => argument cmdStart x.1 x.2))) ∧
      Same (populate o (.env (l.map fun x => argument envStart x.1 x.2)))
        (populate o (.env (l'.map fun x => argument envStart x.1 x.2))) := by
  have hp' : ∀ x ∈ l', Plain x.1 := fun x hx => hp x (h.mem_iff.mpr hx)
  have ha' : l'.Pairwise fun a b => Apart a.1 b.1 :=
    (h.pairwise_iff fun {a b} (h : Apart a.1 b.1) => ⟨h.2, h.1⟩).mp ha
  have hne : ∀ {l : List (List Text × Text)}, l.Pairwise (fun a b => Apart a.1 b.1) → l.Pairwise fun a b => a.1 ≠ b.1 :=
    fun h => h.imp fun {a b} (h : Apart a.1 b.1) e => h.1 (by rw [e]; exact List.prefix_refl _)
  have key : ∀ pre, Same (fromArgs pre (l.map fun x => argument pre x.1 x.2) o)
      (fromArgs pre (l'.map fun x => argument pre x.1 x.2) o) := by
    intro pre
    rw [fromArgs_arguments hp (hne ha), fromArgs_arguments hp' (hne ha')]
    exact foldl_perm h ha o
  exact ⟨key cmdStart, key envStart⟩

example : Apart [t "Scheduler", t "WorkersNum"] [t "Scheduler", t "UseMainLoop"] := by
  constructor <;> decide

/-! ## C274: which variables name options -/

/-- The variable with the name of the configuration file also creates an option. -/
theorem C274_violation : ∃ v : Text, v = t "OPENDAQ_CONFIG_PATH=/x.json" ∧
    look (populate .nil (.env [v])) [t "PATH"] = some (.str (t "/x.json")) :=
  ⟨_, rfl, by decide +kernel⟩

/-- An option with '_' in its name, or in that of a dictionary it is in, cannot be set. -/
theorem C274_violation_underscore {o : Ents} {q : List Text} {v : Opt} (hv : NoDict v) (hq : ∃ w ∈ q, '_' ∈ w) (args : List Text) :
    (At (populate o (.cmd args)) q v ↔ At o q v) ∧ (At (populate o (.env args)) q v ↔ At o q v) := by
  have key : ∀ pre, At (fromArgs pre args o) q v ↔ At o q v := by
    intro pre
    unfold fromArgs
    generalize collect pre args = l
    induction l generalizing o with
    | nil => exact Iff.rfl
    | cons y l ih =>
      refine ih.trans (write_other _ (fun e => ?_) hv)
      obtain ⟨w, hw, hu⟩ := hq
      exact split_words y.1 w (e ▸ hw) hu
  exact ⟨key _, key _⟩

theorem cut_none {pre x : Text} (h : ∀ k v, x ≠ pre ++ k ++ '=' :: v) : cut pre x = none := by
  cases hc : cut pre x with
  | none => rfl
  | some y => exact absurd (cut_some (k := y.1) (v := y.2) hc) (h _ _)

/-- Variables and arguments that do not have the form of one for an option are not looked at. -/
theorem C274_ignored_partial {o : Ents} {a b : List Text} {x : Text} :
    ((∀ k v, x ≠ cmdStart ++ k ++ '=' :: v) → populate o (.cmd (a ++ x :: b)) = populate o (.cmd (a ++ b))) ∧
      ((∀ k v, x ≠ envStart ++ k ++ '=' :: v) → populate o (.env (a ++ x :: b)) = populate o (.env (a ++ b))) := by
  have key : ∀ pre : Text, (∀ k v, x ≠ pre ++ k ++ '=' :: v) → fromArgs pre (a ++ x :: b) o = fromArgs pre (a ++ b) o := by
    intro pre h
    unfold fromArgs collect
    rw [List.foldl_append, List.foldl_append, List.foldl_cons]
    have : gather pre (a.foldl (gather pre) []) x = a.foldl (gather pre) [] := by
      generalize a.foldl (gather pre) [] = l
      unfold gather
      rw [cut_none h]
    rw [this]
  exact ⟨key cmdStart, key envStart⟩

example : ∀ k v, t "--verbose=1" ≠ cmdStart ++ k ++ '=' :: v := by
  intro k v h
  simp [cmdStart, t] at h

end Verif.Opts
