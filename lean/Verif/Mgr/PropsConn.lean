import Verif.Mgr.Spec
/-!
# Connection strings and configurations
-/

namespace Verif.Mgr

open Verif

theorem splitAt_no {c : Char} : ∀ {s : Text}, c ∉ s → splitAt c s = [s]
  | [], _ => rfl
  | x :: s, h => by
    have hx : x ≠ c := fun e => h (e ▸ List.mem_cons_self)
    rw [splitAt, if_neg hx, splitAt_no (fun y => h (List.mem_cons_of_mem _ y))]

theorem splitAt_append {c : Char} {b : Text} : ∀ {a : Text}, c ∉ a → splitAt c (a ++ c :: b) = a :: splitAt c b
  | [], _ => by
    change splitAt c (c :: b) = _
    rw [splitAt, if_pos rfl]
  | x :: a, h => by
    have hx : x ≠ c := fun e => h (e ▸ List.mem_cons_self)
    change splitAt c (x :: (a ++ c :: b)) = _
    rw [splitAt, if_neg hx, splitAt_append (fun y => h (List.mem_cons_of_mem _ y))]

theorem splitAt_cases (c : Char) : ∀ s : Text, c ∉ s ∨ ∃ a b, s = a ++ c :: b ∧ c ∉ a
  | [] => .inl (by simp)
  | x :: s => by
    by_cases hx : x = c
    · exact .inr ⟨[], s, by rw [hx]; rfl, by simp⟩
    · rcases splitAt_cases c s with h | ⟨a, b, h1, h2⟩
      · left; intro h'
        rcases List.mem_cons.mp h' with h' | h'
        · exact hx h'.symm
        · exact h h'
      · refine .inr ⟨x :: a, b, by rw [h1]; rfl, fun h' => ?_⟩
        rcases List.mem_cons.mp h' with h' | h'
        · exact hx h'.symm
        · exact h2 h'

theorem splitAt_ne_nil (c : Char) (s : Text) : splitAt c s ≠ [] := by
  rcases splitAt_cases c s with h | ⟨a, b, h1, h2⟩
  · rw [splitAt_no h]; simp
  · rw [h1, splitAt_append h2]; simp

theorem splitAt_one {c : Char} {s a : Text} (h : splitAt c s = [a]) : s = a ∧ c ∉ a := by
  rcases splitAt_cases c s with h' | ⟨a', b, h1, h2⟩
  · rw [splitAt_no h'] at h; injection h with h _; exact ⟨h, h ▸ h'⟩
  · rw [h1, splitAt_append h2] at h; injection h with _ h; exact absurd h (splitAt_ne_nil c b)

theorem splitAt_cons {c : Char} {s a a' : Text} {r : List Text} (h : splitAt c s = a :: a' :: r) :
    ∃ b, s = a ++ c :: b ∧ c ∉ a ∧ splitAt c b = a' :: r := by
  rcases splitAt_cases c s with h' | ⟨a', b, h1, h2⟩
  · rw [splitAt_no h'] at h; injection h with _ h; cases h
  · rw [h1, splitAt_append h2] at h
    injection h with h3 h4
    subst h3
    exact ⟨b, h1, h2, h4⟩

theorem split_option {o : Text × Text} (h1 : '=' ∉ o.1) (h2 : '=' ∉ o.2) :
    splitAt '=' (Spec.optionText o) = [o.1, o.2] := by
  unfold Spec.optionText; rw [splitAt_append h1, splitAt_no h2]

theorem clean_option {o : Text × Text} (h1 : Spec.Clean o.1) (h2 : Spec.Clean o.2) :
    '&' ∉ Spec.optionText o ∧ '?' ∉ Spec.optionText o := by
  unfold Spec.optionText
  constructor
  · intro h
    rcases List.mem_append.mp h with h | h
    · exact h1.2.1 h
    · rcases List.mem_cons.mp h with h | h
      · revert h; decide
      · exact h2.2.1 h
  · intro h
    rcases List.mem_append.mp h with h | h
    · exact h1.1 h
    · rcases List.mem_cons.mp h with h | h
      · revert h; decide
      · exact h2.1 h

theorem split_options : ∀ {os : List (Text × Text)}, os ≠ [] → (∀ o ∈ os, Spec.Clean o.1 ∧ Spec.Clean o.2) →
    splitAt '&' (Spec.optionsText os) = os.map Spec.optionText ∧ '?' ∉ Spec.optionsText os
  | [], h, _ => absurd rfl h
  | [o], _, hc => by
    have h := clean_option (hc o List.mem_cons_self).1 (hc o List.mem_cons_self).2
    exact ⟨splitAt_no h.1, h.2⟩
  | o :: o' :: os, _, hc => by
    have h := clean_option (hc o List.mem_cons_self).1 (hc o List.mem_cons_self).2
    have ih := split_options (os := o' :: os) (by simp) (fun x hx => hc x (List.mem_cons_of_mem _ hx))
    change splitAt '&' (Spec.optionText o ++ '&' :: Spec.optionsText (o' :: os)) = _ ∧
      '?' ∉ Spec.optionText o ++ '&' :: Spec.optionsText (o' :: os)
    refine ⟨by rw [splitAt_append h.1, ih.1]; rfl, fun hx => ?_⟩
    rcases List.mem_append.mp hx with hx | hx
    · exact h.2 hx
    · rcases List.mem_cons.mp hx with hx | hx
      · revert hx; decide
      · exact ih.2 hx

theorem get_append (a b : AList Text Text) (k : Text) :
    AList.get (a ++ b) k = (AList.get a k).or (AList.get b k) := by
  induction a with
  | nil => simp [AList.get]
  | cons x a ih =>
    obtain ⟨x, v⟩ := x
    rw [List.cons_append, AList.get_cons, AList.get_cons]
    split
    · rfl
    · exact ih

theorem get_single (k v k' : Text) : AList.get [(k, v)] k' = if k' = k then some v else none := by
  rw [AList.get_cons]; rfl

theorem readOptions_spec : ∀ {os : List (Text × Text)} {acc : AList Text Text},
    (∀ o ∈ os, Spec.Clean o.1 ∧ Spec.Clean o.2) → (acc.map (·.1)).Nodup →
    ∃ r, readOptions (os.map Spec.optionText) acc = some r ∧ (r.map (·.1)).Nodup ∧
      ∀ k, AList.get r k = (AList.get acc k).or (Spec.firstOption os k)
  | [], acc, _, hn => ⟨acc, rfl, hn, fun k => by simp [Spec.firstOption]⟩
  | o :: os, acc, hc, hn => by
    have hs := split_option (hc o List.mem_cons_self).1.2.2 (hc o List.mem_cons_self).2.2.2
    have hg : AList.has acc o.1 = true ↔ o.1 ∈ acc.map (·.1) := by
      rw [AList.has, AList.get_isSome_iff_mem_keys]
    have hn' : ((if AList.has acc o.1 then acc else acc ++ [(o.1, o.2)]).map (·.1)).Nodup := by
      split
      · exact hn
      · rename_i h
        rw [List.map_append, List.nodup_append]
        refine ⟨hn, by simp, ?_⟩
        intro a ha b hb e
        simp only [List.map_cons, List.map_nil, List.mem_singleton] at hb
        exact h (hg.mpr (hb ▸ e ▸ ha))
    obtain ⟨r, h1, h2, h3⟩ := readOptions_spec (os := os) (fun x hx => hc x (List.mem_cons_of_mem _ hx)) hn'
    refine ⟨r, ?_, h2, ?_⟩
    · rw [List.map_cons, readOptions, hs]; exact h1
    · intro k
      rw [h3 k]
      have hf : Spec.firstOption (o :: os) k = if k = o.1 then some o.2 else Spec.firstOption os k := by
        unfold Spec.firstOption; rw [List.lookup_cons]
        by_cases h : k = o.1
        · simp [h]
        · have hb : (k == o.1) = false := by simp [h]
          rw [hb, if_neg h]
      rw [hf]
      by_cases hk : k = o.1
      · rw [if_pos hk, hk]
        split
        · rename_i h
          unfold AList.has at h
          obtain ⟨v, hv⟩ := Option.isSome_iff_exists.mp h
          rw [hv]; rfl
        · rename_i h
          have : AList.get acc o.1 = none := by
            unfold AList.has at h
            simpa using h
          rw [get_append, get_single, if_pos rfl, this]; rfl
      · rw [if_neg hk]
        split
        · rfl
        · rw [get_append, get_single, if_neg hk, Option.or_none]

/-- C217: the parts of a connection string are found again: the string before the options, and for
each name the first option with it … -/
theorem C217_parts {pure : Text} {os : List (Text × Text)} (hp : '?' ∉ pure)
    (hc : ∀ o ∈ os, Spec.Clean o.1 ∧ Spec.Clean o.2) :
    ∃ r, splitConn (Spec.connText pure os) = some (pure, r) ∧ (r.map (·.1)).Nodup ∧
      ∀ k, AList.get r k = Spec.firstOption os k := by
  unfold Spec.connText splitConn
  by_cases h0 : os = []
  · rw [if_pos h0, splitAt_no hp, h0]
    exact ⟨[], rfl, List.nodup_nil, fun k => rfl⟩
  · obtain ⟨h1, h2⟩ := split_options h0 hc
    rw [if_neg h0, splitAt_append hp, splitAt_no h2]
    obtain ⟨r, h3, h4, h5⟩ := readOptions_spec (acc := []) hc List.nodup_nil
    refine ⟨r, ?_, h4, fun k => ?_⟩
    · simp only [h1, h3]; rfl
    · rw [h5 k]; rfl

theorem options_of : ∀ {l : List Text} {acc r : AList Text Text}, readOptions l acc = some r →
    ∃ os : List (Text × Text), l = os.map Spec.optionText ∧ ∀ o ∈ os, '=' ∉ o.1 ∧ '=' ∉ o.2
  | [], _, _, _ => ⟨[], rfl, fun _ h => nomatch h⟩
  | o :: l, acc, r, h => by
    rw [readOptions] at h
    cases e : splitAt '=' o with
    | nil => exact absurd e (splitAt_ne_nil _ _)
    | cons k t =>
      cases t with
      | nil => rw [e] at h; cases h
      | cons v t =>
        cases t with
        | cons x y => rw [e] at h; cases h
        | nil =>
          rw [e] at h
          obtain ⟨os, h1, h2⟩ := options_of h
          obtain ⟨b, h3, h4, h5⟩ := splitAt_cons e
          obtain ⟨h6, h7⟩ := splitAt_one h5
          refine ⟨(k, v) :: os, ?_, ?_⟩
          · rw [List.map_cons, ← h1, h3, h6]; rfl
          · intro x hx
            rcases List.mem_cons.mp hx with rfl | hx
            · exact ⟨h4, h7⟩
            · exact h2 x hx

theorem joined : ∀ {os : List (Text × Text)} {b : Text}, splitAt '&' b = os.map Spec.optionText →
    b = Spec.optionsText os ∧ os ≠ [] ∧ ∀ o ∈ os, '&' ∉ Spec.optionText o
  | [], b, h => absurd h (splitAt_ne_nil _ _)
  | [o], b, h => by
    obtain ⟨h1, h2⟩ := splitAt_one h
    exact ⟨h1, by simp, fun x hx => by rw [List.mem_singleton.mp hx]; exact h2⟩
  | o :: o' :: os, b, h => by
    obtain ⟨b', h1, h2, h3⟩ := splitAt_cons h
    obtain ⟨h4, -, h5⟩ := joined (os := o' :: os) h3
    refine ⟨by rw [h1, h4]; rfl, by simp, ?_⟩
    intro x hx
    rcases List.mem_cons.mp hx with rfl | hx
    · exact h2
    · exact h5 x hx

theorem mem_optionsText {c : Char} : ∀ {os : List (Text × Text)} {o : Text × Text}, o ∈ os →
    c ∈ Spec.optionText o → c ∈ Spec.optionsText os
  | [], _, h, _ => nomatch h
  | [o'], o, h, hc => by rw [List.mem_singleton.mp h] at hc; exact hc
  | o' :: o'' :: os, o, h, hc => by
    change c ∈ Spec.optionText o' ++ '&' :: Spec.optionsText (o'' :: os)
    rcases List.mem_cons.mp h with rfl | h
    · exact List.mem_append_left _ hc
    · exact List.mem_append_right _ (List.mem_cons_of_mem _ (mem_optionsText h hc))

/-- … and only strings of this form are accepted. -/
theorem C217_form {s pure : Text} {r : AList Text Text} (h : splitConn s = some (pure, r)) :
    ∃ os, s = Spec.connText pure os ∧ '?' ∉ pure ∧ ∀ o ∈ os, Spec.Clean o.1 ∧ Spec.Clean o.2 := by
  unfold splitConn at h
  cases e : splitAt '?' s with
  | nil => exact absurd e (splitAt_ne_nil _ _)
  | cons a t =>
    cases t with
    | nil =>
      rw [e] at h; injection h with h; injection h with h1 h2
      obtain ⟨h3, h4⟩ := splitAt_one e
      subst h1
      exact ⟨[], h3, h4, fun _ h => nomatch h⟩
    | cons b t =>
      cases t with
      | cons x y => rw [e] at h; cases h
      | nil =>
        rw [e] at h
        simp only at h
        cases er : readOptions (splitAt '&' b) [] with
        | none => rw [er] at h; cases h
        | some q =>
          rw [er] at h; injection h with h; injection h with h1 h2
          subst h1
          obtain ⟨b', h3, h4, h5⟩ := splitAt_cons e
          obtain ⟨h6, h7⟩ := splitAt_one h5
          subst h6
          obtain ⟨os, h8, h9⟩ := options_of er
          obtain ⟨h10, h11, h12⟩ := joined h8
          refine ⟨os, ?_, h4, ?_⟩
          · rw [h3, h10, Spec.connText, if_neg h11]
          · intro o ho
            have hq : '?' ∉ Spec.optionText o := fun hx => h7 (h10 ▸ mem_optionsText ho hx)
            have ha := h12 o ho
            have hm1 : ∀ c, c ∈ o.1 → c ∈ Spec.optionText o := fun c hc => List.mem_append_left _ hc
            have hm2 : ∀ c, c ∈ o.2 → c ∈ Spec.optionText o :=
              fun c hc => List.mem_append_right _ (List.mem_cons_of_mem _ hc)
            exact ⟨⟨fun x => hq (hm1 _ x), fun x => ha (hm1 _ x), (h9 o ho).1⟩,
              ⟨fun x => hq (hm2 _ x), fun x => ha (hm2 _ x), (h9 o ho).2⟩⟩

/-- Non-vacuity: two options with the same name, and strings that are not accepted. -/
example : splitConn "daq.nd://h:1?a=1&b=&a=2".toList =
    some ("daq.nd://h:1".toList, [("a".toList, "1".toList), ("b".toList, [])]) := by decide +kernel
example : splitConn "x?".toList = none ∧ splitConn "x?a=1?b=2".toList = none ∧ splitConn "x?a=1=2".toList = none ∧
    splitConn "x?a".toList = none := by decide +kernel

/-! ## Configurations -/

theorem valueOf_eq (c : Config) (n : Text) : Spec.valueOf c n = c.get n := rfl

theorem get_map {f : Item → Item} (hf : ∀ p, (f p).name = p.name) (n : Text) : ∀ c : Config,
    Config.get (c.map f) n = (c.find? fun p => p.name == n).map fun p => (f p).val
  | [] => rfl
  | p :: c => by
    have ih := get_map hf n c
    unfold Config.get at ih ⊢
    rw [List.map_cons, List.find?_cons, List.find?_cons, hf]
    split
    · rfl
    · exact ih

theorem found_name {c : Config} {n : Text} {p : Item} (h : c.find? (fun p => p.name == n) = some p) :
    p.name = n := by simpa using List.find?_some h

theorem get_set (c : Config) (n m : Text) (v : Nat) :
    (c.set n v).get m = if m = n then (c.get n).map (fun _ => v) else c.get m := by
  unfold Config.set
  rw [get_map (fun p => by split <;> rfl)]
  unfold Config.get
  by_cases h : m = n
  · subst h
    rw [if_pos rfl]
    cases e : c.find? (fun p => p.name == m) with
    | none => rfl
    | some p =>
      have := found_name e
      simp [this]
  · rw [if_neg h]
    cases e : c.find? (fun p => p.name == m) with
    | none => rfl
    | some p =>
      have := found_name e
      simp [this, h]

theorem take_name (c : Config) (p : Item) : (take c p).name = p.name := by
  unfold take; split
  · split <;> rfl
  · rfl

theorem take_dflt (c : Config) (p : Item) : (take c p).dflt = p.dflt := by
  unfold take; split
  · split <;> rfl
  · rfl

theorem take_val (c : Config) (p : Item) : (take c p).val = (c.get p.name).getD p.val := by
  unfold take
  cases c.get p.name with
  | none => rfl
  | some v =>
    simp only
    split
    · rfl
    · rename_i h; exact Decidable.not_not.mp h

theorem get_override (t c : Config) (n : Text) :
    (override t c).get n = (t.get n).map fun v => (c.get n).getD v := by
  unfold override
  rw [get_map (take_name c)]
  change _ = ((t.find? fun p => p.name == n).map (·.val)).map _
  cases e : t.find? (fun p => p.name == n) with
  | none => rfl
  | some p =>
    have hp := found_name e
    simp only [Option.map_some, take_val, hp]

theorem get_copyOne (t : Config) (g : Item) (n : Text) :
    (copyOne t g).get n = if n = g.name ∧ t.get n = some g.dflt then some g.val else t.get n := by
  unfold copyOne
  cases e : t.get g.name with
  | none =>
    simp only
    rw [if_neg]
    rintro ⟨rfl, h⟩
    rw [e] at h; cases h
  | some v =>
    simp only
    split
    · rename_i hv
      rw [get_set]
      by_cases h : n = g.name
      · rw [if_pos h, e, if_pos ⟨h, by rw [h, e, hv]⟩]; rfl
      · rw [if_neg h, if_neg (fun x => h x.1)]
    · rename_i hv
      rw [if_neg]
      rintro ⟨rfl, h⟩
      rw [e] at h; injection h with h; exact hv h

theorem get_copyCommon_no (n : Text) : ∀ (g : List Item) (t : Config), (∀ x ∈ g, x.name ≠ n) →
    (copyCommon g t).get n = t.get n
  | [], _, _ => rfl
  | x :: g, t, h => by
    change (copyCommon g (copyOne t x)).get n = _
    rw [get_copyCommon_no n g _ (fun y hy => h y (List.mem_cons_of_mem _ hy)), get_copyOne, if_neg]
    exact fun e => h x List.mem_cons_self e.1.symm

theorem get_copyCommon {n : Text} : ∀ {g : List Item} {t : Config} {x : Item}, (g.map (·.name)).Nodup → x ∈ g →
    x.name = n → (copyCommon g t).get n = if t.get n = some x.dflt then some x.val else t.get n
  | [], _, _, _, h, _ => nomatch h
  | y :: g, t, x, hn, h, hx => by
    change (copyCommon g (copyOne t y)).get n = _
    rw [List.map_cons, List.nodup_cons] at hn
    rcases List.mem_cons.mp h with rfl | h
    · rw [get_copyCommon_no n g _ (fun y hy e => hn.1 (hx.trans e.symm ▸ List.mem_map_of_mem hy)), get_copyOne]
      simp [hx]
    · have hne : n ≠ y.name := fun e => hn.1 (e ▸ hx ▸ List.mem_map_of_mem h)
      have hc : (copyOne t y).get n = t.get n := by rw [get_copyOne, if_neg (fun e => hne e.1)]
      rw [get_copyCommon hn.2 h hx, hc]

theorem get_applyOptions {n : Text} : ∀ {o : AList Text Nat} {c : Config}, (o.map (·.1)).Nodup →
    (applyOptions c o).get n = (c.get n).map fun v => (AList.get o n).getD v
  | [], c, _ => by
    change c.get n = _
    cases c.get n <;> rfl
  | p :: o, c, hn => by
    change (applyOptions (c.set p.1 p.2) o).get n = _
    rw [List.map_cons, List.nodup_cons] at hn
    rw [get_applyOptions hn.2, get_set]
    have hg : AList.get (p :: o) n = if n = p.1 then some p.2 else AList.get o n := by
      obtain ⟨k, v⟩ := p
      rw [AList.get_cons]
    rw [hg]
    by_cases h : n = p.1
    · rw [if_pos h, if_pos h]
      have : AList.get o n = none := by
        cases e : AList.get o n with
        | none => rfl
        | some v =>
          have := AList.mem_of_get e
          exact absurd (List.mem_map_of_mem (f := (·.1)) this) (h ▸ hn.1)
      rw [this, h]
      cases c.get p.1 <;> rfl
    · rw [if_neg h, if_neg h]

/-- C218: with a configuration that has some properties, or none, a property of the device type has the
value of the option of the connection string, else that of the configuration, else its default. -/
theorem C218_plain {general typed c : Config} {o : AList Text Nat} {n : Text} {t : Nat}
    (hg : (general.map (·.name)).Nodup) (hd : ∀ x ∈ general, x.val = x.dflt) (ho : (o.map (·.1)).Nodup)
    (ht : Spec.valueOf typed n = some t) :
    Spec.valueOf (deviceConfig general typed (.plain c) o) n =
      some ((AList.get o n).getD ((Spec.valueOf c n).getD t)) := by
  rw [valueOf_eq] at ht ⊢
  change (applyOptions (override (copyCommon (override general c) typed) c) o).get n = _
  rw [get_applyOptions ho, get_override]
  have hcm : (copyCommon (override general c) typed).get n =
      some t ∨ ∃ v, (copyCommon (override general c) typed).get n = some v ∧ (c.get n).isSome := by
    by_cases hx : ∃ x ∈ general, x.name = n
    · obtain ⟨x, hx, hxn⟩ := hx
      have hnn : ((override general c).map (·.name)).Nodup := by
        unfold override
        rw [List.map_map]
        have : ((fun p : Item => p.name) ∘ take c) = fun p => p.name := funext (take_name c)
        rw [this]; exact hg
      have hmem := List.mem_map_of_mem (f := take c) hx
      rw [get_copyCommon hnn hmem ((take_name c x).trans hxn)]
      split
      · rename_i hv
        cases ec : c.get n with
        | some v => exact .inr ⟨_, rfl, rfl⟩
        | none =>
          left
          rw [ht] at hv; injection hv with hv
          rw [take_dflt] at hv
          have : take c x = x := by unfold take; rw [hxn, ec]
          rw [this, hd x hx, hv]
      · exact .inl ht
    · left
      rw [get_copyCommon_no, ht]
      intro y hy e
      unfold override at hy
      obtain ⟨x, hx', rfl⟩ := List.mem_map.mp hy
      refine hx ⟨x, hx', ?_⟩
      rw [← e, take_name]
  rw [valueOf_eq]
  rcases hcm with h | ⟨v, h, hs⟩
  · rw [h]; rfl
  · rw [h]
    obtain ⟨w, hw⟩ := Option.isSome_iff_exists.mp hs
    rw [hw]; rfl

/-- Nothing is added: a property that the type does not have is not there. -/
theorem C218_nothing {general typed c : Config} {o : AList Text Nat} {n : Text}
    (ho : (o.map (·.1)).Nodup) (ht : Spec.valueOf typed n = none) :
    Spec.valueOf (deviceConfig general typed (.plain c) o) n = none := by
  rw [valueOf_eq] at ht ⊢
  change (applyOptions (override (copyCommon (override general c) typed) c) o).get n = _
  have : ∀ (g : List Item) (t : Config), t.get n = none → (copyCommon g t).get n = none := by
    intro g
    induction g with
    | nil => intro t h; exact h
    | cons x g ih =>
      intro t h
      refine ih (copyOne t x) ?_
      rw [get_copyOne, if_neg, h]
      rw [h]; simp
  rw [get_applyOptions ho, get_override, this _ _ ht]; rfl

/-- Non-vacuity: the user name is given by the configuration, the port by an option, the rest stays. -/
example : deviceConfig [⟨"Username".toList, 0, 0⟩, ⟨"Heuristic".toList, 0, 0⟩]
    [⟨"Username".toList, 0, 0⟩, ⟨"Port".toList, 7420, 7420⟩, ⟨"Path".toList, 1, 1⟩]
    (.plain [⟨"Username".toList, 5, 5⟩, ⟨"Port".toList, 1, 1⟩]) [("Port".toList, 99), ("Other".toList, 3)] =
    [⟨"Username".toList, 0, 5⟩, ⟨"Port".toList, 7420, 99⟩, ⟨"Path".toList, 1, 1⟩] := by decide +kernel

/-- C219: a value that the user sets for the device type is overwritten by the general one, if it is
the default of the general property. -/
theorem C219_violation_explicit :
    Spec.valueOf (deviceConfig [] [] (.full [⟨"Username".toList, 0, 5⟩] [⟨"Username".toList, 9, 0⟩]) [])
      "Username".toList = some 5 := by decide +kernel

/-- Otherwise the option comes first, then what is set for the type, and the general value is taken
where the type has the default of the general property.  Missing: that it is taken only where the user
set nothing for the type. -/
theorem C219_full_partial {g t general typed : Config} {o : AList Text Nat} {n : Text} {v : Nat}
    (hg : (g.map (·.name)).Nodup) (ho : (o.map (·.1)).Nodup) (ht : Spec.valueOf t n = some v) :
    (∀ w, AList.get o n = some w → Spec.valueOf (deviceConfig general typed (.full g t) o) n = some w) ∧
    (AList.get o n = none → (∀ x ∈ g, x.name = n → x.dflt ≠ v) →
      Spec.valueOf (deviceConfig general typed (.full g t) o) n = some v) ∧
    (∀ x ∈ g, AList.get o n = none → x.name = n → x.dflt = v →
      Spec.valueOf (deviceConfig general typed (.full g t) o) n = some x.val) := by
  rw [valueOf_eq] at ht
  simp only [valueOf_eq]
  change (∀ w, AList.get o n = some w → (applyOptions (copyCommon g t) o).get n = some w) ∧
    (AList.get o n = none → _ → (applyOptions (copyCommon g t) o).get n = some v) ∧
    (∀ x ∈ g, AList.get o n = none → x.name = n → x.dflt = v → (applyOptions (copyCommon g t) o).get n = some x.val)
  rw [get_applyOptions ho]
  by_cases hx : ∃ x ∈ g, x.name = n
  · obtain ⟨x, hx, hxn⟩ := hx
    have hc := get_copyCommon (t := t) hg hx hxn
    rw [ht] at hc
    refine ⟨fun w hw => ?_, fun hw hd => ?_, fun y hy hw hyn hd => ?_⟩
    · rw [hw, hc]; split <;> rfl
    · rw [hw, hc, if_neg (by intro e; injection e with e; exact hd x hx hxn e.symm)]; rfl
    · have hc := get_copyCommon (t := t) hg hy hyn
      rw [hw, hc, ht, if_pos (by rw [hd])]; rfl
  · have hc := get_copyCommon_no n g t (fun x hx' e => hx ⟨x, hx', e⟩)
    rw [hc, ht]
    refine ⟨fun w hw => by rw [hw]; rfl, fun hw _ => by rw [hw]; rfl, fun y hy _ hyn => ?_⟩
    exact absurd ⟨y, hy, hyn⟩ hx

/-- Non-vacuity: the general user name and password are taken over, but not where the type has one. -/
example : deviceConfig [] [] (.full [⟨"Username".toList, 0, 5⟩, ⟨"Password".toList, 0, 6⟩]
    [⟨"Username".toList, 0, 8⟩, ⟨"Password".toList, 0, 0⟩]) [] =
    [⟨"Username".toList, 0, 8⟩, ⟨"Password".toList, 0, 6⟩] := by decide +kernel

end Verif.Mgr
