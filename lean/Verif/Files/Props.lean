import Verif.Files.Demo

/-! # Properties of log files -/

namespace Verif.Files

/-! ## C363: parts of log files -/

theorem buffer_eq (n : Nat) (l : List Nat) (h : n ≤ l.length) : buffer n l = l.take n := by
  simp [buffer, Nat.sub_eq_zero_of_le h]

/-- For the id of the file, a device that logs hands out exactly the part asked for: the bytes from the
offset on, as many as asked for or as there are; sizes below -1 and offsets below 0 are refused. -/
theorem C363_part (d : Device) (size offset : Int) (e : d.enabled = true) :
    d.getLog d.path size offset
      = if 0 ≤ offset ∧ -1 ≤ size then .bytes (part d.content size offset) else .invalid := by
  unfold Device.getLog
  by_cases a : offset < 0
  · rw [if_pos a, if_neg (by omega)]
  · rw [if_neg a]
    by_cases b : size < -1
    · rw [if_pos b, if_neg (by omega)]
    · rw [if_neg b, if_pos (by omega)]
      congr 1
      simp only [Device.onGetLog, e, Bool.not_true, Bool.false_eq_true, if_false, ne_eq, not_true_eq_false]
      cases h : d.file with
      | none => simp [Device.content, h, part]
      | some f =>
        simp only [Device.content, h, Option.getD_some, part]
        by_cases c : (f.length : Int) ≤ offset
        · rw [if_pos c, List.drop_eq_nil_of_le (by omega)]
          split <;> simp
        · rw [if_neg c, buffer_eq _ _ (by rw [List.length_drop]; split <;> omega)]
          by_cases z : size = -1
          · rw [if_pos z, if_pos z, List.take_of_length_le]
            rw [List.length_drop]; omega
          · rw [if_neg z, if_neg z]
            by_cases y : size ≤ (f.length : Int) - offset
            · rw [Int.min_eq_left y]
            · rw [Int.min_eq_right (by omega), List.take_of_length_le (by rw [List.length_drop]; omega),
                List.take_of_length_le (by rw [List.length_drop]; omega)]

example : dev.getLog dev.path 2 1 = .bytes [2, 3] ∧ dev.getLog dev.path (-1) 3 = .bytes [4, 5]
    ∧ dev.getLog dev.path 9 9 = .bytes [] ∧ dev.getLog dev.path (-2) 0 = .invalid := by decide

/-- Nothing is handed out for other ids, or by a device that does not log; that is no error. -/
theorem C363_other (d : Device) (i : Str) (size offset : Int) (h : i ≠ d.path ∨ d.enabled = false)
    (o : 0 ≤ offset) (z : -1 ≤ size) : d.getLog i size offset = .bytes [] := by
  unfold Device.getLog
  rw [if_neg (by omega), if_neg (by omega)]
  rcases h with h | h
  · cases e : d.enabled <;> simp [Device.onGetLog, e, h]
  · simp [Device.onGetLog, h]

example : dev.getLog ['x'] 2 1 = .bytes [] := by decide

/-! ## C364: log files in pieces -/

theorem fetch_prefix (plan : List (List Nat × Int)) : ∀ (d : Device) (got : List Nat), d.enabled = true →
    got <+: d.content → (d.fetch got plan).2 <+: (d.fetch got plan).1.content
      ∧ (d.fetch got plan).1.content = d.content ++ (plan.map Prod.fst).flatten
      ∧ (d.fetch got plan).1.enabled = true ∧ (d.fetch got plan).1.path = d.path
      ∧ got <+: (d.fetch got plan).2 := by
  induction plan with
  | nil => intro d got e h; exact ⟨h, by simp [Device.fetch], e, rfl, List.prefix_rfl⟩
  | cons x plan ih =>
    intro d got e h
    obtain ⟨bs, size⟩ := x
    have c : (d.write bs).content = d.content ++ bs := by simp [Device.write, Device.content]
    have h' : got <+: (d.write bs).content := by rw [c]; exact h.trans (List.prefix_append _ _)
    have g := C363_part (d.write bs) size got.length e
    simp only [Device.fetch]
    rw [g]
    by_cases a : (0 : Int) ≤ got.length ∧ -1 ≤ size
    · rw [if_pos a]
      simp only
      have k : got ++ part (d.write bs).content size got.length <+: (d.write bs).content := by
        obtain ⟨r, hr⟩ := h'
        rw [← hr]
        have dr : (got ++ r).drop ((got.length : Int).toNat) = r := by simp
        simp only [part, dr]
        split
        · exact List.prefix_rfl
        · exact (List.prefix_append_right_inj got).mpr (List.take_prefix _ _)
      obtain ⟨p, q, r, s, t⟩ := ih (d.write bs) _ e k
      exact ⟨p, by rw [q, c]; simp [List.append_assoc], r, s, (List.prefix_append _ _).trans t⟩
    · rw [if_neg a]
      simp only
      obtain ⟨p, q, r, s, t⟩ := ih (d.write bs) got e h'
      exact ⟨p, by rw [q, c]; simp [List.append_assoc], r, s, t⟩

/-- A client that gets the log in pieces of any sizes, each from the end of those before, has the beginning
of the log at all times, also while the device goes on writing: no byte is missed or doubled. -/
theorem C364_pieces (d : Device) (plan : List (List Nat × Int)) (e : d.enabled = true) :
    (d.fetch [] plan).2 <+: (d.fetch [] plan).1.content
      ∧ (d.fetch [] plan).1.content = d.content ++ (plan.map Prod.fst).flatten :=
  let h := fetch_prefix plan d [] e (List.nil_prefix)
  ⟨h.1, h.2.1⟩

example : dev.fetch [] plan = (⟨true, dev.path, some [1, 2, 3, 4, 5, 6, 7, 8]⟩, [1, 2, 3, 4, 5, 6, 7, 8]) := by
  decide

/-- When a piece of some size is empty, the client has the whole log. -/
theorem C364_whole (d : Device) (plan : List (List Nat × Int)) (size : Int) (e : d.enabled = true)
    (s : size ≠ 0) (z : -1 ≤ size)
    (h : (d.fetch [] plan).1.getLog d.path size (d.fetch [] plan).2.length = .bytes []) :
    (d.fetch [] plan).2 = (d.fetch [] plan).1.content := by
  obtain ⟨⟨r, hr⟩, -, e', pa, -⟩ := fetch_prefix plan d [] e (List.nil_prefix)
  generalize d.fetch [] plan = q at *
  have g := C363_part q.1 size q.2.length e'
  rw [← pa, g, if_pos ⟨by omega, z⟩] at h
  have h' : part q.1.content size q.2.length = [] := Answer.bytes.inj h
  rw [← hr] at h'
  have dr : (q.2 ++ r).drop ((q.2.length : Int).toNat) = r := by simp
  simp only [part, dr] at h'
  have rn : r = [] := by
    split at h'
    · exact h'
    · rcases List.take_eq_nil_iff.mp h' with a | a
      · omega
      · exact a
  rw [← hr, rn, List.append_nil]

example : (dev.fetch [] plan).1.getLog dev.path 4 8 = .bytes [] := by decide

/-- Every piece of at least one byte brings the client further, unless it has everything. -/
theorem C364_progress (d : Device) (got rest : List Nat) (b : Nat) (size : Int) (e : d.enabled = true)
    (s : size ≠ 0) (z : -1 ≤ size) (h : d.content = got ++ b :: rest) :
    ∃ l, d.getLog d.path size got.length = .bytes (b :: l) := by
  rw [C363_part d size got.length e, if_pos ⟨by omega, z⟩, h]
  have dr : (got ++ b :: rest).drop ((got.length : Int).toNat) = b :: rest := by simp
  simp only [part, dr]
  split
  · exact ⟨rest, rfl⟩
  · obtain ⟨k, hk⟩ : ∃ k, size.toNat = k + 1 := ⟨size.toNat - 1, by omega⟩
    exact ⟨rest.take k, by rw [hk]; rfl⟩

example : dev.getLog dev.path 1 4 = .bytes [5] := by decide

/-! ## C365: lists of log files -/

/-- Every file listed can be got whole by its id, and has as many bytes as its size says; a device that logs
and has a file whose path has a last part lists it. -/
theorem C365_listed (d : Device) (time : Str) :
    (∀ i ∈ d.infos time, d.getLog i.id (-1) 0 = .bytes d.content ∧ i.size = d.content.length
      ∧ i.lastModified = time)
      ∧ (time ≠ [] → d.enabled = true → d.file.isSome → fileName d.path ≠ [] → d.path ≠ [] →
          (d.infos time).length = 1) := by
  refine ⟨fun i m => ?_, fun t e f n p => ?_⟩
  · unfold Device.infos at m
    cases e : d.enabled with
    | false => rw [e] at m; simp at m
    | true =>
      rw [e, if_pos rfl] at m
      cases h : d.file with
      | none => rw [h] at m; cases m
      | some f =>
        rw [h] at m
        simp only [Option.mem_toList, build] at m
        cases hn : fileName d.path with
        | nil => rw [hn] at m; cases m
        | cons c n =>
          rw [hn] at m
          have pn : d.path ≠ [] := fun z => by rw [z] at hn; cases hn
          cases hp : d.path with
          | nil => exact absurd hp pn
          | cons a q =>
            rw [hp] at m
            cases ht : time with
            | nil => rw [ht] at m; cases m
            | cons t u =>
              rw [ht] at m
              simp only [Option.mem_def, Option.some.injEq] at m
              subst m
              refine ⟨?_, by simp [Device.content, h], rfl⟩
              have g := C363_part d (-1) 0 e
              rw [hp] at g
              rw [g]
              simp [part]
  · obtain ⟨f, hf⟩ := Option.isSome_iff_exists.mp f
    obtain ⟨c, n', hn⟩ := List.exists_cons_of_ne_nil n
    obtain ⟨a, q, hp⟩ := List.exists_cons_of_ne_nil p
    obtain ⟨t', u, ht⟩ := List.exists_cons_of_ne_nil t
    simp only [Device.infos, e, if_true, hf, hn, build, ht]
    rw [hp]
    rfl

example : (dev.infos ['t']).map Info.name = [['d']] ∧ (dev.infos ['t']).map Info.size = [5] := by decide

/-! ## C366: descriptions of log files are sent -/

/-- A description that was built is the same after it was sent, if an encoding was given or no id was, for
all 64-bit sizes.  Missing: an id was given and no encoding. -/
theorem C366_sent_partial (b : Builder) (i : Info) (h : build b = some i) (s : b.size < 2 ^ 64)
    (e : b.encoding.isSome ∨ b.id = none) : ∃ j, serialize i = some j ∧ deserialize j = some i := by
  have u : ∀ n : Nat, n < 2 ^ 64 → unsigned (signed n) = n := by
    intro n hn
    unfold unsigned signed
    split <;> omega
  have k : ∀ (c : Char) (n : Str) (a : Char) (d : Str) (t : Char) (m : Str) (p q : Option Str) (x : Str) (z : Nat),
      z < 2 ^ 64 → ∃ j, serialize ⟨c :: n, p, a :: d, q, some x, z, t :: m⟩ = some j
        ∧ deserialize j = some ⟨c :: n, p, a :: d, q, some x, z, t :: m⟩ := by
    intro c n a d t m p q x z hz
    refine ⟨_, rfl, ?_⟩
    cases p <;> cases q <;>
      simp [deserialize, readStr, readOpt, readInt, field, List.find?, build, u z hz]
  unfold build at h
  cases hn : b.name with
  | none => rw [hn] at h; cases h
  | some n =>
    cases n with
    | nil => rw [hn] at h; cases h
    | cons c n =>
      cases hm : b.lastModified with
      | none => rw [hn, hm] at h; cases h
      | some m =>
        cases m with
        | nil => rw [hn, hm] at h; cases h
        | cons t m =>
          rw [hn, hm] at h
          simp only at h
          have other : ∀ y, some (⟨c :: n, b.localPath, defaultId b.localPath (c :: n), b.description,
              some (b.encoding.getD []), b.size, t :: m⟩ : Info) = some y →
              ∃ j, serialize y = some j ∧ deserialize j = some y := by
            intro y hy
            cases hy
            cases hp : b.localPath with
            | none => exact k c n c n t m _ _ _ _ s
            | some p =>
              cases p with
              | nil => exact k c n '/' (c :: n) t m _ _ _ _ s
              | cons a p => exact k c n a (p ++ '/' :: c :: n) t m _ _ _ _ s
          cases hi : b.id with
          | none => rw [hi] at h; exact other i h
          | some w =>
            cases w with
            | nil => rw [hi] at h; exact other i h
            | cons a d =>
              rw [hi] at h
              rcases e with e | e
              · obtain ⟨x, hx⟩ := Option.isSome_iff_exists.mp e
                cases h
                rw [hx]
                exact k c n a d t m _ _ _ _ s
              · rw [hi] at e; cases e

example : (build plain).isSome ∧ ((build plain).bind serialize).bind deserialize = build plain := by decide

/-- With an id and no encoding the description is built, but cannot be sent. -/
theorem C366_sent_violation : (build bare).isSome ∧ (build bare).bind serialize = none := by decide

/-! ## C367: ids of log files -/

/-- Files without given ids that differ in place or name have different ids when their names have no
slash.  Missing: names with slashes. -/
theorem C367_ids_partial (a b : Builder) (x y : Info) (hx : build a = some x) (hy : build b = some y)
    (ha : a.id = none) (hb : b.id = none) (sa : '/' ∉ x.name) (sb : '/' ∉ y.name) (e : x.id = y.id) :
    x.name = y.name ∧ x.localPath = y.localPath := by
  have k : ∀ (a : Builder) (x : Info), build a = some x → a.id = none → x.id = defaultId x.localPath x.name := by
    intro a x h hi
    unfold build at h
    cases hn : a.name with
    | none => rw [hn] at h; cases h
    | some n =>
      cases n with
      | nil => rw [hn] at h; cases h
      | cons c n =>
        cases hm : a.lastModified with
        | none => rw [hn, hm] at h; cases h
        | some m =>
          cases m with
          | nil => rw [hn, hm] at h; cases h
          | cons t m => rw [hn, hm, hi] at h; cases h; rfl
  rw [k a x hx ha, k b y hy hb] at e
  have split : ∀ (n m p q : Str), '/' ∉ n → '/' ∉ m → p ++ '/' :: n = q ++ '/' :: m → n = m ∧ p = q := by
    intro n m p
    induction p with
    | nil =>
      intro q hn hm h
      cases q with
      | nil => exact ⟨(List.cons.inj h).2, rfl⟩
      | cons c q =>
        have := (List.cons.inj h).2
        exact absurd (by rw [this]; simp) hn
    | cons c p ih =>
      intro q hn hm h
      cases q with
      | nil =>
        have := (List.cons.inj h).2
        exact absurd (by rw [← this]; simp) hm
      | cons d q =>
        obtain ⟨u, v⟩ := List.cons.inj h
        obtain ⟨w, z⟩ := ih q hn hm v
        exact ⟨w, by rw [u, z]⟩
  cases hp : x.localPath with
  | none =>
    cases hq : y.localPath with
    | none => rw [hp, hq] at e; exact ⟨e, rfl⟩
    | some q =>
      rw [hp, hq] at e
      exact absurd (by rw [show x.name = q ++ '/' :: y.name from e]; simp) sa
  | some p =>
    cases hq : y.localPath with
    | none =>
      rw [hp, hq] at e
      exact absurd (by rw [← show p ++ '/' :: x.name = y.name from e]; simp) sb
    | some q =>
      rw [hp, hq] at e
      obtain ⟨u, v⟩ := split _ _ _ _ sa sb e
      exact ⟨u, by rw [v]⟩

example : (build plain).map Info.id = some ['p', '/', 'n'] := by decide

/-- Names may have slashes; then different files may have the same id. -/
theorem C367_ids_violation :
    (build { plain with name := some ['a', '/', 'b'], localPath := none }).map Info.id = some ['a', '/', 'b']
      ∧ (build { plain with name := some ['b'], localPath := some ['a'] }).map Info.id = some ['a', '/', 'b'] := by
  decide

end Verif.Files
