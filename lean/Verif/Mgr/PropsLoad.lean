import Verif.Mgr.Spec
/-!
# Loading modules
-/

namespace Verif.Mgr

open Verif

/-- What a successful load does. -/
structure Loaded (disk : Text → File) (junk : Bool) (s : Mgr) (path : Text) (s' : Mgr) : Prop where
  fresh : ∀ l ∈ s.libs, l.path ≠ some path
  more : ∃ name key, disk path = .library name ∧
    (name = [] ∨ ∀ l ∈ s.libs, l.name ≠ name) ∧
    (s.authOnly = true → ∃ a, s.auth = some a ∧ accepts (a path) junk = some key) ∧
    s' = { s with
      libs := s.libs ++ [{ path := some path, name, obj := s.next }]
      keys := if s.authOnly ∧ name ≠ [] then AList.put s.keys name key else s.keys
      next := s.next + 1 }

theorem tryLoad_cases (disk : Text → File) (junk : Bool) (s : Mgr) (path : Text) :
    ((tryLoad disk junk s path).1 = s ∧ (tryLoad disk junk s path).2.1 ≠ .ok) ∨
    ((tryLoad disk junk s path).2.1 = .ok ∧ Loaded disk junk s path (tryLoad disk junk s path).1) := by
  unfold tryLoad
  cases hd : disk path with
  | missing => exact .inl ⟨rfl, by simp⟩
  | folder => exact .inl ⟨rfl, by simp⟩
  | broken e =>
    simp only
    split
    · exact .inl ⟨rfl, by simp⟩
    · split
      · exact .inl ⟨rfl, by simp⟩
      · exact .inl ⟨rfl, by simp⟩
  | library name =>
    simp only
    split
    · exact .inl ⟨rfl, by simp⟩
    · rename_i hf
      split
      · exact .inl ⟨rfl, by simp⟩
      · rename_i key hk
        split
        · exact .inl ⟨rfl, by simp⟩
        · rename_i hn
          refine .inr ⟨rfl, ⟨?_, name, key, hd, ?_, ?_, rfl⟩⟩
          · intro l hl e
            have := List.find?_eq_none.mp hf l hl
            rw [e] at this; simp at this
          · by_cases h0 : name = []
            · exact .inl h0
            · right; intro l hl e
              exact hn ⟨h0, List.any_eq_true.mpr ⟨l, hl, by rw [e]; simp⟩⟩
          · intro ha
            rw [if_pos ha] at hk
            cases e : s.auth with
            | none => rw [e] at hk; cases hk
            | some a => rw [e] at hk; exact ⟨a, rfl, hk⟩

theorem loaded_libs {disk : Text → File} {junk : Bool} {s s' : Mgr} {p : Text} (h : Loaded disk junk s p s') :
    ∃ name, disk p = .library name ∧ (name = [] ∨ ∀ l ∈ s.libs, l.name ≠ name) ∧
      s'.libs = s.libs ++ [{ path := some p, name, obj := s.next }] := by
  obtain ⟨name, key, h1, h2, -, h4⟩ := h.more
  exact ⟨name, h1, h2, by rw [h4]⟩

/-- A relation between states that holds for all loads holds for loading many. -/
theorem loadAll_ind {disk : Text → File} {junk : Bool} {R : Mgr → Mgr → Prop} (hr : ∀ s, R s s)
    (ht : ∀ {a b c}, R a b → R b c → R a c)
    (hl : ∀ s p s', Loaded disk junk s p s' → R s s') : ∀ ps s, R s (loadAll disk junk s ps).1
  | [], s => hr s
  | p :: ps, s => by
    refine ht ?_ (loadAll_ind hr ht hl ps _)
    rcases tryLoad_cases disk junk s p with ⟨h, -⟩ | ⟨-, h⟩
    · rw [h]; exact hr s
    · exact hl _ _ _ h

theorem once_loaded {disk : Text → File} {junk : Bool} {s s' : Mgr} {p : Text} (hl : Loaded disk junk s p s')
    (h : Spec.Once s.libs) : Spec.Once s'.libs := by
  obtain ⟨name, -, -, e⟩ := loaded_libs hl
  rw [e]
  refine List.pairwise_append.mpr ⟨h, by simp, ?_⟩
  intro a ha b hb
  rw [List.mem_singleton.mp hb]
  exact .inr (hl.fresh a ha)

theorem unique_loaded {disk : Text → File} {junk : Bool} {s s' : Mgr} {p : Text} (hl : Loaded disk junk s p s')
    (h : Spec.Unique s.libs) : Spec.Unique s'.libs := by
  obtain ⟨name, -, hn, e⟩ := loaded_libs hl
  rw [e]
  refine List.pairwise_append.mpr ⟨h, by simp, ?_⟩
  intro a ha b hb
  rw [List.mem_singleton.mp hb]
  rcases hn with hn | hn
  · by_cases h0 : a.name = []
    · exact .inl h0
    · exact .inr (fun e => h0 (e.trans hn))
  · exact .inr (hn a ha)

theorem step_once {disk : Text → File} {s : Mgr} (h : Spec.Once s.libs) (op : LOp) :
    Spec.Once (s.step disk op).1.libs := by
  cases op with
  | add name obj =>
    change Spec.Once (addModule s name obj).1.libs
    unfold addModule
    split
    · exact h
    · split
      · exact h
      · refine List.pairwise_append.mpr ⟨h, by simp, ?_⟩
        intro a ha b hb
        rw [List.mem_singleton.mp hb]
        cases e : a.path with
        | none => exact .inl rfl
        | some q => exact .inr (by simp)
  | load path junk =>
    change Spec.Once (if _ then _ else if _ then _ else _ : Mgr × Code).1.libs
    split
    · exact h
    · split
      · exact h
      · rcases tryLoad_cases disk junk s path with ⟨e, -⟩ | ⟨-, e⟩
        · change Spec.Once (tryLoad disk junk s path).1.libs; rw [e]; exact h
        · exact once_loaded e h
  | loadAll paths junk =>
    change Spec.Once (if _ then _ else _ : Mgr × Code).1.libs
    split
    · exact h
    · exact loadAll_ind (R := fun a b => Spec.Once a.libs → Spec.Once b.libs) (fun _ h => h)
        (fun f g h => g (f h)) (fun _ _ _ h => once_loaded h) paths s h
  | authOnly b => exact h
  | authenticator a => exact h

/-- C209: no module file is loaded twice … -/
theorem C209_once (disk : Text → File) (ops : List LOp) : Spec.Once (Mgr.init.run disk ops).libs := by
  have : ∀ (ops : List LOp) (s : Mgr), Spec.Once s.libs → Spec.Once (s.run disk ops).libs := by
    intro ops
    induction ops with
    | nil => intro s h; exact h
    | cons op ops ih => intro s h; exact ih _ (step_once h op)
  exact this ops _ List.Pairwise.nil

/-- … loading it again changes nothing and gives the module that is there … -/
theorem C209_again {disk : Text → File} {junk : Bool} {s : Mgr} {l : Lib} {path : Text}
    (ho : Spec.Once s.libs) (hl : l ∈ s.libs) (hp : l.path = some path)
    (hd : disk path ≠ .missing) (hf : disk path ≠ .folder) :
    tryLoad disk junk s path = (s, .ignored, some l.obj) := by
  have key : s.libs.find? (fun l => l.path == some path) = some l := by
    revert ho hl
    generalize s.libs = L
    intro ho hl
    induction L with
    | nil => cases hl
    | cons a L ih =>
      rw [List.find?_cons]
      rcases List.mem_cons.mp hl with rfl | hl'
      · simp [hp]
      · have hne : a.path ≠ some path := by
          rcases (List.pairwise_cons.mp ho).1 l hl' with h | h
          · rw [h]; simp
          · rw [hp] at h; exact h
        have : (a.path == some path) = false := by simp [hne]
        rw [this]
        exact ih (List.pairwise_cons.mp ho).2 hl'
  unfold tryLoad
  cases e : disk path with
  | missing => exact absurd e hd
  | folder => exact absurd e hf
  | broken e => simp only [key]
  | library n => simp only [key]

/-- … and modules that were added stay, in the order they were added in. -/
theorem C209_stay (disk : Text → File) : ∀ (ops : List LOp) (s : Mgr), s.libs <+: (s.run disk ops).libs := by
  have hs : ∀ (op : LOp) (s : Mgr), s.libs <+: (s.step disk op).1.libs := by
    have hl : ∀ (s : Mgr) junk p s', Loaded disk junk s p s' → s.libs <+: s'.libs := by
      intro s junk p s' h
      obtain ⟨n, -, -, e⟩ := loaded_libs h
      rw [e]; exact List.prefix_append _ _
    intro op s
    cases op with
    | add name obj =>
      change _ <+: (addModule s name obj).1.libs
      unfold addModule
      split
      · exact List.prefix_rfl
      · split
        · exact List.prefix_rfl
        · exact List.prefix_append _ _
    | load path junk =>
      change _ <+: (if _ then _ else if _ then _ else _ : Mgr × Code).1.libs
      split
      · exact List.prefix_rfl
      · split
        · exact List.prefix_rfl
        · rcases tryLoad_cases disk junk s path with ⟨e, -⟩ | ⟨-, e⟩
          · change _ <+: (tryLoad disk junk s path).1.libs; rw [e]; exact List.prefix_rfl
          · exact hl _ _ _ _ e
    | loadAll paths junk =>
      change _ <+: (if _ then _ else _ : Mgr × Code).1.libs
      split
      · exact List.prefix_rfl
      · exact loadAll_ind (R := fun a b => a.libs <+: b.libs) (fun _ => List.prefix_rfl)
          (fun f g => List.IsPrefix.trans f g) (fun _ _ _ h => hl _ _ _ _ h) paths s
    | authOnly b => exact List.prefix_rfl
    | authenticator a => exact List.prefix_rfl
  intro ops
  induction ops with
  | nil => intro s; exact List.prefix_rfl
  | cons op ops ih => intro s; exact (hs op s).trans (ih _)

/-- Files for the examples. -/
def demoDisk : Text → File := fun p =>
  if p = "a".toList then .library "A".toList
  else if p = "b".toList then .library "B".toList
  else if p = "a2".toList then .library "A".toList
  else if p = "bad".toList then .broken 7
  else .missing

/-- Non-vacuity: files with the same and with different ids, a broken one and one that is not there. -/
example : ((Mgr.init.run demoDisk
    [.loadAll ["a".toList, "bad".toList, "a2".toList, "zz".toList] false, .load "b".toList false,
      .load "a".toList false]).libs.map fun l => (l.path, l.name)) =
    [(some "a".toList, "A".toList), (some "b".toList, "B".toList)] := by decide +kernel

example : ((Mgr.init.step demoDisk (.loadAll ["a".toList] false)).1.step demoDisk (.load "a".toList false)).2 =
    .ignored := by decide +kernel

/-- C210: `addModule` accepts modules with the id of another. -/
theorem C210_violation_added :
    ((Mgr.init.step demoDisk (.loadAll ["a".toList] false)).1.step demoDisk (.add "A".toList 5)).2 = .ok ∧
    ¬ Spec.Unique ((Mgr.init.step demoDisk (.loadAll ["a".toList] false)).1.step demoDisk
      (.add "A".toList 5)).1.libs := by
  refine ⟨by decide +kernel, ?_⟩
  unfold Spec.Unique
  decide +kernel

/-- What is loaded has an id of its own.  Missing: what is added with `addModule`. -/
theorem C210_loaded_partial {disk : Text → File} {s : Mgr} (h : Spec.Unique s.libs) {op : LOp}
    (hop : ∀ name obj, op = .add name obj → name = [] ∨ ∀ l ∈ s.libs, l.name ≠ name) :
    Spec.Unique (s.step disk op).1.libs := by
  cases op with
  | add name obj =>
    change Spec.Unique (addModule s name obj).1.libs
    unfold addModule
    split
    · exact h
    · split
      · exact h
      · refine List.pairwise_append.mpr ⟨h, by simp, ?_⟩
        intro a ha b hb
        rw [List.mem_singleton.mp hb]
        rcases hop name obj rfl with hn | hn
        · by_cases h0 : a.name = []
          · exact .inl h0
          · exact .inr (fun e => h0 (e.trans hn))
        · exact .inr (hn a ha)
  | load path junk =>
    change Spec.Unique (if _ then _ else if _ then _ else _ : Mgr × Code).1.libs
    split
    · exact h
    · split
      · exact h
      · rcases tryLoad_cases disk junk s path with ⟨e, -⟩ | ⟨-, e⟩
        · change Spec.Unique (tryLoad disk junk s path).1.libs; rw [e]; exact h
        · exact unique_loaded e h
  | loadAll paths junk =>
    change Spec.Unique (if _ then _ else _ : Mgr × Code).1.libs
    split
    · exact h
    · exact loadAll_ind (R := fun a b => Spec.Unique a.libs → Spec.Unique b.libs) (fun _ h => h)
        (fun f g h => g (f h)) (fun _ _ _ h => unique_loaded h) paths s h
  | authOnly b => exact h
  | authenticator a => exact h

/-- A file with the id of a module that is there is rejected.  Missing: as above. -/
theorem C210_rejected_partial {disk : Text → File} {s : Mgr} {path name : Text} (hd : disk path = .library name)
    (hn : name ≠ []) {l : Lib} (hl : l ∈ s.libs) (hln : l.name = name) (hp : ∀ l ∈ s.libs, l.path ≠ some path)
    (ha : s.authOnly = false) (junk : Bool) : tryLoad disk junk s path = (s, .err .alreadyExists, none) := by
  have hf : s.libs.find? (fun l => l.path == some path) = none := by
    rw [List.find?_eq_none]; intro l hl; simp [hp l hl]
  unfold tryLoad
  simp only [hd, hf, ha]
  rw [if_neg (by decide)]
  simp only
  rw [if_pos ⟨hn, List.any_eq_true.mpr ⟨l, hl, by simp [hln]⟩⟩]

/-- C211: an authenticator that throws: the file is loaded if what is on the stack happens to be
true. -/
theorem C211_violation_throws :
    ((Mgr.init.run demoDisk [.authenticator (fun _ => .throws), .authOnly true,
      .loadAll ["a".toList] true]).libs.map fun l => l.name) = ["A".toList] := by decide +kernel

/-- The modules that are there after a call are those of before and such that were accepted, whose key
is kept. -/
structure Checked (a : Text → Verdict) (s s' : Mgr) : Prop where
  same : s'.authOnly = s.authOnly ∧ s'.auth = s.auth
  libs : ∀ l ∈ s'.libs, l ∈ s.libs ∨
    ∃ key, Spec.Accepted a l key ∧ (l.name ≠ [] → AList.get s'.keys l.name = some key)
  keys : ∀ l ∈ s.libs, AList.get s'.keys l.name = AList.get s.keys l.name
  mono : ∀ l ∈ s.libs, l ∈ s'.libs

theorem checked_loaded {disk : Text → File} {junk : Bool} {a : Text → Verdict} (hd : Spec.Decides a)
    {s s' : Mgr} {p : Text} (ho : s.authOnly = true) (ha : s.auth = some a) (h : Loaded disk junk s p s') :
    Checked a s s' := by
  obtain ⟨name, key, h1, h2, h3, h4⟩ := h.more
  obtain ⟨a', ha', hk⟩ := h3 ho
  rw [ha] at ha'; injection ha' with ha'; subst ha'
  have hv : a p = .valid key := by
    unfold accepts at hk
    cases e : a p with
    | valid k => rw [e] at hk; injection hk with hk; rw [hk]
    | invalid => rw [e] at hk; cases hk
    | throws => exact absurd e (hd p)
  subst h4
  refine ⟨⟨rfl, rfl⟩, ?_, ?_, fun l hl => List.mem_append_left _ hl⟩
  · intro l hl
    rcases List.mem_append.mp hl with hl | hl
    · exact .inl hl
    · right
      rw [List.mem_singleton.mp hl]
      refine ⟨key, ⟨p, rfl, hv⟩, fun hn => ?_⟩
      change AList.get (if s.authOnly ∧ name ≠ [] then _ else _) name = _
      rw [if_pos ⟨ho, hn⟩, AList.get_put, if_pos rfl]
  · intro l hl
    change AList.get (if s.authOnly ∧ name ≠ [] then _ else _) l.name = _
    split
    · rename_i hn
      rw [AList.get_put, if_neg]
      rcases h2 with h2 | h2
      · exact absurd h2 hn.2
      · first
        | exact h2 l hl
        | exact fun e => h2 l hl e.symm
    · rfl

theorem checked_trans {a : Text → Verdict} {s t u : Mgr} (h : Checked a s t) (g : Checked a t u) : Checked a s u := by
  refine ⟨⟨g.same.1.trans h.same.1, g.same.2.trans h.same.2⟩, ?_, ?_, fun l hl => g.mono l (h.mono l hl)⟩
  · intro l hl
    rcases g.libs l hl with hl' | hl'
    · rcases h.libs l hl' with h' | ⟨key, h1, h2⟩
      · exact .inl h'
      · exact .inr ⟨key, h1, fun hn => by rw [g.keys l hl']; exact h2 hn⟩
    · exact .inr hl'
  · intro l hl
    rw [g.keys l (h.mono l hl), h.keys l hl]

theorem checked_all {disk : Text → File} {junk : Bool} {a : Text → Verdict} (hd : Spec.Decides a) :
    ∀ (ps : List Text) (s : Mgr), s.authOnly = true → s.auth = some a → Checked a s (loadAll disk junk s ps).1
  | [], s, _, _ => ⟨⟨rfl, rfl⟩, fun _ h => .inl h, fun _ _ => rfl, fun _ h => h⟩
  | p :: ps, s, ho, ha => by
    have h : Checked a s (tryLoad disk junk s p).1 := by
      rcases tryLoad_cases disk junk s p with ⟨e, -⟩ | ⟨-, e⟩
      · rw [e]; exact ⟨⟨rfl, rfl⟩, fun _ h => .inl h, fun _ _ => rfl, fun _ h => h⟩
      · exact checked_loaded hd ho ha e
    exact checked_trans h (checked_all hd ps _ (h.same.1.trans ho) (h.same.2.trans ha))

/-- With an authenticator that does not throw, a module that comes in while only authenticated ones
are wanted was accepted, and its key is known.  Missing: those that throw. -/
theorem C211_accepted_partial {disk : Text → File} {s : Mgr} {a : Text → Verdict} (hd : Spec.Decides a)
    (ho : s.authOnly = true) (ha : s.auth = some a) (op : LOp) {l : Lib} (hl : l ∈ (s.step disk op).1.libs)
    (hn : l ∉ s.libs) :
    ∃ key, Spec.Accepted a l key ∧ (l.name ≠ [] → AList.get (s.step disk op).1.keys l.name = some key) := by
  have hg : ¬ (s.authOnly = true ∧ s.auth.isNone = true) := by rw [ha]; simp
  cases op with
  | add name obj =>
    change l ∈ (addModule s name obj).1.libs at hl
    unfold addModule at hl
    rw [if_pos ho] at hl
    exact absurd hl hn
  | load path junk =>
    by_cases h0 : s.loaded = false
    · have e : s.step disk (.load path junk) = (s, .err .invalidState) := if_pos h0
      rw [e] at hl; exact absurd hl hn
    · have e : s.step disk (.load path junk) =
          ((tryLoad disk junk s path).1, (tryLoad disk junk s path).2.1) :=
        (if_neg h0).trans (if_neg hg)
      rw [e] at hl ⊢
      rcases tryLoad_cases disk junk s path with ⟨e, -⟩ | ⟨-, e⟩
      · rw [e] at hl; exact absurd hl hn
      · exact ((checked_loaded hd ho ha e).libs l hl).resolve_left hn
  | loadAll paths junk =>
    have e : (s.step disk (.loadAll paths junk)).1 = { (loadAll disk junk s paths).1 with loaded := true } :=
      congrArg Prod.fst (if_neg hg)
    rw [e] at hl ⊢
    exact ((checked_all hd paths s ho ha).libs l hl).resolve_left hn
  | authOnly b => exact absurd hl hn
  | authenticator b => exact absurd hl hn

/-- Without an authenticator nothing comes in then.  Missing: as above. -/
theorem C211_none_partial {disk : Text → File} {s : Mgr} (ho : s.authOnly = true) (ha : s.auth = none) (op : LOp) :
    (s.step disk op).1.libs = s.libs := by
  have hg : s.authOnly = true ∧ s.auth.isNone = true := by rw [ha]; exact ⟨ho, rfl⟩
  cases op with
  | add name obj => change (addModule s name obj).1.libs = _; unfold addModule; rw [if_pos ho]
  | load path junk =>
    change (if _ then _ else if _ then _ else _ : Mgr × Code).1.libs = _
    split
    · rfl
    · first
      | rfl
      | rw [if_pos hg]
  | loadAll paths junk =>
    change (if _ then _ else _ : Mgr × Code).1.libs = _
    rw [if_pos hg]
  | authOnly b => rfl
  | authenticator b => rfl

/-- Non-vacuity: one file is accepted, one is not. -/
example :
    let s := Mgr.init.run demoDisk [.authenticator (fun p => if p = "b".toList then .valid "K".toList else .invalid),
      .authOnly true, .loadAll ["a".toList, "b".toList] false]
    s.libs.map (·.name) = ["B".toList] ∧ AList.get s.keys "B".toList = some "K".toList := by decide +kernel

end Verif.Mgr
