import Verif.Component.TreeLemmas
import Mathlib.Tactic.Tauto

/-! # C35 and C56: looking components up by id -/

namespace Verif.Component
open Verif.Graph

/-- Every local id in use is non-empty and plain. -/
def Ids (s : St) : Prop := ∀ c, c < s.count → Plain (s.comp c).localId

theorem ids_step {s : St} {op : Op} (hp : PlainIds s op) (h : Ids s) : Ids (step s op).1 := by
  have hc := change_step s op
  revert hc
  generalize (step s op).1 = s'
  intro hc
  cases hc with
  | shrink _ m' hs => intro c hc; show Plain (m' c).localId; rw [(hs c).1]; exact h c hc
  | create p l fd lg c hq hl hc =>
    intro x hx
    show Plain (upd s.comp s.count c x).localId
    by_cases e : x = s.count
    · subst e; rw [upd_eq, hc.1]; exact hp
    · rw [upd_ne _ _ e]; exact h x (by have : x < s.count + 1 := hx; omega)
  | add f c hf hfd hc hn =>
    intro x hx
    show Plain (upd s.comp f (appendItem (s.comp f) (s.comp c).localId c) x).localId
    by_cases e : x = f
    · subst e; rw [upd_eq]; exact h x hx
    · rw [upd_ne _ _ e]; exact h x hx

theorem ids_exec (ops : List Op) (h : Along PlainIds init ops) : Ids (exec ops).1 :=
  along_inv (fun c hc => absurd hc (Nat.not_lt_zero _)) (fun _ _ _ hp hi => ids_step hp hi) ops h

/-- Every item was created with the folder as its parent. -/
def Owned (s : St) : Prop := ∀ f i, Holds s f i → (s.comp i).parent = some f

theorem owned_step {s : St} {op : Op} (hw : WF s) (hp : OwnParent s op) (h : Owned s) : Owned (step s op).1 := by
  have hc := change_step s op
  revert hc
  generalize (step s op).1 = s'
  intro hc
  cases hc with
  | shrink _ m' hs =>
    rintro f i ⟨k, hk⟩
    show (m' i).parent = _
    rw [(hs i).2.2.1]
    exact h f i ⟨k, (hs f).2.2.2.2.subset hk⟩
  | create p l fd lg c hq hl hc =>
    rintro f i ⟨k, hk⟩
    have hk : (k, i) ∈ (upd s.comp s.count c f).items := hk
    show (upd s.comp s.count c i).parent = _
    by_cases e : f = s.count
    · subst e; rw [upd_eq, hc.2.2.2.2.1] at hk; cases hk
    · rw [upd_ne _ _ e] at hk
      rw [upd_ne _ _ (Nat.ne_of_lt (hw.item f k i hk).1)]
      exact h f i ⟨k, hk⟩
  | add f c hf hfd hc hn =>
    rintro g i ⟨k, hk⟩
    have hk : (k, i) ∈ (upd s.comp f (appendItem (s.comp f) (s.comp c).localId c) g).items := hk
    have hpar : (upd s.comp f (appendItem (s.comp f) (s.comp c).localId c) i).parent = (s.comp i).parent := by
      by_cases e : i = f
      · subst e; rw [upd_eq]; rfl
      · rw [upd_ne _ _ e]
    show (upd s.comp f (appendItem (s.comp f) (s.comp c).localId c) i).parent = _
    rw [hpar]
    by_cases e : g = f
    · subst e
      rw [upd_eq] at hk
      rcases List.mem_append.mp hk with hk | hk
      · exact h g i ⟨k, hk⟩
      · simp at hk; rw [hk.2]; exact hp
    · rw [upd_ne _ _ e] at hk; exact h g i ⟨k, hk⟩

theorem owned_exec (ops : List Op) (h : Along OwnParent init ops) : Owned (exec ops).1 :=
  along_inv (by rintro f i ⟨k, hk⟩; cases hk) (fun _ _ hw hp hi => owned_step hw hp hi) ops h

/-! ## Paths -/

theorem getItem_iff {s : St} (h : WF s) (f : Nat) (k : Str) (i : Nat) : getItem s f k = some i ↔ (k, i) ∈ (s.comp f).items :=
  get_iff (h.nodup f) k i

theorem folder_of_mem {s : St} (h : WF s) {f : Nat} {e : Str × Nat} (he : e ∈ (s.comp f).items) : (s.comp f).folder = true :=
  h.folder f (fun hn => by rw [hn] at he; cases he)

theorem key_ne {s : St} (h : WF s) {f : Nat} {k : Str} {i : Nat} (he : (k, i) ∈ (s.comp f).items) : k ≠ [] := by
  obtain ⟨h1, h2⟩ := h.item f k i he
  rw [h2]; exact h.idNe i h1

theorem key_plain {s : St} (h : WF s) (hi : Ids s) {f : Nat} {k : Str} {i : Nat} (he : (k, i) ∈ (s.comp f).items) : Plain k := by
  obtain ⟨h1, h2⟩ := h.item f k i he
  rw [h2]; exact hi i h1

theorem relative_cons (k : Str) (p : List Str) (hp : p ≠ []) : relative (k :: p) = k ++ '/' :: relative p := by
  cases p with
  | nil => exact absurd rfl hp
  | cons b p => rfl

theorem leads_one {s : St} {c d : Nat} {k : Str} : Leads s c [k] d ↔ (k, d) ∈ (s.comp c).items := by
  constructor
  · intro h
    cases h with
    | cons _ i _ _ _ hi hp => cases hp; exact hi
  · intro h; exact .cons _ _ _ _ _ h (.nil _)

theorem not_plain_mid (a r : Str) : ¬ Plain (a ++ '/' :: r) := by simp [Plain]

theorem findBelow_iff {s : St} (hw : WF s) (hi : Ids s) (n : Nat) : ∀ (name : Str), name.length < n → ∀ c d,
    (findBelow s c name = some d ↔ ∃ p, p ≠ [] ∧ Leads s c p d ∧ name = relative p) := by
  induction n with
  | zero => intro _ h; exact absurd h (Nat.not_lt_zero _)
  | succ n ih =>
    intro name hn c d
    rw [findBelow.eq_def]
    split
    · rename_i hsp
      have hpl := split_none.mp hsp
      constructor
      · intro h
        split at h
        · exact ⟨[name], by simp, leads_one.mpr ((getItem_iff hw _ _ _).mp h), rfl⟩
        · cases h
      · rintro ⟨p, hp, hl, he⟩
        cases hl with
        | nil => exact absurd rfl hp
        | cons _ i _ k p hk hq =>
          by_cases hp' : p = []
          · subst hp'
            cases hq
            rw [if_pos (folder_of_mem hw hk)]
            rw [show name = k from he]
            exact (getItem_iff hw _ _ _).mpr hk
          · rw [relative_cons _ _ hp'] at he
            rw [he] at hpl
            exact absurd hpl (not_plain_mid _ _)
    · rename_i a r hsp
      obtain ⟨he, hpa⟩ := split_some.mp hsp
      have hlt : r.length < n := by have := split_shorter hsp; omega
      constructor
      · intro h
        split at h
        · split at h
          · cases h
          · rename_i i hg
            obtain ⟨p, hp, hl, hr⟩ := (ih r hlt i d).mp h
            refine ⟨a :: p, by simp, .cons _ _ _ _ _ ((getItem_iff hw _ _ _).mp hg) hl, ?_⟩
            rw [relative_cons _ _ hp, ← hr]; exact he
        · cases h
      · rintro ⟨p, hp, hl, hr⟩
        cases hl with
        | nil => exact absurd rfl hp
        | cons _ i _ k p hk hq =>
          by_cases hp' : p = []
          · subst hp'
            have : name = k := hr
            have hkp := key_plain hw hi hk
            rw [← this, he] at hkp
            exact absurd hkp (not_plain_mid _ _)
          · rw [relative_cons _ _ hp', he] at hr
            obtain ⟨e1, e2⟩ := plain_cut hpa (key_plain hw hi hk) (.inr ⟨_, rfl⟩) (.inr ⟨_, rfl⟩) hr
            cases e2
            subst e1
            rw [if_pos (folder_of_mem hw hk)]
            have hg := (getItem_iff hw c a i).mpr hk
            split
            · rename_i hg'; rw [hg] at hg'; cases hg'
            · rename_i i' hg'
              rw [hg] at hg'
              cases hg'
              exact (ih _ hlt _ d).mpr ⟨p, hp', hq, rfl⟩

theorem findInternal_iff {s : St} (hw : WF s) (hi : Ids s) (n : Nat) : ∀ (name : Str), name.length < n → ∀ c d,
    (findInternal s c name = some d ↔ ∃ p, Leads s c p d ∧ (name = relative p ∨ (p ≠ [] ∧ name = relative p ++ ['/']))) := by
  induction n with
  | zero => intro _ h; exact absurd h (Nat.not_lt_zero _)
  | succ n ih =>
    intro name hn c d
    rw [findInternal.eq_def]
    split
    · rename_i he
      have he : name = [] := by simpa using he
      subst he
      constructor
      · intro h; cases h; exact ⟨[], .nil _, .inl rfl⟩
      · rintro ⟨p, hl, h⟩
        cases hl with
        | nil => rfl
        | cons _ i _ k p hk hq =>
          exfalso
          have hne := key_ne hw hk
          by_cases hp' : p = []
          · subst hp'
            rcases h with h | ⟨-, h⟩
            · exact hne h.symm
            · simp at h
          · rw [relative_cons _ _ hp'] at h
            rcases h with h | ⟨-, h⟩ <;> simp at h
    · rename_i hne
      have hne : name ≠ [] := by simpa using hne
      split
      · rename_i hsp
        have hpl := split_none.mp hsp
        constructor
        · intro h
          split at h
          · exact ⟨[name], leads_one.mpr ((getItem_iff hw _ _ _).mp h), .inl rfl⟩
          · cases h
        · rintro ⟨p, hl, h⟩
          cases hl with
          | nil =>
            rcases h with h | ⟨h, -⟩
            · exact absurd h hne
            · exact absurd rfl h
          | cons _ i _ k p hk hq =>
            have h : name = relative (k :: p) := by
              rcases h with h | ⟨-, h⟩
              · exact h
              · rw [h] at hpl; exact absurd hpl (not_plain_mid _ _)
            by_cases hp' : p = []
            · subst hp'
              cases hq
              rw [if_pos (folder_of_mem hw hk)]
              rw [show name = k from h]
              exact (getItem_iff hw _ _ _).mpr hk
            · rw [relative_cons _ _ hp'] at h
              rw [h] at hpl
              exact absurd hpl (not_plain_mid _ _)
      · rename_i a r hsp
        obtain ⟨he, hpa⟩ := split_some.mp hsp
        have hlt : r.length < n := by have := split_shorter hsp; omega
        constructor
        · intro h
          split at h
          · split at h
            · cases h
            · rename_i i hg
              obtain ⟨p, hl, hr⟩ := (ih r hlt i d).mp h
              refine ⟨a :: p, .cons _ _ _ _ _ ((getItem_iff hw _ _ _).mp hg) hl, ?_⟩
              by_cases hp' : p = []
              · subst hp'
                rcases hr with hr | ⟨hr, -⟩
                · right
                  refine ⟨by simp, ?_⟩
                  rw [he, hr]; rfl
                · exact absurd rfl hr
              · rw [relative_cons _ _ hp']
                rcases hr with hr | ⟨-, hr⟩
                · left; rw [he, hr]
                · right; refine ⟨by simp, ?_⟩; rw [he, hr]; simp
          · cases h
        · rintro ⟨p, hl, hr⟩
          cases hl with
          | nil =>
            rcases hr with h | ⟨h, -⟩
            · exact absurd h hne
            · exact absurd rfl h
          | cons _ i _ k p hk hq =>
            have hkp := key_plain hw hi hk
            have key : ∃ x, name = k ++ '/' :: x ∧ (x = relative p ∨ (p ≠ [] ∧ x = relative p ++ ['/'])) := by
              by_cases hp' : p = []
              · subst hp'
                rcases hr with h | ⟨-, h⟩
                · have : name = k := h
                  rw [← this, he] at hkp
                  exact absurd hkp (not_plain_mid _ _)
                · exact ⟨[], h, .inl rfl⟩
              · rw [relative_cons _ _ hp'] at hr
                rcases hr with h | ⟨-, h⟩
                · exact ⟨_, h, .inl rfl⟩
                · exact ⟨relative p ++ ['/'], by rw [h]; simp, .inr ⟨hp', rfl⟩⟩
            obtain ⟨x, hx, hxp⟩ := key
            rw [he] at hx
            obtain ⟨e1, e2⟩ := plain_cut hpa hkp (.inr ⟨_, rfl⟩) (.inr ⟨_, rfl⟩) hx
            cases e2
            subst e1
            rw [if_pos (folder_of_mem hw hk)]
            have hg := (getItem_iff hw c a i).mpr hk
            split
            · rename_i hg'; rw [hg] at hg'; cases hg'
            · rename_i i' hg'
              rw [hg] at hg'
              cases hg'
              exact (ih r hlt i d).mpr ⟨p, hq, hxp⟩

/-! ## C35: lookup by global id at the server -/

theorem absolute_eq (k : Str) (p : List Str) : absolute (k :: p) = '/' :: relative (k :: p) := by
  induction p generalizing k with
  | nil => simp [absolute, relative]
  | cons b p ih => rw [relative, ← ih]; rfl

/-- **C35** Looking a name up finds exactly the component to which the path of local ids written in the name leads,
starting with that of the root; and the root under its alias. Names without a leading slash are refused. -/
theorem C35_exact (ops : List Op) (hp : Along PlainIds init ops) (root : Nat) (hr : root < (exec ops).1.count) (name : Str) :
    (∀ d, serverFind (exec ops).1 root name = .found d ↔
      (name = ['/', '/', 'r', 'o', 'o', 't'] ∧ d = root) ∨
      ∃ p, Leads (exec ops).1 root p d ∧ name = absolute (((exec ops).1.comp root).localId :: p)) ∧
    (serverFind (exec ops).1 root name = .invalidParameter ↔ ∀ rest, name ≠ '/' :: rest) := by
  have hw := wf_exec ops
  have hi := ids_exec ops hp
  revert hw hi hr
  generalize (exec ops).1 = s
  intro hr hw hi
  have hroot := hi root hr
  have hrne := hw.idNe root hr
  generalize hl : (s.comp root).localId = l at *
  have hglob : (∀ d, findGlobal s root name = .found d ↔ ∃ p, Leads s root p d ∧ name = absolute (l :: p)) ∧
      (findGlobal s root name = .invalidParameter ↔ ∀ rest, name ≠ '/' :: rest) := by
    unfold findGlobal
    split
    · rename_i rest
      refine ⟨?_, ⟨fun h => ?_, fun h => absurd rfl (h rest)⟩⟩
      · intro d
        split
        · rename_i hsp
          have hpl := split_none.mp hsp
          constructor
          · intro h
            split at h
            · rename_i he
              cases h
              rw [hl] at he
              exact ⟨[], .nil _, by rw [show rest = l by simpa using he]; simp [absolute]⟩
            · cases h
          · rintro ⟨p, hq, he⟩
            rw [absolute_eq] at he
            have he := (List.cons.inj he).2
            by_cases hp' : p = []
            · subst hp'
              cases hq
              rw [if_pos (by rw [hl, show rest = l from he]; simp)]
            · rw [relative_cons _ _ hp'] at he
              rw [he] at hpl
              exact absurd hpl (not_plain_mid _ _)
        · rename_i a r hsp
          obtain ⟨he, hpa⟩ := split_some.mp hsp
          constructor
          · intro h
            split at h
            · rename_i ha
              rw [hl] at ha
              have ha : a = l := by simpa using ha
              have h : findBelow s root r = some d := by
                revert h
                cases findBelow s root r with
                | none => intro h; cases h
                | some x => intro h; cases h; rfl
              obtain ⟨p, hp', hq, hr'⟩ := (findBelow_iff hw hi _ r (Nat.lt_succ_self _) root d).mp h
              refine ⟨p, hq, ?_⟩
              rw [absolute_eq, relative_cons _ _ hp', he, ha, hr']
            · cases h
          · rintro ⟨p, hq, hn⟩
            rw [absolute_eq] at hn
            have hn := (List.cons.inj hn).2
            by_cases hp' : p = []
            · subst hp'
              rw [he] at hn
              rw [show l = a ++ '/' :: r from hn.symm] at hroot
              exact absurd hroot (not_plain_mid _ _)
            · rw [relative_cons _ _ hp', he] at hn
              obtain ⟨e1, e2⟩ := plain_cut hpa hroot (.inr ⟨_, rfl⟩) (.inr ⟨_, rfl⟩) hn
              cases e2
              rw [if_pos (by rw [hl]; simpa using e1),
                (findBelow_iff hw hi _ (relative p) (Nat.lt_succ_self _) root d).mpr ⟨p, hp', hq, rfl⟩]
              rfl
      · exfalso
        revert h
        split
        · split <;> (intro h; cases h)
        · rename_i a r _
          split
          · cases findBelow s root r <;> (intro h; cases h)
          · intro h; cases h
    · rename_i hno
      refine ⟨?_, ⟨fun _ rest he => hno rest he, fun _ => rfl⟩⟩
      intro d
      constructor
      · intro h; cases h
      · rintro ⟨p, -, he⟩; exact absurd he (hno _)
  have halias : ∀ p, ['/', '/', 'r', 'o', 'o', 't'] ≠ absolute (l :: p) := by
    intro p h
    have h := (List.cons.inj h).2
    cases l with
    | nil => exact hrne rfl
    | cons x l =>
      have : '/' = x := (List.cons.inj h).1
      exact hroot (by rw [← this]; exact List.mem_cons_self)
  unfold serverFind
  split
  · rename_i he
    have he : name = ['/', '/', 'r', 'o', 'o', 't'] := by simpa using he
    subst he
    constructor
    · intro d
      constructor
      · intro h; cases h; exact .inl ⟨rfl, rfl⟩
      · rintro (⟨-, rfl⟩ | ⟨p, -, h⟩)
        · rfl
        · exact absurd h (halias p)
    · constructor
      · intro h; cases h
      · intro h; exact absurd rfl (h _)
  · rename_i he
    have he : name ≠ ['/', '/', 'r', 'o', 'o', 't'] := by simpa using he
    refine ⟨fun d => ?_, hglob.2⟩
    rw [hglob.1 d]
    constructor
    · exact .inr
    · rintro (⟨h, -⟩ | h)
      · exact absurd h he
      · exact h

/-- The global id of an item is that of the folder with the path appended. -/
theorem leads_gid {s : St} (hw : WF s) (ho : Owned s) {c d : Nat} {p : List Str} (h : Leads s c p d) :
    (s.comp d).globalId = (s.comp c).globalId ++ absolute p := by
  induction h with
  | nil c => simp [absolute]
  | cons c i d k p hk _ ih =>
    obtain ⟨h1, h2⟩ := hw.item c k i hk
    rw [ih, hw.gid i h1, ho c i ⟨k, hk⟩]
    show ((s.comp c).globalId ++ '/' :: (s.comp i).localId) ++ absolute p = _
    rw [← h2]
    simp [absolute]

/-- **C35** A root's global id is its local id after a slash; looking up the global id of a component that the root
contains finds that component, and any component found, except under the alias, has the requested global id. -/
theorem C35_globalId (ops : List Op) (hp : Along PlainIds init ops) (ho : Along OwnParent init ops) (root : Nat)
    (hr : root < (exec ops).1.count) (hroot : ((exec ops).1.comp root).parent = none) :
    (∀ p d, Leads (exec ops).1 root p d →
      serverFind (exec ops).1 root ((exec ops).1.comp d).globalId = .found d) ∧
    (∀ name d, name ≠ ['/', '/', 'r', 'o', 'o', 't'] → serverFind (exec ops).1 root name = .found d →
      ((exec ops).1.comp d).globalId = name ∧ ∃ p, Leads (exec ops).1 root p d) := by
  have hw := wf_exec ops
  have how := owned_exec ops ho
  have hg : ((exec ops).1.comp root).globalId = absolute [((exec ops).1.comp root).localId] := by
    rw [hw.gid root hr, hroot]; simp [makeGlobalId, absolute]
  have hid : ∀ p d, Leads (exec ops).1 root p d →
      ((exec ops).1.comp d).globalId = absolute (((exec ops).1.comp root).localId :: p) := by
    intro p d hl
    rw [leads_gid hw how hl, hg]
    simp [absolute]
  constructor
  · intro p d hl
    exact ((C35_exact ops hp root hr _).1 d).mpr (.inr ⟨p, hl, hid p d hl⟩)
  · intro name d hn h
    rcases ((C35_exact ops hp root hr _).1 d).mp h with ⟨h, -⟩ | ⟨p, hl, he⟩
    · exact absurd h hn
    · exact ⟨(hid p d hl).trans he.symm, p, hl⟩

/-- **C35** Components that the root contains have different global ids. -/
theorem C35_unique (ops : List Op) (hp : Along PlainIds init ops) (ho : Along OwnParent init ops) (root : Nat)
    (hr : root < (exec ops).1.count) (hroot : ((exec ops).1.comp root).parent = none) (p q : List Str) (d e : Nat)
    (hd : Leads (exec ops).1 root p d) (he : Leads (exec ops).1 root q e)
    (h : ((exec ops).1.comp d).globalId = ((exec ops).1.comp e).globalId) : d = e := by
  have h1 := (C35_globalId ops hp ho root hr hroot).1 p d hd
  have h2 := (C35_globalId ops hp ho root hr hroot).1 q e he
  rw [h, h2] at h1
  exact (Found.found.inj h1).symm

/-- A device with a folder in which there is a channel. -/
def sampleTree : List Op :=
  [.create none ['d', 'e', 'v'] true true, .create (some 0) ['I', 'O'] true true, .addItem 0 1,
   .create (some 1) ['c', 'h'] true true, .addItem 1 2]

theorem sample_plain : Along PlainIds init sampleTree := by
  simp [sampleTree, Along, PlainIds, Plain]

example : Along PlainIds init sampleTree ∧ Along OwnParent init sampleTree ∧
    ((exec sampleTree).1.comp 0).parent = none ∧ ((exec sampleTree).1.comp 2).globalId = "/dev/IO/ch".toList ∧
    serverFind (exec sampleTree).1 0 "/dev/IO/ch".toList = .found 2 ∧
    serverFind (exec sampleTree).1 0 "/dev/IO/no".toList = .nothing ∧
    serverFind (exec sampleTree).1 0 "dev/IO".toList = .invalidParameter := by
  refine ⟨sample_plain, ?_, rfl, rfl, ?_, ?_, ?_⟩
  · exact ⟨trivial, trivial, rfl, trivial, rfl, trivial⟩
  · simp [sampleTree, exec, serverFind, findGlobal, splitRelativeId, runTrace, step, create, findBelow, getItem, init, parentOk,
      isFolder, addItem, upd, AList.has, AList.get, List.lookup, appendItem, Found.of, makeGlobalId, initialParentActive]
  · simp [sampleTree, exec, serverFind, findGlobal, splitRelativeId, runTrace, step, create, findBelow, getItem, init, parentOk,
      isFolder, addItem, upd, AList.has, AList.get, List.lookup, appendItem, Found.of, makeGlobalId, initialParentActive]
    rfl
  · simp [serverFind, findGlobal]

/-! ## C56: lookup relative to a component -/

theorem stripOwn_slash (l name : Str) : stripOwn l ('/' :: name) =
    match splitRelativeId name with
    | none => if l == [] then [] else name
    | some (start, rest) => if start == l then rest else name := rfl

/-- **C56** A component finds, for a name without leading slash, the component to which the path written in the name
leads; one trailing slash is ignored. -/
theorem C56_relative (ops : List Op) (hp : Along PlainIds init ops) (c d : Nat) (name : Str) (hn : ∀ r, name ≠ '/' :: r) :
    findComponent (exec ops).1 c name = some d ↔
      ∃ p, Leads (exec ops).1 c p d ∧ (name = relative p ∨ (p ≠ [] ∧ name = relative p ++ ['/'])) := by
  have : findComponent (exec ops).1 c name = findInternal (exec ops).1 c name := by
    unfold findComponent stripOwn
    split
    · exact absurd rfl (hn _)
    · rfl
  rw [this]
  exact findInternal_iff (wf_exec ops) (ids_exec ops hp) _ name (Nat.lt_succ_self _) c d

/-- **C56** With a leading slash, the first local id is skipped when it is that of the component and more follows;
otherwise the name is read as if it had no leading slash. -/
theorem C56_absolute (ops : List Op) (hp : Along PlainIds init ops) (c d : Nat) (a rest : Str)
    (ha : Plain a) :
    findComponent (exec ops).1 c ('/' :: (a ++ '/' :: rest)) = some d ↔
      ∃ p, Leads (exec ops).1 c p d ∧
        if a = ((exec ops).1.comp c).localId then rest = relative p ∨ (p ≠ [] ∧ rest = relative p ++ ['/'])
        else a ++ '/' :: rest = relative p ∨ (p ≠ [] ∧ a ++ '/' :: rest = relative p ++ ['/']) := by
  have key : findComponent (exec ops).1 c ('/' :: (a ++ '/' :: rest)) =
      findInternal (exec ops).1 c (if a = ((exec ops).1.comp c).localId then rest else a ++ '/' :: rest) := by
    have hsp : splitRelativeId (a ++ '/' :: rest) = some (a, rest) := split_some.mpr ⟨rfl, ha⟩
    unfold findComponent
    rw [stripOwn_slash, hsp]
    dsimp only
    by_cases e : a = ((exec ops).1.comp c).localId
    · rw [if_pos e, if_pos (by simpa using e)]
    · rw [if_neg e, if_neg (by simpa using e)]
  rw [key]
  by_cases e : a = ((exec ops).1.comp c).localId
  · simp only [if_pos e]
    exact findInternal_iff (wf_exec ops) (ids_exec ops hp) _ rest (Nat.lt_succ_self _) c d
  · simp only [if_neg e]
    exact findInternal_iff (wf_exec ops) (ids_exec ops hp) _ _ (Nat.lt_succ_self _) c d

/-- **C56** With a leading slash and a single local id, that item of the component is found, even when it is the
component's own id. -/
theorem C56_single (ops : List Op) (hp : Along PlainIds init ops) (c d : Nat) (hc : c < (exec ops).1.count) (a : Str)
    (ha : Plain a) :
    findComponent (exec ops).1 c ('/' :: a) = some d ↔ (a = [] ∧ d = c) ∨ Leads (exec ops).1 c [a] d := by
  have hw := wf_exec ops
  have key : findComponent (exec ops).1 c ('/' :: a) = findInternal (exec ops).1 c a := by
    have hsp : splitRelativeId a = none := split_none.mpr ha
    unfold findComponent
    rw [stripOwn_slash, hsp]
    dsimp only
    rw [if_neg (by simpa using hw.idNe c hc)]
  rw [key, findInternal_iff hw (ids_exec ops hp) _ a (Nat.lt_succ_self _) c d]
  constructor
  · rintro ⟨p, hl, h⟩
    have h : a = relative p := by
      rcases h with h | ⟨-, h⟩
      · exact h
      · rw [h] at ha; exact absurd ha (not_plain_mid _ _)
    cases p with
    | nil => cases hl; exact .inl ⟨h, rfl⟩
    | cons k p =>
      by_cases hp' : p = []
      · subst hp'; rw [show a = k from h]; exact .inr hl
      · rw [relative_cons _ _ hp'] at h
        rw [h] at ha; exact absurd ha (not_plain_mid _ _)
  · rintro (⟨rfl, rfl⟩ | h)
    · exact ⟨[], .nil _, .inl rfl⟩
    · exact ⟨[a], h, .inl rfl⟩

/-- **C56** A root component finds everything it contains, except itself, by global id. -/
theorem C56_rootGlobal_partial (ops : List Op) (hp : Along PlainIds init ops) (ho : Along OwnParent init ops) (root : Nat)
    (hr : root < (exec ops).1.count) (hroot : ((exec ops).1.comp root).parent = none) (p : List Str) (d : Nat)
    (hl : Leads (exec ops).1 root p d) (hne : p ≠ []) :
    findComponent (exec ops).1 root ((exec ops).1.comp d).globalId = some d := by
  have hw := wf_exec ops
  have hg : ((exec ops).1.comp d).globalId = '/' :: (((exec ops).1.comp root).localId ++ '/' :: relative p) := by
    rw [leads_gid hw (owned_exec ops ho) hl, hw.gid root hr, hroot]
    cases p with
    | nil => exact absurd rfl hne
    | cons k p => rw [absolute_eq]; simp [makeGlobalId]
  rw [hg, C56_absolute ops hp root d _ _ (ids_exec ops hp root hr)]
  exact ⟨p, hl, by rw [if_pos rfl]; exact .inl rfl⟩

example : Leads (exec sampleTree).1 0 [['I', 'O'], ['c', 'h']] 2 ∧
    findComponent (exec sampleTree).1 0 "/dev/IO/ch".toList = some 2 ∧
    findComponent (exec sampleTree).1 0 "IO/ch".toList = some 2 ∧ findComponent (exec sampleTree).1 0 "IO/".toList = some 1 := by
  refine ⟨.cons _ 1 _ _ _ (by simp [sampleTree, exec, runTrace, step, create, init, parentOk,
      isFolder, addItem, upd, AList.has, AList.get, List.lookup, appendItem]) (leads_one.mpr (by simp [sampleTree, exec, runTrace, step, create, init, parentOk,
      isFolder, addItem, upd, AList.has, AList.get, List.lookup, appendItem])), ?_, ?_, ?_⟩ <;>
  simp [sampleTree, exec, findComponent, stripOwn, splitRelativeId, runTrace, step, create, findInternal, getItem, init, parentOk,
      isFolder, addItem, upd, AList.has, AList.get, List.lookup, appendItem]

/-- **C56 (violation)** A root component does not find itself by its own global id, and a component that is not the root
does not find what it contains by global id, although the server does. -/
theorem C56_violation_globalId :
    ((exec sampleTree).1.comp 0).globalId = "/dev".toList ∧ findComponent (exec sampleTree).1 0 "/dev".toList = none ∧
    serverFind (exec sampleTree).1 0 "/dev".toList = .found 0 ∧
    ((exec sampleTree).1.comp 2).globalId = "/dev/IO/ch".toList ∧ getItem (exec sampleTree).1 1 "ch".toList = some 2 ∧
    findComponent (exec sampleTree).1 1 "/dev/IO/ch".toList = none := by
  refine ⟨rfl, ?_, ?_, rfl, rfl, ?_⟩ <;>
  simp [sampleTree, exec, findComponent, stripOwn, splitRelativeId, runTrace, step, create, findInternal, getItem, init, parentOk,
      isFolder, addItem, upd, AList.has, AList.get, List.lookup, appendItem, serverFind, findGlobal] <;> rfl

/-- **C35 (violation)** Without a logger a local id may contain a slash; the component is then not found by its global id.
Nor is one that was added to another folder than its parent. -/
theorem C35_violation_notFound :
    (let s := (exec [.create none ['d'] true false, .create (some 0) ['a', '/', 'b'] false false, .addItem 0 1]).1
     Leads s 0 [['a', '/', 'b']] 1 ∧ (s.comp 1).globalId = "/d/a/b".toList ∧
     serverFind s 0 "/d/a/b".toList = .nothing) ∧
    (let s := (exec [.create none ['d'] true true, .create (some 0) ['f'] true true, .addItem 0 1,
        .create (some 0) ['c'] false true, .addItem 1 2]).1
     Leads s 0 [['f'], ['c']] 2 ∧ (s.comp 2).globalId = "/d/c".toList ∧
     serverFind s 0 "/d/c".toList = .nothing) := by
  refine ⟨⟨leads_one.mpr ?_, rfl, ?_⟩, ⟨.cons _ 1 _ _ _ ?_ (leads_one.mpr ?_), rfl, ?_⟩⟩ <;>
  simp [exec, splitRelativeId, runTrace, step, create, findBelow, getItem, init, parentOk, Found.of,
      isFolder, addItem, upd, AList.has, AList.get, List.lookup, appendItem, serverFind, findGlobal] <;> rfl

end Verif.Component
