import Verif.Access.Spec

/-! What a part of a request's handling leads to, and how that is computed from its pieces. -/

namespace Verif.Access

variable {W α β : Type}

/-- Running a part from a state ends in a state and result with a property. -/
def wp (m : M W α) (Q : S W → Except Err α → Prop) (s : S W) : Prop := Q (m s).1 (m s).2

theorem wp_pure (a : α) (Q : S W → Except Err α → Prop) (s : S W) : wp (pure a) Q s ↔ Q s (.ok a) := Iff.rfl

theorem wp_bind (m : M W α) (f : α → M W β) (Q : S W → Except Err β → Prop) (s : S W) :
    wp (m >>= f) Q s ↔ wp m (fun s' r => match r with
      | .ok a => wp (f a) Q s'
      | .error e => Q s' (.error e)) s := by
  unfold wp
  show (Q (bind m f s).1 (bind m f s).2) ↔ _
  have : bind m f s = (match m s with
    | (s', .ok a) => f a s'
    | (s', .error e) => (s', .error e)) := rfl
  rw [this]
  rcases m s with ⟨s', r⟩
  cases r <;> exact Iff.rfl

theorem wp_fail (e : Err) (Q : S W → Except Err α → Prop) (s : S W) :
    wp (fail e) Q s ↔ Q s (.error e) := Iff.rfl

theorem wp_ask (q : W → α) (Q : S W → Except Err α → Prop) (s : S W) :
    wp (ask q) Q s ↔ Q s (.ok (q s.1)) := Iff.rfl

theorem wp_lift (r : Except Err α) (Q : S W → Except Err α → Prop) (s : S W) :
    wp (lift r) Q s ↔ Q s r := Iff.rfl

theorem wp_require (b : Bool) (e : Err) (Q : S W → Except Err Unit → Prop) (s : S W) :
    wp (require b e) Q s ↔ if b then Q s (.ok ()) else Q s (.error e) := by
  cases b <;> exact Iff.rfl

variable (A : Api W)

theorem wp_call (c : Call) (Q : S W → Except Err Val → Prop) (s : S W) :
    wp (call A c) Q s ↔ Q ((A.exec s.1 c).1, s.2 ++ [(s.1, c)]) (A.exec s.1 c).2 := Iff.rfl

theorem wp_protect (u : User) (o : Obj) (ps : List Perm) (Q : S W → Except Err Unit → Prop) (s : S W) :
    wp (protect A u o ps) Q s ↔
      if ps.all (A.auth s.1 u o) then Q s (.ok ()) else Q s (.error .accessDenied) := by
  induction ps with
  | nil => exact Iff.rfl
  | cons p ps ih =>
    unfold protect
    rw [wp_bind, wp_ask]
    dsimp only
    rw [wp_bind, wp_require]
    cases h : A.auth s.1 u o p with
    | false => simp [List.all_cons, h]
    | true => simp only [List.all_cons, h, Bool.true_and]; simpa using ih

theorem wp_protectLocked (o : Obj) (Q : S W → Except Err Unit → Prop) (s : S W) :
    wp (protectLocked A o) Q s ↔
      if (parentDevice A s.1 o).any (A.locked s.1) then Q s (.error .locked) else Q s (.ok ()) := by
  unfold protectLocked
  rw [wp_bind, wp_ask]
  dsimp only
  rw [wp_require]
  cases (parentDevice A s.1 o).any (A.locked s.1) <;> simp

theorem wp_protectViewOnly (t : ClientType) (Q : S W → Except Err Unit → Prop) (s : S W) :
    wp (protectViewOnly t) Q s ↔
      if t = .viewOnly then Q s (.error .accessDenied) else Q s (.ok ()) := by
  unfold protectViewOnly
  rw [wp_require]
  cases t <;> simp

theorem wp_mono {m : M W α} {Q R : S W → Except Err α → Prop} {s : S W} (h : wp m Q s)
    (hQ : ∀ s' r, Q s' r → R s' r) : wp m R s := hQ _ _ h

/-- The object and name `parseInfo` gives. -/
def parsed (w : W) (o : Obj) (n : Name) : Except Err (Obj × Name) :=
  if occurs infoPrefix n = false then .ok (o, n)
  else if n.length < infoPrefix.length + 1 then .error .general
  else if A.supports w o .device = false then .error .noInterface
  else .ok (A.info w o, n.drop (infoPrefix.length + 1))

theorem bind_eq (m : M W α) (f : α → M W β) (s : S W) : (m >>= f) s = (match m s with
    | (s', .ok a) => f a s'
    | (s', .error e) => (s', .error e)) := rfl

theorem parseInfo_eq (o : Obj) (n : Name) (s : S W) : parseInfo A o n s = (s, parsed A s.1 o n) := by
  unfold parseInfo parsed
  split
  · rfl
  · simp only [bind_eq, require]
    by_cases h1 : n.length < infoPrefix.length + 1
    · rw [if_pos h1]
      have : decide (infoPrefix.length + 1 ≤ n.length) = false := by
        rw [decide_eq_false_iff_not]; omega
      rw [this]
      rfl
    · rw [if_neg h1]
      have : decide (infoPrefix.length + 1 ≤ n.length) = true := by
        rw [decide_eq_true_iff]; omega
      rw [this]
      cases h2 : A.supports s.1 o .device <;> simp [ask, pure, fail, h2]

theorem protect_eq (u : User) (o : Obj) (ps : List Perm) (s : S W) : protect A u o ps s =
    (s, if ps.all (A.auth s.1 u o) then .ok () else .error .accessDenied) := by
  have := (wp_protect A u o ps (fun s' r => (s', r) =
    (s, if ps.all (A.auth s.1 u o) then .ok () else .error .accessDenied)) s).mpr (by
      split <;> simp)
  exact this

theorem protectLocked_eq (o : Obj) (s : S W) : protectLocked A o s =
    (s, if (parentDevice A s.1 o).any (A.locked s.1) then .error .locked else .ok ()) := by
  have := (wp_protectLocked A o (fun s' r => (s', r) =
    (s, if (parentDevice A s.1 o).any (A.locked s.1) then .error .locked else .ok ())) s).mpr (by
      split <;> simp)
  exact this

theorem protectViewOnly_eq (t : ClientType) (s : S W) : protectViewOnly t s =
    (s, if t = .viewOnly then .error .accessDenied else .ok ()) := by
  cases t <;> rfl

theorem protectCall_eq (x : Ctx) (o : Obj) (c : Bool) (s : S W) : protectCall A x o c s = (s,
    if c then .ok () else if A.supports s.1 o .component = false then .error .noInterface
    else if (parentDevice A s.1 o).any (A.locked s.1) then .error .locked
    else if x.type = .viewOnly then .error .accessDenied else .ok ()) := by
  unfold protectCall
  cases c with
  | true => rfl
  | false =>
    rw [if_neg (by decide), if_neg (by decide)]
    have e1 : protectLockedObject A o s = (s, if A.supports s.1 o .component = false then .error .noInterface
        else if (parentDevice A s.1 o).any (A.locked s.1) then .error .locked else .ok ()) := by
      unfold protectLockedObject
      rw [bind_eq]
      show (require (A.supports s.1 o .component) .noInterface >>= fun _ => protectLocked A o) s = _
      rw [bind_eq]
      cases A.supports s.1 o .component with
      | false => rfl
      | true => exact protectLocked_eq A o s
    rw [bind_eq, e1]
    cases A.supports s.1 o .component with
    | false => rfl
    | true =>
      cases (parentDevice A s.1 o).any (A.locked s.1) with
      | true => rfl
      | false => exact protectViewOnly_eq _ _

/-- The component an address leads to. -/
def found (w : W) (id : Name) : Except Err (Option Obj) :=
  if id = "//root".toList then .ok (some A.root)
  else match id with
  | '/' :: rest => .ok (match parts rest with
      | [] => none
      | p :: ps => if p = A.localId w A.root then walk A w A.root ps else none)
  | _ => .error .invalidParameter

theorem findComponent_eq (id : Name) (s : S W) : findComponent A id s = (s, found A s.1 id) := by
  unfold findComponent found
  split
  · rfl
  · split
    · rfl
    · split
      · simp_all
      · rfl

/-- Calls made one after the other, each in the state the one before it left. -/
def Ran : W → List (W × Call) → W → Prop
  | w, [], w' => w' = w
  | w, e :: l, w' => e.1 = w ∧ Ran (A.exec w e.2).1 l w'

theorem Ran.append {w v u : W} {l k : List (W × Call)} (h : Ran A w l v) (h' : Ran A v k u) :
    Ran A w (l ++ k) u := by
  induction l generalizing w with
  | nil => cases h; exact h'
  | cons e l ih => exact ⟨h.1, ih h.2⟩

/-- Only calls of one sort are made, they are added at the end, and nothing changes but by them. -/
def Only (P : W → Call → Prop) (m : M W α) : Prop :=
  ∀ s, ∃ l, (m s).1.2 = s.2 ++ l ∧ (∀ e ∈ l, P e.1 e.2) ∧ Ran A s.1 l (m s).1.1

variable {A}

theorem Only.pure {P : W → Call → Prop} (a : α) : Only A P (Pure.pure a : M W α) :=
  fun _ => ⟨[], by simp [Pure.pure], by simp, rfl⟩

theorem Only.fail {P : W → Call → Prop} (e : Err) : Only A P (Access.fail e : M W α) :=
  fun _ => ⟨[], by simp [Access.fail], by simp, rfl⟩

theorem Only.ask {P : W → Call → Prop} (q : W → α) : Only A P (Access.ask q : M W α) :=
  fun _ => ⟨[], by simp [Access.ask], by simp, rfl⟩

theorem Only.lift {P : W → Call → Prop} (r : Except Err α) : Only A P (Access.lift r : M W α) :=
  fun _ => ⟨[], by simp [Access.lift], by simp, rfl⟩

theorem Only.require {P : W → Call → Prop} (b : Bool) (e : Err) : Only A P (Access.require b e : M W Unit) := by
  unfold Access.require
  split
  · exact Only.pure _
  · exact Only.fail _

theorem Only.call (A : Api W) {P : W → Call → Prop} {c : Call} (h : ∀ w, P w c) : Only A P (Access.call A c) :=
  fun s => ⟨[(s.1, c)], rfl, by simpa using h s.1, rfl, rfl⟩

theorem Only.bind {P : W → Call → Prop} {m : M W α} {f : α → M W β} (hm : Only A P m)
    (hf : ∀ a, Only A P (f a)) : Only A P (m >>= f) := by
  intro s
  obtain ⟨l, hl, hp, hr⟩ := hm s
  have e : (m >>= f) s = (match m s with
    | (s', .ok a) => f a s'
    | (s', .error e) => (s', .error e)) := rfl
  rw [e]
  revert hl hr
  rcases m s with ⟨s', r⟩
  intro hl hr
  cases r with
  | error e => exact ⟨l, hl, hp, hr⟩
  | ok a =>
    obtain ⟨l', hl', hp', hr'⟩ := hf a s'
    refine ⟨l ++ l', ?_, ?_, hr.append A hr'⟩
    · dsimp only at hl ⊢
      rw [hl', hl, List.append_assoc]
    · intro e he
      rcases List.mem_append.mp he with h | h
      · exact hp e h
      · exact hp' e h

theorem Only.ite {P : W → Call → Prop} {c : Prop} [Decidable c] {m n : M W α} (hm : Only A P m) (hn : Only A P n) :
    Only A P (if c then m else n) := by
  split
  · exact hm
  · exact hn

variable (A)

theorem Only.protect {P : W → Call → Prop} (u : User) (o : Obj) (ps : List Perm) :
    Only A P (Access.protect A u o ps) := by
  induction ps with
  | nil => exact Only.pure _
  | cons p ps ih => exact Only.bind (Only.ask _) fun _ => Only.bind (Only.require _ _) fun _ => ih

theorem Only.protectLocked {P : W → Call → Prop} (o : Obj) : Only A P (Access.protectLocked A o) :=
  Only.bind (Only.ask _) fun _ => Only.require _ _

theorem Only.protectViewOnly {P : W → Call → Prop} (t : ClientType) :
    Only A P (Access.protectViewOnly t : M W Unit) := Only.require _ _

theorem Only.asObject {P : W → Call → Prop} (v : Val) : Only A P (Access.asObject A v) := by
  unfold Access.asObject
  split
  · exact Only.bind (Only.ask _) fun _ => Only.bind (Only.require _ _) fun _ => Only.pure _
  · exact Only.fail _
  · exact Only.fail _

theorem Only.firstParent {P : W → Call → Prop} (hP : ∀ w o n, P w (.getValue o n)) (o : Obj) (n : Name) :
    Only A P (Access.firstParent A o n) := by
  unfold Access.firstParent
  split
  · exact Only.pure _
  · exact Only.bind (Only.call A fun w => hP w _ _) fun _ => Only.asObject A _

theorem Only.parseInfo {P : W → Call → Prop} (o : Obj) (n : Name) : Only A P (Access.parseInfo A o n) := by
  unfold Access.parseInfo
  split
  · exact Only.pure _
  · exact Only.bind (Only.require _ _) fun _ => Only.bind (Only.ask _) fun _ =>
      Only.bind (Only.require _ _) fun _ => Only.bind (Only.ask _) fun _ => Only.pure _

theorem Only.asText {P : W → Call → Prop} (v : Val) : Only A P (Access.asText A v) := by
  unfold Access.asText
  exact Only.ite (Only.fail _) (Only.pure _)

theorem Only.atPath {P : W → Call → Prop} (hP : ∀ w o n, P w (.getValue o n)) (o : Obj) (n : Option Name) :
    Only A P (Access.atPath A o n) := by
  unfold Access.atPath
  split
  · exact Only.pure _
  · exact Only.bind (Only.call A fun w => hP w _ _) fun _ => Only.asObject A _

theorem Only.single {P : W → Call → Prop} (l : List Obj) : Only A P (Access.single l : M W Obj) := by
  unfold Access.single
  split
  · exact Only.fail _
  · exact Only.pure _
  · exact Only.fail _

theorem Only.findComponent {P : W → Call → Prop} (id : Name) : Only A P (Access.findComponent A id) := by
  unfold Access.findComponent
  split
  · exact Only.pure _
  · split
    · exact Only.ask _
    · exact Only.fail _

theorem Only.findSignal {P : W → Call → Prop} (id : Name) : Only A P (Access.findSignal A id) := by
  unfold Access.findSignal
  refine Only.bind (Only.findComponent A _) fun s => ?_
  split
  · exact Only.pure _
  · exact Only.bind (Only.ask _) fun _ => Only.bind (Only.require _ _) fun _ => Only.pure _

end Verif.Access
