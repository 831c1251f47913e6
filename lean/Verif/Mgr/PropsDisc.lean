import Verif.Mgr.Spec
/-!
# Discovery, smart connections and capabilities
-/

namespace Verif.Mgr

open Verif

/-! ## Grouping -/

theorem smartId_eq (d : Info) : smartId d = Spec.smart d := by
  unfold smartId Spec.smart; simp

theorem smart_isSmart (d : Info) : Spec.IsSmart (Spec.smart d) := by
  unfold Spec.IsSmart Spec.smart
  rw [List.append_assoc, List.append_assoc]
  exact List.prefix_append _ _

theorem addCaps_old : ∀ {cs caps : List Cap} {c : Cap}, c ∈ caps → c ∈ addCaps caps cs
  | [], _, _, h => h
  | x :: cs, caps, c, h => by
    rw [addCaps]
    refine addCaps_old ?_
    split
    · exact h
    · exact List.mem_append_left _ h

theorem addCaps_new : ∀ {cs caps : List Cap} {c : Cap}, c ∈ cs → ∃ c' ∈ addCaps caps cs, c'.proto = c.proto
  | [], _, _, h => nomatch h
  | x :: cs, caps, c, h => by
    rw [addCaps]
    rcases List.mem_cons.mp h with rfl | h
    · split
      · rename_i ha
        obtain ⟨y, hy, e⟩ := List.any_eq_true.mp ha
        exact ⟨y, addCaps_old hy, by simpa using e⟩
      · exact ⟨c, addCaps_old (List.mem_append_right _ (List.mem_singleton.mpr rfl)), rfl⟩
    · exact addCaps_new h

theorem addCaps_from : ∀ {cs caps : List Cap} {c : Cap}, c ∈ addCaps caps cs → c ∈ caps ∨ c ∈ cs
  | [], _, _, h => .inl h
  | x :: cs, caps, c, h => by
    rw [addCaps] at h
    rcases addCaps_from h with h | h
    · split at h
      · exact .inl h
      · rcases List.mem_append.mp h with h | h
        · exact .inl h
        · rw [List.mem_singleton.mp h]; exact .inr List.mem_cons_self
    · exact .inr (List.mem_cons_of_mem _ h)

theorem addCaps_nodup : ∀ {cs caps : List Cap}, (caps.map (·.proto)).Nodup → ((addCaps caps cs).map (·.proto)).Nodup
  | [], _, h => h
  | x :: cs, caps, h => by
    rw [addCaps]
    refine addCaps_nodup ?_
    split
    · exact h
    · rename_i ha
      rw [List.map_append, List.nodup_append]
      refine ⟨h, by simp, ?_⟩
      intro a hm b hb e
      simp only [List.map_cons, List.map_nil, List.mem_singleton] at hb
      obtain ⟨y, hy, hy'⟩ := List.mem_map.mp hm
      exact ha (List.any_eq_true.mpr ⟨y, hy, by simp [hy', e, hb]⟩)

/-- The entry of a device that can be grouped. -/
def entry (ipMod g : AList Text Info) (d : Info) : Info :=
  match AList.get g (smartId d) with
  | some v => { v with caps := addCaps v.caps d.caps }
  | none =>
    match AList.get ipMod (smartId d) with
    | some v => { v with caps := addCaps v.caps d.caps, conn := smartId d }
    | none => { d with conn := smartId d }

theorem groupOne_known {ipMod g : AList Text Info} {d : Info} (h : Spec.Known d) :
    groupOne ipMod g d = AList.put g (Spec.smart d) (entry ipMod g d) := by
  unfold groupOne entry
  rw [if_neg (by
    rintro (e | e | e)
    · exact h.1 e
    · exact h.2.1 e
    · exact h.2.2 e), smartId_eq]
  cases AList.get g (Spec.smart d) with
  | some v => rfl
  | none => cases AList.get ipMod (Spec.smart d) <;> rfl

theorem groupOne_unknown {ipMod g : AList Text Info} {d : Info} (h : ¬ Spec.Known d) :
    groupOne ipMod g d = AList.put g d.conn d := by
  unfold groupOne
  rw [if_pos]
  by_cases h1 : d.manufacturer = []
  · exact .inl h1
  · by_cases h2 : d.serial = []
    · exact .inr (.inl h2)
    · by_cases h3 : d.caps = []
      · exact .inr (.inr h3)
      · exact absurd ⟨h1, h2, h3⟩ h

/-- The entry under a key has the protocols of a device. -/
def Covers (g : AList Text Info) (k : Text) (caps : List Cap) : Prop :=
  ∃ v, AList.get g k = some v ∧ v.conn = k ∧ ∀ c ∈ caps, ∃ c' ∈ v.caps, c'.proto = c.proto

/-- Entries under smart connection strings have them. -/
def Named (g : AList Text Info) : Prop := ∀ k v, Spec.IsSmart k → AList.get g k = some v → v.conn = k

theorem named_groupOne {ipMod g : AList Text Info} (h : Named g) (d : Info) : Named (groupOne ipMod g d) := by
  intro k v hk hv
  by_cases hd : Spec.Known d
  · rw [groupOne_known hd, AList.get_put] at hv
    split at hv
    · rename_i e
      injection hv with hv
      subst hv
      unfold entry
      rw [smartId_eq]
      split
      · rename_i w hw
        rw [show k = Spec.smart d from e]
        exact h _ w (smart_isSmart d) hw
      · split
        · exact e.symm
        · exact e.symm
    · exact h k v hk hv
  · rw [groupOne_unknown hd, AList.get_put] at hv
    split at hv
    · rename_i e; injection hv with hv; subst hv; exact e.symm
    · exact h k v hk hv

theorem covers_groupOne {ipMod g : AList Text Info} {k : Text} {caps : List Cap} (hk : Spec.IsSmart k)
    (h : Covers g k caps) {d : Info} (hd : ¬ Spec.Known d → ¬ Spec.IsSmart d.conn) :
    Covers (groupOne ipMod g d) k caps := by
  obtain ⟨v, h1, h2, h3⟩ := h
  by_cases hn : Spec.Known d
  · rw [groupOne_known hn]
    by_cases e : k = Spec.smart d
    · refine ⟨entry ipMod g d, by rw [AList.get_put, if_pos e], ?_, ?_⟩
      · unfold entry; rw [smartId_eq, ← e, h1]; exact h2
      · unfold entry; rw [smartId_eq, ← e, h1]
        intro c hc
        obtain ⟨c', hc', e'⟩ := h3 c hc
        exact ⟨c', addCaps_old hc', e'⟩
    · exact ⟨v, by rw [AList.get_put, if_neg e]; exact h1, h2, h3⟩
  · rw [groupOne_unknown hn]
    refine ⟨v, ?_, h2, h3⟩
    rw [AList.get_put, if_neg]
    · exact h1
    · intro e; exact hd hn (e ▸ hk)

theorem covers_new {ipMod g : AList Text Info} (hg : Named g) {d : Info} (hd : Spec.Known d) :
    Covers (groupOne ipMod g d) (Spec.smart d) d.caps := by
  refine ⟨entry ipMod g d, by rw [groupOne_known hd, AList.get_put, if_pos rfl], ?_, ?_⟩
  · exact named_groupOne hg d _ _ (smart_isSmart d) (by rw [groupOne_known hd, AList.get_put, if_pos rfl])
  · unfold entry
    intro c hc
    split
    · exact addCaps_new hc
    · split
      · exact addCaps_new hc
      · exact ⟨c, hc, rfl⟩

/-- C220: a device with manufacturer, serial number and a capability is in the entry of its smart
connection string, with all protocols that any module found for it … -/
theorem C220_listed {ipMod : AList Text Info} {found : List Info} {d : Info} (hm : d ∈ found)
    (hd : Spec.Known d) (hu : ∀ x ∈ found, ¬ Spec.Known x → ¬ Spec.IsSmart x.conn) :
    ∃ v, AList.get (group ipMod found) (Spec.smart d) = some v ∧ v.conn = Spec.smart d ∧
      ∀ c ∈ d.caps, ∃ c' ∈ v.caps, c'.proto = c.proto := by
  have keep : ∀ (l : List Info) (g : AList Text Info), (∀ x ∈ l, ¬ Spec.Known x → ¬ Spec.IsSmart x.conn) →
      Covers g (Spec.smart d) d.caps → Covers (l.foldl (groupOne ipMod) g) (Spec.smart d) d.caps := by
    intro l
    induction l with
    | nil => intro g _ h; exact h
    | cons x l ih =>
      intro g hx h
      exact ih _ (fun y hy => hx y (List.mem_cons_of_mem _ hy))
        (covers_groupOne (smart_isSmart d) h (hx x List.mem_cons_self))
  have main : ∀ (l : List Info) (g : AList Text Info), Named g → d ∈ l →
      (∀ x ∈ l, ¬ Spec.Known x → ¬ Spec.IsSmart x.conn) →
      Covers (l.foldl (groupOne ipMod) g) (Spec.smart d) d.caps := by
    intro l
    induction l with
    | nil => intro g _ h; cases h
    | cons x l ih =>
      intro g hg h hx
      rcases List.mem_cons.mp h with rfl | h
      · exact keep l _ (fun y hy => hx y (List.mem_cons_of_mem _ hy)) (covers_new hg hd)
      · exact ih _ (named_groupOne hg x) h (fun y hy => hx y (List.mem_cons_of_mem _ hy))
  exact main found [] (fun k v _ h => nomatch h) hm hu

/-- Where an entry comes from. -/
def Origin (ipMod : AList Text Info) (found : List Info) (k : Text) (v : Info) : Prop :=
  (∃ d ∈ found, ¬ Spec.Known d ∧ d.conn = k ∧ v = d) ∨
  ((∃ d ∈ found, Spec.Known d ∧ Spec.smart d = k) ∧ ∀ c ∈ v.caps,
    (∃ d ∈ found, Spec.Known d ∧ Spec.smart d = k ∧ c ∈ d.caps) ∨ ∃ w, AList.get ipMod k = some w ∧ c ∈ w.caps)

theorem origin_mono {ipMod : AList Text Info} {a b : List Info} (h : ∀ x ∈ a, x ∈ b) {k : Text} {v : Info}
    (ho : Origin ipMod a k v) : Origin ipMod b k v := by
  rcases ho with ⟨d, h1, h2⟩ | ⟨⟨d, h1, h2⟩, h3⟩
  · exact .inl ⟨d, h d h1, h2⟩
  · refine .inr ⟨⟨d, h d h1, h2⟩, fun c hc => ?_⟩
    rcases h3 c hc with ⟨e, he, he'⟩ | hw
    · exact .inl ⟨e, h e he, he'⟩
    · exact .inr hw

theorem origin_groupOne {ipMod g : AList Text Info} {done : List Info}
    (hu : ∀ x ∈ done, ¬ Spec.Known x → ¬ Spec.IsSmart x.conn)
    (h : ∀ k v, AList.get g k = some v → Origin ipMod done k v) (d : Info) :
    ∀ k v, AList.get (groupOne ipMod g d) k = some v → Origin ipMod (done ++ [d]) k v := by
  intro k v hv
  have hin : d ∈ done ++ [d] := List.mem_append_right _ (List.mem_singleton.mpr rfl)
  have hmo : ∀ x ∈ done, x ∈ done ++ [d] := fun x hx => List.mem_append_left _ hx
  by_cases hd : Spec.Known d
  · rw [groupOne_known hd, AList.get_put] at hv
    split at hv
    · rename_i e
      injection hv with hv; subst hv
      refine .inr ⟨⟨d, hin, hd, e.symm⟩, fun c hc => ?_⟩
      unfold entry at hc
      rw [smartId_eq] at hc
      split at hc
      · rename_i w hw
        rcases addCaps_from hc with hc | hc
        · rcases h _ w hw with ⟨x, hx, hxk, hxc, -⟩ | ⟨-, hx⟩
          · exact absurd (hxc ▸ smart_isSmart d) (hu x hx hxk)
          · rcases hx c hc with ⟨y, hy, hy1, hy2, hy3⟩ | hw'
            · exact .inl ⟨y, hmo y hy, hy1, hy2.trans e.symm, hy3⟩
            · rw [show k = Spec.smart d from e]; exact .inr hw'
        · exact .inl ⟨d, hin, hd, e.symm, hc⟩
      · split at hc
        · rename_i w hw
          rcases addCaps_from hc with hc | hc
          · exact .inr ⟨w, by rw [show k = Spec.smart d from e]; exact hw, hc⟩
          · exact .inl ⟨d, hin, hd, e.symm, hc⟩
        · exact .inl ⟨d, hin, hd, e.symm, hc⟩
    · exact origin_mono hmo (h k v hv)
  · rw [groupOne_unknown hd, AList.get_put] at hv
    split at hv
    · rename_i e
      injection hv with hv
      exact .inl ⟨d, hin, hd, e.symm, hv.symm⟩
    · exact origin_mono hmo (h k v hv)

/-- … an entry is of a device that was found, and has only capabilities of devices with its
connection string … -/
theorem C220_found {ipMod : AList Text Info} {found : List Info}
    (hu : ∀ x ∈ found, ¬ Spec.Known x → ¬ Spec.IsSmart x.conn) {k : Text} {v : Info}
    (h : AList.get (group ipMod found) k = some v) :
    (∃ d ∈ found, ¬ Spec.Known d ∧ d.conn = k ∧ v = d) ∨
    ((∃ d ∈ found, Spec.Known d ∧ Spec.smart d = k) ∧ ∀ c ∈ v.caps,
      (∃ d ∈ found, Spec.Known d ∧ Spec.smart d = k ∧ c ∈ d.caps) ∨
        ∃ w, AList.get ipMod k = some w ∧ c ∈ w.caps) := by
  have main : ∀ (l done : List Info) (g : AList Text Info), (∀ x ∈ done ++ l, ¬ Spec.Known x → ¬ Spec.IsSmart x.conn) →
      (∀ k v, AList.get g k = some v → Origin ipMod done k v) →
      ∀ k v, AList.get (l.foldl (groupOne ipMod) g) k = some v → Origin ipMod (done ++ l) k v := by
    intro l
    induction l with
    | nil => intro done g _ h k v hv; rw [List.append_nil]; exact h k v hv
    | cons d l ih =>
      intro done g hu h k v hv
      have e : done ++ d :: l = (done ++ [d]) ++ l := by simp
      rw [e] at hu ⊢
      refine ih (done ++ [d]) (groupOne ipMod g d) hu ?_ k v hv
      exact origin_groupOne (fun x hx => hu x (List.mem_append_left _ (List.mem_append_left _ hx))) h d
  exact main found [] [] hu (fun k v h => nomatch h) k v h

/-- … and each protocol once. -/
theorem C220_protocols {ipMod : AList Text Info} {found : List Info}
    (hf : ∀ d ∈ found, (d.caps.map (·.proto)).Nodup)
    (hi : ∀ k w, AList.get ipMod k = some w → (w.caps.map (·.proto)).Nodup) {k : Text} {v : Info}
    (h : AList.get (group ipMod found) k = some v) : (v.caps.map (·.proto)).Nodup := by
  have main : ∀ (l : List Info) (g : AList Text Info), (∀ d ∈ l, (d.caps.map (·.proto)).Nodup) →
      (∀ k v, AList.get g k = some v → (v.caps.map (·.proto)).Nodup) →
      ∀ k v, AList.get (l.foldl (groupOne ipMod) g) k = some v → (v.caps.map (·.proto)).Nodup := by
    intro l
    induction l with
    | nil => intro g _ h; exact h
    | cons d l ih =>
      intro g hf h
      refine ih (groupOne ipMod g d) (fun x hx => hf x (List.mem_cons_of_mem _ hx)) ?_
      intro k v hv
      by_cases hd : Spec.Known d
      · rw [groupOne_known hd, AList.get_put] at hv
        split at hv
        · injection hv with hv; subst hv
          unfold entry
          split
          · rename_i w hw; exact addCaps_nodup (h _ w hw)
          · split
            · rename_i w hw; exact addCaps_nodup (hi _ w hw)
            · exact hf d List.mem_cons_self
        · exact h k v hv
      · rw [groupOne_unknown hd, AList.get_put] at hv
        split at hv
        · injection hv with hv; subst hv; exact hf d List.mem_cons_self
        · exact h k v hv
  exact main found [] hf (fun k v h => nomatch h) k v h

/-- The list that users get has the entries that are not hidden. -/
theorem C220_visible {g : AList Text Info} {d : Info} :
    d ∈ visible g ↔ (∃ k, (k, d) ∈ g) ∧ d.hidden = false := by
  unfold visible
  rw [List.mem_filter, List.mem_map]
  constructor
  · rintro ⟨⟨⟨k, x⟩, h, rfl⟩, h'⟩
    exact ⟨⟨k, h⟩, by simpa using h'⟩
  · rintro ⟨⟨k, h⟩, h'⟩
    exact ⟨⟨(k, d), h, rfl⟩, by simp [h']⟩

/-- Capabilities for examples. -/
def demoCap (p : String) (t : PType) (c : String) : Cap := { proto := p.toList, type := t, conn := c.toList, addrs := [] }

/-- A device for examples. -/
def demoInfo (m s c : String) (caps : List Cap) : Info :=
  { manufacturer := m.toList, serial := s.toList, conn := c.toList, hidden := false, caps }

/-- Non-vacuity: one device found by two modules, one without a serial number. -/
example : ((group [] [demoInfo "M" "1" "a://1" [demoCap "P" .config "a://1"],
    demoInfo "M" "" "x://1" [], demoInfo "M" "1" "b://1" [demoCap "P" .config "b://1", demoCap "Q" .streaming "b://2"]]).map
      fun e => (e.1, e.2.caps.map (·.conn))) =
    [("daq://M_1".toList, ["a://1".toList, "b://2".toList]), ("x://1".toList, [])] := by decide +kernel

/-- C221: two devices whose manufacturers and serial numbers give the same text are made one. -/
theorem C221_violation_same :
    ((group [] [demoInfo "a_b" "c" "x://1" [demoCap "P" .config "x://1"],
      demoInfo "a" "b_c" "x://2" [demoCap "P" .config "x://2"]]).map fun e => e.2.caps.map (·.conn)) =
      [["x://1".toList]] := by decide +kernel

theorem split_under : ∀ {a b s t : Text}, '_' ∉ a → '_' ∉ b → a ++ '_' :: s = b ++ '_' :: t → a = b ∧ s = t
  | [], [], _, _, _, _, h => by injection h with _ h; exact ⟨rfl, h⟩
  | [], y :: b, _, _, _, hb, h => by
    injection h with h _; exact absurd List.mem_cons_self (h ▸ hb)
  | x :: a, [], _, _, ha, _, h => by
    injection h with h _; exact absurd List.mem_cons_self (h ▸ ha)
  | x :: a, y :: b, s, t, ha, hb, h => by
    injection h with h1 h2
    have := split_under (fun z => ha (List.mem_cons_of_mem _ z)) (fun z => hb (List.mem_cons_of_mem _ z)) h2
    exact ⟨by rw [h1, this.1], this.2⟩

/-- Devices whose manufacturers have no underscore are grouped when they have the same manufacturer
and serial number only.  Missing: other names. -/
theorem C221_distinct_partial {d e : Info} (hd : '_' ∉ d.manufacturer) (he : '_' ∉ e.manufacturer)
    (h : Spec.smart d = Spec.smart e) : d.manufacturer = e.manufacturer ∧ d.serial = e.serial := by
  unfold Spec.smart at h
  rw [List.append_assoc, List.append_assoc, List.append_assoc, List.append_assoc] at h
  exact split_under hd he (List.append_cancel_left h)

example : Spec.smart (demoInfo "M" "1_2" "" []) = "daq://M_1_2".toList := by decide +kernel

/-! ## Smart connections -/

theorem priority_lt (c d : Cap) : priority c < priority d ↔ Spec.rank c < Spec.rank d := by
  unfold priority Spec.rank
  by_cases h1 : c.proto = "OpenDAQNativeConfiguration".toList <;>
    by_cases h2 : d.proto = "OpenDAQNativeConfiguration".toList
  · rw [if_pos h1, if_pos h2, if_pos h1, if_pos h2]; omega
  · rw [if_pos h1, if_neg h2, if_pos h1, if_neg h2]; cases d.type <;> decide
  · rw [if_neg h1, if_pos h2, if_neg h1, if_pos h2]; cases c.type <;> decide
  · rw [if_neg h1, if_neg h2, if_neg h1, if_neg h2]; cases c.type <;> cases d.type <;> decide

theorem select_spec : ∀ (l : List Cap) (c : Cap) (pre mid : List Cap),
    (∀ x ∈ pre, Spec.rank x < Spec.rank c) → (∀ x ∈ mid, Spec.rank x ≤ Spec.rank c) →
    ∃ pre' post', pre ++ c :: (mid ++ l) = pre' ++ select c l :: post' ∧
      (∀ x ∈ pre', Spec.rank x < Spec.rank (select c l)) ∧ ∀ x ∈ post', Spec.rank x ≤ Spec.rank (select c l)
  | [], c, pre, mid, h1, h2 => ⟨pre, mid, by rw [List.append_nil]; rfl, h1, h2⟩
  | d :: l, c, pre, mid, h1, h2 => by
    rw [select]
    split
    · rename_i h
      have h' : Spec.rank c < Spec.rank d := (priority_lt c d).mp h
      have e : pre ++ c :: (mid ++ d :: l) = (pre ++ c :: mid) ++ d :: ([] ++ l) := by simp
      rw [e]
      refine select_spec l d _ [] ?_ (fun _ hx => nomatch hx)
      intro x hx
      rcases List.mem_append.mp hx with hx | hx
      · exact Nat.lt_trans (h1 x hx) h'
      · rcases List.mem_cons.mp hx with rfl | hx
        · exact h'
        · exact Nat.lt_of_le_of_lt (h2 x hx) h'
    · rename_i h
      have h' : Spec.rank d ≤ Spec.rank c := by
        have : ¬ Spec.rank c < Spec.rank d := fun x => h ((priority_lt c d).mpr x)
        omega
      have e : pre ++ c :: (mid ++ d :: l) = pre ++ c :: ((mid ++ [d]) ++ l) := by simp
      rw [e]
      refine select_spec l c pre (mid ++ [d]) h1 ?_
      intro x hx
      rcases List.mem_append.mp hx with hx | hx
      · exact h2 x hx
      · rw [List.mem_singleton.mp hx]; exact h'

theorem select_self (c : Cap) (l : List Cap) : select c (c :: l) = select c l := by
  rw [select, if_neg (by omega)]

/-- What `typedConn` gives, from what was found before. -/
theorem typedConn_spec (t : Text) : ∀ (l : List Addr) (f : Option Text) (u : Bool), (u = true → f.isSome) →
    typedConn t f u l =
      let m := l.filter fun a => a.type == t
      ((m.find? fun a => a.reach == .reachable).map (·.conn)).or
        (if u then f else ((m.find? fun a => a.reach == .unknown).map (·.conn)).or
          (f.or ((m.find? fun a => a.reach == .unreachable).map (·.conn))))
  | [], f, u, _ => by
    change f = _
    cases u <;> cases f <;> rfl
  | a :: l, f, u, hu => by
    rw [typedConn]
    by_cases h : a.type = t
    · rw [if_pos h]
      have hf : (a :: l).filter (fun a => a.type == t) = a :: l.filter (fun a => a.type == t) := by
        rw [List.filter_cons, if_pos (by simp [h])]
      rw [hf]
      cases e : a.reach with
      | reachable => simp [e]
      | unknown =>
        simp only
        rw [typedConn_spec t l _ true (by
          intro _
          cases u with
          | true => exact hu rfl
          | false => rfl)]
        cases u with
        | true => simp [e]
        | false => simp [e]
      | unreachable =>
        simp only
        rw [typedConn_spec t l (f.or (some a.conn)) u (by
          intro h
          obtain ⟨v, hv⟩ := Option.isSome_iff_exists.mp (hu h)
          rw [hv]; rfl)]
        cases u with
        | true =>
          obtain ⟨v, hv⟩ := Option.isSome_iff_exists.mp (hu rfl)
          subst hv
          simp [e]
        | false =>
          cases f <;> simp [e]
    · rw [if_neg h]
      have hf : (a :: l).filter (fun a => a.type == t) = l.filter (fun a => a.type == t) := by
        rw [List.filter_cons, if_neg (by simp [h])]
      rw [hf]
      exact typedConn_spec t l f u hu

theorem typedConn_eq (t : Text) (l : List Addr) :
    typedConn t none false l = (Spec.preferred (l.filter fun a => a.type == t)).map (·.conn) := by
  rw [typedConn_spec t l none false (fun h => nomatch h)]
  unfold Spec.preferred
  generalize l.filter (fun a => a.type == t) = m
  simp only
  cases m.find? (fun a => a.reach == .reachable) with
  | some x => rfl
  | none =>
    cases m.find? (fun a => a.reach == .unknown) with
    | some x => rfl
    | none => cases m.find? (fun a => a.reach == .unreachable) <;> rfl

/-- C222: a smart connection takes the first of the best capabilities, and of its addresses of the
wanted type the first that can be reached, else the first of which it is not known, else the first;
without such an address, or a wanted type, it takes the connection string of the capability. -/
theorem C222_smart {d : Info} (hd : d.caps ≠ []) :
    ∃ pre s post, d.caps = pre ++ s :: post ∧ (∀ x ∈ pre, Spec.rank x < Spec.rank s) ∧
      (∀ x ∈ post, Spec.rank x ≤ Spec.rank s) ∧
      ∀ primary, resolve d primary = some
        (if primary = "IPv4".toList ∨ primary = "IPv6".toList then
          ((Spec.preferred (s.addrs.filter fun a => a.type == primary)).map (·.conn)).getD s.conn
        else s.conn) := by
  cases e : d.caps with
  | nil => exact absurd e hd
  | cons c cs =>
    obtain ⟨pre, post, h1, h2, h3⟩ := select_spec cs c [] [] (fun _ h => nomatch h) (fun _ h => nomatch h)
    refine ⟨pre, select c cs, post, h1, h2, h3, fun primary => ?_⟩
    unfold resolve
    simp only [e, select_self, typedConn_eq]
    split <;> rfl

/-- A device without capabilities has none. -/
theorem C222_none {d : Info} (hd : d.caps = []) (primary : Text) : resolve d primary = none := by
  unfold resolve; rw [hd]

/-- An address for examples. -/
def demoAddr (t c : String) (r : Reach) : Addr := { type := t.toList, conn := c.toList, reach := r }

/-- Non-vacuity: a streaming and two configuration capabilities, with several addresses. -/
example : resolve (demoInfo "M" "1" "" [demoCap "S" .streaming "s://1",
    { demoCap "A" .config "a://0" with addrs := [demoAddr "IPv6" "a://6" .reachable, demoAddr "IPv4" "a://1" .unreachable,
      demoAddr "IPv4" "a://2" .unknown, demoAddr "IPv4" "a://3" .unknown] },
    demoCap "B" .config "b://1"]) "IPv4".toList = some "a://2".toList := by decide +kernel

/-- C223: when no address of the wanted type is there, not the first available one of the other type
is taken, but the last. -/
theorem C223_violation_last :
    let addrs := [demoAddr "IPv6" "a://[1]" .unknown, demoAddr "IPv6" "a://[2]" .unknown]
    let cap := { demoCap "A" .config "a://0" with addrs := addrs, conn := bestConn "a://0".toList addrs }
    (Spec.available addrs).map (·.conn) = some "a://[1]".toList ∧
    resolve (demoInfo "M" "1" "" [cap]) "IPv4".toList = some "a://[2]".toList := by decide +kernel

/-- An address that can be reached is taken, the first of them.  Missing: when there is none, and
several of which it is not known. -/
theorem C223_reachable_partial : ∀ {l : List Addr} {conn : Text} {a : Addr},
    (l.find? fun a => a.reach == .reachable) = some a → bestConn conn l = a.conn
  | [], _, _, h => nomatch h
  | x :: l, conn, a, h => by
    rw [bestConn]
    rw [List.find?_cons] at h
    cases e : x.reach with
    | reachable => rw [e] at h; injection h with h; rw [h]
    | unknown => rw [e] at h; exact C223_reachable_partial h
    | unreachable => rw [e] at h; exact C223_reachable_partial h

theorem bestConn_none : ∀ {l : List Addr} {conn : Text}, (∀ a ∈ l, a.reach = .unreachable) → bestConn conn l = conn
  | [], _, _ => rfl
  | x :: l, conn, h => by
    rw [bestConn, h x List.mem_cons_self]
    exact bestConn_none (fun a ha => h a (List.mem_cons_of_mem _ ha))

/-- The same with one of which it is not known.  Missing: as above. -/
theorem C223_unknown_partial {pre post : List Addr} {a : Addr} {conn : Text} (ha : a.reach = .unknown)
    (h : ∀ x ∈ pre ++ post, x.reach = .unreachable) : bestConn conn (pre ++ a :: post) = a.conn := by
  induction pre generalizing conn with
  | nil =>
    change bestConn conn (a :: post) = _
    rw [bestConn, ha]; exact bestConn_none h
  | cons x pre ih =>
    change bestConn conn (x :: (pre ++ a :: post)) = _
    rw [bestConn, h x List.mem_cons_self]
    exact ih (fun y hy => h y (List.mem_cons_of_mem _ hy))

/-- The connection string stays when none can be reached.  Missing: as above. -/
theorem C223_unreachable_partial {l : List Addr} {conn : Text} (h : ∀ a ∈ l, a.reach = .unreachable) :
    bestConn conn l = conn := bestConn_none h

example : bestConn "x".toList [demoAddr "IPv4" "1" .unreachable, demoAddr "IPv6" "2" .unknown,
    demoAddr "IPv4" "3" .reachable, demoAddr "IPv4" "4" .reachable] = "3".toList := by decide +kernel

/-! ## Several devices -/

/-- How one ends well. -/
def good (r : Text × Except Nat Nat) : Bool := match r.2 with | .ok _ => true | .error _ => false

theorem good_iff (r : Text × Except Nat Nat) : good r = true ↔ ∃ d, r.2 = .ok d := by
  unfold good
  cases r.2 with
  | ok d => simp
  | error e => simp

theorem createMany_eq {rs : AList Text (Except Nat Nat)} (h : rs ≠ []) :
    (createMany rs).2.2 = if (rs.filter good).length = rs.length then .all
      else if (rs.filter good).length = 0 then .none else .some := by
  unfold createMany; rw [if_neg h]; rfl

/-- C224: the call for several devices is successful if all were created, fails if none was, and is
partly successful otherwise … -/
theorem C224_code {rs : AList Text (Except Nat Nat)} (h : rs ≠ []) :
    ((createMany rs).2.2 = .all ↔ ∀ r ∈ rs, ∃ d, r.2 = .ok d) ∧
    ((createMany rs).2.2 = .none ↔ ∀ r ∈ rs, ∃ e, r.2 = .error e) ∧
    ((createMany rs).2.2 = .some ↔ (∃ r ∈ rs, ∃ d, r.2 = .ok d) ∧ ∃ r ∈ rs, ∃ e, r.2 = .error e) := by
  have hall : (rs.filter good).length = rs.length ↔ ∀ r ∈ rs, ∃ d, r.2 = .ok d := by
    rw [List.length_filter_eq_length_iff]
    exact ⟨fun f r hr => (good_iff r).mp (f r hr), fun f r hr => (good_iff r).mpr (f r hr)⟩
  have hnone : (rs.filter good).length = 0 ↔ ∀ r ∈ rs, ∃ e, r.2 = .error e := by
    rw [List.length_eq_zero_iff, List.filter_eq_nil_iff]
    constructor
    · intro f r hr
      have := f r hr
      cases e : r.2 with
      | ok d => exact absurd ((good_iff r).mpr ⟨d, e⟩) this
      | error w => exact ⟨w, rfl⟩
    · intro f r hr hg
      obtain ⟨d, hd⟩ := (good_iff r).mp hg
      obtain ⟨e, he⟩ := f r hr
      rw [hd] at he; cases he
  have hpos : 0 < rs.length := List.length_pos_iff.mpr h
  rw [createMany_eq h]
  refine ⟨?_, ?_, ?_⟩
  · rw [← hall]
    split
    · rename_i x; simp [x]
    · rename_i x
      split <;> simp [x]
  · rw [← hnone]
    split
    · rename_i x; rw [x]; constructor
      · intro y; cases y
      · intro y; omega
    · split
      · rename_i x; simp [x]
      · rename_i x; simp [x]
  · have e1 : (∃ r ∈ rs, ∃ d, r.2 = .ok d) ↔ ¬ ∀ r ∈ rs, ∃ e, r.2 = .error e := by
      constructor
      · rintro ⟨r, hr, d, hd⟩ f
        obtain ⟨e, he⟩ := f r hr
        rw [hd] at he; cases he
      · intro f
        apply Classical.byContradiction
        intro g
        refine f (fun r hr => ?_)
        cases e : r.2 with
        | ok d => exact absurd ⟨r, hr, d, e⟩ g
        | error w => exact ⟨w, rfl⟩
    have e2 : (∃ r ∈ rs, ∃ e, r.2 = .error e) ↔ ¬ ∀ r ∈ rs, ∃ d, r.2 = .ok d := by
      constructor
      · rintro ⟨r, hr, d, hd⟩ f
        obtain ⟨e, he⟩ := f r hr
        rw [hd] at he; cases he
      · intro f
        apply Classical.byContradiction
        intro g
        refine f (fun r hr => ?_)
        cases e : r.2 with
        | ok d => exact ⟨d, rfl⟩
        | error d => exact absurd ⟨r, hr, d, e⟩ g
    rw [e1, e2, ← hall, ← hnone]
    split
    · rename_i x; rw [x]; constructor
      · intro y; cases y
      · intro y; exact absurd rfl y.2
    · split
      · rename_i x; rw [x]; constructor
        · intro y; cases y
        · intro y; exact absurd rfl y.1
      · rename_i x y; exact ⟨fun _ => ⟨y, x⟩, fun _ => rfl⟩

/-- … for each connection string that was given there is a device or an error … -/
theorem C224_each {rs : AList Text (Except Nat Nat)} (h : rs ≠ []) (k : Text) :
    AList.get (createMany rs).1 k =
      (AList.get rs k).map (fun r => match r with | .ok d => Option.some d | .error _ => Option.none) ∧
    AList.get (createMany rs).2.1 k =
      (AList.get rs k).map (fun r => match r with | .ok _ => Option.none | .error e => Option.some e) := by
  have hm : ∀ {β : Type} (f : Except Nat Nat → β) (l : AList Text (Except Nat Nat)),
      AList.get (l.map fun r => (r.1, f r.2)) k = (AList.get l k).map f := by
    intro β f l
    induction l with
    | nil => rfl
    | cons x l ih =>
      obtain ⟨x, r⟩ := x
      rw [List.map_cons, AList.get_cons, AList.get_cons]
      split
      · rfl
      · exact ih
  unfold createMany
  rw [if_neg h]
  exact ⟨hm (fun r => match r with | .ok d => Option.some d | .error _ => Option.none) rs,
    hm (fun r => match r with | .ok _ => Option.none | .error e => Option.some e) rs⟩

/-- … and without connection strings the call is refused. -/
theorem C224_empty : createMany [] = ([], [], .noArgs) := rfl

example : (createMany [("a".toList, .ok 1), ("b".toList, .error 7)]).2.2 = .some ∧
    AList.get (createMany [("a".toList, .ok 1), ("b".toList, .error 7)]).2.1 "b".toList = some (some 7) :=
  ⟨rfl, by decide +kernel⟩

end Verif.Mgr
