import Verif.Notify.Inv

/-!
# What is sent and what waits is what the client is to be told
-/

namespace Verif.Notify

open Spec

/-- What left the list of packed events, sent or not. -/
def gone : List Obs → List Item
  | [] => []
  | .note l :: r => l ++ gone r
  | .lost l :: r => l ++ gone r
  | _ :: r => gone r

/-- Version and own signals after observations. -/
def ctx (c : Nat × List String) (tr : List Obs) : Nat × List String := tr.foldl after c

theorem ctx_append (c : Nat × List String) (a b : List Obs) : ctx c (a ++ b) = ctx (ctx c a) b := List.foldl_append

theorem due_append (c : Nat × List String) (a b : List Obs) : due c (a ++ b) = due c a ++ due (ctx c a) b := by
  induction a generalizing c with
  | nil => rfl
  | cons o a ih =>
    change owed c o ++ due (after c o) (a ++ b) = (owed c o ++ due (after c o) a) ++ due (ctx (after c o) a) b
    rw [ih, List.append_assoc]

theorem gone_append (a b : List Obs) : gone (a ++ b) = gone a ++ gone b := by
  induction a with
  | nil => rfl
  | cons o a ih =>
    cases o <;> simp only [List.cons_append, gone, ih, List.append_assoc]

theorem got_append (a b : List Obs) : got (a ++ b) = got a ++ got b := by
  induction a with
  | nil => rfl
  | cons o a ih =>
    cases o <;> simp only [List.cons_append, got, ih, List.append_assoc]

theorem processArgs_told (l : List (String × Val)) :
    processArgs l = l.filterMap (fun p =>
      if p.1 = "Owner" then none
      else if p.1 ∈ ["Component", "Signal", "DomainSignal", "RelatedSignals"] then some (p.1, .plain)
      else some p) := by
  induction l with
  | nil => rfl
  | cons p l ih =>
    unfold processArgs at ih ⊢
    by_cases c : p.1 = "Owner"
    · rw [List.filter_cons_of_neg (by simpa using c), List.filterMap_cons, if_pos c]
      exact ih
    · rw [List.filter_cons_of_pos (by simpa using c), List.filterMap_cons, if_neg c, List.map_cons, ih]
      by_cases d : p.1 ∈ ["Component", "Signal", "DomainSignal", "RelatedSignals"]
      · rw [if_pos d]
        have d' : p.1 = "Signal" ∨ p.1 = "DomainSignal" ∨ p.1 = "RelatedSignals" ∨ p.1 = "Component" := by
          simp only [List.mem_cons, List.not_mem_nil, or_false] at d
          rcases d with h | h | h | h
          · exact Or.inr (Or.inr (Or.inr h))
          · exact Or.inl h
          · exact Or.inr (Or.inl h)
          · exact Or.inr (Or.inr (Or.inl h))
        rw [if_pos d']
      · rw [if_neg d]
        have d' : ¬ (p.1 = "Signal" ∨ p.1 = "DomainSignal" ∨ p.1 = "RelatedSignals" ∨ p.1 = "Component") := by
          intro h
          apply d
          simp only [List.mem_cons, List.not_mem_nil, or_false]
          rcases h with h | h | h | h
          · exact Or.inr (Or.inl h)
          · exact Or.inr (Or.inr (Or.inl h))
          · exact Or.inr (Or.inr (Or.inr h))
          · exact Or.inl h
        rw [if_neg d']

theorem ok_callable (v : Val) : v.ok = !callable v := by cases v <;> rfl

theorem all_ok (l : List (String × Val)) : l.all (fun p => p.2.ok) = l.all (fun p => !callable p.2) := by
  simp only [ok_callable]

/-- What a callback adds to the list. -/
def St.adds (st : St) (n : Nat) (e : Ev) : List Item :=
  if st.forwards e then
    match st.pack e with
    | .item l => [⟨n, e.src, e.what, l⟩]
    | _ => []
  else []

theorem packed_item {st : St} {e : Ev} (n : Nat) (hf : st.forwards e = true) (ha : st.args e = .item (told e)) :
    st.adds n e = if (told e).all (fun p => !callable p.2) then [⟨n, e.src, e.what, told e⟩] else [] := by
  unfold St.adds St.pack
  rw [if_pos hf, ha]
  dsimp only
  rw [all_ok]
  split
  · rename_i h
    split at h
    · cases h
      rw [if_pos ‹_›]
    · cases h
  · rename_i h
    split at h
    · exact absurd rfl (h _)
    · rw [if_neg ‹_›]

theorem packed_none {st : St} {e : Ev} (n : Nat) (h : st.forwards e = false ∨ ∀ l, st.args e ≠ .item l) :
    st.adds n e = [] := by
  unfold St.adds St.pack
  rcases h with h | h
  · rw [h]; rfl
  · split
    · cases e' : st.args e with
      | item l => exact absurd e' (h l)
      | dropped => rfl
      | threw => rfl
    · rfl

theorem any_local (l : List (String × Val)) : l.any (fun p => decide (p.1 = "LocalActive")) = (l.map (·.1)).contains "LocalActive" := by
  induction l with
  | nil => rfl
  | cons p l ih =>
    rw [List.any_cons, List.map_cons, List.contains_cons, ih]
    congr 1
    by_cases c : p.1 = "LocalActive"
    · rw [c]; rfl
    · rw [decide_eq_false c]
      exact (beq_eq_false_iff_ne.mpr (fun h => c h.symm)).symm

theorem adds_owed (st : St) (n : Nat) (e : Ev) : st.adds n e = owed (st.ver, st.own) (.heard n e) := by
  unfold owed
  dsimp only
  cases e with
  | mk src what pars rd =>
    cases what with
    | attr a =>
      have hf : st.forwards ⟨src, .attr a, pars, rd⟩ = true := rfl
      have hw : wanted st.ver st.own ⟨src, .attr a, pars, rd⟩ =
        ((a != "Active" || decide (st.ver ≤ 21) || (decide (st.ver ≤ 23) && (pars.map (·.1)).contains "LocalActive")) &&
          (told ⟨src, .attr a, pars, rd⟩).all (fun p => !callable p.2)) := rfl
      have ht : processArgs pars = told ⟨src, .attr a, pars, rd⟩ := processArgs_told pars
      by_cases ca : a = "Active"
      · have e1 : (a != "Active") = false := by rw [ca]; rfl
        rw [e1, Bool.false_or] at hw
        by_cases c1 : st.ver ≤ 21
        · rw [packed_item n hf (by
            unfold St.args
            dsimp only
            rw [if_pos ca, if_neg (fun h => Nat.not_lt.mpr c1 h.1), if_neg (by omega), ht])]
          rw [hw, decide_eq_true c1]
          simp only [Bool.true_or, Bool.true_and]
        · by_cases c2 : st.ver ≤ 23
          · cases cl : (pars.map (·.1)).contains "LocalActive" with
            | true =>
              rw [packed_item n hf (by
                unfold St.args
                dsimp only
                rw [if_pos ca, if_neg (fun h => by rw [any_local, cl] at h; exact absurd h.2 Bool.noConfusion), if_neg (by omega), ht])]
              rw [hw, cl, decide_eq_true c2]
              simp only [Bool.and_true, Bool.or_true, Bool.true_and]
            | false =>
              rw [packed_none n (Or.inr (by
                intro l
                unfold St.args
                dsimp only
                rw [if_pos ca, if_pos ⟨by omega, by rw [any_local, cl]⟩]
                intro h
                cases h))]
              rw [hw, cl, decide_eq_false c1]
              simp
          · rw [packed_none n (Or.inr (by
                intro l
                unfold St.args
                dsimp only
                rw [if_pos ca]
                split
                · intro h; cases h
                · rw [if_pos (by omega)]
                  intro h; cases h))]
            rw [hw, decide_eq_false c1, decide_eq_false c2]
            simp
      · have e1 : (a != "Active") = true := bne_iff_ne.mpr ca
        rw [packed_item n hf (by
          unfold St.args
          dsimp only
          rw [if_neg ca, ht])]
        rw [hw, e1]
        simp only [Bool.true_or, Bool.true_and]
    | conn s =>
      by_cases c : s = "ConfigurationStatus"
      · rw [packed_item n (by unfold St.forwards; dsimp only; rw [if_neg (fun h => h c)]; rfl) rfl]
        unfold wanted
        rw [c]
        rfl
      · rw [packed_none n (Or.inl (by unfold St.forwards; dsimp only; rw [if_pos c]))]
        have hw : wanted st.ver st.own ⟨src, .conn s, pars, rd⟩ =
          ((s == "ConfigurationStatus") && (told ⟨src, .conn s, pars, rd⟩).all (fun p => !callable p.2)) := rfl
        rw [hw, beq_eq_false_iff_ne.mpr c]
        rfl
    | added b =>
      have ht : processArgs pars = told ⟨src, .added b, pars, rd⟩ := processArgs_told pars
      have hw : wanted st.ver st.own ⟨src, .added b, pars, rd⟩ =
        ((decide (11 ≤ st.ver) || !b) && (told ⟨src, .added b, pars, rd⟩).all (fun p => !callable p.2)) := rfl
      by_cases c : st.ver < 11 ∧ b = true
      · rw [packed_none n (Or.inl (by unfold St.forwards; dsimp only; rw [if_pos c]))]
        rw [hw, c.2, decide_eq_false (Nat.not_le.mpr c.1)]
        rfl
      · rw [packed_item n (by unfold St.forwards; dsimp only; rw [if_neg c]; rfl) (by
          unfold St.args
          dsimp only
          rw [ht])]
        have e2 : (decide (11 ≤ st.ver) || !b) = true := by
          cases b with
          | false => simp
          | true =>
            have : 11 ≤ st.ver := Nat.not_lt.mp (fun h => c ⟨h, rfl⟩)
            rw [decide_eq_true this]
            rfl
        rw [hw, e2, Bool.true_and]
    | ext s b =>
      have hw : wanted st.ver st.own ⟨src, .ext s b, pars, rd⟩ =
        ((!st.own.contains s) && (told ⟨src, .ext s b, pars, rd⟩).all (fun p => !callable p.2)) := rfl
      by_cases c : s ∈ st.own
      · rw [packed_none n (Or.inl (by
          unfold St.forwards St.forwardsExt
          exact decide_eq_false (fun h => h c)))]
        rw [hw, List.contains_iff_mem.mpr c]
        rfl
      · have e1 : st.own.contains s = false := by
          cases h : st.own.contains s with
          | false => rfl
          | true => exact absurd (List.contains_iff_mem.mp h) c
        have hf : st.forwards ⟨src, .ext s b, pars, rd⟩ = true := decide_eq_true c
        have ha : st.args ⟨src, .ext s b, pars, rd⟩ = .item (told ⟨src, .ext s b, pars, rd⟩) := by
          cases b with
          | true => exact congrArg Packed.item (processArgs_told pars)
          | false => rfl
        rw [packed_item n hf ha, hw, e1]
        rfl
    | moved =>
      have ha : st.args ⟨src, .moved, pars, rd⟩ = .item (told ⟨src, .moved, pars, rd⟩) :=
        congrArg Packed.item (processArgs_told pars)
      rw [packed_item n rfl ha]
      rfl
    | ended b =>
      cases b with
      | true =>
        rw [packed_item n rfl rfl]
        rfl
      | false =>
        rw [packed_none n (Or.inr (fun l h => by cases h))]
        rfl
    | other =>
      rw [packed_item n rfl rfl]
      rfl

/-- What a callback does. -/
structure Called (st : St) (t : Th) (e : Ev) : Prop where
  queue : (st.callback t e).1.queue = st.queue ++ due (st.ver, st.own) (st.callback t e).2
  ctx : ∀ c, ctx c (st.callback t e).2 = c
  gone : gone (st.callback t e).2 = []
  ver : (st.callback t e).1.ver = st.ver
  own : (st.callback t e).1.own = st.own
  mine : (st.callback t e).1.mine = st.mine
  folder : (st.callback t e).1.folder = st.folder

theorem called (st : St) (t : Th) (e : Ev) : Called st t e := by
  have hq : (st.callback t e).1.queue = st.queue ++ st.adds t.id e := by
    unfold St.callback St.adds
    split
    · cases h : st.pack e with
      | item l => rfl
      | dropped => exact (List.append_nil _).symm
      | threw => exact (List.append_nil _).symm
    · exact (List.append_nil _).symm
  have ho : (st.callback t e).2 = [.heard t.id e] ∨ (st.callback t e).2 = [.heard t.id e, .threw t.id] := by
    unfold St.callback
    split
    · cases h : st.pack e with
      | item l => exact Or.inl rfl
      | dropped => exact Or.inl rfl
      | threw => exact Or.inr rfl
    · exact Or.inl rfl
  have hf := callback_ths st t e
  refine ⟨?_, ?_, ?_, ?_, ?_, ?_, ?_⟩
  · rw [hq, adds_owed]
    congr 1
    rcases ho with h | h
    · rw [h]; exact (List.append_nil _).symm
    · rw [h]; exact (List.append_nil _).symm
  · intro c
    rcases ho with h | h <;> rw [h] <;> rfl
  · rcases ho with h | h <;> rw [h] <;> rfl
  all_goals rcases hf with h | h | ⟨i, _, h⟩ <;> rw [h] <;> rfl

structure Flow (v : Nat) (st : St) (tr : List Obs) : Prop where
  ver : st.ver = (ctx (v, []) tr).1
  own : st.own = (ctx (v, []) tr).2
  sub : ∀ s ∈ st.own, s ∈ st.folder
  map : st.own = st.mine.map (·.2)
  nums : (st.mine.map (·.1)).Nodup
  sigs : st.own.Nodup
  flow : gone tr ++ st.queue = due (v, []) tr

theorem flow_same {v : Nat} {st st' : St} {tr : List Obs} (h : Flow v st tr) (h1 : st'.ver = st.ver) (h2 : st'.own = st.own)
    (h3 : st'.folder = st.folder) (h4 : st'.mine = st.mine) (h5 : st'.queue = st.queue) : Flow v st' tr := by
  obtain ⟨a, b, c, d, e, f, g⟩ := h
  exact ⟨h1 ▸ a, h2 ▸ b, by rw [h2, h3]; exact c, by rw [h2, h4]; exact d, by rw [h4]; exact e, by rw [h2]; exact f, by rw [h5]; exact g⟩

theorem ctx_eq {v : Nat} {st : St} {tr : List Obs} (h : Flow v st tr) : ctx (v, []) tr = (st.ver, st.own) := by
  rw [h.ver, h.own]

/-- An event in a state that has the folder of `s0` instead. -/
theorem flow_callback {v : Nat} {st s0 : St} {tr : List Obs} (h : Flow v st tr) (t : Th) (e : Ev)
    (h1 : s0.ver = st.ver) (h2 : s0.own = st.own) (h4 : s0.mine = st.mine) (h5 : s0.queue = st.queue)
    (hsub : ∀ s ∈ st.own, s ∈ s0.folder) : Flow v (s0.callback t e).1 (tr ++ (s0.callback t e).2) := by
  have hc := called s0 t e
  refine ⟨?_, ?_, ?_, ?_, ?_, ?_, ?_⟩
  · rw [ctx_append, hc.ctx, hc.ver, h1]; exact h.ver
  · rw [ctx_append, hc.ctx, hc.own, h2]; exact h.own
  · rw [hc.own, hc.folder, h2]; exact hsub
  · rw [hc.own, hc.mine, h2, h4]; exact h.map
  · rw [hc.mine, h4]; exact h.nums
  · rw [hc.own, h2]; exact h.sigs
  · rw [gone_append, hc.gone, List.append_nil, hc.queue, due_append, ctx_eq h, ← h.flow, h5, h1, h2, List.append_assoc]

theorem flow_send {v : Nat} {st : St} {tr : List Obs} (h : Flow v st tr) : Flow v st.sendOut.1 (tr ++ st.sendOut.2) := by
  unfold St.sendOut
  cases hq : st.queue with
  | nil => exact (List.append_nil tr).symm ▸ h
  | cons i l =>
    have hb : (i :: l).isEmpty = false := rfl
    rw [hb]
    have hf := h.flow
    rw [hq] at hf
    have aux : ∀ o : Obs, (o = .note (i :: l) ∨ o = .lost (i :: l)) → Flow v { st with queue := [] } (tr ++ [o]) := by
      intro o ho
      have hx : ∀ c, after c o = c := by rcases ho with rfl | rfl <;> exact fun _ => rfl
      have hy : ∀ c, owed c o = [] := by rcases ho with rfl | rfl <;> exact fun _ => rfl
      have hz : gone [o] = i :: l := by rcases ho with rfl | rfl <;> exact List.append_nil _
      have hcx : ctx (v, []) (tr ++ [o]) = ctx (v, []) tr := by
        rw [ctx_append]
        exact hx _
      refine ⟨?_, ?_, h.sub, h.map, h.nums, h.sigs, ?_⟩
      · rw [hcx]; exact h.ver
      · rw [hcx]; exact h.own
      · rw [gone_append, hz, due_append, ← hf]
        change _ ++ [] = _ ++ (owed _ o ++ [])
        rw [hy]
        simp
    refine aux _ ?_
    split
    · exact Or.inl rfl
    · exact Or.inr rfl

theorem flow_put {v : Nat} {st : St} {tr : List Obs} (h : Flow v st tr) (t : Th) : Flow v (st.put t) tr :=
  flow_same h rfl rfl rfl rfl rfl

theorem filter_map_ne {l : List (Nat × String)} {num : Nat} {s : String} (hn : (l.map (·.1)).Nodup) (hs : (l.map (·.2)).Nodup)
    (hm : (num, s) ∈ l) : (l.filter (fun p => p.1 ≠ num)).map (·.2) = (l.map (·.2)).filter (· ≠ s) := by
  have key : ∀ p ∈ l, (p.1 ≠ num ↔ p.2 ≠ s) := by
    intro p hp
    constructor
    · intro h c
      induction l with
      | nil => cases hp
      | cons a l ih =>
        rw [List.map_cons, List.nodup_cons] at hn hs
        rcases List.mem_cons.mp hp with rfl | hp'
        · rcases List.mem_cons.mp hm with e | hm'
          · rw [← e] at h; exact h rfl
          · exact hs.1 (c ▸ List.mem_map.mpr ⟨_, hm', rfl⟩)
        · rcases List.mem_cons.mp hm with e | hm'
          · rw [← e] at hs; exact hs.1 (List.mem_map.mpr ⟨p, hp', c⟩)
          · exact ih hn.2 hs.2 hm' hp'
    · intro h c
      induction l with
      | nil => cases hp
      | cons a l ih =>
        rw [List.map_cons, List.nodup_cons] at hn hs
        rcases List.mem_cons.mp hp with rfl | hp'
        · rcases List.mem_cons.mp hm with e | hm'
          · rw [← e] at h; exact h rfl
          · exact hn.1 (c ▸ List.mem_map.mpr ⟨_, hm', rfl⟩)
        · rcases List.mem_cons.mp hm with e | hm'
          · rw [← e] at hn; exact hn.1 (List.mem_map.mpr ⟨p, hp', c⟩)
          · exact ih hn.2 hs.2 hm' hp'
  rw [List.filter_map]
  congr 1
  apply List.filter_congr
  intro p hp
  exact decide_eq_decide.mpr (key p hp)

theorem flow_addExt {v : Nat} {st : St} {tr : List Obs} (h : Flow v st tr) (t : Th) (num : Nat) (s : String)
    (ha : Accepted (st.addExt t num s).2) : Flow v (st.addExt t num s).1 (tr ++ (st.addExt t num s).2) := by
  unfold St.addExt at ha ⊢
  split
  · exact (List.append_nil tr).symm ▸ h
  · rename_i hnum
    rw [if_neg hnum] at ha
    dsimp only at ha ⊢
    by_cases hf : s ∈ st.folder
    · rw [if_pos hf] at ha
      exact absurd (ha (.refused s) (List.mem_singleton.mpr rfl)) (fun h => h)
    · rw [if_neg hf]
      have hs : s ∉ st.own := fun c => hf (h.sub s c)
      rw [if_neg hs]
      generalize e0 : ({ st with own := st.own ++ [s], folder := st.folder ++ [s] } : St) = s0
      have hc := called s0 t (extAdded s)
      have g1 : s0.ver = st.ver := by rw [← e0]
      have g2 : s0.own = st.own ++ [s] := by rw [← e0]
      have g3 : s0.mine = st.mine := by rw [← e0]
      have g4 : s0.queue = st.queue := by rw [← e0]
      have g5 : s0.folder = st.folder ++ [s] := by rw [← e0]
      have e1 : ctx (v, []) (tr ++ .mine s :: (s0.callback t (extAdded s)).2) = (st.ver, st.own ++ [s]) := by
        rw [ctx_append, ctx_eq h]
        exact hc.ctx _
      refine ⟨?_, ?_, ?_, ?_, ?_, ?_, ?_⟩
      · rw [e1]; exact hc.ver.trans g1
      · rw [e1]; exact hc.own.trans g2
      · change ∀ x ∈ (s0.callback t (extAdded s)).1.own, x ∈ (s0.callback t (extAdded s)).1.folder
        rw [hc.own, hc.folder, g2, g5]
        intro x hx
        rcases List.mem_append.mp hx with hx | hx
        · exact List.mem_append_left _ (h.sub x hx)
        · exact List.mem_append_right _ hx
      · change (s0.callback t (extAdded s)).1.own = ((s0.callback t (extAdded s)).1.mine ++ [(num, s)]).map (·.2)
        rw [hc.own, hc.mine, g2, g3, List.map_append, ← h.map]
        rfl
      · change (((s0.callback t (extAdded s)).1.mine ++ [(num, s)]).map (·.1)).Nodup
        rw [hc.mine, g3, List.map_append, List.nodup_append]
        refine ⟨h.nums, by simp, ?_⟩
        intro a ha' b hb
        rw [List.map_singleton, List.mem_singleton] at hb
        rintro rfl
        apply hnum
        obtain ⟨p, hp, hpe⟩ := List.mem_map.mp ha'
        exact List.any_eq_true.mpr ⟨p, hp, decide_eq_true (hpe.trans hb)⟩
      · change (s0.callback t (extAdded s)).1.own.Nodup
        rw [hc.own, g2, List.nodup_append]
        refine ⟨h.sigs, by simp, ?_⟩
        intro a ha' b hb
        rw [List.mem_singleton] at hb
        rintro rfl
        exact hs (hb ▸ ha')
      · change gone (tr ++ .mine s :: (s0.callback t (extAdded s)).2) ++ (s0.callback t (extAdded s)).1.queue = _
        have e2 : gone (.mine s :: (s0.callback t (extAdded s)).2) = [] := hc.gone
        have e3 : due (st.ver, st.own) (.mine s :: (s0.callback t (extAdded s)).2) =
          due (st.ver, st.own ++ [s]) (s0.callback t (extAdded s)).2 := rfl
        rw [gone_append, e2, List.append_nil, hc.queue, due_append, ctx_eq h, e3, g1, g2, g4, ← List.append_assoc, h.flow]

theorem flow_removeExt {v : Nat} {st : St} {tr : List Obs} (h : Flow v st tr) (t : Th) (num : Nat) :
    Flow v (st.removeExt t num).1 (tr ++ (st.removeExt t num).2) := by
  unfold St.removeExt
  cases hm : st.mine.find? (fun p => decide (p.1 = num)) with
  | none => exact (List.append_nil tr).symm ▸ h
  | some p =>
    obtain ⟨num', s⟩ := p
    have hmem := List.mem_of_find?_eq_some hm
    have hnum : num' = num := by simpa using List.find?_some hm
    subst hnum
    dsimp only
    generalize e0 : ({ st with mine := st.mine.filter (fun p => decide (p.1 ≠ num')), folder := st.folder.filter (fun x => decide (x ≠ s)) } : St) = s0
    have hc := called s0 t (extGone s)
    have g1 : s0.ver = st.ver := by rw [← e0]
    have g2 : s0.own = st.own := by rw [← e0]
    have g3 : s0.mine = st.mine.filter (fun p => decide (p.1 ≠ num')) := by rw [← e0]
    have g4 : s0.queue = st.queue := by rw [← e0]
    have g5 : s0.folder = st.folder.filter (fun x => decide (x ≠ s)) := by rw [← e0]
    have e1 : ctx (v, []) (tr ++ ((s0.callback t (extGone s)).2 ++ [.mineGone s])) = (st.ver, st.own.filter (· ≠ s)) := by
      rw [ctx_append, ctx_append, ctx_eq h, hc.ctx]
      rfl
    have e2 : gone ((s0.callback t (extGone s)).2 ++ [.mineGone s]) = [] := by
      rw [gone_append, hc.gone]
      rfl
    have e3 : due (st.ver, st.own) ((s0.callback t (extGone s)).2 ++ [.mineGone s]) =
        due (st.ver, st.own) (s0.callback t (extGone s)).2 := by
      rw [due_append]
      exact List.append_nil _
    refine ⟨?_, ?_, ?_, ?_, ?_, ?_, ?_⟩
    · rw [e1]; exact hc.ver.trans g1
    · rw [e1]
      change (s0.callback t (extGone s)).1.own.filter _ = _
      rw [hc.own, g2]
    · change ∀ x ∈ (s0.callback t (extGone s)).1.own.filter (fun x => decide (x ≠ s)), x ∈ (s0.callback t (extGone s)).1.folder
      rw [hc.own, hc.folder, g2, g5]
      intro x hx
      obtain ⟨hx1, hx2⟩ := List.mem_filter.mp hx
      exact List.mem_filter.mpr ⟨h.sub x hx1, hx2⟩
    · change (s0.callback t (extGone s)).1.own.filter (fun x => decide (x ≠ s)) = (s0.callback t (extGone s)).1.mine.map (·.2)
      rw [hc.own, hc.mine, g2, g3, filter_map_ne h.nums (h.map ▸ h.sigs) hmem, h.map]
    · change ((s0.callback t (extGone s)).1.mine.map (·.1)).Nodup
      rw [hc.mine, g3]
      exact (List.Sublist.map _ List.filter_sublist).nodup h.nums
    · change ((s0.callback t (extGone s)).1.own.filter (fun x => decide (x ≠ s))).Nodup
      rw [hc.own, g2]
      exact List.filter_sublist.nodup h.sigs
    · change gone (tr ++ _) ++ (s0.callback t (extGone s)).1.queue = _
      rw [gone_append, e2, List.append_nil, hc.queue, due_append, ctx_eq h, e3, g1, g2, g4, ← List.append_assoc, h.flow]

theorem flow_step {v : Nat} {st : St} {tr : List Obs} (h : Flow v st tr) (op : Op) (ha : Accepted (st.step op).2) :
    Flow v (st.step op).1 (tr ++ (st.step op).2) := by
  have nil : ∀ s : St, Flow v s tr → Flow v s (tr ++ []) := fun s hs => (List.append_nil tr).symm ▸ hs
  cases op with
  | enter n =>
    unfold St.step
    dsimp only
    split
    · exact nil _ h
    · exact nil _ (flow_same h rfl rfl rfl rfl rfl)
  | begin n =>
    unfold St.step
    dsimp only
    split
    · exact nil _ h
    · unfold St.beginRpc
      split
      · exact nil _ (flow_same h rfl rfl rfl rfl rfl)
      · exact nil _ (flow_same h rfl rfl rfl rfl rfl)
  | raise n e =>
    unfold St.step
    dsimp only
    cases ht : st.th? n with
    | none => exact nil _ h
    | some t =>
      dsimp only
      split
      · exact flow_callback h t e rfl rfl rfl rfl h.sub
      · exact nil _ h
  | check n =>
    unfold St.step
    dsimp only
    cases ht : st.th? n with
    | none => exact nil _ h
    | some t =>
      dsimp only
      split
      · unfold St.check
        split
        · exact nil _ (flow_put h _)
        · exact nil _ (flow_put h _)
      · exact nil _ h
  | send n =>
    unfold St.step
    dsimp only
    cases ht : st.th? n with
    | none => exact nil _ h
    | some t =>
      dsimp only
      unfold St.send
      split
      · exact flow_put (flow_send h) _
      · split
        · exact flow_put (flow_send h) _
        · exact nil _ h
  | finish n =>
    unfold St.step
    dsimp only
    cases ht : st.th? n with
    | none => exact nil _ h
    | some t =>
      dsimp only
      unfold St.finish
      split
      · split
        · exact nil _ (flow_same h rfl rfl rfl rfl rfl)
        · exact nil _ (flow_same h rfl rfl rfl rfl rfl)
        · exact nil _ (flow_same h rfl rfl rfl rfl rfl)
        · exact nil _ h
      · exact nil _ h
  | reply n =>
    unfold St.step
    dsimp only
    cases ht : st.th? n with
    | none => exact nil _ h
    | some t =>
      dsimp only
      split
      · have e1 : ctx (v, []) (tr ++ [.replied n]) = ctx (v, []) tr := by rw [ctx_append]; rfl
        refine ⟨e1 ▸ h.ver, e1 ▸ h.own, h.sub, h.map, h.nums, h.sigs, ?_⟩
        rw [gone_append, due_append]
        exact (congrArg (· ++ st.queue) (List.append_nil _)).trans (h.flow.trans (List.append_nil _).symm)
      · exact nil _ h
  | upgrade w =>
    have e1 : ctx (v, []) (tr ++ [.upgraded w (decide (w ∈ serverVersions))]) = (w, st.own) := by
      rw [ctx_append, ctx_eq h]; rfl
    refine ⟨?_, ?_, h.sub, h.map, h.nums, h.sigs, ?_⟩
    · change w = (ctx (v, []) (tr ++ [.upgraded w (decide (w ∈ serverVersions))])).1
      rw [e1]
    · change st.own = (ctx (v, []) (tr ++ [.upgraded w (decide (w ∈ serverVersions))])).2
      rw [e1]
    · change gone (tr ++ [.upgraded w _]) ++ st.queue = due (v, []) (tr ++ [.upgraded w _])
      rw [gone_append, due_append]
      exact (congrArg (· ++ st.queue) (List.append_nil _)).trans (h.flow.trans (List.append_nil _).symm)
  | addExt n num s =>
    unfold St.step at ha ⊢
    dsimp only at ha ⊢
    cases ht : st.th? n with
    | none => exact nil _ h
    | some t =>
      rw [ht] at ha
      dsimp only at ha ⊢
      by_cases hr : t.runs = true
      · rw [if_pos hr] at ha ⊢
        exact flow_addExt h t num s ha
      · rw [if_neg hr]
        exact nil _ h
  | removeExt n num =>
    unfold St.step
    dsimp only
    cases ht : st.th? n with
    | none => exact nil _ h
    | some t =>
      dsimp only
      split
      · exact flow_removeExt h t num
      · exact nil _ h
  | foreign n s =>
    unfold St.step
    dsimp only
    cases ht : st.th? n with
    | none => exact nil _ h
    | some t =>
      dsimp only
      split
      · refine flow_callback h t (extAdded s) (s0 := { st with folder := st.folder ++ [s] }) rfl rfl rfl rfl ?_
        exact fun x hx => List.mem_append_left _ (h.sub x hx)
      · exact nil _ h
  | foreignGone n s =>
    unfold St.step
    dsimp only
    cases ht : st.th? n with
    | none => exact nil _ h
    | some t =>
      dsimp only
      split
      · rename_i c
        refine flow_callback h t (extGone s) (s0 := { st with folder := st.folder.filter (fun x => decide (x ≠ s)) }) rfl rfl rfl rfl ?_
        intro x hx
        refine List.mem_filter.mpr ⟨h.sub x hx, decide_eq_true ?_⟩
        rintro rfl
        exact c.2.2 (h.map ▸ hx)
      · exact nil _ h

theorem flow_run {v : Nat} {st : St} {tr : List Obs} (h : Flow v st tr) (ops : List Op) (ha : Accepted (st.run ops).2) :
    Flow v (st.run ops).1 (tr ++ (st.run ops).2) := by
  induction ops generalizing st tr with
  | nil => exact (List.append_nil tr).symm ▸ h
  | cons op l ih =>
    have h1 := flow_step h op (fun o ho => ha o (List.mem_append_left _ ho))
    have h2 := ih h1 (fun o ho => ha o (List.mem_append_right _ ho))
    change Flow v ((st.step op).1.run l).1 (tr ++ ((st.step op).2 ++ ((st.step op).1.run l).2))
    rw [← List.append_assoc]
    exact h2

theorem flow_init (v : Nat) : Flow v { ver := v } [] :=
  ⟨rfl, rfl, fun _ h => (nomatch h), rfl, List.nodup_nil, List.nodup_nil, rfl⟩

end Verif.Notify
