import Verif.PropObj.PropsAccess

/-! # C43: the list of properties -/

namespace Verif.PropObj

variable {V : Type} [DecidableEq V]

theorem mem_firsts {α : Type} [DecidableEq α] (l : List α) (x : α) : x ∈ firsts l ↔ x ∈ l := by
  induction l with
  | nil => simp [firsts]
  | cons a l ih =>
    by_cases e : x = a
    · simp [firsts, e]
    · simp [firsts, ih, e]

theorem nodup_firsts {α : Type} [DecidableEq α] (l : List α) : (firsts l).Nodup := by
  induction l with
  | nil => exact List.nodup_nil
  | cons a l ih =>
    rw [firsts, List.nodup_cons]
    exact ⟨by simp, ih.sublist List.filter_sublist⟩

theorem firsts_filter {α : Type} [DecidableEq α] (p : α → Bool) (l : List α) : firsts (l.filter p) = (firsts l).filter p := by
  induction l with
  | nil => rfl
  | cons a l ih =>
    rw [firsts, List.filter_cons, List.filter_cons]
    by_cases h : p a = true
    · rw [if_pos h, if_pos h, firsts, ih, List.filter_filter, List.filter_filter]
      congr 1
      exact List.filter_congr (fun x _ => Bool.and_comm _ _)
    · rw [if_neg h, if_neg h, ih, List.filter_filter]
      refine List.filter_congr (fun x _ => ?_)
      by_cases e : x = a
      · subst e; simp [h]
      · simp [e]

theorem firsts_snoc {α : Type} [DecidableEq α] (l : List α) (a : α) :
    firsts (l ++ [a]) = if a ∈ l then firsts l else firsts l ++ [a] := by
  induction l with
  | nil => simp [firsts]
  | cons b l ih =>
    rw [List.cons_append, firsts, ih]
    by_cases e : a = b
    · subst e
      by_cases h : a ∈ l
      · simp [h, firsts]
      · simp [h, firsts]
    · by_cases h : a ∈ l
      · simp [h, firsts, e]
      · simp [h, firsts, e, List.filter_append]

theorem keys_assign {β : Type} (l : List (Name × β)) (n : Name) (b : β) :
    (assign l n b).map (·.1) = if n ∈ l.map (·.1) then l.map (·.1) else l.map (·.1) ++ [n] := by
  induction l with
  | nil => simp [assign]
  | cons e l ih =>
    obtain ⟨k, c⟩ := e
    rw [assign]
    by_cases h : k = n
    · simp [h]
    · rw [if_neg h, List.map_cons, ih]
      have h' : ¬ n = k := fun e => h e.symm
      by_cases hm : n ∈ l.map (·.1)
      · rw [if_pos hm, if_pos (by rw [List.map_cons]; exact List.mem_cons_of_mem _ hm)]; rfl
      · have hne : n ∉ ((k, c) :: l).map (·.1) := by
          rw [List.map_cons, List.mem_cons]
          rintro (e | e)
          · exact h' e
          · exact hm e
        rw [if_neg hm, if_neg hne]; rfl

theorem get_assign {β : Type} (l : List (Name × β)) (n m : Name) (b : β) :
    AList.get (assign l n b) m = if m = n then some b else AList.get l m := by
  induction l with
  | nil => rw [assign, AList.get_cons]
  | cons e l ih =>
    obtain ⟨k, c⟩ := e
    rw [assign]
    by_cases h : k = n
    · subst h
      rw [if_pos rfl, AList.get_cons, AList.get_cons]
      by_cases e : m = k <;> simp [e]
    · rw [if_neg h, AList.get_cons, AList.get_cons, ih]
      by_cases e : m = k
      · subst e; simp [h]
      · simp [e]

theorem keys_collect {β : Type} (l : List (Name × β)) :
    (l.foldl (fun m e => assign m e.1 e.2) []).map (·.1) = firsts (l.map (·.1)) := by
  induction l using list_snoc_induction with
  | nil => rfl
  | snoc l e ih =>
    rw [List.foldl_append, List.foldl_cons, List.foldl_nil, keys_assign, ih, List.map_append, List.map_cons, List.map_nil,
      firsts_snoc]
    simp only [mem_firsts]

theorem get_collect {β : Type} (l : List (Name × β)) (n : Name) :
    AList.get (l.foldl (fun m e => assign m e.1 e.2) []) n = AList.get l.reverse n := by
  induction l using list_snoc_induction with
  | nil => rfl
  | snoc l e ih =>
    obtain ⟨k, b⟩ := e
    rw [List.foldl_append, List.foldl_cons, List.foldl_nil, get_assign, ih, List.reverse_append, List.reverse_singleton,
      List.singleton_append, AList.get_cons]

theorem keys_filter {β : Type} (l : AList Name β) (n : Name) : (AList.del l n).map (·.1) = (l.map (·.1)).filter (· ≠ n) := by
  induction l with
  | nil => rfl
  | cons e l ih =>
    obtain ⟨k, c⟩ := e
    unfold AList.del at *
    rw [List.filter_cons, List.map_cons, List.filter_cons]
    by_cases h : k = n
    · simp [h]; simpa using ih
    · simp [h]; simpa using ih

theorem takeOrder_keys {β : Type} : ∀ (ns : List Name) (l : List (Name × β)),
    ((takeOrder l ns).1.map (·.1) = firsts (ns.filter (fun n => decide (n ∈ l.map (·.1))))) ∧
    ((takeOrder l ns).2.map (·.1) = (l.map (·.1)).filter (fun n => decide (n ∉ ns))) := by
  intro ns
  induction ns with
  | nil => intro l; exact ⟨rfl, by simp only [takeOrder, List.not_mem_nil, not_false_eq_true, decide_true]; rw [List.filter_eq_self.mpr (fun _ _ => rfl)]⟩
  | cons n ns ih =>
    intro l
    cases hg : AList.get l n with
    | none =>
      have hn : n ∉ l.map (·.1) := by
        intro h
        rw [← AList.get_isSome_iff_mem_keys, hg] at h
        cases h
      obtain ⟨h1, h2⟩ := ih l
      simp only [takeOrder, hg]
      refine ⟨?_, ?_⟩
      · rw [h1, List.filter_cons, if_neg (by simpa using hn)]
      · rw [h2]
        refine List.filter_congr (fun x hx => ?_)
        have : x ≠ n := fun e => hn (e ▸ hx)
        simp [this]
    | some b =>
      have hn : n ∈ l.map (·.1) := by rw [← AList.get_isSome_iff_mem_keys, hg]; rfl
      obtain ⟨h1, h2⟩ := ih (AList.del l n)
      simp only [takeOrder, hg]
      refine ⟨?_, ?_⟩
      · rw [List.map_cons, h1, List.filter_cons, if_pos (by simpa using hn), firsts, ← firsts_filter, List.filter_filter]
        congr 2
        refine List.filter_congr (fun x _ => ?_)
        rw [keys_filter]
        rw [Bool.eq_iff_iff]
        simp only [ne_eq, List.mem_filter, decide_eq_true_eq, Bool.and_eq_true, decide_not, Bool.not_eq_true']
        constructor
        · rintro ⟨a, b⟩; exact ⟨by simpa using b, a⟩
        · rintro ⟨a, b⟩; exact ⟨b, by simpa using a⟩
      · rw [h2, keys_filter, List.filter_filter]
        refine List.filter_congr (fun x _ => ?_)
        by_cases e : x = n <;> simp [e]

theorem takeOrder_mem {β : Type} : ∀ (ns : List Name) (l : List (Name × β)), (l.map (·.1)).Nodup → ∀ e,
    e ∈ (takeOrder l ns).1 ++ (takeOrder l ns).2 ↔ e ∈ l := by
  intro ns
  induction ns with
  | nil => intro l _ e; simp [takeOrder]
  | cons n ns ih =>
    intro l hl e
    cases hg : AList.get l n with
    | none => simp only [takeOrder, hg]; exact ih l hl e
    | some b =>
      simp only [takeOrder, hg, List.cons_append, List.mem_cons]
      rw [ih _ (keys_del _ _ hl) e]
      obtain ⟨k, c⟩ := e
      unfold AList.del
      rw [List.mem_filter]
      constructor
      · rintro (e | ⟨h, -⟩)
        · rw [e]; exact AList.mem_of_get hg
        · exact h
      · intro h
        by_cases e : k = n
        · subst e
          have := (get_some_iff l hl k c).mpr h
          rw [hg] at this
          cases this
          exact .inl rfl
        · exact .inr ⟨h, by simpa using e⟩

/-! ## C43 -/

/-- **C43** The list has the names of the custom order that are properties, each where it is named first, and then the other
properties as they were declared, of the class before local ones. -/
theorem C43_names (env : Env V) (o : Obj V) :
    (getAll env o).map (·.1) =
      firsts (o.order.filter (fun n => decide (n ∈ declared env o))) ++
      (firsts (declared env o)).filter (fun n => decide (n ∉ o.order)) := by
  have hk := keys_collect (env.cls ++ o.locals)
  obtain ⟨h1, h2⟩ := takeOrder_keys o.order ((env.cls ++ o.locals).foldl (fun m e => assign m e.1 e.2) [])
  unfold getAll
  dsimp only
  rw [List.map_append, h1, h2, hk, List.map_append]
  unfold declared
  simp only [mem_firsts]

/-- **C43** Every property is listed once, with the definition that counts for its name. -/
theorem C43_once (env : Env V) (o : Obj V) (hd : (o.locals.map (·.1)).Nodup) :
    ((getAll env o).map (·.1)).Nodup ∧ ∀ n p, (n, p) ∈ getAll env o ↔ HasProp env o n p := by
  constructor
  · rw [C43_names, List.nodup_append]
    refine ⟨nodup_firsts _, (nodup_firsts _).sublist List.filter_sublist, ?_⟩
    intro a ha b hb
    rintro rfl
    rw [mem_firsts, List.mem_filter] at ha
    rw [List.mem_filter] at hb
    exact of_decide_eq_true hb.2 ha.1
  · intro n p
    have hk := keys_collect (env.cls ++ o.locals)
    unfold getAll
    dsimp only
    have hn : ((List.foldl (fun m e => assign m e.1 e.2) [] (env.cls ++ o.locals)).map (·.1)).Nodup := by
      rw [hk]; exact nodup_firsts _
    rw [takeOrder_mem _ _ hn, ← get_some_iff _ hn, get_collect, ← lookup_iff hd, List.reverse_append]
    unfold lookup
    have hrev : AList.get o.locals.reverse n = AList.get o.locals n := by
      cases hg : AList.get o.locals n with
      | none => rw [get_reverse_none]; exact (get_none_iff _ _).mp hg
      | some q =>
        have hm := (get_some_iff _ hd n q).mp hg
        rw [get_some_iff _ (by rw [List.map_reverse]; exact (List.reverse_perm _).nodup_iff.mpr hd)]
        simpa using hm
    have happ : AList.get (o.locals.reverse ++ env.cls.reverse) n =
        match AList.get o.locals n with | some q => some q | none => AList.get env.cls.reverse n := by
      rw [← hrev]
      unfold AList.get
      rw [List.lookup_append]
      cases List.lookup n o.locals.reverse <;> rfl
    rw [happ]
    cases AList.get o.locals n <;> rfl

/-- **C43** The names of the local properties stay different in every history, so that `C43_once` applies. -/
theorem C43_distinct (env : Env V) (fuel : Nat) (ops : List (Op V)) (o : Obj V) (rs : List Res)
    (h : run env fuel {} ops = some (o, rs)) : (o.locals.map (·.1)).Nodup :=
  run_inv (P := Distinct) (ok := fun _ => True) (fun _ _ _ _ _ hd _ h => distinct_step hd h) ops {} o rs (fun _ _ => trivial)
    List.nodup_nil h

example : ((getAll { lt := fun a b => decide (a < b), cls := [(5, { dflt := 0 }), (6, { dflt := 1 }), (5, { dflt := 2 })] }
    { locals := [(1, { dflt := 3 }), (2, { dflt := 4 }), (6, { dflt := 5 })], order := [2, 9, 5, 2] } : List (Name × PropDef Nat)).map
      (fun e => (e.1, e.2.dflt))) = [(2, 4), (5, 2), (6, 5), (1, 3)] := by decide

end Verif.PropObj
