import Verif.Config.Objs

/-! The first pass of a load: the tree of the saved device comes back, and the context knows its connections. -/

namespace Verif.Config

open Spec

theorem attrs_load_save {l : Lock} {a b : Attrs} (h : LockedSame l a b) : b.load l a.save = a := by
  obtain ⟨h1, h2, h3, h4⟩ := h
  cases a with
  | mk a1 a2 a3 a4 =>
    unfold Attrs.load Attrs.save
    dsimp only at h1 h2 h3 h4 ⊢
    congr 1
    · cases hl : l.active with
      | true => exact (h1 hl).symm
      | false => cases a1 <;> rfl
    · cases hl : l.visible with
      | true => exact (h2 hl).symm
      | false => cases a2 <;> rfl
    · cases hl : l.desc with
      | true => exact (h3 hl).symm
      | false =>
        by_cases e : a3 = ""
        · simp [e]
        · simp [e]
    · cases hl : l.name with
      | true => exact (h4 hl).symm
      | false =>
        by_cases e : a4 = ""
        · simp [e]
        · simp [e]

theorem sig_load_save {t u : Sg} (h : SigFits t u) : u.load t.save = t := by
  obtain ⟨h1, h2, h3, h4, h5⟩ := h
  have ha : u.attrs.load u.lock t.attrs.save = t.attrs := by rw [← h2]; exact attrs_load_save h4
  cases t with
  | mk ti ta tl tp tq =>
    dsimp only at h1 h2 h3 h5
    unfold Sg.load Sg.save
    dsimp only
    congr 1
    · exact h1.symm
    · exact h2.symm
    · rw [← h3]
      cases tq with
      | true => exact (h5 rfl).symm
      | false => cases tp <;> rfl
    · exact h3.symm

theorem loadSig_other (l : List Sg) (d : DSg) (h : ∀ x ∈ l, x.id ≠ d.id) : loadSig l d = l := by
  unfold loadSig
  conv => rhs; rw [← List.map_id l]
  apply List.map_congr_left
  intro x hx
  rw [if_neg (h x hx)]
  rfl

theorem loadSig_append (a b : List Sg) (d : DSg) : loadSig (a ++ b) d = loadSig a d ++ loadSig b d := by
  simp [loadSig]

theorem sigs_load_aux : ∀ (ts us done : List Sg), List.Forall₂ SigFits ts us → (ts.map (·.id)).Nodup →
    (∀ x ∈ done, x.id ∉ ts.map (·.id)) →
    (ts.map Sg.save).foldl loadSig (done ++ us) = done ++ ts
  | [], _, done, .nil, _, _ => rfl
  | t :: ts, _, done, .cons (b := u) (l₂ := us) hf hr, hn, hd => by
    have hn' := List.nodup_cons.mp (by simpa using hn : (t.id :: ts.map (·.id)).Nodup)
    have hus : ∀ x ∈ us, x.id ≠ t.save.id := by
      intro x hx e
      have : us.map (·.id) = ts.map (·.id) := by
        clear hn hd hn' hx hf
        induction hr with
        | nil => rfl
        | cons h _ ih => simp [ih, h.1]
      have e' : x.id = t.id := e
      exact hn'.1 (this ▸ (e' ▸ List.mem_map_of_mem hx : t.id ∈ us.map (·.id)))
    have hstep : loadSig (done ++ u :: us) t.save = (done ++ [t]) ++ us := by
      rw [loadSig_append, loadSig_other done _ (fun x hx e => hd x hx (by simp [← (show t.save.id = t.id from rfl), ← e]))]
      have : loadSig (u :: us) t.save = t :: us := by
        have h0 : loadSig (u :: us) t.save = (if u.id = t.save.id then u.load t.save else u) :: loadSig us t.save := rfl
        rw [h0, loadSig_other us _ hus, if_pos (show u.id = t.save.id from hf.1.symm), sig_load_save hf]
      rw [this]; simp
    simp only [List.map_cons, List.foldl_cons]
    rw [hstep, sigs_load_aux ts us (done ++ [t]) hr hn'.2]
    · simp
    · intro x hx
      rcases List.mem_append.mp hx with hx | hx
      · exact fun h => hd x hx (by simp at h ⊢; exact .inr h)
      · obtain rfl := List.mem_singleton.mp hx
        exact hn'.1

theorem sigs_load {ts us : List Sg} (hf : List.Forall₂ SigFits ts us) (hn : (ts.map (·.id)).Nodup) :
    (ts.map Sg.save).foldl loadSig us = ts := by
  simpa using sigs_load_aux ts us [] hf hn (by simp)

theorem goes_iff (e outer h) : Head.goes e outer h = true ↔ Removable e outer h := by
  unfold Head.goes Removable
  cases e.avail outer h.typ <;> simp

theorem keep_eq (e outer) : ∀ u : Fbs, u.keep e outer = stay e outer u
  | .nil => rfl
  | .cons h k r => by
    unfold Fbs.keep stay
    rw [keep_eq e outer r]
    by_cases hr : Removable e outer h
    · rw [if_pos hr, if_pos ((goes_iff e outer h).mpr hr)]
    · rw [if_neg hr, if_neg (fun x => hr ((goes_iff e outer h).mp x))]

/-- What the ports of a function block were connected to when it was at `ps`; it is at `p` now. -/
def wantedHead (c : Conns) (ps p : Path) (h : Head) : List (Key × SigId) :=
  h.ports.filterMap fun x => (c.get (ps, x.id)).map fun s => ((p, x.id), s)

/-- What the ports of all function blocks were connected to. -/
def wanted (c : Conns) : Path → Path → Fbs → List (Key × SigId)
  | _, _, .nil => []
  | ps, p, .cons h k r =>
    wantedHead c (ps ++ [h.id]) (p ++ [h.id]) h ++ wanted c (ps ++ [h.id]) (p ++ [h.id]) k ++ wanted c ps p r

theorem notePorts_save (c : Conns) (ps p : Path) : ∀ l : List Port,
    notePorts p (l.map (Port.save c ps)) = l.filterMap fun x => (c.get (ps, x.id)).map fun s => ((p, x.id), s)
  | [] => rfl
  | x :: l => by
    simp only [List.map_cons, notePorts, List.filterMap_cons]
    have : (Port.save c ps x).sig = c.get (ps, x.id) := rfl
    rw [this]
    cases c.get (ps, x.id) with
    | none => simpa using notePorts_save c ps p l
    | some s => simpa [Port.save] using notePorts_save c ps p l

theorem drop_mem {c : Conns} {p : Path} {x : Key × SigId} :
    x ∈ c.drop p ↔ x ∈ c ∧ ¬ p <+: x.1.1 ∧ ¬ p <+: x.2.1 := by
  unfold Conns.drop
  rw [List.mem_filter, Bool.and_eq_true, Bool.not_eq_true', Bool.not_eq_true', ← Bool.not_eq_true, ← Bool.not_eq_true,
    List.isPrefixOf_iff_prefix, List.isPrefixOf_iff_prefix]

theorem dropGone_sub (e outer p) : ∀ (k : Fbs) (c : Conns) (x), x ∈ k.dropGone e outer p c → x ∈ c
  | .nil, _, _, h => h
  | .cons h _ r, c, x, hx => by
    have := dropGone_sub e outer p r _ x hx
    split at this
    · exact (drop_mem.mp this).1
    · exact this

theorem dropGone_added (e outer p) (q : Key × SigId → Path) (hq : ∀ x, q x = x.1.1 ∨ q x = x.2.1) :
    ∀ (k : Fbs) (c : Conns) (x : Key × SigId),
    x ∈ k.dropGone e outer p c → ¬ Added e (stay e outer k) outer p (q x) → ¬ Added e k outer p (q x)
  | .nil, _, _, _, _ => fun h => h
  | .cons h k r, c, x, hx, hn => by
    by_cases hr : Removable e outer h
    · have hg := (goes_iff e outer h).mpr hr
      simp only [Fbs.dropGone, if_pos hg] at hx
      simp only [stay, if_pos hr] at hn
      have ih := dropGone_added e outer p q hq r _ x hx hn
      have hm := drop_mem.mp (dropGone_sub e outer p r _ x hx)
      simp only [Added, if_pos hr]
      rintro (h' | h')
      · rcases hq x with e' | e'
        · exact hm.2.1 (e' ▸ h')
        · exact hm.2.2 (e' ▸ h')
      · exact ih h'
    · have hg : ¬ Head.goes e outer h = true := fun x => hr ((goes_iff e outer h).mp x)
      simp only [Fbs.dropGone, if_neg hg] at hx
      simp only [stay, if_neg hr, Added] at hn ⊢
      rintro (h' | h')
      · exact hn (.inl h')
      · exact dropGone_added e outer p q hq r _ x hx (fun y => hn (.inr y)) h'

/-- What a first pass leaves in the context. -/
structure CtxOk (c c' : Ctx) (want : List (Key × SigId)) (gone : Path → Prop) : Prop where
  pend : c'.pend = c.pend ++ want
  sub : ∀ x ∈ c'.conn, x ∈ c.conn
  gone : ∀ x ∈ c'.conn, ¬ gone x.1.1 ∧ ¬ gone x.2.1
  deps : ∀ x ∈ c'.deps, x ∈ c.deps ∨ x.2 = x.1.1

/-- The function blocks come back. -/
structure KidsOk (e : Env) (t : Fbs) (outer : String) (ps p : Path) (c0 : Conns) (u : Fbs) (c : Ctx)
    (res : Fbs × Ctx × Bool) (done : Fbs → Fbs) : Prop where
  ok : res.2.2 = true
  same : ∃ r, res.1 = done r ∧ SameFbs t r
  ctx : CtxOk c res.2.1 (wanted c0 ps p t) (Added e u outer p)

/-- One function block comes back. -/
structure NodeOk (e : Env) (t : Head) (tk : Fbs) (ps p : Path) (c0 : Conns) (u : Head) (uk : Fbs) (c : Ctx) (r : Res) : Prop where
  ok : r.ok = true
  inner : r.inner = true
  ident : r.head.id = u.id
  head : SameHead t r.head
  kids : SameFbs tk r.kids
  ctx : CtxOk c r.ctx (wantedHead c0 ps p t ++ wanted c0 ps p tk) (Added e uk u.typ p)

theorem node_ok {e : Env} {t u : Head} {tk uk : Fbs} {ps p : Path} {c0 : Conns} {c : Ctx}
    (hf : HeadFits t u)
    (ih : ∀ c', KidsOk e tk t.typ ps p c0 (stay e t.typ uk) c'
      (loadKids e (tk.save c0 ps) t.typ p (stay e t.typ uk) c') (fun r => r)) :
    NodeOk e t tk ps p c0 u uk c (loadNode e p u uk (t.save c0 ps) c (loadKids e (tk.save c0 ps))) := by
  have hp := load_save t.props u.props [] t.props.save hf.distinct hf.accepted hf.props (fun _ _ => rfl)
  have hsub : (t.save c0 ps).props = t.props.save := rfl
  have hports : notePorts p (t.save c0 ps).ports = wantedHead c0 ps p t := notePorts_save c0 ps p t.ports
  have ht : t.typ = u.typ := hf.typ
  unfold loadNode
  dsimp only
  rw [hsub, hports, keep_eq, ← ht]
  generalize hc1 : ({ c with conn := uk.dropGone e t.typ p c.conn, pend := c.pend ++ wantedHead c0 ps p t } : Ctx) = c1
  have ihc := ih c1
  generalize loadKids e (tk.save c0 ps) t.typ p (stay e t.typ uk) c1 = res at ihc
  obtain ⟨ok, ⟨r, hr, hsame⟩, ctx⟩ := ihc
  rw [if_pos ok]
  refine ⟨by simp [Res.ok, hp.1], rfl, rfl, ?_, by rw [hr]; exact hsame, ?_⟩
  · refine ⟨rfl, hf.cfg.symm, ?_, hf.lock.symm, hf.tags.symm, hp.2.1, hf.ports.symm, ?_⟩
    · have := hf.lock
      change u.attrs.load u.lock t.attrs.save = t.attrs
      rw [← hf.lock]; exact attrs_load_save hf.attrs
    · exact sigs_load hf.sigs hf.sigIds
  · refine ⟨?_, ?_, ?_, ?_⟩
    · rw [← List.append_assoc]
      change res.2.1.pend = _
      rw [ctx.pend, ← hc1]
    · intro x hx
      have := ctx.sub x hx
      rw [← hc1] at this
      exact dropGone_sub e t.typ p uk _ x this
    · intro x hx
      have hm := ctx.sub x hx
      rw [← hc1] at hm
      have hg := ctx.gone x hx
      rw [← ht]
      exact ⟨dropGone_added e t.typ p (fun x => x.1.1) (fun _ => .inl rfl) uk _ x hm hg.1,
        dropGone_added e t.typ p (fun x => x.2.1) (fun _ => .inr rfl) uk _ x hm hg.2⟩
    · intro x hx
      rcases List.mem_append.mp hx with hx | hx
      · rcases ctx.deps x hx with h | h
        · left; rw [← hc1] at h; exact h
        · exact .inr h
      · obtain ⟨y, _, rfl⟩ := List.mem_map.mp hx
        exact .inr rfl

/-- Function blocks one after the other. -/
def Fbs.append : Fbs → Fbs → Fbs
  | .nil, b => b
  | .cons h k r, b => .cons h k (r.append b)

theorem get_append_other (i : String) (b : Fbs) : ∀ a : Fbs, i ∉ ids a → (a.append b).get i = b.get i
  | .nil, _ => rfl
  | .cons h k r, hi => by
    have hi' : i ≠ h.id ∧ i ∉ ids r := by simpa [ids] using hi
    simp only [Fbs.append, Fbs.get, if_neg (Ne.symm hi'.1)]
    exact get_append_other i b r hi'.2

theorem put_append_other (i : String) (h' k' b) : ∀ a : Fbs, i ∉ ids a →
    Fbs.put i h' k' (a.append b) = a.append (Fbs.put i h' k' b)
  | .nil, _ => rfl
  | .cons h k r, hi => by
    have hi' : i ≠ h.id ∧ i ∉ ids r := by simpa [ids] using hi
    simp only [Fbs.append, Fbs.put, if_neg (Ne.symm hi'.1)]
    rw [put_append_other i h' k' b r hi'.2]

theorem add_append (h' k') : ∀ a : Fbs, Fbs.add h' k' (a.append .nil) = a.append (.cons h' k' .nil)
  | .nil => rfl
  | .cons h k r => by simp only [Fbs.append, Fbs.add]; rw [add_append h' k' r]

theorem append_assoc' (b c : Fbs) : ∀ a : Fbs, (a.append b).append c = a.append (b.append c)
  | .nil => rfl
  | .cons h k r => by simp only [Fbs.append]; rw [append_assoc' b c r]

theorem ids_append (b : Fbs) : ∀ a : Fbs, ids (a.append b) = ids a ++ ids b
  | .nil => rfl
  | .cons h k r => by simp only [Fbs.append, ids]; rw [ids_append b r]; rfl

theorem ids_stay_typ {e outer} {h : Head} (ha : e.avail outer h.typ = none) : ¬ Removable e outer h := fun x => x.1 ha

theorem CtxOk.trans {a b c : Ctx} {w1 w2 : List (Key × SigId)} {g1 g2 : Path → Prop}
    (h1 : CtxOk a b w1 g1) (h2 : CtxOk b c w2 g2) : CtxOk a c (w1 ++ w2) (fun q => g1 q ∨ g2 q) where
  pend := by rw [h2.pend, h1.pend, List.append_assoc]
  sub x hx := h1.sub x (h2.sub x hx)
  gone x hx := by
    have g1 := h1.gone x (h2.sub x hx)
    have g2 := h2.gone x hx
    exact ⟨fun h => h.elim g1.1 g2.1, fun h => h.elim g1.2 g2.2⟩
  deps x hx := by
    rcases h2.deps x hx with h | h
    · exact h1.deps x h
    · exact .inr h

theorem CtxOk.weaken {a b : Ctx} {w1 w2 : List (Key × SigId)} {g1 g2 : Path → Prop}
    (h : CtxOk a b w1 g1) (hw : w1 = w2) (hg : ∀ q, g2 q → g1 q) : CtxOk a b w2 g2 :=
  ⟨hw ▸ h.pend, h.sub, fun x hx => ⟨fun y => (h.gone x hx).1 (hg _ y), fun y => (h.gone x hx).2 (hg _ y)⟩, h.deps⟩

theorem kids_ok (e : Env) (c0 : Conns) : ∀ (t : Fbs) (outer : String) (ps p : Path) (done u : Fbs) (c : Ctx),
    Fits e t outer u → (∀ i ∈ ids t, i ∉ ids done) →
    KidsOk e t outer ps p c0 u c (loadKids e (t.save c0 ps) outer p (done.append u) c) done.append
  | .nil, outer, ps, p, done, u, c, hf, _ => by
    obtain rfl : u = .nil := hf
    exact ⟨rfl, ⟨.nil, rfl, trivial⟩, by simp [wanted, Fbs.save, loadKids], fun _ h => h,
      fun _ _ => ⟨fun h => h, fun h => h⟩, fun _ h => .inl h⟩
  | .cons h k r, outer, ps, p, done, u, c, hf, hd => by
    have hdone : h.id ∉ ids done := hd h.id (by simp [ids])
    have hnr : h.id ∉ ids r := hf.1
    have hf2 := hf.2
    have hid : (h.save c0 (ps ++ [h.id])).id = h.id := rfl
    have htyp : (h.save c0 (ps ++ [h.id])).typ = h.typ := rfl
    have hcfg : (h.save c0 (ps ++ [h.id])).cfg = h.cfg := rfl
    cases ha : e.avail outer h.typ with
    | none =>
      rw [ha] at hf2
      cases u with
      | nil => exact absurd hf2 id
      | cons h' k' r' =>
        obtain ⟨heq, hhf, hk, hr⟩ := hf2
        have node : NodeOk e h k (ps ++ [h.id]) (p ++ [h.id]) c0 h' k' c
            (loadNode e (p ++ [h.id]) h' k' (h.save c0 (ps ++ [h.id])) c (loadKids e (k.save c0 (ps ++ [h.id])))) :=
          node_ok hhf fun c' => kids_ok e c0 k h.typ (ps ++ [h.id]) (p ++ [h.id]) .nil _ c' hk (by simp [ids])
        simp only [Fbs.save, loadKids, hid, htyp, ha]
        rw [get_append_other _ _ _ hdone]
        have hget : (Fbs.cons h' k' r').get h.id = some (h', k') := by simp [Fbs.get, heq]
        rw [hget]
        dsimp only
        generalize loadNode e (p ++ [h.id]) h' k' (h.save c0 (ps ++ [h.id])) c (loadKids e (k.save c0 (ps ++ [h.id]))) = res at node
        rw [if_pos node.ok, put_append_other _ _ _ _ _ hdone]
        have hput : Fbs.put h.id res.head res.kids (.cons h' k' r') = .cons res.head res.kids r' := by simp [Fbs.put, heq]
        rw [hput]
        have hre : res.head.id = h.id := node.ident.trans heq.symm
        have hmove : done.append (.cons res.head res.kids r') = (done.append (.cons res.head res.kids .nil)).append r' := by
          rw [append_assoc']; rfl
        rw [hmove]
        have ih := kids_ok e c0 r outer ps p (done.append (.cons res.head res.kids .nil)) r' res.ctx hr (by
          intro i hi
          rw [ids_append, List.mem_append]
          rintro (h1 | h1)
          · exact hd i (by simp [ids, hi]) h1
          · simp only [ids, List.mem_singleton] at h1
            exact hnr (hre ▸ h1 ▸ hi))
        generalize loadKids e (r.save c0 ps) outer p ((done.append (.cons res.head res.kids .nil)).append r') res.ctx = fin at ih
        refine ⟨ih.ok, ?_, ?_⟩
        · obtain ⟨rr, hrr, hs⟩ := ih.same
          refine ⟨.cons res.head res.kids rr, ?_, hre, node.head, node.kids, hs⟩
          rw [hrr, append_assoc']; rfl
        · refine (node.ctx.trans ih.ctx).weaken ?_ ?_
          · simp [wanted, List.append_assoc]
          · intro q hq
            simp only [Added] at hq
            rw [if_neg (ids_stay_typ (by rw [← hhf.typ]; exact ha)), ← heq] at hq
            exact hq
    | some mk =>
      rw [ha] at hf2
      obtain ⟨rfl, hr, h', k', hmk, heq, hhf, hk⟩ := hf2
      have node : NodeOk e h k (ps ++ [h.id]) (p ++ [h.id]) c0 h' k' c
          (loadNode e (p ++ [h.id]) h' k' (h.save c0 (ps ++ [h.id])) c (loadKids e (k.save c0 (ps ++ [h.id])))) :=
        node_ok hhf fun c' => kids_ok e c0 k h.typ (ps ++ [h.id]) (p ++ [h.id]) .nil _ c' hk (by simp [ids])
      simp only [Fbs.save, loadKids, hid, htyp, hcfg, ha, hmk]
      rw [← heq, get_append_other _ _ _ hdone]
      have hget : (Fbs.nil).get h.id = none := rfl
      rw [hget]
      simp only [Option.isSome_none, Bool.false_eq_true, if_false]
      generalize loadNode e (p ++ [h.id]) h' k' (h.save c0 (ps ++ [h.id])) c (loadKids e (k.save c0 (ps ++ [h.id]))) = res at node
      rw [if_pos node.ok, add_append]
      have hre : res.head.id = h.id := node.ident.trans heq.symm
      have hmove : done.append (.cons res.head res.kids .nil) = (done.append (.cons res.head res.kids .nil)).append .nil := by
        rw [append_assoc']; rfl
      rw [hmove]
      have ih := kids_ok e c0 r outer ps p (done.append (.cons res.head res.kids .nil)) .nil res.ctx hr (by
        intro i hi
        rw [ids_append, List.mem_append]
        rintro (h1 | h1)
        · exact hd i (by simp [ids, hi]) h1
        · simp only [ids, List.mem_singleton] at h1
          exact hnr (hre ▸ h1 ▸ hi))
      generalize loadKids e (r.save c0 ps) outer p ((done.append (.cons res.head res.kids .nil)).append .nil) res.ctx = fin at ih
      refine ⟨ih.ok, ?_, ?_⟩
      · obtain ⟨rr, hrr, hs⟩ := ih.same
        refine ⟨.cons res.head res.kids rr, ?_, hre, node.head, node.kids, hs⟩
        rw [hrr, append_assoc']; rfl
      · refine (node.ctx.trans ih.ctx).weaken ?_ ?_
        · simp [wanted, List.append_assoc]
        · intro q hq
          simp only [Added] at hq

theorem fits_built_in {e : Env} {h h' : Head} {k r k' r' : Fbs} {outer : String} (ha : e.avail outer h.typ = none)
    (h1 : h.id ∉ ids r) (h2 : h.id = h'.id) (h3 : HeadFits h h') (h4 : Fits e k h.typ (stay e h.typ k')) (h5 : Fits e r outer r') :
    Fits e (.cons h k r) outer (.cons h' k' r') := by
  refine ⟨h1, ?_⟩
  rw [ha]
  exact ⟨h2, h3, h4, h5⟩

theorem fits_added {e : Env} {h h' : Head} {k r k' : Fbs} {outer : String} {mk} (ha : e.avail outer h.typ = some mk)
    (h1 : h.id ∉ ids r) (h0 : mk h.id h.cfg = some (h', k')) (h2 : h.id = h'.id) (h3 : HeadFits h h')
    (h4 : Fits e k h.typ (stay e h.typ k')) (h5 : Fits e r outer .nil) : Fits e (.cons h k r) outer .nil := by
  refine ⟨h1, ?_⟩
  rw [ha]
  exact ⟨rfl, h5, h', k', h0, h2, h3, h4⟩

end Verif.Config
