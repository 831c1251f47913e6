import Verif.Values.Dict
import Verif.Values.JsonSpec
import Verif.Values.JsonId

/-! # Values survive being written and read -/

namespace Verif.Values

open Spec Verif.CoreTypes

theorem isInt64_of {i : Int} (h : Is64 i) : isInt64 i = true := by
  unfold Is64 at h; simp only [isInt64, Bool.and_eq_true, decide_eq_true_eq]; omega

theorem cstr_ne (s : List UInt8) (h : 0 ∉ s) : cstr s = s := cstr_of s h

/-- The content of a key does not depend on addresses. -/
theorem keyOf_shape (t : Bool) (k : V) (h : ∀ a, k ≠ .obj a) : keyOf (shape t k) = keyOf k := by
  cases k <;> simp only [shape, keyOf]
  case str a s => cases s <;> rfl
  case obj a => exact absurd rfl (h a)

theorem shape_obj {t : Bool} {x : V} {a : Nat} (h : shape t x = .obj a) : ∃ b, x = .obj b := by
  cases x <;> simp only [shape, reduceCtorEq] at h
  exact ⟨_, rfl⟩

theorem keyOf_same {t t' : Bool} {k k' : V} (h : ∀ a, k ≠ .obj a) (e : shape t k' = shape t' k) : keyOf k' = keyOf k := by
  have h' : ∀ a, k' ≠ .obj a := by
    rintro a rfl
    obtain ⟨b, hb⟩ := shape_obj (e.symm.trans (rfl : shape t (.obj a) = .obj 0))
    exact h b hb
  rw [← keyOf_shape t k' h', e, keyOf_shape t' k h]

theorem KL.ext {l m : KL} (h : l.toList = m.toList) : l = m := by
  match l, m with
  | .nil, .nil => rfl
  | .nil, .cons _ _ _ => simp [KL.toList] at h
  | .cons _ _ _, .nil => simp [KL.toList] at h
  | .cons k v r, .cons k' v' r' =>
    simp only [KL.toList, List.cons.injEq, Prod.mk.injEq] at h
    rw [h.1.1, h.1.2, KL.ext h.2]

theorem unknown_any : unknownId = anyId := rfl

/-- The element type as it is read back. -/
theorem readId_skip (name n' : String) (j : J) (m : JM) (h : n' ≠ name) : readId name (.cons n' j m) = readId name m := by
  simp only [readId, JM.find, if_neg h]

theorem readId_here (name : String) (i : Iid) (m : JM) : readId name (.cons name (.str i.text) m) = .ok i := by
  simp only [readId, JM.find, if_true, cstr_ne _ (text_ne i), ofText_text]

theorem readId_nil (name : String) : readId name .nil = .ok unknownId := rfl

/-- The identifier is read back, or the one of any object when it was not written. -/
theorem readId_member (ver : Int) (name : String) (i : Iid) (m : JM) (h : readId name m = .ok unknownId) :
    readId name (idMember ver name i m) = .ok (if decide (1 < ver) then i else anyId) := by
  unfold idMember
  by_cases h1 : 1 < ver
  · by_cases h2 : i = unknownId
    · simp [h1, h2, h, unknown_any]
    · simp [h1, h2, readId_here]
  · simp [h1, h, unknown_any]

theorem readId_other (ver : Int) (name n' : String) (i : Iid) (m : JM) (h : n' ≠ name) :
    readId name (idMember ver n' i m) = readId name m := by
  unfold idMember
  split
  · exact readId_skip _ _ _ _ h
  · rfl

variable {hd : Fl → Nat} {rt : Fl → Fl}

theorem deValues_skip (n' : String) (j : J) (m : JM) (n : Nat) (h : n' ≠ "values") :
    deValues hd rt (.cons n' j m) n = deValues hd rt m n := by cases j <;> rw [deValues, if_neg h] <;> simp

theorem dePairs_skip (n' : String) (j : J) (m : JM) (n : Nat) (h : n' ≠ "values") :
    dePairs hd rt (.cons n' j m) n = dePairs hd rt m n := by cases j <;> rw [dePairs, if_neg h] <;> simp

theorem deValues_here (l : JL) (m : JM) (n : Nat) : deValues hd rt (.cons "values" (.arr l) m) n = deItems hd rt l n := by
  rw [deValues, if_pos rfl]

theorem dePairs_here (l : JL) (m : JM) (n : Nat) : dePairs hd rt (.cons "values" (.arr l) m) n = deEntries hd rt l .nil n := by
  rw [dePairs, if_pos rfl]

theorem deValues_member (ver : Int) (n' : String) (i : Iid) (m : JM) (n : Nat) (h : n' ≠ "values") :
    deValues hd rt (idMember ver n' i m) n = deValues hd rt m n := by
  unfold idMember
  split
  · exact deValues_skip _ _ _ _ h
  · rfl

theorem dePairs_member (ver : Int) (n' : String) (i : Iid) (m : JM) (n : Nat) (h : n' ≠ "values") :
    dePairs hd rt (idMember ver n' i m) n = dePairs hd rt m n := by
  unfold idMember
  split
  · exact dePairs_skip _ _ _ _ h
  · rfl

theorem readTag_list (m : JM) : readTag (.cons "__type" (.str tagList) m) = .ok .list := by
  simp only [readTag, JM.find, if_true]; decide +kernel
theorem readTag_dict (m : JM) : readTag (.cons "__type" (.str tagDict) m) = .ok .dict := by
  simp only [readTag, JM.find, if_true]; decide +kernel
theorem readTag_ratio (m : JM) : readTag (.cons "__type" (.str tagRatio) m) = .ok .ratio := by
  simp only [readTag, JM.find, if_true]; decide +kernel
theorem readTag_cplx (m : JM) : readTag (.cons "__type" (.str tagCplx) m) = .ok .cplx := by
  simp only [readTag, JM.find, if_true]; decide +kernel

/-- A key that is not there yet is put at the end. -/
theorem readSet_fresh (hh : HashOk hd) (acc : KL) (k v : V) (hk : (keyOf k).isSome)
    (ha : ∀ p ∈ acc.toList, (keyOf p.1).isSome) (hn : ∀ p ∈ acc.toList, keyOf p.1 ≠ keyOf k) :
    readSet hd acc k v = .ok (acc.push k v) := by
  have h0 : k ≠ .null := by rintro rfl; simp [keyOf] at hk
  have h1 : (acc.toList.find? fun p => sameKey p.1 k) = none := by
    rw [List.find?_eq_none]
    intro p hp
    simp [sameKey, hn p hp]
  have h2 : acc.lookup hd k = some none := by rw [lookup_eq hh k hk acc ha, h1]; rfl
  simp only [readSet, Dict.set, h0, if_false, h2, Bool.false_eq_true]

theorem key_ser (k : V) (h : ∀ a, k ≠ .obj a) (j : J) : serKey k (.ok j) = .ok j := by
  cases k <;> first | rfl | exact absurd rfl (h _)

theorem storable_obj {k : V} (h : Storable rt k) (a : Nat) : k ≠ .obj a := by rintro rfl; simp [Storable] at h

mutual
theorem round (hh : HashOk hd) (ver : Int) (x : V) (h : Storable rt x) :
    ∃ j, ser ver x = .ok j ∧ ∀ n, ∃ x' n', de hd rt j n = .ok (x', n') ∧ shape true x' = shape (decide (1 < ver)) x := by
  match x with
  | .null => exact ⟨_, by rw [ser], fun n => ⟨_, _, by rw [de], rfl⟩⟩
  | .bool _ b => exact ⟨_, by rw [ser], fun n => ⟨_, _, by rw [de], rfl⟩⟩
  | .int _ i =>
    simp only [Storable] at h
    refine ⟨_, by rw [ser], fun n => ⟨.int n i, n + 1, ?_, rfl⟩⟩
    rw [de, isInt64_of h]; rfl
  | .float _ f =>
    simp only [Storable] at h
    refine ⟨_, by rw [ser], fun n => ⟨.float n (rt f), n + 1, by rw [de], ?_⟩⟩
    rw [h]; rfl
  | .str _ none => simp [Storable] at h
  | .str _ (some s) =>
    simp only [Storable] at h
    refine ⟨_, by rw [ser], fun n => ⟨.str n (some (cstr s)), n + 1, by rw [de]; rfl, ?_⟩⟩
    rw [cstr_ne s h]; rfl
  | .ratio _ p q =>
    simp only [Storable] at h
    refine ⟨_, by rw [ser], fun n => ⟨.ratio n p q, n + 1, ?_, rfl⟩⟩
    rw [de, readTag_ratio]
    simp only [readRatio, readIntOrThrow, JM.find, isInt64_of h.1, isInt64_of h.2.1, h.2.2, String.reduceEq, if_true, if_false]
  | .cplx _ re im =>
    simp only [Storable] at h
    refine ⟨_, by rw [ser], fun n => ⟨.cplx n (rt re) (rt im), n + 1, ?_, ?_⟩⟩
    · rw [de, readTag_cplx]
      simp only [readCplx, JM.find, String.reduceEq, if_true, if_false]
    · rw [h.1, h.2]; rfl
  | .obj _ => simp [Storable] at h
  | .list _ iid xs =>
    simp only [Storable] at h
    obtain ⟨l, h1, h2⟩ := roundL hh ver xs h
    refine ⟨listFrame ver iid l, by rw [ser, h1]; rfl, fun n => ?_⟩
    obtain ⟨xs', n', h3, h4⟩ := h2 n
    by_cases hv : 1 < ver
    · refine ⟨.list n' iid xs', n' + 1, ?_, ?_⟩
      · rw [listFrame, if_pos hv, de, readTag_list]
        dsimp only
        rw [readId_skip _ _ _ _ (by decide), readId_member _ _ _ _ (by rw [readId_skip _ _ _ _ (by decide)]; rfl),
          deValues_skip _ _ _ _ (by decide), deValues_member _ _ _ _ _ (by decide), deValues_here]
        simp only [h3, mkList, hv, decide_true, if_true]
      · simp only [shape, hv, decide_true, if_true] at *
        rw [h4]
    · refine ⟨.list n' unknownId xs', n' + 1, ?_, ?_⟩
      · rw [listFrame, if_neg hv, de, h3]
      · simp only [shape, hv, decide_false, if_true, Bool.false_eq_true, if_false] at *
        rw [h4]; rfl
  | .dict _ kid vid kvs =>
    simp only [Storable] at h
    obtain ⟨l, h1, h2⟩ := roundK hh ver kvs h.1 h.2
    refine ⟨dictFrame ver kid vid l, by rw [ser, h1]; rfl, fun n => ?_⟩
    obtain ⟨r, n', kvs', h3, h4, h5⟩ := h2 .nil n (by simp [KL.toList]) (by simp [KL.toList])
    have h6 : r = kvs' := KL.ext h4
    subst h6
    refine ⟨.dict n' (if decide (1 < ver) then kid else anyId) (if decide (1 < ver) then vid else anyId) r, n' + 1, ?_, ?_⟩
    · rw [dictFrame, de, readTag_dict]
      dsimp only
      rw [readId_skip _ _ _ _ (by decide),
        readId_member _ _ _ _ (by rw [readId_other _ _ _ _ _ (by decide), readId_skip _ _ _ _ (by decide)]; rfl),
        readId_skip _ _ _ _ (by decide), readId_other _ _ _ _ _ (by decide),
        readId_member _ _ _ _ (by rw [readId_skip _ _ _ _ (by decide)]; rfl),
        dePairs_skip _ _ _ _ (by decide), dePairs_member _ _ _ _ _ (by decide), dePairs_member _ _ _ _ _ (by decide),
        dePairs_here]
      simp only [h3, mkDict]
    · simp only [shape, if_true, h5]
theorem roundL (hh : HashOk hd) (ver : Int) (xs : VL) (h : StorableL rt xs) :
    ∃ l, serItems ver xs = .ok l ∧ ∀ n, ∃ xs' n', deItems hd rt l n = .ok (xs', n') ∧
      shapeL true xs' = shapeL (decide (1 < ver)) xs := by
  match xs with
  | .nil => exact ⟨.nil, by rw [serItems], fun n => ⟨.nil, n, by rw [deItems], rfl⟩⟩
  | .cons x xs =>
    simp only [StorableL] at h
    obtain ⟨j, h1, h2⟩ := round hh ver x h.1
    obtain ⟨l, h3, h4⟩ := roundL hh ver xs h.2
    refine ⟨.cons j l, by rw [serItems, h1, h3]; rfl, fun n => ?_⟩
    obtain ⟨x', n', h5, h6⟩ := h2 n
    obtain ⟨xs', n'', h7, h8⟩ := h4 n'
    exact ⟨.cons x' xs', n'', by simp only [deItems, h5, h7], by simp only [shapeL, h6, h8]⟩
theorem roundK (hh : HashOk hd) (ver : Int) (kvs : KL) (h : StorableK rt kvs) (hn : (keysOf kvs).Nodup) :
    ∃ l, serEntries ver kvs = .ok l ∧ ∀ acc n, (∀ p ∈ acc.toList, (keyOf p.1).isSome) →
      (∀ p ∈ acc.toList, keyOf p.1 ∉ keysOf kvs) → ∃ r n' kvs', deEntries hd rt l acc n = .ok (r, n') ∧
        r.toList = acc.toList ++ kvs'.toList ∧ shapeK true kvs' = shapeK (decide (1 < ver)) kvs := by
  match kvs with
  | .nil =>
    exact ⟨.nil, by rw [serEntries], fun acc n _ _ => ⟨acc, n, .nil, by rw [deEntries], by simp [KL.toList], rfl⟩⟩
  | .cons k v r =>
    simp only [StorableK] at h
    simp only [keysOf, List.nodup_cons] at hn
    obtain ⟨hk, hsk, hsv, hsr⟩ := h
    obtain ⟨jk, h1, h2⟩ := round hh ver k hsk
    obtain ⟨jv, h3, h4⟩ := round hh ver v hsv
    obtain ⟨l, h5, h6⟩ := roundK hh ver r hsr hn.2
    refine ⟨.cons (.obj (.cons "key" jk (.cons "value" jv .nil))) l, ?_, ?_⟩
    · rw [serEntries, h1, key_ser k (storable_obj hsk), h3, h5]; rfl
    · intro acc n ha hd'
      obtain ⟨k', n1, e1, e2⟩ := h2 n
      obtain ⟨v', n2, e3, e4⟩ := h4 n1
      have ek : keyOf k' = keyOf k := keyOf_same (storable_obj hsk) e2
      have hk' : (keyOf k').isSome := by rw [ek]; exact hk
      have hs : readSet hd acc k' v' = .ok (acc.push k' v') := by
        refine readSet_fresh hh acc k' v' hk' ha fun p hp e => hd' p hp ?_
        rw [e, ek]; simp [keysOf]
      obtain ⟨r', n3, kvs', e5, e6, e7⟩ := h6 (acc.push k' v') n2
        (by
          rw [push_toList]
          intro p hp
          rcases List.mem_append.mp hp with hp | hp
          · exact ha p hp
          · rw [List.mem_singleton.mp hp]; exact hk')
        (by
          rw [push_toList]
          intro p hp
          rcases List.mem_append.mp hp with hp | hp
          · intro e; exact hd' p hp (by simp [keysOf, e])
          · rw [List.mem_singleton.mp hp]; rw [ek]; exact hn.1)
      refine ⟨r', n3, .cons k' v' kvs', ?_, ?_, ?_⟩
      · simp only [deEntries, deMember, String.reduceEq, if_true, if_false, e1, e3, hs, e5]
      · rw [e6, push_toList]; simp [KL.toList]
      · simp only [shapeK, e2, e4, e7]
end

end Verif.Values
