import Verif.Loading.Steps

/-! # The connection string to connect with -/

namespace Verif.Loading

variable {C : Type}

theorem find?_known (avail : List Info) (man ser : String) (a : Info) (h : avail.find? (fun i => i.man = man ∧ i.ser = ser) = some a) :
    ∃ before after, avail = before ++ a :: after ∧ a.man = man ∧ a.ser = ser ∧ ∀ b ∈ before, ¬ (b.man = man ∧ b.ser = ser) := by
  obtain ⟨hp, before, after, he, hb⟩ := List.find?_eq_some_iff_append.1 h
  have hp' : a.man = man ∧ a.ser = ser := by simpa using hp
  refine ⟨before, after, he, hp'.1, hp'.2, fun b hm => ?_⟩
  have := hb b hm
  rintro ⟨h1, h2⟩
  simp [h1, h2] at this

theorem discover_known (avail : List Info) (i a : Info) : discover avail i.man i.ser = some a ↔ Spec.Known avail i a := by
  unfold discover Spec.Known
  by_cases h : i.man ≠ "" ∧ i.ser ≠ ""
  · rw [if_pos h]
    constructor
    · intro hf
      exact ⟨h.1, h.2, find?_known avail _ _ a hf⟩
    · rintro ⟨_, _, before, after, he, h1, h2, hb⟩
      refine List.find?_eq_some_iff_append.2 ⟨by simp [h1, h2], before, after, he, fun b hm => ?_⟩
      have := hb b hm
      simp only [Bool.not_eq_true', decide_eq_false_iff_not]
      exact this
  · rw [if_neg h]
    constructor
    · intro hf
      cases hf
    · rintro ⟨h1, h2, _⟩
      exact absurd ⟨h1, h2⟩ h

/-- Which information the target is found with. -/
theorem conn_with (avail : List Info) (i : Info) :
    Spec.Conn avail i (match discover avail i.man i.ser with
      | some a => { i with conn := a.conn }
      | none => i).conn := by
  cases h : discover avail i.man i.ser with
  | some a => exact Or.inl ⟨a, (discover_known avail i a).1 h, rfl⟩
  | none =>
    refine Or.inr ⟨fun a ha => ?_, rfl⟩
    rw [(discover_known avail i a).2 ha] at h
    cases h

theorem conn_unique (avail : List Info) (i : Info) (x y : String) (hx : Spec.Conn avail i x) (hy : Spec.Conn avail i y) : x = y := by
  rcases hx with ⟨a, ha, rfl⟩ | ⟨hn, rfl⟩
  · rcases hy with ⟨b, hb, rfl⟩ | ⟨hn, _⟩
    · have h1 := (discover_known avail i a).2 ha
      have h2 := (discover_known avail i b).2 hb
      rw [h1] at h2
      cases h2
      rfl
    · exact absurd ha (hn a)
  · rcases hy with ⟨b, hb, _⟩ | ⟨_, rfl⟩
    · exact absurd hb (hn b)
    · rfl

theorem target_conn (c : Ctx C) (h : Spec.NoRemap c.opts) (id : String) (d : Saved C) :
    Spec.Conn c.avail d.info (target c id d).conn := by
  unfold target
  cases ho : c.opts.get id with
  | none => exact conn_with c.avail d.info
  | some o =>
    dsimp only
    rw [if_neg (h id o ho)]
    exact conn_with c.avail d.info

theorem target_goal (c : Ctx C) (id : String) (d : Saved C) (i : Info) (h : Spec.Goal c.opts c.avail id i) : target c id d = i := by
  obtain ⟨o, ho, hm, h1, h2, h3⟩ := h
  have hc : Spec.Conn c.avail o.new (target c id d).conn := by
    unfold target
    rw [ho]
    dsimp only
    rw [if_pos hm]
    exact conn_with c.avail o.new
  have he := conn_unique _ _ _ _ hc h3
  have hman : (target c id d).man = o.new.man ∧ (target c id d).ser = o.new.ser := by
    unfold target
    rw [ho]
    dsimp only
    rw [if_pos hm]
    cases discover c.avail o.new.man o.new.ser <;> exact ⟨rfl, rfl⟩
  cases i
  cases htt : target c id d
  rw [htt] at he hman
  simp_all

end Verif.Loading
