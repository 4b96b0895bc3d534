import Verif.Dbl
import Mathlib.Data.Fintype.Perm

/-! # Sums of three terms in any order of evaluation -/

namespace NavFuse

theorem SumTree.leaves_length_pos {ι : Type} (t : SumTree ι) : 0 < t.leaves.length := by
  induction t with
  | leaf i => simp [SumTree.leaves]
  | node s t hs ht => simp only [SumTree.leaves, List.length_append]; omega

theorem SumTree.eq_leaf {ι : Type} {t : SumTree ι} (h : t.leaves.length = 1) : ∃ i, t = .leaf i := by
  cases t with
  | leaf i => exact ⟨i, rfl⟩
  | node s t =>
    have h1 := s.leaves_length_pos
    have h2 := t.leaves_length_pos
    simp only [SumTree.leaves, List.length_append] at h
    omega

theorem SumTree.eq_pair {ι : Type} {t : SumTree ι} (h : t.leaves.length = 2) : ∃ i j, t = .node (.leaf i) (.leaf j) := by
  cases t with
  | leaf i => simp [SumTree.leaves] at h
  | node s t =>
    have h1 := s.leaves_length_pos
    have h2 := t.leaves_length_pos
    simp only [SumTree.leaves, List.length_append] at h
    obtain ⟨i, rfl⟩ := s.eq_leaf (by omega)
    obtain ⟨j, rfl⟩ := t.eq_leaf (by omega)
    exact ⟨i, j, rfl⟩

theorem perm_of_list3 {i j k : Fin 3} (h : [i, j, k].Perm (List.finRange 3)) : ∃ σ : Equiv.Perm (Fin 3), σ 0 = i ∧ σ 1 = j ∧ σ 2 = k := by
  have hn := h.nodup_iff.2 (List.nodup_finRange 3)
  revert hn; clear h
  revert i j k
  decide

/-- three terms are added in one of the twelve possible ways -/
theorem SumOrder.three (o : SumOrder) : ∃ σ : Equiv.Perm (Fin 3), ∀ {α : Type} [Add α], (∀ a b : α, a + b = b + a) →
    ∀ f : Fin 3 → α, (o.tree 2).eval f = f (σ 0) + f (σ 1) + f (σ 2) := by
  have hp := o.perm 2
  have hl := hp.length_eq
  generalize o.tree 2 = t at *
  simp only [List.length_finRange] at hl
  cases t with
  | leaf i => simp [SumTree.leaves] at hl
  | node s t =>
    have h1 := s.leaves_length_pos
    have h2 := t.leaves_length_pos
    simp only [SumTree.leaves, List.length_append] at hl
    rcases (show s.leaves.length = 1 ∨ s.leaves.length = 2 by omega) with e | e
    · obtain ⟨i, rfl⟩ := s.eq_leaf e
      obtain ⟨j, k, rfl⟩ := t.eq_pair (by simp [SumTree.leaves] at hl; omega)
      simp only [SumTree.leaves, List.cons_append, List.nil_append] at hp
      have hp' : [j, k, i].Perm (List.finRange 3) := (List.perm_append_comm (l₁ := [j, k]) (l₂ := [i])).trans hp
      obtain ⟨σ, rfl, rfl, rfl⟩ := perm_of_list3 hp'
      exact ⟨σ, fun hc f => hc _ _⟩
    · obtain ⟨i, j, rfl⟩ := s.eq_pair e
      obtain ⟨k, rfl⟩ := t.eq_leaf (by simp [SumTree.leaves] at hl; omega)
      simp only [SumTree.leaves, List.cons_append, List.nil_append] at hp
      obtain ⟨σ, rfl, rfl, rfl⟩ := perm_of_list3 hp
      exact ⟨σ, fun hc f => rfl⟩

variable [Machine] {r : ℝ → ℝ}

/-- the order in which this machine adds three terms -/
noncomputable def ord3 : Equiv.Perm (Fin 3) := (Machine.order.three).choose

omit [Machine] in
theorem Rnd.add_comm (a b : Rnd r) : a + b = b + a := congrArg Rnd.mk (congrArg r (_root_.add_comm _ _))
omit [Machine] in
theorem Dbl.add_comm (a b : Dbl r) : a + b = b + a := congrArg (Dbl.rd r) (XR.add_comm _ _)

theorem Rnd.fsum3' (f : Fin 3 → Rnd r) : fsum f = f (ord3 0) + f (ord3 1) + f (ord3 2) := (Machine.order.three).choose_spec Rnd.add_comm f
theorem Dbl.fsum3 (f : Fin 3 → Dbl r) : fsum f = f (ord3 0) + f (ord3 1) + f (ord3 2) := (Machine.order.three).choose_spec Dbl.add_comm f

theorem Rnd.fsum3 (f : Fin 3 → Rnd r) : (fsum f).val = r (r ((f (ord3 0)).val + (f (ord3 1)).val) + (f (ord3 2)).val) := by
  rw [Rnd.fsum3']; rfl

theorem sum_ord3 (f : Fin 3 → ℝ) : f (ord3 0) + f (ord3 1) + f (ord3 2) = f 0 + f 1 + f 2 := by
  rw [← Fin.sum_univ_three (fun i => f (ord3 i)), Equiv.sum_comp ord3 f, Fin.sum_univ_three]

end NavFuse
