import Verif.Lemmas.SumOrder

/-! # Sums of one and two terms, and sums of three doubles case by case -/

namespace NavFuse
section
variable {α : Type} [Add α] [Sub α] [Mul α] [Div α] [Neg α] [Flt α]

omit [Sub α] [Mul α] [Div α] [Neg α] in
theorem fsum_one (f : Fin 1 → α) : fsum f = f 0 := by
  show ((Flt.order α).tree 0).eval f = f 0
  have h := ((Flt.order α).perm 0).length_eq
  rw [List.length_finRange] at h
  obtain ⟨i, e⟩ := SumTree.eq_leaf h
  rw [e, SumTree.eval, Fin.fin_one_eq_zero i]

omit [Sub α] [Mul α] [Div α] [Neg α] in
/-- two terms: the order does not matter if the addition commutes -/
theorem fsum_two (hc : ∀ a b : α, a + b = b + a) (f : Fin 2 → α) : fsum f = f 0 + f 1 := by
  show ((Flt.order α).tree 1).eval f = _
  have hp := (Flt.order α).perm 1
  obtain ⟨i, j, e⟩ := SumTree.eq_pair (by rw [hp.length_eq, List.length_finRange])
  rw [e] at hp ⊢
  have hn := hp.nodup_iff.2 (List.nodup_finRange 2)
  simp only [SumTree.leaves, SumTree.eval, List.cons_append, List.nil_append, List.nodup_cons, List.mem_singleton] at hn ⊢
  have : (i = 0 ∧ j = 1) ∨ (i = 1 ∧ j = 0) := by
    have := hn.1
    clear e hp hn
    revert i j
    decide
  rcases this with ⟨rfl, rfl⟩ | ⟨rfl, rfl⟩
  · rfl
  · exact hc _ _
end

variable [Machine] {r : ℝ → ℝ}

/-- three doubles added in any order: it is enough to look at the three choices of the term that is added last -/
theorem Dbl.fsum3_of {f : Fin 3 → Dbl r} {c : Dbl r} (h0 : f 0 + f 1 + f 2 = c) (h1 : f 0 + f 2 + f 1 = c) (h2 : f 1 + f 2 + f 0 = c) : fsum f = c := by
  rw [Dbl.fsum3]
  have key : ∀ σ : Equiv.Perm (Fin 3), (σ 2 = 2 ∧ (σ 0 = 0 ∧ σ 1 = 1 ∨ σ 0 = 1 ∧ σ 1 = 0)) ∨ (σ 2 = 1 ∧ (σ 0 = 0 ∧ σ 1 = 2 ∨ σ 0 = 2 ∧ σ 1 = 0))
      ∨ (σ 2 = 0 ∧ (σ 0 = 1 ∧ σ 1 = 2 ∨ σ 0 = 2 ∧ σ 1 = 1)) := by decide
  rcases key ord3 with ⟨e, ⟨e0, e1⟩ | ⟨e0, e1⟩⟩ | ⟨e, ⟨e0, e1⟩ | ⟨e0, e1⟩⟩ | ⟨e, ⟨e0, e1⟩ | ⟨e0, e1⟩⟩ <;> rw [e, e0, e1]
  · exact h0
  · rw [Dbl.add_comm (f 1)]; exact h0
  · exact h1
  · rw [Dbl.add_comm (f 2)]; exact h1
  · exact h2
  · rw [Dbl.add_comm (f 2)]; exact h2

end NavFuse
