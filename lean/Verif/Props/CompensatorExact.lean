import Verif.Props.Compensator
/-! C55 exactly: which stored parameters leave every measurement as it is. -/

namespace NavFuse.Props.Comp
open Matrix NavFuse.Compensator NavFuse.XR

theorem errModel_identity (b : V3 ℝ) (m : Fin 6 → ℝ) (sf : V3 ℝ) : (∀ x, errModel m sf *ᵥ (x - b) = x) ↔ b = 0 ∧ m = 0 ∧ sf = 1 := by
  constructor
  · intro h
    have hb : b = 0 := by have := h b; rw [sub_self, mulVec_zero] at this; exact this.symm
    subst hb
    have he : errModel m sf = 1 := by
      apply ext_of_mulVec_single
      intro i
      rw [one_mulVec]
      simpa using h (Pi.single i 1)
    have e : ∀ i j, errModel m sf i j = (1 : M3 ℝ) i j := fun i j => by rw [he]
    have d0 := e 0 0; have d1 := e 1 1; have d2 := e 2 2
    have o01 := e 0 1; have o02 := e 0 2; have o10 := e 1 0; have o12 := e 1 2; have o20 := e 2 0; have o21 := e 2 1
    simp [errModel, diagonal_mul] at d0 d1 d2 o01 o02 o10 o12 o20 o21
    rw [d0] at o01 o02; rw [d1] at o10 o12; rw [d2] at o20 o21
    refine ⟨rfl, ?_, ?_⟩
    · ext i; fin_cases i <;> simp_all
    · ext i; fin_cases i <;> simp_all
  · rintro ⟨rfl, rfl, rfl⟩ x
    have h1 : (!![1, (0 : Fin 6 → ℝ) 0, (0 : Fin 6 → ℝ) 1; (0 : Fin 6 → ℝ) 2, 1, (0 : Fin 6 → ℝ) 3; (0 : Fin 6 → ℝ) 4, (0 : Fin 6 → ℝ) 5, 1] : M3 ℝ) = 1 := by
      ext i j; fin_cases i <;> fin_cases j <;> rfl
    rw [errModel, h1, Matrix.mul_one, show (Matrix.diagonal (1 : V3 ℝ)) = 1 from Matrix.diagonal_one, one_mulVec, sub_zero]

theorem finV_injective {n : ℕ} {u v : Fin n → ℝ} (h : (finV u : Fin n → XR) = finV v) : u = v := by
  ext i; simpa [finV_apply] using congrFun h i

/-- C55, exactly: after a sensor was calibrated with finite parameters, compensation leaves all its measurements alone if and only if the bias and the
misalignments are zero and the three scale factors are one. -/
theorem C55_characterised (s : St XR) (b : V3 ℝ) (m : Fin 6 → ℝ) (sf : V3 ℝ) :
    (s.ba = some (finV b) → s.ma = ⟨6, finV m⟩ → s.sfa = some (finV sf) →
      ((∀ x : V3 ℝ, compensateAccelerometer s (finV x) = .ok (true, finV x)) ↔ b = 0 ∧ m = 0 ∧ sf = 1))
    ∧ (s.bg = some (finV b) → s.mg = ⟨6, finV m⟩ → s.sfg = some (finV sf) →
      ((∀ x : V3 ℝ, compensateGyroscope s (finV x) = .ok (true, finV x)) ↔ b = 0 ∧ m = 0 ∧ sf = 1)) := by
  refine ⟨fun h1 h2 h3 => ?_, fun h1 h2 h3 => ?_⟩
  · rw [← errModel_identity]
    refine forall_congr' fun x => ?_
    rw [accel_eval s _ _ _ _ h1 h2 h3, comp_X]
    exact ⟨fun h => finV_injective (Prod.mk.inj (Except.ok.inj h)).2, fun h => by rw [h]⟩
  · rw [← errModel_identity]
    refine forall_congr' fun x => ?_
    rw [gyro_eval s _ _ _ _ h1 h2 h3, comp_X]
    exact ⟨fun h => finV_injective (Prod.mk.inj (Except.ok.inj h)).2, fun h => by rw [h]⟩

/-- the stored parameters are whatever the setter was given: both outcomes are reached -/
example (sf : V3 ℝ) : ∃ s', run ({} : St XR) [.setA (finV 0, ⟨6, finV 0⟩, finV sf)] = .ok s'
    ∧ s'.ba = some (finV 0) ∧ s'.ma = ⟨6, finV 0⟩ ∧ s'.sfa = some (finV sf) := ⟨_, rfl, rfl, rfl, rfl⟩

end NavFuse.Props.Comp
