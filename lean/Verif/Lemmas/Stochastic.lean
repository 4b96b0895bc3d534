import Verif.Spec.Stochastic

/-! Bilinearity of second moments of square-integrable random vectors. -/

namespace NavFuse.Spec
open Matrix MeasureTheory

variable {Ω : Type} [MeasurableSpace Ω] {μ : Measure Ω} {n m k : ℕ}

/-- all components square integrable -/
def L2V (μ : Measure Ω) (a : Ω → Fin n → ℝ) : Prop := ∀ i, MemLp (fun ω => a ω i) 2 μ

theorem corr_int {f g : Ω → ℝ} (hf : MemLp f 2 μ) (hg : MemLp g 2 μ) : Integrable (fun ω => f ω * g ω) μ := hf.integrable_mul hg

theorem corr_comm (f g : Ω → ℝ) : corr μ f g = corr μ g f := by simp only [corr, mul_comm]

theorem L2V.add {a b : Ω → Fin n → ℝ} (ha : L2V μ a) (hb : L2V μ b) : L2V μ fun ω => a ω + b ω := fun i => (ha i).add (hb i)
theorem L2V.sub {a b : Ω → Fin n → ℝ} (ha : L2V μ a) (hb : L2V μ b) : L2V μ fun ω => a ω - b ω := fun i => (ha i).sub (hb i)

theorem L2V.mulVec (A : Matrix (Fin k) (Fin n) ℝ) {a : Ω → Fin n → ℝ} (ha : L2V μ a) : L2V μ fun ω => A *ᵥ a ω := by
  intro i
  simp only [Matrix.mulVec, dotProduct]
  exact memLp_finsetSum _ fun j _ => (ha j).const_mul _

theorem sm_tr (a : Ω → Fin n → ℝ) (b : Ω → Fin m → ℝ) : (secondMoment μ a b)ᵀ = secondMoment μ b a := by
  ext i j; simp [secondMoment, corr_comm]

theorem sm_add_left {a b : Ω → Fin n → ℝ} {c : Ω → Fin m → ℝ} (ha : L2V μ a) (hb : L2V μ b) (hc : L2V μ c) :
    secondMoment μ (fun ω => a ω + b ω) c = secondMoment μ a c + secondMoment μ b c := by
  ext i j
  simp only [secondMoment, corr, of_apply, Pi.add_apply, add_mul, Matrix.add_apply]
  exact integral_add (corr_int (ha i) (hc j)) (corr_int (hb i) (hc j))

theorem sm_add_right {a : Ω → Fin n → ℝ} {b c : Ω → Fin m → ℝ} (ha : L2V μ a) (hb : L2V μ b) (hc : L2V μ c) :
    secondMoment μ a (fun ω => b ω + c ω) = secondMoment μ a b + secondMoment μ a c := by
  rw [← sm_tr, sm_add_left hb hc ha, transpose_add, sm_tr, sm_tr]

theorem sm_mulVec_left (A : Matrix (Fin k) (Fin n) ℝ) {a : Ω → Fin n → ℝ} {b : Ω → Fin m → ℝ} (ha : L2V μ a) (hb : L2V μ b) :
    secondMoment μ (fun ω => A *ᵥ a ω) b = A * secondMoment μ a b := by
  ext i j
  simp only [secondMoment, corr, of_apply, mul_apply, Matrix.mulVec, dotProduct, Finset.sum_mul]
  rw [integral_finsetSum _ fun l _ => by simpa only [mul_assoc] using (corr_int (ha l) (hb j)).const_mul (A i l)]
  refine Finset.sum_congr rfl fun l _ => ?_
  rw [← integral_const_mul]; simp only [mul_assoc]

theorem sm_mulVec_right (A : Matrix (Fin k) (Fin m) ℝ) {a : Ω → Fin n → ℝ} {b : Ω → Fin m → ℝ} (ha : L2V μ a) (hb : L2V μ b) :
    secondMoment μ a (fun ω => A *ᵥ b ω) = secondMoment μ a b * Aᵀ := by
  rw [← sm_tr, sm_mulVec_left A hb ha, transpose_mul, sm_tr]

/-- quadratic form of a second moment: the mean square of that combination -/
theorem sm_quad {a : Ω → Fin n → ℝ} (ha : L2V μ a) (v : Fin n → ℝ) : v ⬝ᵥ (secondMoment μ a a *ᵥ v) = ∫ ω, (v ⬝ᵥ a ω) ^ 2 ∂μ := by
  have h1 := sm_mulVec_left (μ := μ) (of fun (_ : Fin 1) j => v j) ha ha
  have h2 := sm_mulVec_right (μ := μ) (of fun (_ : Fin 1) j => v j) (L2V.mulVec (of fun (_ : Fin 1) j => v j) ha) ha
  rw [h1] at h2
  have := congrFun (congrFun h2 0) 0
  simp only [secondMoment, of_apply, corr, Matrix.mulVec, dotProduct, mul_apply, transpose_apply] at this
  simp only [sq, dotProduct, Matrix.mulVec]
  rw [this]
  simp only [secondMoment, of_apply, corr, Finset.sum_mul, Finset.mul_sum]
  rw [Finset.sum_comm]
  exact Finset.sum_congr rfl fun i _ => Finset.sum_congr rfl fun j _ => by ring

theorem sm_isCov {a : Ω → Fin n → ℝ} (ha : L2V μ a) : IsCov (secondMoment μ a a) :=
  ⟨sm_tr a a, fun v => by rw [sm_quad ha]; exact integral_nonneg fun ω => sq_nonneg _⟩

/-- uncorrelated with a set ⇒ uncorrelated with its span -/
theorem corr_span {f : Ω → ℝ} (hf : MemLp f 2 μ) {S : Set (Ω → ℝ)} (hS : ∀ g ∈ S, MemLp g 2 μ) (h : ∀ g ∈ S, corr μ f g = 0) {g : Ω → ℝ}
    (hg : g ∈ Submodule.span ℝ S) : MemLp g 2 μ ∧ corr μ f g = 0 := by
  induction hg using Submodule.span_induction with
  | mem g hg => exact ⟨hS g hg, h g hg⟩
  | zero => exact ⟨MemLp.zero, by simp [corr]⟩
  | add x y _ _ hx hy =>
    refine ⟨hx.1.add hy.1, ?_⟩
    have : corr μ f (x + y) = corr μ f x + corr μ f y := by
      simp only [corr, Pi.add_apply, mul_add]; exact integral_add (corr_int hf hx.1) (corr_int hf hy.1)
    rw [this, hx.2, hy.2, add_zero]
  | smul c x _ hx =>
    refine ⟨hx.1.const_mul c, ?_⟩
    have : corr μ f (c • x) = c * corr μ f x := by
      simp only [corr, Pi.smul_apply, smul_eq_mul, ← integral_const_mul]
      exact integral_congr_ae (Filter.Eventually.of_forall fun ω => by simp only; ring)
    rw [this, hx.2, mul_zero]

theorem l2_span {S : Set (Ω → ℝ)} (hS : ∀ g ∈ S, MemLp g 2 μ) {g : Ω → ℝ} (hg : g ∈ Submodule.span ℝ S) : MemLp g 2 μ :=
  (corr_span (f := 0) MemLp.zero hS (fun g _ => by simp [corr]) hg).1

omit [MeasurableSpace Ω] in
/-- linear combinations stay in a span -/
theorem span_mulVec {S : Set (Ω → ℝ)} (A : Matrix (Fin k) (Fin n) ℝ) {a : Ω → Fin n → ℝ} (h : ∀ i, (fun ω => a ω i) ∈ Submodule.span ℝ S) (i : Fin k) :
    (fun ω => (A *ᵥ a ω) i) ∈ Submodule.span ℝ S := by
  have : (fun ω => (A *ᵥ a ω) i) = ∑ j, A i j • fun ω => a ω j := by
    funext ω; simp [Matrix.mulVec, dotProduct, Finset.sum_apply]
  rw [this]
  exact Submodule.sum_mem _ fun j _ => Submodule.smul_mem _ _ (h j)

theorem sm_zero {a : Ω → Fin n → ℝ} {b : Ω → Fin m → ℝ} (h : ∀ i j, corr μ (fun ω => a ω i) (fun ω => b ω j) = 0) : secondMoment μ a b = 0 := by
  ext i j; exact h i j

theorem corr_of_sm {a : Ω → Fin n → ℝ} {b : Ω → Fin m → ℝ} (h : secondMoment μ a b = 0) (i : Fin n) (j : Fin m) :
    corr μ (fun ω => a ω i) (fun ω => b ω j) = 0 := congrFun (congrFun h i) j

end NavFuse.Spec
