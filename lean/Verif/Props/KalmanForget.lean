import Verif.Props.Information
import Verif.Props.KalmanConservative

/-! # Properties C120 and C121: the initial estimate is forgotten; units do not matter -/

set_option linter.unusedSectionVars false

namespace NavFuse.Props
open Matrix Kalman Spec KA MeasureTheory

variable {n : ℕ}

/-! ## C120 -/

/-- number of predictions in a run -/
def predictions : List (FilterOp n) → ℕ
  | [] => 0
  | .predict _ _ :: os => predictions os + 1
  | .update _ _ _ _ :: os => predictions os

/-- every prediction adds at least the variance `q` in every direction, and no measurement noise is negative -/
def FilterOp.Stirs (q : ℝ) : FilterOp n → Prop
  | .predict _ Q => ∀ v, q * (v ⬝ᵥ v) ≤ quad Q v
  | .update _ _ _ R => ∀ v, 0 ≤ quad R v

/-- no covariance reported during the run exceeds `b` in any direction -/
def BoundedBy (L : LinSolver ℝ) (ops : List (FilterOp n)) (x : Fin n → ℝ) (P : Matrix (Fin n) (Fin n) ℝ) (b : ℝ) : Prop :=
  ∀ pre, pre <+: ops → ∀ y Y, runFilter L pre (⟨n, x⟩, ⟨n, n, P⟩) = .ok (⟨n, y⟩, ⟨n, n, Y⟩) → ∀ v, quad Y v ≤ b * (v ⬝ᵥ v)

theorem quad_conj {k : ℕ} (P : Matrix (Fin n) (Fin n) ℝ) (F : Matrix (Fin k) (Fin n) ℝ) (v : Fin k → ℝ) : quad (F * P * Fᵀ) v = quad P (Fᵀ *ᵥ v) := by
  rw [quad, quad, ← mulVec_mulVec, ← mulVec_mulVec, dotProduct_mulVec, ← mulVec_transpose]

theorem quad_plus (A B : Matrix (Fin n) (Fin n) ℝ) (v : Fin n → ℝ) : quad (A + B) v = quad A v + quad B v := by
  rw [quad, quad, quad, add_mulVec, dotProduct_add]

theorem dot_mulVec' {k : ℕ} (F : Matrix (Fin k) (Fin n) ℝ) (v : Fin k → ℝ) (e : Fin n → ℝ) : v ⬝ᵥ (F *ᵥ e) = (Fᵀ *ᵥ v) ⬝ᵥ e := by
  rw [dotProduct_mulVec, mulVec_transpose]

/-- C120, from any point of a run -/
theorem forget_core (L : LinSolver ℝ) {q b : ℝ} (hb : 0 < b) (hq : 0 ≤ q) (hqb : q ≤ b) (ops : List (FilterOp n)) (hs : ∀ o ∈ ops, o.Stirs q) (x x' : Fin n → ℝ)
    (P : Matrix (Fin n) (Fin n) ℝ) (hB : BoundedBy L ops x P b) {c : ℝ} (hc0 : 0 ≤ c) (hc : ∀ v, (v ⬝ᵥ (x - x')) ^ 2 ≤ c * quad P v) :
    ∃ y y' Y, runFilter L ops (⟨n, x⟩, ⟨n, n, P⟩) = .ok (⟨n, y⟩, ⟨n, n, Y⟩) ∧ runFilter L ops (⟨n, x'⟩, ⟨n, n, P⟩) = .ok (⟨n, y'⟩, ⟨n, n, Y⟩)
      ∧ ∀ v, (v ⬝ᵥ (y - y')) ^ 2 ≤ c * (1 - q / b) ^ predictions ops * quad Y v := by
  have hρ : 0 ≤ 1 - q / b := by rw [sub_nonneg, div_le_one hb]; exact hqb
  induction ops generalizing x x' P c with
  | nil => exact ⟨x, x', P, rfl, rfl, fun v => by simpa [predictions] using hc v⟩
  | cons o os ih =>
    have ho := hs o (by simp)
    have hos : ∀ o ∈ os, o.Stirs q := fun o' h => hs o' (by simp [h])
    cases o with
    | predict F Q =>
      have ho' : ∀ v, q * (v ⬝ᵥ v) ≤ quad Q v := ho
      have p1 := predict_R x P F Q x P
      have p2 := predict_R x' P F Q x' P
      have st : ∀ pre s, runFilter L (FilterOp.predict F Q :: pre) (⟨n, x⟩, ⟨n, n, P⟩) = .ok s ↔ runFilter L pre (⟨n, F *ᵥ x⟩, ⟨n, n, F * P * Fᵀ + Q⟩) = .ok s := fun pre s => by
        simp [runFilter, FilterOp.exec, p1, osimp]
      have b1 : ∀ v, quad (F * P * Fᵀ + Q) v ≤ b * (v ⬝ᵥ v) := hB [.predict F Q] ⟨os, rfl⟩ (F *ᵥ x) _ ((st [] _).2 rfl)
      obtain ⟨y, y', Y, r1, r2, r3⟩ := ih hos (F *ᵥ x) (F *ᵥ x') (F * P * Fᵀ + Q)
        (fun pre ⟨t, ht⟩ y Y h => hB (.predict F Q :: pre) ⟨t, by simp [← ht]⟩ y Y ((st pre _).2 h)) (mul_nonneg hc0 hρ) (fun v => by
          rw [← mulVec_sub, dot_mulVec']
          have h1 := hc (Fᵀ *ᵥ v)
          rw [← quad_conj] at h1
          have h2 := b1 v
          have h3 := ho' v
          refine h1.trans ?_
          rw [mul_assoc c]
          refine mul_le_mul_of_nonneg_left ?_ hc0
          have h4 : q / b * quad (F * P * Fᵀ + Q) v ≤ q * (v ⬝ᵥ v) := by
            rw [div_mul_eq_mul_div, div_le_iff₀ hb, mul_assoc q, mul_comm (v ⬝ᵥ v)]
            exact mul_le_mul_of_nonneg_left h2 hq
          rw [quad_plus] at h4 ⊢
          linarith)
      refine ⟨y, y', Y, (st os _).2 r1, by simp [runFilter, FilterOp.exec, p2, osimp, r2], fun v => ?_⟩
      rw [predictions, pow_succ' (1 - q / b), ← mul_assoc]
      exact r3 v
    | update m z H R =>
      have ho' : ∀ v, 0 ≤ quad R v := ho
      obtain ⟨G, hG⟩ := update_any L P H R
      have p1 := hG x z x P
      have p2 := hG x' z x' P
      have st : ∀ pre s, runFilter L (FilterOp.update m z H R :: pre) (⟨n, x⟩, ⟨n, n, P⟩) = .ok s
          ↔ runFilter L pre (⟨n, x + G *ᵥ (z - H *ᵥ x)⟩, ⟨n, n, joseph P H R G⟩) = .ok s := fun pre s => by
        simp [runFilter, FilterOp.exec, p1, osimp]
      obtain ⟨y, y', Y, r1, r2, r3⟩ := ih hos (x + G *ᵥ (z - H *ᵥ x)) (x' + G *ᵥ (z - H *ᵥ x')) (joseph P H R G)
        (fun pre ⟨t, ht⟩ y Y h => hB (.update m z H R :: pre) ⟨t, by simp [← ht]⟩ y Y ((st pre _).2 h)) hc0 (fun v => by
          have e : x + G *ᵥ (z - H *ᵥ x) - (x' + G *ᵥ (z - H *ᵥ x')) = (1 - G * H) *ᵥ (x - x') := by
            rw [sub_mulVec, one_mulVec, ← mulVec_mulVec, mulVec_sub, mulVec_sub, mulVec_sub, mulVec_sub]; abel
          rw [e, dot_mulVec']
          have h1 := hc ((1 - G * H)ᵀ *ᵥ v)
          rw [← quad_conj] at h1
          refine h1.trans (mul_le_mul_of_nonneg_left ?_ hc0)
          rw [joseph, quad_plus, quad_conj R]
          linarith [ho' (Gᵀ *ᵥ v)])
      exact ⟨y, y', Y, (st os _).2 r1, by simp only [runFilter, FilterOp.exec, p2, osimp]; simpa [osimp] using r2, r3⟩

/-- C120. Two runs with the same calls and the same initial covariance, started from estimates that differ by at most `√c` standard deviations in every
direction. If every prediction adds at least the variance `q > 0` in every direction and no reported covariance exceeds `b`, then after `k` predictions the
squared distance of the two estimates is at most `c b (1 - q/b)^k`: the first guess is forgotten geometrically. Whatever `inverse()` returns. -/
theorem C120_forgets (L : LinSolver ℝ) {q b : ℝ} (hb : 0 < b) (hq : 0 < q) (hqb : q ≤ b) (ops : List (FilterOp n)) (hs : ∀ o ∈ ops, o.Stirs q) (x x' : Fin n → ℝ)
    (P : Matrix (Fin n) (Fin n) ℝ) (hB : BoundedBy L ops x P b) {c : ℝ} (hc0 : 0 ≤ c) (hc : ∀ v, (v ⬝ᵥ (x - x')) ^ 2 ≤ c * quad P v) :
    ∃ y y' Y, runFilter L ops (⟨n, x⟩, ⟨n, n, P⟩) = .ok (⟨n, y⟩, ⟨n, n, Y⟩) ∧ runFilter L ops (⟨n, x'⟩, ⟨n, n, P⟩) = .ok (⟨n, y'⟩, ⟨n, n, Y⟩)
      ∧ (y - y') ⬝ᵥ (y - y') ≤ c * b * (1 - q / b) ^ predictions ops := by
  obtain ⟨y, y', Y, r1, r2, r3⟩ := forget_core L hb hq.le hqb ops hs x x' P hB hc0 hc
  refine ⟨y, y', Y, r1, r2, ?_⟩
  have hρ : 0 ≤ 1 - q / b := by rw [sub_nonneg, div_le_one hb]; exact hqb
  have h1 := r3 (y - y')
  have h2 := hB ops List.prefix_rfl y Y r1 (y - y')
  have h3 : (0 : ℝ) ≤ (y - y') ⬝ᵥ (y - y') := Finset.sum_nonneg fun i _ => mul_self_nonneg _
  rcases h3.eq_or_lt with h | h
  · rw [← h]; positivity
  · have h4 : ((y - y') ⬝ᵥ (y - y')) ^ 2 ≤ c * (1 - q / b) ^ predictions ops * (b * ((y - y') ⬝ᵥ (y - y'))) :=
      h1.trans (mul_le_mul_of_nonneg_left h2 (by positivity))
    rw [sq, ← mul_assoc] at h4
    have := le_of_mul_le_mul_right h4 h
    linarith

/-- started at the truth with exact measurements, the filter stays there -/
theorem stays_exact (L : LinSolver ℝ) (ops : List (FilterOp n)) (w : Fin n → ℝ) (P : Matrix (Fin n) (Fin n) ℝ) (h : ExactData ops w) :
    ∃ Y, runFilter L ops (⟨n, w⟩, ⟨n, n, P⟩) = .ok (⟨n, carried ops w⟩, ⟨n, n, Y⟩) := by
  induction ops generalizing w P with
  | nil => exact ⟨P, rfl⟩
  | cons o os ih => cases o with
    | predict F Q =>
      obtain ⟨Y, hY⟩ := ih (F *ᵥ w) (F * P * Fᵀ + Q) h
      exact ⟨Y, by simp [runFilter, FilterOp.exec, predict_R w P F Q w P, osimp, hY, carried]⟩
    | update m z H R =>
      obtain ⟨rfl, h⟩ := h
      obtain ⟨G, hG⟩ := update_any L P H R
      obtain ⟨Y, hY⟩ := ih w (joseph P H R G) h
      refine ⟨Y, ?_⟩
      have := hG w (H *ᵥ w) w P
      rw [sub_self, mulVec_zero, add_zero] at this
      simp only [runFilter, FilterOp.exec, this, osimp]
      simpa [osimp, carried] using hY

/-- C120: in particular, with exact measurements of a moving state the error of the estimate goes to zero geometrically, however wrong the first guess. -/
theorem C120_converges (L : LinSolver ℝ) {q b : ℝ} (hb : 0 < b) (hq : 0 < q) (hqb : q ≤ b) (ops : List (FilterOp n)) (hs : ∀ o ∈ ops, o.Stirs q) (x w : Fin n → ℝ)
    (hw : ExactData ops w) (P : Matrix (Fin n) (Fin n) ℝ) (hB : BoundedBy L ops x P b) {c : ℝ} (hc0 : 0 ≤ c) (hc : ∀ v, (v ⬝ᵥ (x - w)) ^ 2 ≤ c * quad P v) :
    ∃ y Y, runFilter L ops (⟨n, x⟩, ⟨n, n, P⟩) = .ok (⟨n, y⟩, ⟨n, n, Y⟩)
      ∧ (y - carried ops w) ⬝ᵥ (y - carried ops w) ≤ c * b * (1 - q / b) ^ predictions ops := by
  obtain ⟨y, y', Y, r1, r2, r3⟩ := C120_forgets L hb hq hqb ops hs x w P hB hc0 hc
  obtain ⟨Y', hY⟩ := stays_exact L ops w P hw
  rw [r2] at hY
  simp only [Except.ok.injEq, Prod.mk.injEq, DVec.mk.injEq, heq_eq_eq, true_and] at hY
  rw [hY.1] at r3
  exact ⟨y, Y, r1, r3⟩

/-- bounded covariances: damped motions, with bounded process noise, and an exact inverse -/
theorem damped_bounded {L : LinSolver ℝ} (hL : L.Correct) {a b : ℝ} (ops : List (FilterOp n)) (hops : ∀ o ∈ ops, o.Sound)
    (hd : ∀ F Q, FilterOp.predict F Q ∈ ops → ∀ v, b * ((Fᵀ *ᵥ v) ⬝ᵥ (Fᵀ *ᵥ v)) ≤ a * (v ⬝ᵥ v) ∧ quad Q v ≤ (b - a) * (v ⬝ᵥ v))
    (x : Fin n → ℝ) (P : Matrix (Fin n) (Fin n) ℝ) (hP : IsCov P) (h0 : ∀ v, quad P v ≤ b * (v ⬝ᵥ v)) : BoundedBy L ops x P b := by
  rintro pre ⟨t, rfl⟩
  induction pre generalizing x P with
  | nil =>
    intro y Y h
    obtain ⟨rfl, rfl⟩ : x = y ∧ P = Y := by simpa [runFilter] using h
    exact h0
  | cons o os ih =>
    intro y Y h
    have ho := hops o (by simp)
    have hos : ∀ o ∈ os ++ t, o.Sound := fun o' h => hops o' (by simp only [List.cons_append, List.mem_cons]; exact Or.inr h)
    have hds := fun F Q (h : FilterOp.predict F Q ∈ os ++ t) => hd F Q (by simp only [List.cons_append, List.mem_cons]; exact Or.inr h)
    cases o with
    | predict F Q =>
      obtain ⟨x1, P1, e, -, e1, c1⟩ := C74_predict_covariance x P F Q x P hP ho
      refine ih x1 P1 c1 (fun v => ?_) hos hds y Y (by simpa [runFilter, FilterOp.exec, e, osimp] using h)
      obtain ⟨d1, d2⟩ := hd F Q (by simp) v
      rw [e1, quad_plus, quad_conj]
      linarith [h0 (Fᵀ *ᵥ v)]
    | update m z H R =>
      obtain ⟨x1, P1, e, c1, le⟩ := C75_update_covariance hL x P z H R x P hP ho
      exact ih x1 P1 c1 (fun v => (le.2 v).trans (h0 v)) hos hds y Y (by simpa [runFilter, FilterOp.exec, e, osimp] using h)

/-- non-vacuity: a decaying state with process noise, any number of predictions and measurements -/
example {L : LinSolver ℝ} (hL : L.Correct) (k : ℕ) :
    let ops := (List.replicate k [FilterOp.predict (n := 1) !![1 / 2] !![1], .update 1 ![0] !![1] !![1]]).flatten
    (∀ o ∈ ops, o.Stirs 1) ∧ ExactData ops 0 ∧ BoundedBy L ops ![3] !![1] 2 ∧ predictions ops = k ∧ ∀ v, (v ⬝ᵥ (![3] - 0)) ^ 2 ≤ 9 * quad !![(1 : ℝ)] v := by
  intro ops
  have hone : ∀ a : ℝ, 0 < a → IsPosCov !![a] := fun a ha => by
    have : !![a] = diagonal ![a] := by ext i j; fin_cases i; fin_cases j; rfl
    rw [this]; exact diag_isPosCov _ (by intro i; fin_cases i; simpa using ha)
  have hm : ∀ o ∈ ops, o = FilterOp.predict (n := 1) !![1 / 2] !![1] ∨ o = .update 1 ![0] !![1] !![1] := by
    intro o ho
    obtain ⟨l, hl, ho⟩ := List.mem_flatten.1 ho
    rw [List.eq_of_mem_replicate hl] at ho
    simpa using ho
  have hS : ∀ o ∈ ops, o.Sound := fun o ho => by
    rcases hm o ho with rfl | rfl
    · exact isCov_iff.2 (isPosCov_iff.1 (hone 1 one_pos)).posSemidef
    · exact hone 1 one_pos
  have qd : ∀ (a : ℝ) (v : Fin 1 → ℝ), quad !![a] v = a * (v ⬝ᵥ v) := fun a v => by
    simp [quad, dotProduct, Matrix.mulVec]; ring
  refine ⟨fun o ho => ?_, ?_, ?_, ?_, fun v => ?_⟩
  · rcases hm o ho with rfl | rfl
    · intro v; rw [qd]
    · intro v; rw [qd, one_mul]; exact Finset.sum_nonneg fun i _ => mul_self_nonneg _
  · clear hm hS
    induction k with
    | zero => trivial
    | succ k ih =>
      show ExactData ([_, _] ++ _) 0
      refine ⟨?_, ?_⟩
      · ext i; fin_cases i; simp [Matrix.mulVec]
      · rw [mulVec_zero]; exact ih
  · refine damped_bounded hL (a := 1) ops hS (fun F Q h v => ?_) _ _ (isCov_iff.2 (isPosCov_iff.1 (hone 1 one_pos)).posSemidef) (fun v => ?_)
    · rcases hm _ h with h | h
      · obtain ⟨rfl, rfl⟩ : F = !![1 / 2] ∧ Q = !![1] := by simpa using h
        refine ⟨?_, by rw [qd]; norm_num⟩
        simp [dotProduct, Matrix.mulVec, Matrix.transpose]
        nlinarith [sq_nonneg (v 0)]
      · cases h
    · rw [qd]
      have : (0 : ℝ) ≤ v ⬝ᵥ v := Finset.sum_nonneg fun i _ => mul_self_nonneg _
      linarith
  · clear hm hS
    induction k with
    | zero => rfl
    | succ k ih =>
      show predictions ([_, _] ++ _) = _
      simp only [List.cons_append, List.nil_append, predictions]
      rw [Nat.add_right_cancel_iff]; exact ih
  · rw [qd]; simp [dotProduct]; nlinarith

/-! ## C121 -/

/-- the same call in other units (or coordinates): the states are multiplied by `T`, the measurements by `U` -/
inductive InUnits (T : Matrix (Fin n) (Fin n) ℝ) : FilterOp n → FilterOp n → Prop
  | predict (F Q F' : Matrix (Fin n) (Fin n) ℝ) (hF : F' * T = T * F) : InUnits T (.predict F Q) (.predict F' (T * Q * Tᵀ))
  | update (m : ℕ) (z : Fin m → ℝ) (H H' : Matrix (Fin m) (Fin n) ℝ) (R U : Matrix (Fin m) (Fin m) ℝ) (hU : IsUnit U.det) (hH : H' * T = U * H) :
      InUnits T (.update m z H R) (.update m (U *ᵥ z) H' (U * R * Uᵀ))

theorem gain_units {m : ℕ} {T P : Matrix (Fin n) (Fin n) ℝ} {H H' : Matrix (Fin m) (Fin n) ℝ} {R U : Matrix (Fin m) (Fin m) ℝ} (hU : IsUnit U.det)
    (hH : H' * T = U * H) : innov (T * P * Tᵀ) H' (U * R * Uᵀ) = U * innov P H R * Uᵀ ∧ gain (T * P * Tᵀ) H' (U * R * Uᵀ) * U = T * gain P H R := by
  have hHt : Tᵀ * H'ᵀ = Hᵀ * Uᵀ := by rw [← transpose_mul, hH, transpose_mul]
  have e : innov (T * P * Tᵀ) H' (U * R * Uᵀ) = U * innov P H R * Uᵀ := by
    rw [innov, innov, Matrix.mul_add, Matrix.add_mul]
    congr 1
    calc H' * (T * P * Tᵀ) * H'ᵀ = (H' * T) * P * (Tᵀ * H'ᵀ) := by simp only [Matrix.mul_assoc]
      _ = U * (H * P * Hᵀ) * Uᵀ := by rw [hH, hHt]; simp only [Matrix.mul_assoc]
  refine ⟨e, ?_⟩
  have hUt : IsUnit Uᵀ.det := by rwa [det_transpose]
  rw [gain, gain, e, Matrix.mul_inv_rev, Matrix.mul_inv_rev]
  calc T * P * Tᵀ * H'ᵀ * (Uᵀ⁻¹ * ((innov P H R)⁻¹ * U⁻¹)) * U = T * P * (Tᵀ * H'ᵀ) * Uᵀ⁻¹ * (innov P H R)⁻¹ * (U⁻¹ * U) := by simp only [Matrix.mul_assoc]
    _ = T * P * Hᵀ * (Uᵀ * Uᵀ⁻¹) * (innov P H R)⁻¹ := by rw [hHt, nonsing_inv_mul _ hU, Matrix.mul_one]; simp only [Matrix.mul_assoc]
    _ = _ := by rw [mul_nonsing_inv _ hUt, Matrix.mul_one]; simp only [Matrix.mul_assoc]

/-- C121. Units and coordinates do not matter: a run with the states multiplied by `T` and each measurement by an invertible matrix of its own (models and
noises expressed accordingly) returns `T` times the estimate and `T P Tᵀ`. -/
theorem C121_units {L : LinSolver ℝ} (hL : L.Correct) (T : Matrix (Fin n) (Fin n) ℝ) (ops ops' : List (FilterOp n)) (hops : ∀ o ∈ ops, o.Sound)
    (hu : List.Forall₂ (InUnits T) ops ops') (x : Fin n → ℝ) (P : Matrix (Fin n) (Fin n) ℝ) (hP : IsCov P) :
    ∃ y Y, runFilter L ops (⟨n, x⟩, ⟨n, n, P⟩) = .ok (⟨n, y⟩, ⟨n, n, Y⟩)
      ∧ runFilter L ops' (⟨n, T *ᵥ x⟩, ⟨n, n, T * P * Tᵀ⟩) = .ok (⟨n, T *ᵥ y⟩, ⟨n, n, T * Y * Tᵀ⟩) := by
  induction hu generalizing x P with
  | nil => exact ⟨x, P, rfl, rfl⟩
  | @cons o o' os os' h _ ih =>
    have ho := hops o (by simp)
    have hos : ∀ o ∈ os, o.Sound := fun o' h => hops o' (by simp [h])
    cases h with
    | predict F Q F' hF =>
      have hFt : Tᵀ * F'ᵀ = Fᵀ * Tᵀ := by rw [← transpose_mul, hF, transpose_mul]
      obtain ⟨y, Y, r, r'⟩ := ih hos (F *ᵥ x) (F * P * Fᵀ + Q) (isCov_iff.2 ((psd_conj (isCov_iff.1 hP) F).add (isCov_iff.1 ho)))
      have p1 := predict_R x P F Q x P
      have p2 := predict_R (T *ᵥ x) (T * P * Tᵀ) F' (T * Q * Tᵀ) (T *ᵥ x) (T * P * Tᵀ)
      have e1 : F' *ᵥ (T *ᵥ x) = T *ᵥ (F *ᵥ x) := by rw [mulVec_mulVec, hF, mulVec_mulVec]
      have e2 : F' * (T * P * Tᵀ) * F'ᵀ + T * Q * Tᵀ = T * (F * P * Fᵀ + Q) * Tᵀ := by
        rw [Matrix.mul_add, Matrix.add_mul]
        congr 1
        calc F' * (T * P * Tᵀ) * F'ᵀ = (F' * T) * P * (Tᵀ * F'ᵀ) := by simp only [Matrix.mul_assoc]
          _ = _ := by rw [hF, hFt]; simp only [Matrix.mul_assoc]
      rw [e1, e2] at p2
      exact ⟨y, Y, by simp [runFilter, FilterOp.exec, p1, osimp, r], by simp only [runFilter, FilterOp.exec, p2, osimp]; simpa [osimp] using r'⟩
    | update m z H H' R U hU hH =>
      have hPp := isCov_iff.1 hP
      have hR := isPosCov_iff.1 ho
      have hR' : (U * R * Uᵀ).PosDef := by
        have := hR.mul_mul_conjTranspose_same (B := U) (vecMul_injective_iff_isUnit.2 ((isUnit_iff_isUnit_det _).2 hU))
        rwa [conjTranspose_eq_transpose_of_trivial] at this
      obtain ⟨g1, g2⟩ := gain_units (P := P) (R := R) hU hH
      have p1 := update_R hL x hPp z H hR x P
      have p2 := update_R hL (T *ᵥ x) (psd_conj hPp T) (U *ᵥ z) H' hR' (T *ᵥ x) (T * P * Tᵀ)
      have e1 : T *ᵥ x + gain (T * P * Tᵀ) H' (U * R * Uᵀ) *ᵥ (U *ᵥ z - H' *ᵥ (T *ᵥ x)) = T *ᵥ (x + gain P H R *ᵥ (z - H *ᵥ x)) := by
        rw [mulVec_mulVec (M := H'), hH, ← mulVec_mulVec (M := U), ← mulVec_sub, mulVec_mulVec, g2, mulVec_add, mulVec_mulVec]
      have e2 : joseph (T * P * Tᵀ) H' (U * R * Uᵀ) (gain (T * P * Tᵀ) H' (U * R * Uᵀ)) = T * joseph P H R (gain P H R) * Tᵀ := by
        have c1 : (1 - gain (T * P * Tᵀ) H' (U * R * Uᵀ) * H') * T = T * (1 - gain P H R * H) := by
          rw [Matrix.sub_mul, Matrix.mul_assoc, hH, ← Matrix.mul_assoc, g2, Matrix.one_mul, Matrix.mul_sub, Matrix.mul_one, Matrix.mul_assoc]
        have c1t := congrArg transpose c1
        have g2t := congrArg transpose g2
        rw [transpose_mul, transpose_mul] at c1t g2t
        set A := 1 - gain (T * P * Tᵀ) H' (U * R * Uᵀ) * H'
        set K := gain (T * P * Tᵀ) H' (U * R * Uᵀ)
        show A * (T * P * Tᵀ) * Aᵀ + K * (U * R * Uᵀ) * Kᵀ = _
        calc A * (T * P * Tᵀ) * Aᵀ + K * (U * R * Uᵀ) * Kᵀ = (A * T) * P * (Tᵀ * Aᵀ) + (K * U) * R * (Uᵀ * Kᵀ) := by simp only [Matrix.mul_assoc]
          _ = _ := by rw [c1, c1t, g2, g2t, joseph]; simp only [Matrix.mul_assoc, Matrix.mul_add, Matrix.add_mul]
      rw [e1, e2] at p2
      obtain ⟨y, Y, r, r'⟩ := ih hos (x + gain P H R *ᵥ (z - H *ᵥ x)) (joseph P H R (gain P H R)) (isCov_iff.2 (joseph_psd hPp H hR.posSemidef _))
      exact ⟨y, Y, by simp only [runFilter, FilterOp.exec, p1, osimp]; simpa [osimp] using r,
        by simp only [runFilter, FilterOp.exec, p2, osimp]; simpa [osimp] using r'⟩

/-- non-vacuity: position and velocity in kilometres instead of metres, the measured position in feet -/
example : List.Forall₂ (InUnits (diagonal ![0.001, 0.001])) [FilterOp.predict (n := 2) !![1, 1; 0, 1] (diagonal ![0, 1]), .update 1 ![3] !![1, 0] !![2]]
    [.predict !![1, 1; 0, 1] (diagonal ![0.001, 0.001] * diagonal ![0, 1] * (diagonal ![0.001, 0.001])ᵀ),
      .update 1 (!![1 / 0.3048] *ᵥ ![3]) !![1000 / 0.3048, 0] (!![1 / 0.3048] * !![2] * !![1 / 0.3048]ᵀ)] := by
  refine .cons (.predict _ _ _ ?_) (.cons (.update _ _ _ _ _ _ ?_ ?_) .nil)
  · ext i j; fin_cases i <;> fin_cases j <;> simp [Matrix.mul_apply, Fin.sum_univ_two]
  · simp [det_unique]; norm_num
  · ext i j; fin_cases i; fin_cases j <;> simp [Matrix.mul_apply, Fin.sum_univ_two] <;> norm_num

end NavFuse.Props
