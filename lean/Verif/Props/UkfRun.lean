import Verif.Props.Ukf
import Mathlib.Analysis.Matrix.Order

/-! # Property C132: on linear models whole runs of the unscented filter and of the Kalman filter agree -/

set_option linter.unusedSectionVars false

namespace NavFuse.Props
open Matrix Kalman Spec KA
open scoped MatrixOrder Matrix.Norms.L2Operator

variable {n : ℕ}

/-- how a program chooses weights and sigma points for the current state and covariance (not part of the library) -/
abbrev PointRule := DVec ℝ × DMat ℝ → DVec ℝ × DMat ℝ

/-- the points reproduce every state and covariance exactly -/
def PointRule.Exact (n : ℕ) (rule : PointRule) : Prop :=
  ∀ (x : Fin n → ℝ) (P : Matrix (Fin n) (Fin n) ℝ), IsCov P → ∃ (W : Fin (2 * n + 1) → ℝ) (Y : Matrix (Fin n) (Fin (2 * n + 1)) ℝ),
    rule (⟨n, x⟩, ⟨n, n, P⟩) = (⟨2 * n + 1, W⟩, ⟨n, 2 * n + 1, Y⟩) ∧ ∑ i, W i = 1 ∧ (∀ k, ∑ i, W i * Y k i = x k)
      ∧ ∀ p q, ∑ i, W i * ((Y p i - x p) * (Y q i - x q)) = P p q

/-- one step of a program that uses the unscented filter with linear models: choose sigma points, map each of them, call the library -/
noncomputable def FilterOp.execUkf (L : LinSolver ℝ) (rule : PointRule) (s : DVec ℝ × DMat ℝ) : FilterOp n → Out (DVec ℝ × DMat ℝ)
  | .predict F Q => do
    let Y ← (⟨n, n, F⟩ : DMat ℝ).mul (rule s).2
    let r ← filterUkfPredict (rule s).1 Y ⟨n, n, Q⟩ s.1 s.2
    if r.1 then .ok r.2 else .error .throws
  | .update m z H R => do
    let Z ← (⟨m, n, H⟩ : DMat ℝ).mul (rule s).2
    let r ← filterUkfUpdate L s.1 s.2 (rule s).2 (rule s).1 Z ⟨m, z⟩ ⟨m, m, R⟩ s.1 s.2
    if r.1 then .ok r.2 else .error .throws

/-- a whole run of that program -/
noncomputable def runUkf (L : LinSolver ℝ) (rule : PointRule) : List (FilterOp n) → DVec ℝ × DMat ℝ → Out (DVec ℝ × DMat ℝ)
  | [], s => .ok s
  | o :: os, s => do let s' ← o.execUkf L rule s; runUkf L rule os s'

theorem mul_points {m N : ℕ} (A : Matrix (Fin m) (Fin n) ℝ) (Y : Matrix (Fin n) (Fin N) ℝ) :
    (⟨m, n, A⟩ : DMat ℝ).mul ⟨n, N, Y⟩ = .ok ⟨m, N, mapPts A 0 Y⟩ := by
  have h : A * Y = mapPts A 0 Y := by
    ext k i; simp [mapPts, mul_apply, mulVec, dotProduct]
  simp only [osimp, rsimp, h]

/-- one step of the two filters gives the same -/
theorem execUkf_eq {L : LinSolver ℝ} (hL : L.Correct) {rule : PointRule} (hr : rule.Exact n) (o : FilterOp n) (ho : o.Sound) (x : Fin n → ℝ)
    (P : Matrix (Fin n) (Fin n) ℝ) (hP : IsCov P) : o.execUkf L rule (⟨n, x⟩, ⟨n, n, P⟩) = o.exec L (⟨n, x⟩, ⟨n, n, P⟩) := by
  obtain ⟨W, Y, e, h1, h2, h3⟩ := hr x P hP
  have hm : wmean W Y = x := funext h2
  have hs : wscat W Y x Y x = P := by ext p q; exact h3 p q
  cases o with
  | predict F Q =>
    simp only [FilterOp.execUkf, FilterOp.exec, e, mul_points, C83_ukf_predict_linear W h1 Y x P F Q x P hm hs, Out.ok_bind]
  | update m z H R =>
    simp only [FilterOp.execUkf, FilterOp.exec, e, mul_points, C85_ukf_update_linear hL W h1 Y x P z 0 H R x P hm hs hP ho, Out.ok_bind, sub_zero]

/-- C132: on linear models, whichever sigma points are used as long as they reproduce the mean and the covariance they are made from (also with negative weights), every run of
the unscented filter returns exactly what the Kalman filter returns for the same run; in particular no call fails and the covariance stays a covariance. -/
theorem C132_runs_agree {L : LinSolver ℝ} (hL : L.Correct) {rule : PointRule} (hr : rule.Exact n) (ops : List (FilterOp n))
    (hops : ∀ o ∈ ops, o.Sound) (x : Fin n → ℝ) (P : Matrix (Fin n) (Fin n) ℝ) (hP : IsCov P) :
    runUkf L rule ops (⟨n, x⟩, ⟨n, n, P⟩) = runFilter L ops (⟨n, x⟩, ⟨n, n, P⟩)
      ∧ ∃ x' P', runUkf L rule ops (⟨n, x⟩, ⟨n, n, P⟩) = .ok (⟨n, x'⟩, ⟨n, n, P'⟩) ∧ IsCov P' := by
  have h : runUkf L rule ops (⟨n, x⟩, ⟨n, n, P⟩) = runFilter L ops (⟨n, x⟩, ⟨n, n, P⟩) := by
    induction ops generalizing x P with
    | nil => rfl
    | cons o os ih =>
      obtain ⟨x1, P1, e, hc⟩ := C80_covariance_health hL [o] (fun o' h => hops o' (by simp_all)) x P hP
      have e1 : o.exec L (⟨n, x⟩, ⟨n, n, P⟩) = .ok (⟨n, x1⟩, ⟨n, n, P1⟩) := by
        rw [← e, runFilter]
        cases o.exec L (⟨n, x⟩, ⟨n, n, P⟩) <;> rfl
      simp only [runUkf, runFilter, execUkf_eq hL hr o (hops o (by simp)) x P hP, e1, Out.ok_bind]
      exact ih (fun o h => hops o (by simp [h])) x1 P1 hc
  exact ⟨h, by rw [h]; exact C80_covariance_health hL ops hops x P hP⟩

/-! The usual sigma points. -/

/-- the usual weights: `κ / (n + κ)` for the centre and `1 / (2 (n + κ))` for the others, in the order `e` -/
noncomputable def usualW (n : ℕ) (κ : ℝ) (e : Fin (2 * n + 1) ≃ Option (Fin n ⊕ Fin n)) : Fin (2 * n + 1) → ℝ := fun i =>
  match e i with
  | none => κ / (n + κ)
  | some _ => 1 / (2 * (n + κ))

/-- the usual points: the centre, and the centre plus and minus `√(n + κ)` times each column of a square root of the covariance -/
noncomputable def usualY (κ : ℝ) (e : Fin (2 * n + 1) ≃ Option (Fin n ⊕ Fin n)) (x : Fin n → ℝ) (B : Matrix (Fin n) (Fin n) ℝ) :
    Matrix (Fin n) (Fin (2 * n + 1)) ℝ := of fun k i =>
  match e i with
  | none => x k
  | some (.inl j) => x k + √(n + κ) * B k j
  | some (.inr j) => x k - √(n + κ) * B k j

theorem sum_points (e : Fin (2 * n + 1) ≃ Option (Fin n ⊕ Fin n)) (f : Option (Fin n ⊕ Fin n) → ℝ) :
    ∑ i, f (e i) = f none + (∑ j, f (some (.inl j)) + ∑ j, f (some (.inr j))) := by
  rw [Equiv.sum_comp e f, Fintype.sum_option, Fintype.sum_sum_type]

/-- C132: the usual sigma points are of this kind, for every parameter `κ` with `n + κ > 0` (also negative ones), every order of the points and every square root of the
covariance. -/
theorem C132_usual_points (κ : ℝ) (hκ : 0 < n + κ) (e : Fin (2 * n + 1) ≃ Option (Fin n ⊕ Fin n)) (x : Fin n → ℝ) (B P : Matrix (Fin n) (Fin n) ℝ)
    (hB : B * Bᵀ = P) : ∑ i, usualW n κ e i = 1 ∧ (∀ k, ∑ i, usualW n κ e i * usualY κ e x B k i = x k)
      ∧ ∀ p q, ∑ i, usualW n κ e i * ((usualY κ e x B p i - x p) * (usualY κ e x B q i - x q)) = P p q := by
  have h0 := hκ.ne'
  have hw : ∑ i, usualW n κ e i = 1 := by
    have := sum_points e fun o => match o with
      | none => κ / (n + κ)
      | some _ => 1 / (2 * (n + κ))
    refine this.trans ?_
    simp only [Finset.sum_const, Finset.card_univ, Fintype.card_fin, nsmul_eq_mul]
    field_simp; ring
  refine ⟨hw, fun k => ?_, fun p q => ?_⟩
  · have := sum_points e fun o => (match o with
      | none => κ / (n + κ)
      | some _ => 1 / (2 * (n + κ))) * (match o with
      | none => x k
      | some (.inl j) => x k + √(n + κ) * B k j
      | some (.inr j) => x k - √(n + κ) * B k j)
    refine this.trans ?_
    rw [← Finset.sum_add_distrib]
    simp only [← mul_add, ← add_sub_assoc]
    rw [← Finset.mul_sum]
    have : ∀ j, x k + √(n + κ) * B k j + x k - √(n + κ) * B k j = 2 * x k := fun j => by ring
    simp only [this, Finset.sum_const, Finset.card_univ, Fintype.card_fin, nsmul_eq_mul]
    field_simp; ring
  · have := sum_points e fun o => (match o with
      | none => κ / (n + κ)
      | some _ => 1 / (2 * (n + κ))) * ((match o with
      | none => x p
      | some (.inl j) => x p + √(n + κ) * B p j
      | some (.inr j) => x p - √(n + κ) * B p j) - x p) * ((match o with
      | none => x q
      | some (.inl j) => x q + √(n + κ) * B q j
      | some (.inr j) => x q - √(n + κ) * B q j) - x q)
    refine Eq.trans ?_ (this.trans ?_)
    · refine Finset.sum_congr rfl fun i _ => ?_
      rw [usualY, usualW]
      simp only [of_apply]
      rw [← mul_assoc]
    · rw [← hB, mul_apply, ← Finset.sum_add_distrib]
      simp only [sub_self, mul_zero, zero_add]
      refine Finset.sum_congr rfl fun j _ => ?_
      have hs : √(n + κ) * √(n + κ) = n + κ := Real.mul_self_sqrt hκ.le
      rw [transpose_apply]
      field_simp
      linear_combination 2 * B p j * B q j * hs

/-- C132: a rule with these points exists for every `κ > -n`. -/
theorem C132_rule_exists (κ : ℝ) (hκ : 0 < n + κ) (e : Fin (2 * n + 1) ≃ Option (Fin n ⊕ Fin n)) :
    ∃ rule : PointRule, rule.Exact n ∧ ∀ x P, IsCov P → ∃ B, B * Bᵀ = P ∧
      rule (⟨n, x⟩, ⟨n, n, P⟩) = (⟨2 * n + 1, usualW n κ e⟩, ⟨n, 2 * n + 1, usualY κ e x B⟩) := by
  have root : ∀ P : Matrix (Fin n) (Fin n) ℝ, ∃ B : Matrix (Fin n) (Fin n) ℝ, IsCov P → B * Bᵀ = P := fun P => by
    by_cases hP : IsCov P
    · rw [isCov_iff] at hP
      obtain ⟨B, hB⟩ := CStarAlgebra.nonneg_iff_eq_star_mul_self.mp hP.nonneg
      exact ⟨Bᵀ, fun _ => by rw [transpose_transpose, hB, star_eq_conjTranspose, conjTranspose_eq_transpose_of_trivial]⟩
    · exact ⟨0, fun h => absurd h hP⟩
  choose root hroot using root
  let rule : PointRule := fun s => if h : s.1.n = n ∧ s.2.r = n ∧ s.2.c = n then
    (⟨2 * n + 1, usualW n κ e⟩, ⟨n, 2 * n + 1, usualY κ e (fun k => s.1.v (k.cast h.1.symm))
      (root (of fun i j => s.2.m (i.cast h.2.1.symm) (j.cast h.2.2.symm)))⟩) else s
  have h : ∀ x P, IsCov P → ∃ B, B * Bᵀ = P ∧
      rule (⟨n, x⟩, ⟨n, n, P⟩) = (⟨2 * n + 1, usualW n κ e⟩, ⟨n, 2 * n + 1, usualY κ e x B⟩) := fun x P hP =>
    ⟨root P, hroot P hP, by exact dif_pos ⟨rfl, rfl, rfl⟩⟩
  refine ⟨rule, fun x P hP => ?_, h⟩
  obtain ⟨B, hB, hr⟩ := h x P hP
  exact ⟨_, _, hr, C132_usual_points κ hκ e x B P hB⟩

/-- Non-vacuity: orders of the points exist for every number of states -/
example (n : ℕ) : Nonempty (Fin (2 * n + 1) ≃ Option (Fin n ⊕ Fin n)) :=
  ⟨(Fintype.equivFinOfCardEq (by simp [two_mul])).symm⟩

end NavFuse.Props
