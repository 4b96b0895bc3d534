import Verif.Props.LdltDbl
import Verif.Props.LeastSquares

/-! # Batch least squares in double precision

The normal equations formed and solved on doubles, with the solver as Eigen computes it. -/

namespace NavFuse.Props
open Matrix Spec KA Lsq
variable [Machine] {r : ℝ → ℝ} {n m : ℕ}

/-- relative error of `k` successive roundings -/
noncomputable def opTol (k : ℕ) : ℝ := 2 * k / 2 ^ 52

omit [Machine] in
theorem gr_opTol {k : ℕ} (hk : k ≤ 10 ^ 15) : gr k - 1 ≤ opTol k := by
  have := gr_le hk
  have e : opTol k = k / 2 ^ 51 := by unfold opTol; ring
  rw [e]; linarith

omit [Machine] in
theorem opTol_nonneg (k : ℕ) : 0 ≤ opTol k := by unfold opTol; positivity

/-- normal equations `N x = b` whose coefficients carry up to `k` roundings each: `N` at least `c` in every direction, entries at most `s` and `β` -/
structure Normal (N : Matrix (Fin n) (Fin n) ℝ) (s c κ β : ℝ) (k : ℕ) : Prop where
  size : 0 < n
  size_le : n ≤ 100
  ops : k ≤ 10 ^ 7
  sym : Nᵀ = N
  pos : ∀ v : Fin n → ℝ, c * (v ⬝ᵥ v) ≤ v ⬝ᵥ (N *ᵥ v)
  le_c : 1e-18 ≤ c
  s_le : s ≤ 1e28
  le_β : 1e-40 ≤ β
  le_κ : 1 ≤ κ
  κ_le : κ ≤ 1e24
  ratio : 4 * s ≤ κ * κ * c
  grow : β * (16 * κ) ^ n ≤ 1e50
  cond : s * (16 * n * ldTol n + 2 * n * opTol k) ≤ c

/-- residual left in the normal equations by a solution of size `X` -/
noncomputable def normalTol (n k : ℕ) (s β X : ℝ) : ℝ := ldTol n * (2 * s * X) + opTol k * (β + n * (s * X))

theorem normal_solve (h : Rounds53 r) {N : Matrix (Fin n) (Fin n) ℝ} {b : Fin n → ℝ} {s c κ β : ℝ} {k : ℕ} (w : Normal N s c κ β k)
    {Nh : Matrix (Fin n) (Fin n) (Dbl r)} {bh : Fin n → Dbl r} (hN : MRl Nh N k (constM n n s)) (hb : VRl bh b k fun _ => β) :
    ∃ x : Fin n → ℝ, eigenLdlt Nh bh = dV x ∧ (∀ i, |x i| ≤ 8 * n * β / c)
      ∧ (∀ X, (∀ i, |x i| ≤ X) → 1e-100 ≤ X → ∀ i, |b i - (N *ᵥ x) i| ≤ normalTol n k s β X)
      ∧ ∀ xs, N *ᵥ xs = b → ∀ i, |x i - xs i| ≤ n / c * normalTol n k s β (8 * n * β / c) := by
  have c0 : 0 < c := lt_of_lt_of_le (by norm_num) w.le_c
  have n1 : (1 : ℝ) ≤ n := by exact_mod_cast w.size
  have b0 : 0 ≤ β := le_trans (by norm_num) w.le_β
  have hk : k ≤ 10 ^ 15 := w.ops.trans (by norm_num)
  have μ0 := opTol_nonneg k
  have g := gr_opTol hk
  have t0 := ldTol_nonneg n
  have pl : PosL N c := ⟨w.sym, w.pos⟩
  have Ns : ∀ i j, |N i j| ≤ s := fun i j => (hN i j).mag
  have s0 : 0 ≤ s := (abs_nonneg _).trans (Ns ⟨0, w.size⟩ ⟨0, w.size⟩)
  have μ1 : opTol k ≤ 1 := by
    have : (k : ℝ) ≤ 10 ^ 7 := by exact_mod_cast w.ops
    unfold opTol
    rw [div_le_one (by positivity)]
    exact (mul_le_mul_of_nonneg_left this (by norm_num)).trans (by norm_num)
  choose A eA dA using fun i j => (hN i j).near
  choose d ed dd using fun i => (hb i).near
  have dA' : ∀ i j, |A i j - N i j| ≤ opTol k * s := fun i j => (dA i j).trans (mul_le_mul_of_nonneg_right g s0)
  have dd' : ∀ i, |d i - b i| ≤ opTol k * β := fun i => (dd i).trans (mul_le_mul_of_nonneg_right g b0)
  have el : Nh = dM A := by ext i j; exact eA i j
  have ev : bh = dV d := funext ed
  have near := lowerOf_near w.sym dA'
  have q1 : n * (opTol k * s) ≤ c / 2 := by
    have := w.cond
    have : 0 ≤ s * (16 * n * ldTol n) := by positivity
    linarith
  have lp : PosL (lowerOf A) (c / 2) := (pl.perturb (lowerOf_symm _) near).mono (by linarith)
  have w' : Posed (lowerOf A) d (2 * s) (c / 2) κ (2 * β) := {
    size := w.size
    size_le := w.size_le
    sym := lp.1
    pos := lp.2
    diag := fun i => by
      have h1 := near i i
      have h2 := Ns i i
      have h3 := abs_sub_abs_le_abs_sub (lowerOf A i i) (N i i)
      have h4 := le_abs_self (lowerOf A i i)
      have h5 : opTol k * s ≤ 1 * s := mul_le_mul_of_nonneg_right μ1 s0
      linarith
    rhs := fun i => by
      have h1 := dd' i
      have h2 := (hb i).mag
      have h3 := abs_sub_abs_le_abs_sub (d i) (b i)
      have h5 : opTol k * β ≤ 1 * β := mul_le_mul_of_nonneg_right μ1 b0
      linarith
    le_c := by have := w.le_c; norm_num at this ⊢; linarith
    m_le := by have := w.s_le; norm_num at this ⊢; linarith
    le_β := by have := w.le_β; linarith
    le_κ := w.le_κ
    κ_le := w.κ_le
    ratio := by have := w.ratio; linarith
    grow := by have := w.grow; norm_num at this ⊢; linarith
    cond := by
      have := w.cond
      have : 0 ≤ s * (2 * n * opTol k) := by positivity
      linarith }
  obtain ⟨x, ex, hx, res⟩ := ldlt_posed h A (fun i => (dM A : Matrix _ _ (Dbl r)) i i) d w'
  have e8 : 2 * n * (2 * β) / (c / 2) = 8 * n * β / c := by field_simp; ring
  rw [e8] at hx
  have rs : ∀ X, (∀ i, |x i| ≤ X) → 1e-100 ≤ X → ∀ i, |b i - (N *ᵥ x) i| ≤ normalTol n k s β X := fun X hX X0 i => by
    have h1 := res X hX X0 i
    have e : b i - (N *ᵥ x) i = (d i - (lowerOf A *ᵥ x) i) - (d i - b i) + ∑ j, (lowerOf A i j - N i j) * x j := by
      simp only [mulVec, dotProduct, sub_mul, Finset.sum_sub_distrib]; ring
    have h2 : |∑ j, (lowerOf A i j - N i j) * x j| ≤ n * (opTol k * s * X) := by
      refine (Finset.abs_sum_le_sum_abs _ _).trans ((Finset.sum_le_card_nsmul _ _ (opTol k * s * X) fun j _ => ?_).trans (le_of_eq (by simp)))
      rw [abs_mul]
      exact mul_le_mul (near i j) (hX j) (abs_nonneg _) (by positivity)
    rw [e]
    have h3 := abs_add_le ((d i - (lowerOf A *ᵥ x) i) - (d i - b i)) (∑ j, (lowerOf A i j - N i j) * x j)
    have h4 := abs_sub (d i - (lowerOf A *ᵥ x) i) (d i - b i)
    have h5 := dd' i
    unfold normalTol
    linarith
  refine ⟨x, ?_, hx, rs, fun xs hxs i => ?_⟩
  · rw [el, ev]; exact ex
  · have floor : (1e-100 : ℝ) ≤ 8 * n * β / c := by
      have cs : c ≤ 1e28 := (pl.diag ⟨0, w.size⟩).trans ((le_abs_self _).trans ((Ns _ _).trans w.s_le))
      rw [le_div_iff₀ c0]
      have h1 : (1e-100 : ℝ) * c ≤ 1e-100 * 1e28 := mul_le_mul_of_nonneg_left cs (by norm_num)
      have h2 : (8 : ℝ) * 1 * 1e-40 ≤ 8 * n * β := mul_le_mul (by linarith) w.le_β (by norm_num) (by positivity)
      exact h1.trans (le_trans (by norm_num) h2)
    have key := pl.low c0 (x - xs) (normalTol n k s β (8 * n * β / c)) (fun i => by
      have e : (N *ᵥ (x - xs)) i = -(b i - (N *ᵥ x) i) := by rw [mulVec_sub, hxs]; simp
      rw [e, abs_neg]
      exact rs _ hx floor i) i
    have nn : (0 : ℝ) < n := by linarith
    rw [Pi.sub_apply, div_mul_eq_mul_div, div_le_iff₀ nn] at key
    rw [div_mul_eq_mul_div, le_div_iff₀ c0]
    linarith

/-- the reported cost in doubles -/
theorem cost_D (h : Rounds53 r) {y : Fin m → ℝ} {H : Matrix (Fin m) (Fin n) ℝ} {x : Fin n → ℝ} {η ζ X : ℝ} (hH : ∀ i j, |H i j| ≤ η) (hy : ∀ i, |y i| ≤ ζ)
    (hx : ∀ i, |x i| ≤ X) (hn : n ≤ 100) (hm : m ≤ 10 ^ 6) (η0 : 1e-20 ≤ η) (X0 : 1e-100 ≤ X) (ζ0 : 1e-40 ≤ ζ) (big : ζ + n * (η * X) ≤ 1e90) :
    ∃ J, (Flt.lit (1 / 2) * vdot (vsub (dV y) (mvec (dM H) (dV x))) (vsub (dV y) (mvec (dM H) (dV x))) : Dbl r) = .fin J
      ∧ |J - (∑ i, (y i - (H *ᵥ x) i) ^ 2) / 2| ≤ opTol (2 * n + m + 7) * (m * (ζ + n * (η * X)) ^ 2 / 2) := by
  have ζ00 : 0 ≤ ζ := le_trans (by norm_num) ζ0
  have η00 : 0 ≤ η := le_trans (by norm_num) η0
  have X00 : 0 ≤ X := le_trans (by norm_num) X0
  have nX : 0 ≤ n * (η * X) := by positivity
  have f0 : (1e-250 : ℝ) ≤ η * X := le_trans (by norm_num) (mul_le_mul η0 X0 (by norm_num) η00)
  have hHx := (dM_const (r := r) hH).mvec h (v := dV x) (z := x) (N := fun _ => X) (k' := 0) (fun i => Rl.exact (hx i)) (fun _ _ => f0)
    (fun i => by
      have : (constM m n η *ᵥ fun _ => X) i = n * (η * X) := by simp [constM, mulVec, dotProduct]
      rw [this]
      exact le_trans (le_add_of_nonneg_left ζ00) (big.trans (by norm_num))) (by omega)
  have eM : (constM m n η *ᵥ fun _ => X) = fun _ => n * (η * X) := by funext i; simp [constM, mulVec, dotProduct]
  rw [eM] at hHx
  have vy : VRl (dV y : Fin m → Dbl r) y (0 + 0 + 1 + n) fun _ => ζ := fun i => (Rl.exact (hy i)).mono (Nat.zero_le _)
  have he := vy.vsub h hHx (fun i => by
      show (1e-250 : ℝ) ≤ ζ + n * (η * X)
      exact le_trans (le_trans (by norm_num) ζ0) (le_add_of_nonneg_right nX)) (fun i => big.trans (by norm_num)) (by omega)
  obtain ⟨E, hE⟩ : ∃ E, E = ζ + n * (η * X) := ⟨_, rfl⟩
  have he' : VRl (vsub (dV y) (mvec (dM H) (dV x)) : Fin m → Dbl r) (y - H *ᵥ x) (0 + 0 + 1 + n + 1) fun _ => E := by
    rw [hE]; exact he
  rw [← hE] at big ⊢
  have E0 : (1e-40 : ℝ) ≤ E := by rw [hE]; linarith
  have E00 : 0 ≤ E := le_trans (by norm_num) E0
  have EE : E * E ≤ 1e180 := (mul_le_mul big big E00 (by norm_num)).trans (by norm_num)
  have hm' : (m : ℝ) ≤ 10 ^ 6 := by exact_mod_cast hm
  have mE : ∑ _l : Fin m, E * E = m * (E * E) := by simp
  have mEE : m * (E * E) ≤ 1e190 := (mul_le_mul hm' EE (by positivity) (by positivity)).trans (by norm_num)
  have EE0 : (1e-250 : ℝ) ≤ E * E := le_trans (by norm_num) (mul_le_mul E0 E0 (by norm_num) E00)
  have hd := dot_rl h he' he' (fun _ => EE0) (by rw [mE]; exact mEE.trans (by norm_num)) (by omega)
  rw [mE] at hd
  have half : Rl (Flt.lit (1 / 2) : Dbl r) (1 / 2) (0 + 1) (1 / 2) := by
    have : (Flt.lit (1 / 2) : Dbl r) = Dbl.rd r (.fin (1 / 2)) := by
      show Dbl.rd r (.fin ((1 / 2 : ℚ) : ℝ)) = _
      norm_num
    rw [this]
    exact Rl.round h (by simp [gr]) (by norm_num [abs_of_pos]) (by norm_num) (by norm_num) (by norm_num)
  rcases Nat.eq_zero_or_pos m with m0 | m0
  · subst m0
    obtain ⟨z, ez, dz⟩ := hd.near
    have z0 : z = 0 := by simpa using dz
    have hz : Rl (.fin z : Dbl r) 0 0 0 := by rw [z0]; exact Rl.exact (by simp)
    obtain ⟨a, ea, -⟩ := half.near
    have e1 : (Flt.lit (1 / 2) * vdot (vsub (dV y) (mvec (dM H) (dV x))) (vsub (dV y) (mvec (dM H) (dV x))) : Dbl r) = .fin 0 := by
      have e2 : (vdot (vsub (dV y) (mvec (dM H) (dV x))) (vsub (dV y) (mvec (dM H) (dV x))) : Dbl r) = .fin z := ez
      rw [e2, ea, z0]
      show Dbl.rd r (.fin (a * 0)) = _
      rw [mul_zero, Dbl.rd_fin] <;> rw [h.zero]
      rw [abs_zero]; positivity
    exact ⟨0, e1, by simp⟩
  · have m1 : (1 : ℝ) ≤ m := by exact_mod_cast m0
    have hJ := half.mul h hd (by
      have := EE0.trans (le_mul_of_one_le_left (by positivity) m1)
      have h2 : (1e-80 : ℝ) ≤ E * E := le_trans (by norm_num) (mul_le_mul E0 E0 (by norm_num) E00)
      have h3 := h2.trans (le_mul_of_one_le_left (by positivity) m1)
      norm_num at h3 ⊢; linarith) (by norm_num at mEE ⊢; linarith) (by omega)
    obtain ⟨J, eJ, dJ⟩ := hJ.near
    refine ⟨J, eJ, ?_⟩
    have e3 : (1 / 2 : ℝ) * ∑ l, (y - H *ᵥ x) l * (y - H *ᵥ x) l = (∑ i, (y i - (H *ᵥ x) i) ^ 2) / 2 := by
      rw [div_mul_eq_mul_div, one_mul]
      congr 1
      exact Finset.sum_congr rfl fun i _ => by rw [Pi.sub_apply]; ring
    rw [e3] at dJ
    refine dJ.trans ?_
    have ek : 0 + 1 + (0 + 0 + 1 + n + 1 + (0 + 0 + 1 + n + 1) + 1 + m) + 1 = 2 * n + m + 7 := by omega
    rw [ek]
    have e4 : (1 / 2 : ℝ) * (m * (E * E)) = m * E ^ 2 / 2 := by ring
    rw [e4]
    exact mul_le_mul_of_nonneg_right (gr_opTol (by omega)) (by positivity)

/-- a well-posed fit: measurements at most `ζ`, sensitivities at most `η`, and every direction of the state seen with strength at least `c` -/
structure Regression (H : Matrix (Fin m) (Fin n) ℝ) (y : Fin m → ℝ) (η ζ c κ : ℝ) : Prop where
  meas_le : m ≤ 10 ^ 6
  H_le : ∀ i j, |H i j| ≤ η
  y_le : ∀ i, |y i| ≤ ζ
  le_η : 1e-20 ≤ η
  le_ζ : 1e-20 ≤ ζ
  ζ_le : ζ ≤ 1e60
  normal : Normal (Hᵀ * H) (m * (η * η)) c κ (m * (η * ζ)) (m + 1)

/-- distance of the computed estimate from the exact one -/
noncomputable def fitErr (n k : ℕ) (s c β : ℝ) : ℝ := n / c * normalTol n k s β (8 * n * β / c)

omit [Machine] in
theorem dotSelf_le {v : Fin m → ℝ} {a : ℝ} (h : ∀ i, |v i| ≤ a) : v ⬝ᵥ v ≤ m * a ^ 2 := by
  refine (Finset.sum_le_card_nsmul _ _ (a ^ 2) fun i _ => ?_).trans (le_of_eq (by simp))
  rw [← abs_mul_abs_self, _root_.sq]
  exact mul_le_mul (h i) (h i) (abs_nonneg _) ((abs_nonneg _).trans (h i))

omit [Machine] in
theorem fit_range {c η β X ζ : ℝ} (hn : (n : ℝ) ≤ 100) (c0 : 1e-18 ≤ c) (b0 : 0 ≤ β) (b1 : β ≤ 1e50) (η0 : 0 ≤ η) (hη : η ≤ 1e14)
    (hX : X = 8 * n * β / c) (hζ : ζ ≤ 1e60) : ζ + n * (η * X) ≤ 1e90 := by
  have c00 : 0 < c := lt_of_lt_of_le (by norm_num) c0
  have X1 : X ≤ 1e71 := by
    rw [hX, div_le_iff₀ c00]
    have h1 : 8 * n * β ≤ 8 * 100 * 1e50 := mul_le_mul (by linarith) b1 b0 (by norm_num)
    have h2 : (1e71 : ℝ) * 1e-18 ≤ 1e71 * c := mul_le_mul_of_nonneg_left c0 (by norm_num)
    exact h1.trans (le_trans (by norm_num) h2)
  have X0 : 0 ≤ X := by rw [hX]; positivity
  have h3 : η * X ≤ 1e14 * 1e71 := mul_le_mul hη X1 X0 (by norm_num)
  have h4 : n * (η * X) ≤ 100 * (1e14 * 1e71) := mul_le_mul hn h3 (by positivity) (by norm_num)
  exact (add_le_add hζ h4).trans (by norm_num)

omit [Machine] in
theorem eta_le {η : ℝ} (m1 : (1 : ℝ) ≤ m) (h : m * (η * η) ≤ 1e28) : η ≤ 1e14 := by
  by_contra hh
  push Not at hh
  have h1 : (1e14 : ℝ) * 1e14 < η * η := mul_lt_mul'' hh hh (by norm_num) (by norm_num)
  have h2 : η * η ≤ m * (η * η) := le_mul_of_one_le_left (by positivity) m1
  have : (1e14 : ℝ) * 1e14 < 1e28 := h1.trans_le (h2.trans h)
  norm_num at this

/-- C150: on doubles, with Eigen's solver, the unweighted fit succeeds on every well-posed batch. The estimate is finite and within `fitErr` of the unique
least-squares estimate, its cost exceeds the minimum by at most the square of that, and the reported `J` is half its cost up to rounding. -/
theorem C150_unweighted (h : Rounds53 r) {H : Matrix (Fin m) (Fin n) ℝ} {y : Fin m → ℝ} {η ζ c κ : ℝ} (w : Regression H y η ζ c κ) (x0 : Fin n → Dbl r) (J0 : Dbl r) :
    ∃ (x xs : Fin n → ℝ) (J : ℝ), unweightedLinear LinSolver.eigen ⟨m, dV y⟩ ⟨m, n, dM H⟩ ⟨n, x0⟩ J0 = .ok (true, ⟨n, dV x⟩, .fin J)
      ∧ UniqueMin (fun x => ∑ i, (y i - (H *ᵥ x) i) ^ 2) xs
      ∧ (∀ i, |x i - xs i| ≤ fitErr n (m + 1) (m * (η * η)) c (m * (η * ζ)))
      ∧ ∑ i, (y i - (H *ᵥ x) i) ^ 2 ≤ ∑ i, (y i - (H *ᵥ xs) i) ^ 2 + m * (n * (η * fitErr n (m + 1) (m * (η * η)) c (m * (η * ζ)))) ^ 2
      ∧ |J - (∑ i, (y i - (H *ᵥ x) i) ^ 2) / 2| ≤ opTol (2 * n + m + 7) * (m * (ζ + n * (η * (8 * n * (m * (η * ζ)) / c))) ^ 2 / 2) := by
  have wn := w.normal
  have c0 : 0 < c := lt_of_lt_of_le (by norm_num) wn.le_c
  have η0 : 0 ≤ η := le_trans (by norm_num) w.le_η
  have ζ0 : 0 ≤ ζ := le_trans (by norm_num) w.le_ζ
  have hm := w.meas_le
  have rank : FullColumnRank H := fun x x' e => by
    have h1 := wn.pos (x - x')
    rw [← mulVec_mulVec, mulVec_sub, e, sub_self, mulVec_zero, dotProduct_zero] at h1
    have h2 : (x - x') ⬝ᵥ (x - x') ≤ 0 := by by_contra hh; push Not at hh; nlinarith
    have h3 : (x - x') ⬝ᵥ (x - x') = 0 := le_antisymm h2 (Finset.sum_nonneg fun k _ => mul_self_nonneg _)
    exact sub_eq_zero.1 (dotProduct_self_eq_zero.1 h3)
  have nm := rank.le
  have m0 : 0 < m := lt_of_lt_of_le wn.size nm
  have m1 : (1 : ℝ) ≤ m := by exact_mod_cast m0
  have ηη : (1e-250 : ℝ) ≤ η * η := le_trans (by norm_num) (mul_le_mul w.le_η w.le_η (by norm_num) η0)
  have ηζ : (1e-40 : ℝ) ≤ η * ζ := le_trans (by norm_num) (mul_le_mul w.le_η w.le_ζ (by norm_num) η0)
  have β0 : 0 ≤ m * (η * ζ) := by positivity
  have β1 : m * (η * ζ) ≤ 1e50 := (le_mul_of_one_le_right β0 (one_le_pow₀ (by linarith [wn.le_κ]))).trans wn.grow
  have η1 := eta_le m1 wn.s_le
  -- the normal equations
  have hH := dM_const (r := r) w.H_le
  have eT : (constM m n η)ᵀ = constM n m η := rfl
  have hN := hH.tr.mmul h hH (fun _ _ _ => ηη) (fun i j => by rw [eT, constM_mul]; exact wn.s_le.trans (by norm_num)) (by omega)
  rw [eT, constM_mul] at hN
  have hb := hH.tr.mvec h (v := dV y) (z := y) (N := fun _ => ζ) (k' := 0) (fun i => Rl.exact (w.y_le i)) (fun _ _ => le_trans (by norm_num) ηζ)
    (fun i => by
      have : ((constM m n η)ᵀ *ᵥ fun _ => ζ) i = m * (η * ζ) := by simp [constM, mulVec, dotProduct]
      rw [this]
      exact β1.trans (by norm_num)) (by omega)
  have eM : ((constM m n η)ᵀ *ᵥ fun _ => ζ) = fun _ => m * (η * ζ) := by funext i; simp [constM, mulVec, dotProduct]
  rw [eM] at hb
  obtain ⟨x, ex, hx, -, acc⟩ := normal_solve h wn (hN.mono (by omega)) (hb.mono (by omega))
  obtain ⟨X, hX⟩ : ∃ X, X = 8 * n * (m * (η * ζ)) / c := ⟨_, rfl⟩
  have n1 : (1 : ℝ) ≤ n := by exact_mod_cast wn.size
  have n2 : (n : ℝ) ≤ 100 := by exact_mod_cast wn.size_le
  have floor : (1e-100 : ℝ) ≤ X := by
    rw [hX]
    have pl : PosL (Hᵀ * H) c := ⟨wn.sym, wn.pos⟩
    have cs : c ≤ 1e28 := (pl.diag ⟨0, wn.size⟩).trans ((le_abs_self _).trans ((hN _ _).mag.trans wn.s_le))
    rw [le_div_iff₀ c0]
    have h1 : (1e-100 : ℝ) * c ≤ 1e-100 * 1e28 := mul_le_mul_of_nonneg_left cs (by norm_num)
    have h2 : (8 : ℝ) * 1 * 1e-40 ≤ 8 * n * (m * (η * ζ)) := mul_le_mul (by linarith) wn.le_β (by norm_num) (by positivity)
    exact h1.trans (le_trans (by norm_num) h2)
  obtain ⟨J, eJ, dJ⟩ := cost_D h (n := n) (m := m) w.H_le w.y_le hx wn.size_le hm w.le_η (by rw [← hX]; exact floor) (le_trans (by norm_num) w.le_ζ)
    (fit_range n2 wn.le_c β0 β1 η0 η1 rfl w.ζ_le)
  -- the exact estimate
  have reg : IsUnit (Hᵀ * H).det := ((show PosL (Hᵀ * H) c from ⟨wn.sym, wn.pos⟩).low c0).regular (div_pos c0 (by linarith))
  obtain ⟨xs, hxs⟩ : ∃ xs, xs = (Hᵀ * H)⁻¹ *ᵥ (Hᵀ *ᵥ y) := ⟨_, rfl⟩
  have exs : (Hᵀ * H) *ᵥ xs = Hᵀ *ᵥ y := by rw [hxs, mulVec_mulVec, mul_nonsing_inv _ reg, one_mulVec]
  have exs' : (Hᵀ * (1 : Matrix (Fin m) (Fin m) ℝ) * H) *ᵥ xs = (Hᵀ * (1 : Matrix (Fin m) (Fin m) ℝ)) *ᵥ y := by rw [Matrix.mul_one]; exact exs
  have hq : ∀ x, ∑ i, (y i - (H *ᵥ x) i) ^ 2 = quad 1 (y - H *ᵥ x) := by
    intro x; simp [quad, dotProduct, sq]
  refine ⟨x, xs, J, ?_, ?_, acc xs exs, ?_, dJ⟩
  · rw [unweighted_fit _ _ _ _ _ nm]
    have e1 : (LinSolver.eigen : LinSolver (Dbl r)).ldltSolve (mmul (mtr (dM H)) (dM H)) (mvec (mtr (dM H)) (dV y)) = dV x := ex
    rw [e1, eJ]
  · simp only [hq]
    exact normal_unique_min rank PosDef.one y xs exs'
  · rw [hq, hq, quad_residual transpose_one y xs x exs']
    have e2 : quad 1 (H *ᵥ (x - xs)) = (H *ᵥ (x - xs)) ⬝ᵥ (H *ᵥ (x - xs)) := by rw [quad, one_mulVec]
    rw [e2]
    have := dotSelf_le (mulVec_entry_le w.H_le (v := x - xs) (acc xs exs))
    exact add_le_add le_rfl this

/-- a well-posed weighted fit -/
structure WRegression (H : Matrix (Fin m) (Fin n) ℝ) (W : Matrix (Fin m) (Fin m) ℝ) (y : Fin m → ℝ) (η ω ζ c κ : ℝ) : Prop where
  meas_le : m ≤ 10 ^ 6
  weight : W.PosDef
  H_le : ∀ i j, |H i j| ≤ η
  W_le : ∀ i j, |W i j| ≤ ω
  y_le : ∀ i, |y i| ≤ ζ
  le_η : 1e-20 ≤ η
  η_le : η ≤ 1e14
  le_ω : 1e-20 ≤ ω
  le_ζ : 1e-20 ≤ ζ
  ζ_le : ζ ≤ 1e60
  normal : Normal (Hᵀ * W * H) (m * (m * (η * ω) * η)) c κ (m * (m * (η * ω) * ζ)) (2 * m + 2)

/-- C150: the same for the weighted fit, measured against the unique minimiser of the weighted cost; the reported `J` is half the unweighted one (C68). -/
theorem C150_weighted (h : Rounds53 r) {H : Matrix (Fin m) (Fin n) ℝ} {W : Matrix (Fin m) (Fin m) ℝ} {y : Fin m → ℝ} {η ω ζ c κ : ℝ}
    (w : WRegression H W y η ω ζ c κ) (x0 : Fin n → Dbl r) (J0 : Dbl r) :
    ∃ (x xs : Fin n → ℝ) (J : ℝ), weightedLinear LinSolver.eigen ⟨m, dV y⟩ ⟨m, n, dM H⟩ ⟨m, m, dM W⟩ ⟨n, x0⟩ J0 = .ok (true, ⟨n, dV x⟩, .fin J)
      ∧ UniqueMin (fun x => quad W (y - H *ᵥ x)) xs
      ∧ (∀ i, |x i - xs i| ≤ fitErr n (2 * m + 2) (m * (m * (η * ω) * η)) c (m * (m * (η * ω) * ζ)))
      ∧ |J - (∑ i, (y i - (H *ᵥ x) i) ^ 2) / 2| ≤ opTol (2 * n + m + 7) * (m * (ζ + n * (η * (8 * n * (m * (m * (η * ω) * ζ)) / c))) ^ 2 / 2) := by
  have wn := w.normal
  have c0 : 0 < c := lt_of_lt_of_le (by norm_num) wn.le_c
  have η0 : 0 ≤ η := le_trans (by norm_num) w.le_η
  have ω0 : 0 ≤ ω := le_trans (by norm_num) w.le_ω
  have ζ0 : 0 ≤ ζ := le_trans (by norm_num) w.le_ζ
  have hm := w.meas_le
  have rank : FullColumnRank H := fun x x' e => by
    have h1 := wn.pos (x - x')
    rw [← mulVec_mulVec, mulVec_sub, e, sub_self, mulVec_zero, dotProduct_zero] at h1
    have h2 : (x - x') ⬝ᵥ (x - x') ≤ 0 := by by_contra hh; push Not at hh; nlinarith
    have h3 : (x - x') ⬝ᵥ (x - x') = 0 := le_antisymm h2 (Finset.sum_nonneg fun k _ => mul_self_nonneg _)
    exact sub_eq_zero.1 (dotProduct_self_eq_zero.1 h3)
  have nm := rank.le
  have m0 : 0 < m := lt_of_lt_of_le wn.size nm
  have m1 : (1 : ℝ) ≤ m := by exact_mod_cast m0
  have ηω : (1e-40 : ℝ) ≤ η * ω := le_trans (by norm_num) (mul_le_mul w.le_η w.le_ω (by norm_num) η0)
  have mηω : (1e-40 : ℝ) ≤ m * (η * ω) := ηω.trans (le_mul_of_one_le_left (by positivity) m1)
  have s0 : (1e-60 : ℝ) ≤ m * (η * ω) * η := le_trans (by norm_num) (mul_le_mul mηω w.le_η (by norm_num) (by positivity))
  have t0 : (1e-60 : ℝ) ≤ m * (η * ω) * ζ := le_trans (by norm_num) (mul_le_mul mηω w.le_ζ (by norm_num) (by positivity))
  have β0 : 0 ≤ m * (m * (η * ω) * ζ) := by positivity
  have β1 : m * (m * (η * ω) * ζ) ≤ 1e50 := (le_mul_of_one_le_right β0 (one_le_pow₀ (by linarith [wn.le_κ]))).trans wn.grow
  have ωle : m * (η * ω) ≤ 1e80 := by
    by_contra hh
    push Not at hh
    have h1 : (1e80 : ℝ) * 1e-20 ≤ m * (η * ω) * ζ := mul_le_mul hh.le w.le_ζ (by norm_num) (by positivity)
    have h2 := h1.trans (le_mul_of_one_le_left (by positivity) m1)
    have h3 := h2.trans β1
    norm_num at h3
  -- the normal equations
  have hH := dM_const (r := r) w.H_le
  have hW := dM_const (r := r) w.W_le
  have eT : (constM m n η)ᵀ = constM n m η := rfl
  have hHW := hH.tr.mmul h hW (fun _ _ _ => le_trans (by norm_num) ηω) (fun i j => by rw [eT, constM_mul]; exact ωle.trans (by norm_num)) (by omega)
  rw [eT, constM_mul] at hHW
  have hN := hHW.mmul h hH (fun _ _ _ => le_trans (by norm_num) s0) (fun i j => by rw [constM_mul]; exact wn.s_le.trans (by norm_num)) (by omega)
  rw [constM_mul] at hN
  have hb := hHW.mvec h (v := dV y) (z := y) (N := fun _ => ζ) (k' := 0) (fun i => Rl.exact (w.y_le i)) (fun _ _ => le_trans (by norm_num) t0)
    (fun i => by
      have : (constM n m (m * (η * ω)) *ᵥ fun _ => ζ) i = m * (m * (η * ω) * ζ) := by simp [constM, mulVec, dotProduct]
      rw [this]
      exact β1.trans (by norm_num)) (by omega)
  have eM : (constM n m (m * (η * ω)) *ᵥ fun _ => ζ) = fun _ => m * (m * (η * ω) * ζ) := by funext i; simp [constM, mulVec, dotProduct]
  rw [eM] at hb
  obtain ⟨x, ex, hx, -, acc⟩ := normal_solve h wn (hN.mono (by omega)) (hb.mono (by omega))
  have n1 : (1 : ℝ) ≤ n := by exact_mod_cast wn.size
  have n2 : (n : ℝ) ≤ 100 := by exact_mod_cast wn.size_le
  have floor : (1e-100 : ℝ) ≤ 8 * n * (m * (m * (η * ω) * ζ)) / c := by
    have pl : PosL (Hᵀ * W * H) c := ⟨wn.sym, wn.pos⟩
    have cs : c ≤ 1e28 := (pl.diag ⟨0, wn.size⟩).trans ((le_abs_self _).trans ((hN _ _).mag.trans wn.s_le))
    rw [le_div_iff₀ c0]
    have h1 : (1e-100 : ℝ) * c ≤ 1e-100 * 1e28 := mul_le_mul_of_nonneg_left cs (by norm_num)
    have h2 : (8 : ℝ) * 1 * 1e-40 ≤ 8 * n * (m * (m * (η * ω) * ζ)) := mul_le_mul (by linarith) wn.le_β (by norm_num) (by positivity)
    exact h1.trans (le_trans (by norm_num) h2)
  obtain ⟨J, eJ, dJ⟩ := cost_D h (n := n) (m := m) w.H_le w.y_le hx wn.size_le hm w.le_η floor (le_trans (by norm_num) w.le_ζ)
    (fit_range n2 wn.le_c β0 β1 η0 w.η_le rfl w.ζ_le)
  have reg : IsUnit (Hᵀ * W * H).det := ((show PosL (Hᵀ * W * H) c from ⟨wn.sym, wn.pos⟩).low c0).regular (div_pos c0 (by linarith))
  obtain ⟨xs, hxs⟩ : ∃ xs, xs = (Hᵀ * W * H)⁻¹ *ᵥ ((Hᵀ * W) *ᵥ y) := ⟨_, rfl⟩
  have exs : (Hᵀ * W * H) *ᵥ xs = (Hᵀ * W) *ᵥ y := by rw [hxs, mulVec_mulVec, mul_nonsing_inv _ reg, one_mulVec]
  refine ⟨x, xs, J, ?_, normal_unique_min rank w.weight y xs exs, acc xs exs, dJ⟩
  rw [weighted_fit _ _ _ _ _ _ nm]
  have e1 : (LinSolver.eigen : LinSolver (Dbl r)).ldltSolve (mmul (mmul (mtr (dM H)) (dM W)) (dM H)) (mvec (mmul (mtr (dM H)) (dM W)) (dV y)) = dV x := ex
  rw [e1, eJ]

/-- a line through three points -/
def lineH : Matrix (Fin 3) (Fin 2) ℝ := !![1, 0; 1, 1; 1, 2]

omit [Machine] in
theorem line_normal : lineHᵀ * lineH = !![3, 3; 3, 5] := by
  ext i j; fin_cases i <;> fin_cases j <;> simp [lineH, mul_apply, Fin.sum_univ_three] <;> norm_num

example : Regression lineH ![1, 3, 4] 2 4 (1 / 2) 10 where
  meas_le := by norm_num
  H_le i j := by fin_cases i <;> fin_cases j <;> norm_num [lineH]
  y_le i := by fin_cases i <;> norm_num
  le_η := by norm_num
  le_ζ := by norm_num
  ζ_le := by norm_num
  normal := {
    size := by norm_num
    size_le := by norm_num
    ops := by norm_num
    sym := by rw [line_normal]; ext i j; fin_cases i <;> fin_cases j <;> rfl
    pos := fun v => by
      rw [line_normal]
      simp [dotProduct, mulVec, Fin.sum_univ_two]
      nlinarith [sq_nonneg (5 * v 0 + 6 * v 1), sq_nonneg (v 1)]
    le_c := by norm_num
    s_le := by norm_num
    le_β := by norm_num
    le_κ := by norm_num
    κ_le := by norm_num
    ratio := by norm_num
    grow := by norm_num
    cond := by unfold ldTol opTol; norm_num }

example : WRegression lineH 1 ![1, 3, 4] 2 1 4 (1 / 2) 20 where
  meas_le := by norm_num
  weight := PosDef.one
  H_le i j := by fin_cases i <;> fin_cases j <;> norm_num [lineH]
  W_le i j := by rw [one_apply]; split_ifs <;> norm_num
  y_le i := by fin_cases i <;> norm_num
  le_η := by norm_num
  η_le := by norm_num
  le_ω := by norm_num
  le_ζ := by norm_num
  ζ_le := by norm_num
  normal := {
    size := by norm_num
    size_le := by norm_num
    ops := by norm_num
    sym := by rw [Matrix.mul_one, line_normal]; ext i j; fin_cases i <;> fin_cases j <;> rfl
    pos := fun v => by
      rw [Matrix.mul_one, line_normal]
      simp [dotProduct, mulVec, Fin.sum_univ_two]
      nlinarith [sq_nonneg (5 * v 0 + 6 * v 1), sq_nonneg (v 1)]
    le_c := by norm_num
    s_le := by norm_num
    le_β := by norm_num
    le_κ := by norm_num
    κ_le := by norm_num
    ratio := by norm_num
    grow := by norm_num
    cond := by unfold ldTol opTol; norm_num }

end NavFuse.Props
