import Verif.Lemmas.RoundDiag
import Verif.Props.PvaNed
import Verif.Props.Pva
import Verif.Props.KalmanDbl
import Verif.Lemmas.BowringErr

/-! # Property C146: the error-dynamics matrices in double precision -/

set_option linter.unusedSimpArgs false

namespace NavFuse.Props.Pva
open Matrix NavFuse.Pva NavFuse.Spec NavFuse.XR NavUtils
variable [Machine] {r : ℝ → ℝ}

omit [Machine] in
theorem rz_of_aj {X : Dbl r} {x : Rnd r} {y d M l : ℝ} {k : ℕ} (a : Aj X x y d M) (hl : l ≤ |y|) (hd : d ≤ k * ulp * l) (l0 : 1e-250 ≤ l) : Rz X y k |y| := by
  refine ⟨⟨⟨x.val, a.sim, a.err.trans (hd.trans ?_)⟩, le_rfl⟩, .inl (l0.trans hl)⟩
  have : 1 + k * ulp ≤ gr k := one_add_mul_le_pow (by linarith [ulp_pos]) k
  exact mul_le_mul (by linarith) hl (by linarith) (by linarith [one_le_gr k])

theorem lit_zero (h : Rounds53 r) : (Flt.lit 0 : Dbl r) = .fin 0 := by
  show Dbl.rd r (.fin ((0 : ℚ) : ℝ)) = _
  rw [Rat.cast_zero, Rz.rd_zero h]

/-- where and how the vehicle moves: below 71.6° of latitude, within 20 km of the ellipsoid, rates below 10⁻³ rad/s and 400 m/s, their derivatives below 10⁻³ rad/s², specific
force below 100 m/s² and a vertical gravity gradient below 10⁻³ 1/s² -/
structure Flight (s : V3 ℝ) (Γ : M3 ℝ) (p rate acc : V3 ℝ) : Prop where
  lat : |p 0| ≤ 1.25
  alt : |p 2| ≤ 20000
  rate0 : |rate 0| ≤ 1e-3
  rate1 : |rate 1| ≤ 1e-3
  rate2 : |rate 2| ≤ 400
  acc0 : |acc 0| ≤ 1e-3
  acc1 : |acc 1| ≤ 1e-3
  force : ∀ i, |s i| ≤ 100
  grad : |Γ 2 2| ≤ 1e-3

/-- bounds on the rounding errors in `G`: exact in the rows of the attitude and position errors, small relative to the scale of the row elsewhere -/
noncomputable def forcingTol (φ h : ℝ) (i : Fin 9) : ℝ :=
  if i = 3 then 6e-14 * (meridian φ + h)⁻¹ else if i = 4 then 6e-14 * ((primeVertical φ + h) * Real.cos φ)⁻¹ else if i = 5 then 6e-14 else 0

theorem scale_rz (h : Rounds53 r) (p : V3 ℝ) (h0 : |p 0| ≤ 1.25) (h2 : |p 2| ≤ 20000) :
    Rz (radM (.fin (p 0) : Dbl r) + .fin (p 2)) (meridian (p 0) + p 2) 17 |meridian (p 0) + p 2| ∧
    Rz ((radN (.fin (p 0) : Dbl r) + .fin (p 2)) * Flt.cos (.fin (p 0))) ((primeVertical (p 0) + p 2) * Real.cos (p 0)) 17 |(primeVertical (p 0) + p 2) * Real.cos (p 0)| ∧
    6315000 ≤ meridian (p 0) + p 2 ∧ meridian (p 0) + p 2 ≤ 6575000 ∧ 1977000 ≤ (primeVertical (p 0) + p 2) * Real.cos (p 0) ∧
    (primeVertical (p 0) + p 2) * Real.cos (p 0) ≤ 6463000 := by
  have y0 : Aj (.fin (p 0) : Dbl r) ⟨p 0⟩ (p 0) 0 1.25 := .exact (⟨p 0⟩ : Rnd r) h0
  have y2 : Aj (.fin (p 2) : Dbl r) ⟨p 2⟩ (p 2) 0 20000 := .exact (⟨p 2⟩ : Rnd r) h2
  obtain ⟨hN, hM⟩ := radii_ap h (y0.mono (D := 13e-16) (N := 1.251) (by norm_num) (by norm_num))
  have c := cos_low (h0.trans (by norm_num : (1.25 : ℝ) ≤ 1.251))
  have c1 := Real.cos_le_one (p 0)
  obtain ⟨g1, g2⟩ := abs_le.1 h2
  have sA : Aj (radM (.fin (p 0) : Dbl r) + .fin (p 2)) _ (radM (p 0) + p 2) 2306e-11 6575000 := .add h hM y2 (by norm_num) (by norm_num)
  have sN : Aj (radN (.fin (p 0) : Dbl r) + .fin (p 2)) _ (radN (p 0) + p 2) 999e-11 6463000 := .add h hN y2 (by norm_num) (by norm_num)
  have sc : Aj (Flt.cos (.fin (p 0) : Dbl r)) _ (Real.cos (p 0)) 25e-17 1 := .cos h y0 (by norm_num)
  rw [radM_R] at sA
  rw [radN_R] at sN
  have hp := NavFuse.Rotations.primeVertical_ge (p 0)
  rw [semiMajor] at hp
  have mpos : 0 < meridian (p 0) := meridian_pos _
  have lA : 6315000 ≤ meridian (p 0) + p 2 := by
    have := merid_low (p 0) (p 2) (h2.trans (by norm_num))
    rw [show (Gravity.a : ℝ) * (Flt.lit 1 - eSqG) / Flt.powq (Flt.lit 1 - eSqG * Flt.powi (Flt.sin (p 0)) 2) 1.5 = radM (p 0) from rfl, radM_R] at this
    rcases le_abs.1 this with h' | h'
    · exact h'
    · linarith
  have lN : 6358137 ≤ primeVertical (p 0) + p 2 := by linarith
  have uA := (abs_le.1 sA.mag).2
  have uN := (abs_le.1 sN.mag).2
  have rA : Rz (radM (.fin (p 0) : Dbl r) + .fin (p 2)) (meridian (p 0) + p 2) 17 |meridian (p 0) + p 2| :=
    rz_of_aj sA (lA.trans (le_abs_self _)) (by norm_num [ulp]) (by norm_num)
  have rN : Rz (radN (.fin (p 0) : Dbl r) + .fin (p 2)) (primeVertical (p 0) + p 2) 8 |primeVertical (p 0) + p 2| :=
    rz_of_aj sN (lN.trans (le_abs_self _)) (by norm_num [ulp]) (by norm_num)
  have rc : Rz (Flt.cos (.fin (p 0) : Dbl r)) (Real.cos (p 0)) 4 |Real.cos (p 0)| :=
    rz_of_aj sc (c.trans (le_abs_self _)) (by norm_num [ulp]) (by norm_num)
  have lB : 1977000 ≤ (primeVertical (p 0) + p 2) * Real.cos (p 0) := le_trans (by norm_num) (mul_le_mul lN c (by norm_num) (by linarith))
  have uB : (primeVertical (p 0) + p 2) * Real.cos (p 0) ≤ 6463000 := (mul_le_mul uN c1 (by linarith) (by norm_num)).trans (by norm_num)
  refine ⟨rA, ?_, lA, uA, lB, uB⟩
  have aB : |primeVertical (p 0) + p 2| * |Real.cos (p 0)| = (primeVertical (p 0) + p 2) * Real.cos (p 0) := by
    rw [abs_of_nonneg (by linarith), abs_of_nonneg (by linarith)]
  exact ((rN.mul h rc (fun _ _ => by rw [aB]; exact le_trans (by norm_num) lB) (by rw [aB]; exact uB.trans (by norm_num)) (by norm_num)).mono (by norm_num)).congr rfl
    (abs_mul _ _).symm

omit [Machine] in
theorem ellD_inv (φ z : ℝ) (hr : RegularPos φ z) :
    (ellD φ z)⁻¹ = diagonal ![(meridian φ + z)⁻¹, ((primeVertical φ + z) * Real.cos φ)⁻¹, -1] := by
  refine inv_eq_right_inv ?_
  rw [ellD, diagonal_mul_diagonal, ← diagonal_one]
  congr 1
  ext i
  fin_cases i
  · simp [hr.merid]
  · have := mul_ne_zero hr.prime hr.pole
    simpa using mul_inv_cancel₀ this
  · simp

/-- the rounding errors of the scaled rotation and of the scale matrix -/
theorem forcing_rz (h : Rounds53 r) (Q : M3 ℝ) (p : V3 ℝ) (h0 : |p 0| ≤ 1.25) (h2 : |p 2| ≤ 20000) (hQ : ∀ i j, |Q i j| ≤ 1) (hr : RegularPos (p 0) (p 2)) (i j : Fin 3) :
    Rz (mmul (inv3 (nedD (dV p : V3 (Dbl r)))) (dM Q) i j) (((ellD (p 0) (p 2))⁻¹ * Q) i j) 119
      |![(meridian (p 0) + p 2)⁻¹, ((primeVertical (p 0) + p 2) * Real.cos (p 0))⁻¹, -1] i| ∧
    Rz (inv3 (nedD (dV p : V3 (Dbl r))) i j) ((ellD (p 0) (p 2))⁻¹ i j) 119
      |diagonal ![(meridian (p 0) + p 2)⁻¹, ((primeVertical (p 0) + p 2) * Real.cos (p 0))⁻¹, -1] i j| := by
  obtain ⟨rA, rB, lA, uA, lB, uB⟩ := scale_rz h p h0 h2
  rw [ellD_inv _ _ hr]
  set D : V3 ℝ := ![(meridian (p 0) + p 2)⁻¹, ((primeVertical (p 0) + p 2) * Real.cos (p 0))⁻¹, -1] with hD
  have inv := inv_diag_rz h rA rB (by norm_num) (le_trans (by norm_num) (lA.trans (le_abs_self _)))
    (by rw [abs_of_nonneg (by linarith)]; linarith) (le_trans (by norm_num) (lB.trans (le_abs_self _))) (by rw [abs_of_nonneg (by linarith)]; linarith)
  rw [← hD] at inv
  refine ⟨?_, (inv i j).mono (by norm_num)⟩
  have pA : 0 < meridian (p 0) + p 2 := by linarith
  have pB : 0 < (primeVertical (p 0) + p 2) * Real.cos (p 0) := by linarith
  have d1 : ∀ i, 1e-7 ≤ |D i| := by
    intro i
    fin_cases i
    · show 1e-7 ≤ |(meridian (p 0) + p 2)⁻¹|
      rw [abs_of_pos (inv_pos.2 pA), ← inv_inv (1e-7 : ℝ)]
      exact inv_anti₀ pA (uA.trans (by norm_num))
    · show 1e-7 ≤ |((primeVertical (p 0) + p 2) * Real.cos (p 0))⁻¹|
      rw [abs_of_pos (inv_pos.2 pB), ← inv_inv (1e-7 : ℝ)]
      exact inv_anti₀ pB (uB.trans (by norm_num))
    · show 1e-7 ≤ |(-1 : ℝ)|
      norm_num
  have d2 : ∀ i, |D i| ≤ 1 := by
    intro i
    fin_cases i
    · show |(meridian (p 0) + p 2)⁻¹| ≤ 1
      rw [abs_of_pos (inv_pos.2 pA)]; exact inv_le_one_of_one_le₀ (by linarith)
    · show |((primeVertical (p 0) + p 2) * Real.cos (p 0))⁻¹| ≤ 1
      rw [abs_of_pos (inv_pos.2 pB)]; exact inv_le_one_of_one_le₀ (by linarith)
    · show |(-1 : ℝ)| ≤ 1
      norm_num
  have d3 : ∀ l, |diagonal D i l| ≤ 1 := by
    intro l
    by_cases e : i = l
    · subst e; rw [diagonal_apply_eq]; exact d2 _
    · rw [diagonal_apply_ne _ e]; simp
  have := Rz.fsum3 h (F := fun l => inv3 (nedD (dV p : V3 (Dbl r))) i l * dM Q l j) (y := fun l => diagonal D i l * Q l j) (M := fun l => |diagonal D i l| * 1) (k := 117)
    (fun l => ((inv i l).mul h (Rz.exact (hQ l j) (by norm_num) : Rz _ _ 0 _) ?_ ?_ (by norm_num)).mono (by norm_num)) ?_ (by norm_num)
  · refine this.congr ?_ ?_
    · rw [mul_apply, Fin.sum_univ_three]
    · fin_cases i <;> simp [diagonal]
  · intro e _
    by_cases e' : i = l
    · subst e'; rw [diagonal_apply_eq]; have := d1 i; linarith
    · rw [diagonal_apply_ne _ e'] at e; simp at e
  · have := d3 l; linarith
  · have h0 := d3 0; have h1 := d3 1; have h2 := d3 2; simp only [mul_one]; linarith

omit [Machine] in
theorem Flight.regular {s : V3 ℝ} {Γ : M3 ℝ} {p rate acc : V3 ℝ} (f : Flight s Γ p rate acc) : RegularNed (p 0) (p 2) := by
  have c := cos_low (f.lat.trans (by norm_num : (1.25 : ℝ) ≤ 1.251))
  obtain ⟨g1, g2⟩ := abs_le.1 f.alt
  have hp := NavFuse.Rotations.primeVertical_ge (p 0)
  rw [semiMajor] at hp
  have mpos : 0 < meridian (p 0) := meridian_pos _
  have lA : 6315000 ≤ |meridian (p 0) + p 2| := by
    have := merid_low (p 0) (p 2) (f.alt.trans (by norm_num))
    rwa [show (Gravity.a : ℝ) * (Flt.lit 1 - eSqG) / Flt.powq (Flt.lit 1 - eSqG * Flt.powi (Flt.sin (p 0)) 2) 1.5 = radM (p 0) from rfl, radM_R] at this
  have lG := rlow (p 0) (p 2) f.alt
  rw [radPhi_R] at lG
  exact { pole := by linarith, merid := abs_pos.1 (by linarith), prime := by linarith, gauss := abs_pos.1 (by linarith) }

/-- C146, north-east-down: for a vehicle moving within the envelope, the matrices that the function computes in double precision are finite, and each entry is that of exact
arithmetic up to the rounding error given in `nedTol` and `forcingTol`. -/
theorem C146_ned (h : Rounds53 r) (s : V3 ℝ) (Γ Q : M3 ℝ) (p rate acc : V3 ℝ) (hf : Flight s Γ p rate acc) (hQ : ∀ i j, |Q i j| ≤ 1)
    (F0 G0 : Matrix (Fin 9) (Fin 9) XR) (F1 G1 : Matrix (Fin 9) (Fin 9) (Dbl r)) :
    ∃ F G F' G' : Matrix (Fin 9) (Fin 9) ℝ,
      nedErrorDynamics (finV s) (finM Γ) (finM Q) (finV p) (finV rate) (finV acc) ⟨9, 9, F0⟩ ⟨9, 9, G0⟩ = .ok (true, ⟨9, 9, finM F⟩, ⟨9, 9, finM G⟩) ∧
      nedErrorDynamics (dV s) (dM Γ) (dM Q) (dV p) (dV rate) (dV acc) ⟨9, 9, F1⟩ ⟨9, 9, G1⟩ = .ok (true, ⟨9, 9, dM F'⟩, ⟨9, 9, dM G'⟩) ∧
      (∀ i j, |F' i j - F i j| ≤ nedTol i j) ∧ ∀ i j, |G' i j - G i j| ≤ forcingTol (p 0) (p 2) i := by
  have ex : ∀ {x M : ℝ}, |x| ≤ M → Aj (.fin x : Dbl r) ⟨x⟩ x 0 M := fun {x M} e => .exact (⟨x⟩ : Rnd r) e
  have wF := nedF_ap h (AN := dV s) (LLA := dV p) (LD := dV rate) (LDD := dV acc) (GN := dM Γ) (aN := fun i => ⟨s i⟩) (lla := fun i => ⟨p i⟩)
    (ld := fun i => ⟨rate i⟩) (ldd := fun i => ⟨acc i⟩) (gN := of fun i j => ⟨Γ i j⟩) (ex hf.lat) (ex hf.alt) (ex hf.rate0) (ex hf.rate1) (ex hf.rate2) (ex hf.acc0)
    (ex hf.acc1) (ex (hf.force 0)) (ex (hf.force 1)) (ex (hf.force 2)) (ex hf.grad)
  have wG : ∀ i j : Fin 9, Within (blk (forceG (dM Q : M3 (Dbl r)) (mmul (inv3 (nedD (dV p))) (dM Q)) (inv3 (nedD (dV p)))) i j)
      (blk (forceG Q ((ellD (p 0) (p 2))⁻¹ * Q) (ellD (p 0) (p 2))⁻¹) i j) (forcingTol (p 0) (p 2) i) := by
    have pos := scale_rz h p hf.lat hf.alt
    have pA : 0 < meridian (p 0) + p 2 := by linarith [pos.2.2.1]
    have pB : 0 < (primeVertical (p 0) + p 2) * Real.cos (p 0) := by linarith [pos.2.2.2.2.1]
    have key : ∀ a b i j : Fin 3, Within (forceG (dM Q : M3 (Dbl r)) (mmul (inv3 (nedD (dV p))) (dM Q)) (inv3 (nedD (dV p))) a b i j)
        (forceG Q ((ellD (p 0) (p 2))⁻¹ * Q) (ellD (p 0) (p 2))⁻¹ a b i j)
        (if a = 1 then 6e-14 * |![(meridian (p 0) + p 2)⁻¹, ((primeVertical (p 0) + p 2) * Real.cos (p 0))⁻¹, -1] i| else 0) := by
      intro a b i j
      have z0 : Within (Flt.lit 0 : Dbl r) (Flt.lit 0 : ℝ) 0 := ⟨0, lit_zero h, by simp [rsimp]⟩
      have z : ∀ t : ℝ, 0 ≤ t → Within (Flt.lit 0 : Dbl r) (Flt.lit 0 : ℝ) t := fun t ht => by
        obtain ⟨x, e, b⟩ := z0
        exact ⟨x, e, b.trans ht⟩
      have g : gr 119 - 1 ≤ 6e-14 := by have := gr_le (k := 119) (by norm_num); norm_num at this ⊢; linarith
      obtain ⟨f1, f2⟩ := forcing_rz h Q p hf.lat hf.alt hQ hf.regular.toRegularPos i j
      obtain ⟨x1, e1, b1⟩ := f1.rl.near
      obtain ⟨x2, e2, b2⟩ := f2.rl.near
      fin_cases a <;> fin_cases b
      · exact ⟨-Q i j, rfl, by simp [forceG, mneg]⟩
      · exact z0
      · exact z0
      · exact z _ (by positivity)
      · exact ⟨x1, e1, b1.trans (mul_le_mul_of_nonneg_right g (abs_nonneg _))⟩
      · refine ⟨x2, e2, b2.trans (mul_le_mul g ?_ (abs_nonneg _) (by norm_num))⟩
        by_cases e : i = j
        · subst e; rw [diagonal_apply_eq]
        · rw [diagonal_apply_ne _ e, abs_zero]; exact abs_nonneg _
      · exact z0
      · exact z0
      · exact z0
    intro i j
    have := key ⟨i.val / 3, by omega⟩ ⟨j.val / 3, by omega⟩ ⟨i.val % 3, by omega⟩ ⟨j.val % 3, by omega⟩
    have e : (if (⟨i.val / 3, by omega⟩ : Fin 3) = 1 then
        6e-14 * |![(meridian (p 0) + p 2)⁻¹, ((primeVertical (p 0) + p 2) * Real.cos (p 0))⁻¹, -1] ⟨i.val % 3, by omega⟩| else 0) = forcingTol (p 0) (p 2) i := by
      have e0 := abs_of_pos (inv_pos.2 pA)
      have e1 := abs_of_pos (inv_pos.2 pB)
      rw [forcingTol]
      generalize (meridian (p 0) + p 2)⁻¹ = y at *
      generalize ((primeVertical (p 0) + p 2) * Real.cos (p 0))⁻¹ = z at *
      fin_cases i <;> simp [e0, e1]
    rw [e] at this
    exact this
  choose F' hF eF using wF
  choose G' hG eG using wG
  refine ⟨_, _, of F', of G', ned_X s Γ Q p rate acc hf.regular F0 G0, ?_, eF, eG⟩
  rw [ned_eval]
  have e1 : nedF (dV s : V3 (Dbl r)) (dM Γ) (dV p) (dV rate) (dV acc) = dM (of F') := by
    ext i j; exact hF i j
  have e2 : blk (forceG (dM Q : M3 (Dbl r)) (mmul (inv3 (nedD (dV p))) (dM Q)) (inv3 (nedD (dV p)))) = dM (of G') := by
    ext i j; exact hG i j
  rw [e1, e2]

theorem lit_one (h : Rounds53 r) : (Flt.lit 1 : Dbl r) = .fin 1 := by
  show Dbl.rd r (.fin ((1 : ℚ) : ℝ)) = _
  rw [Rat.cast_one, Dbl.rd_fin (by rw [h.one, abs_one]; exact lt_of_le_of_lt (by norm_num) Dbl.big), h.one]

theorem mzero_D (h : Rounds53 r) : (mzero : M3 (Dbl r)) = dM mzero := by
  ext i j; exact (lit_zero h).trans (congrArg Dbl.fin (by simp [rsimp]))

theorem mid_D (h : Rounds53 r) : (mid : M3 (Dbl r)) = dM mid := by
  ext i j
  show (if i = j then Flt.lit 1 else Flt.lit 0 : Dbl r) = .fin (if i = j then Flt.lit 1 else Flt.lit 0)
  by_cases e : i = j
  · rw [if_pos e, if_pos e, lit_one h]; simp [rsimp]
  · rw [if_neg e, if_neg e, lit_zero h]; simp [rsimp]

theorem skew_D (h : Rounds53 r) (v : V3 ℝ) : (skewSymmetric (dV v : V3 (Dbl r))).2 = dM (skewSymmetric v).2 := by
  ext i j
  fin_cases i <;> fin_cases j <;> first | rfl | exact (lit_zero h).trans (congrArg Dbl.fin (by simp [skewSymmetric, rsimp]))

omit [Machine] in
theorem blk_D (B : Fin 3 → Fin 3 → M3 ℝ) : (blk fun i j => dM (B i j) : Matrix (Fin 9) (Fin 9) (Dbl r)) = dM (blk B) := rfl

theorem forceG_D (h : Rounds53 r) (Q : M3 ℝ) (i j : Fin 3) : forceG (dM Q : M3 (Dbl r)) (dM Q) mid i j = dM (forceG Q Q mid i j) := by
  fin_cases i <;> fin_cases j <;> first | rfl | exact mzero_D h | exact mid_D h

/-- C146, inertial frame: no operation rounds, so the matrices in double precision are those of exact arithmetic, for all finite inputs. -/
theorem C146_inertial (h : Rounds53 r) (s : V3 ℝ) (Γ Q : M3 ℝ) (F0 G0 : Matrix (Fin 9) (Fin 9) XR) (F1 G1 : Matrix (Fin 9) (Fin 9) (Dbl r)) :
    ∃ F G : Matrix (Fin 9) (Fin 9) ℝ,
      inertialErrorDynamics (finV s) (finM Γ) (finM Q) ⟨9, 9, F0⟩ ⟨9, 9, G0⟩ = .ok (true, ⟨9, 9, finM F⟩, ⟨9, 9, finM G⟩) ∧
      inertialErrorDynamics (dV s) (dM Γ) (dM Q) ⟨9, 9, F1⟩ ⟨9, 9, G1⟩ = .ok (true, ⟨9, 9, dM F⟩, ⟨9, 9, dM G⟩) := by
  refine ⟨blk (inertialF (skewSymmetric s).2 Γ), blk (forceG Q Q mid), ?_, ?_⟩
  · rw [inertial_eval, skew_X, ← blk_X, ← blk_X]
    refine ok_congr (fun i j => ?_) (fun i j => ?_) <;> fin_cases i <;> fin_cases j <;> simp [inertialF, forceG, xsimp, rsimp]
  · rw [inertial_eval, skew_D h, ← blk_D, ← blk_D]
    refine ok_congr (fun i j => ?_) (fun i j => forceG_D h Q i j)
    fin_cases i <;> fin_cases j <;> first | rfl | exact mzero_D h | exact mid_D h

/-- doubling a double is exact -/
theorem double_exact (h : Rounds53 r) {x : ℝ} (hx : IsDouble x) (hb : |x| ≤ 1e90) : (-Flt.lit 2 : Dbl r) * .fin x = .fin (-2 * x) := by
  obtain ⟨m, e, hm, he, rfl⟩ := hx
  have e2 : (Flt.lit 2 : Dbl r) = .fin 2 := by
    have := h.keeps 2 0 (by norm_num) (by norm_num)
    norm_num at this
    show Dbl.rd r (.fin ((2 : ℚ) : ℝ)) = _
    rw [show ((2 : ℚ) : ℝ) = 2 by norm_num, Dbl.rd_fin (by rw [this, abs_two]; exact lt_of_le_of_lt (by norm_num) Dbl.big), this]
  have k : r (-2 * ((m : ℝ) * (2 : ℝ) ^ e)) = -2 * ((m : ℝ) * (2 : ℝ) ^ e) := by
    have := h.keeps (-m) (e + 1) (by rwa [abs_neg]) (by omega)
    rw [show ((-m : ℤ) : ℝ) * (2 : ℝ) ^ (e + 1) = -2 * ((m : ℝ) * (2 : ℝ) ^ e) by rw [zpow_add_one₀ (by norm_num)]; push_cast; ring] at this
    exact this
  rw [e2]
  show Dbl.rd r (-XR.fin 2 * XR.fin _) = _
  rw [XR.fin_neg, XR.fin_mul, Dbl.rd_fin (by
    rw [k, abs_mul]; refine lt_of_le_of_lt ?_ Dbl.big; norm_num at hb ⊢; linarith), k]

/-- the rounding errors of `-(W² - Γ)` -/
theorem coriolis_near (h : Rounds53 r) (Γ W : M3 ℝ) {w g : ℝ} (hw : ∀ i j, |W i j| ≤ w) (hg : ∀ i j, |Γ i j| ≤ g)
    (w0 : 1e-100 ≤ w) (w1 : w ≤ 1e90) (g0 : 1e-200 ≤ g) (g1 : g ≤ 1e190) (i j : Fin 3) :
    ∃ x : ℝ, (mneg (msub (mmul (dM W) (dM W)) (dM Γ)) : M3 (Dbl r)) i j = .fin x ∧ |x - (-(W * W - Γ)) i j| ≤ 2e-15 * (3 * w ^ 2 + g) := by
  have ww : w * w ≤ 1e180 := (mul_le_mul w1 w1 (by linarith) (by norm_num)).trans (by norm_num)
  have ww' : 1e-200 ≤ w * w := le_trans (by norm_num) (mul_le_mul w0 w0 (by norm_num) (by linarith))
  have a := Rz.fsum3 h (F := fun l => (dM W : M3 (Dbl r)) i l * dM W l j) (y := fun l => W i l * W l j) (M := fun _ => w * w) (k := 1)
    (fun l => ((Rz.exact (hw i l) (le_trans (by norm_num) w0) : Rz _ _ 0 _).mul h (Rz.exact (hw l j) (le_trans (by norm_num) w0) : Rz _ _ 0 _)
      (fun _ _ => le_trans (by norm_num) ww') (ww.trans (by norm_num)) (by norm_num))) (by norm_num at ww ⊢; linarith) (by norm_num)
  have b := (a.sub h ((Rz.exact (hg i j) (le_trans (by norm_num) g0) : Rz (dM Γ i j : Dbl r) _ 3 _)) (by norm_num at ww g1 ⊢; linarith) (by norm_num)).neg
  obtain ⟨x, e, hx⟩ := b.rl.near
  refine ⟨x, ?_, ?_⟩
  · simp only [mneg, msub, mmul, of_apply]
    exact e
  have gg : gr 4 - 1 ≤ 2e-15 := by have := gr_le (k := 4) (by norm_num); norm_num at this ⊢; linarith
  have e1 : (-(W * W - Γ)) i j = -(W i 0 * W 0 j + W i 1 * W 1 j + W i 2 * W 2 j - Γ i j) := by
    rw [Matrix.neg_apply, Matrix.sub_apply, mul_apply, Fin.sum_univ_three]
  rw [e1]
  refine hx.trans ?_
  rw [show w * w + w * w + w * w + g = 3 * w ^ 2 + g by ring]
  exact mul_le_mul_of_nonneg_right gg (by positivity)

omit [Machine] in
theorem other (A B X O I : M3 ℝ) (Z : M3 ℝ) (Z' : M3 ℝ) {a b : Fin 3} (hab : ¬(a = 1 ∧ b = 2)) :
    (![![A, O, O], ![X, B, Z'], ![O, I, O]] : Fin 3 → Fin 3 → M3 ℝ) a b = (![![A, O, O], ![X, B, Z], ![O, I, O]] : Fin 3 → Fin 3 → M3 ℝ) a b := by
  fin_cases a <;> fin_cases b <;> first | exact absurd ⟨rfl, rfl⟩ hab | rfl

/-- C146, earth frame: only the products with the earth rotation `W` round.  With doubles no larger than `w` in `W` and numbers no larger than `g` in the gravity gradient, the
matrices in double precision are finite, `G` is exact, and the entries of `F` are exact except those of the effect of position on velocity, which are within
`2·10⁻¹⁵ (3 w² + g)`. -/
theorem C146_ecef (h : Rounds53 r) (s : V3 ℝ) (Γ Q W : M3 ℝ) {w g : ℝ} (hw : ∀ i j, |W i j| ≤ w) (hg : ∀ i j, |Γ i j| ≤ g) (hW : ∀ i j, IsDouble (W i j))
    (w0 : 1e-100 ≤ w) (w1 : w ≤ 1e90) (g0 : 1e-200 ≤ g) (g1 : g ≤ 1e190) (F0 G0 : Matrix (Fin 9) (Fin 9) XR) (F1 G1 : Matrix (Fin 9) (Fin 9) (Dbl r)) :
    ∃ F G F' : Matrix (Fin 9) (Fin 9) ℝ,
      ecefErrorDynamics (finV s) (finM Γ) (finM Q) (finM W) ⟨9, 9, F0⟩ ⟨9, 9, G0⟩ = .ok (true, ⟨9, 9, finM F⟩, ⟨9, 9, finM G⟩) ∧
      ecefErrorDynamics (dV s) (dM Γ) (dM Q) (dM W) ⟨9, 9, F1⟩ ⟨9, 9, G1⟩ = .ok (true, ⟨9, 9, dM F'⟩, ⟨9, 9, dM G⟩) ∧
      ∀ i j : Fin 9, |F' i j - F i j| ≤ if 3 ≤ i ∧ i < 6 ∧ 6 ≤ j then 2e-15 * (3 * w ^ 2 + g) else 0 := by
  have near := coriolis_near h Γ W hw hg w0 w1 g0 g1
  choose N hN eN using near
  refine ⟨blk (ecefF (skewSymmetric s).2 Γ W), blk (forceG Q Q mid),
    blk ![![-W, mzero, mzero], ![(skewSymmetric s).2, (-2 : ℝ) • W, of N], ![mzero, mid, mzero]], ?_, ?_, ?_⟩
  · rw [ecef_eval, skew_X, ← blk_X, ← blk_X]
    refine ok_congr (fun i j => ?_) (fun i j => ?_) <;> fin_cases i <;> fin_cases j <;> simp [ecefF, forceG, xsimp, rsimp]
  · rw [ecef_eval, skew_D h, ← blk_D, ← blk_D]
    refine ok_congr (fun i j => ?_) (fun i j => forceG_D h Q i j)
    fin_cases i <;> fin_cases j
    · rfl
    · exact mzero_D h
    · exact mzero_D h
    · rfl
    · ext i j; exact double_exact h (hW i j) ((hw i j).trans w1)
    · ext i j; exact hN i j
    · exact mzero_D h
    · exact mid_D h
    · exact mzero_D h
  · have lit : ecefF (skewSymmetric s).2 Γ W = ![![-W, mzero, mzero], ![(skewSymmetric s).2, (-2 : ℝ) • W, -(W * W - Γ)], ![mzero, mid, mzero]] := by
      simp only [ecefF, rsimp, Rat.cast_ofNat]
    have key : ∀ a b i j : Fin 3, |(![![-W, mzero, mzero], ![(skewSymmetric s).2, (-2 : ℝ) • W, of N], ![mzero, mid, mzero]] : Fin 3 → Fin 3 → M3 ℝ) a b i j -
        ecefF (skewSymmetric s).2 Γ W a b i j| ≤ if a = 1 ∧ b = 2 then 2e-15 * (3 * w ^ 2 + g) else 0 := by
      intro a b i j
      by_cases hab : a = 1 ∧ b = 2
      · obtain ⟨rfl, rfl⟩ := hab
        have l1 : (![![-W, mzero, mzero], ![(skewSymmetric s).2, (-2 : ℝ) • W, of N], ![mzero, mid, mzero]] : Fin 3 → Fin 3 → M3 ℝ) 1 2 = of N := rfl
        have l2 : (![![-W, mzero, mzero], ![(skewSymmetric s).2, (-2 : ℝ) • W, -(W * W - Γ)], ![mzero, mid, mzero]] : Fin 3 → Fin 3 → M3 ℝ) 1 2 =
          -(W * W - Γ) := rfl
        rw [lit, if_pos ⟨rfl, rfl⟩, l1, l2]
        exact eN i j
      · rw [if_neg hab, abs_nonpos_iff, sub_eq_zero, lit]
        rw [other _ _ _ _ _ (-(W * W - Γ)) _ hab]
    intro i j
    have := key ⟨i.val / 3, by omega⟩ ⟨j.val / 3, by omega⟩ ⟨i.val % 3, by omega⟩ ⟨j.val % 3, by omega⟩
    have e : ((⟨i.val / 3, by omega⟩ : Fin 3) = 1 ∧ (⟨j.val / 3, by omega⟩ : Fin 3) = 2) ↔ (3 ≤ i ∧ i < 6 ∧ 6 ≤ j) := by
      rw [Fin.ext_iff, Fin.ext_iff, Fin.le_def, Fin.lt_def, Fin.le_def]
      show i.val / 3 = 1 ∧ j.val / 3 = 2 ↔ 3 ≤ i.val ∧ i.val < 6 ∧ 6 ≤ j.val
      omega
    rw [if_congr e rfl rfl] at this
    simp only [blk, of_apply]
    exact this

/-! The hypotheses can be met: 45° north at 1000 m, moving; the earth rotation (rounded) and the gradient of gravity; rounding to nearest. -/
example : Flight ![0.1, 0.2, -9.8] !![0, 0, 0; 0, 0, 0; 0, 0, 3e-6] ![0.785, 0.2, 1000] ![1e-5, 2e-5, 3] ![1e-7, 0, 0] where
  lat := show |(0.785 : ℝ)| ≤ _ by norm_num [abs_of_pos]
  alt := show |(1000 : ℝ)| ≤ _ by norm_num [abs_of_pos]
  rate0 := show |(1e-5 : ℝ)| ≤ _ by norm_num [abs_of_pos]
  rate1 := show |(2e-5 : ℝ)| ≤ _ by norm_num [abs_of_pos]
  rate2 := show |(3 : ℝ)| ≤ _ by norm_num [abs_of_pos]
  acc0 := show |(1e-7 : ℝ)| ≤ _ by norm_num [abs_of_pos]
  acc1 := show |(0 : ℝ)| ≤ _ by norm_num
  force i := by fin_cases i <;> norm_num [abs_of_pos, abs_of_neg]
  grad := show |(3e-6 : ℝ)| ≤ _ by norm_num [abs_of_pos]
example : (∀ i j : Fin 3, |(1 : M3 ℝ) i j| ≤ 1) ∧ Rounds53 ieeeEven :=
  ⟨fun i j => by fin_cases i <;> fin_cases j <;> simp, ieeeEven_rounds⟩
example : ∀ i j : Fin 3, |(!![0, -1 / 16384, 0; 1 / 16384, 0, 0; 0, 0, 0] : M3 ℝ) i j| ≤ 1e-4 ∧ IsDouble ((!![0, -1 / 16384, 0; 1 / 16384, 0, 0; 0, 0, 0] : M3 ℝ) i j) := by
  have z : |(0 : ℝ)| ≤ 1e-4 ∧ IsDouble 0 := ⟨by norm_num, 0, 0, by norm_num, by norm_num, by norm_num⟩
  have p : |(1 / 16384 : ℝ)| ≤ 1e-4 ∧ IsDouble (1 / 16384) := ⟨by norm_num [abs_of_pos], 1, -14, by norm_num, by norm_num, by norm_num⟩
  have m : |(-1 / 16384 : ℝ)| ≤ 1e-4 ∧ IsDouble (-1 / 16384) := ⟨by norm_num [abs_of_neg], -1, -14, by norm_num, by norm_num, by norm_num⟩
  intro i j
  fin_cases i <;> fin_cases j
  exacts [z, m, z, p, z, z, z, z, z]

end NavFuse.Props.Pva
