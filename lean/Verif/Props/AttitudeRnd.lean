import Verif.Lemmas.RoundTiny
import Verif.Props.Euler
import Mathlib.Analysis.InnerProductSpace.PiL2

/-! # Property C110: drift of the attitude matrix under rounding -/

namespace NavFuse.Props
open Matrix Spec Strapdown NavUtils
variable [Machine] {r : ℝ → ℝ}

/-! ## Lengths -/

omit [Machine] in
theorem len3_norm (v : Fin 3 → ℝ) : len3 v = ‖WithLp.toLp 2 v‖ := by
  rw [EuclideanSpace.norm_eq, Fin.sum_univ_three]
  simp [len3, Real.norm_eq_abs, sq_abs]

omit [Machine] in
theorem len3_add (v w : Fin 3 → ℝ) : len3 (v + w) ≤ len3 v + len3 w := by
  rw [len3_norm, len3_norm, len3_norm, WithLp.toLp_add]; exact norm_add_le _ _

omit [Machine] in
theorem dot_le_len3 (v w : Fin 3 → ℝ) : |v ⬝ᵥ w| ≤ len3 v * len3 w := by
  have h := abs_real_inner_le_norm (WithLp.toLp 2 w) (WithLp.toLp 2 v)
  rw [EuclideanSpace.inner_toLp_toLp] at h
  rw [len3_norm, len3_norm, mul_comm ‖_‖]
  simpa using h

omit [Machine] in
theorem dot_self_len3 (v : Fin 3 → ℝ) : v ⬝ᵥ v = len3 v ^ 2 := by
  rw [len3_sq, dotProduct, Fin.sum_univ_three]; ring

omit [Machine] in
theorem len3_le_of_dot {v w : Fin 3 → ℝ} (h : v ⬝ᵥ v = w ⬝ᵥ w) : len3 v = len3 w := by
  rw [dot_self_len3, dot_self_len3] at h
  exact (pow_left_inj₀ (len3_nonneg' _) (len3_nonneg' _) (by norm_num)).1 h

omit [Machine] in
theorem _root_.NavFuse.Spec.IsRot.len3_vecMul {B : Matrix (Fin 3) (Fin 3) ℝ} (hB : IsRot B) (v : Fin 3 → ℝ) : len3 (v ᵥ* B) = len3 v := by
  refine len3_le_of_dot ?_
  rw [← dotProduct_mulVec, ← vecMul_transpose, vecMul_vecMul, hB.1, vecMul_one]

omit [Machine] in
theorem _root_.NavFuse.Spec.IsRot.row_len3 {B : Matrix (Fin 3) (Fin 3) ℝ} (hB : IsRot B) (i : Fin 3) : len3 (B i) = 1 := by
  have h := congrFun (congrFun hB.1 i) i
  rw [mul_apply'] at h
  have e : len3 (B i) ^ 2 = 1 := by rw [← dot_self_len3]; simpa using h
  exact (pow_eq_one_iff_of_nonneg (len3_nonneg' _) (by norm_num)).1 e

omit [Machine] in
theorem _root_.NavFuse.Spec.IsRot.entry_le {B : Matrix (Fin 3) (Fin 3) ℝ} (hB : IsRot B) (i j : Fin 3) : |B i j| ≤ 1 :=
  (le_len3 (B i) j).trans (hB.row_len3 i).le

omit [Machine] in
theorem len3_of_entries {v : Fin 3 → ℝ} {c : ℝ} (hc : 0 ≤ c) (h : ∀ i, |v i| ≤ c) : len3 v ≤ 1733 / 1000 * c := by
  have hs := len3_sq v
  have hn := len3_nonneg' v
  have e : ∀ i, v i ^ 2 ≤ c ^ 2 := fun i => sq_le_sq' (by linarith [abs_le.1 (h i)]) (abs_le.1 (h i)).2
  have e0 := e 0; have e1 := e 1; have e2 := e 2
  refine abs_le_of_sq_le_sq' ?_ (by positivity) |>.2
  nlinarith [sq_nonneg c]

/-! ## One step -/

/-- the product of two approximately known matrices, computed in rounded arithmetic -/
theorem mmul_rnd (h : Rounds53 r) (A B : M3 (Rnd r)) (E F : Matrix (Fin 3) (Fin 3) ℝ) (a b : ℝ) (hA : ∀ i j, |(A i j).val - E i j| ≤ a)
    (hB : ∀ i j, |(B i j).val - F i j| ≤ b) (hE : ∀ i j, |E i j| ≤ 1) (hF : ∀ i j, |F i j| ≤ 1) (i j : Fin 3) :
    |(mmul A B i j).val - (E * F) i j| ≤ 3 * (a + b + a * b) + 10 * ((1 + a) * (1 + b)) * ulp := by
  have hA1 : ∀ i j, |(A i j).val| ≤ 1 + a := fun i j => by
    have := abs_add_le ((A i j).val - E i j) (E i j); rw [sub_add_cancel] at this; linarith [hA i j, hE i j]
  have hB1 : ∀ i j, |(B i j).val| ≤ 1 + b := fun i j => by
    have := abs_add_le ((B i j).val - F i j) (F i j); rw [sub_add_cancel] at this; linarith [hB i j, hF i j]
  have ha0 : 0 ≤ a := (abs_nonneg _).trans (hA 0 0)
  have d := Rnd.dot3 h (fun l => A i l) (fun l => B l j) ((1 + a) * (1 + b)) (fun l => by
    rw [abs_mul]; exact mul_le_mul (hA1 i l) (hB1 l j) (abs_nonneg _) (by linarith))
    (by norm_num; nlinarith [mul_nonneg ha0 ((abs_nonneg _).trans (hB 0 0)), (abs_nonneg _).trans (hB 0 0)])
  have e : ∀ l, |(A i l).val * (B l j).val - E i l * F l j| ≤ a + b + a * b := by
    intro l
    have : (A i l).val * (B l j).val - E i l * F l j = ((A i l).val - E i l) * (B l j).val + E i l * ((B l j).val - F l j) := by ring
    rw [this]
    refine (abs_add_le _ _).trans ?_
    rw [abs_mul, abs_mul]
    have h1 := mul_le_mul (hA i l) (hB1 l j) (abs_nonneg _) ha0
    have h2 := mul_le_mul (hE i l) (hB l j) (abs_nonneg _) zero_le_one
    linarith
  have s : |∑ l, (A i l).val * (B l j).val - (E * F) i j| ≤ 3 * (a + b + a * b) := by
    rw [mul_apply, ← Finset.sum_sub_distrib]
    refine (Finset.abs_sum_le_sum_abs _ _).trans ?_
    rw [Fin.sum_univ_three]
    linarith [e 0, e 1, e 2]
  have e2 : (mmul A B i j).val = (fsum fun l => A i l * B l j).val := rfl
  rw [e2]
  have := abs_add_le ((fsum fun l => A i l * B l j).val - ∑ l, (A i l).val * (B l j).val) (∑ l, (A i l).val * (B l j).val - (E * F) i j)
  rw [sub_add_sub_cancel] at this
  linarith

/-- the rows of `A` are within `d` of those of `E` -/
def RowsNear (A : M3 (Rnd r)) (E : Matrix (Fin 3) (Fin 3) ℝ) (d : ℝ) : Prop := ∀ i, len3 (valM A i - E i) ≤ d

omit [Machine] in
theorem ne_zero_of_len3 {v : Fin 3 → ℝ} (h : 1e-160 ≤ len3 v) : v ≠ 0 := by
  rintro rfl
  have : len3 (0 : Fin 3 → ℝ) = 0 := by simp [len3]
  rw [this] at h; norm_num at h

/-- the product of a computed attitude and a computed increment -/
theorem mmul_inc_rnd (h : Rounds53 r) (A : M3 (Rnd r)) (φ : V3 (Rnd r)) (hm : tau ≤ (vsqNorm φ).val) (h4 : len3 (valV φ) ≤ 4) (i : Fin 3)
    (hl : len3 (valM A i) ≤ 11 / 10) (j : Fin 3) : |(mmul A (attInc φ) i j).val - (valM A i ᵥ* attInc (valV φ)) j| ≤ 444 * ulp := by
  have hu := ulp_pos
  have hu2 := ulp_le
  have hi := attInc_rnd' h φ hm h4
  have hB := attInc_isRot (valV φ) (ne_zero_of_vsqNorm h hm)
  set B := attInc (valV φ) with hBd
  clear_value B
  have hA1 : ∀ l, |(A i l).val| ≤ 11 / 10 := fun l => (le_len3 (valM A i) l).trans hl
  have hs : |(A i 0).val| + |(A i 1).val| + |(A i 2).val| ≤ 2 := by
    have e := len3_sq (valM A i)
    have e0 : valM A i 0 = (A i 0).val := rfl
    have e1 : valM A i 1 = (A i 1).val := rfl
    have e2 : valM A i 2 = (A i 2).val := rfl
    rw [e0, e1, e2, ← sq_abs (A i 0).val, ← sq_abs (A i 1).val, ← sq_abs (A i 2).val] at e
    have n := len3_nonneg' (valM A i)
    have q : len3 (valM A i) ^ 2 ≤ (11 / 10) ^ 2 := by gcongr
    generalize |(A i 0).val| = x at *
    generalize |(A i 1).val| = y at *
    generalize |(A i 2).val| = z at *
    refine abs_le_of_sq_le_sq' ?_ (by norm_num) |>.2
    nlinarith [sq_nonneg (x - y), sq_nonneg (y - z), sq_nonneg (z - x)]
  have hI1 : ∀ l, |(attInc φ l j).val| ≤ 12 / 11 := fun l => by
    have := abs_add_le ((attInc φ l j).val - B l j) (B l j)
    rw [sub_add_cancel] at this
    have := hi l j
    have := hB.entry_le l j
    linarith
  have dd := Rnd.dot3 h (fun l => A i l) (fun l => attInc φ l j) (12 / 10) (fun l => by
    rw [abs_mul]
    have := mul_le_mul (hA1 l) (hI1 l) (abs_nonneg _) (by norm_num)
    linarith)
  have s : |∑ l, (A i l).val * (attInc φ l j).val - (valM A i ᵥ* B) j| ≤ 432 * ulp := by
    have e : (valM A i ᵥ* B) j = ∑ l, (A i l).val * B l j := rfl
    rw [e, ← Finset.sum_sub_distrib]
    refine (Finset.abs_sum_le_sum_abs _ _).trans ?_
    have g : ∀ l, |(A i l).val * (attInc φ l j).val - (A i l).val * B l j| ≤ |(A i l).val| * (216 * ulp) := fun l => by
      rw [← mul_sub, abs_mul]; exact mul_le_mul_of_nonneg_left (hi l j) (abs_nonneg _)
    rw [Fin.sum_univ_three]
    have := mul_le_mul_of_nonneg_right hs (show 0 ≤ 216 * ulp by positivity)
    linarith [g 0, g 1, g 2]
  have e2 : (mmul A (attInc φ) i j).val = (fsum fun l => A i l * attInc φ l j).val := rfl
  rw [e2]
  have := abs_add_le ((fsum fun l => A i l * attInc φ l j).val - ∑ l, (A i l).val * (attInc φ l j).val)
    (∑ l, (A i l).val * (attInc φ l j).val - (valM A i ᵥ* B) j)
  rw [sub_add_sub_cancel] at this
  linarith

/-- one attitude update adds at most 770 units in the last place to the error of each row -/
theorem step_rnd (h : Rounds53 r) (A : M3 (Rnd r)) (E : Matrix (Fin 3) (Fin 3) ℝ) (hE : IsRot E) (d : ℝ) (hd : d ≤ 1 / 10) (hA : RowsNear A E d)
    (φ : V3 (Rnd r)) (hp1 : 1e-160 ≤ len3 (valV φ)) (h4 : len3 (valV φ) ≤ 4) :
    RowsNear (mmul A (attInc φ)) (E * attInc (valV φ)) (d + 770 * ulp) := by
  have hu := ulp_pos
  have hu2 := ulp_le
  have hp : valV φ ≠ 0 := ne_zero_of_len3 hp1
  have hf := fun i => mmul_inc_rnd h A φ (vsqNorm_len h φ hp1) h4 i
  have hB := attInc_isRot (valV φ) hp
  set B := attInc (valV φ) with hBd
  clear_value B
  intro i
  have hl : len3 (valM A i) ≤ 11 / 10 := by
    have := len3_add (valM A i - E i) (E i)
    rw [sub_add_cancel, hE.row_len3] at this
    linarith [hA i]
  have split : valM (mmul A (attInc φ)) i - (E * B) i = (valM (mmul A (attInc φ)) i - valM A i ᵥ* B) + (valM A i - E i) ᵥ* B := by
    rw [sub_vecMul]
    have : (E * B) i = E i ᵥ* B := rfl
    rw [this]; abel
  rw [split]
  refine (len3_add _ _).trans ?_
  rw [hB.len3_vecMul]
  have := len3_of_entries (v := valM (mmul A (attInc φ)) i - valM A i ᵥ* B) (show 0 ≤ 444 * ulp by positivity) (hf i hl)
  linarith [hA i]

/-- the attitude matrix written by `initialize` -/
theorem euler_rnd (h : Rounds53 r) (e : V3 (Rnd r)) :
    RowsNear (Attitude.euler2Dcm e).2 (bodyToNed (e 0).val (e 1).val (e 2).val)ᵀ (122 * ulp) := by
  have hu := ulp_pos
  have hu2 := ulp_le
  have hs : ∀ x : Rnd r, |(Flt.sin x).val - Real.sin x.val| ≤ ulp := fun x => by
    have := (Machine.faithful .sin x.val 0).rel_le (Real.abs_sin_le_one x.val) (by norm_num)
    rw [div_eq_mul_one_div, ← ulp, one_mul] at this; exact this
  have hc : ∀ x : Rnd r, |(Flt.cos x).val - Real.cos x.val| ≤ ulp := fun x => by
    have := (Machine.faithful .cos x.val 0).rel_le (Real.abs_cos_le_one x.val) (by norm_num)
    rw [div_eq_mul_one_div, ← ulp, one_mul] at this; exact this
  have hns : ∀ x : Rnd r, |(-Flt.sin x).val - -Real.sin x.val| ≤ ulp := fun x => by
    have e : (-Flt.sin x).val = -(Flt.sin x).val := rfl
    rw [e, neg_sub_neg, abs_sub_comm]; exact hs x
  have z : |(Flt.lit 0 : Rnd r).val - 0| ≤ ulp := by rw [Rnd.lit_zero h]; simpa using hu.le
  have o : |(Flt.lit 1 : Rnd r).val - 1| ≤ ulp := by rw [Rnd.lit_one h]; simpa using hu.le
  have h1 : ∀ i j, |((!![Flt.lit 1, Flt.lit 0, Flt.lit 0; Flt.lit 0, Flt.cos (e 0), Flt.sin (e 0); Flt.lit 0, -Flt.sin (e 0), Flt.cos (e 0)] : M3 (Rnd r)) i j).val
      - (rotX (e 0).val)ᵀ i j| ≤ ulp := by
    intro i j
    have := hs (e 0); have := hc (e 0); have := hns (e 0)
    fin_cases i <;> fin_cases j <;> simp only [rotX, transpose_apply] <;> first | exact z | exact o | assumption
  have h2 : ∀ i j, |((!![Flt.cos (e 1), Flt.lit 0, -Flt.sin (e 1); Flt.lit 0, Flt.lit 1, Flt.lit 0; Flt.sin (e 1), Flt.lit 0, Flt.cos (e 1)] : M3 (Rnd r)) i j).val
      - (rotY (e 1).val)ᵀ i j| ≤ ulp := by
    intro i j
    have := hs (e 1); have := hc (e 1); have := hns (e 1)
    fin_cases i <;> fin_cases j <;> simp only [rotY, transpose_apply] <;> first | exact z | exact o | assumption
  have h3 : ∀ i j, |((!![Flt.cos (e 2), Flt.sin (e 2), Flt.lit 0; -Flt.sin (e 2), Flt.cos (e 2), Flt.lit 0; Flt.lit 0, Flt.lit 0, Flt.lit 1] : M3 (Rnd r)) i j).val
      - (rotZ (e 2).val)ᵀ i j| ≤ ulp := by
    intro i j
    have := hs (e 2); have := hc (e 2); have := hns (e 2)
    fin_cases i <;> fin_cases j <;> simp only [rotZ, transpose_apply] <;> first | exact z | exact o | assumption
  have rx := (isRot_rotX (e 0).val).transpose
  have ry := (isRot_rotY (e 1).val).transpose
  have rz := (isRot_rotZ (e 2).val).transpose
  have p1 := mmul_rnd h _ _ _ _ _ _ h1 h2 rx.entry_le ry.entry_le
  have p1' : ∀ i j, _ ≤ 17 * ulp := fun i j => (p1 i j).trans (by nlinarith)
  have p2 := mmul_rnd h _ _ _ _ _ _ p1' h3 (rx.mul ry).entry_le rz.entry_le
  have huu : ulp * ulp ≤ ulp * (1 / 10 ^ 15) := mul_le_mul_of_nonneg_left hu2 hu.le
  have huuu : ulp * ulp * ulp ≤ ulp * (1 / 10 ^ 15) := by
    have : ulp * ulp * ulp ≤ ulp * ulp * 1 := mul_le_mul_of_nonneg_left (by linarith) (by positivity)
    linarith
  norm_num at huu huuu
  intro i
  have hb : (bodyToNed (e 0).val (e 1).val (e 2).val)ᵀ = (rotX (e 0).val)ᵀ * (rotY (e 1).val)ᵀ * (rotZ (e 2).val)ᵀ := by
    simp only [bodyToNed, transpose_mul, Matrix.mul_assoc]
  rw [hb]
  have := len3_of_entries (v := valM (Attitude.euler2Dcm e).2 i - ((rotX (e 0).val)ᵀ * (rotY (e 1).val)ᵀ * (rotZ (e 2).val)ᵀ) i) (c := 70 * ulp)
    (by positivity) (fun j => (p2 i j).trans (by nlinarith))
  linarith

/-! ## Whole runs -/

/-- the `integrate` calls of a list of (velocity increment, angle increment, time stamp) -/
def integCalls (cs : List (V3 (Rnd r) × V3 (Rnd r) × Int)) : List (Call (Rnd r)) := cs.map fun c => .integ c.1 c.2.1 c.2.2

theorem run_rnd (h : Rounds53 r) (cs : List (V3 (Rnd r) × V3 (Rnd r) × Int)) (s : St (Rnd r)) (lla vNed : V3 (Rnd r)) (A : M3 (Rnd r)) (t : Int)
    (hs : Ready s lla vNed A t) (hf : TimesFit t (integCalls cs)) (hφ : ∀ c ∈ cs, 1e-160 ≤ len3 (valV c.2.1) ∧ len3 (valV c.2.1) ≤ 4)
    (E : Matrix (Fin 3) (Fin 3) ℝ) (hE : IsRot E) (d : ℝ) (hd : d + 770 * cs.length * ulp ≤ 1 / 10) (hA : RowsNear A E d) :
    ∃ s' A' E', run s (integCalls cs) = .ok (List.replicate cs.length true, s') ∧ s'.RB2N = some A' ∧ IsRot E'
      ∧ (∀ v, E' *ᵥ v = E *ᵥ cs.foldr (fun c w => rotByVec (valV c.2.1) w) v) ∧ RowsNear A' E' (d + 770 * cs.length * ulp) := by
  induction cs generalizing s lla vNed A t E d with
  | nil => exact ⟨s, A, E, rfl, hs.2.2.1, hE, fun v => rfl, by simpa using hA⟩
  | cons c cs ih =>
    obtain ⟨dV, dTh, t'⟩ := c
    obtain ⟨h0, h4⟩ := hφ _ (List.mem_cons_self ..)
    have hu := ulp_pos
    have hlen : d + 770 * ((cs.length : ℝ) + 1) * ulp ≤ 1 / 10 := by simpa using hd
    have hn : (0 : ℝ) ≤ cs.length * ulp := by positivity
    have hst := step_rnd h A E hE d (by nlinarith) hA dTh h0 h4
    have hev := integrate_eval s lla vNed dV dTh A t t' hs hf.1
    generalize hS : (⟨_, _, _, _, _, _, _, _, _⟩ : St (Rnd r)) = S at hev
    obtain ⟨l1, v1, hR⟩ : ∃ l v, Ready S l v (mmul A (attInc dTh)) t' := ⟨_, _, by rw [← hS]; exact ⟨rfl, rfl, rfl, rfl⟩⟩
    obtain ⟨s', A', E', e1, e2, e3, e4, e5⟩ := ih S l1 v1 _ t' hR hf.2 (fun c hc => hφ c (List.mem_cons_of_mem _ hc))
      (E * attInc (valV dTh)) (hE.mul (attInc_isRot _ (ne_zero_of_len3 h0))) (d + 770 * ulp) (by linarith) hst
    refine ⟨s', A', E', ?_, e2, e3, fun v => ?_, fun i => (e5 i).trans (by simp only [List.length_cons]; push_cast; linarith)⟩
    · simp only [integCalls, List.map_cons, run, call]
      rw [hev]
      simp only [osimp]
      rw [show List.map _ cs = integCalls cs from rfl, e1]
      rfl
    · rw [e4, ← mulVec_mulVec, attInc_R _ _ (ne_zero_of_len3 h0)]; rfl

/-- C110. Rounding errors of the attitude matrix, in every rounding mode. After `initialize` and any number `n` up to 5·10¹¹ of `integrate`
calls with angle increments between 10⁻¹⁶⁰ and 4 rad, every call has succeeded and the stored matrix differs in each entry by at most
(122 + 770 n)·2⁻⁵² from a rotation matrix `E`, namely from the exact composition of the initial attitude with the rotations by the given
increments; and `A Aᵀ` differs from the identity by at most 2.1 times that. -/
theorem C110_attitude_drift (h : Rounds53 r) (s : St (Rnd r)) (lla vNed rph : V3 (Rnd r)) (t : Int) (cs : List (V3 (Rnd r) × V3 (Rnd r) × Int))
    (hf : TimesFit t (integCalls cs)) (hφ : ∀ c ∈ cs, 1e-160 ≤ len3 (valV c.2.1) ∧ len3 (valV c.2.1) ≤ 4) (hn : cs.length ≤ 5 * 10 ^ 11) :
    ∃ s' A E, run s (.init lla vNed rph t :: integCalls cs) = .ok (true :: List.replicate cs.length true, s') ∧ s'.RB2N = some A ∧ IsRot E
      ∧ (∀ v, E *ᵥ v = (bodyToNed (rph 0).val (rph 1).val (rph 2).val)ᵀ *ᵥ cs.foldr (fun c w => rotByVec (valV c.2.1) w) v)
      ∧ (∀ i j, |(A i j).val - E i j| ≤ (122 + 770 * cs.length) / 2 ^ 52)
      ∧ ∀ i j, |(valM A * (valM A)ᵀ - 1) i j| ≤ 21 / 10 * ((122 + 770 * cs.length) / 2 ^ 52) := by
  have hu := ulp_pos
  have hd : 122 * ulp + 770 * cs.length * ulp ≤ 1 / 10 := by
    have : (cs.length : ℝ) ≤ 5 * 10 ^ 11 := by exact_mod_cast hn
    unfold ulp
    nlinarith
  obtain ⟨s', A, E, e1, e2, e3, e4, e5⟩ := run_rnd h cs _ _ _ _ t (init_ready s lla vNed rph t) hf hφ _
    (bodyToNed_isRot (rph 0).val (rph 1).val (rph 2).val).transpose (122 * ulp) hd (euler_rnd h rph)
  have hD : (122 + 770 * (cs.length : ℝ)) / 2 ^ 52 = 122 * ulp + 770 * cs.length * ulp := by unfold ulp; ring
  refine ⟨s', A, E, ?_, e2, e3, e4, fun i j => ?_, fun i j => ?_⟩
  · simp only [run, call, osimp, e1]
    rfl
  · rw [hD]; exact (le_len3 (valM A i - E i) j).trans (e5 i)
  · rw [hD]
    have hE1 : E i ⬝ᵥ E j = (1 : Matrix (Fin 3) (Fin 3) ℝ) i j := by rw [← e3.1]; rfl
    have hs : (valM A * (valM A)ᵀ - 1) i j = (valM A i - E i) ⬝ᵥ E j + E i ⬝ᵥ (valM A j - E j) + (valM A i - E i) ⬝ᵥ (valM A j - E j) := by
      rw [Matrix.sub_apply, ← hE1]
      have : (valM A * (valM A)ᵀ) i j = valM A i ⬝ᵥ valM A j := rfl
      rw [this]
      simp only [sub_dotProduct, dotProduct_sub]; ring
    rw [hs]
    have a1 := dot_le_len3 (valM A i - E i) (E j)
    have a2 := dot_le_len3 (E i) (valM A j - E j)
    have a3 := dot_le_len3 (valM A i - E i) (valM A j - E j)
    rw [e3.row_len3] at a1 a2
    have b1 := e5 i
    have b2 := e5 j
    have b3 := mul_le_mul b1 b2 (len3_nonneg' _) ((len3_nonneg' _).trans b1)
    have b4 : (122 * ulp + 770 * cs.length * ulp) * (122 * ulp + 770 * cs.length * ulp) ≤ (122 * ulp + 770 * cs.length * ulp) * (1 / 10) :=
      mul_le_mul_of_nonneg_left hd ((len3_nonneg' _).trans b1)
    refine (abs_add_le _ _).trans ?_
    have := abs_add_le ((valM A i - E i) ⬝ᵥ E j) (E i ⬝ᵥ (valM A j - E j))
    linarith

/-- non-vacuity: rounding to nearest, increments of a thousandth of a radian every 10 ms -/
example : Rounds53 nearest ∧ (let c : V3 (Rnd nearest) × V3 (Rnd nearest) × Int := (fun _ => ⟨0⟩, fun _ => ⟨1 / 1024⟩, 10000)
    TimesFit 0 (integCalls [c]) ∧ (∀ c' ∈ [c], 1e-160 ≤ len3 (valV c'.2.1) ∧ len3 (valV c'.2.1) ≤ 4)) := by
  refine ⟨nearest_rounds, ⟨⟨by norm_num, by norm_num⟩, trivial⟩, ?_⟩
  simp only [List.mem_singleton, forall_eq]
  refine ⟨?_, ?_⟩
  · have := le_len3 (valV fun _ : Fin 3 => (⟨1 / 1024⟩ : Rnd nearest)) 0
    exact le_trans (by simp [valV]; norm_num) this
  · have := len3_of_entries (v := valV fun _ : Fin 3 => (⟨1 / 1024⟩ : Rnd nearest)) (c := 1) (by norm_num) (fun i => by simp [valV]; norm_num)
    linarith

end NavFuse.Props
